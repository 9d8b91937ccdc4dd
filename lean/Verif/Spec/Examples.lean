import Mathlib.Algebra.Field.Basic
import Mathlib.Algebra.Order.Field.Basic
import Mathlib.Data.Rat.Defs
import Mathlib.Algebra.Order.Ring.Rat

/-
Specification side of the example programs (C128).
-/

namespace VO.Spec

variable {F : Type} [Field F]

/-- The sequence of the Fibonacci example: `1, 1` and then `u(k+2) = u(k) + u(k+1) · k`. -/
def fibTerm : ℕ → F
  | 0 => 1
  | 1 => 1
  | k + 2 => fibTerm k + fibTerm (k + 1) * (k : F)

/-- What IEEE 754 guarantees for a rounding to 53 significant bits (away from overflow and underflow):
the relative error is at most `2⁻⁵³`. -/
def RoundsTo53Bits (fl : ℚ → ℚ) : Prop :=
  ∀ q : ℚ, 0 ≤ q → |fl q - q| ≤ q / 2 ^ 53

end VO.Spec
