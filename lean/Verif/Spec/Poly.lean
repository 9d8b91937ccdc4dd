import Mathlib.Algebra.Polynomial.Basic
import Mathlib.Algebra.Polynomial.Eval.Defs
import Mathlib.Algebra.Polynomial.Laurent

/-
Independent specification: the polynomial of a coefficient vector.
-/

namespace VO.Spec

open Polynomial

/-- The polynomial `v₀ + v₁ X + v₂ X² + …` of a coefficient vector. -/
noncomputable def polyOf {F : Type} [Semiring F] (v : List F) : F[X] :=
  ∑ i ∈ Finset.range v.length, C (v.getD i 0) * X ^ i

/-- The geometric polynomial `1 + a X + … + a^{n-1} X^{n-1}`. -/
noncomputable def geomPoly {F : Type} [Semiring F] (a : F) (n : ℕ) : F[X] :=
  ∑ i ∈ Finset.range n, C (a ^ i) * X ^ i

/-- Inner product of two vectors weighted by the powers of `ω`, over their common length. -/
def weightedInner {F : Type} [Semiring F] (ω : F) (u v : List F) : F :=
  ∑ i ∈ Finset.range (min u.length v.length), ω ^ i * u.getD i 0 * v.getD i 0

/-- Entry `i` of the power vector `(1, α, …, α^{length-1})` shifted right by `shifted`. -/
def shiftedPower {F : Type} [Semiring F] (α : F) (length shifted i : ℕ) : F :=
  if shifted ≤ i ∧ i < length + shifted then α ^ (i - shifted) else 0

end VO.Spec
