import Mathlib.Data.Set.Card
import Mathlib.Data.Fintype.Prod
import Mathlib.Algebra.Polynomial.Degree.Defs

/-
Counting: how often a property holds when all challenges are drawn independently and uniformly.
-/

namespace VO.Spec

/-- For `t` drawn uniformly from `T`, the probability of `P t` is at most `k / |F|`. -/
def Odds (F : Type) [Fintype F] {T : Type} [Fintype T] (k : ℕ) (P : T → Prop) : Prop :=
  {t | P t}.ncard * Fintype.card F ≤ k * Fintype.card T

/-- A polynomial chosen after seeing a list of challenges. -/
abbrev PolyMove (F : Type) [Semiring F] := List F → Polynomial F

/-- All polynomials this move can produce have degree at most `D`. -/
def PolyMove.Bounded {F : Type} [Semiring F] (D : ℕ) (m : PolyMove F) : Prop :=
  ∀ l, (m l).natDegree ≤ D

end VO.Spec
