import Mathlib.Algebra.Group.End
import Mathlib.Data.Nat.Basic
import Mathlib.Logic.Relation

/-
Independent specification of copy constraints given by wire pairs.
-/

namespace VO.Spec

/-- Positions connected by the wire pairs (reflexive, symmetric, transitive closure). -/
def Linked (pairs : List (ℕ × ℕ)) : ℕ → ℕ → Prop :=
  Relation.EqvGen (fun a b => (a, b) ∈ pairs)

/-- The assignment `x` of values to positions respects every copy constraint. -/
def CopyOk {α : Type} (pairs : List (ℕ × ℕ)) (x : ℕ → α) : Prop :=
  ∀ p ∈ pairs, x p.1 = x p.2

/-- The pairs form a forest: no pair connects two positions that earlier pairs already connect. -/
def Forest (pairs : List (ℕ × ℕ)) : Prop :=
  ∀ k (h : k < pairs.length), ¬ Linked (pairs.take k) pairs[k].1 pairs[k].2

/-- The assignment is constant along the permutation. -/
def Invariant {α : Type} (σ : Equiv.Perm ℕ) (x : ℕ → α) : Prop := ∀ i, x (σ i) = x i

end VO.Spec
