import Verif.Model.PlonkReuse

/-
How a prover of `/repo/plonk-core` is used again: any sequence of cleared witnesses and of proofs.
-/

namespace VO.Spec.Plonk

open VO.Plonk

variable {F : Type} [Field F] [DecidableEq F]

/-- One use of a prover: `clear_witness`, or a gadget on `mut_cs()` followed by `prove`; with the
randomness of the new composer both leave behind. -/
inductive Use (F : Type) [Field F] [DecidableEq F] where
  | clear_witness (r : (F × F × F × F) × (F × F × F × F))
  | prove (g : CM F Unit) (r : (F × F × F × F) × (F × F × F × F))

/-- The uses one after the other; the proofs in order, each with the public inputs of the composer it was
made from. -/
def session (K : PField F) (E : EdCurve F) {P : PCS F} (ro : Transcript F P.Comm → F) :
    Prover P → List (Use F) → Except PErr (List (PlonkProof P × List (ℕ × F)) × Prover P)
  | s, [] => .ok ([], s)
  | s, .clear_witness r :: l => do
    let s ← liftP (s.clearWitness r.1 r.2)
    session K E ro s l
  | s, .prove g r :: l =>
    match g s.cs with
    | .error _ => .error .panic
    | .ok (_, c) => do
      let (pr, s) ← Prover.prove K E ro { s with cs := c } r.1 r.2
      let (out, s) ← session K E ro s l
      return ((pr, c.public_inputs) :: out, s)

/-- A prover or verifier nobody has preprocessed: the transcript holds the label and the keys. -/
def freshProver (P : PCS F) (tr : Transcript F P.Comm) (s : Prover P) : Prop :=
  s.key = none ∧ s.tr = tr ∧ ∃ r1 r2, newComposer r1 r2 = .ok s.cs

end VO.Spec.Plonk
