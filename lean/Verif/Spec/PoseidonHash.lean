import Verif.Model.PoseidonRef
import Verif.Spec.Poseidon

/-
Words used to state the properties of the Poseidon hasher: calls of its public functions, and the state a
user expects.
-/

namespace VO.Spec.Poseidon

open VO.Poseidon

section calls

variable {m : Type → Type} [Monad m] {V F : Type}

/-- `input` for all elements, in order; `none` when one of them is refused. -/
def inputs : Hasher V F → List V → Option (Hasher V F)
  | h, [] => some h
  | h, x :: xs => (hasherInput h x).bind fun r => inputs r.2 xs

/-- A user's calls: `new`, `input` for every element, `output_hash`; `none` when an `input` is refused. -/
def hashCalls (S : Prim m V F) (width : ℕ) (k : Constants F) (xs : List V) : m (Option V) := do
  let h ← hasherNew S width k
  match inputs h xs with
  | none => pure none
  | some h => do
    let r ← outputHash S h
    pure (some r.1)

end calls

variable {F : Type} [Field F] [DecidableEq F]

/-- The state to be permuted: the domain tag, the inputs, zeros. -/
def start (n : ℕ) (tag : F) (xs : List F) : Fin (n + 1) → F := vec (n + 1) (tag :: xs)

/-- The constants fit the width `n + 1`: a square matrix, at least one round of each kind, and enough round
constants. -/
structure Fits (n : ℕ) (k : Constants F) : Prop where
  shape : IsMat (n + 1) (n + 1) k.mds.m
  full : 0 < k.halfFullRounds
  part : 0 < k.partialRounds
  enough : (2 * k.halfFullRounds + k.partialRounds) * (n + 1) ≤ k.roundConstants.length

/-- The permutation with these constants. -/
def perm (n : ℕ) (k : Constants F) : (Fin (n + 1) → F) → Fin (n + 1) → F :=
  permutation (mat (n + 1) (n + 1) k.mds.m) (fun r => slice (n + 1) k.roundConstants (r * (n + 1)))
    k.halfFullRounds k.partialRounds

/-- A user's calls of the circuit with the affine gates: `new`, `input` for every element, `output_hash`; `none` when an `input` is refused. -/
def hashCallsZZ (k : Constants F) (xs : List ℕ) : VO.Plonk.CM F (Option ℕ) := do
  let h ← hasherNew (plonkSpec (F := F)) 3 k
  match inputs h xs with
  | none => pure none
  | some h => do
    let r ← zzOutputHash h
    pure (some r.1)

/-- The constants that a hash of the circuit with more constants than rounds adds to its result. -/
def surplus (k : Constants F) : Fin 3 → F :=
  if k.roundConstants.length = (2 * k.halfFullRounds + k.partialRounds) * 3 then 0
  else slice 3 k.roundConstants ((2 * k.halfFullRounds + k.partialRounds) * 3)

end VO.Spec.Poseidon
