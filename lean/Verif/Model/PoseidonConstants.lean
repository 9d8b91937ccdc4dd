import Verif.Model.PoseidonRef
import Verif.Model.PoseidonGrain
import Verif.Model.PoseidonRounds

/-
Model of `/repo/plonk-hashing/src/poseidon/constants.rs`.
-/

namespace VO.Poseidon

variable {F : Type} [Field F] [DecidableEq F]

/-- The domain tag, constants.rs:46: `1 << arity` is an `i32`, so both operations overflow for an arity
above 30; an overflow is a panic, as in a build with overflow checks. -/
def domainTagOf (arity : ℕ) : Res F :=
  if arity ≤ 30 then .ok ((2 ^ arity - 1 : ℕ) : F) else .error .panic

/-- `PoseidonConstants::generate`, constants.rs:26-78, with `calc_round_numbers(_, true)`,
`F::from_random_bytes`, `F::size_in_bits` and the number of steps of the unbounded loops as parameters. `none`
says that the steps are used up. -/
def constantsGenerate (rounds : ℕ → ℕ × ℕ) (fromRandomBytes : List ℕ → Option F) (sizeInBits fuel width : ℕ) :
    Res (Option (Constants F)) := do
  assertR (1 ≤ width)
  let arity := width - 1
  let mds ← mdsNew (F := F) width
  let full := (rounds width).1
  let part := (rounds width).2
  assertR (full % 2 = 0)
  let half := full / 2
  assertR (width < 2 ^ 16)
  assertR (full < 2 ^ 16)
  assertR (part < 2 ^ 16)
  let rc ← generateConstants fromRandomBytes sizeInBits fuel 1 1 (sizeInBits % 2 ^ 16) width full part
  match rc with
  | none => pure none
  | some rc => do
    let tag ← domainTagOf arity
    let compressed ← compressRoundConstants width full part rc mds
    let sp ← factorToSparse mds.m part
    assertR (width * (full + part) ≤ rc.length)
    pure (some ⟨mds, rc, compressed, sp.1, sp.2, tag, full, half, part⟩)

end VO.Poseidon
