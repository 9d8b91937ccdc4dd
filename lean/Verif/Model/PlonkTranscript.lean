import Verif.Model.PlonkCircuit
import Verif.Model.Transcript

/-
Messages of the PLONK transcript (`/repo/plonk-core/src/transcript.rs:28-50`), which `Model/PlonkProof` leaves
out: there a challenge is a function of the list of operations, with the values that were appended.
-/

namespace VO.Plonk

/-- What a Merlin transcript is given: a labelled message, or a request for `size` bytes. Merlin puts labels and
lengths before the data, so that the list of calls is determined by its state up to collisions of the hash
function; this is not modelled. -/
inductive MOp where
  | msg (label : String) (data : List UInt8)
  | bytes (label : String) (size : ℕ)
  deriving DecidableEq

variable {F C : Type}

/-- `PublicInputs::serialize`, derived (proof_system/pi.rs:28-36): a `BTreeMap<usize, F>` is written as its length
and its pairs in order. -/
def piBytes (cf : Codec F) (x : List (ℕ × F)) : List UInt8 :=
  encU64 x.length ++ x.flatMap fun e => encU64 e.1 ++ cf.enc e.2

/-- The calls of Merlin for one operation: `append` (transcript.rs:29-33), `challenge_scalar` (34-44, with a buffer
of `size` bytes), `circuit_domain_sep` (46-49; `append_u64` writes the eight bytes of the number, lowest first),
`Transcript::new` (a message with label "dom-sep") and `key_transcript` (prover.rs:148-150, verifier.rs:78-80). -/
def TEntry.ops (cf : Codec F) (cg : Codec C) (size : ℕ) : TEntry F C → List MOp
  | .init l => [.msg "dom-sep" l.toUTF8.data.toList]
  | .user l m => [.msg l m.toUTF8.data.toList]
  | .pi l x => [.msg l (piBytes cf x)]
  | .comm l c => [.msg l (cg.enc c)]
  | .scalar l x => [.msg l (cf.enc x)]
  | .domSep n => [.msg "dom-sep" "circuit_size".toUTF8.data.toList, .msg "n" (encU64 n)]
  | .chal l => [.bytes l size]

/-- All calls for a transcript. -/
def Transcript.ops (cf : Codec F) (cg : Codec C) (size : ℕ) (tr : Transcript F C) : List MOp :=
  tr.flatMap (TEntry.ops cf cg size)

end VO.Plonk
