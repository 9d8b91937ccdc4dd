import Verif.Model.PlonkTranscript

/-
Specification for C156: types of the operations on a PLONK transcript.
-/

namespace VO.Spec.Plonk
open VO VO.Plonk

variable {F C : Type}

/-- Type of an operation; scalars and challenges, which cannot be mistaken for each other, are taken together. -/
inductive PKind where
  | init | user | pi | comm | dom | sc

def pkind : TEntry F C → PKind
  | .init _ => .init
  | .user _ _ => .user
  | .pi _ _ => .pi
  | .comm _ _ => .comm
  | .scalar _ _ => .sc
  | .domSep _ => .dom
  | .chal _ => .sc

/-- Integers fit into a `u64`; no message of the user. -/
def EFits : TEntry F C → Prop
  | .init _ => False
  | .user _ _ => False
  | .pi _ x => x.length < 2 ^ 64 ∧ ∀ e ∈ x, e.1 < 2 ^ 64
  | .domSep n => n < 2 ^ 64
  | _ => True

end VO.Spec.Plonk
