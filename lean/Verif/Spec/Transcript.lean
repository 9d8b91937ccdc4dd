import Verif.Model.Transcript
import Verif.Props.Serialize

/-
Specification for C153: what kinds of items the proof systems hash, in which order.
-/

namespace VO.Spec

/-- The type of a hashed item. -/
inductive Kind where
  | fld | cm | flds | nats | nat
  deriving DecidableEq

def kind {F G1 : Type} : Item F G1 → Kind
  | .fld _ => .fld
  | .cm _ => .cm
  | .flds _ => .flds
  | .nats _ => .nats
  | .nat _ => .nat

/-- Lengths and integers fit into a `u64`. -/
def FitsU64 {F G1 : Type} : Item F G1 → Prop
  | .fld _ => True
  | .cm _ => True
  | .flds l => l.length < 2 ^ 64
  | .nats l => l.length < 2 ^ 64 ∧ ∀ n ∈ l, n < 2 ^ 64
  | .nat n => n < 2 ^ 64

/-- The items have the types listed in `ks`, which may go on. -/
def Follows {F G1 : Type} (ks : List Kind) (l : List (Item F G1)) : Prop := l.map kind <+: ks

/-- A codec: what is written can be read back, whatever follows, and is not empty. -/
def Faithful {α : Type} (c : Codec α) : Prop := Lawful c ∧ ∀ a, c.enc a ≠ []

end VO.Spec
