import Verif.Spec.PlonkSnark
import Verif.Spec.PlonkReach
import Verif.Model.PlonkCircuit

/-
Words used to state the properties of public input maps and of the circuit interface.
-/

namespace VO.Spec.Plonk

open VO.Plonk

variable {F : Type} [Field F] [DecidableEq F]

/-- A map as the code stores it: positions in increasing order, no zero values. -/
def Canonical (pi : List (ℕ × F)) : Prop :=
  (pi.Pairwise fun a b => a.1 < b.1) ∧ ∀ e ∈ pi, e.2 ≠ 0

/-- The maps that can be made with the public functions `new` and `add_input`. -/
inductive PiReach : List (ℕ × F) → Prop
  | new : PiReach []
  | add {pi pi' : List (ℕ × F)} {pos k : ℕ} {item : PiItem F} :
      PiReach pi → piAddInput pi pos item = .ok (pi', k) → PiReach pi'

/-- Running the gadget of the circuit on a new composer, with this randomness, leaves this composer. -/
def Filled (C : Circ F) (r : (F × F × F × F) × (F × F × F × F)) (c : Composer F) : Prop :=
  ∃ c0, newComposer r.1 r.2 = .ok c0 ∧ C.gadget c0 = .ok (.ok (), c)

/-- The gadget of the circuit uses the composer only through its public methods. -/
def Builds (R : FieldRep F) (E : EdCurve F) (C : Circ F) : Prop :=
  ∀ c x c', Reach R E c → C.gadget c = .ok (x, c') → Reach R E c'

end VO.Spec.Plonk
