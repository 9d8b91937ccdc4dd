import Verif.Model.PlonkCs

/-
Code inside a gadget that does not touch the composer.
-/

namespace VO.Plonk

/-- A computation outside the composer that may panic, such as the call of
`from_embedded_curve_scalar` and of `GroupAffine::new` in
`/repo/plonk/examples/simple_circuit.rs:78-81`. -/
def liftC {F α : Type} (r : Res α) : CM F α := fun c =>
  match r with
  | .ok x => .ok (x, c)
  | .error e => .error e

end VO.Plonk
