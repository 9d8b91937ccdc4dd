import Mathlib.LinearAlgebra.BilinearMap
import Mathlib.Algebra.Field.Rat
import Mathlib.Tactic.Ring
import Verif.Spec.Kzg

namespace VO

/-- A concrete bilinear map for the examples: multiplication of a field. -/
def mulPairing {F : Type} [Field F] : F →ₗ[F] F →ₗ[F] F :=
  LinearMap.mk₂ F (fun a b => a * b) (fun _ _ _ => by ring) (fun _ _ _ => by simp [mul_assoc])
    (fun _ _ _ => by ring) (fun c a b => by simp only [smul_eq_mul]; ring)

theorem mulPairing_apply {F : Type} [Field F] (a b : F) : mulPairing a b = a * b := rfl

end VO
