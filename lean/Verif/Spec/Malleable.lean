import Verif.Spec.Kzg

/-
Specification for C152: how to change the two opening proofs of an accepted proof.
-/

namespace VO.Spec

variable {F G1 : Type} [Field F] [AddCommGroup G1] [Module F G1]

/-- The first opening proof `w`, shifted with the help of two elements of the published parameters: the
generator `g` and `b`, the next power; `z` is the second evaluation point and `r` the number that
`batch_check` multiplies the second equation by. -/
def shiftFirst (g b : G1) (r z t : F) (w : G1) : G1 := w + (t * r) • (b - z • g)

/-- The second opening proof, shifted the other way; `a` is the first evaluation point. -/
def shiftSecond (g b : G1) (a t : F) (w : G1) : G1 := w - t • (b - a • g)

end VO.Spec
