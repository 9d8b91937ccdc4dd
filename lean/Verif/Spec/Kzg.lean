import Mathlib.Algebra.Polynomial.Eval.Defs
import Verif.Model.Kzg
import Verif.Spec.Poly

/-
Independent specification of honest KZG parameters.
-/

namespace VO.Spec

variable {F G1 G2 GT : Type} [Field F] [AddCommGroup G1] [Module F G1] [AddCommGroup G2]
  [Module F G2] [AddCommGroup GT] [Module F GT]

/-- The structured reference string `g, βg, …, β^D g`. -/
def srs (β : F) (g : G1) (D : ℕ) : List G1 := (List.range (D + 1)).map (fun i => β ^ i • g)

/-- A verifier key made from the trapdoor `β` and the generators `g`, `h`. -/
def HonestVk (β : F) (g : G1) (h : G2) (vk : VerifierKey G1 G2) : Prop :=
  vk.g = g ∧ vk.h = h ∧ vk.betaH = β • h ∧ vk.preparedH = h ∧ vk.preparedBetaH = β • h

/-- Pairing with `h` identifies no two elements of `G1`. -/
def NonDegenerate (e : G1 →ₗ[F] G2 →ₗ[F] GT) (h : G2) : Prop := ∀ x : G1, e x h = 0 → x = 0

/-- The combination `Σ ξ^i a_i` of a list. -/
def combine {M : Type} [AddCommGroup M] [Module F M] (ξ : F) (l : List M) : M :=
  (l.zipIdx.map (fun p => ξ ^ p.2 • p.1)).sum

end VO.Spec
