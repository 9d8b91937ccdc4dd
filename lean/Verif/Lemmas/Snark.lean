import Verif.Lemmas.Hadamard
import Verif.Props.Kzg

set_option linter.unusedSectionVars false

namespace VO
open Spec
open Polynomial (X)

variable {F G1 G2 GT : Type} [Field F] [DecidableEq F]
  [AddCommGroup G1] [Module F G1] [AddCommGroup G2] [Module F G2]
  [AddCommGroup GT] [Module F GT] [DecidableEq GT]

theorem commitVector_ok (β : F) (g : G1) (D : ℕ) (v : List F) (d : ℕ) (hv : v ≠ [])
    (h1 : v.length ≤ d) (h2 : d ≤ D + 1) :
    commitVector (srs β g D) v d = .ok ((X ^ (d - v.length) * polyOf v).eval β • g) := by
  rw [commitVector, (C23_vector_commitment β g D v d hv).1 h1 h2]; rfl

theorem commitVector_ok' (β : F) (g : G1) (D : ℕ) (v : List F) (d : ℕ) (hv : v ≠ [])
    (h1 : v.length = d) (h2 : d ≤ D + 1) :
    commitVector (srs β g D) v d = .ok ((polyOf v).eval β • g) := by
  rw [commitVector_ok β g D v d hv h1.le h2, h1, Nat.sub_self, pow_zero, one_mul]

theorem clc_eq (one : F) (g : G1) (l : List (G1 × F)) :
    commitmentLinearCombination one g l = one • g + (l.map (fun p => p.2 • p.1)).sum := by
  induction l with
  | nil => simp [commitmentLinearCombination, commitSingle]
  | cons p l ih =>
    rw [commitmentLinearCombination, List.foldr_cons]
    have : l.foldr (fun p s => p.2 • p.1 + s) (commitSingle g one)
      = commitmentLinearCombination one g l := rfl
    rw [this, ih, List.map_cons, List.sum_cons]; abel

theorem divR_ok {a b : F} (h : b ≠ 0) : divR a b = .ok (a / b) := by rw [divR, if_neg h]

theorem divR_zero (a : F) : divR a (0 : F) = .error .panic := by simp [divR]

theorem addToFirstItem_ok (v : List F) (hv : v ≠ []) (e : F) :
    ∃ r, addToFirstItem v e = .ok r ∧ r.length = v.length ∧
      polyOf r = Polynomial.C e + polyOf v := by
  cases v with
  | nil => exact absurd rfl hv
  | cons a l =>
    refine ⟨_, rfl, rfl, ?_⟩
    rw [polyOf_cons, polyOf_cons, map_add]; ring

theorem sampleVec_one (rng : ℕ → F) (k : ℕ) : sampleVec rng k 1 = [rng k] := by simp [sampleVec]

theorem checkPolyEval_ok (v : List F) (z y : F) (h : (polyOf v).eval z = y) :
    checkPolyEval (polyFromVec v) z y = .ok () := by
  rw [checkPolyEval, polyEval_eq, polyOf_polyFromVec, if_pos h]

end VO
