import Mathlib.Algebra.Polynomial.Roots
import Mathlib.Algebra.Module.BigOperators
import Mathlib.Tactic.Module
import Mathlib.Tactic.LinearCombination
import Verif.Lemmas.Poly
import Verif.Spec.Kzg

set_option linter.unusedSectionVars false

namespace VO
open Spec

variable {F G1 G2 GT : Type} [Field F] [DecidableEq F]
  [AddCommGroup G1] [Module F G1] [AddCommGroup G2] [Module F G2]
  [AddCommGroup GT] [Module F GT] [DecidableEq GT]

theorem length_srs (β : F) (g : G1) (D : ℕ) : (srs β g D).length = D + 1 := by simp [srs]

theorem srs_drop (β : F) (g : G1) (D k : ℕ) (hk : k ≤ D) :
    (srs β g D).drop k = srs β (β ^ k • g) (D - k) := by
  unfold srs
  apply List.ext_getElem
  · simp; omega
  · intro i h1 h2
    simp only [List.getElem_drop, List.getElem_map, List.getElem_range, smul_smul]
    rw [← pow_add, add_comm]

/-- A multi-scalar product with powers of `β` is evaluation at `β`. -/
theorem msm_powers (β : F) (g : G1) (N : ℕ) (cs : List F) (h : cs.length ≤ N) :
    msm ((List.range N).map (fun i => β ^ i • g)) cs = (polyOf cs).eval β • g := by
  induction cs generalizing N g with
  | nil => simp [msm]
  | cons c cs ih =>
    obtain ⟨N, rfl⟩ : ∃ M, N = M + 1 := ⟨N - 1, by simp at h; omega⟩
    rw [List.range_succ_eq_map, List.map_cons, List.map_map]
    have hm : ((fun i => β ^ i • g) ∘ Nat.succ) = fun i => β ^ i • (β • g) := by
      funext i; simp only [Function.comp, smul_smul, Nat.succ_eq_add_one, pow_succ]
    rw [hm]
    have := ih (β • g) N (by simp at h; omega)
    unfold msm at this ⊢
    rw [List.zip_cons_cons, List.map_cons, List.sum_cons, this, polyOf_cons]
    simp only [Polynomial.eval_add, Polynomial.eval_C, Polynomial.eval_mul, Polynomial.eval_X,
      pow_zero, one_smul, add_smul, smul_smul]
    rw [mul_comm β]

theorem skipLeadingZeros_spec (cs : List F) :
    (skipLeadingZeros cs).1 + (skipLeadingZeros cs).2.length = cs.length ∧
    polyOf cs = Polynomial.X ^ (skipLeadingZeros cs).1 * polyOf (skipLeadingZeros cs).2 := by
  induction cs with
  | nil => simp [skipLeadingZeros]
  | cons c cs ih =>
    unfold skipLeadingZeros
    split_ifs with hc
    · subst hc
      refine ⟨by simp only [List.length_cons]; omega, ?_⟩
      rw [polyOf_cons, ih.2]
      simp only [Polynomial.C_0, zero_add, pow_succ]
      ring
    · simp

theorem msm_nil_right (b : List G1) : msm b ([] : List F) = 0 := by simp [msm]

/-- Committing with leading zeros skipped is evaluation at `β`. -/
theorem msm_skip (β : F) (g : G1) (D : ℕ) (cs : List F) (h : cs.length ≤ D + 1) :
    msm ((srs β g D).drop (skipLeadingZeros cs).1) (skipLeadingZeros cs).2
      = (polyOf cs).eval β • g := by
  obtain ⟨h1, h2⟩ := skipLeadingZeros_spec cs
  rw [h2]
  by_cases hz : (skipLeadingZeros cs).2 = []
  · rw [hz, msm_nil_right]; simp
  · have hpos := List.length_pos_of_ne_nil hz
    rw [srs_drop _ _ _ _ (by omega), srs, msm_powers _ _ _ _ (by omega), smul_smul]
    simp [mul_comm]

theorem sliceFrom_ok {α : Type} {l : List α} {n : ℕ} (h : n ≤ l.length) :
    sliceFrom l n = .ok (l.drop n) := by rw [sliceFrom, if_neg (by omega)]

theorem checkDegree_ok {d n : ℕ} (h : d + 1 ≤ n) : checkDegree d n = .ok () := by
  rw [checkDegree, if_neg (by omega)]

theorem checkDegree_err {d n : ℕ} (h : n < d + 1) :
    checkDegree d n = .error (.tooManyCoefficients (d + 1) n) := by
  rw [checkDegree, if_pos (by omega)]

theorem commitWithCoefficients_ok (β : F) (g : G1) (D : ℕ) (cs : List F) (hne : cs ≠ [])
    (h : cs.length ≤ D + 1) :
    commitWithCoefficients (srs β g D) cs = .ok ((polyOf cs).eval β • g) := by
  have hpos := List.length_pos_of_ne_nil hne
  unfold commitWithCoefficients
  rw [if_neg hne, length_srs, checkDegree_ok (by omega)]
  simp only [bind, Except.bind]
  rw [sliceFrom_ok]
  · simp only [pure, Except.pure]; rw [msm_skip β g D cs h]
  · rw [length_srs]
    have := (skipLeadingZeros_spec cs).1; omega

theorem length_le_polyDegree (p : List F) : p.length ≤ polyDegree p + 1 := by
  unfold polyDegree; omega

theorem kzgCommit_ok (β : F) (g : G1) (D : ℕ) (p : List F) (h : polyDegree p ≤ D) :
    kzgCommit (srs β g D) p = .ok ((polyOf p).eval β • g) := by
  have := length_le_polyDegree p
  unfold kzgCommit
  rw [length_srs, checkDegree_ok (by omega)]
  simp only [bind, Except.bind]
  rw [sliceFrom_ok]
  · simp only [pure, Except.pure]; rw [msm_skip β g D p (by omega)]
  · rw [length_srs]
    have := (skipLeadingZeros_spec p).1; omega

theorem openWithWitness_eq (powers : List G1) (q : List F) :
    openWithWitness powers q = kzgCommit powers q := rfl

/-! ### synthetic division -/

theorem witnessVec_length (z : F) (l : List F) : (witnessVec z l).length = l.length := by
  induction l with
  | nil => rfl
  | cons a l ih => simp [witnessVec, ih]

theorem witnessVec_headD (z : F) (l : List F) : (witnessVec z l).headD 0 = (polyOf l).eval z := by
  induction l with
  | nil => simp [witnessVec]
  | cons a l ih =>
    simp only [witnessVec, List.headD_cons, ih, polyOf_cons, Polynomial.eval_add, Polynomial.eval_C,
      Polynomial.eval_mul, Polynomial.eval_X]
    ring

open Polynomial in
theorem witnessVec_spec (z a : F) (l : List F) :
    polyOf (a :: l) = (X - C z) * polyOf (witnessVec z l) + C ((polyOf (a :: l)).eval z) := by
  induction l generalizing a with
  | nil => simp [witnessVec, polyOf_cons]
  | cons b l ih =>
    have h := ih b
    simp only [witnessVec]
    rw [polyOf_cons a (b :: l), polyOf_cons (b + _)]
    rw [witnessVec_headD]
    have he : (polyOf (b :: l)).eval z = b + (polyOf l).eval z * z := by
      simp only [polyOf_cons, eval_add, eval_C, eval_mul, eval_X]; ring
    rw [← he]
    simp only [eval_add, eval_C, eval_mul, eval_X, C_add, C_mul]
    linear_combination X * h

theorem computeWitness_spec (p : List F) (z : F) (h : polyDegree p ≠ 0) :
    ∃ q, computeWitness p z = .ok q ∧ Trimmed q ∧ q.length < p.length ∧
      polyOf p = (Polynomial.X - Polynomial.C z) * polyOf q + Polynomial.C ((polyOf p).eval z) := by
  unfold computeWitness
  rw [if_neg h]
  refine ⟨_, rfl, trimmed_polyFromVec _, ?_, ?_⟩
  · have := length_polyFromVec_le (witnessVec z p.tail)
    rw [witnessVec_length, List.length_tail] at this
    unfold polyDegree at h; omega
  · cases p with
    | nil => simp [polyDegree] at h
    | cons a l =>
      rw [polyOf_polyFromVec, List.tail_cons]
      exact witnessVec_spec z a l

/-! ### batch opening -/

theorem length_polyAdd_le (p q : List F) : (polyAdd p q).length ≤ max p.length q.length := by
  unfold polyAdd
  exact (length_polyFromVec_le _).trans (by rw [length_addLists])

theorem length_polyScale_le (p : List F) (c : F) : (polyScale p c).length ≤ p.length := by
  unfold polyScale
  exact (length_polyFromVec_le _).trans (by simp)

theorem polyOf_polyAdd (p q : List F) : polyOf (polyAdd p q) = polyOf p + polyOf q := by
  rw [polyAdd, polyOf_polyFromVec, polyOf_addLists]

theorem polyOf_polyScale (p : List F) (c : F) : polyOf (polyScale p c) = polyOf p * Polynomial.C c := by
  rw [polyScale, polyOf_polyFromVec, polyOf_map_mul_right]

/-- `Σ ξ^i (f_i - f_i(z))`. -/
noncomputable def batchTarget (z xi : F) : List (List F) → F → Polynomial F
  | [], _ => 0
  | f :: fs, pow => (polyOf f - Polynomial.C ((polyOf f).eval z)) * Polynomial.C pow
      + batchTarget z xi fs (pow * xi)

theorem batchWitness_spec (z xi : F) (fs : List (List F)) (acc : List F) (pow : F) (N : ℕ)
    (hN : ∀ f ∈ fs, f.length ≤ N) (hacc : acc.length ≤ N) (hd : ∀ f ∈ fs, polyDegree f ≠ 0) :
    ∃ q, batchWitness z xi fs acc pow = .ok q ∧ q.length ≤ N ∧
      (Polynomial.X - Polynomial.C z) * polyOf q
        = (Polynomial.X - Polynomial.C z) * polyOf acc + batchTarget z xi fs pow := by
  induction fs generalizing acc pow with
  | nil => exact ⟨acc, rfl, hacc, by simp [batchTarget]⟩
  | cons f fs ih =>
    obtain ⟨w, h1, h2, h3, h4⟩ := computeWitness_spec f z (hd f (by simp))
    have hf := hN f (by simp)
    obtain ⟨q, e1, e2, e3⟩ := ih (polyAdd acc (polyScale w pow)) (pow * xi)
      (fun f hf => hN f (by simp [hf]))
      ((length_polyAdd_le _ _).trans (max_le hacc ((length_polyScale_le _ _).trans (by omega))))
      (fun f hf => hd f (by simp [hf]))
    refine ⟨q, ?_, e2, ?_⟩
    · rw [batchWitness, h1]; exact e1
    · rw [e3, polyOf_polyAdd, polyOf_polyScale, batchTarget]
      linear_combination (-Polynomial.C pow) * h4

theorem batchWitness_panic (z xi : F) (fs : List (List F)) (acc : List F) (pow : F)
    (hd : ∃ f ∈ fs, polyDegree f = 0) : batchWitness z xi fs acc pow = .error .panic := by
  induction fs generalizing acc pow with
  | nil => simp at hd
  | cons f fs ih =>
    rw [batchWitness]
    by_cases h : polyDegree f = 0
    · rw [computeWitness, if_pos h]; rfl
    · rw [computeWitness, if_neg h]
      obtain ⟨g, hg, hg0⟩ := hd
      rcases List.mem_cons.mp hg with rfl | hg
      · exact absurd hg0 h
      · exact ih _ _ ⟨g, hg, hg0⟩

theorem checkDegrees_ok (powers : List G1) (fs : List (List F))
    (h : ∀ f ∈ fs, polyDegree f + 1 ≤ powers.length) : checkDegrees powers fs = .ok () := by
  induction fs with
  | nil => rfl
  | cons f fs ih =>
    rw [checkDegrees, checkDegree_ok (h f (by simp))]
    exact ih (fun f hf => h f (by simp [hf]))

theorem batchOpen_ok (β : F) (g : G1) (D : ℕ) (fs gs : List (List F)) (z zz xi xi2 : F)
    (hf : ∀ f ∈ fs ++ gs, polyDegree f ≠ 0 ∧ polyDegree f ≤ D) :
    ∃ q q2 : Polynomial F,
      batchOpen (srs β g D) fs gs z zz xi xi2 = .ok (q.eval β • g, q2.eval β • g) ∧
      (Polynomial.X - Polynomial.C z) * q = batchTarget z xi fs 1 ∧
      (Polynomial.X - Polynomial.C zz) * q2 = batchTarget zz xi2 gs 1 := by
  obtain ⟨q, a1, a2, a3⟩ := batchWitness_spec z xi fs [] 1 (D + 1)
    (fun f h => by have := length_le_polyDegree f; have := (hf f (by simp [h])).2; omega) (by simp)
    (fun f h => (hf f (by simp [h])).1)
  obtain ⟨q2, b1, b2, b3⟩ := batchWitness_spec zz xi2 gs [] 1 (D + 1)
    (fun f h => by have := length_le_polyDegree f; have := (hf f (by simp [h])).2; omega) (by simp)
    (fun f h => (hf f (by simp [h])).1)
  refine ⟨polyOf q, polyOf q2, ?_, by simpa using a3, by simpa using b3⟩
  unfold batchOpen
  rw [checkDegrees_ok _ _ (fun f h => by rw [length_srs]; have := (hf f h).2; omega), a1, b1]
  simp only [bind, Except.bind, openWithWitness_eq]
  rw [kzgCommit_ok β g D q (by unfold polyDegree; omega),
    kzgCommit_ok β g D q2 (by unfold polyDegree; omega)]
  rfl

theorem batchOpen_panic (powers : List G1) (fs gs : List (List F)) (z zz xi xi2 : F)
    (hfit : ∀ f ∈ fs ++ gs, polyDegree f + 1 ≤ powers.length)
    (hd : ∃ f ∈ fs ++ gs, polyDegree f = 0) :
    batchOpen powers fs gs z zz xi xi2 = .error .panic := by
  unfold batchOpen
  rw [checkDegrees_ok _ _ hfit]
  simp only [bind, Except.bind]
  by_cases h1 : ∃ f ∈ fs, polyDegree f = 0
  · rw [batchWitness_panic _ _ _ _ _ h1]
  · have h2 : ∃ f ∈ gs, polyDegree f = 0 := by
      obtain ⟨f, hf, h0⟩ := hd
      rcases List.mem_append.mp hf with hf | hf
      · exact absurd ⟨f, hf, h0⟩ h1
      · exact ⟨f, hf, h0⟩
    obtain ⟨q, hq, -⟩ := batchWitness_spec z xi fs [] 1
      (fs.foldr (fun f m => max f.length m) 0)
      (by
        clear hfit hd h1 h2
        induction fs with
        | nil => simp
        | cons f fs ih =>
          intro x hx
          rcases List.mem_cons.mp hx with rfl | hx
          · simp
          · have := ih x hx; simp only [List.foldr_cons]; omega) (by simp)
      (fun f hf hc => h1 ⟨f, hf, hc⟩)
    rw [hq]
    simp only
    rw [batchWitness_panic _ _ _ _ _ h2]

/-! ### batch checking -/

/-- `Σ_i pow ξ^i a_i`. -/
def geomSum {M : Type} [AddCommGroup M] [Module F M] (xi : F) : List M → F → M
  | [], _ => 0
  | a :: l, pow => pow • a + geomSum xi l (pow * xi)

theorem batchSum_eq (xi scale : F) (l : List (G1 × F)) (q : G1) (y pow : F) :
    batchSum xi scale l q y pow
      = (q + scale • geomSum xi (l.map Prod.fst) pow, y + geomSum xi (l.map Prod.snd) pow) := by
  induction l generalizing q y pow with
  | nil => simp [batchSum, geomSum]
  | cons cv l ih =>
    obtain ⟨c, v⟩ := cv
    rw [batchSum, ih]
    simp only [List.map_cons, geomSum, smul_add, smul_smul, smul_eq_mul, mul_comm scale pow, add_assoc]

theorem geomSum_sub (xi : F) (g : G1) (l : List (G1 × F)) (pow : F) :
    geomSum xi (l.map Prod.fst) pow - geomSum xi (l.map Prod.snd) pow • g
      = geomSum xi (l.map (fun p => p.1 - p.2 • g)) pow := by
  induction l generalizing pow with
  | nil => simp [geomSum]
  | cons cv l ih =>
    simp only [List.map_cons, geomSum, ← ih, smul_eq_mul]
    module

/-- `batch_check` is the linear equation it batches. -/
theorem batchCheck_eq (e : G1 →ₗ[F] G2 →ₗ[F] GT) (β : F) (g : G1) (h : G2) (vk : VerifierKey G1 G2)
    (hvk : HonestVk β g h vk) (fcs gcs : List G1) (z zz xi xi2 : F) (fvs gvs : List F)
    (w w2 : G1) (r : F) :
    batchCheck e vk fcs gcs z zz xi xi2 fvs gvs w w2 r = true ↔
      e ((geomSum xi ((fcs.zip fvs).map (fun p => p.1 - p.2 • g)) 1 - (β - z) • w)
        + r • (geomSum xi2 ((gcs.zip gvs).map (fun p => p.1 - p.2 • g)) 1 - (β - zz) • w2)) h = 0 := by
  obtain ⟨hg, -, -, h1, h2⟩ := hvk
  unfold batchCheck
  simp only [batchSum_eq, decide_eq_true_eq, hg, h1, h2, ← geomSum_sub]
  rw [map_smul, ← LinearMap.smul_apply, ← map_smul, ← LinearMap.add_apply, ← map_add]
  apply Eq.congr _ rfl
  congr 2
  module

theorem geomSum_smul (xi : F) (g : G1) (l : List F) (pow : F) :
    geomSum xi (l.map (fun a => a • g)) pow = geomSum xi l pow • g := by
  induction l generalizing pow with
  | nil => simp [geomSum]
  | cons a l ih => simp only [List.map_cons, geomSum, ih, smul_eq_mul]; module

theorem eval_batchTarget (z xi β : F) (fs : List (List F)) (pow : F) :
    (batchTarget z xi fs pow).eval β
      = geomSum xi (fs.map (fun f => (polyOf f).eval β - (polyOf f).eval z)) pow := by
  induction fs generalizing pow with
  | nil => simp [batchTarget, geomSum]
  | cons f fs ih =>
    simp only [batchTarget, List.map_cons, geomSum, Polynomial.eval_add, Polynomial.eval_mul,
      Polynomial.eval_sub, Polynomial.eval_C, ih, smul_eq_mul]
    ring

theorem geomSum_pow (xi : F) (l : List F) (pow : F) :
    geomSum xi l pow = pow * (polyOf l).eval xi := by
  induction l generalizing pow with
  | nil => simp [geomSum]
  | cons a l ih =>
    simp only [geomSum, ih, polyOf_cons, Polynomial.eval_add, Polynomial.eval_C, Polynomial.eval_mul,
      Polynomial.eval_X, smul_eq_mul]
    ring

theorem geomSum_zipIdx {M : Type} [AddCommGroup M] [Module F M] (xi : F) (l : List M) (k : ℕ) :
    geomSum xi l (xi ^ k) = ((l.zipIdx k).map (fun p => xi ^ p.2 • p.1)).sum := by
  induction l generalizing k with
  | nil => simp [geomSum]
  | cons a l ih => rw [geomSum, ← pow_succ, ih, List.zipIdx_cons, List.map_cons, List.sum_cons]

theorem geomSum_eq_combine {M : Type} [AddCommGroup M] [Module F M] (xi : F) (l : List M) :
    geomSum xi l 1 = combine xi l := by
  have := geomSum_zipIdx xi l 0
  rwa [pow_zero] at this

theorem combine_eq_eval (xi : F) (l : List F) : combine xi l = (polyOf l).eval xi := by
  rw [← geomSum_eq_combine, geomSum_pow, one_mul]

theorem combine_smul (xi : F) (g : G1) (l : List F) :
    combine xi l • g = combine xi (l.map (fun a => a • g)) := by
  rw [← geomSum_eq_combine, ← geomSum_eq_combine, geomSum_smul]

theorem geomSum_sub' {M : Type} [AddCommGroup M] [Module F M] (xi : F) (l m : List M)
    (h : l.length = m.length) (pow : F) :
    geomSum xi (l.zipWith (fun a b => a - b) m) pow = geomSum xi l pow - geomSum xi m pow := by
  induction l generalizing m pow with
  | nil =>
    cases m with
    | nil => simp [geomSum]
    | cons b m => simp at h
  | cons a l ih =>
    cases m with
    | nil => simp at h
    | cons b m =>
      simp only [List.zipWith_cons_cons, geomSum]
      rw [ih m (by simpa using h)]
      module

theorem combine_sub {M : Type} [AddCommGroup M] [Module F M] (xi : F) (l m : List M)
    (h : l.length = m.length) :
    combine xi (l.zipWith (fun a b => a - b) m) = combine xi l - combine xi m := by
  simp only [← geomSum_eq_combine]; exact geomSum_sub' xi l m h 1

theorem eval_geomSum (xi x : F) (l : List (Polynomial F)) (pow : F) :
    (geomSum xi l pow).eval x = geomSum xi (l.map (fun p => p.eval x)) pow := by
  induction l generalizing pow with
  | nil => simp [geomSum]
  | cons a l ih => simp only [geomSum, List.map_cons, Polynomial.eval_add, Polynomial.smul_eq_C_mul, Polynomial.eval_mul, Polynomial.eval_C, smul_eq_mul, ih]

theorem eval_combine (xi x : F) (l : List (Polynomial F)) :
    (combine xi l).eval x = combine xi (l.map (fun p => p.eval x)) := by
  simp only [← geomSum_eq_combine]; exact eval_geomSum xi x l 1

theorem natDegree_combine_le (xi : F) (l : List (Polynomial F)) (D : ℕ)
    (h : ∀ p ∈ l, p.natDegree ≤ D) : (combine xi l).natDegree ≤ D := by
  rw [← geomSum_eq_combine]
  generalize (1 : F) = pow
  induction l generalizing pow with
  | nil => simp [geomSum]
  | cons a l ih =>
    rw [geomSum]
    refine (Polynomial.natDegree_add_le _ _).trans (max_le ?_ (ih (fun p hp => h p (by simp [hp])) _))
    exact (Polynomial.natDegree_smul_le _ _).trans (h a (by simp))

end VO
