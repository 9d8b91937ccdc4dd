import Verif.Lemmas.Hadamard

set_option linter.unusedSectionVars false

namespace VO
open Spec
open Polynomial (X toLaurent)
open LaurentPolynomial

variable {F : Type} [Field F] [DecidableEq F]

theorem zeroPad_ok (u : List F) (n : ℕ) (h : u.length ≤ n) :
    ∃ r, zeroPad u n = .ok r ∧ r.length = n ∧ polyOf r = polyOf u := by
  refine ⟨u ++ List.replicate (n - u.length) 0, ?_, ?_, ?_⟩
  · unfold zeroPad; rw [if_neg (by omega)]; simp
  · simp; omega
  · rw [polyOf_append, polyOf_replicate_zero]; simp

theorem length_naive_le (M : ℕ) (ω : F) (u v : List F) (hu : u.length = M + 1)
    (hv : v.length = M + 1) : (vectorPolyMulNoDict u v ω).length ≤ 2 * M + 1 := by
  by_contra hc
  have ht : Trimmed (vectorPolyMulNoDict u v ω) := trimmed_polyFromVec _
  have hd := ht.natDegree
  rw [polyOf_vectorPolyMulNoDict] at hd
  have h1 : (polyOf (vectorReverseOmega u ω)).natDegree < M + 1 := by
    have := natDegree_polyOf_lt (vectorReverseOmega u ω) (by
      intro h; have := congrArg List.length h; simp [hu] at this)
    rwa [length_vectorReverseOmega, hu] at this
  have h2 : (polyOf v).natDegree < M + 1 := by
    have := natDegree_polyOf_lt v (by intro h; simp [h] at hv)
    rwa [hv] at this
  have h3 := Polynomial.natDegree_mul_le (p := polyOf (vectorReverseOmega u ω)) (q := polyOf v)
  omega

/-- One pair of index functions is given by two polynomials that fit in `M + 1` coefficients. -/
def PairRep (M : ℕ) (p : (ℤ → F) × (ℤ → F)) (q : Polynomial F × Polynomial F) : Prop :=
  Rep p.1 q.1 ∧ Rep p.2 q.2 ∧ q.1.degree < ((M + 1 : ℕ) : WithBot ℕ) ∧
    q.2.degree < ((M + 1 : ℕ) : WithBot ℕ)

theorem length_naiveProduct_le (M : ℕ) (ω : F) (p : (ℤ → F) × (ℤ → F)) :
    (naiveProduct M ω p).length ≤ 2 * M + 1 := by
  apply length_naive_le
  · rw [length_expressionVector]; omega
  · rw [length_expressionVector]; omega

theorem toLaurent_naive (M : ℕ) (ω : F) (p : (ℤ → F) × (ℤ → F)) (q : Polynomial F × Polynomial F)
    (h : PairRep M p q) :
    toLaurent (polyOf (naiveProduct M ω p)) = T (M : ℤ) * (omegaInv ω q.1 * toLaurent q.2) := by
  have e : ((M : ℤ) + 1) = ((M + 1 : ℕ) : ℤ) := by push_cast; rfl
  rw [naiveProduct, polyOf_vectorPolyMulNoDict, map_mul, toLaurent_vectorReverseOmega, e,
    polyOf_expressionVector h.1 (M + 1) h.2.2.1, polyOf_expressionVector h.2.1 (M + 1) h.2.2.2,
    length_expressionVector, mul_assoc]
  congr 2
  simp

/-- A vector of `2M+1` values of a function given by a Laurent polynomial supported in `[-M, M]`. -/
theorem toLaurent_window (M : ℕ) (f : ℤ → F) (P : F[T;T⁻¹]) (hf : LRep f P) (hs : SuppIn P (-M) M) :
    toLaurent (polyOf (expressionVector (2 * M + 1) (fun i => f (i - M)))) = T (M : ℤ) * P := by
  apply LaurentPolynomial.ext
  intro i
  rw [lcoeff_toLaurent, lcoeff_T_mul, zc, coeff_polyOf, getD_expressionVector]
  split_ifs with h1 h2
  · rw [hf]; congr 1; omega
  · exact (hs _ (by omega)).symm
  · exact (hs _ (by omega)).symm

theorem conv_eq (M : ℕ) (ω : F) (p : (ℤ → F) × (ℤ → F)) (q : Polynomial F × Polynomial F)
    (h : PairRep M p q) (f : ℤ → F) (hf : LRep f (omegaInv ω q.1 * toLaurent q.2)) :
    zeroPad (naiveProduct M ω p) (2 * M + 1)
      = .ok (expressionVector (2 * M + 1) (fun i => f (i - M))) := by
  have hl : (naiveProduct M ω p).length ≤ 2 * M + 1 := length_naiveProduct_le M ω p
  obtain ⟨r, h1, h2, h3⟩ := zeroPad_ok (naiveProduct M ω p) (2 * M + 1) hl
  have e : (2 * (M : ℤ) + 1) = ((2 * M + 1 : ℕ) : ℤ) := by push_cast; rfl
  rw [e, h1]
  congr 1
  apply polyOf_ext_length
  · rw [h2, length_expressionVector]; omega
  · apply Polynomial.toLaurent_injective
    have hs : SuppIn (omegaInv ω q.1 * toLaurent q.2) (-M) M := by
      refine ((suppIn_omegaInv ω q.1 (M + 1) h.2.2.1).mul
        (suppIn_toLaurent q.2 (M + 1) h.2.2.2)).mono ?_ ?_ <;> push_cast <;> omega
    rw [h3, toLaurent_naive M ω p q h, ← e, toLaurent_window M f _ hf hs]

theorem convChecks_ok (M : ℕ) (ω : F) (pairs : List ((ℤ → F) × (ℤ → F)))
    (polys : List (Polynomial F × Polynomial F)) (fs : List (ℤ → F))
    (hp : List.Forall₂ (PairRep M) pairs polys)
    (ha : List.Forall₂ (fun f q => LRep f (omegaInv ω q.1 * toLaurent q.2)) fs polys)
    (acc : List F) (hacc : acc.length = 2 * M + 1) :
    ∃ r, convChecks M ω (pairs.zip fs) acc = .ok r ∧ r.length = 2 * M + 1 ∧
      toLaurent (polyOf r) = toLaurent (polyOf acc) + T (M : ℤ) * hadamardLaurent ω polys := by
  induction hp generalizing fs acc with
  | nil =>
    cases ha
    exact ⟨acc, rfl, hacc, by simp [hadamardLaurent_nil]⟩
  | @cons p q pairs polys hpq _ ih =>
    cases ha with
    | @cons f _ fs _ hf hfs =>
    have hl : (addVectorToVector acc (naiveProduct M ω p)).length = 2 * M + 1 := by
      rw [addVectorToVector, length_addExpression, hacc]
    obtain ⟨r, h1, h2, h3⟩ := ih fs hfs _ hl
    refine ⟨r, ?_, h2, ?_⟩
    · rw [List.zip_cons_cons, convChecks]
      simp only [bind, Except.bind]
      rw [conv_eq M ω p q hpq f hf]
      simp only [checkVectorEq_eq, if_true]
      exact h1
    · rw [h3, addVectorToVector, polyOf_addExpression _ (rep_vec _), map_add,
        toLaurent_naive M ω p q hpq, hadamardLaurent_cons]
      · ring
      · refine lt_of_lt_of_le (degree_polyOf_lt _) ?_
        rw [hacc]
        exact_mod_cast length_naiveProduct_le M ω p

theorem hadamard_entry_rep (M : ℕ) (pairs : List ((ℤ → F) × (ℤ → F)))
    (polys : List (Polynomial F × Polynomial F)) (hp : List.Forall₂ (PairRep M) pairs polys)
    (k : ℕ) : (pairs.map (fun p => p.1 ((k : ℤ) + 1) * p.2 ((k : ℤ) + 1))).sum
      = hadamardEntry polys k := by
  induction hp with
  | nil => simp [hadamardEntry]
  | cons h _ ih =>
    simp only [List.map_cons, List.sum_cons, ih, hadamardEntry]
    rw [h.1, h.2.1, add_sub_cancel_right, zc_natCast, zc_natCast]

theorem sumVec_fold (pairs : List ((ℤ → F) × (ℤ → F))) (acc : List F) :
    (pairs.foldl (fun acc p => addExpressionVectorToVector acc (fun i => p.1 i * p.2 i)) acc).length
      = acc.length ∧
    ∀ k, k < acc.length →
      (pairs.foldl (fun acc p => addExpressionVectorToVector acc (fun i => p.1 i * p.2 i)) acc).getD k 0
        = acc.getD k 0 + (pairs.map (fun p => p.1 ((k : ℤ) + 1) * p.2 ((k : ℤ) + 1))).sum := by
  induction pairs generalizing acc with
  | nil => simp
  | cons p pairs ih =>
    rw [List.foldl_cons]
    obtain ⟨h1, h2⟩ := ih (addExpressionVectorToVector acc (fun i => p.1 i * p.2 i))
    rw [length_addExpression] at h1 h2
    refine ⟨h1, fun k hk => ?_⟩
    rw [h2 k hk, getD_addExpression _ _ _ hk]
    simp only [List.map_cons, List.sum_cons]
    ring

theorem sumVec_zero (M : ℕ) (pairs : List ((ℤ → F) × (ℤ → F)))
    (polys : List (Polynomial F × Polynomial F)) (hp : List.Forall₂ (PairRep M) pairs polys)
    (h0 : ∀ i, hadamardEntry polys i = 0) : sumVec M pairs = List.replicate (M + 1) 0 := by
  obtain ⟨h1, h2⟩ := sumVec_fold pairs (List.replicate (M + 1) (0 : F))
  rw [List.length_replicate] at h1 h2
  apply List.ext_getElem
  · rw [sumVec, h1]; simp
  · intro k hk hk'
    have hk2 : k < M + 1 := by simpa using hk'
    have h3 : (sumVec M pairs).getD k 0 = 0 := by
      rw [sumVec, h2 k hk2, hadamard_entry_rep M pairs polys hp, h0, add_zero,
        List.getD_eq_getElem _ _ (by simpa using hk2), List.getElem_replicate]
    rw [List.getElem_replicate, ← h3, List.getD_eq_getElem _ _ hk]

theorem hOsum_zero (M : ℕ) (ω : F) (pairs : List ((ℤ → F) × (ℤ → F)))
    (polys : List (Polynomial F × Polynomial F)) (hp : List.Forall₂ (PairRep M) pairs polys)
    (h0 : ∀ i, hadamardEntry polys i = 0) : hOsum M ω pairs = 0 := by
  have e : ((M : ℤ) + 1) = ((M + 1 : ℕ) : ℤ) := by push_cast; rfl
  have hf : ∀ (l : List ((ℤ → F) × (ℤ → F))) (a : F),
      l.foldl (fun acc p => acc + evalVectorExpression ω (M + 1) (fun i => p.1 i * p.2 i)) a
        = a + ∑ k ∈ Finset.range (M + 1),
          (l.map (fun p => p.1 ((k : ℤ) + 1) * p.2 ((k : ℤ) + 1))).sum * ω ^ k := by
    intro l
    induction l with
    | nil => simp
    | cons p l ih =>
      intro a
      rw [List.foldl_cons, ih, e, evalVectorExpression_eq, add_assoc, ← Finset.sum_add_distrib]
      congr 1
      apply Finset.sum_congr rfl
      intro k _
      simp only [List.map_cons, List.sum_cons]; ring
  rw [hOsum, hf, zero_add]
  apply Finset.sum_eq_zero
  intro k _
  rw [hadamard_entry_rep M pairs polys hp, h0, zero_mul]

theorem forall₂_right {α β : Type} {R : α → β → Prop} {l : List α} {m : List β}
    (h : List.Forall₂ R l m) (P : β → Prop) (hP : ∀ a b, R a b → P b) : ∀ b ∈ m, P b := by
  induction h with
  | nil => simp
  | cons h _ ih =>
    intro b hb
    rcases List.mem_cons.mp hb with rfl | hb
    · exact hP _ _ h
    · exact ih b hb

theorem PairRep.degA {M : ℕ} {pairs : List ((ℤ → F) × (ℤ → F))}
    {polys : List (Polynomial F × Polynomial F)} (hp : List.Forall₂ (PairRep M) pairs polys) :
    ∀ p ∈ polys, p.1.degree < ((M + 1 : ℕ) : WithBot ℕ) :=
  forall₂_right hp _ (fun _ _ h => h.2.2.1)

theorem PairRep.degB {M : ℕ} {pairs : List ((ℤ → F) × (ℤ → F))}
    {polys : List (Polynomial F × Polynomial F)} (hp : List.Forall₂ (PairRep M) pairs polys) :
    ∀ p ∈ polys, p.2.degree < ((M + 1 : ℕ) : WithBot ℕ) :=
  forall₂_right hp _ (fun _ _ h => h.2.2.2)

theorem hadamard_coeff_zero (M : ℕ) (ω : F) (polys : List (Polynomial F × Polynomial F))
    (hA : ∀ p ∈ polys, p.1.degree < ((M + 1 : ℕ) : WithBot ℕ))
    (h0 : ∀ i, hadamardEntry polys i = 0) : (hadamardLaurent ω polys).coeff 0 = 0 := by
  rw [lcoeff_zero_hadamard ω polys (M + 1) hA]
  apply Finset.sum_eq_zero
  intro i _
  rw [h0, mul_zero]

theorem debugChecks1_ok (M : ℕ) (ω : F) (pairs : List ((ℤ → F) × (ℤ → F)))
    (polys : List (Polynomial F × Polynomial F)) (atimesb : List (ℤ → F)) (hAt : ℤ → F)
    (hp : List.Forall₂ (PairRep M) pairs polys)
    (ha : List.Forall₂ (fun f q => LRep f (omegaInv ω q.1 * toLaurent q.2)) atimesb polys)
    (hh : LRep hAt (hadamardLaurent ω polys)) (h0 : ∀ i, hadamardEntry polys i = 0) :
    debugChecks1 M ω pairs atimesb hAt = .ok () := by
  obtain ⟨r, h1, h2, h3⟩ := convChecks_ok M ω pairs polys atimesb hp ha
    (List.replicate (2 * M + 1) 0) (by simp)
  have hA := PairRep.degA hp
  have hB := PairRep.degB hp
  have hc0 := hadamard_coeff_zero M ω polys hA h0
  have hs := suppIn_hadamard ω polys M hA hB
  have hr : hVec M hAt = r := by
    apply polyOf_ext_length
    · rw [h2, hVec, length_expressionVector]; omega
    · apply Polynomial.toLaurent_injective
      rw [h3, hVec, toLaurent_window M hAt _ hh hs]; simp
  have hat1 : hAt 1 = 0 := by rw [hh, sub_self, hc0]
  have hsplit : hVec M hAt = hVec1 M hAt ++ [0] ++ hVec2 M hAt := by
    have e : (2 * (M : ℤ) + 1).toNat = M + 1 + M := by omega
    rw [hVec, hVec1, hVec2, expressionVector, expressionVector, expressionVector, e,
      List.range_add, List.range_succ, List.map_append, List.map_append, Int.toNat_natCast,
      List.map_map]
    congr 1
    · congr 1
      simp only [List.map_cons, List.map_nil]
      rw [show (M : ℤ) + 1 - M = 1 by ring, hat1]
    · apply List.map_congr_left
      intro k _
      simp only [Function.comp]
      congr 1; push_cast; ring
  unfold debugChecks1
  rw [h1]
  simp only [bind, Except.bind]
  rw [hOsum_zero M ω pairs polys hp h0, sumVec_zero M pairs polys hp h0, hr.symm, hat1]
  simp only [assertR, checkVectorEq_eq, if_true]
  rw [if_pos hsplit]

/-- The identity behind the verification equation. -/
theorem hadamard_identity (M : ℕ) (ω : F) (polys : List (Polynomial F × Polynomial F))
    (hA : ∀ p ∈ polys, p.1.degree < ((M + 1 : ℕ) : WithBot ℕ))
    (hB : ∀ p ∈ polys, p.2.degree < ((M + 1 : ℕ) : WithBot ℕ))
    (hAt : ℤ → F) (hh : LRep hAt (hadamardLaurent ω polys))
    (h0 : ∀ i, hadamardEntry polys i = 0) :
    hadamardLaurent ω polys = T (-(M : ℤ)) * toLaurent (polyOf (hVec1 M hAt))
      + T 1 * toLaurent (polyOf (hVec2 M hAt)) :=
  hadamard_split ω polys M hA hB (hadamard_coeff_zero M ω polys hA h0) hAt hh

theorem eval_identity (M : ℕ) (ω : F) (polys : List (Polynomial F × Polynomial F))
    (P Q : Polynomial F) (h : hadamardLaurent ω polys = T (-(M : ℤ)) * toLaurent P
      + T 1 * toLaurent Q) (z : F) (hz : z ≠ 0) :
    hadamardAt ω z polys = (z ^ M)⁻¹ * P.eval z + z * Q.eval z := by
  have h1 := congrArg (evL (Units.mk0 z hz)) h
  rw [evL_hadamard, map_add, map_mul, map_mul, evL_T, evL_T, evL_toLaurent, evL_toLaurent] at h1
  simpa using h1

theorem debugChecks2_ok (M : ℕ) (ω : F) (pairs : List ((ℤ → F) × (ℤ → F)))
    (polys : List (Polynomial F × Polynomial F)) (hAt : ℤ → F)
    (hp : List.Forall₂ (PairRep M) pairs polys)
    (hh : LRep hAt (hadamardLaurent ω polys)) (z : F) (hz : z ≠ 0) (evals : List F)
    (he : evals = polys.map (fun q => q.1.eval (ω / z))) :
    debugChecks2 M pairs (hVec M hAt) z (ω / z) evals = .ok () := by
  have e : ((M : ℤ) + 1) = ((M + 1 : ℕ) : ℤ) := by push_cast; rfl
  have hs := suppIn_hadamard ω polys M (PairRep.degA hp) (PairRep.degB hp)
  have h1 : evals = pairs.map (fun p => evalVectorExpression (ω / z) (M + 1) p.1) := by
    rw [he]
    clear he evals hh hs
    induction hp with
    | nil => rfl
    | cons h _ ih =>
      simp only [List.map_cons, List.cons.injEq]
      exact ⟨by rw [e, h.1.eval (M + 1) h.2.2.1], ih⟩
  have h2 : (pairs.map (fun p => evalVectorExpression (ω / z) (M + 1) p.1
      * evalVectorExpression z (M + 1) p.2)).foldl (· + ·) 0 = hadamardAt ω z polys := by
    rw [foldl_add_eq, zero_add, hadamardAt]
    clear h1 he evals hh hs
    induction hp with
    | nil => rfl
    | cons h _ ih =>
      simp only [List.map_cons, List.sum_cons]
      rw [ih, e, h.1.eval (M + 1) h.2.2.1, h.2.1.eval (M + 1) h.2.2.2]
  have h3 : evalVectorAsPoly (hVec M hAt) z * power z (-M) = hadamardAt ω z polys := by
    have h4 : evalVectorAsPoly (hVec M hAt) z = (polyOf (hVec M hAt)).eval z := by
      rw [evalVectorAsPoly, (rep_vec (hVec M hAt)).eval _ (degree_polyOf_lt _)]
    have h5 := congrArg (evL (Units.mk0 z hz)) (toLaurent_window M hAt _ hh hs)
    rw [evL_toLaurent, map_mul, evL_T, evL_hadamard] at h5
    simp only [Units.val_mk0] at h5
    rw [h4, hVec, h5, power_eq_zpow hz, zpow_neg, zpow_natCast]
    have : z ^ M ≠ 0 := pow_ne_zero _ hz
    field_simp
  unfold debugChecks2
  rw [← h1, h2, h3]
  simp [assertR, bind, Except.bind]

theorem naiveG_fold (D : ℕ) (l : List (F × ((ℤ → F) × (ℤ → F)))) (M : ℕ) (hM : M + 1 ≤ D)
    (qs : List (Polynomial F))
    (h : List.Forall₂ (fun p q => Rep p.2.2 q ∧ q.degree < ((M + 1 : ℕ) : WithBot ℕ)) l qs)
    (acc : List F) (hacc : acc.length = D) :
    let r := l.foldl (fun acc p => addExpressionVectorToVector acc (fun i => p.1 * p.2.2 i)) acc
    r.length = D ∧ polyOf r = polyOf acc
      + ((l.zip qs).map (fun x => Polynomial.C x.1.1 * x.2)).sum := by
  induction h generalizing acc with
  | nil => simp [hacc]
  | @cons p q l qs hpq _ ih =>
    rw [List.foldl_cons]
    have hl := length_addExpression acc (fun i => p.1 * p.2.2 i)
    obtain ⟨h1, h2⟩ := ih (addExpressionVectorToVector acc (fun i => p.1 * p.2.2 i)) (by rw [hl, hacc])
    refine ⟨h1, ?_⟩
    rw [h2, polyOf_addExpression acc (hpq.1.cmul p.1)]
    · simp only [List.zip_cons_cons, List.map_cons, List.sum_cons]; ring
    · rw [Polynomial.C_mul']
      refine lt_of_le_of_lt (Polynomial.degree_smul_le _ _) ?_
      refine lt_of_lt_of_le hpq.2 ?_
      rw [hacc]; exact_mod_cast hM

theorem length_hVec1 (M : ℕ) (f : ℤ → F) : (hVec1 M f).length = M := by
  rw [hVec1, length_expressionVector]; simp

theorem length_hVec2 (M : ℕ) (f : ℤ → F) : (hVec2 M f).length = M := by
  rw [hVec2, length_expressionVector]; simp

theorem naiveG_eval (M D : ℕ) (hM : M + 1 ≤ D) (ω : F) (pairs : List ((ℤ → F) × (ℤ → F)))
    (polys : List (Polynomial F × Polynomial F)) (hp : List.Forall₂ (PairRep M) pairs polys)
    (h1 h2 : List F) (l1 : h1.length = M) (l2 : h2.length = M)
    (hid : hadamardLaurent ω polys = T (-(M : ℤ)) * toLaurent (polyOf h1)
      + T 1 * toLaurent (polyOf h2)) (z : F) (hz : z ≠ 0) (evals : List F)
    (he : evals = polys.map (fun q => q.1.eval (ω / z))) :
    polyEval (polyFromVec (naiveG M D z evals pairs h1 h2)) z = 0 := by
  have hq : List.Forall₂ (fun p q => Rep p.2.2 q ∧ q.degree < ((M + 1 : ℕ) : WithBot ℕ))
      (evals.zip pairs) (polys.map Prod.snd) := by
    rw [he]
    clear he evals hid
    induction hp with
    | nil => exact .nil
    | cons h _ ih => exact .cons ⟨h.2.1, h.2.2.2⟩ ih
  obtain ⟨g1, g2⟩ := naiveG_fold D (evals.zip pairs) M hM _ hq (List.replicate D 0) (by simp)
  have hsum : (((evals.zip pairs).zip (polys.map Prod.snd)).map
      (fun x => Polynomial.C x.1.1 * x.2)).sum.eval z = hadamardAt ω z polys := by
    rw [he, hadamardAt]
    clear he evals hid hq g1 g2
    induction hp with
    | nil => simp
    | cons h _ ih =>
      simp only [List.map_cons, List.zip_cons_cons, List.sum_cons, Polynomial.eval_add,
        Polynomial.eval_mul, Polynomial.eval_C]
      rw [ih]
  rw [polyEval_eq, polyOf_polyFromVec, naiveG]
  rw [polyOf_addExpression (p := polyOf h2 * Polynomial.C (-z)),
    polyOf_addExpression (p := X ^ (D - M) * polyOf h1 * Polynomial.C (-power z (-D))), g2]
  · simp only [Polynomial.eval_add, hsum, polyOf_replicate_zero, Polynomial.eval_zero, zero_add,
      Polynomial.eval_mul, Polynomial.eval_C, Polynomial.eval_pow, Polynomial.eval_X]
    rw [eval_identity M ω polys _ _ hid z hz, power_eq_zpow hz, zpow_neg, zpow_natCast]
    have h3 : z ^ D = z ^ (D - M) * z ^ M := by rw [← pow_add]; congr 1; omega
    have h4 : z ^ M ≠ 0 := pow_ne_zero _ hz
    have h5 : z ^ (D - M) ≠ 0 := pow_ne_zero _ hz
    rw [h3]
    field_simp
    ring
  · intro i
    beta_reduce
    rw [mul_comm, mul_comm (X ^ (D - M) * polyOf h1), zc_C_mul, zc_X_pow_mul, vectorIndex_zc]
    congr 2
    rw [minusI64]; omega
  · rw [g1, mul_comm, Polynomial.C_mul']
    refine lt_of_le_of_lt (Polynomial.degree_smul_le _ _) ?_
    refine lt_of_le_of_lt (Polynomial.degree_mul_le _ _) ?_
    rw [Polynomial.degree_X_pow]
    have hd := degree_polyOf_lt h1
    rw [l1] at hd
    calc ((D - M : ℕ) : WithBot ℕ) + (polyOf h1).degree < ((D - M : ℕ) : WithBot ℕ) + (M : ℕ) :=
          WithBot.add_lt_add_left (by simp) hd
      _ = ((D : ℕ) : WithBot ℕ) := by rw [← Nat.cast_add]; congr 1; omega
  · intro i
    beta_reduce
    rw [mul_comm, mul_comm (polyOf h2), zc_C_mul, vectorIndex_zc]
  · rw [length_addExpression, g1, mul_comm, Polynomial.C_mul']
    refine lt_of_le_of_lt (Polynomial.degree_smul_le _ _) ?_
    refine lt_of_lt_of_le (degree_polyOf_lt h2) ?_
    rw [l2]; exact_mod_cast (by omega : M ≤ D)

end VO
