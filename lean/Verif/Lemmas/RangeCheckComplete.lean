import Verif.Lemmas.RangeCheck
import Verif.Lemmas.R1csSnarkRun

set_option linter.unusedSectionVars false

namespace VO
open Spec
open Polynomial (X toLaurent)
open LaurentPolynomial (T)

variable {F G1 G2 GT : Type} [Field F] [DecidableEq F]
  [AddCommGroup G1] [Module F G1] [DecidableEq G1] [AddCommGroup G2] [Module F G2]
  [AddCommGroup GT] [Module F GT] [DecidableEq GT]

/-- The coefficients of the final combination. -/
noncomputable def rcK (N B n D : ℕ) (α β ω z y y1 y2 : F) : RcCoeffs F where
  c14 := y
  c15 := y * β * (geomPoly 1 N).eval z
      - (geomPoly 1 N).eval (ω / z) * (geomPoly 1 N).eval z
      + α * y1 * β * (geomPoly 1 B).eval z
      - α * y2 * (geomPoly 1 B).eval z
      + α ^ 2 * y * (geomPoly 1 N).eval z
      - α ^ 2 * y1 * (geomPoly 1 B).eval z
  c19 := α * y1
  c25 := α ^ 3 * (ω / z) ^ (n - 1) - α ^ 2 * (geomPoly 1 n).eval (ω / z) * (1 - z)
  c28 := -((ω / z) ^ n * z ^ (n - 1))
  c29 := -(z ^ D)⁻¹
  c30 := -z

theorem rcCoeffs_ok (cs : RangeCheck) (hN : 1 ≤ cs.lookupSize) (D : ℕ) (α β ω z y y1 y2 : F)
    (hn : 2 ≤ cs.n ∨ ω ≠ 0) (hz : z ≠ 0) (hz1 : z ≠ 1) (hzo : z ≠ ω) :
    rcCoeffs cs D α β ω z y y1 y2
      = .ok (rcK cs.lookupSize cs.range cs.n D α β ω z y y1 y2) := by
  obtain ⟨x, rfl⟩ : ∃ x, ω = x * z := ⟨ω / z, by field_simp⟩
  have hx0 : 2 ≤ cs.n ∨ x ≠ 0 := hn.imp id (fun h h' => h (by rw [h', zero_mul]))
  have n1 : (1 : F) - z ≠ 0 := sub_ne_zero.mpr (Ne.symm hz1)
  have n2 : x * z - 1 * z ≠ 0 := by rw [one_mul]; exact sub_ne_zero.mpr (Ne.symm hzo)
  have n4 : x * z - z ≠ 0 := sub_ne_zero.mpr (Ne.symm hzo)
  have hx1 : x ≠ 1 := by rintro rfl; exact hzo (by ring)
  have hx1' : (1 : F) - x ≠ 0 := sub_ne_zero.mpr (Ne.symm hx1)
  have hxz : x * z / z = x := by field_simp
  have d2 : (x * z - 1 * z) * (1 - z) ≠ 0 := mul_ne_zero n2 n1
  have h1 := cs.N_le
  have px : power x (cs.lookupSize : ℤ) = x ^ cs.lookupSize := power_natCast (Or.inl (by omega))
  have pxn : power x (cs.n : ℤ) = x ^ cs.n := power_natCast (Or.inl (by omega))
  have px1 : power x ((cs.n : ℤ) - 1) = x ^ (cs.n - 1) := by
    rw [← power_natCast (hx0.imp (fun h => by omega) id)]; congr 1; omega
  have pz : ∀ k : ℕ, power z (k : ℤ) = z ^ k := fun k => power_natCast (Or.inr hz)
  have pz1 : power z ((cs.n : ℤ) - 1) = z ^ (cs.n - 1) := by
    rw [← power_natCast (Or.inr hz)]; congr 1; omega
  have pD : power z (-(D : ℤ)) = (z ^ D)⁻¹ := by
    rw [power_eq_zpow hz, zpow_neg, zpow_natCast]
  unfold rcCoeffs
  simp only [divR_ok hz, divR_ok d2, divR_ok n2, bind, Except.bind, pure, Except.pure, hxz]
  rw [px, pxn, px1, pz, pz, pz1, pD, power_two, power_two]
  unfold rcK
  rw [hxz, eval_geomPoly_one _ z hz1, eval_geomPoly_one _ z hz1, eval_geomPoly_one _ x hx1,
    eval_geomPoly_one _ x hx1]
  have e : x * z - 1 * z = -(z * (1 - x)) := by ring
  congr 1
  congr 1
  · ring
  · rw [e, div_eq_iff (by rw [← e]; exact d2)]
    field_simp
    ring
  · ring
  · rw [e, div_eq_iff (by rw [← e]; exact n2)]
    field_simp
    ring
  · ring

theorem rcCoeffs_bad (cs : RangeCheck) (D : ℕ) (α β ω z y y1 y2 : F)
    (h : z = 0 ∨ z = 1 ∨ z = ω) : rcCoeffs cs D α β ω z y y1 y2 = .error .panic := by
  unfold rcCoeffs
  by_cases hz : z = 0
  · subst hz; rw [divR_zero]; rfl
  · have h2 : (ω - 1 * z) * (1 - z) = 0 := by
      rcases h with h | h | h
      · exact absurd h hz
      · rw [h]; ring
      · rw [h]; ring
    simp only [divR_ok hz, h2, divR_zero, bind, Except.bind]

theorem rcGPoly_eq (N B n D : ℕ) (α β ω z y y1 y2 : F) (W P A P1 H1 H2 : Polynomial F) :
    rcGPoly N B n D α β ω z y y1 y2 W P A P1 H1 H2 =
      Polynomial.C (rcK N B n D α β ω z y y1 y2).c15
      + Polynomial.C (rcK N B n D α β ω z y y1 y2).c14 * W
      + Polynomial.C (rcK N B n D α β ω z y y1 y2).c19 * P
      + Polynomial.C (rcK N B n D α β ω z y y1 y2).c25 * A
      + Polynomial.C (rcK N B n D α β ω z y y1 y2).c28 * P1
      + Polynomial.C (rcK N B n D α β ω z y y1 y2).c29 * H1
      + Polynomial.C (rcK N B n D α β ω z y y1 y2).c30 * H2 := by
  simp only [rcGPoly, rcComb, rcK, Polynomial.smul_eq_C_mul, map_neg]
  ring

theorem rcComb_eq (N B n D : ℕ) (α β ω z y y1 y2 : F) (g cW cT cA cT1 cH1 cH2 : G1) :
    rcCmG g cW cT cA cT1 cH1 cH2 (rcK N B n D α β ω z y y1 y2)
      = rcComb N B n D α β ω z y y1 y2 g cW cT cA cT1 cH1 cH2 := by
  rw [rcCmG, clc_eq]
  simp only [List.map_cons, List.map_nil, List.sum_cons, List.sum_nil, rcComb, rcK, neg_smul]
  abel

/-- The value of the final polynomial at `z` when the claimed values are right. -/
theorem rcG_eval (N B n D : ℕ) (α β ω z : F) (W P M R S A P1 H1 H2 : Polynomial F) :
    (rcGPoly N B n D α β ω z (R.eval (ω / z)) (S.eval (ω / z)) (M.eval (ω / z)) W P A P1 H1 H2).eval z
      = hadamardAt ω z (rcPolys N B n α β W P M R S A P1)
        - ((z ^ D)⁻¹ * H1.eval z + z * H2.eval z) := by
  rw [rcGPoly_eq]
  simp only [rcK, hadamardAt, rcPolys, rcBase, blindPair, List.cons_append, List.nil_append,
    List.map_cons, List.map_nil, List.sum_cons,
    List.sum_nil, Polynomial.eval_sub, Polynomial.eval_add, Polynomial.eval_mul, Polynomial.eval_C,
    Polynomial.eval_neg, Polynomial.eval_pow, Polynomial.eval_X]
  have g1 : (geomPoly (1 : F) 1).eval (ω / z) = 1 := by simp [geomPoly]
  rw [g1]
  ring

theorem rcK_eval (N B n D : ℕ) (α β ω z y y1 y2 τ : F) (W P A P1 H1 H2 : Polynomial F) (g : G1) :
    (rcGPoly N B n D α β ω z y y1 y2 W P A P1 H1 H2).eval τ • g =
      rcCmG g (W.eval τ • g) (P.eval τ • g) (A.eval τ • g) (P1.eval τ • g) (H1.eval τ • g)
        (H2.eval τ • g) (rcK N B n D α β ω z y y1 y2) := by
  rw [rcCmG, clc_eq]
  simp only [List.map_cons, List.map_nil, List.sum_cons, List.sum_nil, smul_smul, ← add_smul,
    add_zero]
  congr 1
  rw [rcGPoly_eq]
  simp only [Polynomial.eval_add, Polynomial.eval_mul, Polynomial.eval_C]
  ring

/-! ### The vectors of the honest prover -/

theorem coeff_blindVec (n : ℕ) (f : ℕ → F) (δ : F) (i : ℕ) :
    (blindVec n f δ).coeff i = if i < n then f i else if i = n then δ else 0 := by
  rw [blindVec, Polynomial.coeff_add, Polynomial.finsetSum_coeff]
  simp only [Polynomial.coeff_C_mul_X_pow]
  rw [Finset.sum_ite_eq]
  simp only [Finset.mem_range]
  by_cases h : i < n
  · rw [if_pos h, if_pos h, if_neg (by omega), add_zero]
  · rw [if_neg h, if_neg h, zero_add]

theorem degree_blindVec (n : ℕ) (f : ℕ → F) (δ : F) :
    (blindVec n f δ).degree < ((n + 1 : ℕ) : WithBot ℕ) := by
  rw [Polynomial.degree_lt_iff_coeff_zero]
  intro m hm
  have : n + 1 ≤ m := by exact_mod_cast hm
  rw [coeff_blindVec, if_neg (by omega), if_neg (by omega)]

theorem degree_blindVec_zero (n : ℕ) (f : ℕ → F) :
    (blindVec n f 0).degree < ((n : ℕ) : WithBot ℕ) := by
  rw [Polynomial.degree_lt_iff_coeff_zero]
  intro m hm
  have : n ≤ m := by exact_mod_cast hm
  rw [coeff_blindVec, if_neg (by omega)]
  split_ifs <;> rfl

/-- A vector padded to length `n` followed by one blinding value. -/
theorem zeroPadAndConcat_ok (v : List F) (n : ℕ) (δ : F) (hv : v.length ≤ n) :
    ∃ r, zeroPadAndConcat v n [δ] = .ok r ∧ r.length = n + 1 ∧
      polyOf r = blindVec n (fun i => v.getD i 0) δ ∧ (∀ i, i < n → r.getD i 0 = v.getD i 0) := by
  have hc : polyOf (v ++ List.replicate (n - v.length) 0 ++ [δ]) =
      blindVec n (fun i => v.getD i 0) δ := by
    rw [polyOf_pad v _ δ n (by omega)]
    ext i
    rw [coeff_blindVec, Polynomial.coeff_add, Polynomial.coeff_C_mul_X_pow, coeff_polyOf]
    by_cases h : i < n
    · rw [if_pos h, if_neg (by omega), add_zero]
    · rw [if_neg h, List.getD_eq_default _ _ (by omega), zero_add]
  refine ⟨v ++ List.replicate (n - v.length) 0 ++ [δ], ?_, ?_, hc, ?_⟩
  · rw [zeroPadAndConcat, if_neg (by omega)]; simp
  · simp; omega
  · intro i hi
    rw [← coeff_polyOf, hc, coeff_blindVec, if_pos hi]

theorem zeroPadAndConcat_long (v u : List F) (n : ℕ) (hv : n < v.length) :
    zeroPadAndConcat v n u = .error .panic := by
  rw [zeroPadAndConcat, if_pos (by exact_mod_cast hv)]

theorem blindVec_congr (n : ℕ) (f f' : ℕ → F) (δ : F) (h : ∀ i, i < n → f i = f' i) :
    blindVec n f δ = blindVec n f' δ := by
  ext i; rw [coeff_blindVec, coeff_blindVec]
  split_ifs with h1
  · exact h i h1
  · rfl
  · rfl

theorem foldl_count (l : List ℕ) (p : ℕ → Prop) [DecidablePred p] (a : F) :
    l.foldl (fun acc j => if p j then acc + 1 else acc) a = a + ((l.filter p).length : F) := by
  induction l generalizing a with
  | nil => simp
  | cons x l ih =>
    rw [List.foldl_cons, ih]
    by_cases h : p x
    · rw [if_pos h, List.filter_cons_of_pos (by simpa using h), List.length_cons]; push_cast; ring
    · rw [if_neg h, List.filter_cons_of_neg (by simpa using h)]

theorem occurrences_eq (N : ℕ) (w : ℕ → F) (a : F) :
    (((List.range N).filter (fun j => w j = a)).length : F) = (occurrences N w a : F) := by
  congr 1

theorem getD_rcCounts (cs : RangeCheck) (w t : List F) (i : ℕ) :
    (rcCounts cs w t).getD i 0
      = multOf cs.lookupSize cs.range (fun j => w.getD j 0) (fun j => t.getD j 0) i := by
  unfold multOf
  by_cases h : i < cs.range
  · rw [if_pos h, List.getD_eq_getElem _ _ (by simpa [rcCounts] using h)]
    simp only [rcCounts, List.getElem_map, List.getElem_range]
    rw [foldl_count, zero_add]
    exact occurrences_eq _ _ _
  · rw [if_neg h, List.getD_eq_default _ _ (by simpa [rcCounts] using h)]

theorem occurrences_congr (N : ℕ) (w w' : ℕ → F) (a : F) (h : ∀ j, j < N → w j = w' j) :
    occurrences N w a = occurrences N w' a := by
  unfold occurrences
  congr 1
  apply Finset.filter_congr
  intro j hj
  rw [h j (Finset.mem_range.mp hj)]

theorem rcW_ok (rng : ℕ → F) (n : ℕ) (w : List F) (hw : w.length ≤ n) :
    ∃ r, rcW rng n w = .ok r ∧ r.length = n + 1 ∧
      polyOf r = blindVec n (fun i => w.getD i 0) (rng 0) ∧
      (∀ i, i < n → r.getD i 0 = w.getD i 0) := by
  unfold rcW; rw [sampleVec_one]
  exact zeroPadAndConcat_ok w n (rng 0) hw

theorem rcM_ok (rng : ℕ → F) (cs : RangeCheck) (w wv t : List F)
    (hw : ∀ i, i < cs.n → wv.getD i 0 = w.getD i 0) :
    ∃ r, rcM rng cs wv t = .ok r ∧ r.length = cs.n + 1 ∧
      polyOf r = blindVec cs.n (multOf cs.lookupSize cs.range (fun j => w.getD j 0)
        (fun j => t.getD j 0)) (rng 1) ∧
      (∀ i, i < cs.n → r.getD i 0 = multOf cs.lookupSize cs.range (fun j => w.getD j 0)
        (fun j => t.getD j 0) i) := by
  have hf : (rcCounts cs wv t).length = cs.range := by simp [rcCounts]
  have hg : ∀ i, (rcCounts cs wv t).getD i 0 = multOf cs.lookupSize cs.range
      (fun j => w.getD j 0) (fun j => t.getD j 0) i := by
    intro i
    rw [getD_rcCounts]
    unfold multOf
    rw [occurrences_congr _ _ (fun j => w.getD j 0) _ (fun j hj => hw j (by
      have := cs.N_le; omega))]
  unfold rcM; rw [sampleVec_one]
  obtain ⟨r, h1, h2, h3, h4⟩ := zeroPadAndConcat_ok (rcCounts cs wv t) cs.n (rng 1)
    (by rw [hf]; exact cs.B_le)
  refine ⟨r, h1, h2, by rw [h3, blindVec_congr _ _ _ _ (fun i _ => hg i)], fun i hi => ?_⟩
  rw [h4 i hi, hg]

theorem batchInv_eq (a : F) : (if a = 0 then 0 else a⁻¹) = a⁻¹ := by
  split_ifs with h
  · rw [h, inv_zero]
  · rfl

theorem getD_batchInv (N : ℕ) (β : F) (w : List F) (hN : N ≤ w.length) (i : ℕ) :
    (batchInversion ((w.take N).map (fun x => x + β))).getD i 0
      = invOf N β (fun j => w.getD j 0) i := by
  unfold invOf
  by_cases h : i < N
  · rw [if_pos h, List.getD_eq_getElem _ _ (by simp [batchInversion]; omega)]
    simp only [batchInversion, List.map_map, List.getElem_map, Function.comp, List.getElem_take,
      batchInv_eq]
    rw [List.getD_eq_getElem _ _ (by omega)]
  · rw [if_neg h, List.getD_eq_default _ _ (by simp [batchInversion]; omega)]

theorem rcR_ok (rng : ℕ → F) (cs : RangeCheck) (β : F) (w wv : List F) (hl : wv.length = cs.n + 1)
    (hw : ∀ i, i < cs.n → wv.getD i 0 = w.getD i 0) :
    ∃ r, rcR rng cs β wv = .ok r ∧ r.length = cs.n + 1 ∧
      polyOf r = blindVec cs.n (invOf cs.lookupSize β (fun j => w.getD j 0)) (rng 2) ∧
      (∀ i, i < cs.n → r.getD i 0 = invOf cs.lookupSize β (fun j => w.getD j 0) i) := by
  have hN := cs.N_le
  have hg : ∀ i, (batchInversion ((wv.take cs.lookupSize).map (fun x => x + β))).getD i 0
      = invOf cs.lookupSize β (fun j => w.getD j 0) i := by
    intro i
    rw [getD_batchInv _ _ _ (by omega)]
    unfold invOf
    by_cases h : i < cs.lookupSize
    · rw [if_pos h, if_pos h]; beta_reduce; rw [hw i (by omega)]
    · rw [if_neg h, if_neg h]
  unfold rcR; rw [sampleVec_one]
  obtain ⟨r, h1, h2, h3, h4⟩ := zeroPadAndConcat_ok
    (batchInversion ((wv.take cs.lookupSize).map (fun x => x + β))) cs.n (rng 2)
    (by simp [batchInversion]; omega)
  refine ⟨r, h1, h2, by rw [h3, blindVec_congr _ _ _ _ (fun i _ => hg i)], fun i hi => ?_⟩
  rw [h4 i hi, hg]

theorem rcS_ok (rng : ℕ → F) (cs : RangeCheck) (β : F) (t mv : List F) (m : ℕ → F)
    (ht : t.length = cs.range) (hl : mv.length = cs.n + 1)
    (hm : ∀ i, i < cs.n → mv.getD i 0 = m i) :
    ∃ r, rcS rng cs β t mv = .ok r ∧ r.length = cs.n + 1 ∧
      polyOf r = blindVec cs.n (fun i => invOf cs.range β (fun j => t.getD j 0) i * m i) (rng 3) ∧
      (∀ i, i < cs.n → r.getD i 0 = invOf cs.range β (fun j => t.getD j 0) i * m i) := by
  have hB := cs.B_le
  set b := batchInversion ((t.take cs.range).map (fun x => x + β)) with hb
  have hbl : b.length = cs.range := by simp [hb, batchInversion, ht]
  have hg : ∀ i, i < cs.n → (hadamardVector b mv).getD i 0
      = invOf cs.range β (fun j => t.getD j 0) i * m i := by
    intro i hi
    by_cases h : i < cs.range
    · rw [List.getD_eq_getElem _ _ (by simp [hadamardVector]; omega)]
      simp only [hadamardVector, List.getElem_map, List.getElem_zip]
      rw [← hm i hi, ← getD_batchInv _ _ _ (by omega), ← hb,
        List.getD_eq_getElem _ _ (by omega), List.getD_eq_getElem _ _ (by omega)]
    · rw [List.getD_eq_default _ _ (by simp [hadamardVector]; omega), invOf, if_neg h, zero_mul]
  unfold rcS; rw [sampleVec_one, ← hb]
  obtain ⟨r, h1, h2, h3, h4⟩ := zeroPadAndConcat_ok (hadamardVector b mv) cs.n (rng 3)
    (by simp [hadamardVector]; omega)
  refine ⟨r, h1, h2, by rw [h3, blindVec_congr _ _ _ _ hg], fun i hi => ?_⟩
  rw [h4 i hi, hg i hi]

theorem vectorIndex_succ (w : List F) (i : ℕ) : vectorIndex w ((i : ℤ) + 1) = w.getD i 0 := by
  have := rep_vec w ((i : ℤ) + 1)
  beta_reduce at this
  rw [this, add_sub_cancel_right, zc_natCast, coeff_polyOf]

theorem rangeIndex_succ (N i : ℕ) : (rangeIndex 1 N ((i : ℤ) + 1) : F) = if i < N then 1 else 0 := by
  rw [rangeIndex]
  by_cases h : i < N
  · rw [if_pos h, if_pos (by omega)]
  · rw [if_neg h, if_neg (by omega)]

theorem rcRt_ok (rng : ℕ → F) (cs : RangeCheck) (β β1 : F) (rv sv : List F) (w t m : ℕ → F)
    (hr : ∀ i, i < cs.n → rv.getD i 0 = invOf cs.lookupSize β w i)
    (hs : ∀ i, i < cs.n → sv.getD i 0 = invOf cs.range β t i * m i) :
    (rcRt rng cs β1 rv sv).length = cs.n + 1 ∧
      polyOf (rcRt rng cs β1 rv sv)
        = blindVec cs.n (runSum cs.lookupSize cs.range β w t m) (rng 4) := by
  unfold rcRt; rw [sampleVec_one]
  set f : ℤ → F := fun i => powerLinearCombination β1
    [vectorIndex rv i * rangeIndex 1 cs.lookupSize i - vectorIndex sv i * rangeIndex 1 cs.range i]
    with hf
  obtain ⟨h1, h2⟩ := C09_plus 0 cs.n f
  have hterm : ∀ i : ℕ, i < cs.n → f ((i : ℤ) + 1)
      = invOf cs.lookupSize β w i - invOf cs.range β t i * m i := by
    intro i hi
    simp only [hf, powerLinearCombination, List.foldl_cons, List.foldl_nil, zero_add, one_mul]
    rw [vectorIndex_succ, vectorIndex_succ, rangeIndex_succ, rangeIndex_succ, hr i hi, hs i hi]
    unfold invOf
    split_ifs <;> ring
  have hsum : ∀ k, k < cs.n → (accumulateVectorPlus 0 cs.n f).getD k 0
      = runSum cs.lookupSize cs.range β w t m k := by
    intro k hk
    rw [h2 k hk, zero_add, runSum]
    apply Finset.sum_congr rfl
    intro i hi
    exact hterm i (by have := Finset.mem_range.mp hi; omega)
  refine ⟨by rw [List.length_append, h1]; rfl, ?_⟩
  ext k
  rw [coeff_blindVec, coeff_polyOf]
  by_cases hk : k < cs.n
  · rw [if_pos hk, List.getD_append _ _ _ _ (by omega), hsum k hk]
  · rw [if_neg hk, List.getD_append_right _ _ _ _ (by omega), h1]
    by_cases hkn : k = cs.n
    · subst hkn; simp
    · rw [if_neg hkn, List.getD_eq_default _ _ (by simp; omega)]

/-! ### The blinding vector -/

theorem RcRun.base_high (s : RcRun F) (hs : s.Good) (i : ℕ) (hi : s.cs.n + 1 ≤ i) :
    hadamardEntry s.base i = 0 := by
  obtain ⟨hN, hB, lw, lt, lm, lr, ls, dt1⟩ := hs
  have h1 := s.cs.N_le
  have h2 := s.cs.B_le
  have hz0 : ∀ v : List F, v.length ≤ i → (polyOf v).coeff i = 0 := by
    intro v hv; rw [coeff_polyOf, List.getD_eq_default _ _ (by omega)]
  have g1 : ∀ n : ℕ, n ≤ i → (geomPoly (1 : F) n).coeff i = 0 := by
    intro n h; rw [coeff_geomPoly, if_neg (by omega)]
  have q3 : (X ^ (s.cs.n - 1) : Polynomial F).coeff i = 0 := by
    rw [Polynomial.coeff_X_pow, if_neg (by omega)]
  simp only [RcRun.base, rcBase, hadamardEntry, List.map_cons, List.map_nil, List.sum_cons,
    List.sum_nil, Polynomial.coeff_C_mul, Polynomial.coeff_neg, Polynomial.coeff_add,
    Polynomial.coeff_sub, q3, hz0 s.r (by omega), hz0 s.s (by omega), hz0 s.m (by omega),
    g1 s.cs.lookupSize (by omega), g1 s.cs.n (by omega)]
  ring

theorem rcT1_eq (rng : ℕ → F) (s : RcRun F) (hs : s.Good) :
    (rcT1 rng s.cs s.alpha s.beta s.w s.t s.m s.r s.s s.rt).length = 3 ∧
      polyOf (rcT1 rng s.cs s.alpha s.beta s.w s.t s.m s.r s.s s.rt)
        = blindPoly s.cs.n 1 (rng 5) s.base := by
  unfold rcT1
  rw [sampleVec_one, show ((0 : ℤ) + 2) = ((2 : ℕ) : ℤ) by norm_num]
  refine ⟨by simp [length_expressionVector], ?_⟩
  have hs' := hs
  obtain ⟨hN, hB, lw, lt, lm, lr, ls, dt1⟩ := hs'
  have h1 := s.cs.N_le
  have h2 := s.cs.B_le
  apply polyOf_blind _ _ _ (by omega)
  · intro j
    have e : (j : ℤ) + 1 + s.cs.n = ((s.cs.n + j : ℕ) : ℤ) + 1 := by push_cast; ring
    have g1 : ∀ n : ℕ, n ≤ s.cs.n → (geomPoly (1 : F) n).coeff (s.cs.n + j) = 0 := by
      intro n h; rw [coeff_geomPoly, if_neg (by omega)]
    have g2 : ∀ n : ℕ, n ≤ s.cs.n → (rangeIndex 1 n (((s.cs.n + j : ℕ) : ℤ) + 1) : F) = 0 := by
      intro n h; rw [rangeIndex_succ, if_neg (by omega)]
    have q3 : (X ^ (s.cs.n - 1) : Polynomial F).coeff (s.cs.n + j) = 0 := by
      rw [Polynomial.coeff_X_pow, if_neg (by omega)]
    simp only [minusI64_one, e, g2 _ h1, g2 _ h2, g2 s.cs.n le_rfl]
    simp only [RcRun.base, rcBase, hadamardEntry, List.map_cons, List.map_nil, List.sum_cons,
      List.sum_nil, Polynomial.coeff_C_mul, Polynomial.coeff_neg, Polynomial.coeff_add,
      Polynomial.coeff_sub, q3, g1 _ h1, g1 _ h2, g1 s.cs.n le_rfl, vectorIndex_succ, coeff_polyOf]
    ring
  · intro j hj; exact s.base_high hs _ (by omega)

/-! ### Entries -/

/-- Entries below `n` of the sum of Hadamard products, for arbitrary polynomials. -/
theorem rc_entry_lt (N B n : ℕ) (hn : 1 ≤ n) (α β : F) (W P M R S A P1 : Polynomial F) (i : ℕ)
    (hi : i < n) :
    hadamardEntry (rcPolys N B n α β W P M R S A P1) i =
      (R.coeff i * (W.coeff i + β * (if i < N then 1 else 0)) - (if i < N then 1 else 0))
      + α * (S.coeff i * (P.coeff i + β * (if i < B then 1 else 0))
        - M.coeff i * (if i < B then 1 else 0))
      + α ^ 2 * (R.coeff i * (if i < N then 1 else 0) - S.coeff i * (if i < B then 1 else 0)
        - (A.coeff i - (if i = 0 then 0 else A.coeff (i - 1))))
      + α ^ 3 * (if i = n - 1 then A.coeff i else 0) := by
  have hX : (X * A).coeff i = if i = 0 then 0 else A.coeff (i - 1) := by
    cases i with
    | zero => simp
    | succ k => simp
  have hg : (geomPoly (1 : F) n).coeff i = 1 := by rw [coeff_geomPoly, if_pos hi, one_pow]
  have hg' : ∀ k, (geomPoly (1 : F) k).coeff i = if i < k then 1 else 0 := by
    intro k; rw [coeff_geomPoly]; simp
  have hxn : (X ^ (n - 1) : Polynomial F).coeff i = if i = n - 1 then 1 else 0 := by
    rw [Polynomial.coeff_X_pow]
  rw [rcPolys, entries_blind_lt n 1 hn _ _ i hi]
  simp only [hadamardEntry, rcBase, List.map_cons, List.map_nil, List.sum_cons, List.sum_nil,
    Polynomial.coeff_sub, Polynomial.coeff_add, Polynomial.coeff_C_mul, Polynomial.coeff_neg, hX, hg,
    hg', hxn]
  split_ifs <;> ring

/-- The log-derivative identity: every looked-up value is in the table, whose entries are
different. -/
theorem lookup_sum (N B : ℕ) (w t : ℕ → F) (f : F → F)
    (hinj : ∀ i j, i < B → j < B → t i = t j → i = j) (h : LookupHolds N B w t) :
    ∑ i ∈ Finset.range B, (occurrences N w (t i) : F) * f (t i)
      = ∑ j ∈ Finset.range N, f (w j) := by
  have h1 : ∀ i ∈ Finset.range B, (occurrences N w (t i) : F) * f (t i)
      = ∑ j ∈ Finset.range N, if w j = t i then f (t i) else 0 := by
    intro i _
    rw [← Finset.sum_filter, Finset.sum_const, nsmul_eq_mul]; rfl
  rw [Finset.sum_congr rfl h1, Finset.sum_comm]
  apply Finset.sum_congr rfl
  intro j hj
  obtain ⟨i0, hi0, e⟩ := h j (Finset.mem_range.mp hj)
  rw [Finset.sum_eq_single i0]
  · rw [if_pos e, e]
  · intro i hi hne
    rw [if_neg]
    intro e'
    exact hne (hinj i i0 (Finset.mem_range.mp hi) hi0 (e'.symm.trans e))
  · intro hn; exact absurd (Finset.mem_range.mpr hi0) hn

theorem runSum_last (N B n : ℕ) (hn : 1 ≤ n) (hN : N ≤ n) (hB : B ≤ n) (β : F) (w t : ℕ → F)
    (hinj : ∀ i j, i < B → j < B → t i = t j → i = j) (h : LookupHolds N B w t) :
    runSum N B β w t (multOf N B w t) (n - 1) = 0 := by
  unfold runSum
  rw [show n - 1 + 1 = n by omega, Finset.sum_sub_distrib]
  have e1 : ∑ k ∈ Finset.range n, invOf N β w k = ∑ j ∈ Finset.range N, (w j + β)⁻¹ := by
    unfold invOf
    rw [← Finset.sum_filter]
    congr 1
    ext k; simp only [Finset.mem_filter, Finset.mem_range]; omega
  have e2 : ∑ k ∈ Finset.range n, invOf B β t k * multOf N B w t k
      = ∑ i ∈ Finset.range B, (occurrences N w (t i) : F) * (t i + β)⁻¹ := by
    have : ∀ k ∈ Finset.range n, invOf B β t k * multOf N B w t k
        = if k < B then (occurrences N w (t k) : F) * (t k + β)⁻¹ else 0 := by
      intro k _
      unfold invOf multOf
      split_ifs <;> ring
    rw [Finset.sum_congr rfl this, ← Finset.sum_filter]
    congr 1
    ext k; simp only [Finset.mem_filter, Finset.mem_range]; omega
  rw [e1, e2, lookup_sum N B w t (fun a => (a + β)⁻¹) hinj h, sub_self]

/-- Entries below `n` vanish for the honest vectors. -/
theorem rc_entries_lt (N B n : ℕ) (hn : 1 ≤ n) (hN : N ≤ n) (hB : B ≤ n) (α β : F) (w t : ℕ → F)
    (hinj : ∀ i j, i < B → j < B → t i = t j → i = j) (h : LookupHolds N B w t)
    (hβ : ∀ j, j < N → w j + β ≠ 0) (W P M R S A P1 : Polynomial F)
    (hW : ∀ i, i < n → W.coeff i = w i) (hP : ∀ i, i < n → P.coeff i = t i)
    (hM : ∀ i, i < n → M.coeff i = multOf N B w t i)
    (hR : ∀ i, i < n → R.coeff i = invOf N β w i)
    (hS : ∀ i, i < n → S.coeff i = invOf B β t i * multOf N B w t i)
    (hA : ∀ i, i < n → A.coeff i = runSum N B β w t (multOf N B w t) i) (i : ℕ) (hi : i < n) :
    hadamardEntry (rcPolys N B n α β W P M R S A P1) i = 0 := by
  rw [rc_entry_lt N B n hn α β W P M R S A P1 i hi]
  have e1 : R.coeff i * (W.coeff i + β * (if i < N then 1 else 0)) - (if i < N then 1 else 0) = 0 := by
    rw [hR i hi, hW i hi, invOf]
    by_cases hiN : i < N
    · rw [if_pos hiN, if_pos hiN, mul_one, inv_mul_cancel₀ (hβ i hiN), sub_self]
    · rw [if_neg hiN, if_neg hiN]; ring
  have e2 : S.coeff i * (P.coeff i + β * (if i < B then 1 else 0))
        - M.coeff i * (if i < B then 1 else 0) = 0 := by
    rw [hS i hi, hP i hi, hM i hi, invOf]
    by_cases hiB : i < B
    · rw [if_pos hiB, if_pos hiB, mul_one, mul_one]
      by_cases hz : t i + β = 0
      · -- then the value occurs nowhere
        have : multOf N B w t i = 0 := by
          rw [multOf, if_pos hiB, occurrences, Finset.card_eq_zero.mpr, Nat.cast_zero]
          rw [Finset.filter_eq_empty_iff]
          intro j hj e
          exact hβ j (Finset.mem_range.mp hj) (by rw [e, hz])
        rw [this]; ring
      · field_simp; ring
    · rw [if_neg hiB, if_neg hiB]; ring
  have e3 : R.coeff i * (if i < N then 1 else 0) - S.coeff i * (if i < B then 1 else 0)
        - (A.coeff i - (if i = 0 then 0 else A.coeff (i - 1))) = 0 := by
    have r1 : R.coeff i * (if i < N then 1 else 0) = invOf N β w i := by
      rw [hR i hi, invOf]; split_ifs <;> ring
    have r2 : S.coeff i * (if i < B then 1 else 0) = invOf B β t i * multOf N B w t i := by
      rw [hS i hi, invOf]; split_ifs <;> ring
    rw [r1, r2, hA i hi]
    by_cases h0 : i = 0
    · subst h0; rw [if_pos rfl]; simp [runSum]
    · rw [if_neg h0, hA (i - 1) (by omega)]
      unfold runSum
      rw [Finset.sum_range_succ, show i - 1 + 1 = i by omega]; ring
  have e4 : (if i = n - 1 then A.coeff i else 0) = 0 := by
    by_cases hl : i = n - 1
    · rw [if_pos hl, hA i hi, hl, runSum_last N B n hn hN hB β w t hinj h]
    · rw [if_neg hl]
  rw [e1, e2, e3, e4]; ring

end VO
