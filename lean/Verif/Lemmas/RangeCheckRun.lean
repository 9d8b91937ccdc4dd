import Verif.Lemmas.RangeCheckComplete

set_option linter.unusedSectionVars false

namespace VO
open Spec
open Polynomial (X toLaurent)
open LaurentPolynomial

variable {F G1 G2 GT : Type} [Field F] [DecidableEq F]
  [AddCommGroup G1] [Module F G1] [DecidableEq G1] [AddCommGroup G2] [Module F G2]
  [AddCommGroup GT] [Module F GT] [DecidableEq GT]

theorem length_rcTable (B : ℕ) : (rcTable B : List F).length = B := by simp [rcTable]

theorem getD_rcTable (B i : ℕ) : (rcTable B : List F).getD i 0 = if i < B then (i : F) else 0 := by
  by_cases h : i < B
  · rw [if_pos h, List.getD_eq_getElem _ _ (by rwa [length_rcTable])]
    unfold rcTable; simp only [List.getElem_map, List.getElem_range]
  · rw [if_neg h, List.getD_eq_default _ _ (by rw [length_rcTable]; omega)]

theorem coeff_tablePoly (B i : ℕ) : (tablePoly B : Polynomial F).coeff i
    = if i < B then (i : F) else 0 := by
  rw [tablePoly, Polynomial.finsetSum_coeff]
  simp only [Polynomial.coeff_C_mul_X_pow]
  rw [Finset.sum_ite_eq]
  simp

theorem polyOf_rcTable (B : ℕ) : polyOf (rcTable B : List F) = tablePoly B := by
  ext i; rw [coeff_polyOf, getD_rcTable, coeff_tablePoly]

theorem rcIndex_ok (τ : F) (g : G1) (h : G2) (D : ℕ) (pp : UniversalParams G1 G2)
    (hs : kzgSetup D τ g h = .ok pp) (cs : RangeCheck) (hB : 1 ≤ cs.range) (hD : cs.n ≤ D) :
    ∃ kvk : VerifierKey G1 G2, HonestVk τ g h kvk ∧
      rcIndex (F := F) pp cs = .ok (⟨⟨(X ^ (cs.lookupSize - cs.range) * (tablePoly cs.range : Polynomial F)).eval τ • g, kvk,
          cs, D + 1⟩, srs τ g D, cs.n, rcTable cs.range⟩,
        ⟨(X ^ (cs.lookupSize - cs.range) * (tablePoly cs.range : Polynomial F)).eval τ • g, kvk, cs, D + 1⟩) := by
  have h1' := cs.N_le
  have h2' := cs.B_le
  obtain ⟨kvk, h1, h2⟩ := C17_setup_vk D τ g h pp hs
  obtain ⟨pp', h3, h4, -⟩ := (C17_setup D τ g h).2 (by omega)
  rw [hs] at h3
  obtain rfl := Except.ok.inj h3
  refine ⟨kvk, h2, ?_⟩
  have hne : (rcTable cs.range : List F) ≠ [] := by
    intro h; have := length_rcTable (F := F) cs.range; simp [h] at this; omega
  have hc : commitVector (srs τ g D) (rcTable cs.range : List F) cs.lookupSize
      = .ok ((X ^ (cs.lookupSize - cs.range) * tablePoly cs.range).eval τ • g) := by
    have h5 := C23_vector_commitment τ g D (rcTable cs.range : List F) cs.lookupSize hne
    rw [length_rcTable, polyOf_rcTable] at h5
    by_cases hc : cs.range ≤ cs.lookupSize
    · rw [commitVector, h5.1 hc (by omega)]; rfl
    · rw [commitVector, h5.2.1 (by omega) (by omega),
        show cs.lookupSize - cs.range = 0 by omega, pow_zero, one_mul]; rfl
  simp only [rcIndex, h4, length_srs]
  rw [hc, h1]
  simp only [assertR, bind, Except.bind]
  rw [if_pos (by omega)]
  rfl

theorem rcClosedEvals_ok (s : RcRun F) (hs : s.Good) (hω : s.omega ≠ 0) (z : F) (hz : z ≠ 0)
    (hzo : z ≠ s.omega) :
    s.closedEvals z ((polyOf s.r).eval (s.omega / z)) ((polyOf s.s).eval (s.omega / z))
      ((polyOf s.m).eval (s.omega / z)) = .ok (s.polys.map (fun q => q.1.eval (s.omega / z))) := by
  obtain ⟨hN, hB, -⟩ := hs
  have h1 := s.cs.N_le
  have h2 : s.omega - 1 * z ≠ 0 := by rw [one_mul]; exact sub_ne_zero.mpr (Ne.symm hzo)
  have hx0 : s.omega / z ≠ 0 := div_ne_zero hω hz
  have hx1 : s.omega / z ≠ 1 := by
    intro h; rw [div_eq_one_iff_eq hz] at h; exact hzo h.symm
  have hx1' : (1 : F) - s.omega / z ≠ 0 := sub_ne_zero.mpr (Ne.symm hx1)
  have px : ∀ k : ℕ, power (s.omega / z) (k : ℤ) = (s.omega / z) ^ k := fun k =>
    power_natCast (Or.inr hx0)
  have px1 : power (s.omega / z) ((s.cs.n : ℤ) - 1) = (s.omega / z) ^ (s.cs.n - 1) := by
    rw [← px]; congr 1; omega
  have e : s.omega - 1 * z = -(z * (1 - s.omega / z)) := by field_simp; ring
  have g1 : (geomPoly (1 : F) 1).eval (s.omega / z) = 1 := by simp [geomPoly]
  simp only [RcRun.closedEvals, divR_ok hz, divR_ok h2, bind, Except.bind, pure, Except.pure]
  simp only [RcRun.polys, rcPolys, rcBase, blindPair, List.cons_append, List.nil_append,
    List.map_cons, List.map_nil, Polynomial.eval_mul, Polynomial.eval_C, Polynomial.eval_neg,
    Polynomial.eval_pow, Polynomial.eval_X, px, px1, power_two, power_three,
    eval_geomPoly_one _ _ hx1]
  rw [e]
  generalize (s.omega / z) = x at *
  congr 1
  simp only [List.cons.injEq, and_true]
  refine ⟨by ring, ?_, by ring, by ring, by ring, by ring, ?_, trivial, ?_⟩
  · field_simp
  · field_simp
  · have g2 : ((1 : F) - x ^ 1) / (1 - x) = 1 := by rw [pow_one, div_self hx1']
    rw [g2]; ring

theorem rcGvec_ok (N B n D : ℕ) (hD : n ≤ D) (w t rt t1 h1 h2 : List F) (hw : w.length ≤ D + 1)
    (ht : t.length ≤ D + 1) (hrt : rt.length ≤ D + 1)
    (ht1 : (polyOf t1).degree < ((2 : ℕ) : WithBot ℕ)) (hn : 1 ≤ n) (l1 : h1.length = n)
    (l2 : h2.length = n) (α β ω z y y1 y2 : F) :
    ∃ gv, rcG n (D + 1) w t rt t1 h1 h2 (rcK N B n (D + 1) α β ω z y y1 y2) = .ok gv ∧
      gv.length = D + 1 ∧ polyOf gv = rcGPoly N B n (D + 1) α β ω z y y1 y2 (polyOf w) (polyOf t)
        (polyOf rt) (polyOf t1) (X ^ (D + 1 - n) * polyOf h1) (polyOf h2) := by
  set k := rcK N B n (D + 1) α β ω z y y1 y2 with hk
  have hrep : Rep (fun i => linearCombination 0 [(k.c14, vectorIndex w i), (k.c19, vectorIndex t i),
      (k.c25, vectorIndex rt i), (k.c28, vectorIndex t1 i),
      (k.c29, vectorIndex h1 (-((D + 1 : ℕ) : ℤ) + i + 0 + n)), (k.c30, vectorIndex h2 i)])
      (Polynomial.C k.c14 * polyOf w + Polynomial.C k.c19 * polyOf t
        + Polynomial.C k.c25 * polyOf rt + Polynomial.C k.c28 * polyOf t1
        + Polynomial.C k.c29 * (X ^ (D + 1 - n) * polyOf h1)
        + Polynomial.C k.c30 * polyOf h2) := by
    refine ((((((((rep_vec w).cmul k.c14).add ((rep_vec t).cmul k.c19)).add
      ((rep_vec rt).cmul k.c25)).add ((rep_vec t1).cmul k.c28)).add
      (((rep_vec h1).shift (D + 1 - n)).cmul k.c29)).add
      ((rep_vec h2).cmul k.c30))).congrf ?_
    intro i
    have e : (-((D + 1 : ℕ) : ℤ) + i + 0 + n) = i - ((D + 1 - n : ℕ) : ℤ) := by omega
    simp only [linearCombination, List.foldl_cons, List.foldl_nil, e]
    ring
  have dw : (polyOf w).degree < ((D + 1 : ℕ) : WithBot ℕ) := degLt_mono (degree_polyOf_lt w) hw
  have dt : (polyOf t).degree < ((D + 1 : ℕ) : WithBot ℕ) := degLt_mono (degree_polyOf_lt t) ht
  have dr : (polyOf rt).degree < ((D + 1 : ℕ) : WithBot ℕ) := degLt_mono (degree_polyOf_lt rt) hrt
  have d1 := degree_polyOf_lt h1
  have d2 := degree_polyOf_lt h2
  rw [l1] at d1; rw [l2] at d2
  have hv := polyOf_expressionVector hrep (D + 1)
    (degLt_add (degLt_add (degLt_add (degLt_add (degLt_add (degLt_C_mul dw _) (degLt_C_mul dt _))
    (degLt_C_mul dr _))
    (degLt_C_mul (degLt_mono ht1 (by omega)) _)) (degLt_C_mul (degLt_mono (degLt_X_pow_mul d1 _)
      (by omega)) _)) (degLt_C_mul (degLt_mono d2 (by omega)) _))
  obtain ⟨r, e1, e2, e3⟩ := addToFirstItem_ok (expressionVector ((D + 1 : ℕ) : ℤ)
    (fun i => linearCombination 0 [(k.c14, vectorIndex w i), (k.c19, vectorIndex t i),
      (k.c25, vectorIndex rt i), (k.c28, vectorIndex t1 i),
      (k.c29, vectorIndex h1 (-((D + 1 : ℕ) : ℤ) + i + 0 + n)), (k.c30, vectorIndex h2 i)])) (by
      intro h; have := congrArg List.length h; rw [length_expressionVector] at this; simp at this)
      k.c15
  refine ⟨r, e1, by rw [e2, length_expressionVector]; simp, ?_⟩
  rw [e3, hv, rcGPoly_eq]
  ring

/-! ### What a successful run of the convolution checks shows -/

theorem convChecks_mem (M : ℕ) (ω : F) (l : List (((ℤ → F) × (ℤ → F)) × (ℤ → F))) (acc r : List F)
    (h : convChecks M ω l acc = .ok r) : ∀ x ∈ l,
      zeroPad (naiveProduct M ω x.1) (2 * M + 1)
        = .ok (expressionVector (2 * M + 1) (fun i => x.2 (i - M))) := by
  induction l generalizing acc with
  | nil => intro x hx; simp at hx
  | cons p l ih =>
    obtain ⟨p, f⟩ := p
    rw [convChecks] at h
    simp only [bind, Except.bind] at h
    cases hz : zeroPad (naiveProduct M ω p) (2 * M + 1) with
    | error e => rw [hz] at h; cases h
    | ok padded =>
      rw [hz] at h
      simp only [checkVectorEq_eq] at h
      by_cases he : expressionVector (2 * (M : ℤ) + 1) (fun i => f (i - M)) = padded
      · rw [if_pos he] at h
        intro x hx
        rcases List.mem_cons.mp hx with rfl | hx
        · rw [hz, he]
        · exact ih _ h x hx
      · rw [if_neg he] at h; cases h

/-- An equality checked for a pair, read off at one coefficient. -/
theorem conv_coeff (M : ℕ) (ω : F) (p : (ℤ → F) × (ℤ → F)) (f : ℤ → F)
    (h : zeroPad (naiveProduct M ω p) (2 * M + 1)
        = .ok (expressionVector (2 * M + 1) (fun i => f (i - M)))) (i : ℤ) (h1 : -(M : ℤ) ≤ i)
    (h2 : i ≤ M) :
    f (i + 1) = (omegaInv ω (polyOf (expressionVector (M + 1) p.1))
        * toLaurent (polyOf (expressionVector (M + 1) p.2)) : F[T;T⁻¹]).coeff i := by
  have hl : (naiveProduct M ω p).length ≤ 2 * M + 1 := length_naiveProduct_le M ω p
  obtain ⟨r, k1, k2, k3⟩ := zeroPad_ok (naiveProduct M ω p) (2 * M + 1) hl
  have e : (2 * (M : ℤ) + 1) = ((2 * M + 1 : ℕ) : ℤ) := by push_cast; rfl
  rw [e, k1] at h
  have hr := Except.ok.inj h
  obtain ⟨k, hk⟩ : ∃ k : ℕ, i + M = k := ⟨(i + M).toNat, by omega⟩
  have h3 : r.getD k 0 = f (i + 1) := by
    have := getD_expressionVector ((2 * M + 1 : ℕ) : ℤ) (fun i => f (i - M)) k
    rw [hr, this, if_pos (by omega)]
    show f ((k : ℤ) + 1 - M) = f (i + 1)
    rw [← hk, show i + M + 1 - (M : ℤ) = i + 1 by ring]
  have h4 := congrArg toLaurent k3
  rw [naiveProduct, polyOf_vectorPolyMulNoDict, map_mul, toLaurent_vectorReverseOmega,
    length_expressionVector] at h4
  have h5 := congrArg (fun P : F[T;T⁻¹] => P.coeff (k : ℤ)) h4
  rw [lcoeff_toLaurent, zc_natCast, coeff_polyOf, h3, mul_assoc, lcoeff_T_mul] at h5
  rw [h5]
  rw [show (k : ℤ) - ((((M : ℤ) + 1).toNat : ℤ) - 1) = i by omega]

end VO
