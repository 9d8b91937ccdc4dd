import Verif.Lemmas.FibonacciComplete

set_option linter.unusedSectionVars false

namespace VO
open Spec
open Polynomial (X toLaurent)
open LaurentPolynomial (T)

variable {F G1 G2 GT : Type} [Field F] [DecidableEq F]
  [AddCommGroup G1] [Module F G1] [DecidableEq G1] [AddCommGroup G2] [Module F G2]
  [AddCommGroup GT] [Module F GT] [DecidableEq GT]

theorem fibW_ok (rng : ℕ → F) (n : ℕ) (w : List F) (hw : w.length = n) :
    fibW rng n w = .ok (w ++ [rng 0]) := by
  rw [fibW, zeroPadAndConcat, sampleVec_one, if_neg (by omega)]
  simp [hw]

theorem fibR_ok (rng : ℕ → F) (n : ℕ) (hn : 1 ≤ n) (w t : List F) (hw : w.length = n)
    (ht : t.length = n) :
    ∃ r, fibR rng n (w ++ [rng 0]) t = .ok r ∧ r.length = n + 1 ∧
      polyOf r = fibRPoly n (fun i => t.getD i 0) (fun i => w.getD i 0) (rng 1) := by
  set l := (((0 :: (w ++ [rng 0])).take n).zip t).map (fun p => p.1 * p.2) with hl
  have hlen : l.length = n := by simp [hl, ht, hw]; omega
  refine ⟨l ++ [rng 1], ?_, by simp [hlen], ?_⟩
  · rw [fibR, zeroPadAndConcat, sampleVec_one, ← hl, if_neg (by omega), hlen]
    simp
  · ext k
    rw [coeff_polyOf, fibRPoly, Polynomial.coeff_add, Polynomial.finsetSum_coeff]
    simp only [Polynomial.coeff_C_mul_X_pow]
    rw [Finset.sum_ite_eq]
    simp only [Finset.mem_range]
    by_cases hk : k < n
    · rw [if_pos hk, if_neg (c := k = n) (by omega), add_zero, List.getD_append _ _ _ _ (by omega),
        List.getD_eq_getElem _ _ (by omega)]
      simp only [hl, List.getElem_map, List.getElem_zip, List.getElem_take]
      cases k with
      | zero => simp
      | succ k =>
        simp only [List.getElem_cons_succ, Nat.add_sub_cancel, if_neg (Nat.succ_ne_zero k)]
        rw [List.getElem_append_left (by omega), List.getD_eq_getElem _ _ (by omega),
          List.getD_eq_getElem _ _ (by omega)]
    · rw [if_neg hk, zero_add, List.getD_append_right _ _ _ _ (by omega), hlen]
      by_cases hkn : k = n
      · subst hkn; simp
      · rw [if_neg hkn]
        obtain ⟨m, hm⟩ : ∃ m, k - n = m + 1 := ⟨k - n - 1, by omega⟩
        rw [hm]; simp

theorem vectorIndex_out (v : List F) (i : ℤ) (h : (v.length : ℤ) < i) : vectorIndex v i = 0 := by
  rw [vectorIndex, if_neg (by omega)]

theorem fibT1_ok (rng : ℕ → F) (n : ℕ) (α : F) (w r t : List F) (ht : t.length = n) :
    (fibT1 rng n α w r t).length = 5 ∧ polyOf (fibT1 rng n α w r t) = Polynomial.C (rng 2) := by
  have h : expressionVector (2 + 2) (fun i =>
      α * vectorIndex r (minusI64 (i + n) 1) * rangeIndex 1 n (i + n)
        + -α * vectorIndex w (minusI64 (i + n) 2) * vectorIndex t (i + n))
      = List.replicate 4 0 := by
    rw [List.eq_replicate_iff]
    refine ⟨by rw [length_expressionVector]; rfl, ?_⟩
    intro b hb
    obtain ⟨k, -, rfl⟩ := List.mem_map.mp hb
    have hr : rangeIndex 1 (n : ℤ) ((k : ℤ) + 1 + n) = (0 : F) := by
      rw [rangeIndex, if_neg (by omega)]
    beta_reduce
    rw [hr, vectorIndex_out t _ (by omega)]
    ring
  unfold fibT1
  rw [h, sampleVec_one]
  refine ⟨by simp, ?_⟩
  rw [List.singleton_append, polyOf_cons, polyOf_replicate_zero, mul_zero, add_zero]

theorem fibIndex_ok (β : F) (g : G1) (h : G2) (D : ℕ) (pp : UniversalParams G1 G2)
    (hs : kzgSetup D β g h = .ok pp) (n : ℕ) (t : List F) (ht : t.length = n) (hn : 1 ≤ n)
    (hD : n + 2 ≤ D) : ∃ kvk : VerifierKey G1 G2, HonestVk β g h kvk ∧
      fibIndex pp ⟨n, t⟩ = .ok (⟨⟨(polyOf t).eval β • g, kvk, n, D + 1⟩, srs β g D, n + 2, t⟩,
        ⟨(polyOf t).eval β • g, kvk, n, D + 1⟩) := by
  obtain ⟨kvk, h1, h2⟩ := C17_setup_vk D β g h pp hs
  obtain ⟨pp', h3, h4, -⟩ := (C17_setup D β g h).2 (by omega)
  rw [hs] at h3
  obtain rfl := Except.ok.inj h3
  refine ⟨kvk, h2, ?_⟩
  have hne : t ≠ [] := by intro h; simp [h] at ht; omega
  simp only [fibIndex, fibMaxDegree, h4, length_srs]
  rw [commitVector_ok' β g D t n hne ht (by omega), h1]
  simp only [assertR, bind, Except.bind]
  rw [if_pos (by omega)]
  rfl

theorem closedEvals_ok (s : FibRun F) (hs : s.Good) (z : F) (hz : z ≠ 0) (hzo : z ≠ s.omega) :
    s.closedEvals z ((polyOf s.w).eval (s.omega / z)) ((polyOf s.t).eval (s.omega / z))
      ((polyOf s.r).eval (s.omega / z)) = .ok (s.polys.map (fun q => q.1.eval (s.omega / z))) := by
  obtain ⟨hn, -⟩ := hs
  have h1 : power z 2 ≠ 0 := by rw [power_two]; exact pow_ne_zero _ hz
  have h2 : s.omega - z ≠ 0 := sub_ne_zero.mpr (Ne.symm hzo)
  have h3 : power z 2 * (s.omega - 1 * z) ≠ 0 := by rw [one_mul]; exact mul_ne_zero h1 h2
  simp only [FibRun.closedEvals, divR_ok hz, divR_ok h1, divR_ok h3, bind, Except.bind, pure,
    Except.pure]
  have po : power (s.omega / z) (s.n : ℤ) = (s.omega / z) ^ s.n := power_natCast (Or.inl (by omega))
  simp only [FibRun.polys, fibPolys, List.map_cons, List.map_nil, Polynomial.eval_sub,
    Polynomial.eval_mul, Polynomial.eval_C, Polynomial.eval_neg, Polynomial.eval_pow,
    Polynomial.eval_X, eval_geomPoly_three, po, power_two, power_three, power_four,
    power_pred _ hn]
  congr 1
  simp only [List.cons.injEq, and_true]
  refine ⟨by ring, by ring, by field_simp, by field_simp; ring, by ring, by field_simp; ring, ?_⟩
  generalize (s.omega / z) ^ s.n = u
  rw [one_mul, one_mul, div_eq_iff (mul_ne_zero (pow_ne_zero _ hz) h2)]
  field_simp
  ring

theorem fibGvec_ok (n D : ℕ) (hD : n + 2 ≤ D) (t t1 h1 h2 : List F) (ht : t.length ≤ D)
    (ht1 : (polyOf t1).degree < ((4 : ℕ) : WithBot ℕ)) (hn : 2 ≤ n) (l1 : h1.length = 2 + n)
    (l2 : h2.length = 2 + n) (a b c α ω z y y1 y2 : F) :
    ∃ gv, fibG n (D + 1) t t1 h1 h2 (fibK n (D + 1) a b c α ω z y y1 y2) = .ok gv ∧
      gv.length = D + 1 ∧ polyOf gv = fibGPoly n (D + 1) a b c α ω z y y1 y2 (polyOf t) (polyOf t1)
        (X ^ (D + 1 - (n + 2)) * polyOf h1) (polyOf h2) := by
  set k := fibK n (D + 1) a b c α ω z y y1 y2 with hk
  have hrep : Rep (fun i => linearCombination 0 [(k.2.1, vectorIndex t i),
      (k.2.2.1, vectorIndex t1 i), (k.2.2.2.1, vectorIndex h1 (-((D + 1 : ℕ) : ℤ) + i + 2 + n)),
      (k.2.2.2.2, vectorIndex h2 i)])
      (Polynomial.C k.2.1 * polyOf t + Polynomial.C k.2.2.1 * polyOf t1
        + Polynomial.C k.2.2.2.1 * (X ^ (D + 1 - (n + 2)) * polyOf h1)
        + Polynomial.C k.2.2.2.2 * polyOf h2) := by
    refine ((((((rep_vec t).cmul k.2.1).add ((rep_vec t1).cmul k.2.2.1)).add
      (((rep_vec h1).shift (D + 1 - (n + 2))).cmul k.2.2.2.1)).add
      ((rep_vec h2).cmul k.2.2.2.2))).congrf ?_
    intro i
    have e : (-((D + 1 : ℕ) : ℤ) + i + 2 + n) = i - ((D + 1 - (n + 2) : ℕ) : ℤ) := by omega
    simp only [linearCombination, List.foldl_cons, List.foldl_nil, e]
    ring
  have dt : (polyOf t).degree < ((D + 1 : ℕ) : WithBot ℕ) :=
    degLt_mono (degree_polyOf_lt t) (by omega)
  have d1 := degree_polyOf_lt h1
  have d2 := degree_polyOf_lt h2
  rw [l1] at d1; rw [l2] at d2
  have hv := polyOf_expressionVector hrep (D + 1)
    (degLt_add (degLt_add (degLt_add (degLt_C_mul dt _)
    (degLt_C_mul (degLt_mono ht1 (by omega)) _)) (degLt_C_mul (degLt_mono (degLt_X_pow_mul d1 _)
      (by omega)) _)) (degLt_C_mul (degLt_mono d2 (by omega)) _))
  obtain ⟨r, e1, e2, e3⟩ := addToFirstItem_ok (expressionVector ((D + 1 : ℕ) : ℤ)
    (fun i => linearCombination 0 [(k.2.1, vectorIndex t i),
      (k.2.2.1, vectorIndex t1 i), (k.2.2.2.1, vectorIndex h1 (-((D + 1 : ℕ) : ℤ) + i + 2 + n)),
      (k.2.2.2.2, vectorIndex h2 i)])) (by
      intro h; have := congrArg List.length h; rw [length_expressionVector] at this; simp at this) k.1
  refine ⟨r, e1, by rw [e2, length_expressionVector]; simp, ?_⟩
  rw [e3, hv, fibGPoly_eq]
  ring

end VO
