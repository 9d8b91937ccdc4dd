import Verif.Lemmas.PovComplete
import Verif.Lemmas.MapM
import Verif.Props.Vectors
import Verif.Props.Permutation
import Verif.Lemmas.FibonacciRun

set_option linter.unusedSectionVars false

namespace VO
open Spec
open Polynomial (X toLaurent)
open LaurentPolynomial (T)

variable {F G1 G2 GT : Type} [Field F] [DecidableEq F]
  [AddCommGroup G1] [Module F G1] [DecidableEq G1] [AddCommGroup G2] [Module F G2]
  [AddCommGroup GT] [Module F GT] [DecidableEq GT]

/-! ### Sparse vectors -/

theorem coeff_of_pairs (ps : List (ℕ × F)) (g : ℕ → F) (hd : (ps.map Prod.fst).Nodup)
    (h1 : ∀ p ∈ ps, g p.1 = p.2) (h2 : ∀ i, (∀ p ∈ ps, p.1 ≠ i) → g i = 0) (i : ℕ) :
    ((ps.map (fun p : ℕ × F => Polynomial.C p.2 * X ^ p.1)).sum).coeff i = g i := by
  induction ps generalizing g with
  | nil => simp at h2; simp [h2]
  | cons p ps ih =>
    rw [List.map_cons, List.nodup_cons] at hd
    have hnot : ∀ q ∈ ps, q.1 ≠ p.1 := fun q hq hc => hd.1 (List.mem_map.mpr ⟨q, hq, hc⟩)
    have := ih (Function.update g p.1 0) hd.2
      (fun q hq => by rw [Function.update_of_ne (hnot q hq)]; exact h1 q (by simp [hq]))
      (fun i hi => by
        by_cases hpi : i = p.1
        · subst hpi; simp
        · rw [Function.update_of_ne hpi]
          apply h2
          intro q hq
          rcases List.mem_cons.mp hq with rfl | hq
          · exact fun h => hpi h.symm
          · exact hi q hq)
    rw [List.map_cons, List.sum_cons, Polynomial.coeff_add, this, Polynomial.coeff_C_mul_X_pow]
    by_cases hpi : i = p.1
    · subst hpi; rw [if_pos rfl, Function.update_self, add_zero, h1 p (by simp)]
    · rw [if_neg hpi, Function.update_of_ne hpi, zero_add]

theorem sparseVector_poly (idx : List ℕ) (vals : List F) (n : ℕ) (hl : idx.length = vals.length)
    (hd : idx.Nodup) (hr : ∀ i ∈ idx, i < n) :
    ∃ l, sparseVector idx vals n = .ok l ∧ l.length = n ∧ polyOf l = instPoly idx vals := by
  obtain ⟨l, h1, h2, h3, h4⟩ := C10_dense idx vals n hl hd hr
  refine ⟨l, h1, h2, ?_⟩
  have hm : (idx.zip vals).map Prod.fst = idx := List.map_fst_zip (by omega)
  ext i
  rw [coeff_polyOf, instPoly, coeff_of_pairs _ (fun i => l.getD i 0) (hm.symm ▸ hd) h3]
  intro j hj
  apply h4
  intro hc
  rw [← hm] at hc
  obtain ⟨p, hp, rfl⟩ := List.mem_map.mp hc
  exact hj p hp rfl

theorem selPoly_eq (idx : List ℕ) : (selPoly idx : Polynomial F) = instPoly idx (idx.map fun _ => 1) := by
  rw [selPoly, instPoly]
  congr 1
  induction idx with
  | nil => rfl
  | cons a l ih => simp [ih]

theorem sparseZeroOne_eq (idx : List ℕ) (n : ℤ) :
    (sparseZeroOneVector idx n : Res (List F)) = sparseVector idx (idx.map fun _ => 1) n := by
  unfold sparseZeroOneVector sparseVector
  have : idx.zip (idx.map fun _ => (1 : F)) = idx.map (fun i => (i, (1 : F))) := by
    induction idx with
    | nil => rfl
    | cons a l ih => rw [List.map_cons, List.zip_cons_cons, ih, List.map_cons]
  rw [this, List.foldl_map]

theorem sparseZeroOne_poly (idx : List ℕ) (n : ℕ) (hd : idx.Nodup) (hr : ∀ i ∈ idx, i < n) :
    ∃ l : List F, sparseZeroOneVector idx n = .ok l ∧ l.length = n ∧ polyOf l = selPoly idx := by
  rw [sparseZeroOne_eq, selPoly_eq]
  exact sparseVector_poly idx _ n (by simp) hd hr

theorem list_sum_eval (l : List (Polynomial F)) (z : F) :
    l.sum.eval z = (l.map (fun p => p.eval z)).sum := by
  induction l with
  | nil => simp
  | cons a l ih => simp [ih]

theorem evalSparse_eq (idx : List ℕ) (vals : List F) (z : F) (hz : z ≠ 0) :
    evalSparseVector z idx vals = (instPoly idx vals).eval z := by
  rw [evalSparseVector, instPoly, list_sum_eval, List.map_map]
  congr 1
  apply List.map_congr_left
  intro p _
  rw [power_natCast (Or.inr hz), Function.comp_apply, Polynomial.eval_mul, Polynomial.eval_C,
    Polynomial.eval_pow, Polynomial.eval_X, mul_comm]

theorem evalSparse01_eq (idx : List ℕ) (z : F) (hz : z ≠ 0 ∨ 0 ∉ idx) :
    evalSparseZeroOneVector z idx = (selPoly idx : Polynomial F).eval z := by
  rw [evalSparseZeroOneVector, selPoly, list_sum_eval, List.map_map]
  congr 1
  apply List.map_congr_left
  intro i hi
  have : 1 ≤ i ∨ z ≠ 0 := by
    rcases hz with h | h
    · exact Or.inr h
    · left; by_contra hc; exact h ((by omega : i = 0) ▸ hi)
  simp [power_natCast this]

/-! ### The witness and the grand product -/

theorem povW_ok (rng : ℕ → F) (c : ℕ) (w : POVWitness F) (hw : (povVec w).length = 3 * c) :
    povW rng c w = .ok (povVec w ++ [rng 0]) := by
  have h : (w.w0 ++ w.w1 ++ w.w2).length = 3 * c := hw
  rw [povW, zeroPadAndConcat, sampleVec_one, if_neg (by omega)]
  simp only [povVec]
  have e : (3 * (c : ℤ)).toNat - (w.w0 ++ w.w1 ++ w.w2).length = 0 := by omega
  rw [e]; simp

/-- The denominators of the grand product. -/
theorem povR_ok (rng : ℕ → F) (c : ℕ) (hc : 1 ≤ c) (γ ζ ζ1 : F) (hγ : γ ≠ 0) (w sigma : List F)
    (lw : 3 * c ≤ w.length) (ls : sigma.length = 3 * c)
    (hden : ∀ j, j < 3 * c → w.getD j 0 + ζ * sigma.getD j 0 + ζ1 ≠ 0) :
    ∃ r, povR rng c γ ζ ζ1 w sigma = .ok r ∧ r.length = 3 * c + 1 ∧
      polyOf r = grandPoly (3 * c) γ ζ ζ1 (fun j => w.getD j 0) (fun j => sigma.getD j 0) (rng 1) := by
  set n := 3 * c with hn
  set q : ℕ → F := fun k => (w.getD k 0 + ζ * γ ^ k + ζ1) / (w.getD k 0 + ζ * sigma.getD k 0 + ζ1) with hq
  have z6 : (3 * (c : ℤ)) = (n : ℤ) := by push_cast [hn]; ring
  have hvi : ∀ (v : List F) (k : ℕ), k < v.length → vectorIndex v ((k : ℤ) + 1) = v.getD k 0 := by
    intro v k hk
    rw [vectorIndex, if_pos (by omega)]
    congr 1
    omega
  have hm : ∀ k : ℕ, minusI64 ((k : ℤ) + 1) 1 = (k : ℤ) + 1 := by intro k; unfold minusI64; omega
  have hl : (List.range (3 * (c : ℤ)).toNat).mapM (fun (k : ℕ) => (fun i : ℤ => do
    let inv ← inverseR (vectorIndex w (minusI64 i 1)
      + rangeIndex 1 (3 * c) (minusI64 i 1) * ζ1 + vectorIndex sigma (minusI64 i 1) * ζ)
    return (vectorIndex w (minusI64 i 1) + powerVectorIndex γ (3 * c) (minusI64 i 1) * ζ
      + rangeIndex 1 (3 * c) (minusI64 i 1) * ζ1) * inv : ℤ → Res F) ((k : ℤ) + 1))
      = .ok ((List.range n).map q) := by
    rw [show (3 * (c : ℤ)).toNat = n by omega]
    apply mapM_map
    intro k hk
    have hk := List.mem_range.mp hk
    beta_reduce
    rw [hm, hvi w k (by omega), hvi sigma k (by omega), z6]
    have hr : rangeIndex (1 : ℤ) (n : ℤ) ((k : ℤ) + 1) = (1 : F) := by
      rw [rangeIndex, if_pos (by omega)]
    have hp : powerVectorIndex γ (n : ℤ) ((k : ℤ) + 1) = γ ^ k := by
      have := rep_powers γ hγ n ((k : ℤ) + 1)
      beta_reduce at this
      rw [this, add_sub_cancel_right, zc_natCast, coeff_geomPoly, if_pos hk]
    rw [hr, hp]
    have hd := hden k hk
    have hd' : w.getD k 0 + 1 * ζ1 + sigma.getD k 0 * ζ ≠ 0 := by
      intro h; apply hd; linear_combination h
    simp only [inverseR, if_neg hd', bind, Except.bind, pure, Except.pure]
    congr 1
    rw [hq]
    beta_reduce
    rw [div_eq_mul_inv]
    congr 1
    · ring
    · congr 1; ring
  set l := scanAcc (· * ·) 1 ((List.range n).map q) with hldef
  have hlen : l.length = n := by rw [hldef, length_scanAcc]; simp
  refine ⟨l ++ [rng 1], ?_, by simp [hlen], ?_⟩
  · unfold povR accumulateVectorMulR
    rw [hl]
    simp only [bind, Except.bind, pure, Except.pure]
    rw [← hldef, zeroPadAndConcat, sampleVec_one, if_neg (by omega), hlen, z6]
    simp
  · ext k
    rw [coeff_polyOf, grandPoly, Polynomial.coeff_add, Polynomial.finsetSum_coeff]
    simp only [Polynomial.coeff_C_mul_X_pow]
    rw [Finset.sum_ite_eq]
    simp only [Finset.mem_range]
    by_cases hk : k < n
    · rw [if_pos hk, if_neg (c := k = n) (by omega), add_zero, List.getD_append _ _ _ _ (by omega),
        hldef, getD_scanAcc _ _ _ _ (by simpa using hk), foldl_mul_eq, one_mul, ← List.map_take,
        List.take_range, min_eq_left (by omega)]
      rw [Finset.prod_eq_multiset_prod, Finset.range_val, ← Multiset.coe_range, Multiset.map_coe,
        Multiset.prod_coe]
    · rw [if_neg hk, zero_add, List.getD_append_right _ _ _ _ (by omega), hlen]
      by_cases hkn : k = n
      · subst hkn; simp
      · rw [if_neg hkn]
        obtain ⟨m, hm⟩ : ∃ m, k - n = m + 1 := ⟨k - n - 1, by omega⟩
        rw [hm]; simp

theorem mapM_panic {α β : Type} (f : α → Res β) (l : List α)
    (h : ∀ x ∈ l, f x = .error .panic ∨ ∃ y, f x = .ok y) (hx : ∃ x ∈ l, f x = .error .panic) :
    l.mapM f = .error .panic := by
  induction l with
  | nil => obtain ⟨x, hx, -⟩ := hx; simp at hx
  | cons a l ih =>
    rw [List.mapM_cons]
    rcases h a (by simp) with ha | ⟨y, ha⟩
    · rw [ha]; rfl
    · obtain ⟨x, hx, hp⟩ := hx
      have hxl : x ∈ l := by
        rcases List.mem_cons.mp hx with rfl | h
        · rw [ha] at hp; cases hp
        · exact h
      rw [ha]
      simp only [bind, Except.bind]
      rw [ih (fun x hx => h x (by simp [hx])) ⟨x, hxl, hp⟩]

theorem povR_panic (rng : ℕ → F) (c : ℕ) (γ ζ ζ1 : F) (w sigma : List F)
    (lw : 3 * c ≤ w.length) (ls : sigma.length = 3 * c)
    (hden : ∃ j, j < 3 * c ∧ w.getD j 0 + ζ * sigma.getD j 0 + ζ1 = 0) :
    povR rng c γ ζ ζ1 w sigma = .error .panic := by
  obtain ⟨k, hk, hk0⟩ := hden
  unfold povR accumulateVectorMulR
  rw [mapM_panic]
  · rfl
  · intro x _
    by_cases h0 : vectorIndex w (minusI64 ((x : ℤ) + 1) 1)
      + rangeIndex 1 (3 * c) (minusI64 ((x : ℤ) + 1) 1) * ζ1
      + vectorIndex sigma (minusI64 ((x : ℤ) + 1) 1) * ζ = 0
    · left; simp [inverseR, h0, bind, Except.bind]
    · right; simp [inverseR, h0, bind, Except.bind, pure, Except.pure]
  · refine ⟨k, List.mem_range.mpr (by omega), ?_⟩
    have hvi : ∀ (v : List F) (k : ℕ), k < v.length → vectorIndex v ((k : ℤ) + 1) = v.getD k 0 := by
      intro v k hk
      rw [vectorIndex, if_pos (by omega)]
      congr 1
      omega
    have hm : minusI64 ((k : ℤ) + 1) 1 = (k : ℤ) + 1 := by unfold minusI64; omega
    have hr : rangeIndex (1 : ℤ) (3 * (c : ℤ)) ((k : ℤ) + 1) = (1 : F) := by
      rw [rangeIndex, if_pos (by omega)]
    have h0 : vectorIndex w (minusI64 ((k : ℤ) + 1) 1)
      + rangeIndex 1 (3 * c) (minusI64 ((k : ℤ) + 1) 1) * ζ1
      + vectorIndex sigma (minusI64 ((k : ℤ) + 1) 1) * ζ = 0 := by
      rw [hm, hvi w k (by omega), hvi sigma k (by omega), hr]
      linear_combination hk0
    simp [inverseR, h0, bind, Except.bind]

/-! ### The index -/

theorem povIndex_ok (γ β : F) (hγ : γ ≠ 0) (g : G1) (h : G2) (D : ℕ) (pp : UniversalParams G1 G2)
    (hs : kzgSetup D β g h = .ok pp) (cs : POV F) (c : ℕ)
    (hc : c = cs.nmul + cs.nadd + cs.consts.length) (hne : cs.consts ≠ [])
    (hw : ∀ p ∈ cs.wires, p.1 < 3 * c ∧ p.2 < 3 * c) (hD : 6 * c - cs.nmul ≤ D) :
    ∃ (sigma : List F) (kvk : VerifierKey G1 G2), sigma.length = 3 * c ∧ HonestVk β g h kvk ∧
      (∀ i, i < 3 * c → (cs.wires.map (fun p => Equiv.swap p.1 p.2)).prod i < 3 * c ∧
        sigma.getD i 0 = γ ^ ((cs.wires.map (fun p => Equiv.swap p.1 p.2)).prod i)) ∧
      polyOf sigma = permPoly (3 * c) γ (cs.wires.map (fun p => Equiv.swap p.1 p.2)).prod ∧
      let vk : PovVK G1 G2 := ⟨(polyOf sigma).eval β • g, (polyOf cs.consts).eval β • g, kvk,
        cs.getSize, D + 1⟩
      povIndex γ pp cs = .ok (⟨vk, srs β g D, 6 * c - cs.nmul, sigma, cs.consts⟩, vk) := by
  have hlen : 0 < cs.consts.length := List.length_pos_of_ne_nil hne
  obtain ⟨kvk, h1, h2⟩ := C17_setup_vk D β g h pp hs
  obtain ⟨pp', h3, h4, -⟩ := (C17_setup D β g h).2 (by omega)
  rw [hs] at h3
  obtain rfl := Except.ok.inj h3
  obtain ⟨sigma, s1, s2, σ, s3, s4⟩ := C11_vector γ hγ cs.wires (3 * c) hw
  subst s3
  have hn : cs.getSize.n = c := by show _ + _ + _ = _; omega
  have hm : povMaxDegree cs.getSize = 6 * c - cs.nmul := by
    rw [povMaxDegree, hn]; show (-(cs.nmul : ℤ) + 6 * c).toNat = _; omega
  have hadd : cs.getSize.nadd = cs.nadd := rfl
  have hmul : cs.getSize.nmul = cs.nmul := rfl
  refine ⟨sigma, kvk, s2, h2, s4, ?_, ?_⟩
  · ext i
    rw [coeff_polyOf, permPoly, Polynomial.finsetSum_coeff]
    simp only [Polynomial.coeff_C_mul_X_pow]
    rw [Finset.sum_ite_eq]
    simp only [Finset.mem_range]
    by_cases hi : i < 3 * c
    · rw [if_pos hi, (s4 i hi).2]
    · rw [if_neg hi, List.getD_eq_default _ _ (by omega)]
  · intro vk
    have e1 : (3 * (c : ℤ)) = ((3 * c : ℕ) : ℤ) := by push_cast; ring
    have k1 := commitVector_ok' β g D sigma (3 * c) (by intro h; simp [h] at s2; omega) s2 (by omega)
    have k2 := commitVector_ok' β g D cs.consts (-(cs.nadd : ℤ) - cs.nmul + c).toNat hne (by omega)
      (by omega)
    have s1' : permutationVectorFromWires γ cs.wires (3 * c) = .ok sigma := by
      first
      | exact s1
      | rw [e1]; exact s1
    simp only [povIndex, hm, hn, h4, length_srs, hadd, hmul, s1', k1, k2, h1, assertR, bind,
      Except.bind]
    rw [if_pos (by omega)]
    rfl

end VO
