import Verif.Lemmas.R1csSnarkEntries
import Verif.Lemmas.R1csPeComplete

set_option linter.unusedSectionVars false

namespace VO
open Spec
open Polynomial (X)

variable {F G1 G2 GT : Type} [Field F] [DecidableEq F]
  [AddCommGroup G1] [Module F G1] [DecidableEq G1] [AddCommGroup G2] [Module F G2]
  [AddCommGroup GT] [Module F GT] [DecidableEq GT]

/-- The system with the matrices `B` and `C` exchanged. -/
def swapBC (cs : R1CS F) : R1CS F := { cs with b := cs.c, c := cs.b }

theorem stackedPe_eq (cs : R1CS F) : stackedPe cs = stacked (swapBC cs) := rfl

theorem stackedPe_facts (cs : R1CS F) (hl : R1csLens cs) :
    triples (concatMatrixVertically cs.nrows cs.a cs.c cs.b) = stackedPe cs ∧
    (concatMatrixVertically cs.nrows cs.a cs.c cs.b).rows = (stackedPe cs).map (fun e => e.1.1) ∧
    (concatMatrixVertically cs.nrows cs.a cs.c cs.b).cols = (stackedPe cs).map (fun e => e.1.2) ∧
    (concatMatrixVertically cs.nrows cs.a cs.c cs.b).vals = (stackedPe cs).map Prod.snd ∧
    (stackedPe cs).length = cs.a.rows.length + cs.b.rows.length + cs.c.rows.length := by
  obtain ⟨h1, h2, h3, h4, h5⟩ := stacked_facts (swapBC cs) ⟨hl.1, hl.2.2, hl.2.1⟩
  refine ⟨h1, h2, h3, h4, ?_⟩
  rw [stackedPe_eq, h5]
  show cs.a.rows.length + cs.c.rows.length + cs.b.rows.length = _
  omega

theorem stackedPe_range (cs : R1CS F) (ra : InRange cs.a cs.nrows cs.ncols)
    (rb : InRange cs.b cs.nrows cs.ncols) (rc : InRange cs.c cs.nrows cs.ncols) :
    ∀ e ∈ stackedPe cs, e.1.1 < 3 * cs.nrows ∧ e.1.2 < cs.ncols :=
  stacked_range (swapBC cs) ra rc rb

/-! ### The index -/

theorem r1csPeIndex_ok (γ β : F) (hγ : γ ≠ 0) (g : G1) (h : G2) (D : ℕ) (pp : UniversalParams G1 G2)
    (hs : kzgSetup D β g h = .ok pp) (cs : R1CS F) (hl : R1csLens cs) (S : ℕ)
    (hS : S = cs.a.rows.length + cs.b.rows.length + cs.c.rows.length) (h1 : 1 ≤ S)
    (hSD : S ≤ D + 1)
    (hD : 2 * cs.nrows + S ≤ D) :
    ∃ (kvk : VerifierKey G1 G2), HonestVk β g h kvk ∧
      let l := stackedPe cs
      let sz : R1CSSize := ⟨cs.nrows, cs.ncols, cs.a.rows.length, cs.b.rows.length,
        cs.c.rows.length, cs.inputSize⟩
      let vk : R1csPeVK G1 G2 := ⟨(rowPoly γ l).eval β • g, (colPoly γ l).eval β • g,
        (valPoly l).eval β • g, (rowColPoly γ l).eval β • g, kvk, sz, D + 1⟩
      r1csPeIndex γ pp cs = .ok (⟨vk, srs β g D, 2 * cs.nrows + S,
        concatMatrixVertically cs.nrows cs.a cs.c cs.b,
        l.map (fun e => γ ^ e.1.1), l.map (fun e => γ ^ e.1.2), l.map Prod.snd,
        l.map (fun e => γ ^ e.1.1 * γ ^ e.1.2)⟩, vk) := by
  obtain ⟨kvk, k1, k2⟩ := C17_setup_vk D β g h pp hs
  refine ⟨kvk, k2, ?_⟩
  intro l sz vk
  by_cases hD0 : D = 0
  · have := (C17_setup D β g h).1 hD0
    rw [hs] at this; cases this
  obtain ⟨pp', h3, h4, -⟩ := (C17_setup D β g h).2 (by omega)
  rw [hs] at h3
  obtain rfl := Except.ok.inj h3
  obtain ⟨-, f1, f2, f3, f4⟩ := stackedPe_facts cs hl
  have hll : l.length = S := by rw [hS]; exact f4
  have hT : sz.total = S := hS.symm
  have hu : intArrayToPowerVector (concatMatrixVertically cs.nrows cs.a cs.c cs.b).rows γ
      = l.map (fun e => γ ^ e.1.1) := by
    rw [f1, intArrayToPowerVector, List.map_map]
    apply List.map_congr_left
    intro e _
    exact power_natCast (Or.inr hγ)
  have hw : intArrayToPowerVector (concatMatrixVertically cs.nrows cs.a cs.c cs.b).cols γ
      = l.map (fun e => γ ^ e.1.2) := by
    rw [f2, intArrayToPowerVector, List.map_map]
    apply List.map_congr_left
    intro e _
    exact power_natCast (Or.inr hγ)
  have hy : hadamardVector (l.map (fun e => γ ^ e.1.1)) (l.map (fun e => γ ^ e.1.2))
      = l.map (fun e => γ ^ e.1.1 * γ ^ e.1.2) := by
    rw [hadamardVector, List.zip_map', List.map_map]; rfl
  have hcm : ∀ f : (ℕ × ℕ) × F → F, commitVector (srs β g D) (l.map f) S
      = .ok ((polyOf (l.map f)).eval β • g) := by
    intro f
    have : l ≠ [] := by intro h; rw [h] at hll; simp at hll; omega
    exact commitVector_ok' β g D _ _ (by simpa using this) (by simpa using hll) (by omega)
  have hm : r1csPeMaxDegree sz = 2 * cs.nrows + S := by
    rw [r1csPeMaxDegree]
    show 2 * cs.nrows + cs.a.rows.length + cs.b.rows.length + cs.c.rows.length = _
    omega
  have hsz := getSize_ok cs hl
  unfold r1csPeIndex
  rw [hsz]
  simp only [bind, Except.bind]
  have e1 : sz.nrows = cs.nrows := rfl
  simp only [show (⟨cs.nrows, cs.ncols, cs.a.rows.length, cs.b.rows.length,
        cs.c.rows.length, cs.inputSize⟩ : R1CSSize) = sz from rfl, e1, hm, hT, hu, hw, hy, f3, h4,
    length_srs, assertR]
  rw [if_pos (by omega)]
  simp only [show stackedPe cs = l from rfl, hcm, k1]
  rfl

/-! ### The vectors of the prover -/

theorem length_prodVec (cs : R1CS F) (x w : List F) : (prodVec cs x w).length = 3 * cs.nrows := by
  simp [prodVec]; omega

theorem pe_mvp (cs : R1CS F) (hl : R1csLens cs) (x w : List F) (hsh : R1CSShape cs x w) :
    sparseMvp (3 * (cs.nrows : ℤ)) cs.ncols (concatMatrixVertically cs.nrows cs.a cs.c cs.b)
      (1 :: (x ++ w)) = .ok (prodVec cs x w) := by
  obtain ⟨s1, s2, s3, ra, rb, rc⟩ := hsh
  have hlen : (1 :: (x ++ w) : List F).length = cs.ncols := by simp; omega
  have hr : InRange (concatMatrixVertically cs.nrows cs.a cs.c cs.b) (3 * cs.nrows) cs.ncols := by
    intro e he
    rw [(stackedPe_facts cs hl).1] at he
    exact stackedPe_range cs ra rb rc e he
  obtain ⟨m, m1, m2, m3⟩ := sparseMvp_ok (3 * cs.nrows) cs.ncols
    (concatMatrixVertically cs.nrows cs.a cs.c cs.b) (1 :: (x ++ w)) (by omega) s2 hlen hr
  have hv := C16_vertical cs.nrows cs.ncols cs.a cs.c cs.b hl.1 hl.2.2 ra rc (1 :: (x ++ w))
  have hm : m = prodVec cs x w := by
    rw [prodVec]
    apply List.ext_getElem
    · simp [m2]; omega
    intro i h1 h2
    have h3 := m3 i (by omega)
    rw [List.getD_eq_getElem _ _ h1] at h3
    rw [h3]
    by_cases i1 : i < cs.nrows
    · rw [List.getElem_append_left (by simp; omega), List.getElem_append_left (by simpa using i1),
        (hv i i1).1]
      simp
    · by_cases i2 : i < 2 * cs.nrows
      · have := (hv (i - cs.nrows) (by omega)).2.1
        rw [show cs.nrows + (i - cs.nrows) = i by omega] at this
        rw [List.getElem_append_left (by simp; omega), List.getElem_append_right (by simpa using i1),
          this]
        simp
      · have := (hv (i - 2 * cs.nrows) (by omega)).2.2
        rw [show 2 * cs.nrows + (i - 2 * cs.nrows) = i by omega] at this
        rw [List.getElem_append_right (by simp; omega), this]
        simp only [List.getElem_map, List.getElem_range, List.length_append, List.length_map,
          List.length_range]
        congr 1; omega
  push_cast at m1
  rw [m1, hm]

theorem r1csPeY1_ok (rng : ℕ → F) (cs : R1CS F) (hl : R1csLens cs) (x w : List F)
    (hsh : R1CSShape cs x w) (S : ℕ) (hS : 3 * cs.nrows ≤ S) :
    ∃ y1, r1csPeY1 rng (concatMatrixVertically cs.nrows cs.a cs.c cs.b) cs.nrows cs.ncols S x w
        = .ok y1 ∧
      y1.length = S + 1 ∧ polyOf y1 = padPoly S (prodVec cs x w) (rng 0) := by
  have hlv := length_prodVec cs x w
  unfold r1csPeY1
  rw [pe_mvp cs hl x w hsh]
  simp only [bind, Except.bind]
  rw [zeroPadAndConcat, sampleVec_one, if_neg (by omega)]
  refine ⟨_, rfl, by simp; omega, ?_⟩
  rw [polyOf_pad _ _ _ S (by omega)]
  rfl

theorem r1csPeY1_panic (rng : ℕ → F) (cs : R1CS F) (hl : R1csLens cs) (x w : List F)
    (hsh : R1CSShape cs x w) (S : ℕ) (hS : S < 3 * cs.nrows) :
    r1csPeY1 rng (concatMatrixVertically cs.nrows cs.a cs.c cs.b) cs.nrows cs.ncols S x w
      = .error .panic := by
  have hlv := length_prodVec cs x w
  unfold r1csPeY1
  rw [pe_mvp cs hl x w hsh]
  simp only [bind, Except.bind]
  rw [zeroPadAndConcat, if_pos (by omega)]

theorem r1csPeW_ok (rng : ℕ → F) (w : List F) (S : ℕ) (hS : w.length ≤ S) :
    ∃ wv, r1csPeW rng S w = .ok wv ∧ wv.length = S + 1 ∧ polyOf wv = padPoly S w (rng 1) := by
  unfold r1csPeW
  rw [zeroPadAndConcat, sampleVec_one, if_neg (by omega)]
  refine ⟨_, rfl, by simp; omega, ?_⟩
  rw [polyOf_pad _ _ _ S (by omega)]
  rfl

theorem r1csPeW_panic (rng : ℕ → F) (w : List F) (S : ℕ) (hS : S < w.length) :
    r1csPeW rng S w = .error .panic := by
  unfold r1csPeW
  rw [zeroPadAndConcat, if_pos (by omega)]

theorem coeff_padPoly (S : ℕ) (v : List F) (δ : F) (i : ℕ) (hi : i < S) :
    (padPoly S v δ).coeff i = v.getD i 0 := by
  rw [padPoly, Polynomial.coeff_add, coeff_polyOf, Polynomial.coeff_C_mul_X_pow,
    if_neg (by omega), add_zero]

theorem coeff_invPoly (n : ℕ) (γ μ : F) (i : ℕ) :
    (invPoly n γ μ).coeff i = if i < n then (μ - γ ^ i)⁻¹ else 0 := by
  rw [invPoly, Polynomial.finsetSum_coeff]
  simp only [Polynomial.coeff_C_mul_X_pow]
  rw [Finset.sum_ite_eq]
  simp only [Finset.mem_range]

theorem coeff_colPolySum (K : ℕ) (γ μ : F) (l : List ((ℕ × ℕ) × F)) (i : ℕ) :
    (colPolySum K γ μ l).coeff i = if i < K then colSum γ μ l i else 0 := by
  rw [colPolySum, Polynomial.finsetSum_coeff]
  simp only [Polynomial.coeff_C_mul_X_pow]
  rw [Finset.sum_ite_eq]
  simp only [Finset.mem_range]

theorem r1csPeR_ok (γ μ : F) (hγ : γ ≠ 0) (n : ℕ) :
    (r1csPeR γ μ n).length = n ∧ polyOf (r1csPeR γ μ n) = invPoly n γ μ ∧
      r1csPeR γ μ n = (List.range n).map (fun i => (μ - γ ^ i)⁻¹) := by
  have h : r1csPeR γ μ n = (List.range n).map (fun i => (μ - γ ^ i)⁻¹) :=
    exprInv_getD n γ μ hγ _ rfl
  refine ⟨by rw [h]; simp, ?_, h⟩
  ext i
  rw [h, coeff_polyOf, coeff_invPoly]
  by_cases hi : i < n
  · rw [if_pos hi, List.getD_eq_getElem _ _ (by simpa using hi)]; simp
  · rw [if_neg hi, List.getD_eq_default _ _ (by simp; omega)]

/-- `c_vec` for any matrix with `n` rows. -/
theorem r1csPeC_ok (γ μ : F) (hγ : γ ≠ 0) (mat : SparseMat F) (l : List ((ℕ × ℕ) × F))
    (hm : triples mat = l) (n K : ℕ) (hn : 1 ≤ n) (hK : 1 ≤ K)
    (hr : ∀ e ∈ l, e.1.1 < n ∧ e.1.2 < K) :
    ∃ c, leftSparseMvp mat (r1csPeR γ μ n) n K = .ok c ∧ c.length = K ∧
      polyOf c = colPolySum K γ μ l := by
  rw [(r1csPeR_ok γ μ hγ n).2.2]
  set r := (List.range n).map (fun i => (μ - γ ^ i)⁻¹) with hrd
  obtain ⟨c, c1, c2, c3⟩ := C04_left_product n K mat r (by omega) (by omega) (by simp [hrd])
    (by rw [← hm] at hr; exact hr)
  refine ⟨c, c1, c2, ?_⟩
  ext k
  rw [coeff_polyOf, coeff_colPolySum]
  by_cases hk : k < K
  · rw [if_pos hk, c3 k hk, vecMul]
    have := colVal_eq l n (fun e he => (hr e he).1) (fun i => (μ - γ ^ i)⁻¹) k
    rw [colSum, ← this]
    apply Finset.sum_congr rfl
    intro i hi
    have hi := Finset.mem_range.mp hi
    rw [entry_eq, hm]
    congr 1
    rw [List.getD_eq_getElem _ _ (by simp [hrd]; omega)]
    simp [hrd]
  · rw [if_neg hk, List.getD_eq_default _ _ (by omega)]

theorem r1csPeT_ok (γ μ ν : F) (l : List ((ℕ × ℕ) × F)) :
    (uwinverseVector μ (l.map (fun e => γ ^ e.1.1)) ν (l.map (fun e => γ ^ e.1.2))).length
      = l.length ∧
    polyOf (uwinverseVector μ (l.map (fun e => γ ^ e.1.1)) ν (l.map (fun e => γ ^ e.1.2)))
      = entryInvPoly γ μ ν l := by
  have hu : uwinverseVector μ (l.map (fun e => γ ^ e.1.1)) ν (l.map (fun e => γ ^ e.1.2))
      = l.map (fun e => ((μ - γ ^ e.1.1) * (ν - γ ^ e.1.2))⁻¹) := by
    rw [uwinverseVector, batchInversion, List.zip_map', List.map_map, List.map_map]
    apply List.map_congr_left
    intro e _
    simp only [Function.comp_apply]
    split_ifs with h
    · rw [h, inv_zero]
    · rfl
  rw [hu]
  exact ⟨by simp, rfl⟩

theorem r1csPeRt_ok (rng : ℕ → F) (β : F) (ell S : ℕ) (x wv c y1 r rnu t v : List F) :
    (r1csPeRt rng β ell S x wv c y1 r rnu t v).length = S + 1 ∧
    polyOf (r1csPeRt rng β ell S x wv c y1 r rnu t v)
      = partialPoly S (peTerm ell β (polyOf v) (polyOf x) (polyOf y1) (polyOf wv) (polyOf r)
          (polyOf c) (polyOf rnu) (polyOf t)) (rng 2) := by
  unfold r1csPeRt
  rw [sampleVec_one]
  set f : ℤ → F := fun i =>
      powerLinearCombination β
        [vectorIndex c i * (vectorIndex x (minusI64 i 2) + delta i 1
            + vectorIndex wv (minusI64 i (ell + 2))) - vectorIndex y1 i * vectorIndex r i,
         vectorIndex c i * vectorIndex rnu i - vectorIndex t i * vectorIndex v i] with hf
  have hft : ∀ i : ℕ, f ((i : ℤ) + 1)
      = peTerm ell β (polyOf v) (polyOf x) (polyOf y1) (polyOf wv) (polyOf r)
          (polyOf c) (polyOf rnu) (polyOf t) i := by
    intro i
    have hk : ∀ p : Polynomial F, zc p ((i : ℤ) + 1 - 1) = p.coeff i := by
      intro p; rw [add_sub_cancel_right, zc_natCast]
    have r1 : ∀ w : List F, vectorIndex w ((i : ℤ) + 1) = (polyOf w).coeff i := by
      intro w; rw [← hk]; exact rep_vec w _
    have r2 : ∀ (w : List F) (k : ℕ) (m : ℤ), m = k + 1 →
        vectorIndex w (minusI64 ((i : ℤ) + 1) m) = (X ^ k * polyOf w).coeff i := by
      intro w k m hm; rw [← hk]; exact (rep_vec w).minus k hm _
    have r6 : (delta ((i : ℤ) + 1) 1 : F) = (1 : Polynomial F).coeff i := by
      rw [← hk]; exact rep_delta1 _
    simp only [hf, powerLinearCombination, List.foldl_cons, List.foldl_nil]
    rw [r1, r1, r1, r1, r1, r1, r6, r2 x 1 _ (by norm_num), r2 wv (ell + 1) _ (by push_cast; ring),
      peTerm, fullPoly, Polynomial.coeff_add, Polynomial.coeff_add, pow_one]
    ring
  obtain ⟨c1, c2⟩ := C09_plus (0 : F) S f
  refine ⟨by rw [List.length_append, c1]; rfl, ?_⟩
  ext i
  rw [coeff_polyOf, coeff_partialPoly]
  by_cases h1 : i < S
  · rw [if_pos h1, List.getD_append _ _ _ _ (by rw [c1]; exact h1), c2 i h1, zero_add]
    apply Finset.sum_congr rfl
    intro j _
    exact hft j
  · rw [if_neg h1, List.getD_append_right _ _ _ _ (by rw [c1]; omega), c1]
    by_cases h2 : i = S
    · subst h2; simp
    · rw [if_neg h2, List.getD_eq_default _ _ (by simp; omega)]

end VO
