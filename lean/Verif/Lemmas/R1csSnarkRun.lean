import Verif.Lemmas.Lincheck
import Verif.Lemmas.PovRun
import Verif.Props.Sparse
import Verif.Props.Vectors
import Verif.Props.Cs

set_option linter.unusedSectionVars false

namespace VO
open Spec
open Polynomial (X)

variable {F G1 G2 GT : Type} [Field F] [DecidableEq F]
  [AddCommGroup G1] [Module F G1] [DecidableEq G1] [AddCommGroup G2] [Module F G2]
  [AddCommGroup GT] [Module F GT] [DecidableEq GT]

/-! ### The stacked matrix -/

theorem triples_concatV (h : ℕ) (a b c : SparseMat F) (sa : SameLengths a) (sb : SameLengths b) :
    triples (concatMatrixVertically h a b c) = triples a
      ++ (triples b).map (fun e => ((h + e.1.1, e.1.2), e.2))
      ++ (triples c).map (fun e => ((2 * h + e.1.1, e.1.2), e.2)) := by
  obtain ⟨a1, a2⟩ := sa
  obtain ⟨b1, b2⟩ := sb
  have hm : ∀ (m : SparseMat F) (s t : ℕ), s = t → ((m.rows.map (· + s)).zip m.cols).zip m.vals
      = (triples m).map (fun e => ((t + e.1.1, e.1.2), e.2)) := by
    rintro m s t rfl
    rw [triples, List.zip_map_left, List.zip_map_left]
    apply List.map_congr_left
    intro e _
    rw [Prod.map, Prod.map, add_comm]; rfl
  rw [← hm b h h rfl, ← hm c (h * 2) (2 * h) (by ring)]
  unfold triples concatMatrixVertically
  rw [List.zip_append (by simp [a1, b1]), List.zip_append (by simp [a1, a2, b1, b2]),
    List.zip_append a1, List.zip_append (by simp [a1, a2])]

theorem triples_maps (m : SparseMat F) (hs : SameLengths m) :
    m.rows = (triples m).map (fun e => e.1.1) ∧ m.cols = (triples m).map (fun e => e.1.2) ∧
      m.vals = (triples m).map Prod.snd := by
  obtain ⟨h1, h2⟩ := hs
  have e1 : (triples m).map Prod.fst = m.rows.zip m.cols := List.map_fst_zip (by simp; omega)
  refine ⟨?_, ?_, ?_⟩
  · have : (triples m).map (fun e => e.1.1) = ((triples m).map Prod.fst).map Prod.fst := by simp
    rw [this, e1, List.map_fst_zip (by omega)]
  · have : (triples m).map (fun e => e.1.2) = ((triples m).map Prod.fst).map Prod.snd := by simp
    rw [this, e1, List.map_snd_zip (by omega)]
  · rw [triples, List.map_snd_zip (by simp; omega)]

theorem sameLengths_concatV (h : ℕ) (a b c : SparseMat F) (sa : SameLengths a) (sb : SameLengths b)
    (sc : SameLengths c) : SameLengths (concatMatrixVertically h a b c) := by
  obtain ⟨a1, a2⟩ := sa; obtain ⟨b1, b2⟩ := sb; obtain ⟨c1, c2⟩ := sc
  constructor <;> simp [concatMatrixVertically, a1, a2, b1, b2, c1, c2]

/-- The three arrays of each matrix have the same length. -/
def R1csLens (cs : R1CS F) : Prop := SameLengths cs.a ∧ SameLengths cs.b ∧ SameLengths cs.c

theorem stacked_facts (cs : R1CS F) (hl : R1csLens cs) :
    triples (concatMatrixVertically cs.nrows cs.a cs.b cs.c) = stacked cs ∧
    (concatMatrixVertically cs.nrows cs.a cs.b cs.c).rows = (stacked cs).map (fun e => e.1.1) ∧
    (concatMatrixVertically cs.nrows cs.a cs.b cs.c).cols = (stacked cs).map (fun e => e.1.2) ∧
    (concatMatrixVertically cs.nrows cs.a cs.b cs.c).vals = (stacked cs).map Prod.snd ∧
    (stacked cs).length = cs.a.rows.length + cs.b.rows.length + cs.c.rows.length := by
  obtain ⟨ha, hb, hc⟩ := hl
  have ht : triples (concatMatrixVertically cs.nrows cs.a cs.b cs.c) = stacked cs :=
    triples_concatV _ _ _ _ ha hb
  obtain ⟨h1, h2, h3⟩ := triples_maps _ (sameLengths_concatV cs.nrows cs.a cs.b cs.c ha hb hc)
  rw [ht] at h1 h2 h3
  refine ⟨ht, h1, h2, h3, ?_⟩
  obtain ⟨a1, a2⟩ := ha; obtain ⟨b1, b2⟩ := hb; obtain ⟨c1, c2⟩ := hc
  simp [stacked, triples, List.length_zip]
  omega

theorem stacked_range (cs : R1CS F) (ra : InRange cs.a cs.nrows cs.ncols)
    (rb : InRange cs.b cs.nrows cs.ncols) (rc : InRange cs.c cs.nrows cs.ncols) :
    ∀ e ∈ stacked cs, e.1.1 < 3 * cs.nrows ∧ e.1.2 < cs.ncols := by
  intro e he
  simp only [stacked, List.mem_append, List.mem_map] at he
  rcases he with (he | ⟨e', he, rfl⟩) | ⟨e', he, rfl⟩
  · have := ra e he; omega
  · have := rb e' he; simp only; omega
  · have := rc e' he; simp only; omega

theorem getSize_ok (cs : R1CS F) (hl : R1csLens cs) :
    cs.getSize = .ok ⟨cs.nrows, cs.ncols, cs.a.rows.length, cs.b.rows.length, cs.c.rows.length,
      cs.inputSize⟩ := by
  obtain ⟨⟨a1, a2⟩, ⟨b1, b2⟩, ⟨c1, c2⟩⟩ := hl
  simp only [R1CS.getSize, assertR, bind, Except.bind]
  rw [if_pos a1, if_pos (a1.trans a2), if_pos b1, if_pos (b1.trans b2), if_pos c1,
    if_pos (c1.trans c2)]
  rfl

/-! ### The index -/

theorem r1csIndex_ok (γ β : F) (hγ : γ ≠ 0) (g : G1) (h : G2) (D : ℕ) (pp : UniversalParams G1 G2)
    (hs : kzgSetup D β g h = .ok pp) (cs : R1CS F) (hl : R1csLens cs) (S : ℕ)
    (hS : S = cs.a.rows.length + cs.b.rows.length + cs.c.rows.length) (h1 : 1 ≤ S)
    (hSD : S ≤ D + 1)
    (hD : 2 * (cs.ncols + S) - cs.nrows ≤ D) :
    ∃ (kvk : VerifierKey G1 G2), HonestVk β g h kvk ∧
      let l := stacked cs
      let sz : R1CSSize := ⟨cs.nrows, cs.ncols, cs.a.rows.length, cs.b.rows.length,
        cs.c.rows.length, cs.inputSize⟩
      let vk : R1csVK G1 G2 := ⟨(rowPoly γ l).eval β • g, (colPoly γ l).eval β • g,
        (valPoly l).eval β • g, (rowColPoly γ l).eval β • g, kvk, sz, D + 1⟩
      r1csIndex γ pp cs = .ok (⟨vk, srs β g D, 2 * (cs.ncols + S) - cs.nrows,
        concatMatrixVertically cs.nrows cs.a cs.b cs.c,
        l.map (fun e => γ ^ e.1.1), l.map (fun e => γ ^ e.1.2), l.map Prod.snd,
        l.map (fun e => γ ^ e.1.1 * γ ^ e.1.2)⟩, vk) := by
  obtain ⟨kvk, k1, k2⟩ := C17_setup_vk D β g h pp hs
  refine ⟨kvk, k2, ?_⟩
  intro l sz vk
  by_cases hD0 : D = 0
  · have := (C17_setup D β g h).1 hD0
    rw [hs] at this; cases this
  obtain ⟨pp', h3, h4, -⟩ := (C17_setup D β g h).2 (by omega)
  rw [hs] at h3
  obtain rfl := Except.ok.inj h3
  obtain ⟨-, f1, f2, f3, f4⟩ := stacked_facts cs hl
  have hll : l.length = S := by rw [hS]; exact f4
  have hT : sz.total = S := hS.symm
  have hu : intArrayToPowerVector (concatMatrixVertically cs.nrows cs.a cs.b cs.c).rows γ
      = l.map (fun e => γ ^ e.1.1) := by
    rw [f1, intArrayToPowerVector, List.map_map]
    apply List.map_congr_left
    intro e _
    exact power_natCast (Or.inr hγ)
  have hw : intArrayToPowerVector (concatMatrixVertically cs.nrows cs.a cs.b cs.c).cols γ
      = l.map (fun e => γ ^ e.1.2) := by
    rw [f2, intArrayToPowerVector, List.map_map]
    apply List.map_congr_left
    intro e _
    exact power_natCast (Or.inr hγ)
  have hy : hadamardVector (l.map (fun e => γ ^ e.1.1)) (l.map (fun e => γ ^ e.1.2))
      = l.map (fun e => γ ^ e.1.1 * γ ^ e.1.2) := by
    rw [hadamardVector, List.zip_map', List.map_map]; rfl
  have hcm : ∀ f : (ℕ × ℕ) × F → F, commitVector (srs β g D) (l.map f) S
      = .ok ((polyOf (l.map f)).eval β • g) := by
    intro f
    have : l ≠ [] := by intro h; rw [h] at hll; simp at hll; omega
    exact commitVector_ok' β g D _ _ (by simpa using this) (by simpa using hll) (by omega)
  have hm : r1csMaxDegree sz = 2 * (cs.ncols + S) - cs.nrows := by
    rw [r1csMaxDegree]
    show (-(cs.nrows : ℤ) + 2 * cs.ncols + 2 * cs.a.rows.length + 2 * cs.b.rows.length
      + 2 * cs.c.rows.length).toNat = _
    omega
  have hsz := getSize_ok cs hl
  unfold r1csIndex
  rw [hsz]
  simp only [bind, Except.bind]
  have e1 : sz.nrows = cs.nrows := rfl
  simp only [show (⟨cs.nrows, cs.ncols, cs.a.rows.length, cs.b.rows.length,
        cs.c.rows.length, cs.inputSize⟩ : R1CSSize) = sz from rfl, e1, hm, hT, hu, hw, hy, f3, h4,
    length_srs, assertR]
  rw [if_pos (by omega)]
  simp only [show stacked cs = l from rfl, hcm, k1]
  rfl

/-! ### The vectors of the prover -/

theorem polyOf_pad (v : List F) (n : ℕ) (δ : F) (N : ℕ) (hN : v.length + n = N) :
    polyOf (v ++ List.replicate n 0 ++ [δ]) = polyOf v + Polynomial.C δ * X ^ N := by
  ext k
  rw [coeff_polyOf, Polynomial.coeff_add, Polynomial.coeff_C_mul_X_pow, coeff_polyOf]
  by_cases h1 : k < v.length
  · rw [List.append_assoc, List.getD_append _ _ _ _ h1, if_neg (by omega), add_zero]
  · by_cases h2 : k < N
    · rw [List.append_assoc, List.getD_append_right _ _ _ _ (by omega),
        List.getD_append _ _ _ _ (by simp; omega), if_neg (by omega), add_zero,
        List.getD_eq_default v _ (by omega), List.getD_eq_getElem _ _ (by simp; omega)]
      simp
    · rw [List.getD_append_right _ _ _ _ (by simp; omega), List.getD_eq_default v _ (by omega),
        zero_add]
      by_cases h3 : k = N
      · subst h3; rw [if_pos rfl]; simp [hN]
      · rw [if_neg h3, List.getD_eq_default _ _ (by simp; omega)]

theorem length_r1csVec (cs : R1CS F) (x w : List F) :
    (r1csVec cs x w).length = 3 * cs.nrows + (1 + x.length + w.length) := by
  simp [r1csVec]; omega

theorem r1csU1_ok (rng : ℕ → F) (cs : R1CS F) (hl : R1csLens cs) (x w : List F)
    (hsh : R1CSShape cs x w) (S : ℕ) (hS : 3 * cs.nrows ≤ S) :
    ∃ u1, r1csU1 rng (concatMatrixVertically cs.nrows cs.a cs.b cs.c) cs.nrows cs.ncols S x w = .ok u1 ∧
      u1.length = cs.ncols + S + 1 ∧ polyOf u1 = asgPoly cs S x w (rng 0) := by
  obtain ⟨s1, s2, s3, ra, rb, rc⟩ := hsh
  have hlen : (1 :: (x ++ w) : List F).length = cs.ncols := by simp; omega
  have hr : InRange (concatMatrixVertically cs.nrows cs.a cs.b cs.c) (3 * cs.nrows) cs.ncols := by
    intro e he
    rw [(stacked_facts cs hl).1] at he
    exact stacked_range cs ra rb rc e he
  obtain ⟨m, m1, m2, m3⟩ := sparseMvp_ok (3 * cs.nrows) cs.ncols
    (concatMatrixVertically cs.nrows cs.a cs.b cs.c) (1 :: (x ++ w)) (by omega) s2 hlen hr
  have hv := C16_vertical cs.nrows cs.ncols cs.a cs.b cs.c hl.1 hl.2.1 ra rb (1 :: (x ++ w))
  have hm : m ++ (1 :: (x ++ w)) = r1csVec cs x w := by
    rw [r1csVec]
    congr 1
    apply List.ext_getElem
    · simp [m2]; omega
    intro i h1 h2
    have h3 := m3 i (by omega)
    rw [List.getD_eq_getElem _ _ h1] at h3
    rw [h3]
    by_cases i1 : i < cs.nrows
    · rw [List.getElem_append_left (by simp; omega), List.getElem_append_left (by simpa using i1),
        (hv i i1).1]
      simp
    · by_cases i2 : i < 2 * cs.nrows
      · have := (hv (i - cs.nrows) (by omega)).2.1
        rw [show cs.nrows + (i - cs.nrows) = i by omega] at this
        rw [List.getElem_append_left (by simp; omega), List.getElem_append_right (by simpa using i1),
          this]
        simp
      · have := (hv (i - 2 * cs.nrows) (by omega)).2.2
        rw [show 2 * cs.nrows + (i - 2 * cs.nrows) = i by omega] at this
        rw [List.getElem_append_right (by simp; omega), this]
        simp only [List.getElem_map, List.getElem_range, List.length_append, List.length_map,
          List.length_range]
        congr 1; omega
  have hlv := length_r1csVec cs x w
  unfold r1csU1
  push_cast at m1
  rw [m1]
  simp only [bind, Except.bind]
  rw [hm, zeroPadAndConcat, sampleVec_one, if_neg (by omega)]
  refine ⟨_, rfl, by simp; omega, ?_⟩
  rw [polyOf_pad _ _ _ (cs.ncols + S) (by omega)]
  rfl

theorem r1csU1_panic (rng : ℕ → F) (cs : R1CS F) (hl : R1csLens cs) (x w : List F)
    (hsh : R1CSShape cs x w) (S : ℕ) (hS : S < 3 * cs.nrows) :
    r1csU1 rng (concatMatrixVertically cs.nrows cs.a cs.b cs.c) cs.nrows cs.ncols S x w
      = .error .panic := by
  obtain ⟨s1, s2, s3, ra, rb, rc⟩ := hsh
  have hlen : (1 :: (x ++ w) : List F).length = cs.ncols := by simp; omega
  have hr : InRange (concatMatrixVertically cs.nrows cs.a cs.b cs.c) (3 * cs.nrows) cs.ncols := by
    intro e he
    rw [(stacked_facts cs hl).1] at he
    exact stacked_range cs ra rb rc e he
  obtain ⟨m, m1, m2, m3⟩ := sparseMvp_ok (3 * cs.nrows) cs.ncols
    (concatMatrixVertically cs.nrows cs.a cs.b cs.c) (1 :: (x ++ w)) (by omega) s2 hlen hr
  unfold r1csU1
  push_cast at m1
  rw [m1]
  simp only [bind, Except.bind]
  rw [zeroPadAndConcat, if_pos (by simp at hlen ⊢; omega)]

theorem exprInv_getD (n : ℕ) (γ μ : F) (hγ : γ ≠ 0) (n' : ℤ) (hn : n' = n) :
    expressionVectorInverse n' (fun i => μ - powerVectorIndex γ n' i)
      = (List.range n).map (fun i => (μ - γ ^ i)⁻¹) := by
  subst hn
  rw [expressionVectorInverse, batchInversion, expressionVector, Int.toNat_natCast, List.map_map]
  apply List.map_congr_left
  intro i hi
  have hi := List.mem_range.mp hi
  have hp : powerVectorIndex γ (n : ℤ) ((i : ℤ) + 1) = γ ^ i := by
    rw [powerVectorIndex, if_pos (by omega), add_sub_cancel_right]
    exact power_natCast (Or.inr hγ)
  simp only [Function.comp_apply, hp]
  split_ifs with h
  · rw [h, inv_zero]
  · rfl

theorem coeff_sPoly (n K : ℕ) (γ μ : F) (l : List ((ℕ × ℕ) × F)) (i : ℕ) :
    (sPoly n K γ μ l).coeff i = (if i < n then (μ - γ ^ i)⁻¹ else 0)
      - (if n ≤ i ∧ i < n + K then colSum γ μ l (i - n) else 0) := by
  rw [sPoly, Polynomial.coeff_sub, Polynomial.finsetSum_coeff, Polynomial.finsetSum_coeff]
  simp only [Polynomial.coeff_C_mul_X_pow]
  rw [Finset.sum_ite_eq]
  congr 1
  · simp only [Finset.mem_range]
  · by_cases h : n ≤ i ∧ i < n + K
    · rw [if_pos h, Finset.sum_eq_single (i - n)]
      · rw [if_pos (by omega)]
      · intro b _ hb; rw [if_neg (by omega)]
      · intro hn; exact absurd (Finset.mem_range.mpr (by omega)) hn
    · rw [if_neg h]
      apply Finset.sum_eq_zero
      intro k hk
      have := Finset.mem_range.mp hk
      rw [if_neg (by omega)]

theorem coeff_hPoly (K : ℕ) (γ μ ν : F) (l : List ((ℕ × ℕ) × F)) (i : ℕ) :
    (hPoly K γ μ ν l).coeff i = if i < K then (ν - γ ^ i)⁻¹ else
      (l.map (fun e => ((μ - γ ^ e.1.1) * (ν - γ ^ e.1.2))⁻¹)).getD (i - K) 0 := by
  rw [hPoly, Polynomial.coeff_add, Polynomial.finsetSum_coeff, Polynomial.coeff_X_pow_mul']
  simp only [Polynomial.coeff_C_mul_X_pow]
  rw [Finset.sum_ite_eq]
  simp only [Finset.mem_range]
  by_cases h : i < K
  · rw [if_pos h, if_pos h, if_neg (by omega), add_zero]
  · rw [if_neg h, if_neg h, if_pos (by omega), zero_add, coeff_polyOf]

theorem coeff_partialPoly (N : ℕ) (f : ℕ → F) (δ : F) (i : ℕ) :
    (partialPoly N f δ).coeff i = if i < N then ∑ j ∈ Finset.range (i + 1), f j
      else if i = N then δ else 0 := by
  rw [partialPoly, Polynomial.coeff_add, Polynomial.finsetSum_coeff]
  simp only [Polynomial.coeff_C_mul_X_pow]
  rw [Finset.sum_ite_eq]
  simp only [Finset.mem_range]
  by_cases h : i < N
  · rw [if_pos h, if_pos h, if_neg (by omega), add_zero]
  · rw [if_neg h, if_neg h, zero_add]

/-- `s_vec` for any matrix with `3H` rows. -/
theorem r1csS_ok (γ μ : F) (hγ : γ ≠ 0) (mat : SparseMat F) (l : List ((ℕ × ℕ) × F))
    (hm : triples mat = l) (H K : ℕ) (hH : 1 ≤ H) (hK : 1 ≤ K)
    (hr : ∀ e ∈ l, e.1.1 < 3 * H ∧ e.1.2 < K) :
    ∃ s, r1csS γ μ mat H K = .ok s ∧ s.length = 3 * H + K ∧ polyOf s = sPoly (3 * H) K γ μ l := by
  set r := (List.range (3 * H)).map (fun i => (μ - γ ^ i)⁻¹) with hrd
  obtain ⟨c, c1, c2, c3⟩ := C04_left_product (3 * H) K mat r (by omega) (by omega) (by simp [hrd])
    (by rw [← hm] at hr; exact hr)
  have hc : ∀ k, k < K → c.getD k 0 = colSum γ μ l k := by
    intro k hk
    rw [c3 k hk, vecMul]
    have := colVal_eq l (3 * H) (fun e he => (hr e he).1) (fun i => (μ - γ ^ i)⁻¹) k
    rw [colSum, ← this]
    apply Finset.sum_congr rfl
    intro i hi
    have hi := Finset.mem_range.mp hi
    rw [entry_eq, hm]
    congr 1
    rw [List.getD_eq_getElem _ _ (by simp [hrd]; omega)]
    simp [hrd]
  refine ⟨r ++ c.map (fun a => -a), ?_, by simp [hrd, c2], ?_⟩
  · unfold r1csS
    simp only
    rw [exprInv_getD (3 * H) γ μ hγ _ (by push_cast; rfl), ← hrd]
    push_cast at c1
    rw [c1]; rfl
  · ext i
    rw [coeff_polyOf, coeff_sPoly]
    by_cases h1 : i < 3 * H
    · rw [if_pos h1, if_neg (by omega), sub_zero, List.getD_append _ _ _ _ (by simpa [hrd] using h1),
        List.getD_eq_getElem _ _ (by simpa [hrd] using h1)]
      simp [hrd]
    · rw [if_neg h1, zero_sub, List.getD_append_right _ _ _ _ (by simp [hrd]; omega)]
      have hrl : r.length = 3 * H := by simp [hrd]
      rw [hrl]
      by_cases h2 : i < 3 * H + K
      · rw [if_pos ⟨by omega, h2⟩, ← hc _ (by omega), List.getD_eq_getElem _ _ (by simp; omega),
          List.getD_eq_getElem _ _ (by omega)]
        simp
      · rw [if_neg (by omega), neg_zero, List.getD_eq_default _ _ (by simp; omega)]

theorem r1csH_ok (γ μ ν : F) (hγ : γ ≠ 0) (l : List ((ℕ × ℕ) × F)) (K : ℕ) :
    (r1csH γ μ ν (l.map (fun e => γ ^ e.1.1)) (l.map (fun e => γ ^ e.1.2)) K).length
        = K + l.length ∧
    polyOf (r1csH γ μ ν (l.map (fun e => γ ^ e.1.1)) (l.map (fun e => γ ^ e.1.2)) K)
      = hPoly K γ μ ν l := by
  have hu : uwinverseVector μ (l.map (fun e => γ ^ e.1.1)) ν (l.map (fun e => γ ^ e.1.2))
      = l.map (fun e => ((μ - γ ^ e.1.1) * (ν - γ ^ e.1.2))⁻¹) := by
    rw [uwinverseVector, batchInversion, List.zip_map', List.map_map, List.map_map]
    apply List.map_congr_left
    intro e _
    simp only [Function.comp_apply]
    split_ifs with h
    · rw [h, inv_zero]
    · rfl
  have h1 : r1csH γ μ ν (l.map (fun e => γ ^ e.1.1)) (l.map (fun e => γ ^ e.1.2)) K
      = (List.range K).map (fun i => (ν - γ ^ i)⁻¹)
        ++ l.map (fun e => ((μ - γ ^ e.1.1) * (ν - γ ^ e.1.2))⁻¹) := by
    unfold r1csH
    rw [exprInv_getD K γ ν hγ _ rfl, hu]
  rw [h1]
  refine ⟨by simp, ?_⟩
  ext i
  rw [coeff_polyOf, coeff_hPoly]
  by_cases h : i < K
  · rw [if_pos h, List.getD_append _ _ _ _ (by simpa using h),
      List.getD_eq_getElem _ _ (by simpa using h)]
    simp
  · rw [if_neg h, List.getD_append_right _ _ _ _ (by simp; omega)]
    simp

theorem r1csR_ok (rng : ℕ → F) (β : F) (u1 s h v : List F) (H K S : ℕ) (hN : 1 ≤ K + S) :
    (r1csR rng β u1 s h v H K S).length = K + S + 1 ∧
    polyOf (r1csR rng β u1 s h v H K S)
      = partialPoly (K + S) (linTerm (3 * H) K β (polyOf v) (polyOf u1) (polyOf s) (polyOf h)) (rng 1) := by
  unfold r1csR
  rw [sampleVec_one]
  set f : ℤ → F := fun i =>
      powerLinearCombination β
        [vectorIndex u1 i * vectorIndex s i,
         -vectorIndex h (minusI64 i (3 * H + 1)) * vectorIndex s i
           - vectorIndex h i * vectorIndex v (minusI64 i (K + 1))] with hf
  have hft : ∀ i : ℕ, f ((i : ℤ) + 1)
      = linTerm (3 * H) K β (polyOf v) (polyOf u1) (polyOf s) (polyOf h) i := by
    intro i
    have r1 : ∀ w : List F, vectorIndex w ((i : ℤ) + 1) = (polyOf w).coeff i := by
      intro w
      have := rep_vec w ((i : ℤ) + 1)
      beta_reduce at this
      rw [this, add_sub_cancel_right, zc_natCast]
    have r2 : ∀ (w : List F) (k : ℕ), vectorIndex w (minusI64 ((i : ℤ) + 1) (k + 1))
        = (X ^ k * polyOf w).coeff i := by
      intro w k
      rw [Polynomial.coeff_X_pow_mul', show minusI64 ((i : ℤ) + 1) (k + 1) = (i : ℤ) - k + 1 by
        unfold minusI64; omega]
      split_ifs with hk
      · rw [show (i : ℤ) - k + 1 = ((i - k : ℕ) : ℤ) + 1 by omega]
        have := rep_vec w (((i - k : ℕ) : ℤ) + 1)
        beta_reduce at this
        rw [this, add_sub_cancel_right, zc_natCast]
      · rw [vectorIndex, if_neg (by omega)]
    have r3 : (3 * (H : ℤ) + 1) = ((3 * H : ℕ) : ℤ) + 1 := by push_cast; ring
    simp only [hf, powerLinearCombination, List.foldl_cons, List.foldl_nil]
    rw [r1, r1, r1, r3, r2, r2, linTerm]
    ring
  have en : ((K : ℤ) + S) = ((K + S : ℕ) : ℤ) := by push_cast; rfl
  obtain ⟨c1, c2⟩ := C09_plus (0 : F) (K + S) f
  rw [en]
  refine ⟨by rw [List.length_append, c1]; rfl, ?_⟩
  ext i
  rw [coeff_polyOf, coeff_partialPoly]
  by_cases h1 : i < K + S
  · rw [if_pos h1, List.getD_append _ _ _ _ (by rw [c1]; exact h1), c2 i h1, zero_add]
    apply Finset.sum_congr rfl
    intro j _
    exact hft j
  · rw [if_neg h1, List.getD_append_right _ _ _ _ (by rw [c1]; omega), c1]
    by_cases h2 : i = K + S
    · subst h2; simp
    · rw [if_neg h2, List.getD_eq_default _ _ (by simp; omega)]

end VO
