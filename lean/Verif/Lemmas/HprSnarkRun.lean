import Verif.Lemmas.R1csSnarkRun
import Verif.Lemmas.HprSnark

set_option linter.unusedSectionVars false

namespace VO
open Spec
open Polynomial (X)

variable {F G1 G2 GT : Type} [Field F] [DecidableEq F]
  [AddCommGroup G1] [Module F G1] [DecidableEq G1] [AddCommGroup G2] [Module F G2]
  [AddCommGroup GT] [Module F GT] [DecidableEq GT]

/-! ### The joined matrix -/

theorem triples_shift_cols (m : SparseMat F) (f : ℕ → ℕ) (s : ℕ) (hf : ∀ n, f n = s + n) :
    (m.rows.zip (m.cols.map f)).zip m.vals
      = (triples m).map (fun e => ((e.1.1, s + e.1.2), e.2)) := by
  rw [triples, List.zip_map_right, List.zip_map_left]
  apply List.map_congr_left
  intro e _
  rw [Prod.map, Prod.map, hf]; rfl

theorem triples_concatH (k : ℕ) (a b c : SparseMat F) (drows : List ℕ) (dvals : List F)
    (sa : SameLengths a) (sb : SameLengths b) (sc : SameLengths c)
    (sd : drows.length = dvals.length) :
    triples (concatMatrixHorizontally k a b c drows dvals)
      = (triples a).map (fun e => ((e.1.1, 1 + e.1.2), e.2))
        ++ (triples b).map (fun e => ((e.1.1, k + 1 + e.1.2), e.2))
        ++ (triples c).map (fun e => ((e.1.1, 2 * k + 1 + e.1.2), e.2))
        ++ (drows.zip dvals).map (fun p => ((p.1, 0), p.2)) := by
  obtain ⟨a1, a2⟩ := sa
  obtain ⟨b1, b2⟩ := sb
  obtain ⟨c1, c2⟩ := sc
  have hd : (drows.zip (List.replicate dvals.length 0)).zip dvals
      = (drows.zip dvals).map (fun p => ((p.1, 0), p.2)) := by
    rw [← sd]
    clear a1 a2 b1 b2 c1 c2
    induction drows generalizing dvals with
    | nil => simp
    | cons r rs ih =>
      cases dvals with
      | nil => simp at sd
      | cons d ds =>
        rw [List.length_cons, List.replicate_succ, List.zip_cons_cons, List.zip_cons_cons,
          List.zip_cons_cons, List.map_cons, ih ds (by simpa using sd)]
  rw [← triples_shift_cols a (· + 1) 1 (fun n => by ring),
    ← triples_shift_cols b (· + k + 1) (k + 1) (fun n => by ring),
    ← triples_shift_cols c (· + k * 2 + 1) (2 * k + 1) (fun n => by ring), ← hd]
  unfold triples concatMatrixHorizontally
  rw [List.zip_append (by simp [a1, b1, c1]), List.zip_append (by simp [a1, a2, b1, b2, c1, c2]),
    List.zip_append (by simp [a1, b1]), List.zip_append (by simp [a1, a2, b1, b2]),
    List.zip_append (by simp [a1]), List.zip_append (by simp [a1, a2])]

/-- The arrays of each matrix and of the constant vector have the same length, and there are at
most as many constants as rows. -/
def HprLens (cs : HPR F) : Prop :=
  SameLengths cs.a ∧ SameLengths cs.b ∧ SameLengths cs.c ∧ cs.drows.length = cs.dvals.length ∧
    cs.drows.length ≤ cs.nrows

theorem sameLengths_concatH (cs : HPR F) (hl : HprLens cs) :
    SameLengths (concatMatrixHorizontally cs.ncols cs.a cs.b cs.c cs.drows cs.dvals) := by
  obtain ⟨⟨a1, a2⟩, ⟨b1, b2⟩, ⟨c1, c2⟩, d1, -⟩ := hl
  constructor <;> simp [concatMatrixHorizontally, a1, a2, b1, b2, c1, c2, d1]

theorem joined_facts (cs : HPR F) (hl : HprLens cs) :
    triples (concatMatrixHorizontally cs.ncols cs.a cs.b cs.c cs.drows cs.dvals) = joined cs ∧
    (concatMatrixHorizontally cs.ncols cs.a cs.b cs.c cs.drows cs.dvals).rows
      = (joined cs).map (fun e => e.1.1) ∧
    (concatMatrixHorizontally cs.ncols cs.a cs.b cs.c cs.drows cs.dvals).cols
      = (joined cs).map (fun e => e.1.2) ∧
    (concatMatrixHorizontally cs.ncols cs.a cs.b cs.c cs.drows cs.dvals).vals
      = (joined cs).map Prod.snd ∧
    (joined cs).length = cs.a.rows.length + cs.b.rows.length + cs.c.rows.length
      + cs.drows.length := by
  have ht : triples (concatMatrixHorizontally cs.ncols cs.a cs.b cs.c cs.drows cs.dvals)
      = joined cs := triples_concatH _ _ _ _ _ _ hl.1 hl.2.1 hl.2.2.1 hl.2.2.2.1
  obtain ⟨h1, h2, h3⟩ := triples_maps _ (sameLengths_concatH cs hl)
  rw [ht] at h1 h2 h3
  refine ⟨ht, h1, h2, h3, ?_⟩
  obtain ⟨⟨a1, a2⟩, ⟨b1, b2⟩, ⟨c1, c2⟩, d1, -⟩ := hl
  simp [joined, triples, List.length_zip]
  omega

theorem joined_range (cs : HPR F) (ra : InRange cs.a cs.nrows cs.ncols)
    (rb : InRange cs.b cs.nrows cs.ncols) (rc : InRange cs.c cs.nrows cs.ncols)
    (rd : ∀ p ∈ cs.drows.zip cs.dvals, p.1 < cs.nrows) :
    ∀ e ∈ joined cs, e.1.1 < cs.nrows ∧ e.1.2 < 3 * cs.ncols + 1 := by
  intro e he
  simp only [joined, List.mem_append, List.mem_map] at he
  rcases he with ((⟨e', he, rfl⟩ | ⟨e', he, rfl⟩) | ⟨e', he, rfl⟩) | ⟨e', he, rfl⟩
  · have := ra e' he; simp only; omega
  · have := rb e' he; simp only; omega
  · have := rc e' he; simp only; omega
  · have := rd e' he; simp only; omega

theorem hprGetSize_ok (cs : HPR F) (hl : HprLens cs) :
    cs.getSize = .ok ⟨cs.nrows, cs.ncols, cs.a.rows.length, cs.a.rows.length, cs.a.rows.length,
      cs.drows.length, cs.inputSize⟩ := by
  obtain ⟨⟨a1, a2⟩, ⟨b1, b2⟩, ⟨c1, c2⟩, d1, d2⟩ := hl
  simp only [HPR.getSize, assertR, bind, Except.bind]
  rw [if_pos a1, if_pos (a1.trans a2), if_pos b1, if_pos (b1.trans b2), if_pos c1,
    if_pos (c1.trans c2), if_pos d1, if_pos d2]
  rfl

/-! ### The index -/

theorem hprIndex_ok (γ β : F) (hγ : γ ≠ 0) (g : G1) (h : G2) (D : ℕ) (pp : UniversalParams G1 G2)
    (hs : kzgSetup D β g h = .ok pp) (cs : HPR F) (hl : HprLens cs) (S : ℕ)
    (hS : S = (joined cs).length) 
    (hBC : cs.b.rows.length + cs.c.rows.length = 2 * cs.a.rows.length) (h1 : 1 ≤ S)
    (hSD : S ≤ D + 1)
    (hD : 5 * cs.ncols + 2 * S + 2 ≤ D) :
    ∃ (kvk : VerifierKey G1 G2), HonestVk β g h kvk ∧
      let l := joined cs
      let sz : HPRSize := ⟨cs.nrows, cs.ncols, cs.a.rows.length, cs.a.rows.length,
        cs.a.rows.length, cs.drows.length, cs.inputSize⟩
      let vk : HprVK G1 G2 := ⟨(rowPoly γ l).eval β • g, (colPoly γ l).eval β • g,
        (valPoly l).eval β • g, (rowColPoly γ l).eval β • g, kvk, sz, D + 1⟩
      hprIndex γ pp cs = .ok (⟨vk, srs β g D, 5 * cs.ncols + 2 * S + 2,
        concatMatrixHorizontally cs.ncols cs.a cs.b cs.c cs.drows cs.dvals,
        l.map (fun e => γ ^ e.1.1), l.map (fun e => γ ^ e.1.2), l.map Prod.snd,
        l.map (fun e => γ ^ e.1.1 * γ ^ e.1.2)⟩, vk) := by
  obtain ⟨kvk, k1, k2⟩ := C17_setup_vk D β g h pp hs
  refine ⟨kvk, k2, ?_⟩
  intro l sz vk
  by_cases hD0 : D = 0
  · have := (C17_setup D β g h).1 hD0
    rw [hs] at this; cases this
  obtain ⟨pp', h3, h4, -⟩ := (C17_setup D β g h).2 (by omega)
  rw [hs] at h3
  obtain rfl := Except.ok.inj h3
  obtain ⟨-, f1, f2, f3, f4⟩ := joined_facts cs hl
  have hll : l.length = S := hS.symm
  have hT : sz.total = S := by
    show cs.a.rows.length + cs.a.rows.length + cs.a.rows.length + cs.drows.length = S
    omega
  have hu : intArrayToPowerVector (concatMatrixHorizontally cs.ncols cs.a cs.b cs.c cs.drows cs.dvals).rows γ
      = l.map (fun e => γ ^ e.1.1) := by
    rw [f1, intArrayToPowerVector, List.map_map]
    apply List.map_congr_left
    intro e _
    exact power_natCast (Or.inr hγ)
  have hw : intArrayToPowerVector (concatMatrixHorizontally cs.ncols cs.a cs.b cs.c cs.drows cs.dvals).cols γ
      = l.map (fun e => γ ^ e.1.2) := by
    rw [f2, intArrayToPowerVector, List.map_map]
    apply List.map_congr_left
    intro e _
    exact power_natCast (Or.inr hγ)
  have hy : hadamardVector (l.map (fun e => γ ^ e.1.1)) (l.map (fun e => γ ^ e.1.2))
      = l.map (fun e => γ ^ e.1.1 * γ ^ e.1.2) := by
    rw [hadamardVector, List.zip_map', List.map_map]; rfl
  have hcm : ∀ f : (ℕ × ℕ) × F → F, commitVector (srs β g D) (l.map f) S
      = .ok ((polyOf (l.map f)).eval β • g) := by
    intro f
    have : l ≠ [] := by intro h; rw [h] at hll; simp at hll; omega
    exact commitVector_ok' β g D _ _ (by simpa using this) (by simpa using hll) (by omega)
  have hm : hprMaxDegree sz = 5 * cs.ncols + 2 * S + 2 := by
    rw [hprMaxDegree]
    have : S = cs.a.rows.length + cs.a.rows.length + cs.a.rows.length + cs.drows.length := hT.symm
    show 5 * cs.ncols + 2 * cs.a.rows.length + 2 * cs.a.rows.length + 2 * cs.a.rows.length
      + 2 * cs.drows.length + 2 = _
    omega
  have hsz := hprGetSize_ok cs hl
  unfold hprIndex
  rw [hsz]
  simp only [bind, Except.bind]
  have e1 : sz.ncols = cs.ncols := rfl
  simp only [show (⟨cs.nrows, cs.ncols, cs.a.rows.length, cs.a.rows.length,
        cs.a.rows.length, cs.drows.length, cs.inputSize⟩ : HPRSize) = sz from rfl, e1, hm, hT, hu, hw, hy, f3, h4,
    length_srs, assertR]
  rw [if_pos (by omega)]
  simp only [show joined cs = l from rfl, hcm, k1]
  rfl

/-! ### The vectors of the prover -/

theorem hprW1_ok (rng : ℕ → F) (K S : ℕ) (w1 w2 w3 : List F) (h1 : w1.length = K)
    (h2 : w2.length = K) (h3 : w3.length = K) :
    ∃ w, hprW1 rng K S w1 w2 w3 = .ok w ∧ w.length = 3 * K + 1 + S + 1 ∧
      polyOf w = hprWitPoly K S w1 w2 w3 (rng 0) := by
  unfold hprW1
  rw [zeroPadAndConcat, sampleVec_one, if_neg (by simp; omega)]
  refine ⟨_, rfl, by simp; omega, ?_⟩
  rw [polyOf_pad _ _ _ (3 * K + 1 + S) (by simp; omega)]
  rfl

/-- `s_vec` for any matrix with `H` rows. -/
theorem hprS_ok (γ μ : F) (hγ : γ ≠ 0) (mat : SparseMat F) (l : List ((ℕ × ℕ) × F))
    (hm : triples mat = l) (H K0 K : ℕ) (hK0 : K = 3 * K0 + 1) (hH : 1 ≤ H)
    (hr : ∀ e ∈ l, e.1.1 < H ∧ e.1.2 < K) :
    ∃ s, hprS γ μ mat H K0 = .ok s ∧ s.length = H + K ∧ polyOf s = sPoly H K γ μ l := by
  set r := (List.range H).map (fun i => (μ - γ ^ i)⁻¹) with hrd
  obtain ⟨c, c1, c2, c3⟩ := C04_left_product H K mat r (by omega) (by omega) (by simp [hrd])
    (by rw [← hm] at hr; exact hr)
  have hc : ∀ k, k < K → c.getD k 0 = colSum γ μ l k := by
    intro k hk
    rw [c3 k hk, vecMul]
    have := colVal_eq l H (fun e he => (hr e he).1) (fun i => (μ - γ ^ i)⁻¹) k
    rw [colSum, ← this]
    apply Finset.sum_congr rfl
    intro i hi
    have hi := Finset.mem_range.mp hi
    rw [entry_eq, hm]
    congr 1
    rw [List.getD_eq_getElem _ _ (by simp [hrd]; omega)]
    simp [hrd]
  refine ⟨r ++ c.map (fun a => -a), ?_, by simp [hrd, c2], ?_⟩
  · unfold hprS
    simp only
    rw [exprInv_getD H γ μ hγ _ rfl, ← hrd]
    rw [hK0] at c1
    push_cast at c1
    rw [c1]; rfl
  · ext i
    rw [coeff_polyOf, coeff_sPoly]
    by_cases h1 : i < H
    · rw [if_pos h1, if_neg (by omega), sub_zero, List.getD_append _ _ _ _ (by simpa [hrd] using h1),
        List.getD_eq_getElem _ _ (by simpa [hrd] using h1)]
      simp [hrd]
    · rw [if_neg h1, zero_sub, List.getD_append_right _ _ _ _ (by simp [hrd]; omega)]
      have hrl : r.length = H := by simp [hrd]
      rw [hrl]
      by_cases h2 : i < H + K
      · rw [if_pos ⟨by omega, h2⟩, ← hc _ (by omega), List.getD_eq_getElem _ _ (by simp; omega),
          List.getD_eq_getElem _ _ (by omega)]
        simp
      · rw [if_neg (by omega), neg_zero, List.getD_eq_default _ _ (by simp; omega)]

theorem hprH_eq (γ μ ν : F) (u w : List F) (K : ℕ) :
    hprH γ μ ν u w K = r1csH γ μ ν u w (3 * K + 1) := by
  unfold hprH r1csH
  push_cast
  rfl

theorem hprR_ok (rng : ℕ → F) (β : F) (x w1 s h v : List F) (H K S : ℕ) :
    (hprR rng β x w1 s h v H K S).length = 3 * K + 1 + S + 1 ∧
    polyOf (hprR rng β x w1 s h v H K S)
      = partialPoly (3 * K + 1 + S) (linTerm H (3 * K + 1) β (polyOf v)
          (hprAsg H (polyOf x) (polyOf w1)) (polyOf s) (polyOf h)) (rng 1) := by
  unfold hprR
  rw [sampleVec_one]
  set f : ℤ → F := fun i =>
      powerLinearCombination β
        [(vectorIndex x (minusI64 i 1) + vectorIndex w1 (minusI64 i (H + 2)) + delta i (H + 1))
            * vectorIndex s i,
         -vectorIndex h (minusI64 i (H + 1)) * vectorIndex s i
           - vectorIndex h i * vectorIndex v (minusI64 i (3 * K + 2))] with hf
  have hft : ∀ i : ℕ, f ((i : ℤ) + 1)
      = linTerm H (3 * K + 1) β (polyOf v) (hprAsg H (polyOf x) (polyOf w1)) (polyOf s)
          (polyOf h) i := by
    intro i
    have r1 : ∀ w : List F, vectorIndex w ((i : ℤ) + 1) = (polyOf w).coeff i := by
      intro w
      have := rep_vec w ((i : ℤ) + 1)
      beta_reduce at this
      rw [this, add_sub_cancel_right, zc_natCast]
    have r2 : ∀ (w : List F) (k : ℕ) (e : ℤ), e = k + 1 →
        vectorIndex w (minusI64 ((i : ℤ) + 1) e) = (X ^ k * polyOf w).coeff i := by
      rintro w k e rfl
      rw [Polynomial.coeff_X_pow_mul', show minusI64 ((i : ℤ) + 1) (k + 1) = (i : ℤ) - k + 1 by
        unfold minusI64; omega]
      split_ifs with hk
      · rw [show (i : ℤ) - k + 1 = ((i - k : ℕ) : ℤ) + 1 by omega]
        have := rep_vec w (((i - k : ℕ) : ℤ) + 1)
        beta_reduce at this
        rw [this, add_sub_cancel_right, zc_natCast]
      · rw [vectorIndex, if_neg (by omega)]
    have r3 : (delta ((i : ℤ) + 1) ((H : ℤ) + 1) : F) = (X ^ H : Polynomial F).coeff i := by
      rw [delta, Polynomial.coeff_X_pow]
      by_cases h : i = H
      · rw [if_pos (by omega), if_pos h]
      · rw [if_neg (by omega), if_neg h]
    have r4 : vectorIndex x (minusI64 ((i : ℤ) + 1) 1) = (polyOf x).coeff i := by
      rw [r2 x 0 _ (by simp), pow_zero, one_mul]
    simp only [hf, powerLinearCombination, List.foldl_cons, List.foldl_nil]
    rw [r1, r1, r3, r4, r2 w1 (H + 1) _ (by push_cast; ring), r2 h H _ rfl,
      r2 v (3 * K + 1) _ (by push_cast; ring), linTerm, hprAsg, Polynomial.coeff_add,
      Polynomial.coeff_add]
    ring
  have en : (3 * (K : ℤ) + S + 1) = ((3 * K + 1 + S : ℕ) : ℤ) := by push_cast; ring
  obtain ⟨c1, c2⟩ := C09_plus (0 : F) (3 * K + 1 + S) f
  rw [en]
  refine ⟨by rw [List.length_append, c1]; rfl, ?_⟩
  ext i
  rw [coeff_polyOf, coeff_partialPoly]
  by_cases h1 : i < 3 * K + 1 + S
  · rw [if_pos h1, List.getD_append _ _ _ _ (by rw [c1]; exact h1), c2 i h1, zero_add]
    apply Finset.sum_congr rfl
    intro j _
    exact hft j
  · rw [if_neg h1, List.getD_append_right _ _ _ _ (by rw [c1]; omega), c1]
    by_cases h2 : i = 3 * K + 1 + S
    · subst h2; simp
    · rw [if_neg h2, List.getD_eq_default _ _ (by simp; omega)]

end VO
