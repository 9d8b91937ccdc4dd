import Verif.Lemmas.HprSnarkComplete
import Verif.Lemmas.HprSnarkRun
import Verif.Lemmas.HprSnarkEntries
import Verif.Props.Hadamard
import Verif.Props.Cs
import Verif.Lemmas.SnarkExample

set_option linter.unusedSectionVars false

/-
Completeness of the HPR SNARK (C44).
-/

namespace VO
open Spec
open Polynomial (X toLaurent)
open LaurentPolynomial (T)

variable {F G1 G2 GT : Type} [Field F] [DecidableEq F]
  [AddCommGroup G1] [Module F G1] [DecidableEq G1] [AddCommGroup G2] [Module F G2]
  [AddCommGroup GT] [Module F GT] [DecidableEq GT]

/-- Coefficients of the honest witness polynomial. -/
theorem coeff_hprWitPoly (K S : ℕ) (w1 w2 w3 : List F) (δ : F) (i : ℕ) (hi : i < 3 * K + 1 + S) :
    (hprWitPoly K S w1 w2 w3 δ).coeff i = (w1 ++ w2 ++ w3).getD i 0 := by
  rw [hprWitPoly, Polynomial.coeff_add, Polynomial.coeff_C_mul_X_pow, if_neg (by omega), add_zero,
    coeff_polyOf]

/-- Coefficients of the assignment polynomial for an instance polynomial of degree below `H`. -/
theorem coeff_hprAsg (H : ℕ) (V W : Polynomial F) (hV : V.degree < (H : WithBot ℕ)) :
    (∀ i, i < H → (hprAsg H V W).coeff i = V.coeff i) ∧ (hprAsg H V W).coeff H = 1 ∧
      ∀ k, (hprAsg H V W).coeff (H + 1 + k) = W.coeff k := by
  have hV0 : ∀ i, H ≤ i → V.coeff i = 0 := by
    intro i hi
    apply Polynomial.coeff_eq_zero_of_degree_lt
    exact lt_of_lt_of_le hV (by exact_mod_cast hi)
  refine ⟨fun i hi => ?_, ?_, fun k => ?_⟩
  · rw [hprAsg, Polynomial.coeff_add, Polynomial.coeff_add, Polynomial.coeff_X_pow,
      Polynomial.coeff_X_pow_mul', if_neg (by omega), if_neg (by omega)]; ring
  · rw [hprAsg, Polynomial.coeff_add, Polynomial.coeff_add, Polynomial.coeff_X_pow,
      Polynomial.coeff_X_pow_mul', if_pos rfl, if_neg (by omega), hV0 H le_rfl]; ring
  · rw [hprAsg, Polynomial.coeff_add, Polynomial.coeff_add, Polynomial.coeff_X_pow,
      Polynomial.coeff_X_pow_mul', if_neg (by omega), if_pos (by omega), hV0 _ (by omega),
      Nat.add_sub_cancel_left]; ring

/-- The product of the joined matrix with `(1, w1, w2, w3)`. -/
theorem joined_mul (cs : HPR F) (hl : HprLens cs) (ra : InRange cs.a cs.nrows cs.ncols)
    (rb : InRange cs.b cs.nrows cs.ncols) (rc : InRange cs.c cs.nrows cs.ncols)
    (w1 w2 w3 : List F) (h1 : w1.length = cs.ncols) (h2 : w2.length = cs.ncols)
    (h3 : w3.length = cs.ncols) (i : ℕ) :
    ∑ j ∈ Finset.range (3 * cs.ncols + 1), entryOf (joined cs) i j
        * (1 :: (w1 ++ w2 ++ w3)).getD j 0
      = mulVec cs.a cs.ncols w1 i + mulVec cs.b cs.ncols w2 i + mulVec cs.c cs.ncols w3 i
        + constAt cs.drows cs.dvals i := by
  have hv := C16_horizontal cs.nrows cs.ncols cs.a cs.b cs.c cs.drows cs.dvals hl.1 hl.2.1 hl.2.2.1
    hl.2.2.2.1 ra rb rc w1 w2 w3 h1 h2 h3 i
  rw [constAt, ← hv, mulVec]
  simp only [entry_eq, (joined_facts cs hl).1]

/-- Polynomials that satisfy all equations below index `3K + 1 + S`: `P`, `Q`, `R` as computed by the
prover, for any witness and instance polynomials that satisfy the product equations and the linear
equations. -/
theorem hpr_honest_of (cs : HPR F) (S : ℕ)
    (hr : ∀ e ∈ joined cs, e.1.1 < cs.nrows ∧ e.1.2 < 3 * cs.ncols + 1)
    (hS : S = (joined cs).length) (h3 : cs.nrows ≤ S) (γ μ ν β α δ1 : F) (V W : Polynomial F)
    (hμ : ∀ i, i < cs.nrows → μ ≠ γ ^ i) (hν : ∀ k, k < 3 * cs.ncols + 1 → ν ≠ γ ^ k)
    (hhad : ∀ j, j < cs.ncols → W.coeff j * W.coeff (cs.ncols + j) = W.coeff (2 * cs.ncols + j))
    (hlin : ∀ i, i < cs.nrows → ∑ j ∈ Finset.range (3 * cs.ncols + 1), entryOf (joined cs) i j
      * (hprAsg cs.nrows V W).coeff (cs.nrows + j) = (hprAsg cs.nrows V W).coeff i)
    (i : ℕ) (hi : i < 3 * cs.ncols + 1 + S) :
    hadamardEntry (hprBase cs.nrows cs.ncols S γ μ ν β α (rowPoly γ (joined cs))
      (colPoly γ (joined cs)) (valPoly (joined cs)) (rowColPoly γ (joined cs)) V W
      (sPoly cs.nrows (3 * cs.ncols + 1) γ μ (joined cs))
      (hPoly (3 * cs.ncols + 1) γ μ ν (joined cs))
      (partialPoly (3 * cs.ncols + 1 + S) (linTerm cs.nrows (3 * cs.ncols + 1) β (valPoly (joined cs))
        (hprAsg cs.nrows V W)
        (sPoly cs.nrows (3 * cs.ncols + 1) γ μ (joined cs))
        (hPoly (3 * cs.ncols + 1) γ μ ν (joined cs))) δ1)) i = 0 := by
  set l := joined cs with hld
  set N := 3 * cs.ncols + 1 with hN
  set A := hprAsg cs.nrows V W with hA
  have p1 : ∀ i, i < cs.nrows → (sPoly cs.nrows N γ μ l).coeff i = (μ - γ ^ i)⁻¹ := by
    intro i hi
    rw [coeff_sPoly, if_pos hi, if_neg (by omega), sub_zero]
  have p2 : ∀ k, k < N → (sPoly cs.nrows N γ μ l).coeff (cs.nrows + k) = -colSum γ μ l k := by
    intro k hk
    rw [coeff_sPoly, if_neg (by omega), if_pos (by omega), Nat.add_sub_cancel_left, zero_sub]
  have p3 : ∀ i, cs.nrows + N ≤ i → i < N + S → (sPoly cs.nrows N γ μ l).coeff i = 0 := by
    intro i h1 _
    rw [coeff_sPoly, if_neg (by omega), if_neg (by omega), sub_zero]
  have p4 : ∀ i, i < N → (hPoly N γ μ ν l).coeff i = (ν - γ ^ i)⁻¹ := by
    intro i hi
    rw [coeff_hPoly, if_pos hi]
  have p5 : ∀ j, j < S → (hPoly N γ μ ν l).coeff (N + j)
      = (l.map (fun e => ((μ - γ ^ e.1.1) * (ν - γ ^ e.1.2))⁻¹)).getD j 0 := by
    intro j _
    rw [coeff_hPoly, if_neg (by omega), Nat.add_sub_cancel_left]
  refine hpr_entry_zero cs.nrows cs.ncols S h3 γ μ ν β α _ _ _ _ _ _ _ _ _
    ?_ ?_ p3 ?_ hhad ?_ ?_ i hi
  · intro i hi
    rw [p1 i hi, mul_inv_cancel₀ (sub_ne_zero.mpr (hμ i hi))]
  · intro i hi
    rw [p4 i hi, mul_inv_cancel₀ (sub_ne_zero.mpr (hν i hi))]
  · intro j hj
    rw [p5 j hj, rowColPoly, colPoly, rowPoly, coeff_polyOf, coeff_polyOf, coeff_polyOf]
    rw [List.getD_eq_getElem _ _ (by simpa [hS] using hj),
        List.getD_eq_getElem _ _ (by simpa [hS] using hj),
        List.getD_eq_getElem _ _ (by simpa [hS] using hj),
        List.getD_eq_getElem _ _ (by simpa [hS] using hj)]
    simp only [List.getElem_map]
    have hm := hr _ (List.getElem_mem (l := l) (n := j) (by omega))
    have n1 := sub_ne_zero.mpr (hμ _ hm.1)
    have n2 := sub_ne_zero.mpr (hν _ hm.2)
    field_simp
    ring
  · intro i hi
    rw [coeff_partialPoly, if_pos hi]
  · rw [linTerm_sum cs.nrows N S h3 γ μ ν β l hS.symm hr _ _ _ p1 p4 p3 p5]
    have e1 : ∑ k ∈ Finset.range N,
        ((sPoly cs.nrows N γ μ l).coeff (cs.nrows + k) + colSum γ μ l k) * (ν - γ ^ k)⁻¹ = 0 := by
      apply Finset.sum_eq_zero
      intro k hk
      rw [p2 k (Finset.mem_range.mp hk)]; ring
    have e2 : ∑ k ∈ Finset.range N, A.coeff (cs.nrows + k)
          * (sPoly cs.nrows N γ μ l).coeff (cs.nrows + k)
        = - ∑ k ∈ Finset.range N, A.coeff (cs.nrows + k) * colSum γ μ l k := by
      rw [← Finset.sum_neg_distrib]
      apply Finset.sum_congr rfl
      intro k hk
      rw [p2 k (Finset.mem_range.mp hk)]; ring
    have e3 : ∑ i ∈ Finset.range cs.nrows, A.coeff i * (μ - γ ^ i)⁻¹
        = ∑ k ∈ Finset.range N, A.coeff (cs.nrows + k) * colSum γ μ l k := by
      rw [colSum_dot γ μ l cs.nrows N hr (fun k => A.coeff (cs.nrows + k))]
      apply Finset.sum_congr rfl
      intro i hi
      rw [hlin i (Finset.mem_range.mp hi)]
    rw [e1, e2, e3]; ring

/-- The committed polynomials of an honest run satisfy all equations below index `3K + 1 + S`. -/
theorem hpr_honest (cs : HPR F) (hl : HprLens cs) (x w1 w2 w3 : List F)
    (hsh : HPRShape cs x w1 w2 w3) (hsat : HPRHolds cs x w1 w2 w3) (S : ℕ)
    (hS : S = (joined cs).length) (h3 : cs.nrows ≤ S) (γ μ ν β α δ0 δ1 : F)
    (hμ : ∀ i, i < cs.nrows → μ ≠ γ ^ i) (hν : ∀ k, k < 3 * cs.ncols + 1 → ν ≠ γ ^ k)
    (i : ℕ) (hi : i < 3 * cs.ncols + 1 + S) :
    hadamardEntry (hprBase cs.nrows cs.ncols S γ μ ν β α (rowPoly γ (joined cs))
      (colPoly γ (joined cs)) (valPoly (joined cs)) (rowColPoly γ (joined cs)) (polyOf x)
      (hprWitPoly cs.ncols S w1 w2 w3 δ0) (sPoly cs.nrows (3 * cs.ncols + 1) γ μ (joined cs))
      (hPoly (3 * cs.ncols + 1) γ μ ν (joined cs))
      (partialPoly (3 * cs.ncols + 1 + S) (linTerm cs.nrows (3 * cs.ncols + 1) β (valPoly (joined cs))
        (hprAsg cs.nrows (polyOf x) (hprWitPoly cs.ncols S w1 w2 w3 δ0))
        (sPoly cs.nrows (3 * cs.ncols + 1) γ μ (joined cs))
        (hPoly (3 * cs.ncols + 1) γ μ ν (joined cs))) δ1)) i = 0 := by
  obtain ⟨s1, s2, k1, k2, k3, ra, rb, rc, rd, hx⟩ := hsh
  have hW := fun i hi => coeff_hprWitPoly cs.ncols S w1 w2 w3 δ0 i hi
  obtain ⟨a1, a2, a3⟩ := coeff_hprAsg cs.nrows (polyOf x) (hprWitPoly cs.ncols S w1 w2 w3 δ0)
    (degLt_mono (degree_polyOf_lt x) hx)
  have a4 : ∀ k, k < 3 * cs.ncols + 1 →
      (hprAsg cs.nrows (polyOf x) (hprWitPoly cs.ncols S w1 w2 w3 δ0)).coeff (cs.nrows + k)
        = (1 :: (w1 ++ w2 ++ w3)).getD k 0 := by
    intro k hk
    cases k with
    | zero => exact a2
    | succ k =>
      rw [show cs.nrows + (k + 1) = cs.nrows + 1 + k by ring, a3, hW _ (by omega),
        List.getD_cons_succ]
  refine hpr_honest_of cs S (joined_range cs ra rb rc rd) hS h3 γ μ ν β α δ1 _ _ hμ hν ?_ ?_ i hi
  · intro j hj
    rw [hW _ (by omega), hW _ (by omega), hW _ (by omega)]
    have := hsat.1 j hj
    rw [List.getD_append _ _ _ _ (by simp; omega), List.getD_append _ _ _ _ (by omega),
      List.getD_append _ _ _ _ (by simp; omega), List.getD_append_right _ _ _ _ (by omega),
      List.getD_append_right _ _ _ _ (by simp; omega), k1, Nat.add_sub_cancel_left, this]
    congr 1
    simp; omega
  · intro i hi
    rw [a1 i hi, coeff_polyOf, ← hsat.2 i hi, ← joined_mul cs hl ra rb rc w1 w2 w3 k1 k2 k3 i]
    apply Finset.sum_congr rfl
    intro j hj
    rw [a4 j (Finset.mem_range.mp hj)]

set_option maxHeartbeats 2000000 in
/-- **C44.** Completeness of the HPR SNARK, for every system with `H` rows and `K` columns whose three
matrices `A`, `B`, `C` satisfy `|B| + |C| = 2|A|` (numbers of listed entries) and list together
with the constants `S ≥ H` entries, every instance
and witness accepted by `satisfy`, every hash function, blinding values, trapdoor and maximal degree
`D ≥ 5K + 2S + 2`.  `W` is the witness polynomial, `P`, `Q` those of the two sums of inverses, `R` of
the partial sums and `B` the blinding polynomial.  For challenges `μ`, `ν` that are not among the
powers of `γ` used for rows and columns: if `ω = 0`, `prove` panics.  Otherwise let `H1`, `H2` be the
polynomials with `Σ A_j(ω/T) B_j(T) = T^{-(5K+2S+2)} H1 + T H2`, `z` the hash after them and `G` the
final polynomial.  If `z ∉ {0, 1, ω, γω}` and none of `Q`, `W`, `G` is constant, `prove` succeeds and
`verify` accepts the proof; in every other case `prove` panics. -/
theorem C44_complete (env : Env F G1 G2 GT) (hf : FftOk env.fft) (hγ : env.gamma ≠ 0) (τ : F) (g : G1)
    (h : G2) (D : ℕ) (pp : UniversalParams G1 G2) (hs : kzgSetup D τ g h = .ok pp) (cs : HPR F)
    (hl : HprLens cs) 
    (hBC : cs.b.rows.length + cs.c.rows.length = 2 * cs.a.rows.length) (H K S : ℕ) (hH : H = cs.nrows) (hK : K = cs.ncols)
    (hS : S = (joined cs).length) (h3 : H ≤ S)
    (hD : 5 * K + 2 * S + 2 ≤ D) (hfft : 2 * (3 * K + 1 + S) + 2 ≤ 2 ^ env.fft.twoAdicity)
    (x w1 w2 w3 : List F) (hsh : HPRShape cs x w1 w2 w3)
    (hsat : cs.satisfy x w1 w2 w3 = .ok true) :
    ∃ pk vk, hprIndex env.gamma pp cs = .ok (pk, vk) ∧
      let l := joined cs
      let γ := env.gamma
      let W := hprWitPoly K S w1 w2 w3 (env.rngF 0)
      let cm := fun p : Polynomial F => (Item.cm (p.eval τ • g) : Item F G1)
      let pre := fun (first : F) (items : List (Item F G1)) =>
        [.fld first, .flds x, cm (rowPoly γ l), cm (colPoly γ l), cm (valPoly l),
          cm (rowColPoly γ l)] ++ items
      let μ := env.hash (pre 1 [cm W])
      let P := sPoly H (3 * K + 1) γ μ l
      let ν := env.hash (pre 1 [cm W, cm P])
      let Q := hPoly (3 * K + 1) γ μ ν l
      let β := env.hash (pre 1 [cm W, cm P, cm Q])
      let R := partialPoly (3 * K + 1 + S)
        (linTerm H (3 * K + 1) β (valPoly l) (hprAsg H (polyOf x) W) P Q) (env.rngF 1)
      let α := env.hash (pre 1 [cm W, cm P, cm Q, cm R])
      let B := blindPoly (3 * K + 1 + S) (2 * K + S + 2) (env.rngF 2)
        (hprBase H K S γ μ ν β α (rowPoly γ l) (colPoly γ l) (valPoly l)
          (rowColPoly γ l) (polyOf x) W P Q R)
      let ω := env.hash (pre 1 [cm W, cm P, cm Q, cm R, cm B])
      (∀ i, i < H → μ ≠ γ ^ i) → (∀ k, k < 3 * K + 1 → ν ≠ γ ^ k) →
      (ω = 0 → hprProve env pk x (w1, w2, w3) = .error .panic) ∧
      (ω ≠ 0 →
        ∃ H1 H2 : Polynomial F, H1.degree < ((5 * K + 2 * S + 2 : ℕ) : WithBot ℕ) ∧
          H2.degree < ((5 * K + 2 * S + 2 : ℕ) : WithBot ℕ) ∧
          hadamardLaurent ω (hprPolys H K S γ μ ν β α (rowPoly γ l) (colPoly γ l)
              (valPoly l) (rowColPoly γ l) (polyOf x) W P Q R B)
            = T (-((5 * K + 2 * S + 2 : ℕ) : ℤ)) * toLaurent H1 + T 1 * toLaurent H2 ∧
          let Ĥ1 := X ^ (D + 1 - (5 * K + 2 * S + 2)) * H1
          let z := env.hash (pre 1 [cm W, cm P, cm Q, cm R, cm B, cm Ĥ1, cm H2])
          let G := hprGPoly H K S (D + 1) γ μ ν β α ω z (Q.eval (ω / z))
            (W.eval (ω / z)) ((polyOf x).eval (ω / z)) (rowPoly γ l) (colPoly γ l) (valPoly l)
            (rowColPoly γ l) W P Q R B Ĥ1 H2
          let good := (z ≠ 0 ∧ z ≠ 1 ∧ z ≠ ω ∧ z ≠ γ * ω) ∧ Q.natDegree ≠ 0 ∧
            W.natDegree ≠ 0 ∧ G.natDegree ≠ 0
          (good → ∃ π, hprProve env pk x (w1, w2, w3) = .ok π ∧ hprVerify env vk x π = .ok ()) ∧
          (¬ good → hprProve env pk x (w1, w2, w3) = .error .panic)) := by
  subst hH hK
  have hholds := (C25_satisfy cs x w1 w2 w3 hsh).1.mp hsat
  obtain ⟨s1, s2, k1, k2, k3, ra, rb, rc, rd, hx⟩ := id hsh
  obtain ⟨ft, f1, f2, f3, f4⟩ := joined_facts cs hl
  have hSs : S = cs.a.rows.length + cs.a.rows.length + cs.a.rows.length + cs.drows.length := by
    omega
  obtain ⟨kvk, hvk, hidx⟩ := hprIndex_ok env.gamma τ hγ g h D pp hs cs hl S hS hBC (by omega)
    (by omega) hD
  refine ⟨_, _, hidx, ?_⟩
  intro l γ W cm pre μ P ν Q β R α B ω hμ hν
  have hr := joined_range cs ra rb rc rd
  set sz : HPRSize := ⟨cs.nrows, cs.ncols, cs.a.rows.length, cs.a.rows.length,
        cs.a.rows.length, cs.drows.length, cs.inputSize⟩ with hsz
  have hT : sz.total = S := hSs.symm
  have hT' : HPRSize.total ⟨cs.nrows, cs.ncols, cs.a.rows.length, cs.a.rows.length,
        cs.a.rows.length, cs.drows.length, cs.inputSize⟩ = S := hSs.symm
  set mat := concatMatrixHorizontally cs.ncols cs.a cs.b cs.c cs.drows cs.dvals with hmat
  set u := l.map (fun e => γ ^ e.1.1) with hu
  set wv := l.map (fun e => γ ^ e.1.2) with hw
  set v := l.map Prod.snd with hv
  set y := l.map (fun e => γ ^ e.1.1 * γ ^ e.1.2) with hy
  have hll : l.length = S := hS.symm
  obtain ⟨u1, hu1, lu1, pA⟩ := hprW1_ok env.rngF cs.ncols S w1 w2 w3 k1 k2 k3
  have pA : polyOf u1 = W := pA
  obtain ⟨s, hss, lss, pP⟩ := hprS_ok γ μ hγ mat l ft cs.nrows cs.ncols (3 * cs.ncols + 1) rfl s1 hr
  have pP : polyOf s = P := pP
  obtain ⟨lh, pQ⟩ := r1csH_ok γ μ ν hγ l (3 * cs.ncols + 1)
  rw [← hprH_eq] at lh pQ
  set hvec := hprH γ μ ν u wv cs.ncols with hhv
  have pQ : polyOf hvec = Q := pQ
  rw [hll] at lh
  obtain ⟨lr, pR⟩ := hprR_ok env.rngF β x u1 s hvec v cs.nrows cs.ncols S
  set r := hprR env.rngF β x u1 s hvec v cs.nrows cs.ncols S with hrv
  have pR : polyOf r = R := by rw [pR, pA, pP, pQ]; rfl
  set s0 : HprRun F := ⟨cs.nrows, cs.ncols, S, γ, μ, ν, β, α, 0, x, u, wv, v, y, u1,
    s, hvec, r, []⟩ with hs0
  have hgood0 : s0.Good := ⟨s1, s2, h3, hγ, hx, by show u.length = S; simp [hu, hll],
    by show wv.length = S; simp [hw, hll], by show v.length = S; simp [hv, hll],
    by show y.length = S; simp [hy, hll], lu1, lss, lh, lr⟩
  have hbase : s0.base = hprBase cs.nrows cs.ncols S γ μ ν β α (rowPoly γ l)
      (colPoly γ l) (valPoly l) (rowColPoly γ l) (polyOf x) W P Q R := by
    show hprBase _ _ _ _ _ _ _ _ (polyOf u) (polyOf wv) (polyOf v) (polyOf y) (polyOf x)
      (polyOf u1) (polyOf s) (polyOf hvec) (polyOf r) = _
    rw [pA, pP, pQ, pR]; rfl
  obtain ⟨lt, pt⟩ := s0.mkT_ok hgood0 env.rngF
  set t := s0.mkT env.rngF with htd
  have lt : t.length = 2 * cs.ncols + S + 4 := lt
  have pB : polyOf t = B := by rw [pt, hbase]
  have dB : B.degree < ((cs.ncols + S + 3 : ℕ) : WithBot ℕ) := by
    have := s0.blind_degree hgood0 (env.rngF 2)
    rwa [hbase] at this
  set sr : HprRun F := ⟨cs.nrows, cs.ncols, S, γ, μ, ν, β, α, ω, x, u, wv, v, y, u1,
    s, hvec, r, t⟩ with hsr
  have hgood : sr.Good := ⟨hgood0.1, hgood0.2, hgood0.3, hgood0.4, hgood0.5, hgood0.6, hgood0.7,
    hgood0.8, hgood0.9, hgood0.10, hgood0.11, hgood0.12, hgood0.13⟩
  have cA : commitVector (srs τ g D) u1 (3 * cs.ncols + S + 1 + 1) = .ok (W.eval τ • g) := by
    rw [commitVector_ok' τ g D _ _ (by intro h; simp [h] at lu1) (by omega) (by omega), pA]
  have cP : commitVector (srs τ g D) s (cs.nrows + 3 * cs.ncols + 1) = .ok (P.eval τ • g) := by
    rw [commitVector_ok' τ g D _ _ (by intro h; simp [h] at lss) (by omega) (by omega), pP]
  have cQ : commitVector (srs τ g D) hvec (3 * cs.ncols + S + 1) = .ok (Q.eval τ • g) := by
    rw [commitVector_ok' τ g D _ _ (by intro h; simp [h] at lh; omega) (by omega) (by omega), pQ]
  have cR : commitVector (srs τ g D) r (3 * cs.ncols + S + 1 + 1) = .ok (R.eval τ • g) := by
    rw [commitVector_ok' τ g D _ _ (by intro h; simp [h] at lr) (by omega) (by omega), pR]
  have cB : commitVector (srs τ g D) t (2 * cs.ncols + S + 1 + 2)
      = .ok (B.eval τ • g) := by
    have := (C23_vector_commitment τ g D t (2 * cs.ncols + S + 1 + 2)
      (by intro h; simp [h] at lt)).2.1 (by omega) (by omega)
    rw [commitVector, this, pB]; rfl
  have eμ : env.hash (r1csPrefix 1 x ((rowPoly γ l).eval τ • g) ((colPoly γ l).eval τ • g)
    ((valPoly l).eval τ • g) ((rowColPoly γ l).eval τ • g) ++ [.cm (W.eval τ • g)]) = μ := rfl
  have eν : env.hash (r1csPrefix 1 x ((rowPoly γ l).eval τ • g) ((colPoly γ l).eval τ • g)
    ((valPoly l).eval τ • g) ((rowColPoly γ l).eval τ • g)
    ++ [.cm (W.eval τ • g), .cm (P.eval τ • g)]) = ν := rfl
  have eβ : env.hash (r1csPrefix 1 x ((rowPoly γ l).eval τ • g) ((colPoly γ l).eval τ • g)
    ((valPoly l).eval τ • g) ((rowColPoly γ l).eval τ • g)
    ++ [.cm (W.eval τ • g), .cm (P.eval τ • g), .cm (Q.eval τ • g)]) = β := rfl
  have eα : env.hash (r1csPrefix 1 x ((rowPoly γ l).eval τ • g) ((colPoly γ l).eval τ • g)
    ((valPoly l).eval τ • g) ((rowColPoly γ l).eval τ • g)
    ++ [.cm (W.eval τ • g), .cm (P.eval τ • g), .cm (Q.eval τ • g), .cm (R.eval τ • g)]) = α := rfl
  have eω : env.hash (r1csPrefix 1 x ((rowPoly γ l).eval τ • g) ((colPoly γ l).eval τ • g)
    ((valPoly l).eval τ • g) ((rowColPoly γ l).eval τ • g)
    ++ [.cm (W.eval τ • g), .cm (P.eval τ • g), .cm (Q.eval τ • g), .cm (R.eval τ • g),
      .cm (B.eval τ • g)]) = ω := rfl
  have hγd : env.gamma = γ := rfl
  have z1 : sz.nrows = cs.nrows := rfl
  have z2 : sz.ncols = cs.ncols := rfl
  have hld : joined cs = l := rfl
  constructor
  · intro hω0
    have hder := sr.derive_panic env.fft hω0
    unfold hprProve
    simp only [hγd, hld, hT, z1, z2, hu1, cA, eμ, ← hu, ← hw, ← hv, ← hy, hss, cP, eν, ← hhv, cQ, eβ, ← hrv,
      cR, eα, bind, Except.bind]
    simp only [← hs0, ← htd, cB, eω, ← hsr, hder]
  intro hω0
  have hpolys : sr.polys = hprPolys cs.nrows cs.ncols S γ μ ν β α (rowPoly γ l)
      (colPoly γ l) (valPoly l) (rowColPoly γ l) (polyOf x) W P Q R B := by
    show s0.base ++ [blindPair (3 * cs.ncols + 1 + S) (2 * cs.ncols + S + 2) (polyOf t)] = _
    rw [hbase, pB]; rfl
  have hentry : ∀ i, hadamardEntry sr.polys i = 0 := by
    intro i
    rw [hpolys]
    apply entries_blind_zero _ _ (by omega)
    · intro i hi
      exact hpr_honest cs hl x w1 w2 w3 hsh hholds S hS h3 γ μ ν β α (env.rngF 0) (env.rngF 1) hμ hν i hi
    · intro i hi
      have hi' : 4 * s0.K + 2 * s0.S + 2 < i := by
        show 4 * cs.ncols + 2 * S + 2 < i
        omega
      have := s0.base_high hgood0 i hi'
      rwa [hbase] at this
  have hh := sr.hAtRep hgood hω0
  set M := 5 * cs.ncols + 2 * S + 2 with hM
  have hMD : M ≤ D + 1 := by omega
  have nQ : (polyOf hvec).natDegree ≤ D := by
    have := natDegree_polyOf_lt hvec (by intro h; simp [h] at lh; omega); omega
  have nA : (polyOf u1).natDegree ≤ D := by
    have := natDegree_polyOf_lt u1 (by intro h; simp [h] at lu1); omega
  have dA : W.degree < ((3 * cs.ncols + 1 + S + 1 : ℕ) : WithBot ℕ) := by
    rw [← pA, ← lu1]; exact degree_polyOf_lt u1
  have dR : R.degree < ((3 * cs.ncols + 1 + S + 1 : ℕ) : WithBot ℕ) := by
    rw [← pR, ← lr]; exact degree_polyOf_lt r
  have dQ : Q.degree < ((3 * cs.ncols + 1 + S : ℕ) : WithBot ℕ) := by
    rw [← pQ, ← lh]; exact degree_polyOf_lt hvec
  have dP : P.degree < ((3 * cs.ncols + 1 + S : ℕ) : WithBot ℕ) := by
    rw [← pP]; exact degLt_mono (degree_polyOf_lt s) (by omega)
  have dl : ∀ f : (ℕ × ℕ) × F → F, (polyOf (l.map f)).degree < ((S + 1 : ℕ) : WithBot ℕ) := by
    intro f
    exact degLt_mono (degree_polyOf_lt _) (by simp [hll])
  have hdA : ∀ p ∈ sr.polys, p.1.degree < ((M + 1 : ℕ) : WithBot ℕ) := by
    intro p hp
    rw [hpolys] at hp
    exact hprPolys_degA cs.nrows cs.ncols S (3 * cs.ncols + 1 + S) (3 * cs.ncols + S) x.length M γ μ ν
      β α _ _ _ _ _ W P Q R B s1 h3 (degLt_mono (degree_polyOf_lt x) (by omega)) dA
      (degLt_mono dQ (by omega)) (by omega) (by omega) (by omega) (by omega) (by omega) p hp
  have hdB : ∀ p ∈ sr.polys, p.2.degree < ((M + 1 : ℕ) : WithBot ℕ) := by
    intro p hp
    rw [hpolys] at hp
    exact hprPolys_degB cs.nrows cs.ncols S (3 * cs.ncols + 1 + S) (3 * cs.ncols + S)
      (cs.ncols + S + 2) M γ μ ν β α
      _ _ _ _ _ W P Q R B s1 h3 dA (degLt_mono dP (by omega)) (degLt_mono dQ (by omega))
      (degLt_mono dR (by omega)) (degLt_mono dB (by omega)) (dl _) (dl _) (dl _)
      (dl _) (by omega) (by omega) (by omega) (by omega) p hp
  have hid := hadamard_identity M ω sr.polys hdA hdB (sr.hAt sr.derived) hh hentry
  set h1 := hVec1 M (sr.hAt sr.derived) with hh1
  set h2 := hVec2 M (sr.hAt sr.derived) with hh2
  have l1 : h1.length = M := length_hVec1 _ _
  have l2 : h2.length = M := length_hVec2 _ _
  have d1 := degree_polyOf_lt h1
  have d2 := degree_polyOf_lt h2
  rw [l1] at d1; rw [l2] at d2
  refine ⟨polyOf h1, polyOf h2, d1, d2, by rw [← hpolys, hid], ?_⟩
  intro Ĥ1 z G good
  have hne1 : h1 ≠ [] := by intro h; simp [h, hM] at l1
  have hne2 : h2 ≠ [] := by intro h; simp [h, hM] at l2
  have hM2 : 2 * cs.ncols + S + 1 + (3 * cs.ncols + S + 1) = M := by omega
  have cH1 : commitVector (srs τ g D) h1 (D + 1) = .ok (Ĥ1.eval τ • g) := by
    rw [commitVector_ok τ g D _ _ hne1 (by omega) (by omega), l1]
  have cH2 : commitVector (srs τ g D) h2 M = .ok ((polyOf h2).eval τ • g) :=
    commitVector_ok' τ g D _ _ hne2 l2 (by omega)
  have ez : env.hash (r1csPrefix 1 x ((rowPoly γ l).eval τ • g) ((colPoly γ l).eval τ • g)
    ((valPoly l).eval τ • g) ((rowColPoly γ l).eval τ • g)
    ++ [.cm (W.eval τ • g), .cm (P.eval τ • g), .cm (Q.eval τ • g), .cm (R.eval τ • g),
      .cm (B.eval τ • g), .cm (Ĥ1.eval τ • g), .cm ((polyOf h2).eval τ • g)]) = z := rfl
  have hder : sr.derive env.fft = .ok sr.derived := sr.derive_ok env.fft hf hgood hω0 hfft
  have ey : ∀ a, evalVectorExpression a ((3 * cs.ncols + S + 1 + 1 : ℕ) : ℤ) (fun i => vectorIndex hvec i)
      = Q.eval a := by
    intro a
    rw [(rep_vec _).eval (3 * cs.ncols + S + 1 + 1) (by rw [pQ]; exact degLt_mono dQ (by omega)), pQ]
  have ey1 : ∀ a, evalVectorExpression a ((3 * cs.ncols + S + 1 + 1 : ℕ) : ℤ) (fun i => vectorIndex u1 i)
      = W.eval a := by
    intro a
    rw [(rep_vec _).eval (3 * cs.ncols + S + 1 + 1) (by rw [pA]; exact degLt_mono dA (by omega)), pA]
  have ex : ∀ a, evalVectorAsPoly x a = (polyOf x).eval a := fun a => C12_vector x a
  unfold hprProve
  simp only [hγd, hld, hT, z1, z2, hu1, cA, eμ, ← hu, ← hw, ← hv, ← hy, hss, cP, eν, ← hhv, cQ, eβ, ← hrv,
    cR, eα, bind, Except.bind]
  simp only [← hs0, ← htd, cB, eω, ← hsr, hder, hM2, ← hh1, ← hh2, cH1, cH2, ez]
  by_cases hz0 : z = 0
  · refine ⟨fun hg => absurd hz0 hg.1.1, fun _ => ?_⟩
    rw [hz0, divR_zero]
  rw [divR_ok hz0]
  simp only [ey, ey1, ex]
  by_cases hz3 : z = 1 ∨ z = ω ∨ z = γ * ω
  · refine ⟨fun hg => ?_, fun _ => ?_⟩
    · obtain ⟨⟨-, e1, e2, e3⟩, -⟩ := hg
      rcases hz3 with h | h | h
      · exact absurd h e1
      · exact absurd h e2
      · exact absurd h e3
    · rw [hprCoeffs_bad (D + 1) sz γ μ ν β α ω z _ _ _ (Or.inr hz3)]
  push Not at hz3
  obtain ⟨hz1, hzo, hzg⟩ := hz3
  have hcf := fun y y1 v => hprCoeffs_ok cs.nrows cs.ncols S (D + 1) sz rfl rfl hT s1
    h3 s2 γ μ ν β α ω z y y1 v hz0 hz1 hzo hzg
  rw [hcf]
  obtain ⟨gv, hg1, hg2, hg3⟩ := hprGvec_ok cs.nrows cs.ncols S D hD u wv v y u1 s
    hvec r t h1 h2 (by simp [hu, hll]; omega) (by simp [hw, hll]; omega) (by simp [hv, hll]; omega)
    (by simp [hy, hll]; omega) (by omega) (by omega) (by omega) (by omega)
    (by rw [pB]; exact degLt_mono dB (by omega)) l1 l2 γ μ ν β α ω z (Q.eval (ω / z))
    (W.eval (ω / z)) ((polyOf x).eval (ω / z))
  have hG : polyOf gv = G := by rw [hg3, pA, pP, pQ, pR, pB]; rfl
  have hcmg := hprK_eval cs.nrows cs.ncols S (D + 1) γ μ ν β α ω z (Q.eval (ω / z))
    (W.eval (ω / z)) ((polyOf x).eval (ω / z)) τ (rowPoly γ l) (colPoly γ l) (valPoly l) (rowColPoly γ l)
    W P Q R B Ĥ1 (polyOf h2) g
  have hvkg : kvk.g = g := hvk.1
  have hGz : G.eval z = 0 := by
    show (hprGPoly cs.nrows cs.ncols S (D + 1) γ μ ν β α ω z (Q.eval (ω / z))
      (W.eval (ω / z)) ((polyOf x).eval (ω / z)) (rowPoly γ l) (colPoly γ l) (valPoly l) (rowColPoly γ l)
      W P Q R B Ĥ1 (polyOf h2)).eval z = 0
    rw [hprG_eval, ← hpolys, eval_identity M ω sr.polys _ _ hid z hz0, Polynomial.eval_mul,
      Polynomial.eval_pow, Polynomial.eval_X]
    have h3 : z ^ (D + 1) = z ^ (D + 1 - M) * z ^ M := (pow_sub_mul_pow z hMD).symm
    have h4 : z ^ M ≠ 0 := pow_ne_zero _ hz0
    have h5 : z ^ (D + 1 - M) ≠ 0 := pow_ne_zero _ hz0
    rw [h3]
    field_simp
    ring
  have hgz := checkPolyEval_ok gv z 0 (by rw [hG, hGz])
  have hg1' : r1csG ((2 * cs.ncols + S + 1 : ℕ) : ℤ) ((3 * cs.ncols + S + 1 : ℕ) : ℤ) (D + 1) s hvec wv
      u y u1 v r t h1 h2 (hprK cs.nrows cs.ncols S (D + 1) γ μ ν β α ω z (Q.eval (ω / z))
        (W.eval (ω / z)) ((polyOf x).eval (ω / z))) = .ok gv := hg1
  simp only [hg1', hvkg, hcmg, hgz]
  simp only [show hprGPoly cs.nrows cs.ncols S (D + 1) γ μ ν β α ω z (Q.eval (ω / z))
      (W.eval (ω / z)) ((polyOf x).eval (ω / z)) (rowPoly γ l) (colPoly γ l) (valPoly l) (rowColPoly γ l)
      W P Q R B Ĥ1 (polyOf h2) = G from rfl]
  set items := r1csXiItems (W.eval τ • g) (P.eval τ • g) (Q.eval τ • g) (R.eval τ • g) (B.eval τ • g)
    (Ĥ1.eval τ • g) ((polyOf h2).eval τ • g) (G.eval τ • g) (ω / z) (Q.eval (ω / z))
    (W.eval (ω / z)) z with hitems
  set xi := env.hash (r1csPrefix 1 x ((rowPoly γ l).eval τ • g) ((colPoly γ l).eval τ • g)
    ((valPoly l).eval τ • g) ((rowColPoly γ l).eval τ • g) ++ items) with hxi
  set xi2 := env.hash (r1csPrefix 2 x ((rowPoly γ l).eval τ • g) ((colPoly γ l).eval τ • g)
    ((valPoly l).eval τ • g) ((rowColPoly γ l).eval τ • g) ++ items) with hxi2
  have hlist : ([polyFromVec hvec, polyFromVec u1] : List (List F)) = [hvec, u1].map polyFromVec := rfl
  have hlistg : ([polyFromVec gv] : List (List F)) = [gv].map polyFromVec := rfl
  have nG : (polyOf gv).natDegree ≤ D := by
    have := natDegree_polyOf_lt gv (by intro h; simp [h] at hg2)
    rw [hg2] at this
    exact Nat.lt_succ_iff.mp this
  rw [hlist, hlistg]
  constructor
  · rintro ⟨-, gQ, gA, gG⟩
    obtain ⟨o1, o2, ho, hck⟩ := C21_batch_complete env.e τ g h D kvk hvk
      [hvec, u1] [gv] (ω / z) z xi xi2 env.rngU128 (by
        intro f hm
        simp only [List.cons_append, List.nil_append, List.mem_cons, List.not_mem_nil,
          or_false] at hm
        rcases hm with rfl | rfl | rfl
        · exact ⟨by rw [pQ]; exact gQ, nQ⟩
        · exact ⟨by rw [pA]; exact gA, nA⟩
        · exact ⟨by rw [hG]; exact gG, nG⟩)
    rw [ho]
    refine ⟨_, rfl, ?_⟩
    simp only [hprVerify, hγd, hld, eμ, eν, eβ, eα, eω, ez, divR_ok hz0, ex, bind, Except.bind]
    simp only [hcf, hvkg, hcmg]
    have hc' : batchCheck env.e kvk [Q.eval τ • g, W.eval τ • g] [G.eval τ • g]
        (ω / z) z xi xi2 [Q.eval (ω / z), W.eval (ω / z)] [0] o1 o2 env.rngU128
        = true := by
      simp only [List.map_cons, List.map_nil, hG, hGz, pQ, pA] at hck
      exact hck
    exact if_pos hc'
  · intro hbad
    have hpanic := C21_batch_constant_aborts τ g D [hvec, u1] [gv] (ω / z) z xi xi2
      (by
        intro f hm
        simp only [List.cons_append, List.nil_append, List.mem_cons, List.not_mem_nil,
          or_false] at hm
        rcases hm with rfl | rfl | rfl
        · exact nQ
        · exact nA
        · exact nG)
      (by
        by_contra hc
        push Not at hc
        apply hbad
        refine ⟨⟨hz0, hz1, hzo, hzg⟩, ?_, ?_, ?_⟩
        · have := hc hvec (by simp); rwa [pQ] at this
        · have := hc u1 (by simp); rwa [pA] at this
        · have := hc gv (by simp); rwa [hG] at this)
    rw [hpanic]

/-! The hypotheses of C44 hold for concrete systems over the field with 97 elements, and the runs
there are not degenerate. -/

/-- Keys, proof and verification of a concrete run. -/
def hprRun97 (cs : HPR K97) (x : List K97) (w : List K97 × List K97 × List K97) : Res Unit := do
  let pp ← kzgSetup 40 (33 : K97) (1 : K97) (1 : K97)
  let keys ← hprIndex env97.gamma pp cs
  let π ← hprProve env97 keys.1 x w
  hprVerify env97 keys.2 x π

/-- The system `2 a + 3 b + a b + 5 = x`. -/
def hpr97 : HPR K97 := ⟨⟨[0], [0], [2]⟩, ⟨[0], [0], [3]⟩, ⟨[0], [0], [1]⟩, [0], [5], 1, 1, 1⟩

example : hprRun97 hpr97 [48] ([4], [5], [20]) = .ok () := by decide +kernel
example : hpr97.satisfy [48] [4] [5] [20] = .ok true := by decide +kernel
example : HprLens hpr97 := by refine ⟨⟨?_, ?_⟩, ⟨?_, ?_⟩, ⟨?_, ?_⟩, ?_, ?_⟩ <;> decide
example : hpr97.b.rows.length + hpr97.c.rows.length = 2 * hpr97.a.rows.length ∧
    hpr97.nrows ≤ (joined hpr97).length ∧ 5 * 1 + 2 * (joined hpr97).length + 2 ≤ 40 ∧
    2 * (3 * 1 + 1 + (joined hpr97).length) + 2 ≤ 2 ^ env97.fft.twoAdicity := by
  decide +kernel
example : HPRShape hpr97 [48] [4] [5] [20] := by
  refine ⟨by decide, by decide, rfl, rfl, rfl, ?_, ?_, ?_, ?_, by decide⟩ <;>
  · intro e he
    simp [hpr97, triples] at he
    subst he; decide

/-- With a wrong instance or witness the prover fails. -/
example : hprRun97 hpr97 [47] ([4], [5], [20]) ≠ .ok () := by decide +kernel
example : hprRun97 hpr97 [48] ([5], [4], [20]) ≠ .ok () := by decide +kernel

/-- A system with two entries in `B` and none in `C`. -/
example : hprRun97 ⟨⟨[0], [0], [2]⟩, ⟨[0, 0], [0, 0], [3, 1]⟩, ⟨[], [], []⟩, [0], [5], 1, 1, 1⟩ [21]
    ([2], [3], [6]) = .ok () := by decide +kernel

/-- The system `2 a + 3 b + 5 = x`. -/
def lin97 : HPR K97 := ⟨⟨[0], [0], [2]⟩, ⟨[0], [0], [3]⟩, ⟨[], [], []⟩, [0], [5], 1, 1, 1⟩

/-- **C44 (deviation).** The condition `|B| + |C| = 2|A|` is needed, because `get_size` reports the
number of entries of `A` for all three matrices: the following system is satisfied and its keys are
generated, yet the prover fails on it. -/
theorem C44_wrong_density : lin97.satisfy [18] [2] [3] [6] = .ok true ∧ HprLens lin97 ∧
    lin97.nrows ≤ (joined lin97).length ∧
    lin97.b.rows.length + lin97.c.rows.length ≠ 2 * lin97.a.rows.length ∧
    hprRun97 lin97 [18] ([2], [3], [6]) = .error .polynomialEvaluationUnexpected := by
  refine ⟨?_, ⟨⟨?_, ?_⟩, ⟨?_, ?_⟩, ⟨?_, ?_⟩, ?_, ?_⟩, ?_, ?_, ?_⟩ <;> decide +kernel

/-- Four rows, three entries. -/
def tallHpr97 : HPR K97 := ⟨⟨[0], [0], [2]⟩, ⟨[1], [0], [3]⟩, ⟨[2], [0], [1]⟩, [], [], 4, 1, 3⟩

/-- **C44 (deviation).** The condition `H ≤ S` is needed: the following system with more rows than
listed entries is satisfied, yet the prover fails on it. -/
theorem C44_tall_system : tallHpr97.satisfy [4, 9, 6] [2] [3] [6] = .ok true ∧ HprLens tallHpr97 ∧
    ¬ tallHpr97.nrows ≤ (joined tallHpr97).length ∧
    tallHpr97.b.rows.length + tallHpr97.c.rows.length = 2 * tallHpr97.a.rows.length ∧
    hprRun97 tallHpr97 [4, 9, 6] ([2], [3], [6]) = .error .polynomialEvaluationUnexpected := by
  refine ⟨?_, ⟨⟨?_, ?_⟩, ⟨?_, ?_⟩, ⟨?_, ?_⟩, ?_, ?_⟩, ?_, ?_, ?_⟩ <;> decide +kernel

end VO
