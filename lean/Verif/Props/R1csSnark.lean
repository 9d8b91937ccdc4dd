import Verif.Lemmas.R1csSnarkEntries
import Verif.Props.Hadamard
import Verif.Props.Cs
import Verif.Lemmas.SnarkExample

set_option linter.unusedSectionVars false

/-
Completeness of the R1CS SNARK (C43).
-/

namespace VO
open Spec
open Polynomial (X toLaurent)
open LaurentPolynomial (T)

variable {F G1 G2 GT : Type} [Field F] [DecidableEq F]
  [AddCommGroup G1] [Module F G1] [DecidableEq G1] [AddCommGroup G2] [Module F G2]
  [AddCommGroup GT] [Module F GT] [DecidableEq GT]

/-- Coefficients of the honest assignment polynomial. -/
theorem coeff_asgPoly (cs : R1CS F) (x w : List F) (S : ℕ) (δ : F) (i : ℕ) (hi : i < cs.ncols + S) :
    (asgPoly cs S x w δ).coeff i = (r1csVec cs x w).getD i 0 := by
  rw [asgPoly, Polynomial.coeff_add, Polynomial.coeff_C_mul_X_pow, if_neg (by omega), add_zero,
    coeff_polyOf]

theorem r1csVec_blocks (cs : R1CS F) (x w : List F) :
    (∀ i, i < cs.nrows → (r1csVec cs x w).getD i 0 = mulVec cs.a cs.ncols (1 :: (x ++ w)) i ∧
      (r1csVec cs x w).getD (cs.nrows + i) 0 = mulVec cs.b cs.ncols (1 :: (x ++ w)) i ∧
      (r1csVec cs x w).getD (2 * cs.nrows + i) 0 = mulVec cs.c cs.ncols (1 :: (x ++ w)) i) ∧
    ∀ k, (r1csVec cs x w).getD (3 * cs.nrows + k) 0 = (1 :: (x ++ w)).getD k 0 := by
  have hg : ∀ (f : ℕ → F) (i : ℕ), i < cs.nrows → ((List.range cs.nrows).map f).getD i 0 = f i := by
    intro f i hi
    rw [List.getD_eq_getElem _ _ (by simpa using hi)]; simp
  refine ⟨fun i hi => ⟨?_, ?_, ?_⟩, fun k => ?_⟩
  · rw [r1csVec, List.getD_append _ _ _ _ (by simp; omega), List.getD_append _ _ _ _ (by simp; omega),
      List.getD_append _ _ _ _ (by simp; omega), hg _ i hi]
  · rw [r1csVec, List.getD_append _ _ _ _ (by simp; omega), List.getD_append _ _ _ _ (by simp; omega),
      List.getD_append_right _ _ _ _ (by simp), List.length_map, List.length_range,
      Nat.add_sub_cancel_left, hg _ i hi]
  · rw [r1csVec, List.getD_append _ _ _ _ (by simp; omega),
      List.getD_append_right _ _ _ _ (by simp; omega), List.length_append, List.length_map,
      List.length_map, List.length_range, show 2 * cs.nrows + i - (cs.nrows + cs.nrows) = i by omega,
      hg _ i hi]
  · rw [r1csVec, List.getD_append_right _ _ _ _ (by simp; omega)]
    congr 1
    simp; omega

/-- The product of the stacked matrix with `(1, x, w)` is the first part of the assignment. -/
theorem stacked_mul (cs : R1CS F) (hl : R1csLens cs) (ra : InRange cs.a cs.nrows cs.ncols)
    (rb : InRange cs.b cs.nrows cs.ncols) (z : List F) (i : ℕ) (hi : i < cs.nrows) :
    ∑ j ∈ Finset.range cs.ncols, entryOf (stacked cs) i j * z.getD j 0
        = mulVec cs.a cs.ncols z i ∧
    ∑ j ∈ Finset.range cs.ncols, entryOf (stacked cs) (cs.nrows + i) j * z.getD j 0
        = mulVec cs.b cs.ncols z i ∧
    ∑ j ∈ Finset.range cs.ncols, entryOf (stacked cs) (2 * cs.nrows + i) j * z.getD j 0
        = mulVec cs.c cs.ncols z i := by
  have hv := C16_vertical cs.nrows cs.ncols cs.a cs.b cs.c hl.1 hl.2.1 ra rb z i hi
  simp only [mulVec, entry_eq, (stacked_facts cs hl).1] at hv
  exact hv

theorem stacked_mul_vec (cs : R1CS F) (hl : R1csLens cs) (ra : InRange cs.a cs.nrows cs.ncols)
    (rb : InRange cs.b cs.nrows cs.ncols) (x w : List F) (i : ℕ) (hi : i < 3 * cs.nrows) :
    ∑ j ∈ Finset.range cs.ncols, entryOf (stacked cs) i j * (1 :: (x ++ w)).getD j 0
      = (r1csVec cs x w).getD i 0 := by
  have hb := (r1csVec_blocks cs x w).1
  by_cases i1 : i < cs.nrows
  · rw [(stacked_mul cs hl ra rb _ i i1).1, (hb i i1).1]
  · by_cases i2 : i < 2 * cs.nrows
    · have h1 := (stacked_mul cs hl ra rb (1 :: (x ++ w)) (i - cs.nrows) (by omega)).2.1
      have h2 := (hb (i - cs.nrows) (by omega)).2.1
      rw [show cs.nrows + (i - cs.nrows) = i by omega] at h1 h2
      rw [h1, h2]
    · have h1 := (stacked_mul cs hl ra rb (1 :: (x ++ w)) (i - 2 * cs.nrows) (by omega)).2.2
      have h2 := (hb (i - 2 * cs.nrows) (by omega)).2.2
      rw [show 2 * cs.nrows + (i - 2 * cs.nrows) = i by omega] at h1 h2
      rw [h1, h2]

/-- The committed polynomials of an honest run satisfy all equations below index `K + S`. -/
theorem r1cs_honest (cs : R1CS F) (hl : R1csLens cs) (x w : List F) (hsh : R1CSShape cs x w)
    (hsat : R1CSHolds cs x w) (S : ℕ) (hS : S = (stacked cs).length) (h3 : 3 * cs.nrows ≤ S)
    (hin : cs.inputSize ≤ x.length) (γ μ ν β α δ0 δ1 : F)
    (hμ : ∀ i, i < 3 * cs.nrows → μ ≠ γ ^ i) (hν : ∀ k, k < cs.ncols → ν ≠ γ ^ k)
    (i : ℕ) (hi : i < cs.ncols + S) :
    hadamardEntry (r1csBase cs.nrows cs.ncols S cs.inputSize γ μ ν β α (rowPoly γ (stacked cs))
      (colPoly γ (stacked cs)) (valPoly (stacked cs)) (rowColPoly γ (stacked cs)) (polyOf x)
      (asgPoly cs S x w δ0) (sPoly (3 * cs.nrows) cs.ncols γ μ (stacked cs))
      (hPoly cs.ncols γ μ ν (stacked cs))
      (partialPoly (cs.ncols + S) (linTerm (3 * cs.nrows) cs.ncols β (valPoly (stacked cs))
        (asgPoly cs S x w δ0) (sPoly (3 * cs.nrows) cs.ncols γ μ (stacked cs))
        (hPoly cs.ncols γ μ ν (stacked cs))) δ1)) i = 0 := by
  obtain ⟨s1, s2, s3, ra, rb, rc⟩ := hsh
  have hA := fun i hi => coeff_asgPoly cs x w S δ0 i hi
  obtain ⟨hb1, hb2⟩ := r1csVec_blocks cs x w
  have hr := stacked_range cs ra rb rc
  set l := stacked cs with hld
  have p1 : ∀ i, i < 3 * cs.nrows → (sPoly (3 * cs.nrows) cs.ncols γ μ l).coeff i = (μ - γ ^ i)⁻¹ := by
    intro i hi
    rw [coeff_sPoly, if_pos hi, if_neg (by omega), sub_zero]
  have p2 : ∀ k, k < cs.ncols → (sPoly (3 * cs.nrows) cs.ncols γ μ l).coeff (3 * cs.nrows + k)
      = -colSum γ μ l k := by
    intro k hk
    rw [coeff_sPoly, if_neg (by omega), if_pos (by omega), Nat.add_sub_cancel_left, zero_sub]
  have p3 : ∀ i, 3 * cs.nrows + cs.ncols ≤ i → i < cs.ncols + S →
      (sPoly (3 * cs.nrows) cs.ncols γ μ l).coeff i = 0 := by
    intro i h1 _
    rw [coeff_sPoly, if_neg (by omega), if_neg (by omega), sub_zero]
  have p4 : ∀ i, i < cs.ncols → (hPoly cs.ncols γ μ ν l).coeff i = (ν - γ ^ i)⁻¹ := by
    intro i hi
    rw [coeff_hPoly, if_pos hi]
  have p5 : ∀ j, j < S → (hPoly cs.ncols γ μ ν l).coeff (cs.ncols + j)
      = (l.map (fun e => ((μ - γ ^ e.1.1) * (ν - γ ^ e.1.2))⁻¹)).getD j 0 := by
    intro j _
    rw [coeff_hPoly, if_neg (by omega), Nat.add_sub_cancel_left]
  refine r1cs_entry_zero cs.nrows cs.ncols S cs.inputSize s1 h3 (by omega) γ μ ν β α _ _ _ _ _ _ _ _ _
    ?_ ?_ p3 ?_ ?_ ?_ ?_ ?_ ?_ i hi
  · intro i hi
    rw [p1 i hi, mul_inv_cancel₀ (sub_ne_zero.mpr (hμ i hi))]
  · intro i hi
    rw [p4 i hi, mul_inv_cancel₀ (sub_ne_zero.mpr (hν i hi))]
  · intro j hj
    rw [p5 j hj, rowColPoly, colPoly, rowPoly, coeff_polyOf, coeff_polyOf, coeff_polyOf]
    rw [List.getD_eq_getElem _ _ (by simpa [hS] using hj),
        List.getD_eq_getElem _ _ (by simpa [hS] using hj),
        List.getD_eq_getElem _ _ (by simpa [hS] using hj),
        List.getD_eq_getElem _ _ (by simpa [hS] using hj)]
    simp only [List.getElem_map]
    have hm := hr _ (List.getElem_mem (l := l) (n := j) (by omega))
    have n1 := sub_ne_zero.mpr (hμ _ hm.1)
    have n2 := sub_ne_zero.mpr (hν _ hm.2)
    field_simp
    ring
  · intro j hj
    rw [hA _ (by omega), hA _ (by omega), hA _ (by omega), (hb1 j hj).1, (hb1 j hj).2.1,
      (hb1 j hj).2.2]
    exact hsat j hj
  · rw [hA _ (by omega)]
    exact hb2 0
  · intro j hj
    rw [hA _ (by omega), add_assoc, hb2, add_comm 1 j, List.getD_cons_succ, coeff_polyOf,
      List.getD_append _ _ _ _ (by omega)]
  · intro i hi
    rw [coeff_partialPoly, if_pos hi]
  · rw [linTerm_sum (3 * cs.nrows) cs.ncols S h3 γ μ ν β l hS.symm hr _ _ _ p1 p4 p3 p5]
    have e1 : ∑ k ∈ Finset.range cs.ncols,
        ((sPoly (3 * cs.nrows) cs.ncols γ μ l).coeff (3 * cs.nrows + k) + colSum γ μ l k) * (ν - γ ^ k)⁻¹
        = 0 := by
      apply Finset.sum_eq_zero
      intro k hk
      rw [p2 k (Finset.mem_range.mp hk)]; ring
    have e2 : ∑ k ∈ Finset.range cs.ncols, (asgPoly cs S x w δ0).coeff (3 * cs.nrows + k)
          * (sPoly (3 * cs.nrows) cs.ncols γ μ l).coeff (3 * cs.nrows + k)
        = - ∑ k ∈ Finset.range cs.ncols, (1 :: (x ++ w)).getD k 0 * colSum γ μ l k := by
      rw [← Finset.sum_neg_distrib]
      apply Finset.sum_congr rfl
      intro k hk
      have := Finset.mem_range.mp hk
      rw [p2 k this, hA _ (by omega), hb2]; ring
    have e3 : ∑ i ∈ Finset.range (3 * cs.nrows), (asgPoly cs S x w δ0).coeff i * (μ - γ ^ i)⁻¹
        = ∑ k ∈ Finset.range cs.ncols, (1 :: (x ++ w)).getD k 0 * colSum γ μ l k := by
      rw [colSum_dot γ μ l (3 * cs.nrows) cs.ncols hr (fun k => (1 :: (x ++ w)).getD k 0)]
      apply Finset.sum_congr rfl
      intro i hi
      have := Finset.mem_range.mp hi
      rw [stacked_mul_vec cs hl ra rb x w i this, hA _ (by omega)]
    rw [e1, e2, e3]; ring

set_option maxHeartbeats 2000000 in
/-- **C43.** Completeness of the R1CS SNARK, for every system whose matrices list `S ≥ 3H` entries
and have `H` rows and `K` columns with `4H ≤ K + S + 1`, every instance and witness accepted by
`satisfy`, every hash function, blinding values, trapdoor and maximal degree `D ≥ 2(K + S) - H`.
`A` is the assignment polynomial, `P`, `Q` those of the two sums of inverses, `R` of the partial
sums and `B` the blinding polynomial.  For challenges `μ`, `ν` that are not among the powers of `γ`
used for rows and columns: if `ω = 0`, `prove` panics.  Otherwise let `H1`, `H2` be the polynomials
with `Σ A_j(ω/T) B_j(T) = T^{-(2(K+S)-H)} H1 + T H2`, `z` the hash after them and `G` the final
polynomial.  If `z ∉ {0, 1, ω, γω}` and none of `Q`, `A`, `G` is constant, `prove` succeeds and
`verify` accepts the proof; in every other case `prove` panics. -/
theorem C43_complete (env : Env F G1 G2 GT) (hf : FftOk env.fft) (hγ : env.gamma ≠ 0) (τ : F) (g : G1)
    (h : G2) (D : ℕ) (pp : UniversalParams G1 G2) (hs : kzgSetup D τ g h = .ok pp) (cs : R1CS F)
    (hl : R1csLens cs) (H K S : ℕ) (hH : H = cs.nrows) (hK : K = cs.ncols)
    (hS : S = (stacked cs).length) (h3 : 3 * H ≤ S) (h4 : 4 * H ≤ K + S + 1)
    (hD : 2 * (K + S) - H ≤ D) (hfft : 2 * (K + S) + 2 ≤ 2 ^ env.fft.twoAdicity)
    (x w : List F) (hsh : R1CSShape cs x w) (hin : cs.inputSize ≤ x.length)
    (hsat : cs.satisfy x w = .ok true) :
    ∃ pk vk, r1csIndex env.gamma pp cs = .ok (pk, vk) ∧
      let l := stacked cs
      let γ := env.gamma
      let A := asgPoly cs S x w (env.rngF 0)
      let cm := fun p : Polynomial F => (Item.cm (p.eval τ • g) : Item F G1)
      let pre := fun (first : F) (items : List (Item F G1)) =>
        [.fld first, .flds x, cm (rowPoly γ l), cm (colPoly γ l), cm (valPoly l),
          cm (rowColPoly γ l)] ++ items
      let μ := env.hash (pre 1 [cm A])
      let P := sPoly (3 * H) K γ μ l
      let ν := env.hash (pre 1 [cm A, cm P])
      let Q := hPoly K γ μ ν l
      let β := env.hash (pre 1 [cm A, cm P, cm Q])
      let R := partialPoly (K + S) (linTerm (3 * H) K β (valPoly l) A P Q) (env.rngF 1)
      let α := env.hash (pre 1 [cm A, cm P, cm Q, cm R])
      let B := blindPoly (K + S) (K + S - H + 1) (env.rngF 2)
        (r1csBase H K S cs.inputSize γ μ ν β α (rowPoly γ l) (colPoly γ l) (valPoly l)
          (rowColPoly γ l) (polyOf x) A P Q R)
      let ω := env.hash (pre 1 [cm A, cm P, cm Q, cm R, cm B])
      (∀ i, i < 3 * H → μ ≠ γ ^ i) → (∀ k, k < K → ν ≠ γ ^ k) →
      (ω = 0 → r1csProve env pk x w = .error .panic) ∧
      (ω ≠ 0 →
        ∃ H1 H2 : Polynomial F, H1.degree < ((2 * (K + S) - H : ℕ) : WithBot ℕ) ∧
          H2.degree < ((2 * (K + S) - H : ℕ) : WithBot ℕ) ∧
          hadamardLaurent ω (r1csPolys H K S cs.inputSize γ μ ν β α (rowPoly γ l) (colPoly γ l)
              (valPoly l) (rowColPoly γ l) (polyOf x) A P Q R B)
            = T (-((2 * (K + S) - H : ℕ) : ℤ)) * toLaurent H1 + T 1 * toLaurent H2 ∧
          let Ĥ1 := X ^ (D + 1 - (2 * (K + S) - H)) * H1
          let z := env.hash (pre 1 [cm A, cm P, cm Q, cm R, cm B, cm Ĥ1, cm H2])
          let G := r1csGPoly H K S cs.inputSize (D + 1) γ μ ν β α ω z (Q.eval (ω / z))
            (A.eval (ω / z)) ((polyOf x).eval z) (rowPoly γ l) (colPoly γ l) (valPoly l)
            (rowColPoly γ l) A P Q R B Ĥ1 H2
          let good := (z ≠ 0 ∧ z ≠ 1 ∧ z ≠ ω ∧ z ≠ γ * ω) ∧ Q.natDegree ≠ 0 ∧
            A.natDegree ≠ 0 ∧ G.natDegree ≠ 0
          (good → ∃ π, r1csProve env pk x w = .ok π ∧ r1csVerify env vk x π = .ok ()) ∧
          (¬ good → r1csProve env pk x w = .error .panic)) := by
  subst hH hK
  have hholds := (C24_satisfy cs x w hsh).1.mp hsat
  obtain ⟨s1, s2, s3, ra, rb, rc⟩ := id hsh
  obtain ⟨ft, f1, f2, f3, f4⟩ := stacked_facts cs hl
  have hSs : S = cs.a.rows.length + cs.b.rows.length + cs.c.rows.length := hS.trans f4
  obtain ⟨kvk, hvk, hidx⟩ := r1csIndex_ok env.gamma τ hγ g h D pp hs cs hl S hSs (by omega)
    (by omega) hD
  refine ⟨_, _, hidx, ?_⟩
  intro l γ A cm pre μ P ν Q β R α B ω hμ hν
  have hr := stacked_range cs ra rb rc
  set sz : R1CSSize := ⟨cs.nrows, cs.ncols, cs.a.rows.length, cs.b.rows.length,
        cs.c.rows.length, cs.inputSize⟩ with hsz
  have hT : sz.total = S := hSs.symm
  have hT' : R1CSSize.total ⟨cs.nrows, cs.ncols, cs.a.rows.length, cs.b.rows.length,
        cs.c.rows.length, cs.inputSize⟩ = S := hSs.symm
  set mat := concatMatrixVertically cs.nrows cs.a cs.b cs.c with hmat
  set u := l.map (fun e => γ ^ e.1.1) with hu
  set wv := l.map (fun e => γ ^ e.1.2) with hw
  set v := l.map Prod.snd with hv
  set y := l.map (fun e => γ ^ e.1.1 * γ ^ e.1.2) with hy
  have hll : l.length = S := hS.symm
  obtain ⟨u1, hu1, lu1, pA⟩ := r1csU1_ok env.rngF cs hl x w hsh S h3
  have pA : polyOf u1 = A := pA
  have hu1 : r1csU1 env.rngF mat cs.nrows cs.ncols S x w = .ok u1 := hu1
  obtain ⟨s, hss, lss, pP⟩ := r1csS_ok γ μ hγ mat l ft cs.nrows cs.ncols s1 s2 hr
  have pP : polyOf s = P := pP
  obtain ⟨lh, pQ⟩ := r1csH_ok γ μ ν hγ l cs.ncols
  set hvec := r1csH γ μ ν u wv cs.ncols with hhv
  have pQ : polyOf hvec = Q := pQ
  rw [hll] at lh
  obtain ⟨lr, pR⟩ := r1csR_ok env.rngF β u1 s hvec v cs.nrows cs.ncols S (by omega)
  set r := r1csR env.rngF β u1 s hvec v cs.nrows cs.ncols S with hrv
  have pR : polyOf r = R := by rw [pR, pA, pP, pQ]; rfl
  set s0 : R1csRun F := ⟨cs.nrows, cs.ncols, S, cs.inputSize, γ, μ, ν, β, α, 0, x, u, wv, v, y, u1,
    s, hvec, r, []⟩ with hs0
  have hgood0 : s0.Good := ⟨s1, h3, by show cs.inputSize + 1 ≤ cs.ncols; omega, hγ,
    by show x.length + 1 ≤ cs.ncols; omega, by show u.length = S; simp [hu, hll],
    by show wv.length = S; simp [hw, hll], by show v.length = S; simp [hv, hll],
    by show y.length = S; simp [hy, hll], lu1, lss, lh, lr⟩
  have hbase : s0.base = r1csBase cs.nrows cs.ncols S cs.inputSize γ μ ν β α (rowPoly γ l)
      (colPoly γ l) (valPoly l) (rowColPoly γ l) (polyOf x) A P Q R := by
    show r1csBase _ _ _ _ _ _ _ _ _ (polyOf u) (polyOf wv) (polyOf v) (polyOf y) (polyOf x)
      (polyOf u1) (polyOf s) (polyOf hvec) (polyOf r) = _
    rw [pA, pP, pQ, pR]; rfl
  obtain ⟨lt, pt⟩ := s0.mkT_ok hgood0 env.rngF
  set t := s0.mkT env.rngF with htd
  have lt : t.length = cs.ncols + S - cs.nrows + 3 := lt
  have pB : polyOf t = B := by rw [pt, hbase]
  have dB : B.degree < ((cs.ncols + S - 2 * cs.nrows + 2 : ℕ) : WithBot ℕ) := by
    have := s0.blind_degree hgood0 (env.rngF 2)
    rwa [hbase] at this
  set sr : R1csRun F := ⟨cs.nrows, cs.ncols, S, cs.inputSize, γ, μ, ν, β, α, ω, x, u, wv, v, y, u1,
    s, hvec, r, t⟩ with hsr
  have hgood : sr.Good := ⟨hgood0.1, hgood0.2, hgood0.3, hgood0.4, hgood0.5, hgood0.6, hgood0.7,
    hgood0.8, hgood0.9, hgood0.10, hgood0.11, hgood0.12, hgood0.13⟩
  have cA : commitVector (srs τ g D) u1 (cs.ncols + S + 1) = .ok (A.eval τ • g) := by
    rw [commitVector_ok' τ g D _ _ (by intro h; simp [h] at lu1) lu1 (by omega), pA]
  have cP : commitVector (srs τ g D) s (3 * cs.nrows + cs.ncols) = .ok (P.eval τ • g) := by
    rw [commitVector_ok' τ g D _ _ (by intro h; simp [h] at lss; omega) lss (by omega), pP]
  have cQ : commitVector (srs τ g D) hvec (cs.ncols + S) = .ok (Q.eval τ • g) := by
    rw [commitVector_ok' τ g D _ _ (by intro h; simp [h] at lh; omega) lh (by omega), pQ]
  have cR : commitVector (srs τ g D) r (cs.ncols + S + 1) = .ok (R.eval τ • g) := by
    rw [commitVector_ok' τ g D _ _ (by intro h; simp [h] at lr) lr (by omega), pR]
  have hms : (-(cs.nrows : ℤ) + cs.ncols + S + 2).toNat = cs.ncols + S - cs.nrows + 2 := by omega
  have cB : commitVector (srs τ g D) t (-(cs.nrows : ℤ) + cs.ncols + S + 2).toNat
      = .ok (B.eval τ • g) := by
    have := (C23_vector_commitment τ g D t (cs.ncols + S - cs.nrows + 2)
      (by intro h; simp [h] at lt)).2.1 (by omega) (by omega)
    rw [hms, commitVector, this, pB]; rfl
  have eμ : env.hash (r1csPrefix 1 x ((rowPoly γ l).eval τ • g) ((colPoly γ l).eval τ • g)
    ((valPoly l).eval τ • g) ((rowColPoly γ l).eval τ • g) ++ [.cm (A.eval τ • g)]) = μ := rfl
  have eν : env.hash (r1csPrefix 1 x ((rowPoly γ l).eval τ • g) ((colPoly γ l).eval τ • g)
    ((valPoly l).eval τ • g) ((rowColPoly γ l).eval τ • g)
    ++ [.cm (A.eval τ • g), .cm (P.eval τ • g)]) = ν := rfl
  have eβ : env.hash (r1csPrefix 1 x ((rowPoly γ l).eval τ • g) ((colPoly γ l).eval τ • g)
    ((valPoly l).eval τ • g) ((rowColPoly γ l).eval τ • g)
    ++ [.cm (A.eval τ • g), .cm (P.eval τ • g), .cm (Q.eval τ • g)]) = β := rfl
  have eα : env.hash (r1csPrefix 1 x ((rowPoly γ l).eval τ • g) ((colPoly γ l).eval τ • g)
    ((valPoly l).eval τ • g) ((rowColPoly γ l).eval τ • g)
    ++ [.cm (A.eval τ • g), .cm (P.eval τ • g), .cm (Q.eval τ • g), .cm (R.eval τ • g)]) = α := rfl
  have eω : env.hash (r1csPrefix 1 x ((rowPoly γ l).eval τ • g) ((colPoly γ l).eval τ • g)
    ((valPoly l).eval τ • g) ((rowColPoly γ l).eval τ • g)
    ++ [.cm (A.eval τ • g), .cm (P.eval τ • g), .cm (Q.eval τ • g), .cm (R.eval τ • g),
      .cm (B.eval τ • g)]) = ω := rfl
  have hγd : env.gamma = γ := rfl
  have z1 : sz.nrows = cs.nrows := rfl
  have z2 : sz.ncols = cs.ncols := rfl
  have z3 : sz.inputSize = cs.inputSize := rfl
  have hld : stacked cs = l := rfl
  constructor
  · intro hω0
    have hder := sr.derive_panic env.fft hω0
    unfold r1csProve
    simp only [hγd, hld, hT, z1, z2, z3, hu1, cA, eμ, ← hu, ← hw, ← hv, ← hy, hss, cP, eν, ← hhv, cQ, eβ, ← hrv,
      cR, eα, bind, Except.bind]
    simp only [← hs0, ← htd, cB, eω, ← hsr, hder]
  intro hω0
  have hpolys : sr.polys = r1csPolys cs.nrows cs.ncols S cs.inputSize γ μ ν β α (rowPoly γ l)
      (colPoly γ l) (valPoly l) (rowColPoly γ l) (polyOf x) A P Q R B := by
    show s0.base ++ [blindPair (cs.ncols + S) (cs.ncols + S - cs.nrows + 1) (polyOf t)] = _
    rw [hbase, pB]; rfl
  have hentry : ∀ i, hadamardEntry sr.polys i = 0 := by
    intro i
    rw [hpolys]
    apply entries_blind_zero _ _ (by omega)
    · intro i hi
      exact r1cs_honest cs hl x w hsh hholds S hS h3 hin γ μ ν β α (env.rngF 0) (env.rngF 1) hμ hν i hi
    · intro i hi
      have hi' : 2 * (s0.K + s0.S) - 2 * s0.H < i := by
        show 2 * (cs.ncols + S) - 2 * cs.nrows < i
        omega
      have := s0.base_high hgood0 i hi'
      rwa [hbase] at this
  have hh := sr.hAtRep hgood hω0
  set M := 2 * (cs.ncols + S) - cs.nrows with hM
  have dA : A.degree < ((cs.ncols + S + 1 : ℕ) : WithBot ℕ) := by
    rw [← pA, ← lu1]; exact degree_polyOf_lt u1
  have dR : R.degree < ((cs.ncols + S + 1 : ℕ) : WithBot ℕ) := by
    rw [← pR, ← lr]; exact degree_polyOf_lt r
  have dQ : Q.degree < ((cs.ncols + S : ℕ) : WithBot ℕ) := by
    rw [← pQ, ← lh]; exact degree_polyOf_lt hvec
  have dP : P.degree < ((cs.ncols + S : ℕ) : WithBot ℕ) := by
    rw [← pP]; exact degLt_mono (degree_polyOf_lt s) (by omega)
  have dl : ∀ f : (ℕ × ℕ) × F → F, (polyOf (l.map f)).degree < ((S + 1 : ℕ) : WithBot ℕ) := by
    intro f
    exact degLt_mono (degree_polyOf_lt _) (by simp [hll])
  have hdA : ∀ p ∈ sr.polys, p.1.degree < ((M + 1 : ℕ) : WithBot ℕ) := by
    intro p hp
    rw [hpolys] at hp
    exact r1csPolys_degA cs.nrows cs.ncols S cs.inputSize (cs.ncols + S) (cs.ncols + S - 1) M γ μ ν β α
      _ _ _ _ _ A P Q R B s1 h3 (by omega) dA (degLt_mono dQ (by omega)) (by omega) (by omega)
      (by omega) p hp
  have hdB : ∀ p ∈ sr.polys, p.2.degree < ((M + 1 : ℕ) : WithBot ℕ) := by
    intro p hp
    rw [hpolys] at hp
    exact r1csPolys_degB cs.nrows cs.ncols S cs.inputSize (cs.ncols + S) (cs.ncols + S - 1)
      (cs.ncols + S - 2 * cs.nrows + 1) x.length M γ μ ν β α
      _ _ _ _ _ A P Q R B s1 h3 (by omega) dA (degLt_mono dP (by omega)) (degLt_mono dQ (by omega))
      (degLt_mono dR (by omega)) (degLt_mono dB (by omega)) (degree_polyOf_lt x) (dl _) (dl _) (dl _)
      (dl _) (by omega) (by omega) (by omega) (by omega) (by omega) p hp
  have hid := hadamard_identity M ω sr.polys hdA hdB (sr.hAt sr.derived) hh hentry
  set h1 := hVec1 M (sr.hAt sr.derived) with hh1
  set h2 := hVec2 M (sr.hAt sr.derived) with hh2
  have l1 : h1.length = M := length_hVec1 _ _
  have l2 : h2.length = M := length_hVec2 _ _
  have d1 := degree_polyOf_lt h1
  have d2 := degree_polyOf_lt h2
  rw [l1] at d1; rw [l2] at d2
  refine ⟨polyOf h1, polyOf h2, d1, d2, by rw [← hpolys, hid], ?_⟩
  intro Ĥ1 z G good
  have hne1 : h1 ≠ [] := by intro h; simp [h] at l1; omega
  have hne2 : h2 ≠ [] := by intro h; simp [h] at l2; omega
  have hM2 : (-(cs.nrows : ℤ) + cs.ncols + S + ((cs.ncols + S : ℕ) : ℤ)).toNat = M := by omega
  have cH1 : commitVector (srs τ g D) h1 (D + 1) = .ok (Ĥ1.eval τ • g) := by
    rw [commitVector_ok τ g D _ _ hne1 (by omega) (by omega), l1]
  have cH2 : commitVector (srs τ g D) h2 M = .ok ((polyOf h2).eval τ • g) :=
    commitVector_ok' τ g D _ _ hne2 l2 (by omega)
  have ez : env.hash (r1csPrefix 1 x ((rowPoly γ l).eval τ • g) ((colPoly γ l).eval τ • g)
    ((valPoly l).eval τ • g) ((rowColPoly γ l).eval τ • g)
    ++ [.cm (A.eval τ • g), .cm (P.eval τ • g), .cm (Q.eval τ • g), .cm (R.eval τ • g),
      .cm (B.eval τ • g), .cm (Ĥ1.eval τ • g), .cm ((polyOf h2).eval τ • g)]) = z := rfl
  have hder : sr.derive env.fft = .ok sr.derived := sr.derive_ok env.fft hf hgood hω0 hfft
  have ey : ∀ a, evalVectorExpression a ((cs.ncols + S + 1 : ℕ) : ℤ) (fun i => vectorIndex hvec i)
      = Q.eval a := by
    intro a
    rw [(rep_vec _).eval (cs.ncols + S + 1) (by rw [pQ]; exact degLt_mono dQ (by omega)), pQ]
  have ey1 : ∀ a, evalVectorExpression a ((cs.ncols + S + 1 : ℕ) : ℤ) (fun i => vectorIndex u1 i)
      = A.eval a := by
    intro a
    rw [(rep_vec _).eval (cs.ncols + S + 1) (by rw [pA]; exact dA), pA]
  have ex : ∀ a, evalVectorAsPoly x a = (polyOf x).eval a := fun a => C12_vector x a
  unfold r1csProve
  simp only [hγd, hld, hT, z1, z2, z3, hu1, cA, eμ, ← hu, ← hw, ← hv, ← hy, hss, cP, eν, ← hhv, cQ, eβ, ← hrv,
    cR, eα, bind, Except.bind]
  simp only [← hs0, ← htd, cB, eω, ← hsr, hder, hM2, ← hh1, ← hh2, cH1, cH2, ez]
  by_cases hz0 : z = 0
  · refine ⟨fun hg => absurd hz0 hg.1.1, fun _ => ?_⟩
    rw [hz0, divR_zero]
  rw [divR_ok hz0]
  simp only [ey, ey1, ex]
  by_cases hz3 : z = 1 ∨ z = ω ∨ z = γ * ω
  · refine ⟨fun hg => ?_, fun _ => ?_⟩
    · obtain ⟨⟨-, e1, e2, e3⟩, -⟩ := hg
      rcases hz3 with h | h | h
      · exact absurd h e1
      · exact absurd h e2
      · exact absurd h e3
    · rw [r1csCoeffs_bad (D + 1) sz γ μ ν β α ω z _ _ _ (Or.inr hz3)]
  push Not at hz3
  obtain ⟨hz1, hzo, hzg⟩ := hz3
  have hcf := fun y y1 v => r1csCoeffs_ok cs.nrows cs.ncols S cs.inputSize (D + 1) sz rfl rfl hT rfl s1
    h3 (by omega) γ μ ν β α ω z y y1 v hz0 hz1 hzo hzg
  rw [hcf]
  obtain ⟨gv, hg1, hg2, hg3⟩ := r1csGvec_ok cs.nrows cs.ncols S cs.inputSize D s1 h3 hD u wv v y u1 s
    hvec r t h1 h2 (by simp [hu, hll]; omega) (by simp [hw, hll]; omega) (by simp [hv, hll]; omega)
    (by simp [hy, hll]; omega) (by omega) (by omega) (by omega) (by omega)
    (by rw [pB]; exact degLt_mono dB (by omega)) l1 l2 γ μ ν β α ω z (Q.eval (ω / z))
    (A.eval (ω / z)) ((polyOf x).eval z)
  have hG : polyOf gv = G := by rw [hg3, pA, pP, pQ, pR, pB]; rfl
  have hcmg := r1csK_eval cs.nrows cs.ncols S cs.inputSize (D + 1) γ μ ν β α ω z (Q.eval (ω / z))
    (A.eval (ω / z)) ((polyOf x).eval z) τ (rowPoly γ l) (colPoly γ l) (valPoly l) (rowColPoly γ l)
    A P Q R B Ĥ1 (polyOf h2) g
  have hvkg : kvk.g = g := hvk.1
  have hGz : G.eval z = 0 := by
    show (r1csGPoly cs.nrows cs.ncols S cs.inputSize (D + 1) γ μ ν β α ω z (Q.eval (ω / z))
      (A.eval (ω / z)) ((polyOf x).eval z) (rowPoly γ l) (colPoly γ l) (valPoly l) (rowColPoly γ l)
      A P Q R B Ĥ1 (polyOf h2)).eval z = 0
    rw [r1csG_eval, ← hpolys, eval_identity M ω sr.polys _ _ hid z hz0, Polynomial.eval_mul,
      Polynomial.eval_pow, Polynomial.eval_X]
    have h3 : z ^ (D + 1) = z ^ (D + 1 - M) * z ^ M := by
      rw [← pow_add]; congr 1; omega
    have h4 : z ^ M ≠ 0 := pow_ne_zero _ hz0
    have h5 : z ^ (D + 1 - M) ≠ 0 := pow_ne_zero _ hz0
    rw [h3]
    field_simp
    ring
  have hgz := checkPolyEval_ok gv z 0 (by rw [hG, hGz])
  have hg1' : r1csG (-(cs.nrows : ℤ) + cs.ncols + S) ((cs.ncols + S : ℕ) : ℤ) (D + 1) s hvec wv u y u1
      v r t h1 h2 (r1csK cs.nrows cs.ncols S cs.inputSize (D + 1) γ μ ν β α ω z (Q.eval (ω / z))
        (A.eval (ω / z)) ((polyOf x).eval z)) = .ok gv := by
    push_cast; exact hg1
  simp only [hg1', hvkg, hcmg, hgz]
  simp only [show r1csGPoly cs.nrows cs.ncols S cs.inputSize (D + 1) γ μ ν β α ω z (Q.eval (ω / z))
      (A.eval (ω / z)) ((polyOf x).eval z) (rowPoly γ l) (colPoly γ l) (valPoly l) (rowColPoly γ l)
      A P Q R B Ĥ1 (polyOf h2) = G from rfl]
  set items := r1csXiItems (A.eval τ • g) (P.eval τ • g) (Q.eval τ • g) (R.eval τ • g) (B.eval τ • g)
    (Ĥ1.eval τ • g) ((polyOf h2).eval τ • g) (G.eval τ • g) (ω / z) (Q.eval (ω / z))
    (A.eval (ω / z)) z with hitems
  set xi := env.hash (r1csPrefix 1 x ((rowPoly γ l).eval τ • g) ((colPoly γ l).eval τ • g)
    ((valPoly l).eval τ • g) ((rowColPoly γ l).eval τ • g) ++ items) with hxi
  set xi2 := env.hash (r1csPrefix 2 x ((rowPoly γ l).eval τ • g) ((colPoly γ l).eval τ • g)
    ((valPoly l).eval τ • g) ((rowColPoly γ l).eval τ • g) ++ items) with hxi2
  have hlist : ([polyFromVec hvec, polyFromVec u1] : List (List F)) = [hvec, u1].map polyFromVec := rfl
  have hlistg : ([polyFromVec gv] : List (List F)) = [gv].map polyFromVec := rfl
  have nQ : (polyOf hvec).natDegree ≤ D := by
    have := natDegree_polyOf_lt hvec (by intro h; simp [h] at lh; omega); omega
  have nA : (polyOf u1).natDegree ≤ D := by
    have := natDegree_polyOf_lt u1 (by intro h; simp [h] at lu1); omega
  have nG : (polyOf gv).natDegree ≤ D := by
    have := natDegree_polyOf_lt gv (by intro h; simp [h] at hg2); omega
  rw [hlist, hlistg]
  constructor
  · rintro ⟨-, gQ, gA, gG⟩
    obtain ⟨w1, w2, ho, hck⟩ := C21_batch_complete env.e τ g h D kvk hvk
      [hvec, u1] [gv] (ω / z) z xi xi2 env.rngU128 (by
        intro f hm
        simp only [List.cons_append, List.nil_append, List.mem_cons, List.not_mem_nil,
          or_false] at hm
        rcases hm with rfl | rfl | rfl
        · exact ⟨by rw [pQ]; exact gQ, nQ⟩
        · exact ⟨by rw [pA]; exact gA, nA⟩
        · exact ⟨by rw [hG]; exact gG, nG⟩)
    rw [ho]
    refine ⟨_, rfl, ?_⟩
    simp only [r1csVerify, hγd, hld, eμ, eν, eβ, eα, eω, ez, divR_ok hz0, ex, bind, Except.bind]
    simp only [hcf, hvkg, hcmg]
    have hc' : batchCheck env.e kvk [Q.eval τ • g, A.eval τ • g] [G.eval τ • g]
        (ω / z) z xi xi2 [Q.eval (ω / z), A.eval (ω / z)] [0] w1 w2 env.rngU128
        = true := by
      simp only [List.map_cons, List.map_nil, hG, hGz, pQ, pA] at hck
      exact hck
    exact if_pos hc'
  · intro hbad
    have hpanic := C21_batch_constant_aborts τ g D [hvec, u1] [gv] (ω / z) z xi xi2
      (by
        intro f hm
        simp only [List.cons_append, List.nil_append, List.mem_cons, List.not_mem_nil,
          or_false] at hm
        rcases hm with rfl | rfl | rfl
        · exact nQ
        · exact nA
        · exact nG)
      (by
        by_contra hc
        push Not at hc
        apply hbad
        refine ⟨⟨hz0, hz1, hzo, hzg⟩, ?_, ?_, ?_⟩
        · have := hc hvec (by simp); rwa [pQ] at this
        · have := hc u1 (by simp); rwa [pA] at this
        · have := hc gv (by simp); rwa [hG] at this)
    rw [hpanic]

/-- **C43 (deviation).** When the three matrices together list fewer than `3H` entries, `prove`
panics on every well-shaped input, also on satisfying ones. -/
theorem C43_too_few_entries (env : Env F G1 G2 GT) (hγ : env.gamma ≠ 0) (τ : F) (g : G1) (h : G2)
    (D : ℕ) (pp : UniversalParams G1 G2) (hs : kzgSetup D τ g h = .ok pp) (cs : R1CS F)
    (hl : R1csLens cs) (h1 : 1 ≤ (stacked cs).length) (h3 : (stacked cs).length < 3 * cs.nrows)
    (hSD : (stacked cs).length ≤ D + 1)
    (hD : 2 * (cs.ncols + (stacked cs).length) - cs.nrows ≤ D) (x w : List F)
    (hsh : R1CSShape cs x w) :
    ∃ pk vk, r1csIndex env.gamma pp cs = .ok (pk, vk) ∧ r1csProve env pk x w = .error .panic := by
  obtain ⟨-, -, -, -, f4⟩ := stacked_facts cs hl
  obtain ⟨kvk, hvk, hidx⟩ := r1csIndex_ok env.gamma τ hγ g h D pp hs cs hl _ f4 h1 hSD hD
  refine ⟨_, _, hidx, ?_⟩
  have hp := r1csU1_panic env.rngF cs hl x w hsh _ h3
  unfold r1csProve
  simp only [R1CSSize.total, ← f4, hp, bind, Except.bind]

/-! The hypotheses of C43 hold for the system `w1² = w2`, `w1 w2 = x` over the field with 97
elements, and the run there is not degenerate. -/

/-- Keys, proof and verification of a concrete run. -/
def r1csRun97 (cs : R1CS K97) (x w : List K97) : Res Unit := do
  let pp ← kzgSetup 30 (33 : K97) (1 : K97) (1 : K97)
  let keys ← r1csIndex env97.gamma pp cs
  let π ← r1csProve env97 keys.1 x w
  r1csVerify env97 keys.2 x π

/-- The system `w1² = w2`, `w1 w2 = x`. -/
def cube97 : R1CS K97 :=
  ⟨⟨[0, 1], [2, 2], [1, 1]⟩, ⟨[0, 1], [2, 3], [1, 1]⟩, ⟨[0, 1], [3, 1], [1, 1]⟩, 2, 4, 1⟩

example : r1csRun97 cube97 [27] [3, 9] = .ok () := by decide +kernel
example : cube97.satisfy [27] [3, 9] = .ok true := by decide +kernel
example : R1csLens cube97 := by refine ⟨⟨?_, ?_⟩, ⟨?_, ?_⟩, ?_, ?_⟩ <;> rfl
example : 3 * 2 ≤ (stacked cube97).length ∧ 4 * 2 ≤ 4 + (stacked cube97).length + 1 := by
  decide +kernel
example : R1CSShape cube97 [27] [3, 9] := by
  refine ⟨by decide, by decide, rfl, ?_, ?_, ?_⟩ <;>
  · intro e he
    simp [cube97, triples] at he
    rcases he with rfl | rfl <;> decide

/-- With a wrong instance or witness the prover fails. -/
example : r1csRun97 cube97 [26] [3, 9] ≠ .ok () := by decide +kernel
example : r1csRun97 cube97 [27] [3, 8] ≠ .ok () := by decide +kernel

/-- Four rows `1 · 1 = 1` with a single column. -/
def tall97 : R1CS K97 :=
  ⟨⟨[0, 1, 2, 3], [0, 0, 0, 0], [1, 1, 1, 1]⟩, ⟨[0, 1, 2, 3], [0, 0, 0, 0], [1, 1, 1, 1]⟩,
    ⟨[0, 1, 2, 3], [0, 0, 0, 0], [1, 1, 1, 1]⟩, 4, 1, 0⟩

/-- **C43 (deviation).** The condition `4H ≤ K + S + 1` is needed: the following system is satisfied
and has `S ≥ 3H`, yet the prover fails on it. -/
theorem C43_tall_system : tall97.satisfy [] [] = .ok true ∧ 3 * 4 ≤ (stacked tall97).length ∧
    ¬ 4 * 4 ≤ 1 + (stacked tall97).length + 1 ∧
    r1csRun97 tall97 [] [] = .error .polynomialEvaluationUnexpected := by
  refine ⟨?_, ?_, ?_, ?_⟩ <;> decide +kernel

/-- A satisfied system to which `C43_too_few_entries` applies. -/
example : (⟨⟨[0], [1], [1]⟩, ⟨[], [], []⟩, ⟨[], [], []⟩, 1, 2, 1⟩ : R1CS K97).satisfy [3] []
    = .ok true ∧ r1csRun97 ⟨⟨[0], [1], [1]⟩, ⟨[], [], []⟩, ⟨[], [], []⟩, 1, 2, 1⟩ [3] []
    = .error .panic := by
  refine ⟨?_, ?_⟩ <;> decide +kernel

end VO
