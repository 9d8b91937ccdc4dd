import Verif.Lemmas.R1csPeEntries
import Verif.Props.R1csSnark

set_option linter.unusedSectionVars false

/-
Completeness of the prover-efficient R1CS SNARK (C76).
-/

namespace VO
open Spec
open Polynomial (X toLaurent)
open LaurentPolynomial (T)

variable {F G1 G2 GT : Type} [Field F] [DecidableEq F]
  [AddCommGroup G1] [Module F G1] [DecidableEq G1] [AddCommGroup G2] [Module F G2]
  [AddCommGroup GT] [Module F GT] [DecidableEq GT]

theorem prodVec_blocks (cs : R1CS F) (x w : List F) :
    (∀ i, i < cs.nrows → (prodVec cs x w).getD i 0 = mulVec cs.a cs.ncols (1 :: (x ++ w)) i ∧
      (prodVec cs x w).getD (cs.nrows + i) 0 = mulVec cs.c cs.ncols (1 :: (x ++ w)) i ∧
      (prodVec cs x w).getD (2 * cs.nrows + i) 0 = mulVec cs.b cs.ncols (1 :: (x ++ w)) i) := by
  have hg : ∀ (f : ℕ → F) (i : ℕ), i < cs.nrows → ((List.range cs.nrows).map f).getD i 0 = f i := by
    intro f i hi
    rw [List.getD_eq_getElem _ _ (by simpa using hi)]; simp
  refine fun i hi => ⟨?_, ?_, ?_⟩
  · rw [prodVec, List.getD_append _ _ _ _ (by simp; omega), List.getD_append _ _ _ _ (by simp; omega),
      hg _ i hi]
  · rw [prodVec, List.getD_append _ _ _ _ (by simp; omega),
      List.getD_append_right _ _ _ _ (by simp), List.length_map, List.length_range,
      Nat.add_sub_cancel_left, hg _ i hi]
  · rw [prodVec, List.getD_append_right _ _ _ _ (by simp; omega), List.length_append, List.length_map,
      List.length_map, List.length_range, show 2 * cs.nrows + i - (cs.nrows + cs.nrows) = i by omega,
      hg _ i hi]

/-- Rows of the stacked matrix. -/
theorem stackedPe_mul (cs : R1CS F) (hl : R1csLens cs) (ra : InRange cs.a cs.nrows cs.ncols)
    (rc : InRange cs.c cs.nrows cs.ncols) (z : List F) (i : ℕ) (hi : i < cs.nrows) :
    ∑ j ∈ Finset.range cs.ncols, entryOf (stackedPe cs) i j * z.getD j 0
        = mulVec cs.a cs.ncols z i ∧
    ∑ j ∈ Finset.range cs.ncols, entryOf (stackedPe cs) (cs.nrows + i) j * z.getD j 0
        = mulVec cs.c cs.ncols z i ∧
    ∑ j ∈ Finset.range cs.ncols, entryOf (stackedPe cs) (2 * cs.nrows + i) j * z.getD j 0
        = mulVec cs.b cs.ncols z i :=
  stacked_mul (swapBC cs) ⟨hl.1, hl.2.2, hl.2.1⟩ ra rc z i hi

theorem stackedPe_mul_vec (cs : R1CS F) (hl : R1csLens cs) (ra : InRange cs.a cs.nrows cs.ncols)
    (rc : InRange cs.c cs.nrows cs.ncols) (x w : List F) (i : ℕ) (hi : i < 3 * cs.nrows) :
    ∑ j ∈ Finset.range cs.ncols, entryOf (stackedPe cs) i j * (1 :: (x ++ w)).getD j 0
      = (prodVec cs x w).getD i 0 := by
  have hb := prodVec_blocks cs x w
  by_cases i1 : i < cs.nrows
  · rw [(stackedPe_mul cs hl ra rc _ i i1).1, (hb i i1).1]
  · by_cases i2 : i < 2 * cs.nrows
    · have h1 := (stackedPe_mul cs hl ra rc (1 :: (x ++ w)) (i - cs.nrows) (by omega)).2.1
      have h2 := (hb (i - cs.nrows) (by omega)).2.1
      rw [show cs.nrows + (i - cs.nrows) = i by omega] at h1 h2
      rw [h1, h2]
    · have h1 := (stackedPe_mul cs hl ra rc (1 :: (x ++ w)) (i - 2 * cs.nrows) (by omega)).2.2
      have h2 := (hb (i - 2 * cs.nrows) (by omega)).2.2
      rw [show 2 * cs.nrows + (i - 2 * cs.nrows) = i by omega] at h1 h2
      rw [h1, h2]

theorem coeff_fullPoly (ℓ : ℕ) (V W : Polynomial F) (k : ℕ) :
    (fullPoly ℓ V W).coeff k = if k = 0 then 1 else
      V.coeff (k - 1) + (if ℓ + 1 ≤ k then W.coeff (k - (ℓ + 1)) else 0) := by
  rw [fullPoly, Polynomial.coeff_add, Polynomial.coeff_add, Polynomial.coeff_X_pow_mul']
  cases k with
  | zero => simp
  | succ j =>
    rw [Polynomial.coeff_X_mul, if_neg (show ¬ (j + 1 = 0) by omega), Polynomial.coeff_one,
      if_neg (show ¬ (j + 1 = 0) by omega), zero_add, Nat.add_sub_cancel]

/-- The polynomial `fullPoly` of an honest run holds `(1, x, w)`. -/
theorem coeff_fullPoly_honest (S : ℕ) (x w : List F) (δ : F) (k : ℕ) (hk : k < S) :
    (fullPoly x.length (polyOf x) (padPoly S w δ)).coeff k = (1 :: (x ++ w)).getD k 0 := by
  rw [coeff_fullPoly]
  cases k with
  | zero => simp
  | succ j =>
    rw [if_neg (by omega), Nat.add_sub_cancel, List.getD_cons_succ, coeff_polyOf]
    by_cases h : j < x.length
    · rw [if_neg (by omega), add_zero, List.getD_append _ _ _ _ h]
    · rw [if_pos (by omega), List.getD_eq_default _ _ (by omega), zero_add,
        coeff_padPoly _ _ _ _ (by omega), List.getD_append_right _ _ _ _ (by omega)]
      congr 1; omega

/-- The polynomials of an honest run satisfy the equations of the argument. -/
theorem r1csPe_honest_eqs (cs : R1CS F) (x w : List F) (hsh : R1CSShape cs x w)
    (hsat : R1CSHolds cs x w) (S : ℕ) (hS : S = (stackedPe cs).length) (h3 : 3 * cs.nrows ≤ S)
    (γ μ ν δ0 : F)
    (hμ : ∀ i, i < 3 * cs.nrows → μ ≠ γ ^ i) (hν : ∀ k, k < cs.ncols → ν ≠ γ ^ k) :
    R1csPeEqs cs.nrows cs.ncols S γ μ ν (stackedPe cs) (padPoly S (prodVec cs x w) δ0)
      (invPoly (3 * cs.nrows) γ μ) (colPolySum cs.ncols γ μ (stackedPe cs)) (invPoly cs.ncols γ ν)
      (entryInvPoly γ μ ν (stackedPe cs)) := by
  obtain ⟨s1, s2, s3, ra, rb, rc⟩ := hsh
  have hr := stackedPe_range cs ra rb rc
  have hb := prodVec_blocks cs x w
  have hlp := length_prodVec cs x w
  have hY := fun i hi => coeff_padPoly S (prodVec cs x w) δ0 i hi
  set l := stackedPe cs with hld
  constructor
  · intro i hi
    rw [coeff_invPoly, if_pos hi, mul_inv_cancel₀ (sub_ne_zero.mpr (hμ i hi))]
  · intro i hi
    rw [coeff_invPoly, if_pos hi, mul_inv_cancel₀ (sub_ne_zero.mpr (hν i hi))]
  · intro i h _; rw [coeff_invPoly, if_neg (by omega)]
  · intro i h _; rw [coeff_invPoly, if_neg (by omega)]
  · intro i h _; rw [coeff_colPolySum, if_neg (by omega)]
  · intro j hj
    rw [entryInvPoly, rowColPoly, colPoly, rowPoly, coeff_polyOf, coeff_polyOf, coeff_polyOf,
      coeff_polyOf]
    rw [List.getD_eq_getElem _ _ (by simpa [hS] using hj),
        List.getD_eq_getElem _ _ (by simpa [hS] using hj),
        List.getD_eq_getElem _ _ (by simpa [hS] using hj),
        List.getD_eq_getElem _ _ (by simpa [hS] using hj)]
    simp only [List.getElem_map]
    have hm := hr _ (List.getElem_mem (l := l) (n := j) (by omega))
    have n1 := sub_ne_zero.mpr (hμ _ hm.1)
    have n2 := sub_ne_zero.mpr (hν _ hm.2)
    field_simp
    ring
  · intro i h1 h2
    rw [hY i h2, List.getD_eq_default _ _ (by omega)]
  · intro j hj
    rw [hY _ (by omega), hY _ (by omega), hY _ (by omega), (hb j hj).1, (hb j hj).2.1, (hb j hj).2.2]
    exact hsat j hj

/-- In an honest run the terms of the argument add up to zero. -/
theorem r1csPe_honest_sum (cs : R1CS F) (hl : R1csLens cs) (x w : List F) (hsh : R1CSShape cs x w)
    (S : ℕ) (hS : S = (stackedPe cs).length) (h3 : 3 * cs.nrows ≤ S)
    (hKS : cs.ncols ≤ S) (γ μ ν β δ0 : F) (V W : Polynomial F) (ℓ : ℕ)
    (hfull : ∀ k, k < cs.ncols → (fullPoly ℓ V W).coeff k = (1 :: (x ++ w)).getD k 0)
    (he : R1csPeEqs cs.nrows cs.ncols S γ μ ν (stackedPe cs) (padPoly S (prodVec cs x w) δ0)
      (invPoly (3 * cs.nrows) γ μ) (colPolySum cs.ncols γ μ (stackedPe cs)) (invPoly cs.ncols γ ν)
      (entryInvPoly γ μ ν (stackedPe cs))) :
    ∑ j ∈ Finset.range S, peTerm ℓ β (valPoly (stackedPe cs)) V
      (padPoly S (prodVec cs x w) δ0) W (invPoly (3 * cs.nrows) γ μ)
      (colPolySum cs.ncols γ μ (stackedPe cs)) (invPoly cs.ncols γ ν)
      (entryInvPoly γ μ ν (stackedPe cs)) j = 0 := by
  obtain ⟨s1, s2, s3, ra, rb, rc⟩ := hsh
  have hr := stackedPe_range cs ra rb rc
  rw [peTerm_sum cs.nrows cs.ncols S ℓ h3 hKS γ μ ν β _ hS.symm hr _ _ _ _ _ _ _ he]
  set l := stackedPe cs with hld
  have e1 : ∑ k ∈ Finset.range cs.ncols, ((colPolySum cs.ncols γ μ l).coeff k - colSum γ μ l k)
      * (ν - γ ^ k)⁻¹ = 0 := by
    apply Finset.sum_eq_zero
    intro k hk
    rw [coeff_colPolySum, if_pos (Finset.mem_range.mp hk)]; ring
  have e2 : ∑ k ∈ Finset.range cs.ncols, (colPolySum cs.ncols γ μ l).coeff k
        * (fullPoly ℓ V W).coeff k
      = ∑ k ∈ Finset.range cs.ncols, (1 :: (x ++ w)).getD k 0 * colSum γ μ l k := by
    apply Finset.sum_congr rfl
    intro k hk
    have := Finset.mem_range.mp hk
    rw [coeff_colPolySum, if_pos this, hfull k this, mul_comm]
  have e3 : ∑ i ∈ Finset.range (3 * cs.nrows), (padPoly S (prodVec cs x w) δ0).coeff i * (μ - γ ^ i)⁻¹
      = ∑ k ∈ Finset.range cs.ncols, (1 :: (x ++ w)).getD k 0 * colSum γ μ l k := by
    rw [colSum_dot γ μ l (3 * cs.nrows) cs.ncols hr (fun k => (1 :: (x ++ w)).getD k 0)]
    apply Finset.sum_congr rfl
    intro i hi
    have := Finset.mem_range.mp hi
    rw [stackedPe_mul_vec cs hl ra rc x w i this, coeff_padPoly _ _ _ _ (by omega)]
  rw [e1, e2, e3]; ring

/-- The committed polynomials of an honest run satisfy all equations below index `S`. -/
theorem r1csPe_honest (cs : R1CS F) (hl : R1csLens cs) (x w : List F) (hsh : R1CSShape cs x w)
    (hsat : R1CSHolds cs x w) (S : ℕ) (hS : S = (stackedPe cs).length) (h3 : 3 * cs.nrows ≤ S)
    (hKS : cs.ncols ≤ S) (ℓ : ℕ) (V W : Polynomial F)
    (hfull : ∀ k, k < cs.ncols → (fullPoly ℓ V W).coeff k = (1 :: (x ++ w)).getD k 0)
    (γ μ ν β α δ0 δ2 : F)
    (hμ : ∀ i, i < 3 * cs.nrows → μ ≠ γ ^ i) (hν : ∀ k, k < cs.ncols → ν ≠ γ ^ k)
    (i : ℕ) (hi : i < S) :
    let l := stackedPe cs
    let Y := padPoly S (prodVec cs x w) δ0
    let P := invPoly (3 * cs.nrows) γ μ
    let Cc := colPolySum cs.ncols γ μ l
    let Q := invPoly cs.ncols γ ν
    let U := entryInvPoly γ μ ν l
    hadamardEntry (r1csPeBase cs.nrows cs.ncols S ℓ γ μ ν β α (rowPoly γ l)
      (colPoly γ l) (valPoly l) (rowColPoly γ l) V Y W P Cc Q U
      (partialPoly S (peTerm ℓ β (valPoly l) V Y W P Cc Q U) δ2)) i = 0 := by
  intro l Y P Cc Q U
  have he := r1csPe_honest_eqs cs x w hsh hsat S hS h3 γ μ ν δ0 hμ hν
  have hsum := r1csPe_honest_sum cs hl x w hsh S hS h3 hKS γ μ ν β δ0 V W ℓ hfull he
  refine r1csPe_entry_zero cs.nrows cs.ncols S ℓ h3 hKS γ μ ν β α l V Y W P Cc Q U _ he ?_ hsum i hi
  intro i hi
  rw [coeff_partialPoly, if_pos hi]

set_option maxHeartbeats 2000000 in
/-- **C76.** Completeness of the prover-efficient R1CS SNARK, for every system whose matrices list
`S ≥ 3H` entries and have `H` rows and `K ≤ S` columns, with `ℓ ≤ 2H - 1` public inputs, every
instance of length `ℓ` and witness accepted by `satisfy`, every hash function, blinding values,
trapdoor and maximal degree `D ≥ 2H + S`.  `Y` holds the products with the matrices and `W` the
witness, `P` and `Q` hold the inverses for rows and columns, `Cc` the product of the inverses for
rows with the matrix, `U` the inverses for the listed entries, `R` the partial sums and `B` the
blinding.  For challenges `μ`, `ν` that are not among the powers of `γ` used for rows and columns: if
`ω = 0`, `prove` panics.  Otherwise let `H1`, `H2` be the polynomials with
`Σ A_j(ω/T) B_j(T) = T^{-(2H+S)} H1 + T H2`, `z` the hash after them and `G` the final polynomial.
If `z ∉ {0, 1, ω, γω}` and none of `U`, `Y`, `Cc`, `G` is constant, `prove` succeeds and `verify`
accepts the proof; in every other case `prove` panics. -/
theorem C76_complete (env : Env F G1 G2 GT) (hf : FftOk env.fft) (hγ : env.gamma ≠ 0) (τ : F) (g : G1)
    (h : G2) (D : ℕ) (pp : UniversalParams G1 G2) (hs : kzgSetup D τ g h = .ok pp) (cs : R1CS F)
    (hl : R1csLens cs) (H K S ℓ : ℕ) (hH : H = cs.nrows) (hK : K = cs.ncols) (hℓ : ℓ = cs.inputSize)
    (hS : S = (stackedPe cs).length) (h3 : 3 * H ≤ S) (hKS : K ≤ S) (hℓ2 : ℓ + 1 ≤ 2 * H)
    (hD : 2 * H + S ≤ D) (hfft : 2 * S + 2 ≤ 2 ^ env.fft.twoAdicity)
    (x w : List F) (hsh : R1CSShape cs x w) (hin : x.length = ℓ)
    (hsat : cs.satisfy x w = .ok true) :
    ∃ pk vk, r1csPeIndex env.gamma pp cs = .ok (pk, vk) ∧
      let l := stackedPe cs
      let γ := env.gamma
      let Y := padPoly S (prodVec cs x w) (env.rngF 0)
      let W := padPoly S w (env.rngF 1)
      let cm := fun p : Polynomial F => (Item.cm (p.eval τ • g) : Item F G1)
      let pre := fun (first : F) (items : List (Item F G1)) =>
        [.fld first, .flds x, cm (rowPoly γ l), cm (colPoly γ l), cm (valPoly l),
          cm (rowColPoly γ l)] ++ items
      let μ := env.hash (pre 1 [cm Y, cm W])
      let P := invPoly (3 * H) γ μ
      let Cc := colPolySum K γ μ l
      let ν := env.hash (pre 1 [cm Y, cm W, cm P, cm Cc])
      let Q := invPoly K γ ν
      let U := entryInvPoly γ μ ν l
      let β := env.hash (pre 1 [cm Y, cm W, cm P, cm Cc, cm Q, cm U])
      let R := partialPoly S (peTerm ℓ β (valPoly l) (polyOf x) Y W P Cc Q U) (env.rngF 2)
      let α := env.hash (pre 1 [cm Y, cm W, cm P, cm Cc, cm Q, cm U, cm R])
      let B := blindPoly S (2 * H + 1) (env.rngF 3)
        (r1csPeBase H K S ℓ γ μ ν β α (rowPoly γ l) (colPoly γ l) (valPoly l)
          (rowColPoly γ l) (polyOf x) Y W P Cc Q U R)
      let ω := env.hash (pre 1 [cm Y, cm W, cm P, cm Cc, cm Q, cm U, cm R, cm B])
      (∀ i, i < 3 * H → μ ≠ γ ^ i) → (∀ k, k < K → ν ≠ γ ^ k) →
      (ω = 0 → r1csPeProve env pk x w = .error .panic) ∧
      (ω ≠ 0 →
        ∃ H1 H2 : Polynomial F, H1.degree < ((2 * H + S : ℕ) : WithBot ℕ) ∧
          H2.degree < ((2 * H + S : ℕ) : WithBot ℕ) ∧
          hadamardLaurent ω (r1csPePolys H K S ℓ γ μ ν β α (rowPoly γ l) (colPoly γ l)
              (valPoly l) (rowColPoly γ l) (polyOf x) Y W P Cc Q U R B)
            = T (-((2 * H + S : ℕ) : ℤ)) * toLaurent H1 + T 1 * toLaurent H2 ∧
          let Ĥ1 := X ^ (D + 1 - (2 * H + S)) * H1
          let z := env.hash (pre 1 [cm Y, cm W, cm P, cm Cc, cm Q, cm U, cm R, cm B, cm Ĥ1, cm H2])
          let G := r1csPeGPoly H K S ℓ (D + 1) γ μ ν β α ω z (U.eval (ω / z))
            (Y.eval (ω / z)) (Cc.eval (ω / z)) ((polyOf x).eval z) (rowPoly γ l) (colPoly γ l)
            (valPoly l) (rowColPoly γ l) Y W P Cc Q R B Ĥ1 H2
          let good := (z ≠ 0 ∧ z ≠ 1 ∧ z ≠ ω ∧ z ≠ γ * ω) ∧ U.natDegree ≠ 0 ∧
            Y.natDegree ≠ 0 ∧ Cc.natDegree ≠ 0 ∧ G.natDegree ≠ 0
          (good → ∃ π, r1csPeProve env pk x w = .ok π ∧ r1csPeVerify env vk x π = .ok ()) ∧
          (¬ good → r1csPeProve env pk x w = .error .panic)) := by
  subst hH hK hℓ
  have hholds := (C24_satisfy cs x w hsh).1.mp hsat
  obtain ⟨s1, s2, s3, ra, rb, rc⟩ := id hsh
  obtain ⟨ft, f1, f2, f3, f4⟩ := stackedPe_facts cs hl
  have hSs : S = cs.a.rows.length + cs.b.rows.length + cs.c.rows.length := hS.trans f4
  obtain ⟨kvk, hvk, hidx⟩ := r1csPeIndex_ok env.gamma τ hγ g h D pp hs cs hl S hSs (by omega)
    (by omega) hD
  refine ⟨_, _, hidx, ?_⟩
  intro l γ Y W cm pre μ P Cc ν Q U β R α B ω hμ hν
  have hr := stackedPe_range cs ra rb rc
  set sz : R1CSSize := ⟨cs.nrows, cs.ncols, cs.a.rows.length, cs.b.rows.length,
        cs.c.rows.length, cs.inputSize⟩ with hsz
  have hT : sz.total = S := hSs.symm
  set mat := concatMatrixVertically cs.nrows cs.a cs.c cs.b with hmat
  set uv := l.map (fun e => γ ^ e.1.1) with hu
  set wc := l.map (fun e => γ ^ e.1.2) with hw
  set v := l.map Prod.snd with hv
  set yv := l.map (fun e => γ ^ e.1.1 * γ ^ e.1.2) with hy
  have hll : l.length = S := hS.symm
  obtain ⟨y1, hy1, ly1, pY⟩ := r1csPeY1_ok env.rngF cs hl x w hsh S h3
  have pY : polyOf y1 = Y := pY
  have hy1 : r1csPeY1 env.rngF mat cs.nrows cs.ncols S x w = .ok y1 := hy1
  obtain ⟨wv, hwv, lwv, pW⟩ := r1csPeW_ok env.rngF w S (by omega)
  have pW : polyOf wv = W := pW
  obtain ⟨lr, pP, -⟩ := r1csPeR_ok γ μ hγ (3 * cs.nrows)
  obtain ⟨c, hc, lc, pC⟩ := r1csPeC_ok γ μ hγ mat l ft (3 * cs.nrows) cs.ncols (by omega) s2 hr
  have pC : polyOf c = Cc := pC
  set rv := r1csPeR γ μ (3 * cs.nrows) with hrv
  have pP : polyOf rv = P := pP
  obtain ⟨lq, pQ, -⟩ := r1csPeR_ok γ ν hγ cs.ncols
  set rnu := r1csPeR γ ν cs.ncols with hrnu
  have pQ : polyOf rnu = Q := pQ
  obtain ⟨lt, pU⟩ := r1csPeT_ok γ μ ν l
  rw [hll] at lt
  set t := uwinverseVector μ uv ν wc with htv
  have pU : polyOf t = U := pU
  obtain ⟨lrt, pR⟩ := r1csPeRt_ok env.rngF β cs.inputSize S x wv c y1 rv rnu t v
  set rt := r1csPeRt env.rngF β cs.inputSize S x wv c y1 rv rnu t v with hrtv
  have pR : polyOf rt = R := by rw [pR, pY, pW, pP, pC, pQ, pU]; rfl
  set s0 : R1csPeRun F := ⟨cs.nrows, cs.ncols, S, cs.inputSize, γ, μ, ν, β, α, 0, x, uv, wc, v, yv, y1,
    wv, rv, c, rnu, t, rt, []⟩ with hs0
  have hgood0 : s0.Good := ⟨s1, h3, s2, hKS, hγ,
    by show x.length + 1 ≤ cs.ncols; omega, by show uv.length = S; simp [hu, hll],
    by show wc.length = S; simp [hw, hll], by show v.length = S; simp [hv, hll],
    by show yv.length = S; simp [hy, hll], ly1, lwv, lr, lc, lq, lt, lrt⟩
  have hbase : s0.base = r1csPeBase cs.nrows cs.ncols S cs.inputSize γ μ ν β α (rowPoly γ l)
      (colPoly γ l) (valPoly l) (rowColPoly γ l) (polyOf x) Y W P Cc Q U R := by
    show r1csPeBase _ _ _ _ _ _ _ _ _ (polyOf uv) (polyOf wc) (polyOf v) (polyOf yv) (polyOf x)
      (polyOf y1) (polyOf wv) (polyOf rv) (polyOf c) (polyOf rnu) (polyOf t) (polyOf rt) = _
    rw [pY, pW, pP, pC, pQ, pU, pR]; rfl
  obtain ⟨lt1, pt⟩ := s0.mkT1_ok hgood0 env.rngF
  set t1 := s0.mkT1 env.rngF with htd
  have lt1 : t1.length = 2 * cs.nrows + 3 := lt1
  have pB : polyOf t1 = B := by rw [pt, hbase]
  have dB : B.degree < ((2 : ℕ) : WithBot ℕ) := by
    have := s0.blind_degree hgood0 (env.rngF 3)
    rwa [hbase] at this
  set sr : R1csPeRun F := ⟨cs.nrows, cs.ncols, S, cs.inputSize, γ, μ, ν, β, α, ω, x, uv, wc, v, yv, y1,
    wv, rv, c, rnu, t, rt, t1⟩ with hsr
  have hgood : sr.Good := ⟨hgood0.1, hgood0.2, hgood0.3, hgood0.4, hgood0.5, hgood0.6, hgood0.7,
    hgood0.8, hgood0.9, hgood0.10, hgood0.11, hgood0.12, hgood0.13, hgood0.14, hgood0.15, hgood0.16,
    hgood0.17⟩
  have cY : commitVector (srs τ g D) y1 (S + 1) = .ok (Y.eval τ • g) := by
    rw [commitVector_ok' τ g D _ _ (by intro h; simp [h] at ly1) ly1 (by omega), pY]
  have cW : commitVector (srs τ g D) wv (S + 1) = .ok (W.eval τ • g) := by
    rw [commitVector_ok' τ g D _ _ (by intro h; simp [h] at lwv) lwv (by omega), pW]
  have cP : commitVector (srs τ g D) rv (3 * cs.nrows) = .ok (P.eval τ • g) := by
    rw [commitVector_ok' τ g D _ _ (by intro h; simp [h] at lr; omega) lr (by omega), pP]
  have cC : commitVector (srs τ g D) c cs.ncols = .ok (Cc.eval τ • g) := by
    rw [commitVector_ok' τ g D _ _ (by intro h; simp [h] at lc; omega) lc (by omega), pC]
  have cQ : commitVector (srs τ g D) rnu cs.ncols = .ok (Q.eval τ • g) := by
    rw [commitVector_ok' τ g D _ _ (by intro h; simp [h] at lq; omega) lq (by omega), pQ]
  have cU : commitVector (srs τ g D) t S = .ok (U.eval τ • g) := by
    rw [commitVector_ok' τ g D _ _ (by intro h; simp [h] at lt; omega) lt (by omega), pU]
  have cR : commitVector (srs τ g D) rt (S + 1) = .ok (R.eval τ • g) := by
    rw [commitVector_ok' τ g D _ _ (by intro h; simp [h] at lrt) lrt (by omega), pR]
  have cB : commitVector (srs τ g D) t1 (2 * cs.nrows + 2) = .ok (B.eval τ • g) := by
    have := (C23_vector_commitment τ g D t1 (2 * cs.nrows + 2)
      (by intro h; simp [h] at lt1)).2.1 (by omega) (by omega)
    rw [commitVector, this, pB]; rfl
  set cu := (rowPoly γ l).eval τ • g with hcu
  set cw := (colPoly γ l).eval τ • g with hcw
  set cv := (valPoly l).eval τ • g with hcv
  set cy := (rowColPoly γ l).eval τ • g with hcy
  have eμ : env.hash (r1csPrefix 1 x cu cw cv cy ++ [.cm (Y.eval τ • g), .cm (W.eval τ • g)]) = μ := rfl
  have eν : env.hash (r1csPrefix 1 x cu cw cv cy
    ++ [.cm (Y.eval τ • g), .cm (W.eval τ • g), .cm (P.eval τ • g), .cm (Cc.eval τ • g)]) = ν := rfl
  have eβ : env.hash (r1csPrefix 1 x cu cw cv cy
    ++ [.cm (Y.eval τ • g), .cm (W.eval τ • g), .cm (P.eval τ • g), .cm (Cc.eval τ • g),
      .cm (Q.eval τ • g), .cm (U.eval τ • g)]) = β := rfl
  have eα : env.hash (r1csPrefix 1 x cu cw cv cy
    ++ [.cm (Y.eval τ • g), .cm (W.eval τ • g), .cm (P.eval τ • g), .cm (Cc.eval τ • g),
      .cm (Q.eval τ • g), .cm (U.eval τ • g), .cm (R.eval τ • g)]) = α := rfl
  have eω : env.hash (r1csPrefix 1 x cu cw cv cy
    ++ [.cm (Y.eval τ • g), .cm (W.eval τ • g), .cm (P.eval τ • g), .cm (Cc.eval τ • g),
      .cm (Q.eval τ • g), .cm (U.eval τ • g), .cm (R.eval τ • g), .cm (B.eval τ • g)]) = ω := rfl
  have hγd : env.gamma = γ := rfl
  have z1 : sz.nrows = cs.nrows := rfl
  have z2 : sz.ncols = cs.ncols := rfl
  have z3 : sz.inputSize = cs.inputSize := rfl
  have hld : stackedPe cs = l := rfl
  have hc' : leftSparseMvp mat rv (3 * (cs.nrows : ℤ)) cs.ncols = .ok c := by
    push_cast at hc; exact hc
  constructor
  · intro hω0
    have hder := sr.derive_panic env.fft hω0
    unfold r1csPeProve
    simp only [hγd, hld, hT, z1, z2, z3, ← hu, ← hw, ← hv, ← hy, hy1, cY, hwv, cW, eμ, ← hrv, hc', cP, cC,
      eν, ← hrnu, ← htv, cQ, cU, eβ, ← hrtv, cR, eα, bind, Except.bind]
    simp only [← hs0, ← htd, cB, eω, ← hsr, hder]
  intro hω0
  have hpolys : sr.polys = r1csPePolys cs.nrows cs.ncols S cs.inputSize γ μ ν β α (rowPoly γ l)
      (colPoly γ l) (valPoly l) (rowColPoly γ l) (polyOf x) Y W P Cc Q U R B := by
    show s0.base ++ [blindPair S (2 * cs.nrows + 1) (polyOf t1)] = _
    rw [hbase, pB]; rfl
  have hfull : ∀ k, k < cs.ncols → (fullPoly cs.inputSize (polyOf x) W).coeff k
      = (1 :: (x ++ w)).getD k 0 := by
    intro k hk
    rw [← hin]; exact coeff_fullPoly_honest S x w _ k (by omega)
  have hentry : ∀ i, hadamardEntry sr.polys i = 0 := by
    intro i
    rw [hpolys]
    apply entries_blind_zero _ _ (by omega)
    · intro i hi
      exact r1csPe_honest cs hl x w hsh hholds S hS h3 hKS cs.inputSize (polyOf x) W hfull γ μ ν β α
        (env.rngF 0) (env.rngF 2) hμ hν i hi
    · intro i hi
      have hi' : s0.S < i := by show S < i; omega
      have := s0.base_high hgood0 i hi'
      rwa [hbase] at this
  have hh := sr.hAtRep hgood hω0
  set M := 2 * cs.nrows + S with hM
  have dY : Y.degree < ((S + 1 : ℕ) : WithBot ℕ) := by
    rw [← pY, ← ly1]; exact degree_polyOf_lt y1
  have dW : W.degree < ((S + 1 : ℕ) : WithBot ℕ) := by
    rw [← pW, ← lwv]; exact degree_polyOf_lt wv
  have dR : R.degree < ((S + 1 : ℕ) : WithBot ℕ) := by
    rw [← pR, ← lrt]; exact degree_polyOf_lt rt
  have dQ : Q.degree < ((S + 1 : ℕ) : WithBot ℕ) := by
    rw [← pQ]; exact degLt_mono (degree_polyOf_lt rnu) (by omega)
  have dP : P.degree < ((S + 1 : ℕ) : WithBot ℕ) := by
    rw [← pP]; exact degLt_mono (degree_polyOf_lt rv) (by omega)
  have dC : Cc.degree < ((S + 1 : ℕ) : WithBot ℕ) := by
    rw [← pC]; exact degLt_mono (degree_polyOf_lt c) (by omega)
  have dU : U.degree < ((S + 1 : ℕ) : WithBot ℕ) := by
    rw [← pU]; exact degLt_mono (degree_polyOf_lt t) (by omega)
  have dl : ∀ f : (ℕ × ℕ) × F → F, (polyOf (l.map f)).degree < ((S + 1 : ℕ) : WithBot ℕ) := by
    intro f
    exact degLt_mono (degree_polyOf_lt _) (by simp [hll])
  have hdA : ∀ p ∈ sr.polys, p.1.degree < ((M + 1 : ℕ) : WithBot ℕ) := by
    intro p hp
    rw [hpolys] at hp
    exact r1csPePolys_degA cs.nrows cs.ncols S cs.inputSize S M γ μ ν β α
      _ _ _ _ _ Y W P Cc Q U R B s1 h3 hKS dY dC dU (by omega) (by omega) p hp
  have hdB : ∀ p ∈ sr.polys, p.2.degree < ((M + 1 : ℕ) : WithBot ℕ) := by
    intro p hp
    rw [hpolys] at hp
    exact r1csPePolys_degB cs.nrows cs.ncols S cs.inputSize S 1 x.length M γ μ ν β α
      _ _ _ _ _ Y W P Cc Q U R B s1 h3 hKS dY dW dP dC dQ dR dB (degree_polyOf_lt x) (dl _) (dl _) (dl _)
      (dl _) (by omega) (by omega) (by omega) (by omega) (by omega) p hp
  have hid := hadamard_identity M ω sr.polys hdA hdB (sr.hAt sr.derived) hh hentry
  set h1 := hVec1 M (sr.hAt sr.derived) with hh1
  set h2 := hVec2 M (sr.hAt sr.derived) with hh2
  have l1 : h1.length = M := length_hVec1 _ _
  have l2 : h2.length = M := length_hVec2 _ _
  have d1 := degree_polyOf_lt h1
  have d2 := degree_polyOf_lt h2
  rw [l1] at d1; rw [l2] at d2
  refine ⟨polyOf h1, polyOf h2, d1, d2, by rw [← hpolys, hid], ?_⟩
  intro Ĥ1 z G good
  have hne1 : h1 ≠ [] := by intro h; simp [h] at l1; omega
  have hne2 : h2 ≠ [] := by intro h; simp [h] at l2; omega
  have cH1 : commitVector (srs τ g D) h1 (D + 1) = .ok (Ĥ1.eval τ • g) := by
    rw [commitVector_ok τ g D _ _ hne1 (by omega) (by omega), l1]
  have cH2 : commitVector (srs τ g D) h2 M = .ok ((polyOf h2).eval τ • g) :=
    commitVector_ok' τ g D _ _ hne2 l2 (by omega)
  have ez : env.hash (r1csPrefix 1 x cu cw cv cy
    ++ [.cm (Y.eval τ • g), .cm (W.eval τ • g), .cm (P.eval τ • g), .cm (Cc.eval τ • g),
      .cm (Q.eval τ • g), .cm (U.eval τ • g), .cm (R.eval τ • g), .cm (B.eval τ • g),
      .cm (Ĥ1.eval τ • g), .cm ((polyOf h2).eval τ • g)]) = z := rfl
  have hder : sr.derive env.fft = .ok sr.derived := sr.derive_ok env.fft hf hgood hω0 hfft
  have ey : ∀ a, evalVectorExpression a ((S + 1 : ℕ) : ℤ) (fun i => vectorIndex t i) = U.eval a := by
    intro a
    rw [(rep_vec _).eval (S + 1) (by rw [pU]; exact dU), pU]
  have ey1 : ∀ a, evalVectorExpression a ((S + 1 : ℕ) : ℤ) (fun i => vectorIndex y1 i) = Y.eval a := by
    intro a
    rw [(rep_vec _).eval (S + 1) (by rw [pY]; exact dY), pY]
  have ey2 : ∀ a, evalVectorExpression a ((S + 1 : ℕ) : ℤ) (fun i => vectorIndex c i) = Cc.eval a := by
    intro a
    rw [(rep_vec _).eval (S + 1) (by rw [pC]; exact dC), pC]
  have ex : ∀ a, evalVectorAsPoly x a = (polyOf x).eval a := fun a => C12_vector x a
  unfold r1csPeProve
  simp only [hγd, hld, hT, z1, z2, z3, ← hu, ← hw, ← hv, ← hy, hy1, cY, hwv, cW, eμ, ← hrv, hc', cP, cC,
      eν, ← hrnu, ← htv, cQ, cU, eβ, ← hrtv, cR, eα, bind, Except.bind]
  simp only [← hs0, ← htd, cB, eω, ← hsr, hder, ← hM, ← hh1, ← hh2, cH1, cH2, ez]
  by_cases hz0 : z = 0
  · refine ⟨fun hg => absurd hz0 hg.1.1, fun _ => ?_⟩
    rw [hz0, divR_zero]
  rw [divR_ok hz0]
  simp only [ey, ey1, ey2, ex]
  by_cases hz3 : z = 1 ∨ z = ω ∨ z = γ * ω
  · refine ⟨fun hg => ?_, fun _ => ?_⟩
    · obtain ⟨⟨-, e1, e2, e3⟩, -⟩ := hg
      rcases hz3 with h | h | h
      · exact absurd h e1
      · exact absurd h e2
      · exact absurd h e3
    · rw [r1csPeCoeffs_bad (D + 1) sz γ μ ν β α ω z _ _ _ _ (Or.inr hz3)]
  push Not at hz3
  obtain ⟨hz1, hzo, hzg⟩ := hz3
  have hcf := fun y y1 y2 v => r1csPeCoeffs_ok cs.nrows cs.ncols S cs.inputSize (D + 1) sz rfl rfl hT rfl
    s1 h3 s2 hKS γ μ ν β α ω z y y1 y2 v hz0 hz1 hzo hzg
  rw [hcf]
  obtain ⟨gv, hg1, hg2, hg3⟩ := r1csPeGvec_ok cs.nrows cs.ncols S cs.inputSize D s1 hD uv wc v yv y1 wv
    rv c rnu rt t1 h1 h2 (by simp [hu, hll]; omega) (by simp [hw, hll]; omega) (by simp [hv, hll]; omega)
    (by simp [hy, hll]; omega) (by omega) (by omega) (by omega) (by omega) (by omega) (by omega)
    (by rw [pB]; exact degLt_mono dB (by omega)) l1 l2 γ μ ν β α ω z (U.eval (ω / z))
    (Y.eval (ω / z)) (Cc.eval (ω / z)) ((polyOf x).eval z)
  have hG : polyOf gv = G := by rw [hg3, pY, pW, pP, pC, pQ, pR, pB]; rfl
  have hcmg := r1csPeK_eval cs.nrows cs.ncols S cs.inputSize (D + 1) γ μ ν β α ω z (U.eval (ω / z))
    (Y.eval (ω / z)) (Cc.eval (ω / z)) ((polyOf x).eval z) τ (rowPoly γ l) (colPoly γ l) (valPoly l)
    (rowColPoly γ l) Y W P Cc Q R B Ĥ1 (polyOf h2) g
  rw [← hcu, ← hcw, ← hcv, ← hcy] at hcmg
  have hvkg : kvk.g = g := hvk.1
  have hGz : G.eval z = 0 := by
    show (r1csPeGPoly cs.nrows cs.ncols S cs.inputSize (D + 1) γ μ ν β α ω z (U.eval (ω / z))
      (Y.eval (ω / z)) (Cc.eval (ω / z)) ((polyOf x).eval z) (rowPoly γ l) (colPoly γ l) (valPoly l)
      (rowColPoly γ l) Y W P Cc Q R B Ĥ1 (polyOf h2)).eval z = 0
    rw [r1csPeG_eval, ← hpolys, eval_identity M ω sr.polys _ _ hid z hz0, Polynomial.eval_mul,
      Polynomial.eval_pow, Polynomial.eval_X]
    have h3 : z ^ (D + 1) = z ^ (D + 1 - M) * z ^ M := by
      rw [← pow_add]; congr 1; omega
    have h4 : z ^ M ≠ 0 := pow_ne_zero _ hz0
    have h5 : z ^ (D + 1 - M) ≠ 0 := pow_ne_zero _ hz0
    rw [h3]
    field_simp
    ring
  have hgz := checkPolyEval_ok gv z 0 (by rw [hG, hGz])
  simp only [hg1, hvkg, hcmg, hgz]
  simp only [show r1csPeGPoly cs.nrows cs.ncols S cs.inputSize (D + 1) γ μ ν β α ω z (U.eval (ω / z))
      (Y.eval (ω / z)) (Cc.eval (ω / z)) ((polyOf x).eval z) (rowPoly γ l) (colPoly γ l) (valPoly l)
      (rowColPoly γ l) Y W P Cc Q R B Ĥ1 (polyOf h2) = G from rfl]
  set items := r1csPeXiItems (Y.eval τ • g) (W.eval τ • g) (P.eval τ • g) (Cc.eval τ • g) (Q.eval τ • g)
    (U.eval τ • g) (R.eval τ • g) (B.eval τ • g)
    (Ĥ1.eval τ • g) ((polyOf h2).eval τ • g) (G.eval τ • g) (ω / z) (U.eval (ω / z))
    (Y.eval (ω / z)) (Cc.eval (ω / z)) z with hitems
  set xi := env.hash (r1csPrefix 1 x cu cw cv cy ++ items) with hxi
  set xi2 := env.hash (r1csPrefix 2 x cu cw cv cy ++ items) with hxi2
  have hlist : ([polyFromVec t, polyFromVec y1, polyFromVec c] : List (List F))
    = [t, y1, c].map polyFromVec := rfl
  have hlistg : ([polyFromVec gv] : List (List F)) = [gv].map polyFromVec := rfl
  have nU : (polyOf t).natDegree ≤ D := by
    have := natDegree_polyOf_lt t (by intro h; simp [h] at lt; omega); omega
  have nY : (polyOf y1).natDegree ≤ D := by
    have := natDegree_polyOf_lt y1 (by intro h; simp [h] at ly1); omega
  have nC : (polyOf c).natDegree ≤ D := by
    have := natDegree_polyOf_lt c (by intro h; simp [h] at lc; omega); omega
  have nG : (polyOf gv).natDegree ≤ D := by
    have := natDegree_polyOf_lt gv (by intro h; simp [h] at hg2); omega
  rw [hlist, hlistg]
  constructor
  · rintro ⟨-, gU, gY, gC, gG⟩
    obtain ⟨w1, w2, ho, hck⟩ := C21_batch_complete env.e τ g h D kvk hvk
      [t, y1, c] [gv] (ω / z) z xi xi2 env.rngU128 (by
        intro f hm
        simp only [List.cons_append, List.nil_append, List.mem_cons, List.not_mem_nil,
          or_false] at hm
        rcases hm with rfl | rfl | rfl | rfl
        · exact ⟨by rw [pU]; exact gU, nU⟩
        · exact ⟨by rw [pY]; exact gY, nY⟩
        · exact ⟨by rw [pC]; exact gC, nC⟩
        · exact ⟨by rw [hG]; exact gG, nG⟩)
    rw [ho]
    refine ⟨_, rfl, ?_⟩
    simp only [r1csPeVerify, hγd, hld, eμ, eν, eβ, eα, eω, ez, divR_ok hz0, ex, bind, Except.bind]
    simp only [hcf, hvkg, hcmg]
    have hc' : batchCheck env.e kvk [U.eval τ • g, Y.eval τ • g, Cc.eval τ • g] [G.eval τ • g]
        (ω / z) z xi xi2 [U.eval (ω / z), Y.eval (ω / z), Cc.eval (ω / z)] [0] w1 w2 env.rngU128
        = true := by
      simp only [List.map_cons, List.map_nil, hG, hGz, pU, pY, pC] at hck
      exact hck
    exact if_pos hc'
  · intro hbad
    have hpanic := C21_batch_constant_aborts τ g D [t, y1, c] [gv] (ω / z) z xi xi2
      (by
        intro f hm
        simp only [List.cons_append, List.nil_append, List.mem_cons, List.not_mem_nil,
          or_false] at hm
        rcases hm with rfl | rfl | rfl | rfl
        · exact nU
        · exact nY
        · exact nC
        · exact nG)
      (by
        by_contra hc
        push Not at hc
        apply hbad
        refine ⟨⟨hz0, hz1, hzo, hzg⟩, ?_, ?_, ?_, ?_⟩
        · have := hc t (by simp); rwa [pU] at this
        · have := hc y1 (by simp); rwa [pY] at this
        · have := hc c (by simp); rwa [pC] at this
        · have := hc gv (by simp); rwa [hG] at this)
    rw [hpanic]

/-- **C76 (deviation).** When the three matrices together list fewer than `3H` entries, `prove`
panics on every well-shaped input, also on satisfying ones. -/
theorem C76_too_few_entries (env : Env F G1 G2 GT) (hγ : env.gamma ≠ 0) (τ : F) (g : G1) (h : G2)
    (D : ℕ) (pp : UniversalParams G1 G2) (hs : kzgSetup D τ g h = .ok pp) (cs : R1CS F)
    (hl : R1csLens cs) (h1 : 1 ≤ (stackedPe cs).length)
    (h3 : (stackedPe cs).length < 3 * cs.nrows)
    (hD : 2 * cs.nrows + (stackedPe cs).length ≤ D) (x w : List F) (hsh : R1CSShape cs x w) :
    ∃ pk vk, r1csPeIndex env.gamma pp cs = .ok (pk, vk) ∧ r1csPeProve env pk x w = .error .panic := by
  obtain ⟨-, -, -, -, f4⟩ := stackedPe_facts cs hl
  obtain ⟨kvk, hvk, hidx⟩ := r1csPeIndex_ok env.gamma τ hγ g h D pp hs cs hl _ f4 h1 (by omega) hD
  refine ⟨_, _, hidx, ?_⟩
  have hp := r1csPeY1_panic env.rngF cs hl x w hsh _ h3
  unfold r1csPeProve
  simp only [R1CSSize.total, ← f4, hp, bind, Except.bind]

/-- **C76 (deviation).** When the witness is longer than the number `S` of listed entries, `prove`
panics on every well-shaped input, also on satisfying ones. -/
theorem C76_long_witness (env : Env F G1 G2 GT) (hγ : env.gamma ≠ 0) (τ : F) (g : G1) (h : G2)
    (D : ℕ) (pp : UniversalParams G1 G2) (hs : kzgSetup D τ g h = .ok pp) (cs : R1CS F)
    (hl : R1csLens cs) (h1 : 1 ≤ (stackedPe cs).length)
    (hD : 2 * cs.nrows + (stackedPe cs).length ≤ D) (x w : List F) (hsh : R1CSShape cs x w)
    (hw : (stackedPe cs).length < w.length) :
    ∃ pk vk, r1csPeIndex env.gamma pp cs = .ok (pk, vk) ∧ r1csPeProve env pk x w = .error .panic := by
  obtain ⟨-, -, -, -, f4⟩ := stackedPe_facts cs hl
  obtain ⟨kvk, hvk, hidx⟩ := r1csPeIndex_ok env.gamma τ hγ g h D pp hs cs hl _ f4 h1 (by omega) hD
  refine ⟨_, _, hidx, ?_⟩
  unfold r1csPeProve
  simp only [R1CSSize.total, ← f4, bind, Except.bind]
  by_cases h3 : (stackedPe cs).length < 3 * cs.nrows
  · rw [r1csPeY1_panic env.rngF cs hl x w hsh _ h3]
  · obtain ⟨y1, e1, e2, -⟩ := r1csPeY1_ok env.rngF cs hl x w hsh (stackedPe cs).length (by omega)
    rw [e1]
    simp only []
    rw [commitVector_ok' τ g D _ _ (by intro h; simp [h] at e2) e2 (by have := hsh.1; omega)]
    simp only [r1csPeW_panic env.rngF w _ hw]

/-! The hypotheses of C76 hold for the system `w1² = w2`, `w1 w2 = x` over the field with 97
elements, and the run there is not degenerate. -/

/-- Keys, proof and verification of a concrete run. -/
def r1csPeRun97 (cs : R1CS K97) (x w : List K97) : Res Unit := do
  let pp ← kzgSetup 30 (33 : K97) (1 : K97) (1 : K97)
  let keys ← r1csPeIndex env97.gamma pp cs
  let π ← r1csPeProve env97 keys.1 x w
  r1csPeVerify env97 keys.2 x π

example : r1csPeRun97 cube97 [27] [3, 9] = .ok () := by decide +kernel
example : 3 * 2 ≤ (stackedPe cube97).length ∧ 4 ≤ (stackedPe cube97).length ∧ 1 + 1 ≤ 2 * 2 := by
  decide +kernel

/-- The single row `(1 + x1)(1 + x2) = w` with two public inputs. -/
def wide97 : R1CS K97 := ⟨⟨[0, 0], [0, 1], [1, 1]⟩, ⟨[0, 0], [0, 2], [1, 1]⟩, ⟨[0], [3], [1]⟩, 1, 4, 2⟩

/-- **C76 (deviation).** The condition `ℓ + 1 ≤ 2H` is needed: the following system is satisfied and
meets the others, yet the prover fails on it. -/
theorem C76_wide_instance : wide97.satisfy [2, 3] [12] = .ok true ∧
    3 * 1 ≤ (stackedPe wide97).length ∧ 4 ≤ (stackedPe wide97).length ∧ ¬ 2 + 1 ≤ 2 * 1 ∧
    r1csPeRun97 wide97 [2, 3] [12] = .error .polynomialEvaluationUnexpected := by
  refine ⟨?_, ?_, ?_, ?_, ?_⟩ <;> decide +kernel

/-- The single row `x w1 = w2`. -/
def sparse97 : R1CS K97 := ⟨⟨[0], [1], [1]⟩, ⟨[0], [2], [1]⟩, ⟨[0], [3], [1]⟩, 1, 4, 1⟩

/-- **C76 (deviation).** The condition `K ≤ S` is needed: the following system is satisfied and meets
the others, yet the prover fails on it. -/
theorem C76_many_columns : sparse97.satisfy [2] [3, 6] = .ok true ∧
    3 * 1 ≤ (stackedPe sparse97).length ∧ ¬ 4 ≤ (stackedPe sparse97).length ∧ 1 + 1 ≤ 2 * 1 ∧
    r1csPeRun97 sparse97 [2] [3, 6] = .error .polynomialEvaluationUnexpected := by
  refine ⟨?_, ?_, ?_, ?_, ?_⟩ <;> decide +kernel

/-- A satisfied system to which `C76_long_witness` applies. -/
example : (⟨⟨[], [], []⟩, ⟨[], [], []⟩, ⟨[0], [1], [1]⟩, 1, 4, 1⟩ : R1CS K97).satisfy [0] [3, 4]
    = .ok true ∧ r1csPeRun97 ⟨⟨[], [], []⟩, ⟨[], [], []⟩, ⟨[0], [1], [1]⟩, 1, 4, 1⟩ [0] [3, 4]
    = .error .panic := by
  refine ⟨?_, ?_⟩ <;> decide +kernel

/-- With a wrong instance or witness the prover fails. -/
example : r1csPeRun97 cube97 [26] [3, 9] ≠ .ok () := by decide +kernel
example : r1csPeRun97 cube97 [27] [3, 8] ≠ .ok () := by decide +kernel

end VO
