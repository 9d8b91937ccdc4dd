import Verif.Props.R1csPe
import Verif.Props.R1csSnarkSound

/-
Soundness of the prover-efficient R1CS SNARK model (`Model/R1csPe`,
`/repo/voproof/src/snarks/voproof_r1cs_prover_efficient.rs`).
-/

set_option linter.unusedSectionVars false

namespace VO
open Spec
open Polynomial (X)

variable {F : Type} [Field F] [DecidableEq F]
variable {G1 G2 GT : Type}
variable [AddCommGroup G1] [AddCommGroup G2] [AddCommGroup GT]
variable [Module F G1] [Module F G2] [Module F GT]
variable [DecidableEq G1] [DecidableEq G2] [DecidableEq GT]

/-! ## Reading the witness -/

theorem r1csPeRead_shape (cs : R1CS F) (hH : 0 < cs.nrows) (hℓ : cs.inputSize + 1 ≤ cs.ncols)
    (ra : InRange cs.a cs.nrows cs.ncols)
    (rb : InRange cs.b cs.nrows cs.ncols) (rc : InRange cs.c cs.nrows cs.ncols) (x : List F)
    (W : Polynomial F) :
    R1CSShape cs (fitTo cs.inputSize x) (r1csPeRead cs.ncols cs.inputSize x W) := by
  refine ⟨hH, by omega, ?_, ra, rb, rc⟩
  simp [fitTo, r1csPeRead]; omega

/-- The assignment that is read off `W` and the instance agrees with `1 + X V + X^{ℓ+1} W`. -/
theorem r1csPeRead_getD (K ℓ : ℕ) (hℓ : ℓ + 1 ≤ K) (x : List F) (W : Polynomial F) (k : ℕ)
    (hk : k < K) :
    (1 :: (fitTo ℓ x ++ r1csPeRead K ℓ x W)).getD k 0 = (fullPoly ℓ (polyOf x) W).coeff k := by
  rw [coeff_fullPoly]
  cases k with
  | zero => simp
  | succ j =>
    rw [List.getD_cons_succ, if_neg (by omega), Nat.add_sub_cancel, coeff_polyOf]
    by_cases hj : j < ℓ
    · rw [List.getD_append _ _ _ _ (by simpa [fitTo] using hj), getD_fitTo _ _ _ hj,
        if_neg (by omega), add_zero]
    · rw [List.getD_append_right _ _ _ _ (by simpa [fitTo] using hj)]
      have hl : (fitTo ℓ x).length = ℓ := by simp [fitTo]
      rw [hl, r1csPeRead, List.getD_eq_getElem _ _ (by simp; omega), if_pos (by omega)]
      simp only [List.getElem_map, List.getElem_range]
      congr 2 <;> omega

/-- If the entries of `Y` are products of the matrices with the assignment and satisfy the equations
of the argument, the relation holds. -/
theorem r1csPe_holds_of_coeffs (cs : R1CS F) (hl : R1csLens cs) (hℓ : cs.inputSize + 1 ≤ cs.ncols)
    (ra : InRange cs.a cs.nrows cs.ncols)
    (rc : InRange cs.c cs.nrows cs.ncols) (x : List F) (Y W : Polynomial F)
    (h5 : ∀ j, j < cs.nrows → Y.coeff j * Y.coeff (2 * cs.nrows + j) = Y.coeff (cs.nrows + j))
    (hM : ∀ i, i < 3 * cs.nrows → Y.coeff i
      = ∑ j ∈ Finset.range cs.ncols, entryOf (stackedPe cs) i j
          * (fullPoly cs.inputSize (polyOf x) W).coeff j) :
    R1CSHolds cs (fitTo cs.inputSize x) (r1csPeRead cs.ncols cs.inputSize x W) := by
  intro i hi
  obtain ⟨e1, e2, e3⟩ := stackedPe_mul cs hl ra rc
    (1 :: (fitTo cs.inputSize x ++ r1csPeRead cs.ncols cs.inputSize x W)) i hi
  have hs : ∀ r, r < 3 * cs.nrows → ∑ j ∈ Finset.range cs.ncols, entryOf (stackedPe cs) r j
      * (1 :: (fitTo cs.inputSize x ++ r1csPeRead cs.ncols cs.inputSize x W)).getD j 0
      = Y.coeff r := by
    intro r hr
    rw [hM r hr]
    apply Finset.sum_congr rfl
    intro j hj
    rw [r1csPeRead_getD cs.ncols cs.inputSize hℓ x W j (Finset.mem_range.mp hj)]
  rw [← e1, ← e2, ← e3, hs _ (by omega), hs _ (by omega), hs _ (by omega)]
  exact h5 i hi

/-! ## The argument -/

theorem r1csPe_chain_sound (cs : R1CS F) (hl : R1csLens cs) (hℓ : cs.inputSize + 1 ≤ cs.ncols)
    (ra : InRange cs.a cs.nrows cs.ncols)
    (rb : InRange cs.b cs.nrows cs.ncols) (rc : InRange cs.c cs.nrows cs.ncols) (S : ℕ)
    (hS : S = (stackedPe cs).length) (h3 : 3 * cs.nrows ≤ S) (hKS : cs.ncols ≤ S) (γ : F)
    (hγn : ∀ i < 3 * cs.nrows, ∀ j < 3 * cs.nrows, γ ^ i = γ ^ j → i = j)
    (hγK : ∀ i < cs.ncols, ∀ j < cs.ncols, γ ^ i = γ ^ j → i = j) (x : List F) (Y W : Polynomial F)
    (hbad : ¬ R1CSHolds cs (fitTo cs.inputSize x) (r1csPeRead cs.ncols cs.inputSize x W)) :
    ∃ badμ : Finset F, badμ.card ≤ 3 * cs.nrows - 1 ∧ ∀ μ, μ ∉ badμ → ∀ P Cc : Polynomial F,
    ∃ badν : Finset F, badν.card ≤ cs.ncols - 1 ∧ ∀ ν, ν ∉ badν → ∀ Q U : Polynomial F,
    ∃ badβ : Finset F, badβ.card ≤ 1 ∧ ∀ β, β ∉ badβ →
      R1csPeEqs cs.nrows cs.ncols S γ μ ν (stackedPe cs) Y P Cc Q U →
      ∑ j ∈ Finset.range S,
        peTerm cs.inputSize β (valPoly (stackedPe cs)) (polyOf x) Y W P Cc Q U j ≠ 0 := by
  have hr := stackedPe_range cs ra rb rc
  set l := stackedPe cs with hld
  set H := cs.nrows with hHd
  set K := cs.ncols with hKd
  set full := fullPoly cs.inputSize (polyOf x) W with hfull
  obtain ⟨bm, b1, b2⟩ := lincheck_sound (3 * H) K γ hγn hγK
    (fun i => Y.coeff i - ∑ j ∈ Finset.range K, entryOf l i j * full.coeff j)
    (¬ (∀ j, j < H → Y.coeff j * Y.coeff (2 * H + j) = Y.coeff (H + j)))
    (fun h => by
      intro h5
      exact hbad (r1csPe_holds_of_coeffs cs hl hℓ ra rc x Y W h5
        (fun i hi => sub_eq_zero.mp (h i hi))))
  refine ⟨bm, b1, fun μ hμ P Cc => ?_⟩
  obtain ⟨bn, b3, b4⟩ := b2 μ hμ (fun k => Cc.coeff k - colSum γ μ l k)
  refine ⟨bn, b3, fun ν hν Q U => ?_⟩
  set Dv := ∑ k ∈ Finset.range K, (Cc.coeff k - colSum γ μ l k) * (ν - γ ^ k)⁻¹ with hDv
  set Ev := ∑ k ∈ Finset.range K, Cc.coeff k * full.coeff k
    - ∑ i ∈ Finset.range (3 * H), Y.coeff i * (μ - γ ^ i)⁻¹ with hEv
  have hb := b4 ν hν
  refine ⟨{-Ev / Dv}, by simp, fun β hβ heq hsum => ?_⟩
  have n1 : ∀ i, i < 3 * H → μ ≠ γ ^ i := by
    intro i hi h
    have := heq.p i hi
    rw [h, sub_self, zero_mul] at this
    exact zero_ne_one this
  have n2 : ∀ i, i < K → ν ≠ γ ^ i := by
    intro i hi h
    have := heq.q i hi
    rw [h, sub_self, zero_mul] at this
    exact zero_ne_one this
  rw [peTerm_sum H K S cs.inputSize h3 hKS γ μ ν β l hS.symm hr _ _ _ _ _ _ _ heq, ← hfull, ← hDv,
    ← hEv] at hsum
  by_cases hD0 : Dv = 0
  · refine hb n1 n2 hD0 (fun hc => ?_) heq.y
    rw [hD0, mul_zero, add_zero] at hsum
    have hd := colSum_dot γ μ l (3 * H) K hr (fun k => full.coeff k)
    have he : ∑ k ∈ Finset.range K, Cc.coeff k * full.coeff k
        = ∑ k ∈ Finset.range K, full.coeff k * colSum γ μ l k := by
      apply Finset.sum_congr rfl
      intro k hk
      have := hc k (Finset.mem_range.mp hk)
      rw [sub_eq_zero.mp this]; ring
    rw [hEv, he, hd] at hsum
    simp only [sub_mul, Finset.sum_sub_distrib]
    linear_combination -hsum
  · apply hβ
    rw [Finset.mem_singleton, eq_div_iff hD0]
    linear_combination hsum

/-- Given violated equations, few values of `α` make every entry vanish, whatever `R` is. -/
theorem r1csPe_alpha_sound (H K S ℓ : ℕ) (hH : 1 ≤ H) (h3 : 3 * H ≤ S) (hKS : K ≤ S)
    (γ μ ν β : F) (l : List ((ℕ × ℕ) × F)) (x : List F) (Y W P Cc Q U R : Polynomial F)
    (hbad : R1csPeEqs H K S γ μ ν l Y P Cc Q U →
      ∑ j ∈ Finset.range S, peTerm ℓ β (valPoly l) (polyOf x) Y W P Cc Q U j ≠ 0) :
    ∃ bad : Finset F, bad.card ≤ 10 ∧ ∀ α, α ∉ bad → ∀ T,
      ∃ i, hadamardEntry (r1csPePolys H K S ℓ γ μ ν β α (rowPoly γ l) (colPoly γ l) (valPoly l)
        (rowColPoly γ l) (polyOf x) Y W P Cc Q U R T) i ≠ 0 := by
  set k : ℕ → ℕ → F := fun i j => match j with
    | 0 => if i < 3 * H then (μ - γ ^ i) * P.coeff i - 1 else 0
    | 1 => if i < K then (ν - γ ^ i) * Q.coeff i - 1 else 0
    | 2 => if 3 * H ≤ i then P.coeff i else 0
    | 3 => if K ≤ i then Q.coeff i else 0
    | 4 => if K ≤ i then Cc.coeff i else 0
    | 6 => U.coeff i * ((rowColPoly γ l).coeff i - μ * (colPoly γ l).coeff i
          - ν * (rowPoly γ l).coeff i + μ * ν) - 1
    | 7 => if 3 * H ≤ i then Y.coeff i else 0
    | 8 => (if 2 * H ≤ i then Y.coeff (i - 2 * H) * Y.coeff i else 0)
          - (if 2 * H ≤ i ∧ i < 3 * H then Y.coeff (i - H) else 0)
    | 9 => peTerm ℓ β (valPoly l) (polyOf x) Y W P Cc Q U i
        - (R.coeff i - if i = 0 then 0 else R.coeff (i - 1))
    | 10 => if i = S - 1 then R.coeff i else 0
    | _ => 0 with hk
  have hex : ∃ i, i < S ∧ ∃ j, j < 11 ∧ k i j ≠ 0 := by
    by_contra hc
    push Not at hc
    refine hbad ⟨?_, ?_, ?_, ?_, ?_, ?_, ?_, ?_⟩ ?_
    · intro i hi
      have := hc i (by omega) 0 (by omega)
      simp only [hk] at this
      rw [if_pos hi] at this
      exact sub_eq_zero.mp this
    · intro i hi
      have := hc i (by omega) 1 (by omega)
      simp only [hk] at this
      rw [if_pos hi] at this
      exact sub_eq_zero.mp this
    · intro i hi hi2
      have := hc i hi2 2 (by omega)
      simp only [hk] at this
      rwa [if_pos hi] at this
    · intro i hi hi2
      have := hc i hi2 3 (by omega)
      simp only [hk] at this
      rwa [if_pos hi] at this
    · intro i hi hi2
      have := hc i hi2 4 (by omega)
      simp only [hk] at this
      rwa [if_pos hi] at this
    · intro j hj
      have := hc j hj 6 (by omega)
      simp only [hk] at this
      exact sub_eq_zero.mp this
    · intro i hi hi2
      have := hc i hi2 7 (by omega)
      simp only [hk] at this
      rwa [if_pos hi] at this
    · intro j hj
      have := hc (2 * H + j) (by omega) 8 (by omega)
      simp only [hk] at this
      rw [if_pos (by omega), if_pos (by omega), Nat.add_sub_cancel_left,
        show 2 * H + j - H = H + j by omega] at this
      exact sub_eq_zero.mp this
    · have hR : ∀ i, i < S → R.coeff i = ∑ j ∈ Finset.range (i + 1),
          peTerm ℓ β (valPoly l) (polyOf x) Y W P Cc Q U j := by
        intro i
        induction i with
        | zero =>
          intro hi
          have := hc 0 hi 9 (by omega)
          simp only [hk, if_true, sub_zero] at this
          simpa using (sub_eq_zero.mp this).symm
        | succ i ih =>
          intro hi
          have := hc (i + 1) hi 9 (by omega)
          simp only [hk] at this
          rw [if_neg (by omega), Nat.add_sub_cancel, ih (by omega)] at this
          rw [Finset.sum_range_succ]
          linear_combination -this
      have := hc (S - 1) (by omega) 10 (by omega)
      simp only [hk, if_true] at this
      rw [hR _ (by omega), show S - 1 + 1 = S by omega] at this
      exact this
  obtain ⟨i, hi, j, hj, hne⟩ := hex
  set q : Polynomial F := ∑ m ∈ Finset.range 11, Polynomial.C (k i m) * X ^ m with hq
  obtain ⟨bad, b1, b2⟩ := bad_of_coeff q j 10 (by
      rw [hq, Polynomial.finsetSum_coeff]
      simp only [Polynomial.coeff_C_mul_X_pow]
      rw [Finset.sum_ite_eq, if_pos (Finset.mem_range.mpr hj)]
      exact hne) (by
      apply Polynomial.natDegree_sum_le_of_forall_le
      intro m hm
      refine (Polynomial.natDegree_C_mul_X_pow_le _ _).trans ?_
      have := Finset.mem_range.mp hm; omega)
  refine ⟨bad, b1, fun α hα T => ⟨i, ?_⟩⟩
  rw [r1csPePolys, entries_blind_lt S _ (by omega) T _ i hi,
    r1csPe_entry_lt H K S ℓ h3 hKS _ _ _ _ _ _ _ _ _ _ _ _ _ _ _ _ _ i hi]
  have := b2 α hα
  intro h0
  apply this
  rw [hq, Polynomial.eval_finsetSum]
  simp only [Finset.sum_range_succ, Finset.sum_range_zero, Polynomial.eval_mul, Polynomial.eval_C,
    Polynomial.eval_pow, Polynomial.eval_X]
  simp only [hk]
  linear_combination h0

theorem r1csPeGPoly_natDegree (H K S ℓ B D : ℕ) (γ μ ν β α ω z y y1 y2 v : F)
    (Pu Pw Pv Py Y W P Cc Q R T H1 H2 : Polynomial F) (du : Pu.natDegree ≤ D) (dw : Pw.natDegree ≤ D)
    (dv : Pv.natDegree ≤ D) (dy : Py.natDegree ≤ D) (dY : Y.natDegree ≤ D) (dW : W.natDegree ≤ D)
    (dP : P.natDegree ≤ D) (dC : Cc.natDegree ≤ D)
    (dQ : Q.natDegree ≤ D) (dR : R.natDegree ≤ D) (dT : T.natDegree ≤ D) (d1 : H1.natDegree ≤ D)
    (d2 : H2.natDegree ≤ D) :
    (r1csPeGPoly H K S ℓ B γ μ ν β α ω z y y1 y2 v Pu Pw Pv Py Y W P Cc Q R T H1 H2).natDegree ≤ D := by
  have : (r1csPeGPoly H K S ℓ B γ μ ν β α ω z y y1 y2 v Pu Pw Pv Py Y W P Cc Q R T H1 H2).degree
      < ((D + 1 : ℕ) : WithBot ℕ) := by
    rw [r1csPeGPoly_eq]
    have t := fun {p : Polynomial F} (h : p.natDegree ≤ D) (a : F) =>
      degLt_C_mul (degLt_of_natDegree h) a
    exact degLt_add (degLt_add (degLt_add (degLt_add (degLt_add (degLt_add (degLt_add (degLt_add
      (degLt_add (degLt_add (degLt_add (degLt_add (degLt_add (degLt_C _ _ (by omega))
      (t dP _)) (t dQ _)) (t dC _)) (t dw _)) (t du _)) (t dy _)) (t dY _)) (t dW _)) (t dv _)) (t dR _))
      (t dT _)) (t d1 _)) (t d2 _)
  exact natDegree_of_degLt this le_rfl

set_option maxHeartbeats 1000000 in
/-- **C77.** Round-by-round soundness of `verify` against a prover whose group elements are
commitments to polynomials of degree at most `D` (the degree of the setup), for the key that `index`
builds.  Let the listed positions be inside the matrices, `S ≥ 3H`, `S ≥ K` and the powers of `γ`
that encode rows and columns distinct.  The statement is the instance cut or padded with zeros to
the number `ℓ` of public inputs of the system.  If `satisfy` does not accept the witness that can be
read off the committed `W` (entries of the instance beyond the first `ℓ` are added to it), then,
whatever polynomials and values the prover sends after each challenge, only few values of the next
challenge help: `3H - 1` of `μ`, `K - 1` of `ν`, one of `β`, 10 of `α`, `D + S` of `ω`,
`2D + 2S + |x|` of `z`, two of `ξ`, `D + 1` trapdoors `τ` and one value of the randomizer of
`batch_check`.  For all others `verify` rejects. -/
theorem C77_sound (cs : R1CS F) (hl : R1csLens cs) (H K S ℓ D : ℕ) (hH : H = cs.nrows)
    (hK : K = cs.ncols) (hS : S = (stackedPe cs).length) (hin : ℓ = cs.inputSize) (h1 : 1 ≤ H)
    (h3 : 3 * H ≤ S) (hKS : K ≤ S) (hℓ : ℓ + 1 ≤ K) (ra : InRange cs.a H K) (rb : InRange cs.b H K)
    (rc : InRange cs.c H K) (hD : 2 * H + S ≤ D) (γ : F)
    (hγ : ∀ i < max (3 * H) K, ∀ j < max (3 * H) K, γ ^ i = γ ^ j → i = j)
    (x : List F) (Y W : Polynomial F) (dY : Y.natDegree ≤ D) (dW : W.natDegree ≤ D)
    (hbad : cs.satisfy (fitTo ℓ x) (r1csPeRead K ℓ x W) ≠ .ok true) :
    ∃ badμ : Finset F, badμ.card ≤ 3 * H - 1 ∧ ∀ μ, μ ∉ badμ →
    ∀ P Cc : Polynomial F, P.natDegree ≤ D → Cc.natDegree ≤ D →
    ∃ badν : Finset F, badν.card ≤ K - 1 ∧ ∀ ν, ν ∉ badν →
    ∀ Q U : Polynomial F, Q.natDegree ≤ D → U.natDegree ≤ D →
    ∃ badβ : Finset F, badβ.card ≤ 1 ∧ ∀ β, β ∉ badβ →
    ∀ R : Polynomial F, R.natDegree ≤ D →
    ∃ badα : Finset F, badα.card ≤ 10 ∧ ∀ α, α ∉ badα →
    ∀ T : Polynomial F, T.natDegree ≤ D →
    ∃ badω : Finset F, badω.card ≤ D + S ∧ ∀ ω, ω ∉ badω →
    ∀ H1 H2 : Polynomial F, H1.natDegree ≤ D → H2.natDegree ≤ D →
    ∃ badz : Finset F, badz.card ≤ 2 * D + 2 * S + x.length ∧ ∀ z, z ∉ badz →
    ∀ y y1 y2 : F,
    ∃ badξ : Finset F, badξ.card ≤ 2 ∧ ∀ ξ, ξ ∉ badξ → ∀ ξ2,
    ∀ Q1 Q2 : Polynomial F, Q1.natDegree ≤ D → Q2.natDegree ≤ D →
    ∃ badτ : Finset F, badτ.card ≤ D + 1 ∧ ∀ τ, τ ∉ badτ → ∃ r0 : F,
    ∀ (env : Env F G1 G2 GT) (g : G1) (h : G2), env.rngU128 ≠ r0 → env.gamma = γ → g ≠ 0 →
    NonDegenerate env.e h →
    ∀ (pp : UniversalParams G1 G2), kzgSetup D τ g h = .ok pp →
    ∀ pk vk, r1csPeIndex γ pp cs = .ok (pk, vk) →
      let l := stackedPe cs
      let cm := fun p : Polynomial F => p.eval τ • g
      let it := fun p : Polynomial F => (Item.cm (cm p) : Item F G1)
      let pre := fun (first : F) (items : List (Item F G1)) =>
        [.fld first, .flds x, it (rowPoly γ l), it (colPoly γ l), it (valPoly l),
          it (rowColPoly γ l)] ++ items
      let G := r1csPeGPoly H K S ℓ (D + 1) γ μ ν β α ω z y y1 y2 ((polyOf x).eval z) (rowPoly γ l)
        (colPoly γ l) (valPoly l) (rowColPoly γ l) Y W P Cc Q R T H1 H2
      env.hash (pre 1 [it Y, it W]) = μ →
      env.hash (pre 1 [it Y, it W, it P, it Cc]) = ν →
      env.hash (pre 1 [it Y, it W, it P, it Cc, it Q, it U]) = β →
      env.hash (pre 1 [it Y, it W, it P, it Cc, it Q, it U, it R]) = α →
      env.hash (pre 1 [it Y, it W, it P, it Cc, it Q, it U, it R, it T]) = ω →
      env.hash (pre 1 [it Y, it W, it P, it Cc, it Q, it U, it R, it T, it H1, it H2]) = z →
      env.hash (pre 1 [it Y, it W, it P, it Cc, it Q, it U, it R, it T, it H1, it H2, it G,
        .fld (ω / z), .fld y, .fld y1, .fld y2, .fld z]) = ξ →
      env.hash (pre 2 [it Y, it W, it P, it Cc, it Q, it U, it R, it T, it H1, it H2, it G,
        .fld (ω / z), .fld y, .fld y1, .fld y2, .fld z]) = ξ2 →
      r1csPeVerify env vk x ⟨cm Y, cm W, cm P, cm Cc, cm Q, cm U, cm R, cm T, cm H1, cm H2, y, y1, y2,
          cm Q1, cm Q2⟩ ≠ .ok () := by
  subst hH hK hin
  set H := cs.nrows with hHd
  set K := cs.ncols with hKd
  set ℓ := cs.inputSize with hℓd
  have hbad' : ¬ R1CSHolds cs (fitTo ℓ x) (r1csPeRead K ℓ x W) := fun h =>
    hbad ((C24_satisfy cs _ _ (r1csPeRead_shape cs h1 hℓ ra rb rc x W)).1.mpr h)
  have hγ0 : γ ≠ 0 := by
    rintro rfl
    have := hγ 1 (by omega) 2 (by omega) (by simp)
    omega
  set l := stackedPe cs with hld
  have hSe : S = cs.a.rows.length + cs.b.rows.length + cs.c.rows.length :=
    hS.trans (stackedPe_facts cs hl).2.2.2.2
  have hS1 : 1 ≤ S := by omega
  have hSD : S ≤ D + 1 := by omega
  obtain ⟨badμ, m1, m2⟩ := r1csPe_chain_sound cs hl hℓ ra rb rc S hS h3 hKS γ
    (fun i hi j hj => hγ i (by omega) j (by omega)) (fun i hi j hj => hγ i (by omega) j (by omega)) x Y W
    hbad'
  refine ⟨badμ, m1, fun μ hμ P Cc dP dC => ?_⟩
  obtain ⟨badν, n1, n2⟩ := m2 μ hμ P Cc
  refine ⟨badν, n1, fun ν hν Q U dQ dU => ?_⟩
  obtain ⟨badβ, b1, b2⟩ := n2 ν hν Q U
  refine ⟨badβ, b1, fun β hβ R dR => ?_⟩
  obtain ⟨badα, a1, a2⟩ := r1csPe_alpha_sound H K S ℓ h1 h3 hKS γ μ ν β l x Y W P Cc Q U R (b2 β hβ)
  refine ⟨badα, a1, fun α hα T dT => ?_⟩
  have eY := degLt_of_natDegree dY
  have eW := degLt_of_natDegree dW
  have eP := degLt_of_natDegree dP
  have eC := degLt_of_natDegree dC
  have eQ := degLt_of_natDegree dQ
  have eU := degLt_of_natDegree dU
  have eR := degLt_of_natDegree dR
  have eT := degLt_of_natDegree dT
  have fu : (rowPoly γ l).degree < ((S + 1 : ℕ) : WithBot ℕ) := degree_map_lt _ _ _ (by omega)
  have fw : (colPoly γ l).degree < ((S + 1 : ℕ) : WithBot ℕ) := degree_map_lt _ _ _ (by omega)
  have fv : (valPoly l).degree < ((S + 1 : ℕ) : WithBot ℕ) := degree_map_lt _ _ _ (by omega)
  have fy : (rowColPoly γ l).degree < ((S + 1 : ℕ) : WithBot ℕ) := degree_map_lt _ _ _ (by omega)
  have fx : (polyOf x).degree < ((x.length : ℕ) : WithBot ℕ) := degree_polyOf_lt x
  set polys := r1csPePolys H K S ℓ γ μ ν β α (rowPoly γ l) (colPoly γ l) (valPoly l)
        (rowColPoly γ l) (polyOf x) Y W P Cc Q U R T with hpolys
  have hA : ∀ p ∈ polys, p.1.degree < ((D + S + 1 : ℕ) : WithBot ℕ) :=
    r1csPePolys_degA H K S ℓ D (D + S) γ μ ν β α _ _ _ _ _ Y W P Cc Q U R T h1 h3 hKS eY eC eU (by omega)
      (by omega)
  have hB : ∀ p ∈ polys, p.2.degree < ((D + S + x.length + 1 : ℕ) : WithBot ℕ) :=
    r1csPePolys_degB H K S ℓ D D x.length (D + S + x.length) γ μ ν β α _ _ _ _ _ Y W P Cc Q U R T h1 h3
      hKS eY eW eP eC eQ eR eT fx fu fw fv fy (by omega) (by omega) (by omega) (by omega)
      (by omega)
  obtain ⟨badω, o1, o2⟩ := C48_omega polys (D + S + 1) hA (a2 α hα T)
  refine ⟨badω, by omega, fun ω hω H1 H2 dH1 dH2 => ?_⟩
  obtain ⟨badz, z1, z2⟩ := C48_z polys ω (o2 ω hω) (D + 1) (D + S) (D + S + x.length) (by omega)
    hA hB H1 H2 (degLt_of_natDegree dH1) (degLt_mono (degLt_of_natDegree dH2) (by omega))
  refine ⟨badz, by omega, fun z hz y y1 y2 => ?_⟩
  by_cases hz3 : z = 0 ∨ z = 1 ∨ z = ω ∨ z = γ * ω
  · refine ⟨∅, by simp, fun ξ _ ξ2 Q1 Q2 _ _ => ⟨∅, by simp, ?_⟩⟩
    intro τ _
    refine ⟨0, ?_⟩
    intro env g h _ hγe hg hnd' pp hpp pk vk hidx l' cm it pre G e1 e2 e3 e4 e5 e6 e7 e8 hver
    obtain ⟨kvk, hvk, hidx'⟩ := r1csPeIndex_ok γ τ hγ0 g h D pp hpp cs hl S hSe hS1 hSD hD
    rw [hidx'] at hidx
    obtain ⟨-, rfl⟩ := Prod.mk.inj (Except.ok.inj hidx)
    have f1 : env.hash (r1csPrefix 1 x ((rowPoly γ l).eval τ • g) ((colPoly γ l).eval τ • g) ((valPoly l).eval τ • g)
      ((rowColPoly γ l).eval τ • g)
      ++ [.cm (cm Y), .cm (cm W)]) = μ := e1
    have f2 : env.hash (r1csPrefix 1 x ((rowPoly γ l).eval τ • g) ((colPoly γ l).eval τ • g) ((valPoly l).eval τ • g)
      ((rowColPoly γ l).eval τ • g)
      ++ [.cm (cm Y), .cm (cm W), .cm (cm P), .cm (cm Cc)]) = ν := e2
    have f3 : env.hash (r1csPrefix 1 x ((rowPoly γ l).eval τ • g) ((colPoly γ l).eval τ • g) ((valPoly l).eval τ • g)
      ((rowColPoly γ l).eval τ • g)
      ++ [.cm (cm Y), .cm (cm W), .cm (cm P), .cm (cm Cc), .cm (cm Q), .cm (cm U)]) = β := e3
    have f4 : env.hash (r1csPrefix 1 x ((rowPoly γ l).eval τ • g) ((colPoly γ l).eval τ • g) ((valPoly l).eval τ • g)
      ((rowColPoly γ l).eval τ • g)
      ++ [.cm (cm Y), .cm (cm W), .cm (cm P), .cm (cm Cc), .cm (cm Q), .cm (cm U), .cm (cm R)]) = α := e4
    have f5 : env.hash (r1csPrefix 1 x ((rowPoly γ l).eval τ • g) ((colPoly γ l).eval τ • g) ((valPoly l).eval τ • g)
      ((rowColPoly γ l).eval τ • g)
      ++ [.cm (cm Y), .cm (cm W), .cm (cm P), .cm (cm Cc), .cm (cm Q), .cm (cm U), .cm (cm R), .cm (cm T)]) = ω := e5
    have f6 : env.hash (r1csPrefix 1 x ((rowPoly γ l).eval τ • g) ((colPoly γ l).eval τ • g) ((valPoly l).eval τ • g)
      ((rowColPoly γ l).eval τ • g)
      ++ [.cm (cm Y), .cm (cm W), .cm (cm P), .cm (cm Cc), .cm (cm Q), .cm (cm U), .cm (cm R), .cm (cm T), .cm (cm H1), .cm (cm H2)]) = z := e6
    simp only [r1csPeVerify, ← hld, f1, f2, f3, f4, f5, f6, hγe, ← hHd, ← hKd, ← hℓd,
      r1csPeCoeffs_bad (D + 1) _ γ μ ν β α ω z _ _ _ _ hz3, bind, Except.bind] at hver
    cases hver
  · push Not at hz3
    obtain ⟨h0, hz1, hz2, hz3⟩ := hz3
    set G := r1csPeGPoly H K S ℓ (D + 1) γ μ ν β α ω z y y1 y2 ((polyOf x).eval z) (rowPoly γ l)
        (colPoly γ l) (valPoly l) (rowColPoly γ l) Y W P Cc Q R T H1 H2 with hG
    have hwrong : (∃ i, i < [U, Y, Cc].length ∧
        (([U, Y, Cc] : List (Polynomial F)).getD i 0).eval (ω / z) ≠ [y, y1, y2].getD i 0) ∨
        (∃ i, i < [G].length ∧ (([G] : List (Polynomial F)).getD i 0).eval z ≠ [(0 : F)].getD i 0) := by
      by_contra hc
      push Not at hc
      obtain ⟨c1, c2⟩ := hc
      have w0 : U.eval (ω / z) = y := c1 0 (by simp)
      have w1 : Y.eval (ω / z) = y1 := c1 1 (by simp)
      have w2 : Cc.eval (ω / z) = y2 := c1 2 (by simp)
      have g0 : G.eval z = 0 := c2 0 (by simp)
      rw [hG, ← w0, ← w1, ← w2, r1csPeG_eval] at g0
      exact z2 z hz h0 (sub_eq_zero.mp g0)
    have gu : (rowPoly γ l).natDegree ≤ D := natDegree_of_degLt fu (by omega)
    have gw : (colPoly γ l).natDegree ≤ D := natDegree_of_degLt fw (by omega)
    have gv : (valPoly l).natDegree ≤ D := natDegree_of_degLt fv (by omega)
    have gy : (rowColPoly γ l).natDegree ≤ D := natDegree_of_degLt fy (by omega)
    have dG : G.natDegree ≤ D := r1csPeGPoly_natDegree H K S ℓ (D + 1) D γ μ ν β α ω z y y1 y2 _ _ _ _ _
      Y W P Cc Q R T H1 H2 gu gw gv gy dY dW dP dC dQ dR dT dH1 dH2
    obtain ⟨badξ, badξ2, x1, x2, x3⟩ := batch_final (G1 := G1) (G2 := G2) (GT := GT) [U, Y, Cc] [G]
      [y, y1, y2] [0] rfl rfl (ω / z) z D (by
        intro f hf
        simp only [List.mem_cons, List.not_mem_nil, or_false] at hf
        rcases hf with rfl | rfl | rfl <;> assumption) (by
        intro f hf
        simp only [List.mem_cons, List.not_mem_nil, or_false] at hf
        rcases hf with rfl; exact dG) hwrong
    have hx2 : badξ2 = ∅ := Finset.card_eq_zero.mp (by simpa using x2)
    subst hx2
    refine ⟨badξ, by simpa using x1, fun ξ hξ ξ2 Q1 Q2 dQ1 dQ2 => ?_⟩
    obtain ⟨badτ, y1', y2'⟩ := x3 ξ hξ ξ2 (by simp) Q1 Q2 dQ1 dQ2
    refine ⟨badτ, y1', ?_⟩
    intro τ hτ
    obtain ⟨r0, hr0⟩ := y2' τ hτ
    refine ⟨r0, ?_⟩
    intro env g h hr hγe hg hnd' pp hpp pk vk hidx l' cm it pre G' e1 e2 e3 e4 e5 e6 e7 e8 hver
    obtain ⟨kvk, hvk, hidx'⟩ := r1csPeIndex_ok γ τ hγ0 g h D pp hpp cs hl S hSe hS1 hSD hD
    rw [hidx'] at hidx
    obtain ⟨-, rfl⟩ := Prod.mk.inj (Except.ok.inj hidx)
    have f1 : env.hash (r1csPrefix 1 x ((rowPoly γ l).eval τ • g) ((colPoly γ l).eval τ • g) ((valPoly l).eval τ • g)
      ((rowColPoly γ l).eval τ • g)
      ++ [.cm (cm Y), .cm (cm W)]) = μ := e1
    have f2 : env.hash (r1csPrefix 1 x ((rowPoly γ l).eval τ • g) ((colPoly γ l).eval τ • g) ((valPoly l).eval τ • g)
      ((rowColPoly γ l).eval τ • g)
      ++ [.cm (cm Y), .cm (cm W), .cm (cm P), .cm (cm Cc)]) = ν := e2
    have f3 : env.hash (r1csPrefix 1 x ((rowPoly γ l).eval τ • g) ((colPoly γ l).eval τ • g) ((valPoly l).eval τ • g)
      ((rowColPoly γ l).eval τ • g)
      ++ [.cm (cm Y), .cm (cm W), .cm (cm P), .cm (cm Cc), .cm (cm Q), .cm (cm U)]) = β := e3
    have f4 : env.hash (r1csPrefix 1 x ((rowPoly γ l).eval τ • g) ((colPoly γ l).eval τ • g) ((valPoly l).eval τ • g)
      ((rowColPoly γ l).eval τ • g)
      ++ [.cm (cm Y), .cm (cm W), .cm (cm P), .cm (cm Cc), .cm (cm Q), .cm (cm U), .cm (cm R)]) = α := e4
    have f5 : env.hash (r1csPrefix 1 x ((rowPoly γ l).eval τ • g) ((colPoly γ l).eval τ • g) ((valPoly l).eval τ • g)
      ((rowColPoly γ l).eval τ • g)
      ++ [.cm (cm Y), .cm (cm W), .cm (cm P), .cm (cm Cc), .cm (cm Q), .cm (cm U), .cm (cm R), .cm (cm T)]) = ω := e5
    have f6 : env.hash (r1csPrefix 1 x ((rowPoly γ l).eval τ • g) ((colPoly γ l).eval τ • g) ((valPoly l).eval τ • g)
      ((rowColPoly γ l).eval τ • g)
      ++ [.cm (cm Y), .cm (cm W), .cm (cm P), .cm (cm Cc), .cm (cm Q), .cm (cm U), .cm (cm R), .cm (cm T), .cm (cm H1), .cm (cm H2)]) = z := e6
    have f7 : env.hash (r1csPrefix 1 x ((rowPoly γ l).eval τ • g) ((colPoly γ l).eval τ • g) ((valPoly l).eval τ • g)
      ((rowColPoly γ l).eval τ • g)
      ++ r1csPeXiItems (cm Y) (cm W) (cm P) (cm Cc) (cm Q) (cm U) (cm R) (cm T) (cm H1) (cm H2) (cm G)
        (ω / z) y y1 y2 z) = ξ := e7
    have f8 : env.hash (r1csPrefix 2 x ((rowPoly γ l).eval τ • g) ((colPoly γ l).eval τ • g) ((valPoly l).eval τ • g)
      ((rowColPoly γ l).eval τ • g)
      ++ r1csPeXiItems (cm Y) (cm W) (cm P) (cm Cc) (cm Q) (cm U) (cm R) (cm T) (cm H1) (cm H2) (cm G)
        (ω / z) y y1 y2 z) = ξ2 := e8
    have hcmg : r1csPeCmG g (r1csPeK H K S ℓ (D + 1) γ μ ν β α ω z y y1 y2 ((polyOf x).eval z)) (cm P)
        (cm Q) (cm Cc)
        ((colPoly γ l).eval τ • g) ((rowPoly γ l).eval τ • g) ((rowColPoly γ l).eval τ • g) (cm Y) (cm W)
        ((valPoly l).eval τ • g) (cm R) (cm T) (cm H1) (cm H2) = cm G :=
      r1csPeK_eval H K S ℓ (D + 1) γ μ ν β α ω z y y1 y2 ((polyOf x).eval z) τ (rowPoly γ l) (colPoly γ l)
        (valPoly l) (rowColPoly γ l) Y W P Cc Q R T H1 H2 g
    have hvkg : kvk.g = g := hvk.1
    simp only [r1csPeVerify, ← hld, f1, f2, f3, f4, f5, f6, hγe, C12_vector, ← hHd, ← hKd, ← hℓd,
      r1csPeCoeffs_ok H K S ℓ (D + 1) ⟨H, K, cs.a.rows.length, cs.b.rows.length, cs.c.rows.length, ℓ⟩
        rfl rfl (by simp only [R1CSSize.total]; omega) rfl h1 h3 (by omega) hKS γ μ ν β α ω z _ _ _ _ h0
        hz1 hz2 hz3,
      bind, Except.bind] at hver
    simp only [hvkg, hcmg, divR_ok h0, f7, f8] at hver
    have hf := hr0 env.rngU128 hr env.e g hg h hnd' kvk hvk
    simp only [List.map_cons, List.map_nil] at hf
    rw [show batchCheck env.e kvk [cm U, cm Y, cm Cc] [cm G] (ω / z) z ξ ξ2 [y, y1, y2] [0] (cm Q1)
      (cm Q2) env.rngU128 = false from hf] at hver
    simp at hver

/-! ## C78: what `verify` checks -/

/-- **C78.** `verify` accepts iff the challenge `z` is none of `0`, `1`, `ω`, `γω` and the batched
opening equation holds for the commitments to `U`, `Y`, `Cc` at `ω/z` with the claimed values and for
the combination `r1csPeComb` of the commitments at `z` with value 0. -/
theorem C78_accepts_iff (env : Env F G1 G2 GT) (τ : F) (g : G1) (h : G2)
    (hnd : NonDegenerate env.e h) (vk : R1csPeVK G1 G2) (hvk : HonestVk τ g h vk.kzgVk) (S : ℕ)
    (hS : S = vk.size.adensity + vk.size.bdensity + vk.size.cdensity) (h1 : 1 ≤ vk.size.nrows)
    (h3 : 3 * vk.size.nrows ≤ S) (hK : 1 ≤ vk.size.ncols) (hKS : vk.size.ncols ≤ S) (x : List F)
    (π : R1csPeProof F G1) :
    let pre := fun (first : F) (items : List (Item F G1)) =>
      [.fld first, .flds x, .cm vk.cmU, .cm vk.cmW, .cm vk.cmV, .cm vk.cmY] ++ items
    let μ := env.hash (pre 1 [.cm π.cmY1, .cm π.cmW])
    let ν := env.hash (pre 1 [.cm π.cmY1, .cm π.cmW, .cm π.cmR, .cm π.cmC])
    let β := env.hash (pre 1 [.cm π.cmY1, .cm π.cmW, .cm π.cmR, .cm π.cmC, .cm π.cmRnu, .cm π.cmT])
    let α := env.hash (pre 1 [.cm π.cmY1, .cm π.cmW, .cm π.cmR, .cm π.cmC, .cm π.cmRnu, .cm π.cmT, .cm π.cmRt])
    let ω := env.hash (pre 1 [.cm π.cmY1, .cm π.cmW, .cm π.cmR, .cm π.cmC, .cm π.cmRnu, .cm π.cmT, .cm π.cmRt, .cm π.cmT1])
    let z := env.hash (pre 1 [.cm π.cmY1, .cm π.cmW, .cm π.cmR, .cm π.cmC, .cm π.cmRnu, .cm π.cmT, .cm π.cmRt, .cm π.cmT1, .cm π.cmH1, .cm π.cmH2])
    let cmG := r1csPeComb vk.size.nrows vk.size.ncols S vk.size.inputSize vk.degreeBound env.gamma μ ν
      β α ω z π.y π.y1 π.y2 ((polyOf x).eval z) g vk.cmU vk.cmW vk.cmV vk.cmY π.cmY1 π.cmW π.cmR π.cmC
      π.cmRnu π.cmRt π.cmT1 π.cmH1 π.cmH2
    let ξ := env.hash (pre 1 [.cm π.cmY1, .cm π.cmW, .cm π.cmR, .cm π.cmC, .cm π.cmRnu, .cm π.cmT, .cm π.cmRt, .cm π.cmT1, .cm π.cmH1, .cm π.cmH2,
      .cm cmG, .fld (ω / z), .fld π.y, .fld π.y1, .fld π.y2, .fld z])
    r1csPeVerify env vk x π = .ok () ↔
      z ≠ 0 ∧ z ≠ 1 ∧ z ≠ ω ∧ z ≠ env.gamma * ω ∧
      (π.cmT + ξ • π.cmY1 + ξ ^ 2 • π.cmC - (π.y + ξ * π.y1 + ξ ^ 2 * π.y2) • g
        - (τ - ω / z) • π.capW) + env.rngU128 • (cmG - (τ - z) • π.capW1) = 0 := by
  intro pre μ ν β α ω z cmG ξ
  have hvkg : vk.kzgVk.g = g := hvk.1
  have f1 : env.hash (r1csPrefix 1 x vk.cmU vk.cmW vk.cmV vk.cmY
    ++ [.cm π.cmY1, .cm π.cmW]) = μ := rfl
  have f2 : env.hash (r1csPrefix 1 x vk.cmU vk.cmW vk.cmV vk.cmY
    ++ [.cm π.cmY1, .cm π.cmW, .cm π.cmR, .cm π.cmC]) = ν := rfl
  have f3 : env.hash (r1csPrefix 1 x vk.cmU vk.cmW vk.cmV vk.cmY
    ++ [.cm π.cmY1, .cm π.cmW, .cm π.cmR, .cm π.cmC, .cm π.cmRnu, .cm π.cmT]) = β := rfl
  have f4 : env.hash (r1csPrefix 1 x vk.cmU vk.cmW vk.cmV vk.cmY
    ++ [.cm π.cmY1, .cm π.cmW, .cm π.cmR, .cm π.cmC, .cm π.cmRnu, .cm π.cmT, .cm π.cmRt]) = α := rfl
  have f5 : env.hash (r1csPrefix 1 x vk.cmU vk.cmW vk.cmV vk.cmY
    ++ [.cm π.cmY1, .cm π.cmW, .cm π.cmR, .cm π.cmC, .cm π.cmRnu, .cm π.cmT, .cm π.cmRt, .cm π.cmT1]) = ω := rfl
  have f6 : env.hash (r1csPrefix 1 x vk.cmU vk.cmW vk.cmV vk.cmY
    ++ [.cm π.cmY1, .cm π.cmW, .cm π.cmR, .cm π.cmC, .cm π.cmRnu, .cm π.cmT, .cm π.cmRt, .cm π.cmT1, .cm π.cmH1, .cm π.cmH2]) = z := rfl
  have f7 : env.hash (r1csPrefix 1 x vk.cmU vk.cmW vk.cmV vk.cmY
    ++ r1csPeXiItems π.cmY1 π.cmW π.cmR π.cmC π.cmRnu π.cmT π.cmRt π.cmT1 π.cmH1 π.cmH2 cmG
      (ω / z) π.y π.y1 π.y2 z) = ξ := rfl
  simp only [r1csPeVerify, f1, f2, f3, f4, f5, f6, C12_vector, bind, Except.bind]
  by_cases hb : z = 0 ∨ z = 1 ∨ z = ω ∨ z = env.gamma * ω
  · simp only [r1csPeCoeffs_bad vk.degreeBound vk.size env.gamma μ ν β α ω z _ _ _ _ hb]
    constructor
    · intro h; cases h
    · rintro ⟨q0, q1, q2, q3, -⟩
      rcases hb with h | h | h | h
      · exact absurd h q0
      · exact absurd h q1
      · exact absurd h q2
      · exact absurd h q3
  push Not at hb
  obtain ⟨h0, hz1, hz2, hz3⟩ := hb
  simp only [r1csPeCoeffs_ok vk.size.nrows vk.size.ncols S vk.size.inputSize vk.degreeBound vk.size rfl
    rfl hS.symm rfl h1 h3 hK hKS env.gamma μ ν β α ω z _ _ _ _ h0 hz1 hz2 hz3, hvkg, r1csPeComb_eq,
    divR_ok h0]
  rw [show r1csPeComb vk.size.nrows vk.size.ncols S vk.size.inputSize vk.degreeBound env.gamma μ ν
      β α ω z π.y π.y1 π.y2 ((polyOf x).eval z) g vk.cmU vk.cmW vk.cmV vk.cmY π.cmY1 π.cmW π.cmR π.cmC
      π.cmRnu π.cmRt π.cmT1 π.cmH1 π.cmH2 = cmG from rfl, f7]
  have hif : ∀ b : Bool, (if b then (.ok () : Res Unit) else .error .verificationFail) = .ok ()
      ↔ b = true := by intro b; cases b <;> simp
  rw [hif, C22_batch_iff env.e τ g h hnd vk.kzgVk hvk [π.cmT, π.cmY1, π.cmC] [cmG] [π.y, π.y1, π.y2] [0]
    rfl rfl]
  have e1 : combine ξ [π.cmT, π.cmY1, π.cmC] = π.cmT + ξ • π.cmY1 + ξ ^ 2 • π.cmC := by
    simp [combine, List.zipIdx, add_assoc]
  have e2 : combine ξ [π.y, π.y1, π.y2] = π.y + ξ * π.y1 + ξ ^ 2 * π.y2 := by
    simp [combine, List.zipIdx, add_assoc]
  have e3 : ∀ t : F, combine t [cmG] = cmG := by intro t; simp [combine, List.zipIdx]
  have e4 : ∀ t : F, combine t [(0 : F)] = 0 := by intro t; simp [combine, List.zipIdx]
  rw [e1, e2, e3, e4, zero_smul, sub_zero]
  constructor
  · intro h; exact ⟨h0, hz1, hz2, hz3, h⟩
  · rintro ⟨-, -, -, -, h⟩; exact h

/-! ## C79: forgery with a known randomizer -/

/-- **C79.** Universal forgery with a known randomizer: for every key and every instance, true or
false, and every choice of the commitments and values of a proof whose challenges satisfy
`z ∉ {0, 1, ω, γω}` and `z² ≠ ω`, the two opening proofs can be chosen (as a function of the known
randomizer, without the trapdoor) so that `verify` accepts. -/
theorem C79_forgery (env : Env F G1 G2 GT) (g : G1) (size : R1CSSize) (capD S : ℕ)
    (hS : S = size.adensity + size.bdensity + size.cdensity) (h1 : 1 ≤ size.nrows)
    (h3 : 3 * size.nrows ≤ S) (hK : 1 ≤ size.ncols) (hKS : size.ncols ≤ S) (x : List F)
    (vU vW vV vY cmY1 cmW cmR cmC cmRnu cmT cmRt cmT1 cmH1 cmH2 : G1) (y y1 y2 : F)
    (hr : env.rngU128 ≠ 0) :
    let pre := fun (first : F) (items : List (Item F G1)) =>
      [.fld first, .flds x, .cm vU, .cm vW, .cm vV, .cm vY] ++ items
    let ω := env.hash (pre 1 [.cm cmY1, .cm cmW, .cm cmR, .cm cmC, .cm cmRnu, .cm cmT, .cm cmRt, .cm cmT1])
    let z := env.hash (pre 1 [.cm cmY1, .cm cmW, .cm cmR, .cm cmC, .cm cmRnu, .cm cmT, .cm cmRt, .cm cmT1, .cm cmH1, .cm cmH2])
    z ≠ 0 → z ≠ 1 → z ≠ ω → z ≠ env.gamma * ω → z ^ 2 ≠ ω →
    ∃ capW capW1 : G1, ∀ (τ : F) (h : G2) (kvk : VerifierKey G1 G2), HonestVk τ g h kvk →
      r1csPeVerify env ⟨vU, vW, vV, vY, kvk, size, capD⟩ x
        ⟨cmY1, cmW, cmR, cmC, cmRnu, cmT, cmRt, cmT1, cmH1, cmH2, y, y1, y2, capW, capW1⟩ = .ok () := by
  intro pre ω z h0 hz1 hz2 hz3 hzz
  set μ := env.hash (pre 1 [.cm cmY1, .cm cmW]) with hμ
  set ν := env.hash (pre 1 [.cm cmY1, .cm cmW, .cm cmR, .cm cmC]) with hν
  set β := env.hash (pre 1 [.cm cmY1, .cm cmW, .cm cmR, .cm cmC, .cm cmRnu, .cm cmT]) with hβ
  set α := env.hash (pre 1 [.cm cmY1, .cm cmW, .cm cmR, .cm cmC, .cm cmRnu, .cm cmT, .cm cmRt]) with hα
  have f1 : env.hash (r1csPrefix 1 x vU vW vV vY
    ++ [.cm cmY1, .cm cmW]) = μ := rfl
  have f2 : env.hash (r1csPrefix 1 x vU vW vV vY
    ++ [.cm cmY1, .cm cmW, .cm cmR, .cm cmC]) = ν := rfl
  have f3 : env.hash (r1csPrefix 1 x vU vW vV vY
    ++ [.cm cmY1, .cm cmW, .cm cmR, .cm cmC, .cm cmRnu, .cm cmT]) = β := rfl
  have f4 : env.hash (r1csPrefix 1 x vU vW vV vY
    ++ [.cm cmY1, .cm cmW, .cm cmR, .cm cmC, .cm cmRnu, .cm cmT, .cm cmRt]) = α := rfl
  have f5 : env.hash (r1csPrefix 1 x vU vW vV vY
    ++ [.cm cmY1, .cm cmW, .cm cmR, .cm cmC, .cm cmRnu, .cm cmT, .cm cmRt, .cm cmT1]) = ω := rfl
  have f6 : env.hash (r1csPrefix 1 x vU vW vV vY
    ++ [.cm cmY1, .cm cmW, .cm cmR, .cm cmC, .cm cmRnu, .cm cmT, .cm cmRt, .cm cmT1, .cm cmH1, .cm cmH2]) = z := rfl
  set cmG := r1csPeComb size.nrows size.ncols S size.inputSize capD env.gamma μ ν β α ω z y y1 y2
    ((polyOf x).eval z) g vU vW vV vY cmY1 cmW cmR cmC cmRnu cmRt cmT1 cmH1 cmH2 with hcmG
  obtain ⟨w, w2, hw⟩ := C22_known_randomizer_forgery (G1 := G1) (G2 := G2) (GT := GT) g
    [cmT, cmY1, cmC] [cmG] [y, y1, y2] [0] (ω / z) z
    (env.hash (r1csPrefix 1 x vU vW vV vY
      ++ r1csPeXiItems cmY1 cmW cmR cmC cmRnu cmT cmRt cmT1 cmH1 cmH2 cmG (ω / z) y y1 y2 z))
    (env.hash (r1csPrefix 2 x vU vW vV vY
      ++ r1csPeXiItems cmY1 cmW cmR cmC cmRnu cmT cmRt cmT1 cmH1 cmH2 cmG (ω / z) y y1 y2 z))
    env.rngU128
    (by intro h; apply hzz; rw [div_eq_iff h0] at h; rw [h]; ring) hr
  refine ⟨w, w2, ?_⟩
  intro τ h kvk hvk
  have hvkg : kvk.g = g := hvk.1
  simp only [r1csPeVerify, f1, f2, f3, f4, f5, f6, C12_vector, divR_ok h0, bind, Except.bind,
    r1csPeCoeffs_ok size.nrows size.ncols S size.inputSize capD size rfl rfl hS.symm rfl h1 h3 hK hKS
      env.gamma μ ν β α ω z _ _ _ _ h0 hz1 hz2 hz3, hvkg, r1csPeComb_eq, ← hcmG]
  rw [if_pos (hw env.e τ h kvk hvk)]

/-! ## C80: the length of the instance is not checked -/

theorem degree_invPoly (n : ℕ) (γ μ : F) : (invPoly n γ μ).degree < ((n : ℕ) : WithBot ℕ) := by
  rw [Polynomial.degree_lt_iff_coeff_zero]
  intro m hm
  rw [coeff_invPoly, if_neg (by omega)]

theorem degree_colPolySum (K : ℕ) (γ μ : F) (l : List ((ℕ × ℕ) × F)) :
    (colPolySum K γ μ l).degree < ((K : ℕ) : WithBot ℕ) := by
  rw [Polynomial.degree_lt_iff_coeff_zero]
  intro m hm
  rw [coeff_colPolySum, if_neg (by omega)]

set_option maxHeartbeats 1000000 in
/-- **C80 (deviation).** `verify` does not check the length of the instance.  For every list `x` of
at most `D` field elements, whatever its length: if the list cut or padded with zeros to the number
`ℓ` of public inputs is a true instance, there are commitments and values (computed from the witness,
without the trapdoor) that `verify` accepts for `x` itself, whenever the challenges avoid the same
values as in an honest run. -/
theorem C80_instance_length (env : Env F G1 G2 GT) (hγ : env.gamma ≠ 0) (τ : F) (g : G1) (h : G2)
    (hnd : NonDegenerate env.e h) (D : ℕ) (pp : UniversalParams G1 G2)
    (hs : kzgSetup D τ g h = .ok pp) (cs : R1CS F) (hl : R1csLens cs) (H K S : ℕ)
    (hH : H = cs.nrows) (hK : K = cs.ncols) (hS : S = (stackedPe cs).length) (h3 : 3 * H ≤ S)
    (hKS : K ≤ S) (hD : 2 * H + S ≤ D) (hℓD : S + cs.inputSize + 1 ≤ D) (x : List F)
    (hx : x.length ≤ D)
    (w : List F) (hsh : R1CSShape cs (fitTo cs.inputSize x) w)
    (hsat : cs.satisfy (fitTo cs.inputSize x) w = .ok true) :
    ∃ pk vk, r1csPeIndex env.gamma pp cs = .ok (pk, vk) ∧
      let pre := fun (items : List (Item F G1)) =>
        [.fld 1, .flds x, .cm vk.cmU, .cm vk.cmW, .cm vk.cmV, .cm vk.cmY] ++ items
      ∃ cmY cmW : G1,
      let μ := env.hash (pre [.cm cmY, .cm cmW])
      (∀ i, i < 3 * H → μ ≠ env.gamma ^ i) →
      ∃ cmP cmC : G1,
      let ν := env.hash (pre [.cm cmY, .cm cmW, .cm cmP, .cm cmC])
      (∀ k, k < K → ν ≠ env.gamma ^ k) →
      ∃ cmQ cmU cmR cmT : G1,
      let ω := env.hash (pre [.cm cmY, .cm cmW, .cm cmP, .cm cmC, .cm cmQ, .cm cmU, .cm cmR, .cm cmT])
      ∃ cmH1 cmH2 : G1,
      let z := env.hash (pre [.cm cmY, .cm cmW, .cm cmP, .cm cmC, .cm cmQ, .cm cmU, .cm cmR, .cm cmT,
        .cm cmH1, .cm cmH2])
      z ≠ 0 → z ≠ 1 → z ≠ ω → z ≠ env.gamma * ω →
      ∃ (y y1 y2 : F) (capW capW1 : G1),
        r1csPeVerify env vk x ⟨cmY, cmW, cmP, cmC, cmQ, cmU, cmR, cmT, cmH1, cmH2, y, y1, y2, capW,
          capW1⟩ = .ok () := by
  subst hH hK
  have hholds := (C24_satisfy cs _ w hsh).1.mp hsat
  obtain ⟨s1, s2, s3, ra, rb, rc⟩ := id hsh
  have lf : (fitTo cs.inputSize x).length = cs.inputSize := by simp [fitTo]
  have hℓ : cs.inputSize + 1 ≤ cs.ncols := by omega
  have hSs : S = cs.a.rows.length + cs.b.rows.length + cs.c.rows.length :=
    hS.trans (stackedPe_facts cs hl).2.2.2.2
  obtain ⟨kvk, hvk, hidx⟩ := r1csPeIndex_ok env.gamma τ hγ g h D pp hs cs hl S hSs (by omega)
    (by omega) hD
  refine ⟨_, _, hidx, ?_⟩
  intro pre
  set l := stackedPe cs with hld
  set γ := env.gamma with hγd
  set H := cs.nrows with hHd
  set K := cs.ncols with hKd
  set ℓ := cs.inputSize with hℓd
  set Y := padPoly S (prodVec cs (fitTo ℓ x) w) 0 with hY
  set W := polyOf ((List.range (K - 1 - ℓ)).map (fun i => w.getD i 0 - x.getD (ℓ + i) 0)) with hW
  have hread : r1csPeRead K ℓ x W = w := by
    apply List.ext_getElem
    · simp [r1csPeRead]; omega
    intro i i1 i2
    have hi : i < K - 1 - ℓ := by simpa [r1csPeRead] using i1
    simp only [r1csPeRead, List.getElem_map, List.getElem_range, hW, coeff_polyOf]
    rw [List.getD_eq_getElem (List.map _ _) _ (by simpa using hi)]
    simp only [List.getElem_map, List.getElem_range]
    rw [List.getD_eq_getElem w _ i2]; ring
  have hfull : ∀ k, k < K → (fullPoly ℓ (polyOf x) W).coeff k = (1 :: (fitTo ℓ x ++ w)).getD k 0 := by
    intro k hk
    rw [← r1csPeRead_getD K ℓ hℓ x W k hk, hread]
  refine ⟨Y.eval τ • g, W.eval τ • g, ?_⟩
  intro μ hμ
  set P := invPoly (3 * H) γ μ with hP
  set Cc := colPolySum K γ μ l with hCc
  refine ⟨P.eval τ • g, Cc.eval τ • g, ?_⟩
  intro ν hν
  set Q := invPoly K γ ν with hQ
  set U := entryInvPoly γ μ ν l with hU
  set β := env.hash (pre [.cm (Y.eval τ • g), .cm (W.eval τ • g), .cm (P.eval τ • g), .cm (Cc.eval τ • g), .cm (Q.eval τ • g), .cm (U.eval τ • g)]) with hβ
  set R := partialPoly S (peTerm ℓ β (valPoly l) (polyOf x) Y W P Cc Q U) 0 with hR
  set α := env.hash (pre [.cm (Y.eval τ • g), .cm (W.eval τ • g), .cm (P.eval τ • g), .cm (Cc.eval τ • g), .cm (Q.eval τ • g), .cm (U.eval τ • g), .cm (R.eval τ • g)]) with hα
  set base := r1csPeBase H K S ℓ γ μ ν β α (rowPoly γ l) (colPoly γ l) (valPoly l)
          (rowColPoly γ l) (polyOf x) Y W P Cc Q U R with hbase
  set T := blindPoly S (2 * H + 1) 0 base with hT
  refine ⟨Q.eval τ • g, U.eval τ • g, R.eval τ • g, T.eval τ • g, ?_⟩
  intro ω
  have fu : (rowPoly γ l).degree < ((S + 1 : ℕ) : WithBot ℕ) := degree_map_lt _ _ _ (by omega)
  have fw : (colPoly γ l).degree < ((S + 1 : ℕ) : WithBot ℕ) := degree_map_lt _ _ _ (by omega)
  have fv : (valPoly l).degree < ((S + 1 : ℕ) : WithBot ℕ) := degree_map_lt _ _ _ (by omega)
  have fy : (rowColPoly γ l).degree < ((S + 1 : ℕ) : WithBot ℕ) := degree_map_lt _ _ _ (by omega)
  have fx : (polyOf x).degree < ((x.length : ℕ) : WithBot ℕ) := degree_polyOf_lt x
  have dY : Y.degree < ((S + 1 : ℕ) : WithBot ℕ) := by
    rw [hY, padPoly]
    refine degLt_add (degLt_mono (degree_polyOf_lt _) ?_) (degLt_C_mul (degLt_X_pow _ _ (by omega)) _)
    rw [length_prodVec]; omega
  have dW : W.degree < ((S + 1 : ℕ) : WithBot ℕ) := degLt_mono (degree_polyOf_lt _) (by simp; omega)
  have dP : P.degree < ((S + 1 : ℕ) : WithBot ℕ) := degLt_mono (degree_invPoly _ _ _) (by omega)
  have dQ : Q.degree < ((S + 1 : ℕ) : WithBot ℕ) := degLt_mono (degree_invPoly _ _ _) (by omega)
  have dC : Cc.degree < ((S + 1 : ℕ) : WithBot ℕ) := degLt_mono (degree_colPolySum _ _ _ _) (by omega)
  have dU : U.degree < ((S + 1 : ℕ) : WithBot ℕ) := degree_map_lt _ _ _ (by omega)
  have dR : R.degree < ((S + 1 : ℕ) : WithBot ℕ) := degree_partialPoly _ _ _
  have dT : T.degree < ((2 * H + 1 + 1 : ℕ) : WithBot ℕ) := by
    rw [Polynomial.degree_lt_iff_coeff_zero]
    intro k hk
    obtain ⟨i, rfl⟩ : ∃ i, k = i + 1 := ⟨k - 1, by omega⟩
    rw [hT, coeff_blindPoly_succ, if_neg (by omega)]
  set polys := r1csPePolys H K S ℓ γ μ ν β α (rowPoly γ l) (colPoly γ l) (valPoly l)
        (rowColPoly γ l) (polyOf x) Y W P Cc Q U R T with hpolys
  have hdA' : ∀ p ∈ polys, p.1.degree < ((2 * H + S + 1 : ℕ) : WithBot ℕ) :=
    r1csPePolys_degA H K S ℓ S _ γ μ ν β α _ _ _ _ _ Y W P Cc Q U R T s1 h3 hKS dY dC dU (by omega)
      (by omega)
  have hdA : ∀ p ∈ polys, p.1.degree < ((D + 1 : ℕ) : WithBot ℕ) :=
    fun p hp => degLt_mono (hdA' p hp) (by omega)
  have hdB : ∀ p ∈ polys, p.2.degree < ((D + 1 : ℕ) : WithBot ℕ) :=
    r1csPePolys_degB H K S ℓ S (2 * H + 1) x.length D γ μ ν β α _ _ _ _ _ Y W P Cc Q U R T
      s1 h3 hKS dY dW dP dC dQ dR dT fx fu fw fv fy (by omega) (by omega) (by omega) (by omega) (by omega)
  have hentry : ∀ i, hadamardEntry polys i = 0 := by
    apply entries_blind_zero _ _ (by omega)
    · intro i hi
      exact r1csPe_honest cs hl (fitTo ℓ x) w hsh hholds S hS h3 hKS ℓ (polyOf x) W hfull γ μ ν β α 0 0
        hμ hν i hi
    · intro i hi
      refine entry_zero_of_degA _ (2 * H + S + 1) ?_ i (by omega)
      intro p hp
      exact hdA' p (List.mem_append_left _ hp)
  obtain ⟨H1, H2, dH1, dH2, hH⟩ := C48_complete polys D (D + 1) (by omega) hdA hdB hentry ω
  refine ⟨H1.eval τ • g, H2.eval τ • g, ?_⟩
  intro z h0 hz1 hz2 hz3
  set G := r1csPeGPoly H K S ℓ (D + 1) γ μ ν β α ω z (U.eval (ω / z)) (Y.eval (ω / z)) (Cc.eval (ω / z))
    ((polyOf x).eval z) (rowPoly γ l) (colPoly γ l) (valPoly l) (rowColPoly γ l) Y W P Cc Q R T H1 H2
    with hG
  have hGz : G.eval z = 0 := by rw [hG, r1csPeG_eval, hH z h0, sub_self]
  have hcomb : r1csPeComb H K S ℓ (D + 1) γ μ ν β α ω z (U.eval (ω / z)) (Y.eval (ω / z))
      (Cc.eval (ω / z))
      ((polyOf x).eval z) g ((rowPoly γ l).eval τ • g) ((colPoly γ l).eval τ • g)
      ((valPoly l).eval τ • g) ((rowColPoly γ l).eval τ • g) (Y.eval τ • g) (W.eval τ • g)
      (P.eval τ • g) (Cc.eval τ • g)
      (Q.eval τ • g) (R.eval τ • g) (T.eval τ • g) (H1.eval τ • g) (H2.eval τ • g)
      = G.eval τ • g := by
    rw [← r1csPeComb_eq, r1csPeK_eval]
  set ξ := env.hash (pre [.cm (Y.eval τ • g), .cm (W.eval τ • g), .cm (P.eval τ • g), .cm (Cc.eval τ • g), .cm (Q.eval τ • g), .cm (U.eval τ • g), .cm (R.eval τ • g), .cm (T.eval τ • g), .cm (H1.eval τ • g), .cm (H2.eval τ • g),
    .cm (G.eval τ • g), .fld (ω / z), .fld (U.eval (ω / z)), .fld (Y.eval (ω / z)),
    .fld (Cc.eval (ω / z)), .fld z]) with hξ
  obtain ⟨q1, hq1⟩ := open_exists (U + Polynomial.C ξ * Y + Polynomial.C (ξ ^ 2) * Cc) (ω / z)
  obtain ⟨q2, hq2⟩ := open_exists G z
  refine ⟨U.eval (ω / z), Y.eval (ω / z), Cc.eval (ω / z), q1.eval τ • g, q2.eval τ • g, ?_⟩
  have hacc := C78_accepts_iff env τ g h hnd ⟨(rowPoly γ l).eval τ • g, (colPoly γ l).eval τ • g,
      (valPoly l).eval τ • g, (rowColPoly γ l).eval τ • g, kvk,
      ⟨H, K, cs.a.rows.length, cs.b.rows.length, cs.c.rows.length, ℓ⟩, D + 1⟩
    hvk S hSs s1 h3 s2 hKS x
    ⟨Y.eval τ • g, W.eval τ • g, P.eval τ • g, Cc.eval τ • g, Q.eval τ • g, U.eval τ • g, R.eval τ • g,
      T.eval τ • g, H1.eval τ • g,
      H2.eval τ • g, U.eval (ω / z), Y.eval (ω / z), Cc.eval (ω / z), q1.eval τ • g, q2.eval τ • g⟩
  refine hacc.mpr ⟨h0, hz1, hz2, hz3, ?_⟩
  have e1 := congrArg (Polynomial.eval τ) hq1
  have e2 := congrArg (Polynomial.eval τ) hq2
  simp only [Polynomial.eval_sub, Polynomial.eval_add, Polynomial.eval_mul, Polynomial.eval_C,
    Polynomial.eval_X, hGz, sub_zero] at e1 e2
  have key : ∀ (ξ' : F) (cmG : G1), ξ' = ξ → cmG = G.eval τ • g →
      U.eval τ • g + ξ' • Y.eval τ • g + ξ' ^ 2 • Cc.eval τ • g
        - (U.eval (ω / z) + ξ' * Y.eval (ω / z) + ξ' ^ 2 * Cc.eval (ω / z)) • g
        - (τ - ω / z) • q1.eval τ • g + env.rngU128 • (cmG - (τ - z) • q2.eval τ • g) = 0 := by
    rintro _ _ rfl rfl
    have t1 : U.eval τ • g + ξ • Y.eval τ • g + ξ ^ 2 • Cc.eval τ • g
        - (U.eval (ω / z) + ξ * Y.eval (ω / z) + ξ ^ 2 * Cc.eval (ω / z)) • g
        - (τ - ω / z) • q1.eval τ • g
        = (U.eval τ + ξ * Y.eval τ + ξ ^ 2 * Cc.eval τ
          - (U.eval (ω / z) + ξ * Y.eval (ω / z) + ξ ^ 2 * Cc.eval (ω / z))
          - (τ - ω / z) * q1.eval τ) • g := by module
    have t2 : G.eval τ • g - (τ - z) • q2.eval τ • g = (G.eval τ - (τ - z) * q2.eval τ) • g := by module
    rw [t1, t2, e1, e2, sub_self, sub_self]; simp
  refine key _ _ ?_ ?_
  · rw [hξ]
    exact congrArg env.hash (by rw [← hcomb])
  · exact hcomb

/-! Concrete cases for the hypotheses of C77-C80, over the field with 97 elements. -/

/-- Hypotheses of C77: the witness read off a polynomial is rejected. -/
example : cube97.satisfy (fitTo 1 [27]) (r1csPeRead 4 1 [27] (polyOf [3, 8, 0, 77])) ≠ .ok true := by
  have : r1csPeRead 4 1 [27] (polyOf ([3, 8, 0, 77] : List K97)) = [3, 8] := by
    simp [r1csPeRead, List.range_succ, coeff_polyOf]
  rw [this]
  decide +kernel

/-- The forgery of C79 applies to a false instance. -/
example : ∃ capW capW1 : K97, ∀ (τ : K97) (h : K97) (kvk : VerifierKey K97 K97),
    HonestVk τ 1 h kvk →
      r1csPeVerify env97 ⟨7, 8, 9, 10, kvk, ⟨2, 4, 2, 2, 2, 1⟩, 31⟩ [26]
        ⟨1, 1, 1, 1, 1, 1, 1, 1, 1, 1, 2, 3, 4, capW, capW1⟩ = .ok () :=
  C79_forgery env97 (1 : K97) ⟨2, 4, 2, 2, 2, 1⟩ 31 6 (by decide) (by decide) (by decide) (by decide)
    (by decide) [26] 7 8 9 10 1 1 1 1 1 1 1 1 1 1 2 3 4 (by decide +kernel)
    (by decide +kernel) (by decide +kernel) (by decide +kernel) (by decide +kernel) (by decide +kernel)

/-- Hypotheses of C80 for an instance with two entries too many, which `satisfy` itself does not
accept. -/
example : cube97.satisfy (fitTo 1 [27, 50, 60]) [3, 9] = .ok true ∧
    cube97.satisfy [27, 50, 60] [3, 9] ≠ .ok true ∧ (stackedPe cube97).length + 1 + 1 ≤ 30 := by
  refine ⟨?_, ?_, ?_⟩ <;> decide +kernel

end VO
