import Verif.Props.HprSnark
import Verif.Props.R1csSnarkSound

/-
Soundness of the HPR SNARK model (`Model/HprSnark`, `/repo/voproof/src/snarks/voproof_hpr.rs`).
-/

set_option linter.unusedSectionVars false

namespace VO
open Spec
open Polynomial (X)

variable {F : Type} [Field F] [DecidableEq F]
variable {G1 G2 GT : Type}
variable [AddCommGroup G1] [AddCommGroup G2] [AddCommGroup GT]
variable [Module F G1] [Module F G2] [Module F GT]
variable [DecidableEq G1] [DecidableEq G2] [DecidableEq GT]

/-! ## Reading the witness -/

theorem length_hprRead (K j : ℕ) (W : Polynomial F) : (hprRead K j W).length = K := by
  simp [hprRead]

theorem hprRead_getD (K j : ℕ) (W : Polynomial F) (i : ℕ) (hi : i < K) :
    (hprRead K j W).getD i 0 = W.coeff (j * K + i) := by
  rw [hprRead, List.getD_eq_getElem _ _ (by simpa using hi)]; simp

theorem hprRead_all (K : ℕ) (W : Polynomial F) (k : ℕ) (hk : k < 3 * K) :
    (hprRead K 0 W ++ hprRead K 1 W ++ hprRead K 2 W).getD k 0 = W.coeff k := by
  have l0 := length_hprRead K 0 W
  have l1 := length_hprRead K 1 W
  by_cases h1 : k < K
  · rw [List.getD_append _ _ _ _ (by simp [l0, l1]; omega), List.getD_append _ _ _ _ (by omega),
      hprRead_getD _ _ _ _ h1]
    congr 1; omega
  by_cases h2 : k < 2 * K
  · rw [List.getD_append _ _ _ _ (by simp [l0, l1]; omega),
      List.getD_append_right _ _ _ _ (by omega), l0, hprRead_getD _ _ _ _ (by omega)]
    congr 1; omega
  · rw [List.getD_append_right _ _ _ _ (by simp [l0, l1]; omega), List.length_append, l0, l1,
      hprRead_getD _ _ _ _ (by omega)]
    congr 1; omega

theorem hprRead_shape (cs : HPR F) (hH : 0 < cs.nrows) (hK : 0 < cs.ncols)
    (ra : InRange cs.a cs.nrows cs.ncols)
    (rb : InRange cs.b cs.nrows cs.ncols) (rc : InRange cs.c cs.nrows cs.ncols)
    (rd : ∀ p ∈ cs.drows.zip cs.dvals, p.1 < cs.nrows) (x : List F) (hx : x.length ≤ cs.nrows)
    (W : Polynomial F) :
    HPRShape cs x (hprRead cs.ncols 0 W) (hprRead cs.ncols 1 W) (hprRead cs.ncols 2 W) :=
  ⟨hH, hK, length_hprRead _ _ _, length_hprRead _ _ _, length_hprRead _ _ _, ra, rb, rc, rd, hx⟩

/-- If the entries of the assignment polynomial satisfy the equations of the argument, the relation
holds for the witness that is read off `W`. -/
theorem hpr_holds_of_coeffs (cs : HPR F) (hl : HprLens cs)
    (ra : InRange cs.a cs.nrows cs.ncols)
    (rb : InRange cs.b cs.nrows cs.ncols) (rc : InRange cs.c cs.nrows cs.ncols)
    (x : List F) (hx : x.length ≤ cs.nrows) (W : Polynomial F)
    (h5 : ∀ j, j < cs.ncols → W.coeff j * W.coeff (cs.ncols + j) = W.coeff (2 * cs.ncols + j))
    (hM : ∀ i, i < cs.nrows → (hprAsg cs.nrows (polyOf x) W).coeff i
      = ∑ j ∈ Finset.range (3 * cs.ncols + 1), entryOf (joined cs) i j
        * (hprAsg cs.nrows (polyOf x) W).coeff (cs.nrows + j)) :
    HPRHolds cs x (hprRead cs.ncols 0 W) (hprRead cs.ncols 1 W) (hprRead cs.ncols 2 W) := by
  obtain ⟨a1, a2, a3⟩ := coeff_hprAsg cs.nrows (polyOf x) W
    (degLt_mono (degree_polyOf_lt x) hx)
  refine ⟨fun j hj => ?_, fun i hi => ?_⟩
  · rw [hprRead_getD _ _ _ _ hj, hprRead_getD _ _ _ _ hj, hprRead_getD _ _ _ _ hj, zero_mul,
      zero_add, one_mul, h5 j hj]
  · rw [← joined_mul cs hl ra rb rc _ _ _ (length_hprRead _ _ _) (length_hprRead _ _ _)
      (length_hprRead _ _ _) i]
    have h := hM i hi
    rw [a1 i hi, coeff_polyOf] at h
    rw [h]
    apply Finset.sum_congr rfl
    intro k hk
    have hk := Finset.mem_range.mp hk
    congr 1
    cases k with
    | zero => simpa using a2.symm
    | succ k =>
      rw [show cs.nrows + (k + 1) = cs.nrows + 1 + k by ring, a3, List.getD_cons_succ,
        hprRead_all _ _ _ (by omega)]

/-! ## The argument -/

/-- The equations of the argument other than the sum. -/
def HprEqs (H K S : ℕ) (γ μ ν : F) (l : List ((ℕ × ℕ) × F)) (W P Q : Polynomial F) : Prop :=
  (∀ i, i < H → (μ - γ ^ i) * P.coeff i = 1) ∧
  (∀ i, i < 3 * K + 1 → (ν - γ ^ i) * Q.coeff i = 1) ∧
  (∀ i, H + (3 * K + 1) ≤ i → i < 3 * K + 1 + S → P.coeff i = 0) ∧
  (∀ j, j < S → Q.coeff (3 * K + 1 + j) * ((rowColPoly γ l).coeff j - μ * (colPoly γ l).coeff j
    - ν * (rowPoly γ l).coeff j + μ * ν) = 1) ∧
  (∀ j, j < K → W.coeff j * W.coeff (K + j) = W.coeff (2 * K + j))

theorem hpr_chain_sound (cs : HPR F) (hl : HprLens cs)
    (ra : InRange cs.a cs.nrows cs.ncols)
    (rb : InRange cs.b cs.nrows cs.ncols) (rc : InRange cs.c cs.nrows cs.ncols)
    (rd : ∀ p ∈ cs.drows.zip cs.dvals, p.1 < cs.nrows) (S : ℕ)
    (hS : S = (joined cs).length) (h3 : cs.nrows ≤ S) (γ : F)
    (hγn : ∀ i < cs.nrows, ∀ j < cs.nrows, γ ^ i = γ ^ j → i = j)
    (hγK : ∀ i < 3 * cs.ncols + 1, ∀ j < 3 * cs.ncols + 1, γ ^ i = γ ^ j → i = j) (x : List F)
    (hx : x.length ≤ cs.nrows) (W : Polynomial F)
    (hbad : ¬ HPRHolds cs x (hprRead cs.ncols 0 W) (hprRead cs.ncols 1 W) (hprRead cs.ncols 2 W)) :
    ∃ badμ : Finset F, badμ.card ≤ cs.nrows - 1 ∧ ∀ μ, μ ∉ badμ → ∀ P : Polynomial F,
    ∃ badν : Finset F, badν.card ≤ 3 * cs.ncols + 1 - 1 ∧ ∀ ν, ν ∉ badν → ∀ Q : Polynomial F,
    ∃ badβ : Finset F, badβ.card ≤ 1 ∧ ∀ β, β ∉ badβ →
      HprEqs cs.nrows cs.ncols S γ μ ν (joined cs) W P Q →
      ∑ j ∈ Finset.range (3 * cs.ncols + 1 + S),
        linTerm cs.nrows (3 * cs.ncols + 1) β (valPoly (joined cs)) (hprAsg cs.nrows (polyOf x) W)
          P Q j ≠ 0 := by
  have hr := joined_range cs ra rb rc rd
  set l := joined cs with hld
  set H := cs.nrows with hHd
  set N := 3 * cs.ncols + 1 with hNd
  set A := hprAsg H (polyOf x) W with hA
  obtain ⟨bm, b1, b2⟩ := lincheck_sound H N γ hγn hγK
    (fun i => A.coeff i - ∑ j ∈ Finset.range N, entryOf l i j * A.coeff (H + j))
    (¬ (∀ j, j < cs.ncols → W.coeff j * W.coeff (cs.ncols + j) = W.coeff (2 * cs.ncols + j)))
    (fun h => by
      intro h5
      exact hbad (hpr_holds_of_coeffs cs hl ra rb rc x hx W h5
        (fun i hi => sub_eq_zero.mp (h i hi))))
  refine ⟨bm, b1, fun μ hμ P => ?_⟩
  obtain ⟨bn, b3, b4⟩ := b2 μ hμ (fun k => P.coeff (H + k) + colSum γ μ l k)
  refine ⟨bn, b3, fun ν hν Q => ?_⟩
  set Dv := ∑ k ∈ Finset.range N, (P.coeff (H + k) + colSum γ μ l k) * (ν - γ ^ k)⁻¹ with hDv
  set Ev := ∑ i ∈ Finset.range (H), A.coeff i * (μ - γ ^ i)⁻¹
    + ∑ k ∈ Finset.range N, A.coeff (H + k) * P.coeff (H + k) with hEv
  have hb := b4 ν hν
  refine ⟨{Ev / Dv}, by simp, fun β hβ heq hsum => ?_⟩
  obtain ⟨q1, q2, q3, q4, q5⟩ := heq
  have n1 : ∀ i, i < H → μ ≠ γ ^ i := by
    intro i hi h
    have := q1 i hi
    rw [h, sub_self, zero_mul] at this
    exact zero_ne_one this
  have n2 : ∀ i, i < N → ν ≠ γ ^ i := by
    intro i hi h
    have := q2 i hi
    rw [h, sub_self, zero_mul] at this
    exact zero_ne_one this
  have p1 : ∀ i, i < H → P.coeff i = (μ - γ ^ i)⁻¹ :=
    fun i hi => (inv_eq_of_mul_eq_one_right (q1 i hi)).symm
  have p2 : ∀ i, i < N → Q.coeff i = (ν - γ ^ i)⁻¹ :=
    fun i hi => (inv_eq_of_mul_eq_one_right (q2 i hi)).symm
  have p4 : ∀ j, j < S → Q.coeff (N + j)
      = (l.map (fun e => ((μ - γ ^ e.1.1) * (ν - γ ^ e.1.2))⁻¹)).getD j 0 := by
    intro j hj
    have h := q4 j hj
    rw [rowColPoly, colPoly, rowPoly, coeff_polyOf, coeff_polyOf, coeff_polyOf,
      List.getD_eq_getElem _ _ (by simpa [hS] using hj),
      List.getD_eq_getElem _ _ (by simpa [hS] using hj),
      List.getD_eq_getElem _ _ (by simpa [hS] using hj)] at h
    rw [List.getD_eq_getElem _ _ (by simpa [hS] using hj)]
    simp only [List.getElem_map] at h ⊢
    symm
    apply inv_eq_of_mul_eq_one_right
    rw [← h]; ring
  rw [linTerm_sum H N S h3 γ μ ν β l hS.symm hr A P Q p1 p2 q3 p4, ← hDv, ← hEv] at hsum
  by_cases hD0 : Dv = 0
  · refine hb n1 n2 hD0 (fun hc => ?_) q5
    rw [hD0, mul_zero, sub_zero] at hsum
    have hd := colSum_dot γ μ l H N hr (fun k => A.coeff (H + k))
    have he : ∑ k ∈ Finset.range N, A.coeff (H + k) * P.coeff (H + k)
        = - ∑ k ∈ Finset.range N, A.coeff (H + k) * colSum γ μ l k := by
      rw [← Finset.sum_neg_distrib]
      apply Finset.sum_congr rfl
      intro k hk
      have := hc k (Finset.mem_range.mp hk)
      rw [eq_neg_of_add_eq_zero_left this]; ring
    rw [hEv, he, hd] at hsum
    simp only [sub_mul, Finset.sum_sub_distrib]
    linear_combination hsum
  · apply hβ
    rw [Finset.mem_singleton, eq_div_iff hD0]
    linear_combination -hsum

/-- Given violated equations, few values of `α` make every entry vanish, whatever `R` is. -/
theorem hpr_alpha_sound (H K S : ℕ) (h3 : H ≤ S)
    (γ μ ν β : F) (l : List ((ℕ × ℕ) × F)) (V W P Q R : Polynomial F)
    (hbad : HprEqs H K S γ μ ν l W P Q →
      ∑ j ∈ Finset.range (3 * K + 1 + S),
        linTerm H (3 * K + 1) β (valPoly l) (hprAsg H V W) P Q j ≠ 0) :
    ∃ bad : Finset F, bad.card ≤ 7 ∧ ∀ α, α ∉ bad → ∀ T,
      ∃ i, hadamardEntry (hprPolys H K S γ μ ν β α (rowPoly γ l) (colPoly γ l) (valPoly l)
        (rowColPoly γ l) V W P Q R T) i ≠ 0 := by
  set A := hprAsg H V W with hA
  set k : ℕ → ℕ → F := fun i j => match j with
    | 0 => if i < H then (μ - γ ^ i) * P.coeff i - 1 else 0
    | 1 => if i < 3 * K + 1 then (ν - γ ^ i) * Q.coeff i - 1 else 0
    | 2 => if H + (3 * K + 1) ≤ i then P.coeff i else 0
    | 4 => if 3 * K + 1 ≤ i then Q.coeff i * ((rowColPoly γ l).coeff (i - (3 * K + 1))
          - μ * (colPoly γ l).coeff (i - (3 * K + 1))
          - ν * (rowPoly γ l).coeff (i - (3 * K + 1)) + μ * ν) - 1 else 0
    | 5 => if 2 * K + 1 + S ≤ i then W.coeff (i - (2 * K + 1 + S))
          * W.coeff (i - (K + 1 + S)) - W.coeff (i - (1 + S)) else 0
    | 6 => linTerm H (3 * K + 1) β (valPoly l) A P Q i
          - (R.coeff i - if i = 0 then 0 else R.coeff (i - 1))
    | 7 => if i = 3 * K + S then R.coeff i else 0
    | _ => 0 with hk
  have hex : ∃ i, i < 3 * K + 1 + S ∧ ∃ j, j < 8 ∧ k i j ≠ 0 := by
    by_contra hc
    push Not at hc
    refine hbad ⟨?_, ?_, ?_, ?_, ?_⟩ ?_
    · intro i hi
      have := hc i (by omega) 0 (by omega)
      simp only [hk] at this
      rw [if_pos hi] at this
      exact sub_eq_zero.mp this
    · intro i hi
      have := hc i (by omega) 1 (by omega)
      simp only [hk] at this
      rw [if_pos hi] at this
      exact sub_eq_zero.mp this
    · intro i hi hi2
      have := hc i hi2 2 (by omega)
      simp only [hk] at this
      rwa [if_pos hi] at this
    · intro j hj
      have := hc (3 * K + 1 + j) (by omega) 4 (by omega)
      simp only [hk] at this
      rw [if_pos (by omega), Nat.add_sub_cancel_left] at this
      exact sub_eq_zero.mp this
    · intro j hj
      have := hc (2 * K + 1 + S + j) (by omega) 5 (by omega)
      simp only [hk] at this
      rw [if_pos (by omega), show 2 * K + 1 + S + j - (2 * K + 1 + S) = j by omega,
        show 2 * K + 1 + S + j - (K + 1 + S) = K + j by omega,
        show 2 * K + 1 + S + j - (1 + S) = 2 * K + j by omega] at this
      exact sub_eq_zero.mp this
    · have hR : ∀ i, i < 3 * K + 1 + S → R.coeff i
          = ∑ j ∈ Finset.range (i + 1), linTerm H (3 * K + 1) β (valPoly l) A P Q j := by
        intro i
        induction i with
        | zero =>
          intro hi
          have := hc 0 hi 6 (by omega)
          simp only [hk, if_true, sub_zero] at this
          simpa using (sub_eq_zero.mp this).symm
        | succ i ih =>
          intro hi
          have := hc (i + 1) hi 6 (by omega)
          simp only [hk] at this
          rw [if_neg (by omega), Nat.add_sub_cancel, ih (by omega)] at this
          rw [Finset.sum_range_succ]
          linear_combination -this
      have := hc (3 * K + S) (by omega) 7 (by omega)
      simp only [hk, if_true] at this
      rw [hR _ (by omega), show 3 * K + S + 1 = 3 * K + 1 + S by omega] at this
      exact this
  obtain ⟨i, hi, j, hj, hne⟩ := hex
  set q : Polynomial F := ∑ m ∈ Finset.range 8, Polynomial.C (k i m) * X ^ m with hq
  obtain ⟨bad, b1, b2⟩ := bad_of_coeff q j 7 (by
      rw [hq, Polynomial.finsetSum_coeff]
      simp only [Polynomial.coeff_C_mul_X_pow]
      rw [Finset.sum_ite_eq, if_pos (Finset.mem_range.mpr hj)]
      exact hne) (by
      apply Polynomial.natDegree_sum_le_of_forall_le
      intro m hm
      refine (Polynomial.natDegree_C_mul_X_pow_le _ _).trans ?_
      have := Finset.mem_range.mp hm; omega)
  refine ⟨bad, b1, fun α hα T => ⟨i, ?_⟩⟩
  rw [hprPolys, entries_blind_lt (3 * K + 1 + S) _ (by omega) T _ i hi,
    hpr_entry_lt H K S h3 _ _ _ _ _ _ _ _ _ _ _ _ _ _ i hi]
  have := b2 α hα
  intro h0
  apply this
  rw [hq, Polynomial.eval_finsetSum]
  simp only [Finset.sum_range_succ, Finset.sum_range_zero, Polynomial.eval_mul, Polynomial.eval_C,
    Polynomial.eval_pow, Polynomial.eval_X]
  simp only [hk]
  linear_combination h0

theorem hprGPoly_natDegree (H K S B D : ℕ) (γ μ ν β α ω z y y1 v : F)
    (Pu Pw Pv Py A P Q R T H1 H2 : Polynomial F) (du : Pu.natDegree ≤ D) (dw : Pw.natDegree ≤ D)
    (dv : Pv.natDegree ≤ D) (dy : Py.natDegree ≤ D) (dA : A.natDegree ≤ D) (dP : P.natDegree ≤ D)
    (dQ : Q.natDegree ≤ D) (dR : R.natDegree ≤ D) (dT : T.natDegree ≤ D) (d1 : H1.natDegree ≤ D)
    (d2 : H2.natDegree ≤ D) :
    (hprGPoly H K S B γ μ ν β α ω z y y1 v Pu Pw Pv Py A P Q R T H1 H2).natDegree ≤ D := by
  have : (hprGPoly H K S B γ μ ν β α ω z y y1 v Pu Pw Pv Py A P Q R T H1 H2).degree
      < ((D + 1 : ℕ) : WithBot ℕ) := by
    rw [hprGPoly_eq]
    have t := fun {p : Polynomial F} (h : p.natDegree ≤ D) (a : F) =>
      degLt_C_mul (degLt_of_natDegree h) a
    exact degLt_add (degLt_add (degLt_add (degLt_add (degLt_add (degLt_add (degLt_add (degLt_add
      (degLt_add (degLt_add (degLt_add (degLt_C _ _ (by omega))
      (t dP _)) (t dQ _)) (t dw _)) (t du _)) (t dy _)) (t dA _)) (t dv _)) (t dR _)) (t dT _))
      (t d1 _)) (t d2 _)
  exact natDegree_of_degLt this le_rfl

set_option maxHeartbeats 1000000 in
/-- **C62.** Round-by-round soundness of `verify` against a prover whose group elements are
commitments to polynomials of degree at most `D` (the degree of the setup), for the key that `index`
builds.  Let the listed positions be inside the matrices, `|B| + |C| = 2|A|`, `S ≥ H`, the powers of
`γ` that encode rows and columns distinct and the instance at most as long as the number of rows.  If
`satisfy` does not accept the witness that can be read off the coefficients of the committed `W`,
then, whatever polynomials and values the prover sends after each challenge, only few values of the
next challenge help: `H - 1` of `μ`, `3K` of `ν`, one of `β`, 7 of `α`, `D + 2K + S + 1` of `ω`,
`2D + 5K + 2S + 2` of `z`, one of `ξ`, `D + 1` trapdoors `τ` and one value of the randomizer of
`batch_check`.  For all others `verify` rejects. -/
theorem C62_sound (cs : HPR F) (hl : HprLens cs)
    (hBC : cs.b.rows.length + cs.c.rows.length = 2 * cs.a.rows.length) (H K S D : ℕ)
    (hH : H = cs.nrows)
    (hK : K = cs.ncols) (hS : S = (joined cs).length) (h1 : 1 ≤ H)
    (h3 : H ≤ S) (hk1 : 1 ≤ K) (ra : InRange cs.a H K) (rb : InRange cs.b H K)
    (rc : InRange cs.c H K) (rd : ∀ p ∈ cs.drows.zip cs.dvals, p.1 < H)
    (hD : 5 * K + 2 * S + 2 ≤ D) (γ : F)
    (hγ : ∀ i < max H (3 * K + 1), ∀ j < max H (3 * K + 1), γ ^ i = γ ^ j → i = j)
    (x : List F) (hx : x.length ≤ H) (W : Polynomial F) (dW : W.natDegree ≤ D)
    (hbad : cs.satisfy x (hprRead K 0 W) (hprRead K 1 W) (hprRead K 2 W) ≠ .ok true) :
    ∃ badμ : Finset F, badμ.card ≤ H - 1 ∧ ∀ μ, μ ∉ badμ →
    ∀ P : Polynomial F, P.natDegree ≤ D →
    ∃ badν : Finset F, badν.card ≤ 3 * K ∧ ∀ ν, ν ∉ badν →
    ∀ Q : Polynomial F, Q.natDegree ≤ D →
    ∃ badβ : Finset F, badβ.card ≤ 1 ∧ ∀ β, β ∉ badβ →
    ∀ R : Polynomial F, R.natDegree ≤ D →
    ∃ badα : Finset F, badα.card ≤ 7 ∧ ∀ α, α ∉ badα →
    ∀ T : Polynomial F, T.natDegree ≤ D →
    ∃ badω : Finset F, badω.card ≤ D + 2 * K + S + 1 ∧ ∀ ω, ω ∉ badω →
    ∀ H1 H2 : Polynomial F, H1.natDegree ≤ D → H2.natDegree ≤ D →
    ∃ badz : Finset F, badz.card ≤ 2 * D + 5 * K + 2 * S + 2 ∧ ∀ z, z ∉ badz →
    ∀ y y1 : F,
    ∃ badξ : Finset F, badξ.card ≤ 1 ∧ ∀ ξ, ξ ∉ badξ → ∀ ξ2,
    ∀ Q1 Q2 : Polynomial F, Q1.natDegree ≤ D → Q2.natDegree ≤ D →
    ∃ badτ : Finset F, badτ.card ≤ D + 1 ∧ ∀ τ, τ ∉ badτ → ∃ r0 : F,
    ∀ (env : Env F G1 G2 GT) (g : G1) (h : G2), env.rngU128 ≠ r0 → env.gamma = γ → g ≠ 0 →
    NonDegenerate env.e h →
    ∀ (pp : UniversalParams G1 G2), kzgSetup D τ g h = .ok pp →
    ∀ pk vk, hprIndex γ pp cs = .ok (pk, vk) →
      let l := joined cs
      let cm := fun p : Polynomial F => p.eval τ • g
      let it := fun p : Polynomial F => (Item.cm (cm p) : Item F G1)
      let pre := fun (first : F) (items : List (Item F G1)) =>
        [.fld first, .flds x, it (rowPoly γ l), it (colPoly γ l), it (valPoly l),
          it (rowColPoly γ l)] ++ items
      let G := hprGPoly H K S (D + 1) γ μ ν β α ω z y y1 ((polyOf x).eval (ω / z)) (rowPoly γ l)
        (colPoly γ l) (valPoly l) (rowColPoly γ l) W P Q R T H1 H2
      env.hash (pre 1 [it W]) = μ →
      env.hash (pre 1 [it W, it P]) = ν →
      env.hash (pre 1 [it W, it P, it Q]) = β →
      env.hash (pre 1 [it W, it P, it Q, it R]) = α →
      env.hash (pre 1 [it W, it P, it Q, it R, it T]) = ω →
      env.hash (pre 1 [it W, it P, it Q, it R, it T, it H1, it H2]) = z →
      env.hash (pre 1 [it W, it P, it Q, it R, it T, it H1, it H2, it G, .fld (ω / z), .fld y,
        .fld y1, .fld z]) = ξ →
      env.hash (pre 2 [it W, it P, it Q, it R, it T, it H1, it H2, it G, .fld (ω / z), .fld y,
        .fld y1, .fld z]) = ξ2 →
      hprVerify env vk x ⟨cm W, cm P, cm Q, cm R, cm T, cm H1, cm H2, y, y1, cm Q1, cm Q2⟩
          ≠ .ok () := by
  subst hH hK
  set H := cs.nrows with hHd
  set K := cs.ncols with hKd
  have hbad' : ¬ HPRHolds cs x (hprRead K 0 W) (hprRead K 1 W) (hprRead K 2 W) := fun h =>
    hbad ((C25_satisfy cs _ _ _ _ (hprRead_shape cs h1 hk1 ra rb rc rd x hx W)).1.mpr h)
  have hγ0 : γ ≠ 0 := by
    rintro rfl
    have := hγ 1 (by omega) 2 (by omega) (by simp)
    omega
  set l := joined cs with hld
  have hS1 : 1 ≤ S := by omega
  have hTot : (⟨H, K, cs.a.rows.length, cs.a.rows.length, cs.a.rows.length, cs.drows.length,
      cs.inputSize⟩ : HPRSize).total = S := by
    have := (joined_facts cs hl).2.2.2.2
    rw [← hld] at this
    simp only [HPRSize.total]; omega
  have hSD : S ≤ D + 1 := by omega
  obtain ⟨badμ, m1, m2⟩ := hpr_chain_sound cs hl ra rb rc rd S hS h3 γ
    (fun i hi j hj => hγ i (by omega) j (by omega)) (fun i hi j hj => hγ i (by omega) j (by omega))
    x hx W
    hbad'
  refine ⟨badμ, m1, fun μ hμ P dP => ?_⟩
  obtain ⟨badν, n1, n2⟩ := m2 μ hμ P
  refine ⟨badν, n1, fun ν hν Q dQ => ?_⟩
  obtain ⟨badβ, b1, b2⟩ := n2 ν hν Q
  refine ⟨badβ, b1, fun β hβ R dR => ?_⟩
  obtain ⟨badα, a1, a2⟩ := hpr_alpha_sound H K S h3 γ μ ν β l (polyOf x) W P Q R (b2 β hβ)
  refine ⟨badα, a1, fun α hα T dT => ?_⟩
  have eW := degLt_of_natDegree dW
  have eP := degLt_of_natDegree dP
  have eQ := degLt_of_natDegree dQ
  have eR := degLt_of_natDegree dR
  have eT := degLt_of_natDegree dT
  have fu : (rowPoly γ l).degree < ((S + 1 : ℕ) : WithBot ℕ) := degree_map_lt _ _ _ (by omega)
  have fw : (colPoly γ l).degree < ((S + 1 : ℕ) : WithBot ℕ) := degree_map_lt _ _ _ (by omega)
  have fv : (valPoly l).degree < ((S + 1 : ℕ) : WithBot ℕ) := degree_map_lt _ _ _ (by omega)
  have fy : (rowColPoly γ l).degree < ((S + 1 : ℕ) : WithBot ℕ) := degree_map_lt _ _ _ (by omega)
  have fx : (polyOf x).degree < ((H + 1 : ℕ) : WithBot ℕ) :=
    degLt_mono (degree_polyOf_lt x) (by omega)
  set polys := hprPolys H K S γ μ ν β α (rowPoly γ l) (colPoly γ l) (valPoly l)
        (rowColPoly γ l) (polyOf x) W P Q R T with hpolys
  have hA : ∀ p ∈ polys, p.1.degree < ((D + 2 * K + S + 1 + 1 : ℕ) : WithBot ℕ) :=
    hprPolys_degA H K S D D H (D + 2 * K + S + 1) γ μ ν β α _ _ _ _ _ W P Q R T h1 h3 fx eW eQ
      (by omega) (by omega) (by omega) (by omega) (by omega)
  have hB : ∀ p ∈ polys, p.2.degree < ((D + 3 * K + S + 1 + 1 : ℕ) : WithBot ℕ) :=
    hprPolys_degB H K S D D D (D + 3 * K + S + 1) γ μ ν β α _ _ _ _ _ W P Q R T h1 h3
      eW eP eQ (degLt_mono eR (by omega)) eT fu fw fv fy (by omega) (by omega) (by omega) (by omega)
  obtain ⟨badω, o1, o2⟩ := C48_omega polys (D + 2 * K + S + 1 + 1) hA (a2 α hα T)
  refine ⟨badω, by omega, fun ω hω H1 H2 dH1 dH2 => ?_⟩
  obtain ⟨badz, z1, z2⟩ := C48_z polys ω (o2 ω hω) (D + 1) (D + 2 * K + S + 1) (D + 3 * K + S + 1)
    (by omega) hA hB H1 H2 (degLt_of_natDegree dH1) (degLt_mono (degLt_of_natDegree dH2) (by omega))
  refine ⟨badz, by omega, fun z hz y y1 => ?_⟩
  by_cases hz3 : z = 0 ∨ z = 1 ∨ z = ω ∨ z = γ * ω
  · refine ⟨∅, by simp, fun ξ _ ξ2 Q1 Q2 _ _ => ⟨∅, by simp, ?_⟩⟩
    intro τ _
    refine ⟨0, ?_⟩
    intro env g h _ hγe hg hnd' pp hpp pk vk hidx l' cm it pre G e1 e2 e3 e4 e5 e6 e7 e8 hver
    obtain ⟨kvk, hvk, hidx'⟩ := hprIndex_ok γ τ hγ0 g h D pp hpp cs hl S hS hBC hS1 hSD hD
    rw [hidx'] at hidx
    obtain ⟨-, rfl⟩ := Prod.mk.inj (Except.ok.inj hidx)
    have f1 : env.hash (r1csPrefix 1 x ((rowPoly γ l).eval τ • g) ((colPoly γ l).eval τ • g) ((valPoly l).eval τ • g)
      ((rowColPoly γ l).eval τ • g) ++ [.cm (cm W)]) = μ := e1
    have f2 : env.hash (r1csPrefix 1 x ((rowPoly γ l).eval τ • g) ((colPoly γ l).eval τ • g) ((valPoly l).eval τ • g)
      ((rowColPoly γ l).eval τ • g) ++ [.cm (cm W), .cm (cm P)]) = ν := e2
    have f3 : env.hash (r1csPrefix 1 x ((rowPoly γ l).eval τ • g) ((colPoly γ l).eval τ • g) ((valPoly l).eval τ • g)
      ((rowColPoly γ l).eval τ • g) ++ [.cm (cm W), .cm (cm P), .cm (cm Q)]) = β := e3
    have f4 : env.hash (r1csPrefix 1 x ((rowPoly γ l).eval τ • g) ((colPoly γ l).eval τ • g) ((valPoly l).eval τ • g)
      ((rowColPoly γ l).eval τ • g) ++ [.cm (cm W), .cm (cm P), .cm (cm Q), .cm (cm R)]) = α := e4
    have f5 : env.hash (r1csPrefix 1 x ((rowPoly γ l).eval τ • g) ((colPoly γ l).eval τ • g) ((valPoly l).eval τ • g)
      ((rowColPoly γ l).eval τ • g) ++ [.cm (cm W), .cm (cm P), .cm (cm Q), .cm (cm R), .cm (cm T)]) = ω := e5
    have f6 : env.hash (r1csPrefix 1 x ((rowPoly γ l).eval τ • g) ((colPoly γ l).eval τ • g) ((valPoly l).eval τ • g)
      ((rowColPoly γ l).eval τ • g) ++ [.cm (cm W), .cm (cm P), .cm (cm Q), .cm (cm R), .cm (cm T),
      .cm (cm H1), .cm (cm H2)]) = z := e6
    simp only [hprVerify, ← hld, f1, f2, f3, f4, f5, f6, hγe, ← hHd, ← hKd,
      hprCoeffs_bad (D + 1) _ γ μ ν β α ω z _ _ _ hz3, bind, Except.bind] at hver
    cases hd : divR ω z <;> rw [hd] at hver <;> cases hver
  · push Not at hz3
    obtain ⟨h0, hz1, hz2, hz3⟩ := hz3
    set G := hprGPoly H K S (D + 1) γ μ ν β α ω z y y1 ((polyOf x).eval (ω / z)) (rowPoly γ l)
        (colPoly γ l) (valPoly l) (rowColPoly γ l) W P Q R T H1 H2 with hG
    have hwrong : (∃ i, i < [Q, W].length ∧
        (([Q, W] : List (Polynomial F)).getD i 0).eval (ω / z) ≠ [y, y1].getD i 0) ∨
        (∃ i, i < [G].length ∧ (([G] : List (Polynomial F)).getD i 0).eval z ≠ [(0 : F)].getD i 0) := by
      by_contra hc
      push Not at hc
      obtain ⟨c1, c2⟩ := hc
      have w0 : Q.eval (ω / z) = y := c1 0 (by simp)
      have w1 : W.eval (ω / z) = y1 := c1 1 (by simp)
      have g0 : G.eval z = 0 := c2 0 (by simp)
      rw [hG, ← w0, ← w1, hprG_eval] at g0
      exact z2 z hz h0 (sub_eq_zero.mp g0)
    have gu : (rowPoly γ l).natDegree ≤ D := natDegree_of_degLt fu (by omega)
    have gw : (colPoly γ l).natDegree ≤ D := natDegree_of_degLt fw (by omega)
    have gv : (valPoly l).natDegree ≤ D := natDegree_of_degLt fv (by omega)
    have gy : (rowColPoly γ l).natDegree ≤ D := natDegree_of_degLt fy (by omega)
    have dG : G.natDegree ≤ D := hprGPoly_natDegree H K S (D + 1) D γ μ ν β α ω z y y1 _ _ _ _ _ W P
      Q R T H1 H2 gu gw gv gy dW dP dQ dR dT dH1 dH2
    obtain ⟨badξ, badξ2, x1, x2, x3⟩ := batch_final (G1 := G1) (G2 := G2) (GT := GT) [Q, W] [G]
      [y, y1] [0] rfl rfl (ω / z) z D (by
        intro f hf
        simp only [List.mem_cons, List.not_mem_nil, or_false] at hf
        rcases hf with rfl | rfl <;> assumption) (by
        intro f hf
        simp only [List.mem_cons, List.not_mem_nil, or_false] at hf
        rcases hf with rfl; exact dG) hwrong
    have hx2 : badξ2 = ∅ := Finset.card_eq_zero.mp (by simpa using x2)
    subst hx2
    refine ⟨badξ, by simpa using x1, fun ξ hξ ξ2 Q1 Q2 dQ1 dQ2 => ?_⟩
    obtain ⟨badτ, y1', y2'⟩ := x3 ξ hξ ξ2 (by simp) Q1 Q2 dQ1 dQ2
    refine ⟨badτ, y1', ?_⟩
    intro τ hτ
    obtain ⟨r0, hr0⟩ := y2' τ hτ
    refine ⟨r0, ?_⟩
    intro env g h hr hγe hg hnd' pp hpp pk vk hidx l' cm it pre G' e1 e2 e3 e4 e5 e6 e7 e8 hver
    obtain ⟨kvk, hvk, hidx'⟩ := hprIndex_ok γ τ hγ0 g h D pp hpp cs hl S hS hBC hS1 hSD hD
    rw [hidx'] at hidx
    obtain ⟨-, rfl⟩ := Prod.mk.inj (Except.ok.inj hidx)
    have f1 : env.hash (r1csPrefix 1 x ((rowPoly γ l).eval τ • g) ((colPoly γ l).eval τ • g) ((valPoly l).eval τ • g)
      ((rowColPoly γ l).eval τ • g) ++ [.cm (cm W)]) = μ := e1
    have f2 : env.hash (r1csPrefix 1 x ((rowPoly γ l).eval τ • g) ((colPoly γ l).eval τ • g) ((valPoly l).eval τ • g)
      ((rowColPoly γ l).eval τ • g) ++ [.cm (cm W), .cm (cm P)]) = ν := e2
    have f3 : env.hash (r1csPrefix 1 x ((rowPoly γ l).eval τ • g) ((colPoly γ l).eval τ • g) ((valPoly l).eval τ • g)
      ((rowColPoly γ l).eval τ • g) ++ [.cm (cm W), .cm (cm P), .cm (cm Q)]) = β := e3
    have f4 : env.hash (r1csPrefix 1 x ((rowPoly γ l).eval τ • g) ((colPoly γ l).eval τ • g) ((valPoly l).eval τ • g)
      ((rowColPoly γ l).eval τ • g) ++ [.cm (cm W), .cm (cm P), .cm (cm Q), .cm (cm R)]) = α := e4
    have f5 : env.hash (r1csPrefix 1 x ((rowPoly γ l).eval τ • g) ((colPoly γ l).eval τ • g) ((valPoly l).eval τ • g)
      ((rowColPoly γ l).eval τ • g) ++ [.cm (cm W), .cm (cm P), .cm (cm Q), .cm (cm R), .cm (cm T)]) = ω := e5
    have f6 : env.hash (r1csPrefix 1 x ((rowPoly γ l).eval τ • g) ((colPoly γ l).eval τ • g) ((valPoly l).eval τ • g)
      ((rowColPoly γ l).eval τ • g) ++ [.cm (cm W), .cm (cm P), .cm (cm Q), .cm (cm R), .cm (cm T),
      .cm (cm H1), .cm (cm H2)]) = z := e6
    have f7 : env.hash (r1csPrefix 1 x ((rowPoly γ l).eval τ • g) ((colPoly γ l).eval τ • g) ((valPoly l).eval τ • g)
      ((rowColPoly γ l).eval τ • g) ++ r1csXiItems (cm W) (cm P) (cm Q) (cm R) (cm T) (cm H1) (cm H2) (cm G)
      (ω / z) y y1 z) = ξ := e7
    have f8 : env.hash (r1csPrefix 2 x ((rowPoly γ l).eval τ • g) ((colPoly γ l).eval τ • g) ((valPoly l).eval τ • g)
      ((rowColPoly γ l).eval τ • g) ++ r1csXiItems (cm W) (cm P) (cm Q) (cm R) (cm T) (cm H1) (cm H2) (cm G)
      (ω / z) y y1 z) = ξ2 := e8
    have hcmg : r1csCmG g (hprK H K S (D + 1) γ μ ν β α ω z y y1 ((polyOf x).eval (ω / z))) (cm P) (cm Q)
        ((colPoly γ l).eval τ • g) ((rowPoly γ l).eval τ • g) ((rowColPoly γ l).eval τ • g) (cm W)
        ((valPoly l).eval τ • g) (cm R) (cm T) (cm H1) (cm H2) = cm G :=
      hprK_eval H K S (D + 1) γ μ ν β α ω z y y1 ((polyOf x).eval (ω / z)) τ (rowPoly γ l) (colPoly γ l)
        (valPoly l) (rowColPoly γ l) W P Q R T H1 H2 g
    have hvkg : kvk.g = g := hvk.1
    simp only [hprVerify, ← hld, f1, f2, f3, f4, f5, f6, hγe, C12_vector, ← hHd, ← hKd,
      divR_ok h0, hprCoeffs_ok H K S (D + 1) ⟨H, K, cs.a.rows.length, cs.a.rows.length,
        cs.a.rows.length, cs.drows.length, cs.inputSize⟩ rfl rfl hTot h1 h3 hk1 γ μ ν β α ω z _ _ _ h0 hz1 hz2 hz3,
      bind, Except.bind] at hver
    simp only [hvkg, hcmg, f7, f8] at hver
    have hf := hr0 env.rngU128 hr env.e g hg h hnd' kvk hvk
    simp only [List.map_cons, List.map_nil] at hf
    rw [show batchCheck env.e kvk [cm Q, cm W] [cm G] (ω / z) z ξ ξ2 [y, y1] [0] (cm Q1)
      (cm Q2) env.rngU128 = false from hf] at hver
    simp at hver

/-! ## C63: what `verify` checks -/

/-- **C63.** `verify` accepts iff the challenge `z` is none of `0`, `1`, `ω`, `γω` and the batched
opening equation holds for the commitments `Q`, `W` at `ω/z` with the claimed values and for the
combination `hprComb` of the commitments at `z` with value 0. -/
theorem C63_accepts_iff (env : Env F G1 G2 GT) (τ : F) (g : G1) (h : G2)
    (hnd : NonDegenerate env.e h) (vk : HprVK G1 G2) (hvk : HonestVk τ g h vk.kzgVk) (S : ℕ)
    (hS : S = vk.size.adensity + vk.size.bdensity + vk.size.cdensity + vk.size.ddensity) (h1 : 1 ≤ vk.size.nrows)
    (h3 : vk.size.nrows ≤ S) (hk : 1 ≤ vk.size.ncols) (x : List F)
    (π : HprProof F G1) :
    let pre := fun (first : F) (items : List (Item F G1)) =>
      [.fld first, .flds x, .cm vk.cmU, .cm vk.cmW, .cm vk.cmV, .cm vk.cmY] ++ items
    let μ := env.hash (pre 1 [.cm π.cmW1])
    let ν := env.hash (pre 1 [.cm π.cmW1, .cm π.cmS])
    let β := env.hash (pre 1 [.cm π.cmW1, .cm π.cmS, .cm π.cmH])
    let α := env.hash (pre 1 [.cm π.cmW1, .cm π.cmS, .cm π.cmH, .cm π.cmR])
    let ω := env.hash (pre 1 [.cm π.cmW1, .cm π.cmS, .cm π.cmH, .cm π.cmR, .cm π.cmT])
    let z := env.hash (pre 1 [.cm π.cmW1, .cm π.cmS, .cm π.cmH, .cm π.cmR, .cm π.cmT, .cm π.cmH2,
      .cm π.cmH3])
    let cmG := hprComb vk.size.nrows vk.size.ncols S vk.degreeBound env.gamma μ ν
      β α ω z π.y π.y1 ((polyOf x).eval (ω / z)) g vk.cmU vk.cmW vk.cmV vk.cmY π.cmW1 π.cmS π.cmH π.cmR
      π.cmT π.cmH2 π.cmH3
    let ξ := env.hash (pre 1 [.cm π.cmW1, .cm π.cmS, .cm π.cmH, .cm π.cmR, .cm π.cmT, .cm π.cmH2,
      .cm π.cmH3, .cm cmG, .fld (ω / z), .fld π.y, .fld π.y1, .fld z])
    hprVerify env vk x π = .ok () ↔
      z ≠ 0 ∧ z ≠ 1 ∧ z ≠ ω ∧ z ≠ env.gamma * ω ∧
      (π.cmH + ξ • π.cmW1 - (π.y + ξ * π.y1) • g - (τ - ω / z) • π.capW)
        + env.rngU128 • (cmG - (τ - z) • π.capW1) = 0 := by
  intro pre μ ν β α ω z cmG ξ
  have hvkg : vk.kzgVk.g = g := hvk.1
  have f1 : env.hash (r1csPrefix 1 x vk.cmU vk.cmW vk.cmV vk.cmY ++ [.cm π.cmW1]) = μ := rfl
  have f2 : env.hash (r1csPrefix 1 x vk.cmU vk.cmW vk.cmV vk.cmY ++ [.cm π.cmW1, .cm π.cmS]) = ν := rfl
  have f3 : env.hash (r1csPrefix 1 x vk.cmU vk.cmW vk.cmV vk.cmY
    ++ [.cm π.cmW1, .cm π.cmS, .cm π.cmH]) = β := rfl
  have f4 : env.hash (r1csPrefix 1 x vk.cmU vk.cmW vk.cmV vk.cmY
    ++ [.cm π.cmW1, .cm π.cmS, .cm π.cmH, .cm π.cmR]) = α := rfl
  have f5 : env.hash (r1csPrefix 1 x vk.cmU vk.cmW vk.cmV vk.cmY
    ++ [.cm π.cmW1, .cm π.cmS, .cm π.cmH, .cm π.cmR, .cm π.cmT]) = ω := rfl
  have f6 : env.hash (r1csPrefix 1 x vk.cmU vk.cmW vk.cmV vk.cmY
    ++ [.cm π.cmW1, .cm π.cmS, .cm π.cmH, .cm π.cmR, .cm π.cmT, .cm π.cmH2, .cm π.cmH3]) = z := rfl
  have f7 : env.hash (r1csPrefix 1 x vk.cmU vk.cmW vk.cmV vk.cmY
    ++ r1csXiItems π.cmW1 π.cmS π.cmH π.cmR π.cmT π.cmH2 π.cmH3 cmG (ω / z) π.y π.y1 z) = ξ := rfl
  simp only [hprVerify, f1, f2, f3, f4, f5, f6, C12_vector, bind, Except.bind]
  by_cases hb : z = 0 ∨ z = 1 ∨ z = ω ∨ z = env.gamma * ω
  · simp only [hprCoeffs_bad vk.degreeBound vk.size env.gamma μ ν β α ω z _ _ _ hb]
    constructor
    · intro h; cases hd : divR ω z <;> rw [hd] at h <;> cases h
    · rintro ⟨q0, q1, q2, q3, -⟩
      rcases hb with h | h | h | h
      · exact absurd h q0
      · exact absurd h q1
      · exact absurd h q2
      · exact absurd h q3
  push Not at hb
  obtain ⟨h0, hz1, hz2, hz3⟩ := hb
  simp only [hprCoeffs_ok vk.size.nrows vk.size.ncols S vk.degreeBound vk.size rfl
    rfl hS.symm h1 h3 hk env.gamma μ ν β α ω z _ _ _ h0 hz1 hz2 hz3, hvkg, hprComb_eq, divR_ok h0]
  rw [show hprComb vk.size.nrows vk.size.ncols S vk.degreeBound env.gamma μ ν
      β α ω z π.y π.y1 ((polyOf x).eval (ω / z)) g vk.cmU vk.cmW vk.cmV vk.cmY π.cmW1 π.cmS π.cmH π.cmR
      π.cmT π.cmH2 π.cmH3 = cmG from rfl, f7]
  have hif : ∀ b : Bool, (if b then (.ok () : Res Unit) else .error .verificationFail) = .ok ()
      ↔ b = true := by intro b; cases b <;> simp
  rw [hif, C22_batch_iff env.e τ g h hnd vk.kzgVk hvk [π.cmH, π.cmW1] [cmG] [π.y, π.y1] [0] rfl rfl]
  have e1 : combine ξ [π.cmH, π.cmW1] = π.cmH + ξ • π.cmW1 := by
    simp [combine, List.zipIdx]
  have e2 : combine ξ [π.y, π.y1] = π.y + ξ * π.y1 := by
    simp [combine, List.zipIdx]
  have e3 : ∀ t : F, combine t [cmG] = cmG := by intro t; simp [combine, List.zipIdx]
  have e4 : ∀ t : F, combine t [(0 : F)] = 0 := by intro t; simp [combine, List.zipIdx]
  rw [e1, e2, e3, e4, zero_smul, sub_zero]
  constructor
  · intro h; exact ⟨h0, hz1, hz2, hz3, h⟩
  · rintro ⟨-, -, -, -, h⟩; exact h

/-! ## C64: forgery with a known randomizer -/

/-- **C64.** Universal forgery of HPR proofs with a known randomizer: for every key and every
instance, true or false, and every choice of the commitments and values of a proof whose challenges
satisfy `z ∉ {0, 1, ω, γω}` and `z² ≠ ω`, the two opening proofs can be chosen (as a function of the
known randomizer, without the trapdoor) so that `verify` accepts. -/
theorem C64_forgery (env : Env F G1 G2 GT) (g : G1) (size : HPRSize) (capD S : ℕ)
    (hS : S = size.adensity + size.bdensity + size.cdensity + size.ddensity) (h1 : 1 ≤ size.nrows)
    (h3 : size.nrows ≤ S) (hk : 1 ≤ size.ncols) (x : List F)
    (cmU cmW cmV cmY cmW1 cmS cmH cmR cmT cmH2 cmH3 : G1) (y y1 : F) (hr : env.rngU128 ≠ 0) :
    let pre := fun (first : F) (items : List (Item F G1)) =>
      [.fld first, .flds x, .cm cmU, .cm cmW, .cm cmV, .cm cmY] ++ items
    let ω := env.hash (pre 1 [.cm cmW1, .cm cmS, .cm cmH, .cm cmR, .cm cmT])
    let z := env.hash (pre 1 [.cm cmW1, .cm cmS, .cm cmH, .cm cmR, .cm cmT, .cm cmH2, .cm cmH3])
    z ≠ 0 → z ≠ 1 → z ≠ ω → z ≠ env.gamma * ω → z ^ 2 ≠ ω →
    ∃ capW capW1 : G1, ∀ (τ : F) (h : G2) (kvk : VerifierKey G1 G2), HonestVk τ g h kvk →
      hprVerify env ⟨cmU, cmW, cmV, cmY, kvk, size, capD⟩ x
        ⟨cmW1, cmS, cmH, cmR, cmT, cmH2, cmH3, y, y1, capW, capW1⟩ = .ok () := by
  intro pre ω z h0 hz1 hz2 hz3 hzz
  set μ := env.hash (pre 1 [.cm cmW1]) with hμ
  set ν := env.hash (pre 1 [.cm cmW1, .cm cmS]) with hν
  set β := env.hash (pre 1 [.cm cmW1, .cm cmS, .cm cmH]) with hβ
  set α := env.hash (pre 1 [.cm cmW1, .cm cmS, .cm cmH, .cm cmR]) with hα
  have f1 : env.hash (r1csPrefix 1 x cmU cmW cmV cmY ++ [.cm cmW1]) = μ := rfl
  have f2 : env.hash (r1csPrefix 1 x cmU cmW cmV cmY ++ [.cm cmW1, .cm cmS]) = ν := rfl
  have f3 : env.hash (r1csPrefix 1 x cmU cmW cmV cmY ++ [.cm cmW1, .cm cmS, .cm cmH]) = β := rfl
  have f4 : env.hash (r1csPrefix 1 x cmU cmW cmV cmY ++ [.cm cmW1, .cm cmS, .cm cmH, .cm cmR]) = α := rfl
  have f5 : env.hash (r1csPrefix 1 x cmU cmW cmV cmY
    ++ [.cm cmW1, .cm cmS, .cm cmH, .cm cmR, .cm cmT]) = ω := rfl
  have f6 : env.hash (r1csPrefix 1 x cmU cmW cmV cmY
    ++ [.cm cmW1, .cm cmS, .cm cmH, .cm cmR, .cm cmT, .cm cmH2, .cm cmH3]) = z := rfl
  set cmG := hprComb size.nrows size.ncols S capD env.gamma μ ν β α ω z y y1
    ((polyOf x).eval (ω / z)) g cmU cmW cmV cmY cmW1 cmS cmH cmR cmT cmH2 cmH3 with hcmG
  obtain ⟨w, w2, hw⟩ := C22_known_randomizer_forgery (G1 := G1) (G2 := G2) (GT := GT) g
    [cmH, cmW1] [cmG] [y, y1] [0] (ω / z) z
    (env.hash (r1csPrefix 1 x cmU cmW cmV cmY
      ++ r1csXiItems cmW1 cmS cmH cmR cmT cmH2 cmH3 cmG (ω / z) y y1 z))
    (env.hash (r1csPrefix 2 x cmU cmW cmV cmY
      ++ r1csXiItems cmW1 cmS cmH cmR cmT cmH2 cmH3 cmG (ω / z) y y1 z))
    env.rngU128
    (by intro h; apply hzz; rw [div_eq_iff h0] at h; rw [h]; ring) hr
  refine ⟨w, w2, ?_⟩
  intro τ h kvk hvk
  have hvkg : kvk.g = g := hvk.1
  simp only [hprVerify, f1, f2, f3, f4, f5, f6, C12_vector, divR_ok h0, bind, Except.bind,
    hprCoeffs_ok size.nrows size.ncols S capD size rfl rfl hS.symm h1 h3 hk env.gamma
      μ ν β α ω z _ _ _ h0 hz1 hz2 hz3, hvkg, hprComb_eq, ← hcmG]
  rw [if_pos (hw env.e τ h kvk hvk)]

/-! ## C65: over-long instances -/

theorem mulVec_zero (m : SparseMat F) (K i : ℕ) : mulVec m K (List.replicate K 0) i = 0 := by
  rw [mulVec]
  apply Finset.sum_eq_zero
  intro j hj
  rw [List.getD_eq_getElem _ _ (by simpa using Finset.mem_range.mp hj)]; simp

/-- The rows of `(d | A | B | C)` times a vector that starts with 0. -/
theorem joined_mul_zero (cs : HPR F) (hl : HprLens cs) (ra : InRange cs.a cs.nrows cs.ncols)
    (rb : InRange cs.b cs.nrows cs.ncols) (rc : InRange cs.c cs.nrows cs.ncols)
    (v1 v2 v3 : List F) (h1 : v1.length = cs.ncols) (h2 : v2.length = cs.ncols)
    (h3 : v3.length = cs.ncols) (i : ℕ) :
    ∑ j ∈ Finset.range (3 * cs.ncols + 1), entryOf (joined cs) i j
        * (0 :: (v1 ++ v2 ++ v3)).getD j 0
      = mulVec cs.a cs.ncols v1 i + mulVec cs.b cs.ncols v2 i + mulVec cs.c cs.ncols v3 i := by
  have e1 := joined_mul cs hl ra rb rc v1 v2 v3 h1 h2 h3 i
  have e2 := joined_mul cs hl ra rb rc (List.replicate cs.ncols 0) (List.replicate cs.ncols 0)
    (List.replicate cs.ncols 0) (by simp) (by simp) (by simp) i
  rw [mulVec_zero, mulVec_zero, mulVec_zero] at e2
  rw [Finset.sum_range_succ'] at e1 e2 ⊢
  simp only [List.getD_cons_succ, List.getD_cons_zero] at e1 e2 ⊢
  have e3 : ∑ j ∈ Finset.range (3 * cs.ncols), entryOf (joined cs) i (j + 1)
      * (List.replicate cs.ncols (0 : F) ++ List.replicate cs.ncols 0
        ++ List.replicate cs.ncols 0).getD j 0 = 0 := by
    apply Finset.sum_eq_zero
    intro j hj
    rw [List.replicate_append_replicate, List.replicate_append_replicate,
      List.getD_eq_getElem _ _ (by simp; have := Finset.mem_range.mp hj; omega)]
    simp
  rw [e3] at e2
  linear_combination e1 - e2

theorem tail_getD (L v : List F) (H : ℕ) (hL : L.length = H) (j : ℕ) :
    (0 :: v).getD j 0 = (L ++ (-1 :: v)).getD (H + j) 0 + if H + j = H then 1 else 0 := by
  rw [List.getD_append_right _ _ _ _ (by omega), hL, Nat.add_sub_cancel_left]
  cases j with
  | zero => simp
  | succ j => rw [if_neg (by omega)]; simp

set_option maxHeartbeats 1000000 in
/-- **C65 (deviation).** `verify` does not check that the instance is at most as long as the number of
rows, and for longer ones it does not check the relation: for every three vectors of length `K`, which
need not satisfy the product equations, the instance `(A v1 + B v2 + C v3, -1, v1, v2, v3)` has
commitments and values, computed without the trapdoor and without any witness, that `verify` accepts
whenever the challenges avoid the same values as in an honest run.  `satisfy` does not accept this
instance for any witness. -/
theorem C65_instance_too_long (env : Env F G1 G2 GT) (hγ : env.gamma ≠ 0) (τ : F) (g : G1) (h : G2)
    (hnd : NonDegenerate env.e h) (D : ℕ) (pp : UniversalParams G1 G2)
    (hs : kzgSetup D τ g h = .ok pp) (cs : HPR F) (hl : HprLens cs)
    (hBC : cs.b.rows.length + cs.c.rows.length = 2 * cs.a.rows.length) (H K S : ℕ)
    (hH : H = cs.nrows) (hK : K = cs.ncols) (hS : S = (joined cs).length) (h1 : 1 ≤ H) (h3 : H ≤ S)
    (hk1 : 1 ≤ K) (ra : InRange cs.a H K) (rb : InRange cs.b H K) (rc : InRange cs.c H K)
    (rd : ∀ p ∈ cs.drows.zip cs.dvals, p.1 < H) (hD : 5 * K + 2 * S + 2 ≤ D)
    (v1 v2 v3 : List F) (l1 : v1.length = K) (l2 : v2.length = K) (l3 : v3.length = K) :
    ∃ pk vk, hprIndex env.gamma pp cs = .ok (pk, vk) ∧
      let x := (List.range H).map (fun i => mulVec cs.a K v1 i + mulVec cs.b K v2 i
        + mulVec cs.c K v3 i) ++ (-1 :: (v1 ++ v2 ++ v3))
      let pre := fun (items : List (Item F G1)) =>
        [.fld 1, .flds x, .cm vk.cmU, .cm vk.cmW, .cm vk.cmV, .cm vk.cmY] ++ items
      (∀ w1 w2 w3, cs.satisfy x w1 w2 w3 ≠ .ok true) ∧
      let cmW : G1 := 0
      let μ := env.hash (pre [.cm cmW])
      ((∀ i, i < H → μ ≠ env.gamma ^ i) →
      ∃ cmP : G1,
      let ν := env.hash (pre [.cm cmW, .cm cmP])
      (∀ k, k < 3 * K + 1 → ν ≠ env.gamma ^ k) →
      ∃ cmQ cmR cmT : G1,
      let ω := env.hash (pre [.cm cmW, .cm cmP, .cm cmQ, .cm cmR, .cm cmT])
      ∃ cmH1 cmH2 : G1,
      let z := env.hash (pre [.cm cmW, .cm cmP, .cm cmQ, .cm cmR, .cm cmT, .cm cmH1, .cm cmH2])
      z ≠ 0 → z ≠ 1 → z ≠ ω → z ≠ env.gamma * ω →
      ∃ (y y1 : F) (capW capW1 : G1),
        hprVerify env vk x ⟨cmW, cmP, cmQ, cmR, cmT, cmH1, cmH2, y, y1, capW, capW1⟩ = .ok ()) := by
  subst hH hK
  obtain ⟨kvk, hvk, hidx⟩ := hprIndex_ok env.gamma τ hγ g h D pp hs cs hl S hS hBC (by omega)
    (by omega) hD
  refine ⟨_, _, hidx, ?_⟩
  intro x pre
  have hTot : S = (⟨cs.nrows, cs.ncols, cs.a.rows.length, cs.a.rows.length, cs.a.rows.length,
      cs.drows.length, cs.inputSize⟩ : HPRSize).total := by
    have := (joined_facts cs hl).2.2.2.2
    simp only [HPRSize.total]; omega
  have hxl : x.length = cs.nrows + 1 + 3 * cs.ncols := by simp [x, l1, l2, l3]; omega
  refine ⟨fun w1 w2 w3 => (C25_bad_shape cs x w1 w2 w3 (by
    rintro ⟨-, -, -, -, -, -, -, -, -, hx⟩; omega)).2, ?_⟩
  set l := joined cs with hld
  set γ := env.gamma with hγd
  have hr := joined_range cs ra rb rc rd
  set H := cs.nrows with hHd
  set K := cs.ncols with hKd
  set W : Polynomial F := 0 with hW
  have hc0 : (0 : G1) = W.eval τ • g := by rw [hW]; simp
  have hlin : ∀ i, i < H → ∑ j ∈ Finset.range (3 * K + 1), entryOf l i j
      * (hprAsg H (polyOf x) W).coeff (H + j) = (hprAsg H (polyOf x) W).coeff i := by
    have hco : ∀ i, (hprAsg H (polyOf x) W).coeff i = x.getD i 0 + if i = H then 1 else 0 := by
      intro i
      rw [hprAsg, hW, mul_zero, add_zero, Polynomial.coeff_add, coeff_polyOf, Polynomial.coeff_X_pow]
    intro i hi
    rw [hco i, if_neg (by omega), add_zero, List.getD_append _ _ _ _ (by simpa using hi),
      List.getD_eq_getElem _ _ (by simpa using hi), List.getElem_map, List.getElem_range,
      ← joined_mul_zero cs hl ra rb rc v1 v2 v3 l1 l2 l3 i]
    apply Finset.sum_congr rfl
    intro j hj
    congr 1
    rw [hco]
    exact (tail_getD _ (v1 ++ v2 ++ v3) H (by rw [List.length_map, List.length_range]) j).symm
  intro cmW
  have hcW : cmW = W.eval τ • g := hc0
  rw [hcW]
  intro μ hμ
  set P := sPoly H (3 * K + 1) γ μ l with hP
  refine ⟨P.eval τ • g, ?_⟩
  intro ν hν
  set Q := hPoly (3 * K + 1) γ μ ν l with hQ
  set β := env.hash (pre [.cm (W.eval τ • g), .cm (P.eval τ • g), .cm (Q.eval τ • g)]) with hβ
  set R := partialPoly (3 * K + 1 + S)
    (linTerm H (3 * K + 1) β (valPoly l) (hprAsg H (polyOf x) W) P Q) 0 with hR
  set α := env.hash (pre [.cm (W.eval τ • g), .cm (P.eval τ • g), .cm (Q.eval τ • g),
    .cm (R.eval τ • g)]) with hα
  set base := hprBase H K S γ μ ν β α (rowPoly γ l) (colPoly γ l) (valPoly l)
          (rowColPoly γ l) (polyOf x) W P Q R with hbase
  set T := blindPoly (3 * K + 1 + S) (2 * K + S + 2) 0 base with hT
  refine ⟨Q.eval τ • g, R.eval τ • g, T.eval τ • g, ?_⟩
  intro ω
  have fu : (rowPoly γ l).degree < ((S + 1 : ℕ) : WithBot ℕ) := degree_map_lt _ _ _ (by omega)
  have fw : (colPoly γ l).degree < ((S + 1 : ℕ) : WithBot ℕ) := degree_map_lt _ _ _ (by omega)
  have fv : (valPoly l).degree < ((S + 1 : ℕ) : WithBot ℕ) := degree_map_lt _ _ _ (by omega)
  have fy : (rowColPoly γ l).degree < ((S + 1 : ℕ) : WithBot ℕ) := degree_map_lt _ _ _ (by omega)
  have fx : (polyOf x).degree < ((H + 3 * K + 1 : ℕ) : WithBot ℕ) :=
    degLt_mono (degree_polyOf_lt x) (by omega)
  have dW : W.degree < ((0 + 1 : ℕ) : WithBot ℕ) := by
    rw [hW, Polynomial.degree_zero]; exact WithBot.bot_lt_coe _
  have dP : P.degree < ((3 * K + S + 1 : ℕ) : WithBot ℕ) := degLt_mono (degree_sPoly _ _ _ _ _) (by omega)
  have dQ : Q.degree < ((3 * K + S + 1 : ℕ) : WithBot ℕ) := degLt_mono (degree_hPoly _ _ _ _ _) (by omega)
  have dR : R.degree < ((3 * K + S + 2 : ℕ) : WithBot ℕ) := degLt_mono (degree_partialPoly _ _ _) (by omega)
  have dT : T.degree < ((2 * K + S + 2 + 1 : ℕ) : WithBot ℕ) := by
    rw [Polynomial.degree_lt_iff_coeff_zero]
    intro k hk
    obtain ⟨i, rfl⟩ : ∃ i, k = i + 1 := ⟨k - 1, by omega⟩
    rw [hT, coeff_blindPoly_succ, if_neg (by omega)]
  set polys := hprPolys H K S γ μ ν β α (rowPoly γ l) (colPoly γ l) (valPoly l)
        (rowColPoly γ l) (polyOf x) W P Q R T with hpolys
  have hdA' : ∀ p ∈ polys, p.1.degree < ((5 * K + 2 * S + 2 + 1 : ℕ) : WithBot ℕ) :=
    hprPolys_degA H K S 0 (3 * K + S) (H + 3 * K) _ γ μ ν β α _ _ _ _ _ W P Q R T h1 h3 fx dW dQ
      (by omega) (by omega) le_rfl (by omega) (by omega)
  have hdA : ∀ p ∈ polys, p.1.degree < ((D + 1 : ℕ) : WithBot ℕ) :=
    fun p hp => degLt_mono (hdA' p hp) (by omega)
  have hdB : ∀ p ∈ polys, p.2.degree < ((D + 1 : ℕ) : WithBot ℕ) :=
    hprPolys_degB H K S 0 (3 * K + S) (2 * K + S + 2) D γ μ ν β α _ _ _ _ _ W P Q R T
      h1 h3 dW dP dQ dR dT fu fw fv fy (by omega) (by omega) (by omega) (by omega)
  have hentry : ∀ i, hadamardEntry polys i = 0 := by
    apply entries_blind_zero _ _ (by omega)
    · intro i hi
      exact hpr_honest_of cs S hr hS h3 γ μ ν β α 0 (polyOf x) W hμ hν
        (by intro j _; rw [hW]; simp) hlin i hi
    · intro i hi
      refine entry_zero_of_degA _ (5 * K + 2 * S + 2 + 1) ?_ i (by omega)
      intro p hp
      exact hdA' p (List.mem_append_left _ hp)
  obtain ⟨H1, H2, dH1, dH2, hH⟩ := C48_complete polys D (D + 1) (by omega) hdA hdB hentry ω
  refine ⟨H1.eval τ • g, H2.eval τ • g, ?_⟩
  intro z h0 hz1 hz2 hz3
  set G := hprGPoly H K S (D + 1) γ μ ν β α ω z (Q.eval (ω / z)) (W.eval (ω / z))
    ((polyOf x).eval (ω / z)) (rowPoly γ l) (colPoly γ l) (valPoly l) (rowColPoly γ l) W P Q R T H1 H2
    with hG
  have hGz : G.eval z = 0 := by rw [hG, hprG_eval, hH z h0, sub_self]
  have hcomb : hprComb H K S (D + 1) γ μ ν β α ω z (Q.eval (ω / z)) (W.eval (ω / z))
      ((polyOf x).eval (ω / z)) g ((rowPoly γ l).eval τ • g) ((colPoly γ l).eval τ • g)
      ((valPoly l).eval τ • g) ((rowColPoly γ l).eval τ • g) (W.eval τ • g) (P.eval τ • g)
      (Q.eval τ • g) (R.eval τ • g) (T.eval τ • g) (H1.eval τ • g) (H2.eval τ • g)
      = G.eval τ • g := by
    rw [← hprComb_eq, hprK_eval]
  set ξ := env.hash (pre [.cm (W.eval τ • g), .cm (P.eval τ • g), .cm (Q.eval τ • g),
    .cm (R.eval τ • g), .cm (T.eval τ • g), .cm (H1.eval τ • g), .cm (H2.eval τ • g),
    .cm (G.eval τ • g), .fld (ω / z), .fld (Q.eval (ω / z)), .fld (W.eval (ω / z)), .fld z]) with hξ
  obtain ⟨q1, hq1⟩ := open_exists (Q + Polynomial.C ξ * W) (ω / z)
  obtain ⟨q2, hq2⟩ := open_exists G z
  refine ⟨Q.eval (ω / z), W.eval (ω / z), q1.eval τ • g, q2.eval τ • g, ?_⟩
  have hacc := C63_accepts_iff env τ g h hnd ⟨(rowPoly γ l).eval τ • g, (colPoly γ l).eval τ • g,
      (valPoly l).eval τ • g, (rowColPoly γ l).eval τ • g, kvk,
      ⟨H, K, cs.a.rows.length, cs.a.rows.length, cs.a.rows.length, cs.drows.length, cs.inputSize⟩,
      D + 1⟩
    hvk S hTot h1 h3 hk1 x
    ⟨W.eval τ • g, P.eval τ • g, Q.eval τ • g, R.eval τ • g, T.eval τ • g, H1.eval τ • g,
      H2.eval τ • g, Q.eval (ω / z), W.eval (ω / z), q1.eval τ • g, q2.eval τ • g⟩
  refine hacc.mpr ⟨h0, hz1, hz2, hz3, ?_⟩
  have e1 := congrArg (Polynomial.eval τ) hq1
  have e2 := congrArg (Polynomial.eval τ) hq2
  simp only [Polynomial.eval_sub, Polynomial.eval_add, Polynomial.eval_mul, Polynomial.eval_C,
    Polynomial.eval_X, hGz, sub_zero] at e1 e2
  have key : ∀ (ξ' : F) (cmG : G1), ξ' = ξ → cmG = G.eval τ • g →
      Q.eval τ • g + ξ' • W.eval τ • g - (Q.eval (ω / z) + ξ' * W.eval (ω / z)) • g
        - (τ - ω / z) • q1.eval τ • g + env.rngU128 • (cmG - (τ - z) • q2.eval τ • g) = 0 := by
    rintro _ _ rfl rfl
    have t1 : Q.eval τ • g + ξ • W.eval τ • g - (Q.eval (ω / z) + ξ * W.eval (ω / z)) • g
        - (τ - ω / z) • q1.eval τ • g
        = (Q.eval τ + ξ * W.eval τ - (Q.eval (ω / z) + ξ * W.eval (ω / z))
          - (τ - ω / z) * q1.eval τ) • g := by module
    have t2 : G.eval τ • g - (τ - z) • q2.eval τ • g = (G.eval τ - (τ - z) * q2.eval τ) • g := by module
    rw [t1, t2, e1, e2, sub_self, sub_self]; simp
  refine key _ _ ?_ ?_
  · rw [hξ]
    exact congrArg env.hash (by rw [← hcomb])
  · exact hcomb

/-! Concrete cases for the hypotheses of C62-C65, over the field with 97 elements. -/

/-- Hypotheses of C62: the powers of 5 are distinct, and the witness read off a polynomial is
rejected. -/
example : ∀ i < max 1 (3 * 1 + 1), ∀ j < max 1 (3 * 1 + 1), (5 : K97) ^ i = (5 : K97) ^ j → i = j := by
  decide +kernel

example : hpr97.satisfy [48] (hprRead 1 0 (polyOf [4, 5, 21, 0, 0, 0, 0, 0, 77]))
    (hprRead 1 1 (polyOf [4, 5, 21, 0, 0, 0, 0, 0, 77]))
    (hprRead 1 2 (polyOf [4, 5, 21, 0, 0, 0, 0, 0, 77])) ≠ .ok true := by
  have h : ∀ j, hprRead 1 j (polyOf ([4, 5, 21, 0, 0, 0, 0, 0, 77] : List K97))
      = [([4, 5, 21, 0, 0, 0, 0, 0, 77] : List K97).getD j 0] := by
    intro j; simp [hprRead, List.range_succ, coeff_polyOf]
  rw [h, h, h]
  decide +kernel

/-- The forgery of C64 applies to a false instance. -/
example : ∃ capW capW1 : K97, ∀ (τ : K97) (h : K97) (kvk : VerifierKey K97 K97),
    HonestVk τ 1 h kvk →
      hprVerify env97 ⟨7, 8, 9, 10, kvk, ⟨1, 1, 1, 1, 1, 1, 1⟩, 41⟩ [26]
        ⟨1, 1, 1, 1, 1, 1, 1, 2, 3, capW, capW1⟩ = .ok () :=
  C64_forgery env97 (1 : K97) ⟨1, 1, 1, 1, 1, 1, 1⟩ 41 4 (by decide) (by decide) (by decide) (by decide)
    [26] 7 8 9 10 1 1 1 1 1 1 1 2 3 (by decide +kernel)
    (by decide +kernel) (by decide +kernel) (by decide +kernel) (by decide +kernel) (by decide +kernel)

/-- An over-long instance of C65 in which the products do not hold (`4 · 5 ≠ 1`): the prover itself
makes a proof for it from the zero witness. -/
example : hprRun97 hpr97 [2 * 4 + 3 * 5 + 1, -1, 4, 5, 1] ([0], [0], [0]) = .ok () := by
  decide +kernel

end VO
