import Verif.Props.R1csSnark
import Verif.Props.PovSound
import Verif.Lemmas.PartialFraction

/-
Soundness of the R1CS SNARK model (`Model/R1csSnark`, `/repo/voproof/src/snarks/voproof_r1cs.rs`).
-/

set_option linter.unusedSectionVars false

namespace VO
open Spec
open Polynomial (X)

variable {F : Type} [Field F] [DecidableEq F]
variable {G1 G2 GT : Type}
variable [AddCommGroup G1] [AddCommGroup G2] [AddCommGroup GT]
variable [Module F G1] [Module F G2] [Module F GT]
variable [DecidableEq G1] [DecidableEq G2] [DecidableEq GT]

/-! ## Reading the witness -/

theorem getD_fitTo (ℓ : ℕ) (x : List F) (j : ℕ) (hj : j < ℓ) : (fitTo ℓ x).getD j 0 = x.getD j 0 := by
  rw [fitTo, List.getD_eq_getElem _ _ (by simpa using hj)]; simp

theorem r1csRead_shape (cs : R1CS F) (hH : 0 < cs.nrows) (hℓ : cs.inputSize + 1 ≤ cs.ncols)
    (ra : InRange cs.a cs.nrows cs.ncols)
    (rb : InRange cs.b cs.nrows cs.ncols) (rc : InRange cs.c cs.nrows cs.ncols) (x : List F)
    (A : Polynomial F) :
    R1CSShape cs (fitTo cs.inputSize x) (r1csRead cs.nrows cs.ncols cs.inputSize A) := by
  refine ⟨hH, by omega, ?_, ra, rb, rc⟩
  simp [fitTo, r1csRead]; omega

/-- The assignment that is read off `A` agrees with the block of `A` that holds `(1, x, w)`. -/
theorem r1csRead_getD (H K ℓ : ℕ) (hℓ : ℓ + 1 ≤ K) (x : List F) (A : Polynomial F)
    (h6 : A.coeff (3 * H) = 1) (h6' : ∀ j, j < ℓ → A.coeff (3 * H + 1 + j) = x.getD j 0) (k : ℕ)
    (hk : k < K) :
    (1 :: (fitTo ℓ x ++ r1csRead H K ℓ A)).getD k 0 = A.coeff (3 * H + k) := by
  cases k with
  | zero => simpa using h6.symm
  | succ j =>
    rw [List.getD_cons_succ]
    by_cases hj : j < ℓ
    · rw [List.getD_append _ _ _ _ (by simpa [fitTo] using hj), getD_fitTo _ _ _ hj, ← h6' j hj]
      congr 1; omega
    · rw [List.getD_append_right _ _ _ _ (by simpa [fitTo] using hj)]
      have hl : (fitTo ℓ x).length = ℓ := by simp [fitTo]
      rw [hl, r1csRead, List.getD_eq_getElem _ _ (by simp; omega)]
      simp only [List.getElem_map, List.getElem_range]
      congr 1; omega

/-- If the entries of `A` are products of the matrices with the assignment read off `A` and satisfy
the equations of the argument, the relation holds. -/
theorem r1cs_holds_of_coeffs (cs : R1CS F) (hl : R1csLens cs) (hℓ : cs.inputSize + 1 ≤ cs.ncols)
    (ra : InRange cs.a cs.nrows cs.ncols)
    (rb : InRange cs.b cs.nrows cs.ncols) (x : List F) (A : Polynomial F)
    (h5 : ∀ j, j < cs.nrows → A.coeff j * A.coeff (cs.nrows + j) = A.coeff (2 * cs.nrows + j))
    (h6 : A.coeff (3 * cs.nrows) = 1)
    (h6' : ∀ j, j < cs.inputSize → A.coeff (3 * cs.nrows + 1 + j) = x.getD j 0)
    (hM : ∀ i, i < 3 * cs.nrows → A.coeff i
      = ∑ j ∈ Finset.range cs.ncols, entryOf (stacked cs) i j * A.coeff (3 * cs.nrows + j)) :
    R1CSHolds cs (fitTo cs.inputSize x) (r1csRead cs.nrows cs.ncols cs.inputSize A) := by
  intro i hi
  obtain ⟨e1, e2, e3⟩ := stacked_mul cs hl ra rb
    (1 :: (fitTo cs.inputSize x ++ r1csRead cs.nrows cs.ncols cs.inputSize A)) i hi
  have hs : ∀ r, r < 3 * cs.nrows → ∑ j ∈ Finset.range cs.ncols, entryOf (stacked cs) r j
      * (1 :: (fitTo cs.inputSize x ++ r1csRead cs.nrows cs.ncols cs.inputSize A)).getD j 0
      = A.coeff r := by
    intro r hr
    rw [hM r hr]
    apply Finset.sum_congr rfl
    intro j hj
    rw [r1csRead_getD cs.nrows cs.ncols cs.inputSize hℓ x A h6 h6' j (Finset.mem_range.mp hj)]
  rw [← e1, ← e2, ← e3, hs _ (by omega), hs _ (by omega), hs _ (by omega)]
  exact h5 i hi

/-! ## The argument -/

/-- The equations of the argument other than the sum. -/
def R1csEqs (H K S ℓ : ℕ) (γ μ ν : F) (l : List ((ℕ × ℕ) × F)) (x : List F)
    (A P Q : Polynomial F) : Prop :=
  (∀ i, i < 3 * H → (μ - γ ^ i) * P.coeff i = 1) ∧
  (∀ i, i < K → (ν - γ ^ i) * Q.coeff i = 1) ∧
  (∀ i, 3 * H + K ≤ i → i < K + S → P.coeff i = 0) ∧
  (∀ j, j < S → Q.coeff (K + j) * ((rowColPoly γ l).coeff j - μ * (colPoly γ l).coeff j
    - ν * (rowPoly γ l).coeff j + μ * ν) = 1) ∧
  (∀ j, j < H → A.coeff j * A.coeff (H + j) = A.coeff (2 * H + j)) ∧
  A.coeff (3 * H) = 1 ∧ (∀ j, j < ℓ → A.coeff (3 * H + 1 + j) = x.getD j 0)

theorem r1cs_chain_sound (cs : R1CS F) (hl : R1csLens cs) (hℓ : cs.inputSize + 1 ≤ cs.ncols)
    (ra : InRange cs.a cs.nrows cs.ncols)
    (rb : InRange cs.b cs.nrows cs.ncols) (rc : InRange cs.c cs.nrows cs.ncols) (S : ℕ)
    (hS : S = (stacked cs).length) (h3 : 3 * cs.nrows ≤ S) (γ : F)
    (hγn : ∀ i < 3 * cs.nrows, ∀ j < 3 * cs.nrows, γ ^ i = γ ^ j → i = j)
    (hγK : ∀ i < cs.ncols, ∀ j < cs.ncols, γ ^ i = γ ^ j → i = j) (x : List F) (A : Polynomial F)
    (hbad : ¬ R1CSHolds cs (fitTo cs.inputSize x) (r1csRead cs.nrows cs.ncols cs.inputSize A)) :
    ∃ badμ : Finset F, badμ.card ≤ 3 * cs.nrows - 1 ∧ ∀ μ, μ ∉ badμ → ∀ P : Polynomial F,
    ∃ badν : Finset F, badν.card ≤ cs.ncols - 1 ∧ ∀ ν, ν ∉ badν → ∀ Q : Polynomial F,
    ∃ badβ : Finset F, badβ.card ≤ 1 ∧ ∀ β, β ∉ badβ →
      R1csEqs cs.nrows cs.ncols S cs.inputSize γ μ ν (stacked cs) x A P Q →
      ∑ j ∈ Finset.range (cs.ncols + S),
        linTerm (3 * cs.nrows) cs.ncols β (valPoly (stacked cs)) A P Q j ≠ 0 := by
  have hr := stacked_range cs ra rb rc
  set l := stacked cs with hld
  set H := cs.nrows with hHd
  set K := cs.ncols with hKd
  obtain ⟨bm, b1, b2⟩ := lincheck_sound (3 * H) K γ hγn hγK
    (fun i => A.coeff i - ∑ j ∈ Finset.range K, entryOf l i j * A.coeff (3 * H + j))
    (¬ ((∀ j, j < H → A.coeff j * A.coeff (H + j) = A.coeff (2 * H + j)) ∧
      A.coeff (3 * H) = 1 ∧ (∀ j, j < cs.inputSize → A.coeff (3 * H + 1 + j) = x.getD j 0)))
    (fun h => by
      rintro ⟨h5, h6, h6'⟩
      exact hbad (r1cs_holds_of_coeffs cs hl hℓ ra rb x A h5 h6 h6'
        (fun i hi => sub_eq_zero.mp (h i hi))))
  refine ⟨bm, b1, fun μ hμ P => ?_⟩
  obtain ⟨bn, b3, b4⟩ := b2 μ hμ (fun k => P.coeff (3 * H + k) + colSum γ μ l k)
  refine ⟨bn, b3, fun ν hν Q => ?_⟩
  set Dv := ∑ k ∈ Finset.range K, (P.coeff (3 * H + k) + colSum γ μ l k) * (ν - γ ^ k)⁻¹ with hDv
  set Ev := ∑ i ∈ Finset.range (3 * H), A.coeff i * (μ - γ ^ i)⁻¹
    + ∑ k ∈ Finset.range K, A.coeff (3 * H + k) * P.coeff (3 * H + k) with hEv
  have hb := b4 ν hν
  refine ⟨{Ev / Dv}, by simp, fun β hβ heq hsum => ?_⟩
  obtain ⟨q1, q2, q3, q4, q5, q6, q6'⟩ := heq
  have n1 : ∀ i, i < 3 * H → μ ≠ γ ^ i := by
    intro i hi h
    have := q1 i hi
    rw [h, sub_self, zero_mul] at this
    exact zero_ne_one this
  have n2 : ∀ i, i < K → ν ≠ γ ^ i := by
    intro i hi h
    have := q2 i hi
    rw [h, sub_self, zero_mul] at this
    exact zero_ne_one this
  have p1 : ∀ i, i < 3 * H → P.coeff i = (μ - γ ^ i)⁻¹ :=
    fun i hi => (inv_eq_of_mul_eq_one_right (q1 i hi)).symm
  have p2 : ∀ i, i < K → Q.coeff i = (ν - γ ^ i)⁻¹ :=
    fun i hi => (inv_eq_of_mul_eq_one_right (q2 i hi)).symm
  have p4 : ∀ j, j < S → Q.coeff (K + j)
      = (l.map (fun e => ((μ - γ ^ e.1.1) * (ν - γ ^ e.1.2))⁻¹)).getD j 0 := by
    intro j hj
    have h := q4 j hj
    rw [rowColPoly, colPoly, rowPoly, coeff_polyOf, coeff_polyOf, coeff_polyOf,
      List.getD_eq_getElem _ _ (by simpa [hS] using hj),
      List.getD_eq_getElem _ _ (by simpa [hS] using hj),
      List.getD_eq_getElem _ _ (by simpa [hS] using hj)] at h
    rw [List.getD_eq_getElem _ _ (by simpa [hS] using hj)]
    simp only [List.getElem_map] at h ⊢
    symm
    apply inv_eq_of_mul_eq_one_right
    rw [← h]; ring
  rw [linTerm_sum (3 * H) K S h3 γ μ ν β l hS.symm hr A P Q p1 p2 q3 p4, ← hDv, ← hEv] at hsum
  by_cases hD0 : Dv = 0
  · refine hb n1 n2 hD0 (fun hc => ?_) ⟨q5, q6, q6'⟩
    rw [hD0, mul_zero, sub_zero] at hsum
    have hd := colSum_dot γ μ l (3 * H) K hr (fun k => A.coeff (3 * H + k))
    have he : ∑ k ∈ Finset.range K, A.coeff (3 * H + k) * P.coeff (3 * H + k)
        = - ∑ k ∈ Finset.range K, A.coeff (3 * H + k) * colSum γ μ l k := by
      rw [← Finset.sum_neg_distrib]
      apply Finset.sum_congr rfl
      intro k hk
      have := hc k (Finset.mem_range.mp hk)
      rw [eq_neg_of_add_eq_zero_left this]; ring
    rw [hEv, he, hd] at hsum
    simp only [sub_mul, Finset.sum_sub_distrib]
    linear_combination hsum
  · apply hβ
    rw [Finset.mem_singleton, eq_div_iff hD0]
    linear_combination -hsum

/-- Given violated equations, few values of `α` make every entry vanish, whatever `R` is. -/
theorem r1cs_alpha_sound (H K S ℓ : ℕ) (hH : 1 ≤ H) (h3 : 3 * H ≤ S) (hℓ : ℓ + 1 ≤ K)
    (γ μ ν β : F) (l : List ((ℕ × ℕ) × F)) (x : List F) (A P Q R : Polynomial F)
    (hbad : R1csEqs H K S ℓ γ μ ν l x A P Q →
      ∑ j ∈ Finset.range (K + S), linTerm (3 * H) K β (valPoly l) A P Q j ≠ 0) :
    ∃ bad : Finset F, bad.card ≤ 8 ∧ ∀ α, α ∉ bad → ∀ T,
      ∃ i, hadamardEntry (r1csPolys H K S ℓ γ μ ν β α (rowPoly γ l) (colPoly γ l) (valPoly l)
        (rowColPoly γ l) (polyOf x) A P Q R T) i ≠ 0 := by
  set k : ℕ → ℕ → F := fun i j => match j with
    | 0 => if i < 3 * H then (μ - γ ^ i) * P.coeff i - 1 else 0
    | 1 => if i < K then (ν - γ ^ i) * Q.coeff i - 1 else 0
    | 2 => if 3 * H + K ≤ i then P.coeff i else 0
    | 4 => if K ≤ i then Q.coeff i * ((rowColPoly γ l).coeff (i - K) - μ * (colPoly γ l).coeff (i - K)
          - ν * (rowPoly γ l).coeff (i - K) + μ * ν) - 1 else 0
    | 5 => if K + S - H ≤ i then A.coeff (i - (K + S - H)) * A.coeff (i - (K + S - 2 * H))
          - A.coeff (i - (K + S - 3 * H)) else 0
    | 6 => if 3 * H ≤ i ∧ i < 3 * H + (ℓ + 1) then A.coeff i
          - (if i = 3 * H then 1 else (polyOf x).coeff (i - (3 * H + 1))) else 0
    | 7 => linTerm (3 * H) K β (valPoly l) A P Q i - (R.coeff i - if i = 0 then 0 else R.coeff (i - 1))
    | 8 => if i = K + S - 1 then R.coeff i else 0
    | _ => 0 with hk
  have hex : ∃ i, i < K + S ∧ ∃ j, j < 9 ∧ k i j ≠ 0 := by
    by_contra hc
    push Not at hc
    refine hbad ⟨?_, ?_, ?_, ?_, ?_, ?_, ?_⟩ ?_
    · intro i hi
      have := hc i (by omega) 0 (by omega)
      simp only [hk] at this
      rw [if_pos hi] at this
      exact sub_eq_zero.mp this
    · intro i hi
      have := hc i (by omega) 1 (by omega)
      simp only [hk] at this
      rw [if_pos hi] at this
      exact sub_eq_zero.mp this
    · intro i hi hi2
      have := hc i hi2 2 (by omega)
      simp only [hk] at this
      rwa [if_pos hi] at this
    · intro j hj
      have := hc (K + j) (by omega) 4 (by omega)
      simp only [hk] at this
      rw [if_pos (by omega), Nat.add_sub_cancel_left] at this
      exact sub_eq_zero.mp this
    · intro j hj
      have := hc (K + S - H + j) (by omega) 5 (by omega)
      simp only [hk] at this
      rw [if_pos (by omega), show K + S - H + j - (K + S - H) = j by omega,
        show K + S - H + j - (K + S - 2 * H) = H + j by omega,
        show K + S - H + j - (K + S - 3 * H) = 2 * H + j by omega] at this
      exact sub_eq_zero.mp this
    · have := hc (3 * H) (by omega) 6 (by omega)
      simp only [hk] at this
      rw [if_pos (by omega), if_pos trivial] at this
      exact sub_eq_zero.mp this
    · intro j hj
      have := hc (3 * H + 1 + j) (by omega) 6 (by omega)
      simp only [hk] at this
      rw [if_pos (by omega), if_neg (by omega), Nat.add_sub_cancel_left, coeff_polyOf] at this
      exact sub_eq_zero.mp this
    · have hR : ∀ i, i < K + S → R.coeff i = ∑ j ∈ Finset.range (i + 1), linTerm (3 * H) K β (valPoly l) A P Q j := by
        intro i
        induction i with
        | zero =>
          intro hi
          have := hc 0 hi 7 (by omega)
          simp only [hk, if_true, sub_zero] at this
          simpa using (sub_eq_zero.mp this).symm
        | succ i ih =>
          intro hi
          have := hc (i + 1) hi 7 (by omega)
          simp only [hk] at this
          rw [if_neg (by omega), Nat.add_sub_cancel, ih (by omega)] at this
          rw [Finset.sum_range_succ]
          linear_combination -this
      have := hc (K + S - 1) (by omega) 8 (by omega)
      simp only [hk, if_true] at this
      rw [hR _ (by omega), show K + S - 1 + 1 = K + S by omega] at this
      exact this
  obtain ⟨i, hi, j, hj, hne⟩ := hex
  set q : Polynomial F := ∑ m ∈ Finset.range 9, Polynomial.C (k i m) * X ^ m with hq
  obtain ⟨bad, b1, b2⟩ := bad_of_coeff q j 8 (by
      rw [hq, Polynomial.finsetSum_coeff]
      simp only [Polynomial.coeff_C_mul_X_pow]
      rw [Finset.sum_ite_eq, if_pos (Finset.mem_range.mpr hj)]
      exact hne) (by
      apply Polynomial.natDegree_sum_le_of_forall_le
      intro m hm
      refine (Polynomial.natDegree_C_mul_X_pow_le _ _).trans ?_
      have := Finset.mem_range.mp hm; omega)
  refine ⟨bad, b1, fun α hα T => ⟨i, ?_⟩⟩
  rw [r1csPolys, entries_blind_lt (K + S) _ (by omega) T _ i hi,
    r1cs_entry_lt H K S ℓ hH h3 hℓ _ _ _ _ _ _ _ _ _ _ _ _ _ _ i hi]
  have := b2 α hα
  intro h0
  apply this
  rw [hq, Polynomial.eval_finsetSum]
  simp only [Finset.sum_range_succ, Finset.sum_range_zero, Polynomial.eval_mul, Polynomial.eval_C,
    Polynomial.eval_pow, Polynomial.eval_X]
  simp only [hk]
  linear_combination h0

theorem r1csGPoly_natDegree (H K S ℓ B D : ℕ) (γ μ ν β α ω z y y1 v : F)
    (Pu Pw Pv Py A P Q R T H1 H2 : Polynomial F) (du : Pu.natDegree ≤ D) (dw : Pw.natDegree ≤ D)
    (dv : Pv.natDegree ≤ D) (dy : Py.natDegree ≤ D) (dA : A.natDegree ≤ D) (dP : P.natDegree ≤ D)
    (dQ : Q.natDegree ≤ D) (dR : R.natDegree ≤ D) (dT : T.natDegree ≤ D) (d1 : H1.natDegree ≤ D)
    (d2 : H2.natDegree ≤ D) :
    (r1csGPoly H K S ℓ B γ μ ν β α ω z y y1 v Pu Pw Pv Py A P Q R T H1 H2).natDegree ≤ D := by
  have : (r1csGPoly H K S ℓ B γ μ ν β α ω z y y1 v Pu Pw Pv Py A P Q R T H1 H2).degree
      < ((D + 1 : ℕ) : WithBot ℕ) := by
    rw [r1csGPoly_eq]
    have t := fun {p : Polynomial F} (h : p.natDegree ≤ D) (a : F) =>
      degLt_C_mul (degLt_of_natDegree h) a
    exact degLt_add (degLt_add (degLt_add (degLt_add (degLt_add (degLt_add (degLt_add (degLt_add
      (degLt_add (degLt_add (degLt_add (degLt_C _ _ (by omega))
      (t dP _)) (t dQ _)) (t dw _)) (t du _)) (t dy _)) (t dA _)) (t dv _)) (t dR _)) (t dT _))
      (t d1 _)) (t d2 _)
  exact natDegree_of_degLt this le_rfl

theorem degree_map_lt {ι : Type} (l : List ι) (f : ι → F) (n : ℕ) (h : l.length ≤ n) :
    (polyOf (l.map f)).degree < ((n : ℕ) : WithBot ℕ) :=
  degLt_mono (degree_polyOf_lt (l.map f)) (by simpa using h)

set_option maxHeartbeats 1000000 in
/-- **C58.** Round-by-round soundness of `verify` against a prover whose group elements are
commitments to polynomials of degree at most `D` (the degree of the setup), for the key that `index`
builds.  Let the listed positions be inside the matrices, `S ≥ 3H` and the powers of `γ` that encode
rows and columns distinct.  The statement is the instance cut or padded with zeros to the number `ℓ`
of public inputs of the system.  If `satisfy` does not accept the witness that can be read off the
coefficients of the committed `A`, then, whatever polynomials and values the prover sends after each
challenge, only few values of the next challenge help: `3H - 1` of `μ`, `K - 1` of `ν`, one of `β`, 8
of `α`, `D + K + S` of `ω`, `2D + 2(K + S) + |x|` of `z`, one of `ξ`, `D + 1` trapdoors `τ` and one
value of the randomizer of `batch_check`.  For all others `verify` rejects. -/
theorem C58_sound (cs : R1CS F) (hl : R1csLens cs) (H K S ℓ D : ℕ) (hH : H = cs.nrows)
    (hK : K = cs.ncols) (hS : S = (stacked cs).length) (hin : ℓ = cs.inputSize) (h1 : 1 ≤ H)
    (h3 : 3 * H ≤ S) (hℓ : ℓ + 1 ≤ K) (ra : InRange cs.a H K) (rb : InRange cs.b H K)
    (rc : InRange cs.c H K) (hD : 2 * (K + S) - H ≤ D) (γ : F)
    (hγ : ∀ i < max (3 * H) K, ∀ j < max (3 * H) K, γ ^ i = γ ^ j → i = j)
    (x : List F) (A : Polynomial F) (dA : A.natDegree ≤ D)
    (hbad : cs.satisfy (fitTo ℓ x) (r1csRead H K ℓ A) ≠ .ok true) :
    ∃ badμ : Finset F, badμ.card ≤ 3 * H - 1 ∧ ∀ μ, μ ∉ badμ →
    ∀ P : Polynomial F, P.natDegree ≤ D →
    ∃ badν : Finset F, badν.card ≤ K - 1 ∧ ∀ ν, ν ∉ badν →
    ∀ Q : Polynomial F, Q.natDegree ≤ D →
    ∃ badβ : Finset F, badβ.card ≤ 1 ∧ ∀ β, β ∉ badβ →
    ∀ R : Polynomial F, R.natDegree ≤ D →
    ∃ badα : Finset F, badα.card ≤ 8 ∧ ∀ α, α ∉ badα →
    ∀ T : Polynomial F, T.natDegree ≤ D →
    ∃ badω : Finset F, badω.card ≤ D + K + S ∧ ∀ ω, ω ∉ badω →
    ∀ H1 H2 : Polynomial F, H1.natDegree ≤ D → H2.natDegree ≤ D →
    ∃ badz : Finset F, badz.card ≤ 2 * D + 2 * (K + S) + x.length ∧ ∀ z, z ∉ badz →
    ∀ y y1 : F,
    ∃ badξ : Finset F, badξ.card ≤ 1 ∧ ∀ ξ, ξ ∉ badξ → ∀ ξ2,
    ∀ Q1 Q2 : Polynomial F, Q1.natDegree ≤ D → Q2.natDegree ≤ D →
    ∃ badτ : Finset F, badτ.card ≤ D + 1 ∧ ∀ τ, τ ∉ badτ → ∃ r0 : F,
    ∀ (env : Env F G1 G2 GT) (g : G1) (h : G2), env.rngU128 ≠ r0 → env.gamma = γ → g ≠ 0 →
    NonDegenerate env.e h →
    ∀ (pp : UniversalParams G1 G2), kzgSetup D τ g h = .ok pp →
    ∀ pk vk, r1csIndex γ pp cs = .ok (pk, vk) →
      let l := stacked cs
      let cm := fun p : Polynomial F => p.eval τ • g
      let it := fun p : Polynomial F => (Item.cm (cm p) : Item F G1)
      let pre := fun (first : F) (items : List (Item F G1)) =>
        [.fld first, .flds x, it (rowPoly γ l), it (colPoly γ l), it (valPoly l),
          it (rowColPoly γ l)] ++ items
      let G := r1csGPoly H K S ℓ (D + 1) γ μ ν β α ω z y y1 ((polyOf x).eval z) (rowPoly γ l)
        (colPoly γ l) (valPoly l) (rowColPoly γ l) A P Q R T H1 H2
      env.hash (pre 1 [it A]) = μ →
      env.hash (pre 1 [it A, it P]) = ν →
      env.hash (pre 1 [it A, it P, it Q]) = β →
      env.hash (pre 1 [it A, it P, it Q, it R]) = α →
      env.hash (pre 1 [it A, it P, it Q, it R, it T]) = ω →
      env.hash (pre 1 [it A, it P, it Q, it R, it T, it H1, it H2]) = z →
      env.hash (pre 1 [it A, it P, it Q, it R, it T, it H1, it H2, it G, .fld (ω / z), .fld y,
        .fld y1, .fld z]) = ξ →
      env.hash (pre 2 [it A, it P, it Q, it R, it T, it H1, it H2, it G, .fld (ω / z), .fld y,
        .fld y1, .fld z]) = ξ2 →
      r1csVerify env vk x ⟨cm A, cm P, cm Q, cm R, cm T, cm H1, cm H2, y, y1, cm Q1, cm Q2⟩
          ≠ .ok () := by
  subst hH hK hin
  set H := cs.nrows with hHd
  set K := cs.ncols with hKd
  set ℓ := cs.inputSize with hℓd
  have hbad' : ¬ R1CSHolds cs (fitTo ℓ x) (r1csRead H K ℓ A) := fun h =>
    hbad ((C24_satisfy cs _ _ (r1csRead_shape cs h1 hℓ ra rb rc x A)).1.mpr h)
  have hγ0 : γ ≠ 0 := by
    rintro rfl
    have := hγ 1 (by omega) 2 (by omega) (by simp)
    omega
  set l := stacked cs with hld
  have hSe : S = cs.a.rows.length + cs.b.rows.length + cs.c.rows.length :=
    hS.trans (stacked_facts cs hl).2.2.2.2
  have hS1 : 1 ≤ S := by omega
  have hSD : S ≤ D + 1 := by omega
  obtain ⟨badμ, m1, m2⟩ := r1cs_chain_sound cs hl hℓ ra rb rc S hS h3 γ
    (fun i hi j hj => hγ i (by omega) j (by omega)) (fun i hi j hj => hγ i (by omega) j (by omega)) x A
    hbad'
  refine ⟨badμ, m1, fun μ hμ P dP => ?_⟩
  obtain ⟨badν, n1, n2⟩ := m2 μ hμ P
  refine ⟨badν, n1, fun ν hν Q dQ => ?_⟩
  obtain ⟨badβ, b1, b2⟩ := n2 ν hν Q
  refine ⟨badβ, b1, fun β hβ R dR => ?_⟩
  obtain ⟨badα, a1, a2⟩ := r1cs_alpha_sound H K S ℓ h1 h3 hℓ γ μ ν β l x A P Q R (b2 β hβ)
  refine ⟨badα, a1, fun α hα T dT => ?_⟩
  have eA := degLt_of_natDegree dA
  have eP := degLt_of_natDegree dP
  have eQ := degLt_of_natDegree dQ
  have eR := degLt_of_natDegree dR
  have eT := degLt_of_natDegree dT
  have fu : (rowPoly γ l).degree < ((S + 1 : ℕ) : WithBot ℕ) := degree_map_lt _ _ _ (by omega)
  have fw : (colPoly γ l).degree < ((S + 1 : ℕ) : WithBot ℕ) := degree_map_lt _ _ _ (by omega)
  have fv : (valPoly l).degree < ((S + 1 : ℕ) : WithBot ℕ) := degree_map_lt _ _ _ (by omega)
  have fy : (rowColPoly γ l).degree < ((S + 1 : ℕ) : WithBot ℕ) := degree_map_lt _ _ _ (by omega)
  have fx : (polyOf x).degree < ((x.length : ℕ) : WithBot ℕ) := degree_polyOf_lt x
  set polys := r1csPolys H K S ℓ γ μ ν β α (rowPoly γ l) (colPoly γ l) (valPoly l)
        (rowColPoly γ l) (polyOf x) A P Q R T with hpolys
  have hA : ∀ p ∈ polys, p.1.degree < ((D + K + S + 1 : ℕ) : WithBot ℕ) :=
    r1csPolys_degA H K S ℓ D D (D + K + S) γ μ ν β α _ _ _ _ _ A P Q R T h1 h3 hℓ eA eQ (by omega)
      (by omega) (by omega)
  have hB : ∀ p ∈ polys, p.2.degree < ((D + K + S + x.length + 1 : ℕ) : WithBot ℕ) :=
    r1csPolys_degB H K S ℓ D D D x.length (D + K + S + x.length) γ μ ν β α _ _ _ _ _ A P Q R T h1 h3 hℓ
      eA eP eQ (degLt_mono eR (by omega)) eT fx fu fw fv fy (by omega) (by omega) (by omega) (by omega)
      (by omega)
  obtain ⟨badω, o1, o2⟩ := C48_omega polys (D + K + S + 1) hA (a2 α hα T)
  refine ⟨badω, by omega, fun ω hω H1 H2 dH1 dH2 => ?_⟩
  obtain ⟨badz, z1, z2⟩ := C48_z polys ω (o2 ω hω) (D + 1) (D + K + S) (D + K + S + x.length) (by omega)
    hA hB H1 H2 (degLt_of_natDegree dH1) (degLt_mono (degLt_of_natDegree dH2) (by omega))
  refine ⟨badz, by omega, fun z hz y y1 => ?_⟩
  by_cases hz3 : z = 0 ∨ z = 1 ∨ z = ω ∨ z = γ * ω
  · refine ⟨∅, by simp, fun ξ _ ξ2 Q1 Q2 _ _ => ⟨∅, by simp, ?_⟩⟩
    intro τ _
    refine ⟨0, ?_⟩
    intro env g h _ hγe hg hnd' pp hpp pk vk hidx l' cm it pre G e1 e2 e3 e4 e5 e6 e7 e8 hver
    obtain ⟨kvk, hvk, hidx'⟩ := r1csIndex_ok γ τ hγ0 g h D pp hpp cs hl S hSe hS1 hSD hD
    rw [hidx'] at hidx
    obtain ⟨-, rfl⟩ := Prod.mk.inj (Except.ok.inj hidx)
    have f1 : env.hash (r1csPrefix 1 x ((rowPoly γ l).eval τ • g) ((colPoly γ l).eval τ • g) ((valPoly l).eval τ • g)
      ((rowColPoly γ l).eval τ • g) ++ [.cm (cm A)]) = μ := e1
    have f2 : env.hash (r1csPrefix 1 x ((rowPoly γ l).eval τ • g) ((colPoly γ l).eval τ • g) ((valPoly l).eval τ • g)
      ((rowColPoly γ l).eval τ • g) ++ [.cm (cm A), .cm (cm P)]) = ν := e2
    have f3 : env.hash (r1csPrefix 1 x ((rowPoly γ l).eval τ • g) ((colPoly γ l).eval τ • g) ((valPoly l).eval τ • g)
      ((rowColPoly γ l).eval τ • g) ++ [.cm (cm A), .cm (cm P), .cm (cm Q)]) = β := e3
    have f4 : env.hash (r1csPrefix 1 x ((rowPoly γ l).eval τ • g) ((colPoly γ l).eval τ • g) ((valPoly l).eval τ • g)
      ((rowColPoly γ l).eval τ • g) ++ [.cm (cm A), .cm (cm P), .cm (cm Q), .cm (cm R)]) = α := e4
    have f5 : env.hash (r1csPrefix 1 x ((rowPoly γ l).eval τ • g) ((colPoly γ l).eval τ • g) ((valPoly l).eval τ • g)
      ((rowColPoly γ l).eval τ • g) ++ [.cm (cm A), .cm (cm P), .cm (cm Q), .cm (cm R), .cm (cm T)]) = ω := e5
    have f6 : env.hash (r1csPrefix 1 x ((rowPoly γ l).eval τ • g) ((colPoly γ l).eval τ • g) ((valPoly l).eval τ • g)
      ((rowColPoly γ l).eval τ • g) ++ [.cm (cm A), .cm (cm P), .cm (cm Q), .cm (cm R), .cm (cm T),
      .cm (cm H1), .cm (cm H2)]) = z := e6
    simp only [r1csVerify, ← hld, f1, f2, f3, f4, f5, f6, hγe, ← hHd, ← hKd, ← hℓd,
      r1csCoeffs_bad (D + 1) _ γ μ ν β α ω z _ _ _ hz3, bind, Except.bind] at hver
    cases hver
  · push Not at hz3
    obtain ⟨h0, hz1, hz2, hz3⟩ := hz3
    set G := r1csGPoly H K S ℓ (D + 1) γ μ ν β α ω z y y1 ((polyOf x).eval z) (rowPoly γ l)
        (colPoly γ l) (valPoly l) (rowColPoly γ l) A P Q R T H1 H2 with hG
    have hwrong : (∃ i, i < [Q, A].length ∧
        (([Q, A] : List (Polynomial F)).getD i 0).eval (ω / z) ≠ [y, y1].getD i 0) ∨
        (∃ i, i < [G].length ∧ (([G] : List (Polynomial F)).getD i 0).eval z ≠ [(0 : F)].getD i 0) := by
      by_contra hc
      push Not at hc
      obtain ⟨c1, c2⟩ := hc
      have w0 : Q.eval (ω / z) = y := c1 0 (by simp)
      have w1 : A.eval (ω / z) = y1 := c1 1 (by simp)
      have g0 : G.eval z = 0 := c2 0 (by simp)
      rw [hG, ← w0, ← w1, r1csG_eval] at g0
      exact z2 z hz h0 (sub_eq_zero.mp g0)
    have gu : (rowPoly γ l).natDegree ≤ D := natDegree_of_degLt fu (by omega)
    have gw : (colPoly γ l).natDegree ≤ D := natDegree_of_degLt fw (by omega)
    have gv : (valPoly l).natDegree ≤ D := natDegree_of_degLt fv (by omega)
    have gy : (rowColPoly γ l).natDegree ≤ D := natDegree_of_degLt fy (by omega)
    have dG : G.natDegree ≤ D := r1csGPoly_natDegree H K S ℓ (D + 1) D γ μ ν β α ω z y y1 _ _ _ _ _ A P
      Q R T H1 H2 gu gw gv gy dA dP dQ dR dT dH1 dH2
    obtain ⟨badξ, badξ2, x1, x2, x3⟩ := batch_final (G1 := G1) (G2 := G2) (GT := GT) [Q, A] [G]
      [y, y1] [0] rfl rfl (ω / z) z D (by
        intro f hf
        simp only [List.mem_cons, List.not_mem_nil, or_false] at hf
        rcases hf with rfl | rfl <;> assumption) (by
        intro f hf
        simp only [List.mem_cons, List.not_mem_nil, or_false] at hf
        rcases hf with rfl; exact dG) hwrong
    have hx2 : badξ2 = ∅ := Finset.card_eq_zero.mp (by simpa using x2)
    subst hx2
    refine ⟨badξ, by simpa using x1, fun ξ hξ ξ2 Q1 Q2 dQ1 dQ2 => ?_⟩
    obtain ⟨badτ, y1', y2'⟩ := x3 ξ hξ ξ2 (by simp) Q1 Q2 dQ1 dQ2
    refine ⟨badτ, y1', ?_⟩
    intro τ hτ
    obtain ⟨r0, hr0⟩ := y2' τ hτ
    refine ⟨r0, ?_⟩
    intro env g h hr hγe hg hnd' pp hpp pk vk hidx l' cm it pre G' e1 e2 e3 e4 e5 e6 e7 e8 hver
    obtain ⟨kvk, hvk, hidx'⟩ := r1csIndex_ok γ τ hγ0 g h D pp hpp cs hl S hSe hS1 hSD hD
    rw [hidx'] at hidx
    obtain ⟨-, rfl⟩ := Prod.mk.inj (Except.ok.inj hidx)
    have f1 : env.hash (r1csPrefix 1 x ((rowPoly γ l).eval τ • g) ((colPoly γ l).eval τ • g) ((valPoly l).eval τ • g)
      ((rowColPoly γ l).eval τ • g) ++ [.cm (cm A)]) = μ := e1
    have f2 : env.hash (r1csPrefix 1 x ((rowPoly γ l).eval τ • g) ((colPoly γ l).eval τ • g) ((valPoly l).eval τ • g)
      ((rowColPoly γ l).eval τ • g) ++ [.cm (cm A), .cm (cm P)]) = ν := e2
    have f3 : env.hash (r1csPrefix 1 x ((rowPoly γ l).eval τ • g) ((colPoly γ l).eval τ • g) ((valPoly l).eval τ • g)
      ((rowColPoly γ l).eval τ • g) ++ [.cm (cm A), .cm (cm P), .cm (cm Q)]) = β := e3
    have f4 : env.hash (r1csPrefix 1 x ((rowPoly γ l).eval τ • g) ((colPoly γ l).eval τ • g) ((valPoly l).eval τ • g)
      ((rowColPoly γ l).eval τ • g) ++ [.cm (cm A), .cm (cm P), .cm (cm Q), .cm (cm R)]) = α := e4
    have f5 : env.hash (r1csPrefix 1 x ((rowPoly γ l).eval τ • g) ((colPoly γ l).eval τ • g) ((valPoly l).eval τ • g)
      ((rowColPoly γ l).eval τ • g) ++ [.cm (cm A), .cm (cm P), .cm (cm Q), .cm (cm R), .cm (cm T)]) = ω := e5
    have f6 : env.hash (r1csPrefix 1 x ((rowPoly γ l).eval τ • g) ((colPoly γ l).eval τ • g) ((valPoly l).eval τ • g)
      ((rowColPoly γ l).eval τ • g) ++ [.cm (cm A), .cm (cm P), .cm (cm Q), .cm (cm R), .cm (cm T),
      .cm (cm H1), .cm (cm H2)]) = z := e6
    have f7 : env.hash (r1csPrefix 1 x ((rowPoly γ l).eval τ • g) ((colPoly γ l).eval τ • g) ((valPoly l).eval τ • g)
      ((rowColPoly γ l).eval τ • g) ++ r1csXiItems (cm A) (cm P) (cm Q) (cm R) (cm T) (cm H1) (cm H2) (cm G)
      (ω / z) y y1 z) = ξ := e7
    have f8 : env.hash (r1csPrefix 2 x ((rowPoly γ l).eval τ • g) ((colPoly γ l).eval τ • g) ((valPoly l).eval τ • g)
      ((rowColPoly γ l).eval τ • g) ++ r1csXiItems (cm A) (cm P) (cm Q) (cm R) (cm T) (cm H1) (cm H2) (cm G)
      (ω / z) y y1 z) = ξ2 := e8
    have hcmg : r1csCmG g (r1csK H K S ℓ (D + 1) γ μ ν β α ω z y y1 ((polyOf x).eval z)) (cm P) (cm Q)
        ((colPoly γ l).eval τ • g) ((rowPoly γ l).eval τ • g) ((rowColPoly γ l).eval τ • g) (cm A)
        ((valPoly l).eval τ • g) (cm R) (cm T) (cm H1) (cm H2) = cm G :=
      r1csK_eval H K S ℓ (D + 1) γ μ ν β α ω z y y1 ((polyOf x).eval z) τ (rowPoly γ l) (colPoly γ l)
        (valPoly l) (rowColPoly γ l) A P Q R T H1 H2 g
    have hvkg : kvk.g = g := hvk.1
    simp only [r1csVerify, ← hld, f1, f2, f3, f4, f5, f6, hγe, C12_vector, ← hHd, ← hKd, ← hℓd,
      r1csCoeffs_ok H K S ℓ (D + 1) ⟨H, K, cs.a.rows.length, cs.b.rows.length, cs.c.rows.length, ℓ⟩
        rfl rfl (by simp only [R1CSSize.total]; omega) rfl h1 h3 hℓ γ μ ν β α ω z _ _ _ h0 hz1 hz2 hz3,
      bind, Except.bind] at hver
    simp only [hvkg, hcmg, divR_ok h0, f7, f8] at hver
    have hf := hr0 env.rngU128 hr env.e g hg h hnd' kvk hvk
    simp only [List.map_cons, List.map_nil] at hf
    rw [show batchCheck env.e kvk [cm Q, cm A] [cm G] (ω / z) z ξ ξ2 [y, y1] [0] (cm Q1)
      (cm Q2) env.rngU128 = false from hf] at hver
    simp at hver

/-! ## C59: what `verify` checks -/

/-- **C59.** `verify` accepts iff the challenge `z` is none of `0`, `1`, `ω`, `γω` and the batched
opening equation holds for the commitments `Q`, `A` at `ω/z` with the claimed values and for the
combination `r1csComb` of the commitments at `z` with value 0. -/
theorem C59_accepts_iff (env : Env F G1 G2 GT) (τ : F) (g : G1) (h : G2)
    (hnd : NonDegenerate env.e h) (vk : R1csVK G1 G2) (hvk : HonestVk τ g h vk.kzgVk) (S : ℕ)
    (hS : S = vk.size.adensity + vk.size.bdensity + vk.size.cdensity) (h1 : 1 ≤ vk.size.nrows)
    (h3 : 3 * vk.size.nrows ≤ S) (hℓ : vk.size.inputSize + 1 ≤ vk.size.ncols) (x : List F)
    (π : R1csProof F G1) :
    let pre := fun (first : F) (items : List (Item F G1)) =>
      [.fld first, .flds x, .cm vk.cmU, .cm vk.cmW, .cm vk.cmV, .cm vk.cmY] ++ items
    let μ := env.hash (pre 1 [.cm π.cmU1])
    let ν := env.hash (pre 1 [.cm π.cmU1, .cm π.cmS])
    let β := env.hash (pre 1 [.cm π.cmU1, .cm π.cmS, .cm π.cmH])
    let α := env.hash (pre 1 [.cm π.cmU1, .cm π.cmS, .cm π.cmH, .cm π.cmR])
    let ω := env.hash (pre 1 [.cm π.cmU1, .cm π.cmS, .cm π.cmH, .cm π.cmR, .cm π.cmT])
    let z := env.hash (pre 1 [.cm π.cmU1, .cm π.cmS, .cm π.cmH, .cm π.cmR, .cm π.cmT, .cm π.cmH2,
      .cm π.cmH3])
    let cmG := r1csComb vk.size.nrows vk.size.ncols S vk.size.inputSize vk.degreeBound env.gamma μ ν
      β α ω z π.y π.y1 ((polyOf x).eval z) g vk.cmU vk.cmW vk.cmV vk.cmY π.cmU1 π.cmS π.cmH π.cmR
      π.cmT π.cmH2 π.cmH3
    let ξ := env.hash (pre 1 [.cm π.cmU1, .cm π.cmS, .cm π.cmH, .cm π.cmR, .cm π.cmT, .cm π.cmH2,
      .cm π.cmH3, .cm cmG, .fld (ω / z), .fld π.y, .fld π.y1, .fld z])
    r1csVerify env vk x π = .ok () ↔
      z ≠ 0 ∧ z ≠ 1 ∧ z ≠ ω ∧ z ≠ env.gamma * ω ∧
      (π.cmH + ξ • π.cmU1 - (π.y + ξ * π.y1) • g - (τ - ω / z) • π.capW)
        + env.rngU128 • (cmG - (τ - z) • π.capW1) = 0 := by
  intro pre μ ν β α ω z cmG ξ
  have hvkg : vk.kzgVk.g = g := hvk.1
  have f1 : env.hash (r1csPrefix 1 x vk.cmU vk.cmW vk.cmV vk.cmY ++ [.cm π.cmU1]) = μ := rfl
  have f2 : env.hash (r1csPrefix 1 x vk.cmU vk.cmW vk.cmV vk.cmY ++ [.cm π.cmU1, .cm π.cmS]) = ν := rfl
  have f3 : env.hash (r1csPrefix 1 x vk.cmU vk.cmW vk.cmV vk.cmY
    ++ [.cm π.cmU1, .cm π.cmS, .cm π.cmH]) = β := rfl
  have f4 : env.hash (r1csPrefix 1 x vk.cmU vk.cmW vk.cmV vk.cmY
    ++ [.cm π.cmU1, .cm π.cmS, .cm π.cmH, .cm π.cmR]) = α := rfl
  have f5 : env.hash (r1csPrefix 1 x vk.cmU vk.cmW vk.cmV vk.cmY
    ++ [.cm π.cmU1, .cm π.cmS, .cm π.cmH, .cm π.cmR, .cm π.cmT]) = ω := rfl
  have f6 : env.hash (r1csPrefix 1 x vk.cmU vk.cmW vk.cmV vk.cmY
    ++ [.cm π.cmU1, .cm π.cmS, .cm π.cmH, .cm π.cmR, .cm π.cmT, .cm π.cmH2, .cm π.cmH3]) = z := rfl
  have f7 : env.hash (r1csPrefix 1 x vk.cmU vk.cmW vk.cmV vk.cmY
    ++ r1csXiItems π.cmU1 π.cmS π.cmH π.cmR π.cmT π.cmH2 π.cmH3 cmG (ω / z) π.y π.y1 z) = ξ := rfl
  simp only [r1csVerify, f1, f2, f3, f4, f5, f6, C12_vector, bind, Except.bind]
  by_cases hb : z = 0 ∨ z = 1 ∨ z = ω ∨ z = env.gamma * ω
  · simp only [r1csCoeffs_bad vk.degreeBound vk.size env.gamma μ ν β α ω z _ _ _ hb]
    constructor
    · intro h; cases h
    · rintro ⟨q0, q1, q2, q3, -⟩
      rcases hb with h | h | h | h
      · exact absurd h q0
      · exact absurd h q1
      · exact absurd h q2
      · exact absurd h q3
  push Not at hb
  obtain ⟨h0, hz1, hz2, hz3⟩ := hb
  simp only [r1csCoeffs_ok vk.size.nrows vk.size.ncols S vk.size.inputSize vk.degreeBound vk.size rfl
    rfl hS.symm rfl h1 h3 hℓ env.gamma μ ν β α ω z _ _ _ h0 hz1 hz2 hz3, hvkg, r1csComb_eq, divR_ok h0]
  rw [show r1csComb vk.size.nrows vk.size.ncols S vk.size.inputSize vk.degreeBound env.gamma μ ν
      β α ω z π.y π.y1 ((polyOf x).eval z) g vk.cmU vk.cmW vk.cmV vk.cmY π.cmU1 π.cmS π.cmH π.cmR
      π.cmT π.cmH2 π.cmH3 = cmG from rfl, f7]
  have hif : ∀ b : Bool, (if b then (.ok () : Res Unit) else .error .verificationFail) = .ok ()
      ↔ b = true := by intro b; cases b <;> simp
  rw [hif, C22_batch_iff env.e τ g h hnd vk.kzgVk hvk [π.cmH, π.cmU1] [cmG] [π.y, π.y1] [0] rfl rfl]
  have e1 : combine ξ [π.cmH, π.cmU1] = π.cmH + ξ • π.cmU1 := by
    simp [combine, List.zipIdx]
  have e2 : combine ξ [π.y, π.y1] = π.y + ξ * π.y1 := by
    simp [combine, List.zipIdx]
  have e3 : ∀ t : F, combine t [cmG] = cmG := by intro t; simp [combine, List.zipIdx]
  have e4 : ∀ t : F, combine t [(0 : F)] = 0 := by intro t; simp [combine, List.zipIdx]
  rw [e1, e2, e3, e4, zero_smul, sub_zero]
  constructor
  · intro h; exact ⟨h0, hz1, hz2, hz3, h⟩
  · rintro ⟨-, -, -, -, h⟩; exact h

/-! ## C60: forgery with a known randomizer -/

/-- **C60.** Universal forgery of R1CS proofs with a known randomizer: for every key and every
instance, true or false, and every choice of the commitments and values of a proof whose challenges
satisfy `z ∉ {0, 1, ω, γω}` and `z² ≠ ω`, the two opening proofs can be chosen (as a function of the
known randomizer, without the trapdoor) so that `verify` accepts. -/
theorem C60_forgery (env : Env F G1 G2 GT) (g : G1) (size : R1CSSize) (capD S : ℕ)
    (hS : S = size.adensity + size.bdensity + size.cdensity) (h1 : 1 ≤ size.nrows)
    (h3 : 3 * size.nrows ≤ S) (hℓ : size.inputSize + 1 ≤ size.ncols) (x : List F)
    (cmU cmW cmV cmY cmU1 cmS cmH cmR cmT cmH2 cmH3 : G1) (y y1 : F) (hr : env.rngU128 ≠ 0) :
    let pre := fun (first : F) (items : List (Item F G1)) =>
      [.fld first, .flds x, .cm cmU, .cm cmW, .cm cmV, .cm cmY] ++ items
    let ω := env.hash (pre 1 [.cm cmU1, .cm cmS, .cm cmH, .cm cmR, .cm cmT])
    let z := env.hash (pre 1 [.cm cmU1, .cm cmS, .cm cmH, .cm cmR, .cm cmT, .cm cmH2, .cm cmH3])
    z ≠ 0 → z ≠ 1 → z ≠ ω → z ≠ env.gamma * ω → z ^ 2 ≠ ω →
    ∃ capW capW1 : G1, ∀ (τ : F) (h : G2) (kvk : VerifierKey G1 G2), HonestVk τ g h kvk →
      r1csVerify env ⟨cmU, cmW, cmV, cmY, kvk, size, capD⟩ x
        ⟨cmU1, cmS, cmH, cmR, cmT, cmH2, cmH3, y, y1, capW, capW1⟩ = .ok () := by
  intro pre ω z h0 hz1 hz2 hz3 hzz
  set μ := env.hash (pre 1 [.cm cmU1]) with hμ
  set ν := env.hash (pre 1 [.cm cmU1, .cm cmS]) with hν
  set β := env.hash (pre 1 [.cm cmU1, .cm cmS, .cm cmH]) with hβ
  set α := env.hash (pre 1 [.cm cmU1, .cm cmS, .cm cmH, .cm cmR]) with hα
  have f1 : env.hash (r1csPrefix 1 x cmU cmW cmV cmY ++ [.cm cmU1]) = μ := rfl
  have f2 : env.hash (r1csPrefix 1 x cmU cmW cmV cmY ++ [.cm cmU1, .cm cmS]) = ν := rfl
  have f3 : env.hash (r1csPrefix 1 x cmU cmW cmV cmY ++ [.cm cmU1, .cm cmS, .cm cmH]) = β := rfl
  have f4 : env.hash (r1csPrefix 1 x cmU cmW cmV cmY ++ [.cm cmU1, .cm cmS, .cm cmH, .cm cmR]) = α := rfl
  have f5 : env.hash (r1csPrefix 1 x cmU cmW cmV cmY
    ++ [.cm cmU1, .cm cmS, .cm cmH, .cm cmR, .cm cmT]) = ω := rfl
  have f6 : env.hash (r1csPrefix 1 x cmU cmW cmV cmY
    ++ [.cm cmU1, .cm cmS, .cm cmH, .cm cmR, .cm cmT, .cm cmH2, .cm cmH3]) = z := rfl
  set cmG := r1csComb size.nrows size.ncols S size.inputSize capD env.gamma μ ν β α ω z y y1
    ((polyOf x).eval z) g cmU cmW cmV cmY cmU1 cmS cmH cmR cmT cmH2 cmH3 with hcmG
  obtain ⟨w, w2, hw⟩ := C22_known_randomizer_forgery (G1 := G1) (G2 := G2) (GT := GT) g
    [cmH, cmU1] [cmG] [y, y1] [0] (ω / z) z
    (env.hash (r1csPrefix 1 x cmU cmW cmV cmY
      ++ r1csXiItems cmU1 cmS cmH cmR cmT cmH2 cmH3 cmG (ω / z) y y1 z))
    (env.hash (r1csPrefix 2 x cmU cmW cmV cmY
      ++ r1csXiItems cmU1 cmS cmH cmR cmT cmH2 cmH3 cmG (ω / z) y y1 z))
    env.rngU128
    (by intro h; apply hzz; rw [div_eq_iff h0] at h; rw [h]; ring) hr
  refine ⟨w, w2, ?_⟩
  intro τ h kvk hvk
  have hvkg : kvk.g = g := hvk.1
  simp only [r1csVerify, f1, f2, f3, f4, f5, f6, C12_vector, divR_ok h0, bind, Except.bind,
    r1csCoeffs_ok size.nrows size.ncols S size.inputSize capD size rfl rfl hS.symm rfl h1 h3 hℓ env.gamma
      μ ν β α ω z _ _ _ h0 hz1 hz2 hz3, hvkg, r1csComb_eq, ← hcmG]
  rw [if_pos (hw env.e τ h kvk hvk)]

/-! ## C61: the length of the instance is not checked -/

theorem degree_sPoly (n K : ℕ) (γ μ : F) (l : List ((ℕ × ℕ) × F)) :
    (sPoly n K γ μ l).degree < ((n + K : ℕ) : WithBot ℕ) := by
  rw [Polynomial.degree_lt_iff_coeff_zero]
  intro m hm
  rw [coeff_sPoly, if_neg (by omega), if_neg (by omega), sub_zero]

theorem degree_hPoly (K : ℕ) (γ μ ν : F) (l : List ((ℕ × ℕ) × F)) :
    (hPoly K γ μ ν l).degree < ((K + l.length : ℕ) : WithBot ℕ) := by
  rw [Polynomial.degree_lt_iff_coeff_zero]
  intro m hm
  rw [coeff_hPoly, if_neg (by omega), List.getD_eq_default _ _ (by simp; omega)]

theorem degree_partialPoly (N : ℕ) (f : ℕ → F) (δ : F) :
    (partialPoly N f δ).degree < ((N + 1 : ℕ) : WithBot ℕ) := by
  rw [Polynomial.degree_lt_iff_coeff_zero]
  intro m hm
  rw [partialPoly, Polynomial.coeff_add, Polynomial.finsetSum_coeff]
  simp only [Polynomial.coeff_C_mul_X_pow]
  rw [Finset.sum_ite_eq, if_neg (by simp; omega), if_neg (by omega), add_zero]

set_option maxHeartbeats 1000000 in
/-- **C61 (deviation).** `verify` does not check the length of the instance.  For every list `x` of
at most `D - 3H` field elements, whatever its length: if the list cut or padded with zeros to the
number of public inputs is a true instance, there are commitments and values (computed from the
witness, without the trapdoor) that `verify` accepts for `x` itself, whenever the challenges avoid
the same values as in an honest run. -/
theorem C61_instance_length (env : Env F G1 G2 GT) (hγ : env.gamma ≠ 0) (τ : F) (g : G1) (h : G2)
    (hnd : NonDegenerate env.e h) (D : ℕ) (pp : UniversalParams G1 G2)
    (hs : kzgSetup D τ g h = .ok pp) (cs : R1CS F) (hl : R1csLens cs) (H K S : ℕ)
    (hH : H = cs.nrows) (hK : K = cs.ncols) (hS : S = (stacked cs).length) (h3 : 3 * H ≤ S)
    (h4 : 4 * H ≤ K + S + 1) (hD : 2 * (K + S) - H ≤ D) (x : List F) (hx : 3 * H + x.length ≤ D)
    (w : List F) (hsh : R1CSShape cs (fitTo cs.inputSize x) w)
    (hsat : cs.satisfy (fitTo cs.inputSize x) w = .ok true) :
    ∃ pk vk, r1csIndex env.gamma pp cs = .ok (pk, vk) ∧
      let pre := fun (items : List (Item F G1)) =>
        [.fld 1, .flds x, .cm vk.cmU, .cm vk.cmW, .cm vk.cmV, .cm vk.cmY] ++ items
      ∃ cmA : G1,
      let μ := env.hash (pre [.cm cmA])
      (∀ i, i < 3 * H → μ ≠ env.gamma ^ i) →
      ∃ cmP : G1,
      let ν := env.hash (pre [.cm cmA, .cm cmP])
      (∀ k, k < K → ν ≠ env.gamma ^ k) →
      ∃ cmQ cmR cmT : G1,
      let ω := env.hash (pre [.cm cmA, .cm cmP, .cm cmQ, .cm cmR, .cm cmT])
      ∃ cmH1 cmH2 : G1,
      let z := env.hash (pre [.cm cmA, .cm cmP, .cm cmQ, .cm cmR, .cm cmT, .cm cmH1, .cm cmH2])
      z ≠ 0 → z ≠ 1 → z ≠ ω → z ≠ env.gamma * ω →
      ∃ (y y1 : F) (capW capW1 : G1),
        r1csVerify env vk x ⟨cmA, cmP, cmQ, cmR, cmT, cmH1, cmH2, y, y1, capW, capW1⟩ = .ok () := by
  subst hH hK
  have hholds := (C24_satisfy cs _ w hsh).1.mp hsat
  obtain ⟨s1, s2, s3, ra, rb, rc⟩ := id hsh
  have lf : (fitTo cs.inputSize x).length = cs.inputSize := by simp [fitTo]
  have hℓ : cs.inputSize + 1 ≤ cs.ncols := by omega
  have hSs : S = cs.a.rows.length + cs.b.rows.length + cs.c.rows.length :=
    hS.trans (stacked_facts cs hl).2.2.2.2
  obtain ⟨kvk, hvk, hidx⟩ := r1csIndex_ok env.gamma τ hγ g h D pp hs cs hl S hSs (by omega)
    (by omega) hD
  refine ⟨_, _, hidx, ?_⟩
  intro pre
  set l := stacked cs with hld
  set γ := env.gamma with hγd
  set H := cs.nrows with hHd
  set K := cs.ncols with hKd
  set ℓ := cs.inputSize with hℓd
  set A := asgPoly cs S (fitTo ℓ x) w 0 with hA
  refine ⟨A.eval τ • g, ?_⟩
  intro μ hμ
  set P := sPoly (3 * H) K γ μ l with hP
  refine ⟨P.eval τ • g, ?_⟩
  intro ν hν
  set Q := hPoly K γ μ ν l with hQ
  set β := env.hash (pre [.cm (A.eval τ • g), .cm (P.eval τ • g), .cm (Q.eval τ • g)]) with hβ
  set R := partialPoly (K + S) (linTerm (3 * H) K β (valPoly l) A P Q) 0 with hR
  set α := env.hash (pre [.cm (A.eval τ • g), .cm (P.eval τ • g), .cm (Q.eval τ • g),
    .cm (R.eval τ • g)]) with hα
  set base := r1csBase H K S ℓ γ μ ν β α (rowPoly γ l) (colPoly γ l) (valPoly l)
          (rowColPoly γ l) (polyOf x) A P Q R with hbase
  set T := blindPoly (K + S) (K + S - H + 1) 0 base with hT
  refine ⟨Q.eval τ • g, R.eval τ • g, T.eval τ • g, ?_⟩
  intro ω
  have fu : (rowPoly γ l).degree < ((S + 1 : ℕ) : WithBot ℕ) := degree_map_lt _ _ _ (by omega)
  have fw : (colPoly γ l).degree < ((S + 1 : ℕ) : WithBot ℕ) := degree_map_lt _ _ _ (by omega)
  have fv : (valPoly l).degree < ((S + 1 : ℕ) : WithBot ℕ) := degree_map_lt _ _ _ (by omega)
  have fy : (rowColPoly γ l).degree < ((S + 1 : ℕ) : WithBot ℕ) := degree_map_lt _ _ _ (by omega)
  have fx : (polyOf x).degree < ((x.length : ℕ) : WithBot ℕ) := degree_polyOf_lt x
  have dA : A.degree < ((K + S + 1 : ℕ) : WithBot ℕ) := by
    rw [hA, asgPoly]
    refine degLt_add (degLt_mono (degree_polyOf_lt _) ?_) (degLt_C_mul (degLt_X_pow _ _ (by omega)) _)
    rw [length_r1csVec]; omega
  have dP : P.degree < ((K + S - 1 + 1 : ℕ) : WithBot ℕ) := degLt_mono (degree_sPoly _ _ _ _ _) (by omega)
  have dQ : Q.degree < ((K + S - 1 + 1 : ℕ) : WithBot ℕ) := degLt_mono (degree_hPoly _ _ _ _ _) (by omega)
  have dR : R.degree < ((K + S - 1 + 2 : ℕ) : WithBot ℕ) := degLt_mono (degree_partialPoly _ _ _) (by omega)
  have dT : T.degree < ((K + S - H + 1 + 1 : ℕ) : WithBot ℕ) := by
    rw [Polynomial.degree_lt_iff_coeff_zero]
    intro k hk
    obtain ⟨i, rfl⟩ : ∃ i, k = i + 1 := ⟨k - 1, by omega⟩
    rw [hT, coeff_blindPoly_succ, if_neg (by omega)]
  set polys := r1csPolys H K S ℓ γ μ ν β α (rowPoly γ l) (colPoly γ l) (valPoly l)
        (rowColPoly γ l) (polyOf x) A P Q R T with hpolys
  have hdA' : ∀ p ∈ polys, p.1.degree < ((2 * (K + S) - H + 1 : ℕ) : WithBot ℕ) :=
    r1csPolys_degA H K S ℓ (K + S) (K + S - 1) _ γ μ ν β α _ _ _ _ _ A P Q R T s1 h3 hℓ dA dQ (by omega)
      (by omega) le_rfl
  have hdA : ∀ p ∈ polys, p.1.degree < ((D + 1 : ℕ) : WithBot ℕ) :=
    fun p hp => degLt_mono (hdA' p hp) (by omega)
  have hdB : ∀ p ∈ polys, p.2.degree < ((D + 1 : ℕ) : WithBot ℕ) :=
    r1csPolys_degB H K S ℓ (K + S) (K + S - 1) (K + S - H + 1) x.length D γ μ ν β α _ _ _ _ _ A P Q R T
      s1 h3 hℓ dA dP dQ dR dT fx fu fw fv fy (by omega) (by omega) (by omega) (by omega) (by omega)
  have hentry : ∀ i, hadamardEntry polys i = 0 := by
    apply entries_blind_zero _ _ (by omega)
    · intro i hi
      have h1 := r1cs_honest cs hl (fitTo ℓ x) w hsh hholds S hS h3 (by omega) γ μ ν β α 0 0 hμ hν i hi
      rw [r1cs_entry_lt H K S ℓ s1 h3 hℓ _ _ _ _ _ _ _ _ _ _ _ _ _ _ i hi] at h1
      rw [r1cs_entry_lt H K S ℓ s1 h3 hℓ _ _ _ _ _ _ _ _ _ _ _ _ _ _ i hi]
      have hv : (if 3 * H ≤ i ∧ i < 3 * H + (ℓ + 1) then A.coeff i
          - (if i = 3 * H then 1 else (polyOf x).coeff (i - (3 * H + 1))) else 0)
          = (if 3 * H ≤ i ∧ i < 3 * H + (ℓ + 1) then A.coeff i
          - (if i = 3 * H then 1 else (polyOf (fitTo ℓ x)).coeff (i - (3 * H + 1))) else 0) := by
        split_ifs with q1 q2
        · rfl
        · rw [coeff_polyOf, coeff_polyOf, getD_fitTo _ _ _ (by omega)]
        · rfl
      rw [hv]
      exact h1
    · intro i hi
      refine entry_zero_of_degA _ (2 * (K + S) - H + 1) ?_ i (by omega)
      intro p hp
      exact hdA' p (List.mem_append_left _ hp)
  obtain ⟨H1, H2, dH1, dH2, hH⟩ := C48_complete polys D (D + 1) (by omega) hdA hdB hentry ω
  refine ⟨H1.eval τ • g, H2.eval τ • g, ?_⟩
  intro z h0 hz1 hz2 hz3
  set G := r1csGPoly H K S ℓ (D + 1) γ μ ν β α ω z (Q.eval (ω / z)) (A.eval (ω / z))
    ((polyOf x).eval z) (rowPoly γ l) (colPoly γ l) (valPoly l) (rowColPoly γ l) A P Q R T H1 H2 with hG
  have hGz : G.eval z = 0 := by rw [hG, r1csG_eval, hH z h0, sub_self]
  have hcomb : r1csComb H K S ℓ (D + 1) γ μ ν β α ω z (Q.eval (ω / z)) (A.eval (ω / z))
      ((polyOf x).eval z) g ((rowPoly γ l).eval τ • g) ((colPoly γ l).eval τ • g)
      ((valPoly l).eval τ • g) ((rowColPoly γ l).eval τ • g) (A.eval τ • g) (P.eval τ • g)
      (Q.eval τ • g) (R.eval τ • g) (T.eval τ • g) (H1.eval τ • g) (H2.eval τ • g)
      = G.eval τ • g := by
    rw [← r1csComb_eq, r1csK_eval]
  set ξ := env.hash (pre [.cm (A.eval τ • g), .cm (P.eval τ • g), .cm (Q.eval τ • g),
    .cm (R.eval τ • g), .cm (T.eval τ • g), .cm (H1.eval τ • g), .cm (H2.eval τ • g),
    .cm (G.eval τ • g), .fld (ω / z), .fld (Q.eval (ω / z)), .fld (A.eval (ω / z)), .fld z]) with hξ
  obtain ⟨q1, hq1⟩ := open_exists (Q + Polynomial.C ξ * A) (ω / z)
  obtain ⟨q2, hq2⟩ := open_exists G z
  refine ⟨Q.eval (ω / z), A.eval (ω / z), q1.eval τ • g, q2.eval τ • g, ?_⟩
  have hacc := C59_accepts_iff env τ g h hnd ⟨(rowPoly γ l).eval τ • g, (colPoly γ l).eval τ • g,
      (valPoly l).eval τ • g, (rowColPoly γ l).eval τ • g, kvk,
      ⟨H, K, cs.a.rows.length, cs.b.rows.length, cs.c.rows.length, ℓ⟩, D + 1⟩
    hvk S hSs s1 h3 hℓ x
    ⟨A.eval τ • g, P.eval τ • g, Q.eval τ • g, R.eval τ • g, T.eval τ • g, H1.eval τ • g,
      H2.eval τ • g, Q.eval (ω / z), A.eval (ω / z), q1.eval τ • g, q2.eval τ • g⟩
  refine hacc.mpr ⟨h0, hz1, hz2, hz3, ?_⟩
  have e1 := congrArg (Polynomial.eval τ) hq1
  have e2 := congrArg (Polynomial.eval τ) hq2
  simp only [Polynomial.eval_sub, Polynomial.eval_add, Polynomial.eval_mul, Polynomial.eval_C,
    Polynomial.eval_X, hGz, sub_zero] at e1 e2
  have key : ∀ (ξ' : F) (cmG : G1), ξ' = ξ → cmG = G.eval τ • g →
      Q.eval τ • g + ξ' • A.eval τ • g - (Q.eval (ω / z) + ξ' * A.eval (ω / z)) • g
        - (τ - ω / z) • q1.eval τ • g + env.rngU128 • (cmG - (τ - z) • q2.eval τ • g) = 0 := by
    rintro _ _ rfl rfl
    have t1 : Q.eval τ • g + ξ • A.eval τ • g - (Q.eval (ω / z) + ξ * A.eval (ω / z)) • g
        - (τ - ω / z) • q1.eval τ • g
        = (Q.eval τ + ξ * A.eval τ - (Q.eval (ω / z) + ξ * A.eval (ω / z))
          - (τ - ω / z) * q1.eval τ) • g := by module
    have t2 : G.eval τ • g - (τ - z) • q2.eval τ • g = (G.eval τ - (τ - z) * q2.eval τ) • g := by module
    rw [t1, t2, e1, e2, sub_self, sub_self]; simp
  refine key _ _ ?_ ?_
  · rw [hξ]
    exact congrArg env.hash (by rw [← hcomb])
  · exact hcomb

/-! Concrete cases for the hypotheses of C58-C61, over the field with 97 elements. -/

/-- Hypotheses of C58: the powers of 5 are distinct, and the witness read off a polynomial is rejected. -/
example : ∀ i < max (3 * 2) 4, ∀ j < max (3 * 2) 4, (5 : K97) ^ i = (5 : K97) ^ j → i = j := by
  decide +kernel

example : cube97.satisfy (fitTo 1 [27]) (r1csRead 2 4 1
    (polyOf [3, 9, 3, 3, 9, 27, 1, 27, 3, 8, 0, 77])) ≠ .ok true := by
  have : r1csRead 2 4 1 (polyOf ([3, 9, 3, 3, 9, 27, 1, 27, 3, 8, 0, 77] : List K97)) = [3, 8] := by
    simp [r1csRead, List.range_succ, coeff_polyOf]
  rw [this]
  decide +kernel

/-- The forgery of C60 applies to a false instance. -/
example : ∃ capW capW1 : K97, ∀ (τ : K97) (h : K97) (kvk : VerifierKey K97 K97),
    HonestVk τ 1 h kvk →
      r1csVerify env97 ⟨7, 8, 9, 10, kvk, ⟨2, 4, 2, 2, 2, 1⟩, 31⟩ [26]
        ⟨1, 1, 1, 1, 1, 1, 1, 2, 3, capW, capW1⟩ = .ok () :=
  C60_forgery env97 (1 : K97) ⟨2, 4, 2, 2, 2, 1⟩ 31 6 (by decide) (by decide) (by decide) (by decide)
    [26] 7 8 9 10 1 1 1 1 1 1 1 2 3 (by decide +kernel)
    (by decide +kernel) (by decide +kernel) (by decide +kernel) (by decide +kernel) (by decide +kernel)

/-- Hypotheses of C61 for an instance with two entries too many, which `satisfy` itself does not
accept. -/
example : cube97.satisfy (fitTo 1 [27, 50, 60]) [3, 9] = .ok true ∧
    cube97.satisfy [27, 50, 60] [3, 9] ≠ .ok true := by
  refine ⟨?_, ?_⟩ <;> decide +kernel

end VO
