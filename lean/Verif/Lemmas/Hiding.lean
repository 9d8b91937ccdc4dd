import Verif.Lemmas.ProverOk
import Verif.Spec.Hiding

set_option linter.unusedSectionVars false

namespace VO
open Spec
open Polynomial (X C)

variable {F G1 G2 GT : Type} [Field F] [DecidableEq F]
  [AddCommGroup G1] [Module F G1] [DecidableEq G1] [AddCommGroup G2] [Module F G2]
  [AddCommGroup GT] [Module F GT] [DecidableEq GT]

theorem valueAt_eq (u : List F) (a : F) : valueAt u a = (polyOf u).eval a := by
  have : ∀ (n : ℕ) (f : ℕ → F), ((List.range n).map f).sum = ∑ i ∈ Finset.range n, f i := by
    intro n f
    induction n with
    | zero => simp
    | succ n ih => rw [List.range_succ, Finset.sum_range_succ, ← ih]; simp
  rw [valueAt, polyOf, Polynomial.eval_finsetSum, this]
  simp

theorem length_padTo (n : ℕ) (u : List F) (h : u.length ≤ n) : (padTo n u).length = n := by
  simp [padTo]; omega

theorem zeroPadAndConcat_eq {u c r : List F} {n : ℤ} {m : ℕ} (hn : n = m)
    (h : zeroPadAndConcat u n c = .ok r) : u.length ≤ m ∧ r = padTo m u ++ c := by
  subst hn
  unfold zeroPadAndConcat at h
  split_ifs at h with h1
  refine ⟨by omega, ?_⟩
  rw [← Except.ok.inj h, padTo]
  simp

/-- Committing to a vector of exactly the declared length. -/
theorem commitVector_exact (τ : F) (g : G1) (D n : ℕ) (u : List F) (δ : F) (hu : u.length = n)
    (hn : n ≤ D) : commitVector (srs τ g D) (u ++ [δ]) (n + 1)
      = .ok (((polyOf u).eval τ + τ ^ n * δ) • g) := by
  have h := (C23_vector_commitment τ g D (u ++ [δ]) (n + 1) (by simp)).1 (by simp [hu])
    (by omega)
  rw [commitVector, h, unwrapC]
  simp [hu, polyOf_append, polyOf_cons]
  rw [mul_comm]

theorem confusion_degree (n : ℕ) (a : F) (v u : List F) (hv : v.length ≤ n) (hu : u.length ≤ n) :
    (confusion n a v u).natDegree ≤ n := by
  have hd : ∀ w : List F, w.length ≤ n → (polyOf (padTo n w)).natDegree ≤ n := by
    intro w hw
    rw [Polynomial.natDegree_le_iff_degree_le]
    refine le_of_lt ((degree_polyOf_lt _).trans_le ?_)
    rw [length_padTo n w hw]
  unfold confusion
  refine (Polynomial.natDegree_sub_le _ _).trans (max_le ?_ ?_)
  · refine (Polynomial.natDegree_C_mul_le _ _).trans ?_
    exact (Polynomial.natDegree_sub_le _ _).trans (max_le (hd u hu) (hd v hv))
  · exact (Polynomial.natDegree_C_mul_X_pow_le _ _)

theorem confusion_ne_zero (n : ℕ) (a : F) (ha : a ≠ 0) (v u : List F) (hv : v.length ≤ n)
    (hu : u.length ≤ n) (hne : padTo n u ≠ padTo n v) : confusion n a v u ≠ 0 := by
  intro h0
  apply hne
  refine polyOf_ext_length (by rw [length_padTo n u hu, length_padTo n v hv]) ?_
  ext i
  have hc := congrArg (fun p => p.coeff i) h0
  unfold confusion at hc
  simp only [Polynomial.coeff_sub, Polynomial.coeff_C_mul, Polynomial.coeff_X_pow,
    Polynomial.coeff_zero] at hc
  by_cases hi : i < n
  · rw [if_neg (by omega), mul_zero, sub_zero] at hc
    rcases mul_eq_zero.1 hc with h | h
    · exact absurd h (pow_ne_zero _ ha)
    · exact sub_eq_zero.1 h
  · rw [coeff_polyOf, coeff_polyOf, List.getD_eq_default _ _ (by rw [length_padTo n u hu]; omega),
      List.getD_eq_default _ _ (by rw [length_padTo n v hv]; omega)]

/-- The test behind C84, on a vector padded to `n` with one blinding entry. -/
theorem guess_confirmed (τ : F) (g : G1) (hg : g ≠ 0) (D n : ℕ) (v : List F) (δ : F) (r : List F)
    (cm : G1) (a : F) (ha : a ≠ 0)
    (hr : zeroPadAndConcat v n [δ] = .ok r)
    (hcm : commitVector (srs τ g D) r (n + 1) = .ok cm) :
    confirmsGuess (srs τ g D) n cm a ((polyOf r).eval a) v = true ∧
    ∀ u : List F, u.length ≤ n →
      confirmsGuess (srs τ g D) n cm a ((polyOf r).eval a) u = true →
      padTo n u = padTo n v ∨ ((confusion n a v u).eval τ = 0 ∧ confusion n a v u ≠ 0 ∧
        (confusion n a v u).natDegree ≤ n) := by
  obtain ⟨hv, rfl⟩ := zeroPadAndConcat_eq (m := n) rfl hr
  have hlv := length_padTo n v hv
  have han : a ^ n ≠ 0 := pow_ne_zero _ ha
  have hnD : n ≤ D := by
    have := (commitVector_inv hcm).2.1
    simp [hlv] at this; omega
  have hcm' := commitVector_exact τ g D n (padTo n v) δ hlv hnD
  rw [hcm] at hcm'
  have hcme := Except.ok.inj hcm'
  have hy : (polyOf (padTo n v ++ [δ])).eval a = (polyOf (padTo n v)).eval a + a ^ n * δ := by
    simp [polyOf_append, polyOf_cons, hlv]
    rw [mul_comm]
  constructor
  · unfold confirmsGuess
    rw [decide_eq_true_eq, valueAt_eq, hy, commitVector_exact τ g D n _ _ hlv hnD, hcme]
    have : (((polyOf (padTo n v)).eval a + a ^ n * δ) - (polyOf (padTo n v)).eval a) / a ^ n = δ := by
      field_simp
      ring
    rw [this]
  · intro u hu h
    by_cases hne : padTo n u = padTo n v
    · exact Or.inl hne
    refine Or.inr ⟨?_, confusion_ne_zero n a ha v u hv hu hne, confusion_degree n a v u hv hu⟩
    have hlu := length_padTo n u hu
    unfold confirmsGuess at h
    rw [decide_eq_true_eq, valueAt_eq, hy, commitVector_exact τ g D n _ _ hlu hnD, hcme] at h
    have h1 := Except.ok.inj h
    have h2 := sub_eq_zero.2 h1
    rw [← sub_smul] at h2
    rcases smul_eq_zero.1 h2 with h3 | h3
    · unfold confusion
      simp only [Polynomial.eval_sub, Polynomial.eval_mul, Polynomial.eval_C, Polynomial.eval_pow,
        Polynomial.eval_X]
      field_simp at h3
      linear_combination h3
    · exact absurd h3 hg

end VO
