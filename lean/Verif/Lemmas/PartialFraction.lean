import Verif.Props.Hadamard

set_option linter.unusedSectionVars false

namespace VO
open Spec
open Polynomial (X)

variable {F : Type} [Field F] [DecidableEq F]

/-- A sum of simple fractions with distinct poles and a nonzero coefficient has few zeros. -/
theorem fractions_ne_zero (n : ℕ) (γ : F) (hγ : ∀ i < n, ∀ j < n, γ ^ i = γ ^ j → i = j)
    (a : ℕ → F) (h : ∃ k, k < n ∧ a k ≠ 0) :
    ∃ bad : Finset F, bad.card ≤ n - 1 ∧ ∀ x, x ∉ bad → (∀ k, k < n → x ≠ γ ^ k) →
      ∑ k ∈ Finset.range n, a k * (x - γ ^ k)⁻¹ ≠ 0 := by
  obtain ⟨k0, hk0, ha⟩ := h
  set q : Polynomial F := ∑ k ∈ Finset.range n, Polynomial.C (a k)
    * ∏ l ∈ (Finset.range n).erase k, (X - Polynomial.C (γ ^ l)) with hq
  have hev : ∀ x, q.eval x = ∑ k ∈ Finset.range n, a k * ∏ l ∈ (Finset.range n).erase k, (x - γ ^ l) := by
    intro x
    rw [hq, Polynomial.eval_finsetSum]
    simp only [Polynomial.eval_mul, Polynomial.eval_C, Polynomial.eval_prod, Polynomial.eval_sub,
      Polynomial.eval_X]
  have hq0 : q ≠ 0 := by
    intro h0
    have h1 := hev (γ ^ k0)
    rw [h0, Polynomial.eval_zero, Finset.sum_eq_single k0] at h1
    · have h2 : ∏ l ∈ (Finset.range n).erase k0, (γ ^ k0 - γ ^ l) ≠ 0 := by
        rw [Finset.prod_ne_zero_iff]
        intro l hl
        obtain ⟨l1, l2⟩ := Finset.mem_erase.mp hl
        exact sub_ne_zero.mpr (fun h => l1 (hγ k0 hk0 l (Finset.mem_range.mp l2) h).symm)
      exact mul_ne_zero ha h2 h1.symm
    · intro b hb hbk
      rw [Finset.prod_eq_zero (Finset.mem_erase.mpr ⟨Ne.symm hbk, Finset.mem_range.mpr hk0⟩)
        (sub_self _), mul_zero]
    · intro h; exact absurd (Finset.mem_range.mpr hk0) h
  have hd : q.natDegree ≤ n - 1 := by
    rw [hq]
    apply Polynomial.natDegree_sum_le_of_forall_le
    intro k hk
    refine (Polynomial.natDegree_C_mul_le _ _).trans ?_
    refine (Polynomial.natDegree_prod_le _ _).trans ?_
    simp only [Polynomial.natDegree_X_sub_C, Finset.sum_const, smul_eq_mul, mul_one]
    rw [Finset.card_erase_of_mem hk, Finset.card_range]
  obtain ⟨j, hj⟩ : ∃ j, q.coeff j ≠ 0 := by
    by_contra hc; push Not at hc
    exact hq0 (Polynomial.ext (by simpa using hc))
  obtain ⟨bad, b1, b2⟩ := bad_of_coeff q j (n - 1) hj hd
  refine ⟨bad, b1, fun x hx hp h0 => b2 x hx ?_⟩
  rw [hev]
  have : ∀ k ∈ Finset.range n, a k * ∏ l ∈ (Finset.range n).erase k, (x - γ ^ l)
      = (∏ l ∈ Finset.range n, (x - γ ^ l)) * (a k * (x - γ ^ k)⁻¹) := by
    intro k hk
    rw [← Finset.mul_prod_erase _ _ hk]
    have := sub_ne_zero.mpr (hp k (Finset.mem_range.mp hk))
    field_simp
  rw [Finset.sum_congr rfl this, ← Finset.mul_sum, h0, mul_zero]

/-- Two sums of fractions in a row: `d` is fixed before `μ`, and `c` before `ν`. -/
theorem lincheck_sound (n K : ℕ) (γ : F) (hγn : ∀ i < n, ∀ j < n, γ ^ i = γ ^ j → i = j)
    (hγK : ∀ i < K, ∀ j < K, γ ^ i = γ ^ j → i = j) (d : ℕ → F) (Bad : Prop)
    (hbad : (∀ i, i < n → d i = 0) → Bad) :
    ∃ badμ : Finset F, badμ.card ≤ n - 1 ∧ ∀ μ, μ ∉ badμ → ∀ c : ℕ → F,
    ∃ badν : Finset F, badν.card ≤ K - 1 ∧ ∀ ν, ν ∉ badν →
      ((∀ i, i < n → μ ≠ γ ^ i) → (∀ k, k < K → ν ≠ γ ^ k) →
        ∑ k ∈ Finset.range K, c k * (ν - γ ^ k)⁻¹ = 0 →
        ((∀ k, k < K → c k = 0) → ∑ i ∈ Finset.range n, d i * (μ - γ ^ i)⁻¹ = 0) → Bad) := by
  by_cases h1 : ∃ i, i < n ∧ d i ≠ 0
  · obtain ⟨bm, b1, b2⟩ := fractions_ne_zero n γ hγn d h1
    refine ⟨bm, b1, fun μ hμ c => ?_⟩
    by_cases h2 : ∃ k, k < K ∧ c k ≠ 0
    · obtain ⟨bn, b3, b4⟩ := fractions_ne_zero K γ hγK c h2
      exact ⟨bn, b3, fun ν hν _ n2 h0 _ => absurd h0 (b4 ν hν n2)⟩
    · push Not at h2
      exact ⟨∅, by simp, fun ν _ n1 _ _ h0 => absurd (h0 h2) (b2 μ hμ n1)⟩
  · push Not at h1
    exact ⟨∅, by simp, fun μ _ c => ⟨∅, by simp, fun ν _ _ _ _ _ => hbad h1⟩⟩

end VO
