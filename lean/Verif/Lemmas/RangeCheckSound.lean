import Verif.Lemmas.RangeCheckRun
import Verif.Lemmas.PartialFraction

set_option linter.unusedSectionVars false

namespace VO
open Spec
open Polynomial (X)

variable {F : Type} [Field F] [DecidableEq F]

/-- A sum of simple fractions over a set of poles with a nonzero coefficient has few zeros. -/
theorem fractions_set_ne_zero (S : Finset F) (c : F → F) (v : F) (hv : v ∈ S) (hc : c v ≠ 0) :
    ∃ bad : Finset F, bad.card ≤ S.card - 1 ∧ ∀ x, x ∉ bad → (∀ a ∈ S, a + x ≠ 0) →
      ∑ a ∈ S, c a * (a + x)⁻¹ ≠ 0 := by
  set q : Polynomial F := ∑ a ∈ S, Polynomial.C (c a) * ∏ b ∈ S.erase a, (X + Polynomial.C b) with hq
  have hev : ∀ x, q.eval x = ∑ a ∈ S, c a * ∏ b ∈ S.erase a, (x + b) := by
    intro x
    rw [hq, Polynomial.eval_finsetSum]
    simp only [Polynomial.eval_mul, Polynomial.eval_C, Polynomial.eval_prod, Polynomial.eval_add,
      Polynomial.eval_X]
  have hq0 : q ≠ 0 := by
    intro h0
    have h1 := hev (-v)
    rw [h0, Polynomial.eval_zero, Finset.sum_eq_single v] at h1
    · have h2 : ∏ b ∈ S.erase v, (-v + b) ≠ 0 := by
        rw [Finset.prod_ne_zero_iff]
        intro l hl
        obtain ⟨l1, l2⟩ := Finset.mem_erase.mp hl
        intro h
        exact l1 (by linear_combination h)
      exact mul_ne_zero hc h2 h1.symm
    · intro b hb hbk
      rw [Finset.prod_eq_zero (Finset.mem_erase.mpr ⟨Ne.symm hbk, hv⟩) (by ring), mul_zero]
    · intro h; exact absurd hv h
  have hd : q.natDegree ≤ S.card - 1 := by
    rw [hq]
    apply Polynomial.natDegree_sum_le_of_forall_le
    intro k hk
    refine (Polynomial.natDegree_C_mul_le _ _).trans ?_
    refine (Polynomial.natDegree_prod_le _ _).trans ?_
    simp only [Polynomial.natDegree_X_add_C, Finset.sum_const, smul_eq_mul, mul_one]
    rw [Finset.card_erase_of_mem hk]
  obtain ⟨j, hj⟩ : ∃ j, q.coeff j ≠ 0 := by
    by_contra hc; push Not at hc
    exact hq0 (Polynomial.ext (by simpa using hc))
  obtain ⟨bad, b1, b2⟩ := bad_of_coeff q j (S.card - 1) hj hd
  refine ⟨bad, b1, fun x hx hp h0 => b2 x hx ?_⟩
  rw [hev]
  have : ∀ k ∈ S, c k * ∏ l ∈ S.erase k, (x + l)
      = (∏ l ∈ S, (x + l)) * (c k * (k + x)⁻¹) := by
    intro k hk
    rw [← Finset.mul_prod_erase _ _ hk, add_comm k x]
    have := hp k hk
    rw [add_comm] at this
    field_simp
  rw [Finset.sum_congr rfl this, ← Finset.mul_sum, h0, mul_zero]

/-- If some looked-up value is not in the table, the sums of inverses agree for few `β` only. -/
theorem lookup_sound (N B : ℕ) (w t m : ℕ → F) (hchar : ∀ k : ℕ, 1 ≤ k → k ≤ N → (k : F) ≠ 0)
    (hbad : ¬ LookupHolds N B w t) :
    ∃ bad : Finset F, bad.card ≤ N + B - 1 ∧ ∀ β, β ∉ bad → (∀ j, j < N → w j + β ≠ 0) →
      (∀ i, i < B → t i + β ≠ 0) →
      ∑ j ∈ Finset.range N, (w j + β)⁻¹ ≠ ∑ i ∈ Finset.range B, m i * (t i + β)⁻¹ := by
  unfold LookupHolds at hbad
  push Not at hbad
  obtain ⟨j0, hj0, hno⟩ := hbad
  set S : Finset F := (Finset.range N).image w ∪ (Finset.range B).image t with hS
  set c : F → F := fun a => (occurrences N w a : F)
    - ∑ i ∈ (Finset.range B).filter (fun i => t i = a), m i with hc
  have hm1 : ∀ j ∈ Finset.range N, w j ∈ S := fun j hj =>
    Finset.mem_union_left _ (Finset.mem_image_of_mem _ hj)
  have hm2 : ∀ i ∈ Finset.range B, t i ∈ S := fun i hi =>
    Finset.mem_union_right _ (Finset.mem_image_of_mem _ hi)
  have hcard : S.card ≤ N + B := by
    refine (Finset.card_union_le _ _).trans ?_
    have h1 := Finset.card_image_le (s := Finset.range N) (f := w)
    have h2 := Finset.card_image_le (s := Finset.range B) (f := t)
    rw [Finset.card_range] at h1 h2
    omega
  have hcv : c (w j0) ≠ 0 := by
    have e : (Finset.range B).filter (fun i => t i = w j0) = ∅ := by
      rw [Finset.filter_eq_empty_iff]
      intro i hi h
      exact hno i (Finset.mem_range.mp hi) h.symm
    simp only [hc, e, Finset.sum_empty, sub_zero]
    apply hchar
    · unfold occurrences
      exact Finset.card_pos.mpr ⟨j0, Finset.mem_filter.mpr ⟨Finset.mem_range.mpr hj0, rfl⟩⟩
    · unfold occurrences
      exact (Finset.card_filter_le _ _).trans (by rw [Finset.card_range])
  obtain ⟨bad, b1, b2⟩ := fractions_set_ne_zero S c (w j0) (hm1 j0 (Finset.mem_range.mpr hj0)) hcv
  refine ⟨bad, by omega, fun β hβ hw ht heq => b2 β hβ ?_ ?_⟩
  · intro a ha
    rcases Finset.mem_union.mp ha with h | h
    · obtain ⟨j, hj, rfl⟩ := Finset.mem_image.mp h
      exact hw j (Finset.mem_range.mp hj)
    · obtain ⟨i, hi, rfl⟩ := Finset.mem_image.mp h
      exact ht i (Finset.mem_range.mp hi)
  · have e1 : ∑ a ∈ S, (occurrences N w a : F) * (a + β)⁻¹
        = ∑ j ∈ Finset.range N, (w j + β)⁻¹ := by
      rw [← Finset.sum_fiberwise_of_maps_to hm1 (fun j => (w j + β)⁻¹)]
      apply Finset.sum_congr rfl
      intro a _
      unfold occurrences
      rw [← nsmul_eq_mul, ← Finset.sum_const]
      apply Finset.sum_congr rfl
      intro j hj
      rw [(Finset.mem_filter.mp hj).2]
    have e2 : ∑ a ∈ S, (∑ i ∈ (Finset.range B).filter (fun i => t i = a), m i) * (a + β)⁻¹
        = ∑ i ∈ Finset.range B, m i * (t i + β)⁻¹ := by
      rw [← Finset.sum_fiberwise_of_maps_to hm2 (fun i => m i * (t i + β)⁻¹)]
      apply Finset.sum_congr rfl
      intro a _
      rw [Finset.sum_mul]
      apply Finset.sum_congr rfl
      intro i hi
      rw [(Finset.mem_filter.mp hi).2]
    simp only [hc, sub_mul, Finset.sum_sub_distrib]
    rw [e1, e2, heq, sub_self]

/-- Entries of the argument before `n`, as the coefficients of a polynomial in `α`. -/
def rcCoef (N B n : ℕ) (β : F) (W P M R S A : Polynomial F) (i j : ℕ) : F :=
  match j with
  | 0 => R.coeff i * (W.coeff i + β * (if i < N then 1 else 0)) - (if i < N then 1 else 0)
  | 1 => S.coeff i * (P.coeff i + β * (if i < B then 1 else 0)) - M.coeff i * (if i < B then 1 else 0)
  | 2 => R.coeff i * (if i < N then 1 else 0) - S.coeff i * (if i < B then 1 else 0)
        - (A.coeff i - (if i = 0 then 0 else A.coeff (i - 1)))
  | 3 => if i = n - 1 then A.coeff i else 0
  | _ => 0

/-- Only few `β` let some prover satisfy all entries when a looked-up value is not in the table. -/
theorem rc_beta_sound (N B n : ℕ) (hn : 1 ≤ n) (hN : N ≤ n) (hB : B ≤ n)
    (hchar : ∀ k : ℕ, 1 ≤ k → k ≤ N → (k : F) ≠ 0) (W P M : Polynomial F)
    (hbad : ¬ LookupHolds N B W.coeff P.coeff) :
    ∃ bad : Finset F, bad.card ≤ N + 2 * B - 1 ∧ ∀ β, β ∉ bad → ∀ R S A : Polynomial F,
      ∃ i, i < n ∧ ∃ j, j < 4 ∧ rcCoef N B n β W P M R S A i j ≠ 0 := by
  obtain ⟨bad, b1, b2⟩ := lookup_sound N B W.coeff P.coeff M.coeff hchar hbad
  have hN1 : 1 ≤ N := by
    unfold LookupHolds at hbad
    push Not at hbad
    obtain ⟨j, hj, -⟩ := hbad
    omega
  refine ⟨bad ∪ (Finset.range B).image (fun i => -P.coeff i), ?_, ?_⟩
  · refine (Finset.card_union_le _ _).trans ?_
    have h1 := Finset.card_image_le (s := Finset.range B) (f := fun i => -P.coeff i)
    rw [Finset.card_range] at h1
    omega
  · intro β hβ R S A
    by_contra hc
    push Not at hc
    have hβ1 : β ∉ bad := fun h => hβ (Finset.mem_union_left _ h)
    have ht : ∀ i, i < B → P.coeff i + β ≠ 0 := by
      intro i hi h
      apply hβ
      refine Finset.mem_union_right _ (Finset.mem_image.mpr ⟨i, Finset.mem_range.mpr hi, ?_⟩)
      linear_combination -h
    have hR : ∀ j, j < N → R.coeff j * (W.coeff j + β) = 1 := by
      intro j hj
      have := hc j (by omega) 0 (by omega)
      simp only [rcCoef, if_pos hj] at this
      linear_combination this
    have hw : ∀ j, j < N → W.coeff j + β ≠ 0 := by
      intro j hj h
      have := hR j hj
      rw [h, mul_zero] at this
      exact zero_ne_one this
    have hS : ∀ i, i < B → S.coeff i = M.coeff i * (P.coeff i + β)⁻¹ := by
      intro i hi
      have := hc i (by omega) 1 (by omega)
      simp only [rcCoef, if_pos hi] at this
      have h2 := ht i hi
      field_simp
      linear_combination this
    have hR' : ∀ j, j < N → R.coeff j = (W.coeff j + β)⁻¹ := by
      intro j hj
      have h2 := hw j hj
      field_simp
      exact hR j hj
    have htel : ∀ k, k < n → A.coeff k = ∑ i ∈ Finset.range (k + 1),
        (R.coeff i * (if i < N then 1 else 0) - S.coeff i * (if i < B then 1 else 0)) := by
      intro k
      induction k with
      | zero =>
        intro _
        have := hc 0 (by omega) 2 (by omega)
        simp only [rcCoef, if_true] at this
        rw [Finset.sum_range_one]
        linear_combination -this
      | succ k ih =>
        intro hk
        have := hc (k + 1) hk 2 (by omega)
        simp only [rcCoef, Nat.add_sub_cancel] at this
        rw [if_neg (c := k + 1 = 0) (by omega)] at this
        rw [Finset.sum_range_succ, ← ih (by omega)]
        linear_combination -this
    have hlast := hc (n - 1) (by omega) 3 (by omega)
    simp only [rcCoef, if_true] at hlast
    have h0 := htel (n - 1) (by omega)
    rw [hlast, Nat.sub_add_cancel hn, Finset.sum_sub_distrib] at h0
    have cut : ∀ (K : ℕ) (f : ℕ → F), K ≤ n →
        ∑ i ∈ Finset.range n, f i * (if i < K then 1 else 0) = ∑ i ∈ Finset.range K, f i := by
      intro K f hK
      have : ∀ i ∈ Finset.range n, f i * (if i < K then (1 : F) else 0) = if i < K then f i else 0 := by
        intro i _; split_ifs <;> ring
      rw [Finset.sum_congr rfl this, ← Finset.sum_filter]
      congr 1
      ext k; simp only [Finset.mem_filter, Finset.mem_range]; omega
    rw [cut N _ hN, cut B _ hB] at h0
    refine b2 β hβ1 hw ht ?_
    rw [Finset.sum_congr rfl (fun j hj => (hR' j (Finset.mem_range.mp hj)).symm),
      Finset.sum_congr rfl (fun i hi => (hS i (Finset.mem_range.mp hi)).symm)]
    linear_combination -h0

/-- For all but three `α` some entry of the argument is not zero. -/
theorem rc_alpha_sound (N B n : ℕ) (hn : 1 ≤ n) (β : F) (W P M R S A : Polynomial F)
    (h : ∃ i, i < n ∧ ∃ j, j < 4 ∧ rcCoef N B n β W P M R S A i j ≠ 0) :
    ∃ bad : Finset F, bad.card ≤ 3 ∧ ∀ α, α ∉ bad → ∀ P1,
      ∃ i, hadamardEntry (rcPolys N B n α β W P M R S A P1) i ≠ 0 := by
  obtain ⟨i, hi, j, hj, hne⟩ := h
  set k := rcCoef N B n β W P M R S A i with hk
  set q : Polynomial F := ∑ m ∈ Finset.range 4, Polynomial.C (k m) * X ^ m with hq
  obtain ⟨bad, b1, b2⟩ := bad_of_coeff q j 3 (by
      rw [hq, Polynomial.finsetSum_coeff]
      simp only [Polynomial.coeff_C_mul_X_pow]
      rw [Finset.sum_ite_eq, if_pos (Finset.mem_range.mpr hj)]
      exact hne) (by
      apply Polynomial.natDegree_sum_le_of_forall_le
      intro m hm
      refine (Polynomial.natDegree_C_mul_X_pow_le _ _).trans ?_
      have := Finset.mem_range.mp hm; omega)
  refine ⟨bad, b1, fun α hα P1 => ⟨i, ?_⟩⟩
  rw [rc_entry_lt N B n hn α β W P M R S A P1 i hi]
  have := b2 α hα
  intro h0
  apply this
  rw [hq, Polynomial.eval_finsetSum]
  simp only [Finset.sum_range_succ, Finset.sum_range_zero, Polynomial.eval_mul, Polynomial.eval_C,
    Polynomial.eval_pow, Polynomial.eval_X]
  simp only [hk, rcCoef]
  linear_combination h0

end VO
