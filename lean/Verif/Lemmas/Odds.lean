import Verif.Spec.Odds
import Mathlib.Algebra.Order.BigOperators.Group.Finset
import Mathlib.Tactic.Ring
import Mathlib.Tactic.Linarith
import Mathlib.Data.Rat.Cast.Order
import Mathlib.Algebra.Order.Field.Basic
import Mathlib.SetTheory.Cardinal.Finite
import Mathlib.Data.Set.Card.Arithmetic

/-
Rules for `Odds`: one challenge after the other.
-/

namespace VO.Spec

variable {F : Type} [Fintype F] {T : Type} [Fintype T]

theorem Odds.mono {k k' : ℕ} {P Q : T → Prop} (h : Odds F k P) (hk : k ≤ k') (hPQ : ∀ t, Q t → P t) :
    Odds F k' Q := by
  unfold Odds at *
  have h1 : {t | Q t}.ncard ≤ {t | P t}.ncard := Set.ncard_le_ncard hPQ (Set.toFinite _)
  calc _ ≤ {t | P t}.ncard * Fintype.card F := Nat.mul_le_mul_right _ h1
    _ ≤ _ := h
    _ ≤ _ := Nat.mul_le_mul_right _ hk

/-- The last challenge: all but one value are good. -/
theorem Odds.last {k : ℕ} {P : F → Prop} (bad : Finset F) (hk : bad.card ≤ k)
    (h : ∀ r, r ∉ bad → ¬ P r) : Odds F k P := by
  unfold Odds
  apply Nat.mul_le_mul_right
  have : {t | P t} ⊆ (bad : Set F) := fun t ht => by
    by_contra hc
    exact h t hc ht
  exact (Set.ncard_le_ncard this bad.finite_toSet).trans (by rw [Set.ncard_coe_finset]; exact hk)

/-- One challenge: few values are bad, for the others the rest of the challenges decide. -/
theorem Odds.step {n k : ℕ} {P : F × T → Prop} (bad : Finset F) (hn : bad.card ≤ n)
    (h : ∀ x, x ∉ bad → Odds F k (fun t => P (x, t))) : Odds F (n + k) P := by
  classical
  unfold Odds at *
  set q := Fintype.card F
  set N := Fintype.card T
  have hfib : {p : F × T | P p}.ncard = ∑ x : F, {t | P (x, t)}.ncard := by
    have e : ∀ x : F, {t | P (x, t)}.ncard = (Finset.univ.filter fun t => P (x, t)).card := by
      intro x
      rw [← Set.ncard_coe_finset]; congr 1; ext; simp
    have e2 : {p : F × T | P p}.ncard = (Finset.univ.filter fun p : F × T => P p).card := by
      rw [← Set.ncard_coe_finset]; congr 1; ext; simp
    rw [e2, Finset.sum_congr rfl (fun x _ => e x)]
    simp only [Finset.card_filter]
    rw [Fintype.sum_prod_type]
  have hcard : Fintype.card (F × T) = q * N := Fintype.card_prod _ _
  rw [hfib, hcard, Finset.sum_mul]
  have h1 : ∀ x ∈ (Finset.univ : Finset F), {t | P (x, t)}.ncard * q
      ≤ (if x ∈ bad then N * q else 0) + k * N := by
    intro x _
    by_cases hx : x ∈ bad
    · rw [if_pos hx]
      have : {t | P (x, t)}.ncard ≤ N := by
        rw [show N = (Set.univ : Set T).ncard by rw [Set.ncard_univ, Nat.card_eq_fintype_card]]
        exact Set.ncard_le_ncard (Set.subset_univ _) (Set.toFinite _)
      have := Nat.mul_le_mul_right q this
      omega
    · rw [if_neg hx]
      have h2 : {t | P (x, t)}.ncard * q ≤ k * N := h x hx
      omega
  refine (Finset.sum_le_sum h1).trans ?_
  rw [Finset.sum_add_distrib, Finset.sum_const, Finset.card_univ, ← Finset.sum_filter,
    Finset.filter_mem_eq_inter, Finset.univ_inter, Finset.sum_const, smul_eq_mul, smul_eq_mul]
  have : bad.card * (N * q) ≤ n * (N * q) := Nat.mul_le_mul_right _ hn
  calc _ ≤ n * (N * q) + Fintype.card F * (k * N) := by omega
    _ = (n + k) * (q * N) := by ring

/-- A challenge of which no value is bad. -/
theorem Odds.skip {k : ℕ} {P : F × T → Prop} (h : ∀ x, Odds F k (fun t => P (x, t))) :
    Odds F k P := by
  have := Odds.step (n := 0) (P := P) ∅ (by simp) (fun x _ => h x)
  rwa [Nat.zero_add] at this

/-- `Odds` as a probability. -/
theorem odds_iff_div [Nonempty F] [Nonempty T] (k : ℕ) (P : T → Prop) :
    Odds F k P ↔ ({t | P t}.ncard : ℚ) / Fintype.card T ≤ (k : ℚ) / Fintype.card F := by
  unfold Odds
  rw [div_le_div_iff₀ (by exact_mod_cast Fintype.card_pos) (by exact_mod_cast Fintype.card_pos)]
  norm_cast

end VO.Spec
