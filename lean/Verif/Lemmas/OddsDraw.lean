import Verif.Lemmas.Odds

/-
Rules for `Odds` when the challenges are not drawn from the field itself but computed from something drawn
uniformly, such as bytes of a transcript.
-/

namespace VO.Spec

variable {F : Type} {S : Type} [Fintype S] {T : Type} [Fintype T]

/-- The draws that lead to a bad challenge. -/
theorem draw_bad {c : ℕ} {g : S → F} (hg : ∀ a, {s | g s = a}.ncard ≤ c) (bad : Finset F) :
    ∃ B : Finset S, B.card ≤ c * bad.card ∧ ∀ s, s ∉ B → g s ∉ bad := by
  classical
  refine ⟨bad.biUnion fun a => Finset.univ.filter fun s => g s = a, ?_, fun s hs hb => hs ?_⟩
  · refine Finset.card_biUnion_le.trans ?_
    rw [mul_comm, ← smul_eq_mul]
    refine Finset.sum_le_card_nsmul _ _ _ fun a _ => ?_
    have h := hg a
    rw [← Set.ncard_coe_finset, Finset.coe_filter]
    simpa using h
  · exact Finset.mem_biUnion.2 ⟨_, hb, by simp⟩

/-- One challenge, computed from a draw. -/
theorem Odds.draw {c n k : ℕ} {g : S → F} (hg : ∀ a, {s | g s = a}.ncard ≤ c) {P : S × T → Prop}
    (bad : Finset F) (hn : bad.card ≤ n) (h : ∀ s, g s ∉ bad → Odds S k (fun t => P (s, t))) :
    Odds S (c * n + k) P := by
  obtain ⟨B, h1, h2⟩ := draw_bad hg bad
  exact Odds.step B (h1.trans (Nat.mul_le_mul_left c hn)) fun s hs => h s (h2 s hs)

/-- One challenge, computed injectively from a draw. -/
theorem Odds.inj {n k : ℕ} {g : S → F} (hg : g.Injective) {P : S × T → Prop}
    (bad : Finset F) (hn : bad.card ≤ n) (h : ∀ s, g s ∉ bad → Odds S k (fun t => P (s, t))) :
    Odds S (n + k) P := by
  refine Odds.mono (Odds.draw (c := 1) (fun a => ?_) bad hn h) (by omega) fun _ h => h
  exact Set.ncard_le_one_iff_subsingleton.2 fun x hx y hy => hg (hx.trans hy.symm)

/-- The last draw is from another, larger set. -/
theorem Odds.last_of_le [Fintype F] {k : ℕ} {P : F → Prop} (hc : Fintype.card S ≤ Fintype.card F)
    (bad : Finset F) (hk : bad.card ≤ k) (h : ∀ r, r ∉ bad → ¬ P r) : Odds S k P := by
  unfold Odds
  refine Nat.mul_le_mul ?_ hc
  have : {t | P t} ⊆ (bad : Set F) := fun t ht => by
    by_contra hb
    exact h t hb ht
  exact (Set.ncard_le_ncard this bad.finite_toSet).trans (by rw [Set.ncard_coe_finset]; exact hk)

/-! Rules with the factor in front. -/

/-- One challenge, computed from a draw. -/
theorem Odds.draw_mul {q n k : ℕ} {g : S → F} (hg : ∀ a, {s | g s = a}.ncard ≤ q) {P : S × T → Prop}
    (bad : Finset F) (hn : bad.card ≤ n) (h : ∀ s, g s ∉ bad → Odds S (q * k) (fun t => P (s, t))) :
    Odds S (q * (n + k)) P :=
  Odds.mono (Odds.draw hg bad hn h) (by rw [Nat.mul_add]) fun _ h => h

/-- A draw from another set that is not too small. -/
theorem Odds.uniform_mul [Fintype F] {q n k : ℕ} (hq : Fintype.card S ≤ q * Fintype.card F) {P : F × T → Prop}
    (bad : Finset F) (hn : bad.card ≤ n) (h : ∀ x, x ∉ bad → Odds S (q * k) (fun t => P (x, t))) :
    Odds S (q * (n + k)) P := by
  classical
  unfold Odds at *
  have hfib : {p : F × T | P p}.ncard = ∑ x : F, {t | P (x, t)}.ncard := by
    have e : ∀ x : F, {t | P (x, t)}.ncard = (Finset.univ.filter fun t => P (x, t)).card := by
      intro x
      rw [← Set.ncard_coe_finset]; congr 1; ext; simp
    have e2 : {p : F × T | P p}.ncard = (Finset.univ.filter fun p : F × T => P p).card := by
      rw [← Set.ncard_coe_finset]; congr 1; ext; simp
    rw [e2, Finset.sum_congr rfl (fun x _ => e x)]
    simp only [Finset.card_filter]
    rw [Fintype.sum_prod_type]
  have hcard : Fintype.card (F × T) = Fintype.card F * Fintype.card T := Fintype.card_prod _ _
  rw [hfib, hcard, Finset.sum_mul]
  have h1 : ∀ x ∈ (Finset.univ : Finset F), {t | P (x, t)}.ncard * Fintype.card S
      ≤ (if x ∈ bad then Fintype.card T * (q * Fintype.card F) else 0) + q * k * Fintype.card T := by
    intro x _
    by_cases hx : x ∈ bad
    · rw [if_pos hx]
      have : {t | P (x, t)}.ncard ≤ Fintype.card T := by
        rw [show Fintype.card T = (Set.univ : Set T).ncard by
          rw [Set.ncard_univ, Nat.card_eq_fintype_card]]
        exact Set.ncard_le_ncard (Set.subset_univ _) (Set.toFinite _)
      have := Nat.mul_le_mul this hq
      omega
    · rw [if_neg hx]
      have h2 : {t | P (x, t)}.ncard * Fintype.card S ≤ q * k * Fintype.card T := h x hx
      omega
  refine (Finset.sum_le_sum h1).trans ?_
  rw [Finset.sum_add_distrib, Finset.sum_const, Finset.card_univ, ← Finset.sum_filter,
    Finset.filter_mem_eq_inter, Finset.univ_inter, Finset.sum_const, smul_eq_mul, smul_eq_mul]
  have : bad.card * (Fintype.card T * (q * Fintype.card F)) ≤ n * (Fintype.card T * (q * Fintype.card F)) :=
    Nat.mul_le_mul_right _ hn
  calc _ ≤ n * (Fintype.card T * (q * Fintype.card F)) + Fintype.card F * (q * k * Fintype.card T) := by omega
    _ = q * (n + k) * (Fintype.card F * Fintype.card T) := by ring

/-- The last draw, from another set that is not too small. -/
theorem Odds.last_mul [Fintype F] {q k : ℕ} (hq : Fintype.card S ≤ q * Fintype.card F) {P : F → Prop}
    (bad : Finset F) (hk : bad.card ≤ k) (h : ∀ r, r ∉ bad → ¬ P r) : Odds S (q * k) P := by
  unfold Odds
  have : {t | P t} ⊆ (bad : Set F) := fun t ht => by
    by_contra hb
    exact h t hb ht
  have h1 : {t | P t}.ncard ≤ k :=
    (Set.ncard_le_ncard this bad.finite_toSet).trans (by rw [Set.ncard_coe_finset]; exact hk)
  calc _ ≤ k * (q * Fintype.card F) := Nat.mul_le_mul h1 hq
    _ = _ := by ring

end VO.Spec
