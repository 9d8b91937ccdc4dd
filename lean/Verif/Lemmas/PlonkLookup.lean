import Mathlib.Data.List.GetD
import Mathlib.Algebra.BigOperators.Group.List.Basic
import Verif.Lemmas.PlonkPerm3
import Verif.Spec.PlonkLookup

/-
The lookup argument.
-/

set_option linter.unusedSectionVars false

namespace VO.Plonk

open VO.Spec VO.Spec.Plonk Polynomial

variable {F : Type} [Field F] [DecidableEq F]

/-! ### `combine_split` -/

theorem eraseDups_snoc (l : List F) (x : F) :
    (l ++ [x]).eraseDups = if x ∈ l then l.eraseDups else l.eraseDups ++ [x] := by
  rw [List.eraseDups_append]
  by_cases h : x ∈ l
  · simp [List.removeAll, h]
  · simp [List.removeAll, h, List.eraseDups_cons]

theorem nodup_eraseDups (l : List F) : l.eraseDups.Nodup := by
  induction l using List.reverseRecOn with
  | nil => simp
  | append_singleton l x ih =>
    rw [eraseDups_snoc]
    split_ifs with h
    · exact ih
    · rw [List.nodup_append]
      refine ⟨ih, by simp, ?_⟩
      intro a ha b hb
      rw [List.mem_singleton] at hb
      subst hb
      rintro rfl
      exact h (List.mem_eraseDups.1 ha)

theorem countInsert_all (t : List F) :
    t.foldl countInsert [] = t.eraseDups.map fun x => (x, t.count x) := by
  induction t using List.reverseRecOn with
  | nil => rfl
  | append_singleton l x ih =>
    rw [List.foldl_append, ih, List.foldl_cons, List.foldl_nil, eraseDups_snoc]
    have hany : (l.eraseDups.map fun y => (y, l.count y)).any (fun e => decide (e.1 = x)) = true
        ↔ x ∈ l := by
      simp [List.any_eq_true]
    unfold countInsert
    by_cases h : x ∈ l
    · rw [if_pos (hany.2 h), if_pos h, List.map_map]
      apply List.map_congr_left
      intro y _
      by_cases hy : y = x
      · subst hy; simp
      · simp [hy, List.count_append, List.count_singleton, Ne.symm hy]
    · rw [if_neg (fun hc => h (hany.1 hc)), if_neg h, List.map_append]
      congr 1
      · apply List.map_congr_left
        intro y hy
        have hyx : y ≠ x := fun hc => h (by rw [← hc]; exact List.mem_eraseDups.1 hy)
        simp [List.count_append, List.count_singleton, Ne.symm hyx]
      · simp [List.count_append, List.count_eq_zero_of_not_mem h]

theorem countBump_all (L : List F) (c : F → ℕ) (f : List F) :
    f.foldlM countBump (L.map fun x => (x, c x)) =
      if ∀ x ∈ f, x ∈ L then .ok (L.map fun x => (x, c x + f.count x))
      else .error .elementNotIndexed := by
  induction f generalizing c with
  | nil => simp; rfl
  | cons y f ih =>
    rw [List.foldlM_cons]
    have hany : (L.map fun x => (x, c x)).any (fun e => decide (e.1 = y)) = true ↔ y ∈ L := by
      simp [List.any_eq_true]
    unfold countBump
    by_cases h : y ∈ L
    · rw [if_pos (hany.2 h)]
      have e : ((L.map fun x => (x, c x)).map fun e => if e.1 = y then (e.1, e.2 + 1) else e)
          = L.map fun x => (x, if x = y then c x + 1 else c x) := by
        rw [List.map_map]
        apply List.map_congr_left
        intro x _
        by_cases hx : x = y <;> simp [hx]
      rw [e]
      show f.foldlM countBump _ = _
      rw [ih]
      by_cases hf : ∀ x ∈ f, x ∈ L
      · rw [if_pos hf, if_pos (by simpa [h] using hf)]
        congr 1
        apply List.map_congr_left
        intro x _
        by_cases hx : x = y
        · subst hx; simp; omega
        · simp [hx, List.count_cons, Ne.symm hx]
      · rw [if_neg hf, if_neg (by simpa [h] using hf)]
    · rw [if_neg (fun hc => h (hany.1 hc)), if_neg (by simp [h])]
      rfl

/-- The elements at even places and at odd places. -/
def evens : List F → List F
  | [] => []
  | [a] => [a]
  | a :: _ :: l => a :: evens l

/-- See `evens`. -/
def odds : List F → List F
  | [] => []
  | [_] => []
  | _ :: b :: l => b :: odds l

theorem evens_cons (a : F) (l : List F) : evens (a :: l) = a :: odds l ∧ odds (a :: l) = evens l := by
  induction l generalizing a with
  | nil => exact ⟨rfl, rfl⟩
  | cons b l ih => exact ⟨by rw [evens, (ih b).2], by rw [odds, (ih b).1]⟩

theorem evens_append (l m : List F) :
    (l.length % 2 = 0 → evens (l ++ m) = evens l ++ evens m ∧ odds (l ++ m) = odds l ++ odds m) ∧
    (l.length % 2 = 1 → evens (l ++ m) = evens l ++ odds m ∧ odds (l ++ m) = odds l ++ evens m) := by
  induction l with
  | nil => exact ⟨fun _ => ⟨rfl, rfl⟩, fun h => by simp at h⟩
  | cons a l ih =>
    rw [List.cons_append, (evens_cons a (l ++ m)).1, (evens_cons a (l ++ m)).2, (evens_cons a l).1,
      (evens_cons a l).2, List.length_cons]
    constructor
    · intro h
      obtain ⟨h1, h2⟩ := ih.2 (by omega)
      exact ⟨by rw [h2]; rfl, h1⟩
    · intro h
      obtain ⟨h1, h2⟩ := ih.1 (by omega)
      exact ⟨by rw [h2]; rfl, h1⟩

theorem evens_replicate (x : F) (k : ℕ) :
    evens (List.replicate k x) = List.replicate ((k + 1) / 2) x ∧
      odds (List.replicate k x) = List.replicate (k / 2) x := by
  induction k with
  | zero => exact ⟨rfl, rfl⟩
  | succ k ih =>
    rw [List.replicate_succ, (evens_cons x _).1, (evens_cons x _).2, ih.1, ih.2]
    refine ⟨?_, rfl⟩
    rw [show (k + 1 + 1) / 2 = k / 2 + 1 by omega, List.replicate_succ]

theorem split_all (L : List F) (c : F → ℕ) :
    (L.map fun x => (x, c x)).foldl splitStep ⟨[], [], false⟩ =
      (⟨evens (L.flatMap fun x => List.replicate (c x) x),
        odds (L.flatMap fun x => List.replicate (c x) x),
        decide ((L.flatMap fun x => List.replicate (c x) x).length % 2 = 1)⟩ : SplitSt F) := by
  induction L using List.reverseRecOn with
  | nil => rfl
  | append_singleton L x ih =>
    rw [List.map_append, List.foldl_append, ih, List.flatMap_append]
    set s := L.flatMap fun x => List.replicate (c x) x
    simp only [List.map_cons, List.map_nil, List.foldl_cons, List.foldl_nil, List.flatMap_cons,
      List.flatMap_nil, List.append_nil, List.length_append, List.length_replicate]
    obtain ⟨e0, e1⟩ := evens_append s (List.replicate (c x) x)
    have hr := evens_replicate x (c x)
    unfold splitStep
    rcases Nat.mod_two_eq_zero_or_one s.length with h | h <;>
      rcases Nat.mod_two_eq_zero_or_one (c x) with h' | h'
    · rw [(e0 h).1, (e0 h).2, hr.1, hr.2, show (c x + 1) / 2 = c x / 2 by omega]
      simp [h, h', Nat.add_mod]
    · rw [(e0 h).1, (e0 h).2, hr.1, hr.2, show (c x + 1) / 2 = c x / 2 + 1 by omega,
        List.replicate_succ']
      simp [h, h', Nat.add_mod]
    · rw [(e1 h).1, (e1 h).2, hr.1, hr.2, show (c x + 1) / 2 = c x / 2 by omega]
      simp [h, h', Nat.add_mod]
    · rw [(e1 h).1, (e1 h).2, hr.1, hr.2, show (c x + 1) / 2 = c x / 2 + 1 by omega,
        List.replicate_succ']
      simp [h, h', Nat.add_mod]

theorem combineSplit_eq (t f : List F) :
    combineSplit t f = if ∀ x ∈ f, x ∈ t then .ok (evens (grouped t f), odds (grouped t f))
      else .error .elementNotIndexed := by
  unfold combineSplit
  rw [countInsert_all, countBump_all]
  simp only [List.mem_eraseDups]
  by_cases h : ∀ x ∈ f, x ∈ t
  · rw [if_pos h, if_pos h]
    show Except.ok _ = _
    rw [split_all]
    rfl
  · rw [if_neg h, if_neg h]
    rfl

theorem evens_getElem? (l : List F) (i : ℕ) : (evens l)[i]? = l[2 * i]? ∧ (odds l)[i]? = l[2 * i + 1]? := by
  induction l using evens.induct generalizing i with
  | case1 => simp [evens, odds]
  | case2 a => cases i <;> simp [evens, odds]
  | case3 a b l ih =>
    cases i with
    | zero => simp [evens, odds]
    | succ i =>
      simp only [evens, odds, List.getElem?_cons_succ, show 2 * (i + 1) = 2 * i + 1 + 1 by ring]
      exact ih i

theorem evens_length (l : List F) : (evens l).length = (l.length + 1) / 2 ∧ (odds l).length = l.length / 2 := by
  induction l using evens.induct with
  | case1 => simp [evens, odds]
  | case2 a => simp [evens, odds]
  | case3 a b l ih => simp only [evens, odds, List.length_cons]; omega

theorem grouped_perm {t f : List F} (h : ∀ x ∈ f, x ∈ t) : (grouped t f).Perm (t ++ f) := by
  rw [List.perm_iff_count]
  intro a
  rw [List.count_append]
  unfold grouped
  have nd : t.eraseDups.Nodup := nodup_eraseDups t
  by_cases ha : a ∈ t
  · have key : ∀ L : List F, L.Nodup → (List.count a
        (L.flatMap fun x => List.replicate (t.count x + f.count x) x))
        = if a ∈ L then t.count a + f.count a else 0 := by
      intro L
      induction L with
      | nil => simp
      | cons x L ih =>
        intro hL
        rw [List.flatMap_cons, List.count_append, ih (List.nodup_cons.1 hL).2, List.count_replicate]
        by_cases hx : x = a
        · subst hx
          have := (List.nodup_cons.1 hL).1
          simp [this]
        · simp [hx, Ne.symm hx]
    rw [key _ nd, if_pos (List.mem_eraseDups.2 ha)]
  · have haf : a ∉ f := fun hc => ha (h a hc)
    rw [List.count_eq_zero_of_not_mem ha, List.count_eq_zero_of_not_mem haf]
    apply List.count_eq_zero_of_not_mem
    intro hc
    obtain ⟨x, hx, hax⟩ := List.mem_flatMap.1 hc
    have := (List.mem_replicate.1 hax).2
    subst this
    exact ha (List.mem_eraseDups.1 hx)

end VO.Plonk
