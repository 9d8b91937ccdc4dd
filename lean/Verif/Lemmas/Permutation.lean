import Mathlib.Combinatorics.Pigeonhole
import Mathlib.GroupTheory.Perm.Cycle.Basic
import Verif.Lemmas.Vectors
import Verif.Spec.Wires

set_option linter.unusedSectionVars false

namespace VO
open Spec

/-- The product of the transpositions of the pairs, in order. -/
def wirePerm (pairs : List (ℕ × ℕ)) : Equiv.Perm ℕ :=
  (pairs.map (fun p => Equiv.swap p.1 p.2)).prod

theorem wirePerm_nil : wirePerm [] = 1 := rfl
theorem wirePerm_cons (p : ℕ × ℕ) (l : List (ℕ × ℕ)) :
    wirePerm (p :: l) = Equiv.swap p.1 p.2 * wirePerm l := by simp [wirePerm]
theorem wirePerm_append (l : List (ℕ × ℕ)) (p : ℕ × ℕ) :
    wirePerm (l ++ [p]) = wirePerm l * Equiv.swap p.1 p.2 := by simp [wirePerm]

theorem swap_lt {n a b : ℕ} (ha : a < n) (hb : b < n) {i : ℕ} (hi : i < n) :
    Equiv.swap a b i < n := by
  rw [Equiv.swap_apply_def]; split_ifs <;> assumption

theorem wirePerm_lt {n : ℕ} (pairs : List (ℕ × ℕ)) (hr : ∀ p ∈ pairs, p.1 < n ∧ p.2 < n) {i : ℕ}
    (hi : i < n) : wirePerm pairs i < n := by
  induction pairs generalizing i with
  | nil => simpa [wirePerm_nil]
  | cons p l ih =>
    rw [wirePerm_cons, Equiv.Perm.mul_apply]
    have := hr p (by simp)
    exact swap_lt this.1 this.2 (ih (fun q hq => hr q (by simp [hq])) hi)

theorem swapStep_error {α : Type} (pairs : List (ℕ × ℕ)) (e : Err) :
    pairs.foldl swapStep (.error e : Res (List α)) = .error e := by
  induction pairs with
  | nil => rfl
  | cons p l ih => rw [List.foldl_cons]; exact ih

theorem swap_fold {α : Type} (d : α) (pairs : List (ℕ × ℕ)) (l : List α)
    (hr : ∀ p ∈ pairs, p.1 < l.length ∧ p.2 < l.length) :
    ∃ res, pairs.foldl swapStep (.ok l) = .ok res ∧ res.length = l.length ∧
      ∀ i, i < l.length → res.getD i d = l.getD (wirePerm pairs i) d := by
  induction pairs generalizing l with
  | nil => exact ⟨l, rfl, rfl, fun i _ => by simp [wirePerm_nil]⟩
  | cons p ps ih =>
    obtain ⟨h1, h2⟩ := hr p (by simp)
    have hstep : swapStep (.ok l) p = .ok ((l.set p.1 l[p.2]).set p.2 l[p.1]) := by
      simp [swapStep, List.getElem?_eq_getElem h1, List.getElem?_eq_getElem h2]
    rw [List.foldl_cons, hstep]
    obtain ⟨res, e1, e2, e3⟩ := ih ((l.set p.1 l[p.2]).set p.2 l[p.1])
      (fun q hq => by simpa using hr q (by simp [hq]))
    refine ⟨res, e1, by simpa using e2, ?_⟩
    intro i hi
    rw [e3 i (by simpa using hi), wirePerm_cons, Equiv.Perm.mul_apply]
    have hs : ∀ k, k < l.length → ((l.set p.1 l[p.2]).set p.2 l[p.1]).getD k d
        = l.getD (Equiv.swap p.1 p.2 k) d := by
      intro k hk
      rw [List.getD_eq_getElem _ _ (by simpa using hk),
        List.getD_eq_getElem _ _ (swap_lt h1 h2 hk), List.getElem_set, List.getElem_set]
      by_cases ha : p.2 = k
      · subst ha; simp
      · by_cases hb : p.1 = k
        · subst hb; simp [ha]
        · simp only [ha, hb, if_false]
          congr 1
          rw [Equiv.swap_apply_of_ne_of_ne (Ne.symm hb) (Ne.symm ha)]
    rw [hs]
    exact wirePerm_lt ps (fun q hq => hr q (by simp [hq])) hi

theorem swap_fold_panic {α : Type} (pairs : List (ℕ × ℕ)) (l : List α)
    (hr : ∃ p ∈ pairs, ¬ (p.1 < l.length ∧ p.2 < l.length)) :
    pairs.foldl swapStep (.ok l) = .error .panic := by
  induction pairs generalizing l with
  | nil => simp at hr
  | cons p ps ih =>
    rw [List.foldl_cons]
    by_cases h : p.1 < l.length ∧ p.2 < l.length
    · have hstep : swapStep (.ok l) p = .ok ((l.set p.1 (l[p.2]'h.2)).set p.2 (l[p.1]'h.1)) := by
        simp [swapStep, List.getElem?_eq_getElem h.1, List.getElem?_eq_getElem h.2]
      rw [hstep]
      apply ih
      obtain ⟨q, hq, hn⟩ := hr
      rcases List.mem_cons.mp hq with rfl | hq
      · exact absurd h hn
      · exact ⟨q, hq, by simpa using hn⟩
    · have hstep : swapStep (.ok l) p = .error .panic := by
        unfold swapStep
        simp only
        split
        · next a b ha hb =>
          exact absurd ⟨(List.getElem?_eq_some_iff.mp ha).1, (List.getElem?_eq_some_iff.mp hb).1⟩ h
        · rfl
      rw [hstep]
      exact swapStep_error ps _

/-! ### cycles -/

theorem linked_of_sameCycle (pairs : List (ℕ × ℕ)) (i : ℕ) : Linked pairs (wirePerm pairs i) i := by
  induction pairs generalizing i with
  | nil => exact Relation.EqvGen.refl _
  | cons p l ih =>
    rw [wirePerm_cons, Equiv.Perm.mul_apply]
    have hmono : ∀ a b, Linked l a b → Linked (p :: l) a b := by
      intro a b h
      exact Relation.EqvGen.mono (r := fun a b => (a, b) ∈ l) (fun x y hxy => List.mem_cons_of_mem _ hxy) _ _ h
    refine Relation.EqvGen.trans _ _ _ ?_ (hmono _ _ (ih i))
    have hp : Linked (p :: l) p.1 p.2 := Relation.EqvGen.rel _ _ (by simp)
    rw [Equiv.swap_apply_def]
    split_ifs with h1 h2
    · rw [h1]; exact Relation.EqvGen.symm _ _ hp
    · rw [h2]; exact hp
    · exact Relation.EqvGen.refl _

theorem linked_pow (pairs : List (ℕ × ℕ)) (m i : ℕ) : Linked pairs ((wirePerm pairs ^ m) i) i := by
  induction m with
  | zero => exact Relation.EqvGen.refl _
  | succ m ih =>
    rw [pow_succ', Equiv.Perm.mul_apply]
    exact Relation.EqvGen.trans _ _ _ (linked_of_sameCycle pairs _) ih

theorem pow_lt {n : ℕ} (pairs : List (ℕ × ℕ)) (hr : ∀ p ∈ pairs, p.1 < n ∧ p.2 < n) {i : ℕ}
    (hi : i < n) (m : ℕ) : (wirePerm pairs ^ m) i < n := by
  induction m with
  | zero => simpa
  | succ m ih => rw [pow_succ', Equiv.Perm.mul_apply]; exact wirePerm_lt pairs hr ih

theorem exists_period {n : ℕ} (pairs : List (ℕ × ℕ)) (hr : ∀ p ∈ pairs, p.1 < n ∧ p.2 < n) {i : ℕ}
    (hi : i < n) : ∃ m, 0 < m ∧ (wirePerm pairs ^ m) i = i := by
  obtain ⟨a, -, b, -, hne, hab⟩ := Finset.exists_ne_map_eq_of_card_lt_of_maps_to
    (s := Finset.range (n + 1)) (t := Finset.range n) (by simp)
    (f := fun m => (wirePerm pairs ^ m) i)
    (fun m _ => by simpa using pow_lt pairs hr hi m)
  have key : ∀ a b, a < b → (wirePerm pairs ^ a) i = (wirePerm pairs ^ b) i →
      ∃ m, 0 < m ∧ (wirePerm pairs ^ m) i = i := by
    intro a b hlt h
    refine ⟨b - a, by omega, ?_⟩
    apply (wirePerm pairs ^ a).injective
    rw [← Equiv.Perm.mul_apply, ← pow_add, h]
    congr 2; omega
  rcases lt_or_gt_of_ne hne with h | h
  · exact key a b h hab
  · exact key b a h hab.symm

theorem linked_exists_bound (pairs : List (ℕ × ℕ)) : ∃ n, ∀ p ∈ pairs, p.1 < n ∧ p.2 < n := by
  induction pairs with
  | nil => exact ⟨0, by simp⟩
  | cons p l ih =>
    obtain ⟨n, hn⟩ := ih
    refine ⟨n + p.1 + p.2 + 1, ?_⟩
    intro q hq
    rcases List.mem_cons.mp hq with rfl | hq
    · omega
    · have := hn q hq; omega

/-- One more pair between two components: invariance forces the new equality. -/
theorem invariant_step {α : Type} (l : List (ℕ × ℕ)) (a b : ℕ) (hnl : ¬ Linked l a b) (x : ℕ → α)
    (hx : Invariant (wirePerm l * Equiv.swap a b) x) : Invariant (wirePerm l) x ∧ x a = x b := by
  obtain ⟨n, hn⟩ := linked_exists_bound ((a, a) :: l)
  have hna : a < n := (hn (a, a) (by simp)).1
  have hr : ∀ p ∈ l, p.1 < n ∧ p.2 < n := fun p hp => hn p (by simp [hp])
  set σ := wirePerm l with hσ
  have hab : a ≠ b := fun h => hnl (h ▸ Relation.EqvGen.refl _)
  have ha : x (σ b) = x a := by
    have := hx a; rwa [Equiv.Perm.mul_apply, Equiv.swap_apply_left] at this
  have hb : x (σ a) = x b := by
    have := hx b; rwa [Equiv.Perm.mul_apply, Equiv.swap_apply_right] at this
  have ho : ∀ y, y ≠ a → y ≠ b → x (σ y) = x y := by
    intro y h1 h2
    have := hx y; rwa [Equiv.Perm.mul_apply, Equiv.swap_apply_of_ne_of_ne h1 h2] at this
  have hex := exists_period l hr hna
  classical
  let k := Nat.find hex
  obtain ⟨hk0, hka⟩ := Nat.find_spec hex
  have hmin : ∀ m, 0 < m → m < k → (σ ^ m) a ≠ a := fun m h0 hm hc =>
    Nat.find_min hex hm ⟨h0, hc⟩
  have hnb : ∀ m, (σ ^ m) a ≠ b := fun m hc =>
    hnl (Relation.EqvGen.symm _ _ (hc ▸ linked_pow l m a))
  have hconst : ∀ m, 1 ≤ m → m ≤ k → x ((σ ^ m) a) = x (σ a) := by
    intro m h1 hmk
    induction m, h1 using Nat.le_induction with
    | base => simp
    | succ m h1 ih =>
      rw [pow_succ', Equiv.Perm.mul_apply, ho _ (hmin m (by omega) (by omega)) (hnb m)]
      exact ih (by omega)
  have hsa : x a = x (σ a) := by
    have := hconst k hk0 le_rfl
    have hk : (σ ^ k) a = a := hka
    rwa [hk] at this
  have hxab : x a = x b := by rw [hsa, hb]
  refine ⟨?_, hxab⟩
  intro i
  by_cases h1 : i = a
  · subst h1; exact hsa.symm
  · by_cases h2 : i = b
    · subst h2; rw [ha, hxab]
    · exact ho i h1 h2

theorem forest_append {l : List (ℕ × ℕ)} {p : ℕ × ℕ} (h : Forest (l ++ [p])) :
    Forest l ∧ ¬ Linked l p.1 p.2 := by
  constructor
  · intro k hk
    have := h k (by simp; omega)
    rwa [List.take_append_of_le_length (by omega), List.getElem_append_left hk] at this
  · have := h l.length (by simp)
    rw [List.take_append_of_le_length le_rfl, List.take_length] at this
    simpa using this

theorem invariant_iff {α : Type} (pairs : List (ℕ × ℕ)) (hf : Forest pairs) (x : ℕ → α) :
    Invariant (wirePerm pairs) x ↔ CopyOk pairs x := by
  constructor
  · intro h
    induction pairs using List.reverseRecOn with
    | nil => intro p hp; simp at hp
    | append_singleton l p ih =>
      obtain ⟨f1, f2⟩ := forest_append hf
      rw [wirePerm_append] at h
      obtain ⟨h1, h2⟩ := invariant_step l p.1 p.2 f2 x h
      intro q hq
      rcases List.mem_append.mp hq with hq | hq
      · exact ih f1 h1 q hq
      · rw [List.mem_singleton.mp hq]; exact h2
  · intro h i
    have : ∀ a b, Linked pairs a b → x a = x b := by
      intro a b hab
      induction hab with
      | rel a b hab => exact h _ hab
      | refl a => rfl
      | symm a b _ ih => exact ih.symm
      | trans a b c _ _ h1 h2 => exact h1.trans h2
    exact this _ _ (linked_of_sameCycle pairs i)

end VO
