import Verif.Lemmas.PlonkPi2
import Verif.Spec.PlonkCircuit

/-
Maps of public inputs.
-/

set_option linter.unusedSectionVars false

namespace VO.Plonk

open VO.Spec VO.Spec.Plonk

variable {F : Type} [Field F] [DecidableEq F]

theorem piAt_nil (i : ℕ) : piAt ([] : List (ℕ × F)) i = 0 := rfl

theorem piAt_cons (a : ℕ × F) (l : List (ℕ × F)) (i : ℕ) :
    piAt (a :: l) i = if a.1 = i then a.2 else piAt l i := by
  unfold piAt
  by_cases h : a.1 = i
  · rw [List.find?_cons_of_pos (by simpa using h), if_pos h]
  · rw [List.find?_cons_of_neg (by simpa using h), if_neg h]

theorem piAt_absent {l : List (ℕ × F)} {i : ℕ} (h : ∀ e ∈ l, e.1 ≠ i) : piAt l i = 0 :=
  pubOf_absent h

theorem piAt_mem {l : List (ℕ × F)} (hs : l.Pairwise fun a b => a.1 < b.1) {e : ℕ × F} (he : e ∈ l) :
    piAt l e.1 = e.2 := by
  induction l with
  | nil => simp at he
  | cons a l ih =>
    rw [List.pairwise_cons] at hs
    rw [piAt_cons]
    rcases List.mem_cons.1 he with rfl | he
    · simp
    · rw [if_neg (hs.1 e he).ne, ih hs.2 he]

theorem any_iff {l : List (ℕ × F)} (h : Canonical l) (i : ℕ) :
    l.any (fun e => e.1 == i) = true ↔ piAt l i ≠ 0 := by
  rw [List.any_eq_true]
  constructor
  · rintro ⟨e, he, hi⟩
    have hi : e.1 = i := by simpa using hi
    rw [← hi, piAt_mem h.1 he]
    exact h.2 e he
  · intro hn
    by_contra hc
    exact hn (piAt_absent fun e he hi => hc ⟨e, he, by simpa using hi⟩)

theorem piAt_insert (pos : ℕ) (x : F) {l : List (ℕ × F)} (h : ∀ e ∈ l, e.1 ≠ pos) (i : ℕ) :
    piAt (btreeInsert pos x l) i = if pos = i then x else piAt l i := by
  induction l with
  | nil => simp [btreeInsert, piAt_cons, piAt_nil]
  | cons a l ih =>
    obtain ⟨k, y⟩ := a
    simp only [btreeInsert]
    split_ifs with h1 h2 h2
    · rw [piAt_cons, if_pos h2]
    · rw [piAt_cons, if_neg h2]
    · rw [piAt_cons, ih fun e he => h e (by simp [he]), if_pos h2]
      rw [if_neg]
      simp only
      rw [← h2]
      exact h (k, y) (by simp)
    · rw [piAt_cons, piAt_cons, ih fun e he => h e (by simp [he]), if_neg h2]

/-- One insertion. -/
theorem piInsert_spec {l : List (ℕ × F)} (h : Canonical l) (pos : ℕ) (x : F) :
    (piAt l pos ≠ 0 → piInsert l pos x = .error .panic) ∧
    (piAt l pos = 0 → ∃ l', piInsert l pos x = .ok l' ∧ Canonical l' ∧
      ∀ i, piAt l' i = if pos = i then x else piAt l i) := by
  unfold piInsert
  constructor
  · intro hn
    rw [if_pos ((any_iff h pos).2 hn)]
  · intro h0
    have hna : ¬ l.any (fun e => e.1 == pos) = true := by rw [any_iff h]; simpa using h0
    rw [if_neg hna]
    split_ifs with hx
    · refine ⟨l, rfl, h, fun i => ?_⟩
      split_ifs with hi
      · rw [← hi, h0, hx]
      · rfl
    · have hne : ∀ e ∈ l, e.1 ≠ pos := fun e he hk => hna (List.any_eq_true.2 ⟨e, he, by simp [hk]⟩)
      refine ⟨_, rfl, ⟨btreeInsert_sorted h.1 hne, fun e he => ?_⟩, piAt_insert pos x hne⟩
      rcases btreeInsert_mem he with rfl | he
      · exact hx
      · exact h.2 e he

theorem piInsertAll_spec {l : List (ℕ × F)} (h : Canonical l) (pos : ℕ) (xs : List F) :
    ((∃ k < xs.length, piAt l (pos + k) ≠ 0) → piInsertAll l pos xs = .error .panic) ∧
    ((∀ k < xs.length, piAt l (pos + k) = 0) → ∃ l', piInsertAll l pos xs = .ok l' ∧ Canonical l' ∧
      ∀ i, piAt l' i = if pos ≤ i ∧ i < pos + xs.length then xs.getD (i - pos) 0 else piAt l i) := by
  induction xs generalizing l pos with
  | nil =>
    refine ⟨fun ⟨k, hk, _⟩ => by simp at hk, fun _ => ⟨l, rfl, h, fun i => ?_⟩⟩
    rw [if_neg (by simp)]
  | cons x xs ih =>
    unfold piInsertAll
    by_cases h0 : piAt l pos = 0
    · obtain ⟨l1, e1, c1, v1⟩ := (piInsert_spec h pos x).2 h0
      rw [e1]
      simp only [ok_bind]
      obtain ⟨i1, i2⟩ := ih c1 (pos + 1)
      have hv : ∀ k, piAt l1 (pos + 1 + k) = piAt l (pos + (k + 1)) := by
        intro k
        rw [v1, if_neg (by omega)]
        congr 1
        omega
      constructor
      · rintro ⟨k, hk, hne⟩
        refine i1 ?_
        rcases k with _ | k
        · exact absurd h0 (by simpa using hne)
        · refine ⟨k, by simpa using hk, ?_⟩
          rw [hv]; exact hne
      · intro hz
        obtain ⟨l2, e2, c2, v2⟩ := i2 fun k hk => by
          rw [hv]; exact hz (k + 1) (by simpa using hk)
        refine ⟨l2, e2, c2, fun i => ?_⟩
        rw [v2, v1]
        simp only [List.length_cons]
        by_cases hi : pos = i
        · subst hi
          rw [if_neg (by omega), if_pos rfl, if_pos ⟨le_rfl, by omega⟩]
          simp
        · rw [if_neg hi]
          by_cases hr : pos + 1 ≤ i ∧ i < pos + 1 + xs.length
          · rw [if_pos hr, if_pos ⟨by omega, by omega⟩]
            obtain ⟨j, hj⟩ : ∃ j, i - pos = j + 1 := ⟨i - pos - 1, by omega⟩
            rw [hj, List.getD_cons_succ]
            congr 1
            omega
          · rw [if_neg hr, if_neg (by omega)]
    · constructor
      · intro _
        rw [(piInsert_spec h pos x).1 h0]
        rfl
      · intro hz
        exact absurd (by simpa using hz 0 (by simp)) h0

theorem canonical_unique {l l' : List (ℕ × F)} (h : Canonical l) (h' : Canonical l')
    (hv : ∀ i, piAt l i = piAt l' i) : l = l' := by
  have mem : ∀ {l : List (ℕ × F)}, Canonical l → ∀ i x, (i, x) ∈ l ↔ piAt l i = x ∧ x ≠ 0 := by
    intro l hl i x
    constructor
    · intro hm
      exact ⟨piAt_mem hl.1 hm, hl.2 _ hm⟩
    · rintro ⟨rfl, hx⟩
      by_contra hn
      refine hx (piAt_absent fun e he hi => hn ?_)
      subst hi
      rw [piAt_mem hl.1 he]
      exact he
  have hp : l.Perm l' := by
    rw [List.perm_ext_iff_of_nodup]
    · rintro ⟨i, x⟩
      rw [mem h, mem h', hv]
    · exact h.1.imp fun hab e => by rw [e] at hab; exact lt_irrefl _ hab
    · exact h'.1.imp fun hab e => by rw [e] at hab; exact lt_irrefl _ hab
  exact hp.eq_of_pairwise (fun a b _ _ h1 h2 => absurd h1 (by omega)) h.1 h'.1

/-- Many insertions of one element. -/
theorem piFold_spec (l : List (ℕ × F)) : ∀ {pi : List (ℕ × F)}, Canonical pi →
    (¬ ((∀ e ∈ l, piAt pi e.1 = 0) ∧ l.Pairwise fun a b => a.1 = b.1 → a.2 = 0) →
      l.foldlM (fun pi e => piInsert pi e.1 e.2) pi = .error .panic) ∧
    ((∀ e ∈ l, piAt pi e.1 = 0) ∧ (l.Pairwise fun a b => a.1 = b.1 → a.2 = 0) →
      ∃ pi', l.foldlM (fun pi e => piInsert pi e.1 e.2) pi = .ok pi' ∧ Canonical pi' ∧
        ∀ i, piAt pi' i = piAt pi i + ((l.filter fun e => e.1 = i).map (·.2)).sum) := by
  induction l with
  | nil =>
    intro pi h
    exact ⟨fun hn => absurd ⟨by simp, List.Pairwise.nil⟩ hn, fun _ => ⟨pi, rfl, h, by simp⟩⟩
  | cons a l ih =>
    intro pi h
    rw [List.foldlM_cons]
    by_cases h0 : piAt pi a.1 = 0
    · obtain ⟨p1, e1, c1, v1⟩ := (piInsert_spec h a.1 a.2).2 h0
      rw [e1]
      simp only [ok_bind]
      obtain ⟨i1, i2⟩ := ih c1
      have key : ((∀ e ∈ l, piAt p1 e.1 = 0) ∧ l.Pairwise fun a b => a.1 = b.1 → a.2 = 0) ↔
          ((∀ e ∈ a :: l, piAt pi e.1 = 0) ∧ (a :: l).Pairwise fun a b => a.1 = b.1 → a.2 = 0) := by
        rw [List.pairwise_cons]
        constructor
        · rintro ⟨q1, q2⟩
          refine ⟨fun e he => ?_, fun e he hk => ?_, q2⟩
          · rcases List.mem_cons.1 he with rfl | he
            · exact h0
            · by_cases hk : a.1 = e.1
              · rw [← hk]; exact h0
              · have := q1 e he
                rwa [v1, if_neg hk] at this
          · have := q1 e he
            rwa [v1, if_pos hk] at this
        · rintro ⟨q1, q2, q3⟩
          refine ⟨fun e he => ?_, q3⟩
          rw [v1]
          split_ifs with hk
          · exact q2 e he hk
          · exact q1 e (by simp [he])
      refine ⟨fun hn => i1 (by rwa [key]), fun hy => ?_⟩
      obtain ⟨p2, e2, c2, v2⟩ := i2 (key.2 hy)
      refine ⟨p2, e2, c2, fun i => ?_⟩
      rw [v2, v1]
      by_cases hi : a.1 = i
      · rw [if_pos hi, List.filter_cons_of_pos (by simpa using hi), List.map_cons, List.sum_cons, ← hi,
          h0]
        ring
      · rw [if_neg hi, List.filter_cons_of_neg (by simpa using hi)]
    · refine ⟨fun _ => ?_, fun hy => absurd (hy.1 a (by simp)) h0⟩
      rw [(piInsert_spec h a.1 a.2).1 h0]
      rfl

theorem addInput_one (pi : List (ℕ × F)) (pos : ℕ) (x : F) :
    piAddInput pi pos (some [x]) = (liftP (piInsert pi pos x)).map fun p => (p, 1) := by
  unfold piAddInput piExtend piInsertAll
  cases h : piInsert pi pos x with
  | error e => simp [h, liftP, bind, Except.bind, Except.map]
  | ok p => simp [h, liftP, bind, Except.bind, Except.map, piInsertAll, piExtend]

theorem liftP_fold (l : List (ℕ × F)) (pi : List (ℕ × F)) :
    (l.map fun e => (e.1, some [e.2])).foldlM (fun (pi : List (ℕ × F)) (e : ℕ × PiItem F) => do
      let r ← piAddInput pi e.1 e.2
      return r.1) pi = liftP (l.foldlM (fun pi e => piInsert pi e.1 e.2) pi) := by
  induction l generalizing pi with
  | nil => rfl
  | cons a l ih =>
    rw [List.map_cons, List.foldlM_cons, List.foldlM_cons, addInput_one]
    cases h : piInsert pi a.1 a.2 with
    | error e => cases e <;> rfl
    | ok p =>
      simp only [liftP, Except.map, ok_bind, pure, Except.pure]
      exact ih p

end VO.Plonk
