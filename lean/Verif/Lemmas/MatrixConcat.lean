import Verif.Lemmas.Matrix

set_option linter.unusedSectionVars false

namespace VO
open Spec

variable {F : Type} [Field F] [DecidableEq F]

/-- Exchanging rows and columns exchanges the indices of the entries. -/
theorem entry_swap (m : SparseMat F) (i j : ℕ) :
    entry ⟨m.cols, m.rows, m.vals⟩ i j = entry m j i := by
  have h : triples (⟨m.cols, m.rows, m.vals⟩ : SparseMat F)
      = (triples m).map (fun e => ((e.1.2, e.1.1), e.2)) := by
    obtain ⟨r, c, v⟩ := m
    simp only [triples]
    induction r generalizing c v with
    | nil => simp
    | cons a r ih =>
      cases c with
      | nil => simp
      | cons b c =>
        cases v with
        | nil => simp
        | cons d v => simp only [List.zip_cons_cons, List.map_cons, ih]
  unfold entry
  rw [h, List.filter_map, List.map_map]
  congr 1
  congr 1
  apply List.filter_congr
  intro e _
  simp [Bool.and_comm]

theorem inRange_swap {m : SparseMat F} {h k : ℕ} (hr : InRange m h k) :
    InRange (⟨m.cols, m.rows, m.vals⟩ : SparseMat F) k h := by
  obtain ⟨r, c, v⟩ := m
  intro e he
  have : ((e.1.2, e.1.1), e.2) ∈ triples (⟨r, c, v⟩ : SparseMat F) := by
    simp only [triples] at he ⊢
    clear hr
    induction r generalizing c v with
    | nil => simp at he
    | cons a r ih =>
      cases c with
      | nil => simp at he
      | cons b c =>
        cases v with
        | nil => simp at he
        | cons d v =>
          simp only [List.zip_cons_cons, List.mem_cons] at he ⊢
          rcases he with rfl | he
          · left; rfl
          · right; exact ih c v he
  have := hr _ this
  exact ⟨this.2, this.1⟩

/-- Appending all three arrays of two sparse matrices. -/
theorem entry_append (a b : SparseMat F) (ha : SameLengths a) (i j : ℕ) :
    entry ⟨a.rows ++ b.rows, a.cols ++ b.cols, a.vals ++ b.vals⟩ i j
      = entry a i j + entry b i j := by
  unfold entry triples
  rw [List.zip_append ha.1, List.zip_append (by simp [List.length_zip, ha.1, ha.2]),
    List.filter_append, List.map_append, List.sum_append]

theorem entry_shift (m : SparseMat F) (s t i j : ℕ) :
    entry ⟨m.rows.map (· + s), m.cols.map (· + t), m.vals⟩ i j
      = if s ≤ i ∧ t ≤ j then entry m (i - s) (j - t) else 0 := by
  have h : triples (⟨m.rows.map (· + s), m.cols.map (· + t), m.vals⟩ : SparseMat F)
      = (triples m).map (fun e => ((e.1.1 + s, e.1.2 + t), e.2)) := by
    rw [triples, triples, List.zip_map, List.zip_map_left]
    rfl
  unfold entry
  rw [h, List.filter_map, List.map_map]
  split_ifs with hst
  · congr 1
    have : (Prod.snd ∘ fun e : (ℕ × ℕ) × F => ((e.1.1 + s, e.1.2 + t), e.2)) = Prod.snd := rfl
    rw [this]
    congr 1
    apply List.filter_congr
    intro e _
    simp only [Function.comp, decide_eq_decide]
    omega
  · rw [List.filter_eq_nil_iff.mpr]
    · simp
    · intro e _
      simp only [Function.comp, decide_eq_true_eq]
      omega

theorem entry_out (m : SparseMat F) {h k : ℕ} (hr : InRange m h k) {i j : ℕ}
    (hij : h ≤ i ∨ k ≤ j) : entry m i j = 0 := by
  unfold entry
  rw [List.filter_eq_nil_iff.mpr]
  · simp
  · intro e he
    have := hr e he
    simp only [decide_eq_true_eq]
    omega

theorem sum_range_window (n s k : ℕ) (hs : s + k ≤ n) (f : ℕ → F)
    (h0 : ∀ j, j < s ∨ s + k ≤ j → f j = 0) :
    ∑ j ∈ Finset.range n, f j = ∑ j ∈ Finset.range k, f (s + j) := by
  obtain ⟨r, rfl⟩ := Nat.exists_eq_add_of_le hs
  rw [Finset.sum_range_add, Finset.sum_range_add,
    Finset.sum_eq_zero (s := Finset.range s) (fun j hj => h0 j (Or.inl (Finset.mem_range.mp hj))),
    Finset.sum_eq_zero (s := Finset.range r) (fun j hj => h0 _ (Or.inr (by omega)))]
  ring

end VO
