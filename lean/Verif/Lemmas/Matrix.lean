import Mathlib.Data.List.GetD
import Mathlib.Tactic.Ring
import Mathlib.Tactic.Linarith
import Verif.Spec.Matrix

set_option linter.unusedSectionVars false

namespace VO
open Spec

variable {F : Type} [Field F] [DecidableEq F]

/-- Sum of `v * x_c` over the triples of row `i`. -/
def rowSum (es : List ((ℕ × ℕ) × F)) (x : List F) (i : ℕ) : F :=
  (es.map (fun e => if e.1.1 = i then x.getD e.1.2 0 * e.2 else 0)).sum

def entryOf (es : List ((ℕ × ℕ) × F)) (i j : ℕ) : F :=
  ((es.filter (fun e => e.1.1 = i ∧ e.1.2 = j)).map Prod.snd).sum

theorem rowSum_eq (es : List ((ℕ × ℕ) × F)) (x : List F) (k i : ℕ)
    (hr : ∀ e ∈ es, e.1.2 < k) :
    rowSum es x i = ∑ j ∈ Finset.range k, entryOf es i j * x.getD j 0 := by
  induction es with
  | nil => simp [rowSum, entryOf]
  | cons e es ih =>
    have ih := ih (fun e he => hr e (List.mem_cons_of_mem _ he))
    have he : e.1.2 < k := hr e List.mem_cons_self
    have h1 : rowSum (e :: es) x i
        = (if e.1.1 = i then x.getD e.1.2 0 * e.2 else 0) + rowSum es x i := by
      simp [rowSum]
    have h2 : ∀ j, entryOf (e :: es) i j
        = (if e.1.1 = i ∧ e.1.2 = j then e.2 else 0) + entryOf es i j := by
      intro j
      unfold entryOf
      by_cases h : e.1.1 = i ∧ e.1.2 = j
      · rw [List.filter_cons_of_pos (by simpa using h), if_pos h]; simp
      · rw [List.filter_cons_of_neg (by simpa using h), if_neg h]; simp
    rw [h1, ih]
    simp only [h2, add_mul, Finset.sum_add_distrib]
    congr 1
    by_cases h : e.1.1 = i
    · simp only [h, true_and, if_true, ite_mul, zero_mul]
      rw [Finset.sum_ite_eq]
      simp [he]; ring
    · simp [h]

theorem sparse_fold_ok (right : List F) (es : List ((ℕ × ℕ) × F)) (l : List F)
    (hr : ∀ e ∈ es, e.1.1 < l.length ∧ e.1.2 < right.length) :
    ∃ res, es.foldl (sparseStep right) (.ok l) = .ok res ∧ res.length = l.length ∧
      ∀ i, i < l.length → res.getD i 0 = l.getD i 0 + rowSum es right i := by
  induction es generalizing l with
  | nil => exact ⟨l, rfl, rfl, by simp [rowSum]⟩
  | cons e es ih =>
    obtain ⟨he1, he2⟩ := hr e List.mem_cons_self
    have hstep : sparseStep right (.ok l) e
        = .ok (l.set e.1.1 (l.getD e.1.1 0 + right.getD e.1.2 0 * e.2)) := by
      simp only [sparseStep]
      rw [List.getElem?_eq_getElem he1, List.getElem?_eq_getElem he2,
        List.getD_eq_getElem _ _ he1, List.getD_eq_getElem _ _ he2]
    rw [List.foldl_cons, hstep]
    obtain ⟨res, h1, h2, h3⟩ := ih (l.set e.1.1 (l.getD e.1.1 0 + right.getD e.1.2 0 * e.2))
      (fun e' he' => by simpa using hr e' (List.mem_cons_of_mem _ he'))
    refine ⟨res, h1, by simpa using h2, fun i hi => ?_⟩
    rw [h3 i (by simpa using hi)]
    have hs : rowSum (e :: es) right i
        = (if e.1.1 = i then right.getD e.1.2 0 * e.2 else 0) + rowSum es right i := by
      simp [rowSum]
    rw [hs, List.getD_eq_getElem _ _ (by simpa using hi), List.getElem_set,
      List.getD_eq_getElem _ _ hi]
    split_ifs with h
    · subst h; rw [List.getD_eq_getElem _ _ he1]; ring
    · ring

theorem sparse_fold_error (right : List F) (es : List ((ℕ × ℕ) × F)) (x : Err) :
    es.foldl (sparseStep right) (.error x) = .error x := by
  induction es with
  | nil => rfl
  | cons e es ih => rw [List.foldl_cons]; exact ih

theorem sparse_fold_panic (right : List F) (es : List ((ℕ × ℕ) × F)) (l : List F)
    (hr : ∃ e ∈ es, ¬ (e.1.1 < l.length ∧ e.1.2 < right.length)) :
    es.foldl (sparseStep right) (.ok l) = .error .panic := by
  induction es generalizing l with
  | nil => simp at hr
  | cons e es ih =>
    rw [List.foldl_cons]
    by_cases h : e.1.1 < l.length ∧ e.1.2 < right.length
    · obtain ⟨he1, he2⟩ := h
      have hstep : sparseStep right (.ok l) e
          = .ok (l.set e.1.1 (l[e.1.1] + right[e.1.2] * e.2)) := by
        simp only [sparseStep]
        rw [List.getElem?_eq_getElem he1, List.getElem?_eq_getElem he2]
      rw [hstep]
      apply ih
      obtain ⟨e', he', hn⟩ := hr
      rcases List.mem_cons.1 he' with rfl | he'
      · exact absurd ⟨he1, he2⟩ hn
      · exact ⟨e', he', by simpa using hn⟩
    · have hstep : sparseStep right (.ok l) e = .error .panic := by
        simp only [sparseStep]
        rcases not_and_or.1 h with h | h
        · rw [List.getElem?_eq_none (by omega)]
        · rw [List.getElem?_eq_none (l := right) (by omega)]
          cases l[e.1.1]? <;> rfl
      rw [hstep, sparse_fold_error]

theorem entry_eq (m : SparseMat F) (i j : ℕ) : entry m i j = entryOf (triples m) i j := rfl

/-- The full functional specification of `sparse_mvp` on good inputs. -/
theorem sparseMvp_ok (h k : ℕ) (m : SparseMat F) (right : List F) (hh : 0 < h) (hk : 0 < k)
    (hl : right.length = k) (hr : InRange m h k) :
    ∃ res, sparseMvp h k m right = .ok res ∧ res.length = h ∧
      ∀ i, i < h → res.getD i 0 = mulVec m k right i := by
  unfold sparseMvp
  rw [if_neg (by omega), if_neg (by omega), if_neg (by simp [hl])]
  obtain ⟨res, h1, h2, h3⟩ := sparse_fold_ok right (triples m) (List.replicate h 0)
    (fun e he => by simpa [hl] using hr e he)
  refine ⟨res, by simpa [triples] using h1, by simpa using h2, fun i hi => ?_⟩
  rw [h3 i (by simpa using hi), rowSum_eq (triples m) right k i (fun e he => (hr e he).2)]
  simp [mulVec, entry_eq]

theorem sparseMvp_panic (h k : ℤ) (m : SparseMat F) (right : List F)
    (hbad : ¬ (0 < h ∧ 0 < k ∧ (right.length : ℤ) = k ∧ InRange m h.toNat k.toNat)) :
    sparseMvp h k m right = .error .panic := by
  unfold sparseMvp
  by_cases h1 : 0 < h
  · by_cases h2 : 0 < k
    · by_cases h3 : (right.length : ℤ) = k
      · rw [if_neg (by simpa using h1), if_neg (by simpa using h2), if_neg (by simpa using h3)]
        apply sparse_fold_panic
        have : ¬ InRange m h.toNat k.toNat := fun hc => hbad ⟨h1, h2, h3, hc⟩
        unfold InRange at this
        push Not at this
        obtain ⟨e, he, hn⟩ := this
        refine ⟨e, he, fun hc => ?_⟩
        have := hn (by simpa using hc.1)
        have h4 := hc.2
        omega
      · rw [if_neg (by simpa using h1), if_neg (by simpa using h2), if_pos h3]
    · rw [if_neg (by simpa using h1), if_pos h2]
  · rw [if_pos h1]

end VO
