import Verif.Lemmas.Matrix
import Verif.Spec.Cs
import Mathlib.Tactic.Ring
import Mathlib.Tactic.LinearCombination

/-
Lemmas about the satisfaction checks of the constraint systems.
-/

set_option linter.unusedSectionVars false

namespace VO
open Spec

variable {F : Type} [Field F] [DecidableEq F]

/-- A pointwise check over three zipped lists of the same length. -/
theorem zip3_all {a b c : List F} {n : ℕ} (ha : a.length = n) (hb : b.length = n)
    (hc : c.length = n) (P : F → F → F → Bool) :
    ((a.zip b).zip c).all (fun t => P t.1.1 t.1.2 t.2) = true ↔
      ∀ i < n, P (a.getD i 0) (b.getD i 0) (c.getD i 0) = true := by
  rw [List.all_eq_true]
  constructor
  · intro h i hi
    have := h ((a.getD i 0, b.getD i 0), c.getD i 0) (by
      rw [List.mem_iff_getElem]
      refine ⟨i, by simp [ha, hb, hc, hi], ?_⟩
      simp [ha, hb, hc, hi])
    exact this
  · intro h t ht
    obtain ⟨i, hi, rfl⟩ := List.mem_iff_getElem.mp ht
    have hi' : i < n := by simp [ha, hb, hc] at hi; exact hi
    have := h i hi'
    simpa [ha, hb, hc, hi'] using this

theorem addAt_error (ps : List (ℕ × F)) (e : Err) : ps.foldl addAt (.error e) = .error e := by
  induction ps with
  | nil => rfl
  | cons p ps ih => simpa [addAt] using ih

theorem addAt_ok (ps : List (ℕ × F)) (l : List F) (h : ∀ p ∈ ps, p.1 < l.length) :
    ∃ res, ps.foldl addAt (.ok l) = .ok res ∧ res.length = l.length ∧
      ∀ i, i < l.length →
        res.getD i 0 = l.getD i 0 + ((ps.filter (fun p => p.1 = i)).map Prod.snd).sum := by
  induction ps generalizing l with
  | nil => exact ⟨l, rfl, rfl, by simp⟩
  | cons p ps ih =>
    have hp := h p (by simp)
    obtain ⟨res, h1, h2, h3⟩ := ih (l.set p.1 (l.getD p.1 0 + p.2))
      (fun q hq => by rw [List.length_set]; exact h q (by simp [hq]))
    refine ⟨res, by rw [List.foldl_cons, addAt, if_pos hp, h1], by rw [h2, List.length_set], ?_⟩
    intro i hi
    rw [h3 i (by rw [List.length_set]; exact hi)]
    by_cases hpi : p.1 = i
    · subst hpi
      simp [hi, List.getD_eq_getElem?_getD]
      ring
    · simp [hpi, List.getD_eq_getElem?_getD]

theorem addAt_panic (ps : List (ℕ × F)) (l : List F) (h : ∃ p ∈ ps, l.length ≤ p.1) :
    ps.foldl addAt (.ok l) = .error .panic := by
  induction ps generalizing l with
  | nil => simp at h
  | cons p ps ih =>
    by_cases hp : p.1 < l.length
    · rw [List.foldl_cons, addAt, if_pos hp]
      apply ih
      obtain ⟨q, hq, hl⟩ := h
      rcases List.mem_cons.mp hq with rfl | hq
      · omega
      · exact ⟨q, hq, by rw [List.length_set]; exact hl⟩
    · rw [List.foldl_cons, addAt, if_neg hp, addAt_error]

theorem subAt_error (ps : List (F × ℕ)) (e : Err) : ps.foldl subAt (.error e) = .error e := by
  induction ps with
  | nil => rfl
  | cons p ps ih => simpa [subAt] using ih

theorem subAt_ok (x : List F) (l : List F) (s : ℕ) (h : s + x.length ≤ l.length) :
    ∃ res, (x.zipIdx s).foldl subAt (.ok l) = .ok res ∧ res.length = l.length ∧
      ∀ i, i < l.length →
        res.getD i 0 = l.getD i 0 - (if s ≤ i then x.getD (i - s) 0 else 0) := by
  induction x generalizing l s with
  | nil => exact ⟨l, rfl, rfl, by simp⟩
  | cons a x ih =>
    have hs : s < l.length := by simp at h; omega
    obtain ⟨res, h1, h2, h3⟩ := ih (l.set s (l.getD s 0 - a)) (s + 1)
      (by rw [List.length_set]; simp at h; omega)
    refine ⟨res, by rw [List.zipIdx_cons, List.foldl_cons, subAt, if_pos hs, h1],
      by rw [h2, List.length_set], ?_⟩
    intro i hi
    rw [h3 i (by rw [List.length_set]; exact hi)]
    rcases Nat.lt_trichotomy i s with h | h | h
    · rw [if_neg (by omega), if_neg (by omega)]
      simp [List.getD_eq_getElem?_getD, show s ≠ i by omega]
    · subst h
      rw [if_neg (by omega), if_pos le_rfl]
      simp [List.getD_eq_getElem?_getD, hi]
    · rw [if_pos (by omega), if_pos (by omega)]
      have : i - s = (i - (s + 1)) + 1 := by omega
      rw [this, List.getD_cons_succ]
      simp [List.getD_eq_getElem?_getD, show s ≠ i by omega]

theorem subAt_panic (x : List F) (l : List F) (s : ℕ) (hx : s ≤ l.length)
    (h : l.length < s + x.length) : (x.zipIdx s).foldl subAt (.ok l) = .error .panic := by
  induction x generalizing l s with
  | nil => simp at h; omega
  | cons a x ih =>
    by_cases hs : s < l.length
    · rw [List.zipIdx_cons, List.foldl_cons, subAt, if_pos hs]
      exact ih _ _ (by rw [List.length_set]; omega) (by rw [List.length_set]; simp at h; omega)
    · rw [List.zipIdx_cons, List.foldl_cons, subAt, if_neg hs, subAt_error]

theorem sparseMvp_total (h k : ℕ) (m : SparseMat F) (right : List F) :
    (0 < h ∧ 0 < k ∧ right.length = k ∧ InRange m h k ∧
      ∃ res, sparseMvp h k m right = .ok res ∧ res.length = h ∧
        ∀ i, i < h → res.getD i 0 = mulVec m k right i) ∨
    (¬ (0 < h ∧ 0 < k ∧ right.length = k ∧ InRange m h k) ∧
      sparseMvp h k m right = .error .panic) := by
  by_cases hg : 0 < h ∧ 0 < k ∧ right.length = k ∧ InRange m h k
  · exact .inl ⟨hg.1, hg.2.1, hg.2.2.1, hg.2.2.2,
      sparseMvp_ok h k m right hg.1 hg.2.1 hg.2.2.1 hg.2.2.2⟩
  · refine .inr ⟨hg, sparseMvp_panic _ _ _ _ ?_⟩
    rintro ⟨h1, h2, h3, h4⟩
    exact hg ⟨by omega, by omega, by omega, by simpa using h4⟩

/-- The result of `R1CS::satisfy` on well-shaped input. -/
theorem R1CS.satisfy_ok (r : R1CS F) (x w : List F) (hs : R1CSShape r x w) :
    ∃ b, r.satisfy x w = .ok b ∧ (b = true ↔ R1CSHolds r x w) := by
  obtain ⟨h1, h2, h3, ha, hb, hc⟩ := hs
  have hl : (1 :: (x ++ w)).length = r.ncols := by simp; omega
  obtain ⟨ya, a1, a2, a3⟩ := sparseMvp_ok r.nrows r.ncols r.a _ h1 h2 hl ha
  obtain ⟨yb, b1, b2, b3⟩ := sparseMvp_ok r.nrows r.ncols r.b _ h1 h2 hl hb
  obtain ⟨yc, c1, c2, c3⟩ := sparseMvp_ok r.nrows r.ncols r.c _ h1 h2 hl hc
  refine ⟨_, by simp only [R1CS.satisfy, a1, b1, c1, bind, Except.bind, pure, Except.pure]; rfl, ?_⟩
  rw [zip3_all a2 b2 c2 (fun a b c => decide (a * b = c))]
  unfold R1CSHolds
  apply forall₂_congr
  intro i hi
  rw [decide_eq_true_iff, a3 i hi, b3 i hi, c3 i hi]

theorem R1CS.satisfy_panic (r : R1CS F) (x w : List F) (hs : ¬ R1CSShape r x w) :
    r.satisfy x w = .error .panic := by
  have hl : (1 :: (x ++ w)).length = 1 + x.length + w.length := by simp; omega
  unfold R1CS.satisfy
  rcases sparseMvp_total r.nrows r.ncols r.a (1 :: (x ++ w)) with
    ⟨h1, h2, h3, ha, ya, a1, -⟩ | ⟨-, a1⟩
  · rcases sparseMvp_total r.nrows r.ncols r.b (1 :: (x ++ w)) with
      ⟨-, -, -, hb, yb, b1, -⟩ | ⟨-, b1⟩
    · rcases sparseMvp_total r.nrows r.ncols r.c (1 :: (x ++ w)) with
        ⟨-, -, -, hc, yc, c1, -⟩ | ⟨-, c1⟩
      · exact absurd ⟨h1, h2, by omega, ha, hb, hc⟩ hs
      · simp only [a1, b1, c1, bind, Except.bind]
    · simp only [a1, b1, bind, Except.bind]
  · simp only [a1, bind, Except.bind]

theorem length_zip3_map {a b c : List F} {n : ℕ} (ha : a.length = n) (hb : b.length = n)
    (hc : c.length = n) (f : (F × F) × F → F) : (((a.zip b).zip c).map f).length = n := by
  simp [ha, hb, hc]

theorem getD_zip3_map {a b c : List F} {n : ℕ} (ha : a.length = n) (hb : b.length = n)
    (hc : c.length = n) (f : (F × F) × F → F) (i : ℕ) (hi : i < n) :
    (((a.zip b).zip c).map f).getD i 0 = f ((a.getD i 0, b.getD i 0), c.getD i 0) := by
  rw [List.getD_eq_getElem _ _ (by simp [ha, hb, hc, hi])]
  simp [ha, hb, hc, hi]

/-- The result of `HPR::satisfy` when the Hadamard check passes on well-shaped input. -/
theorem HPR.satisfy_ok (r : HPR F) (x w1 w2 w3 : List F) (hs : HPRShape r x w1 w2 w3) :
    ∃ b, r.satisfy x w1 w2 w3 = .ok b ∧ (b = true ↔ HPRHolds r x w1 w2 w3) := by
  obtain ⟨h1, h2, l1, l2, l3, ha, hb, hc, hd, hx⟩ := hs
  unfold HPR.satisfy
  by_cases hm : ((w1.zip w2).zip w3).all (fun t => decide (t.1.1 * t.1.2 = t.2)) = true
  · rw [if_neg (by simp only [hm, not_true_eq_false, not_false_eq_true])]
    rw [zip3_all l1 l2 l3 (fun a b c => decide (a * b = c))] at hm
    obtain ⟨ya, a1, a2, a3⟩ := sparseMvp_ok r.nrows r.ncols r.a _ h1 h2 l1 ha
    obtain ⟨yb, b1, b2, b3⟩ := sparseMvp_ok r.nrows r.ncols r.b _ h1 h2 l2 hb
    obtain ⟨yc, c1, c2, c3⟩ := sparseMvp_ok r.nrows r.ncols r.c _ h1 h2 l3 hc
    have ly := length_zip3_map a2 b2 c2 (fun t => t.1.1 + t.1.2 + t.2)
    obtain ⟨y1, d1, d2, d3⟩ := addAt_ok (r.drows.zip r.dvals)
      (((ya.zip yb).zip yc).map (fun t => t.1.1 + t.1.2 + t.2)) (by rw [ly]; exact hd)
    obtain ⟨y2, e1, e2, e3⟩ := subAt_ok x y1 0 (by rw [d2, ly]; omega)
    refine ⟨_, by simp only [a1, b1, c1, d1, e1, bind, Except.bind, pure, Except.pure]; rfl, ?_⟩
    have hy : ∀ i < r.nrows, y2.getD i 0 = mulVec r.a r.ncols w1 i + mulVec r.b r.ncols w2 i
        + mulVec r.c r.ncols w3 i + constAt r.drows r.dvals i - x.getD i 0 := by
      intro i hi
      rw [e3 i (by rw [d2, ly]; exact hi), d3 i (by rw [ly]; exact hi),
        getD_zip3_map a2 b2 c2 _ i hi, a3 i hi, b3 i hi, c3 i hi]
      simp [constAt]
    have l2' : y2.length = r.nrows := by rw [e2, d2, ly]
    have hall : y2.all (fun a => decide (a = 0)) = true ↔ ∀ i < r.nrows, y2.getD i 0 = 0 := by
      rw [List.all_eq_true]
      constructor
      · intro h i hi
        rw [List.getD_eq_getElem _ _ (by omega)]
        simpa using h y2[i] (List.getElem_mem _)
      · intro h a ha
        obtain ⟨i, hi, rfl⟩ := List.mem_iff_getElem.mp ha
        have := h i (by omega)
        rw [List.getD_eq_getElem _ _ hi] at this
        simpa using this
    rw [hall]
    constructor
    · intro h
      refine ⟨fun j hj => by simpa using hm j hj, fun i hi => ?_⟩
      have := h i hi
      rw [hy i hi] at this
      exact sub_eq_zero.mp this
    · rintro ⟨-, h⟩ i hi
      rw [hy i hi, h i hi, sub_self]
  · rw [if_pos hm]
    refine ⟨false, rfl, ?_⟩
    simp only [Bool.false_eq_true, false_iff]
    rintro ⟨h, -⟩
    apply hm
    rw [zip3_all l1 l2 l3 (fun a b c => decide (a * b = c))]
    intro i hi
    simpa using h i hi

theorem HPR.satisfy_bad (r : HPR F) (x w1 w2 w3 : List F) (hs : ¬ HPRShape r x w1 w2 w3) :
    r.satisfy x w1 w2 w3 =
      if ∀ i < min (min w1.length w2.length) w3.length,
        w1.getD i 0 * w2.getD i 0 = w3.getD i 0 then .error .panic else .ok false := by
  have hm : (((w1.zip w2).zip w3).all (fun t => decide (t.1.1 * t.1.2 = t.2)) = true) ↔
      ∀ i < min (min w1.length w2.length) w3.length, w1.getD i 0 * w2.getD i 0 = w3.getD i 0 := by
    rw [List.all_eq_true]
    constructor
    · intro h i hi
      have h' := h (((w1.zip w2).zip w3)[i]'(by simp; omega)) (List.getElem_mem _)
      simp only [List.getElem_zip, decide_eq_true_eq] at h'
      rw [List.getD_eq_getElem _ _ (by omega), List.getD_eq_getElem _ _ (by omega),
        List.getD_eq_getElem _ _ (by omega)]
      exact h'
    · intro h t ht
      obtain ⟨i, hi, rfl⟩ := List.mem_iff_getElem.mp ht
      have hi' : i < min (min w1.length w2.length) w3.length := by simp at hi; omega
      have := h i hi'
      rw [List.getD_eq_getElem _ _ (by omega), List.getD_eq_getElem _ _ (by omega),
        List.getD_eq_getElem _ _ (by omega)] at this
      simp only [List.getElem_zip, decide_eq_true_eq]
      exact this
  unfold HPR.satisfy
  by_cases hall : ∀ i < min (min w1.length w2.length) w3.length,
      w1.getD i 0 * w2.getD i 0 = w3.getD i 0
  · rw [if_pos hall, if_neg (by rw [hm.mpr hall]; simp)]
    rcases sparseMvp_total r.nrows r.ncols r.a w1 with
      ⟨h1, h2, l1, ha, ya, a1, a2, -⟩ | ⟨-, a1⟩
    · rcases sparseMvp_total r.nrows r.ncols r.b w2 with
        ⟨-, -, l2, hb, yb, b1, b2, -⟩ | ⟨-, b1⟩
      · rcases sparseMvp_total r.nrows r.ncols r.c w3 with
          ⟨-, -, l3, hc, yc, c1, c2, -⟩ | ⟨-, c1⟩
        · have ly := length_zip3_map a2 b2 c2 (fun t => t.1.1 + t.1.2 + t.2)
          by_cases hd : ∀ p ∈ r.drows.zip r.dvals, p.1 < r.nrows
          · obtain ⟨y1, d1, d2, -⟩ := addAt_ok (r.drows.zip r.dvals)
              (((ya.zip yb).zip yc).map (fun t => t.1.1 + t.1.2 + t.2)) (by rw [ly]; exact hd)
            have hx : r.nrows < x.length := by
              by_contra hx
              exact hs ⟨h1, h2, l1, l2, l3, ha, hb, hc, hd, by omega⟩
            have := subAt_panic x y1 0 (by omega) (by rw [d2, ly]; omega)
            simp only [a1, b1, c1, d1, this, bind, Except.bind]
          · push Not at hd
            have := addAt_panic (r.drows.zip r.dvals)
              (((ya.zip yb).zip yc).map (fun t => t.1.1 + t.1.2 + t.2)) (by rw [ly]; exact hd)
            simp only [a1, b1, c1, this, bind, Except.bind]
        · simp only [a1, b1, c1, bind, Except.bind]
      · simp only [a1, b1, bind, Except.bind]
    · simp only [a1, bind, Except.bind]
  · rw [if_neg hall, if_pos (by rw [hm]; exact hall)]

theorem POVWitness.getValueAt_eq (w : POVWitness F) (i : ℕ) :
    w.getValueAt i = (povVec w)[i]? := by
  unfold POVWitness.getValueAt povVec
  by_cases h0 : i < w.w0.length
  · rw [if_pos h0, List.append_assoc, List.getElem?_append_left h0]
  · rw [if_neg h0, List.append_assoc, List.getElem?_append_right (by omega)]
    by_cases h1 : i < w.w0.length + w.w1.length
    · rw [if_pos h1, List.getElem?_append_left (by omega)]
    · rw [if_neg h1, List.getElem?_append_right (by omega)]
      by_cases h2 : i < w.w0.length + w.w1.length + w.w2.length
      · rw [if_pos h2]
      · rw [if_neg h2, List.getElem?_eq_none (by omega)]

/-- The gate loop: what it decides on the triples it visits. -/
theorem POV.gatesOk_spec (p : POV F) (l : List ((F × F) × F)) (i : ℕ)
    (hb : i + l.length ≤ p.nmul + p.nadd + p.consts.length) :
    ∃ b, p.gatesOk i l = .ok b ∧ (b = true ↔ ∀ k (hk : k < l.length),
      p.gateOk (i + k) l[k].1.1 l[k].1.2 l[k].2 = .ok true) := by
  induction l generalizing i with
  | nil => exact ⟨true, rfl, by simp⟩
  | cons t l ih =>
    have hg : ∃ g, p.gateOk i t.1.1 t.1.2 t.2 = .ok g := by
      unfold POV.gateOk
      by_cases h1 : i < p.nmul
      · exact ⟨_, by rw [if_pos h1]⟩
      · by_cases h2 : i < p.nmul + p.nadd
        · exact ⟨_, by rw [if_neg h1, if_pos h2]⟩
        · simp only [List.length_cons] at hb
          exact ⟨_, by rw [if_neg h1, if_neg h2, List.getElem?_eq_getElem (by omega)]⟩
    obtain ⟨g, hg⟩ := hg
    obtain ⟨b, h1, h2⟩ := ih (i + 1) (by simp only [List.length_cons] at hb; omega)
    cases g with
    | false =>
      refine ⟨false, by simp only [POV.gatesOk, hg], ?_⟩
      simp only [Bool.false_eq_true, false_iff]
      intro h
      have := h 0 (by simp)
      simp only [List.getElem_cons_zero, Nat.add_zero, hg] at this
      cases this
    | true =>
      refine ⟨b, by simp only [POV.gatesOk, hg, h1], ?_⟩
      rw [h2]
      constructor
      · intro h k hk
        cases k with
        | zero => simpa using hg
        | succ k =>
          have := h k (by simpa using hk)
          rw [show i + (k + 1) = i + 1 + k by omega]
          exact this
      · intro h k hk
        have := h (k + 1) (by simpa using hk)
        rw [show i + (k + 1) = i + 1 + k by omega] at this
        exact this

end VO
