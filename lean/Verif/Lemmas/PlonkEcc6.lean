import Mathlib.Tactic.Linarith
import Verif.Lemmas.PlonkEcc5

/-
Fixed-base multiplication: what it computes and what it enforces.
-/

set_option linter.unusedSectionVars false

namespace VO.Plonk

open VO.Spec.Plonk

variable {F : Type} [Field F] [DecidableEq F]
variable {E : EdCurve F} {G : Type} [AddCommGroup G] {pt : G → F × F}

/-- The multiples of a base point, most significant first. -/
def mults (pt : G → F × F) (g : G) (k : ℕ) : List (F × F) :=
  ((List.range k).map (fun i => pt ((2 ^ i : ℕ) • g))).reverse

theorem mults_succ (pt : G → F × F) (g : G) (k : ℕ) :
    mults pt g (k + 1) = pt ((2 ^ k : ℕ) • g) :: mults pt g k := by
  unfold mults
  rw [List.range_succ, List.map_append, List.reverse_append]
  rfl

theorem pointMultiples_eq (hG : CurveGroup E G pt) (k : ℕ) (g : G) :
    pointMultiples E k (pt g) = (List.range k).map (fun i => pt ((2 ^ i : ℕ) • g)) := by
  induction k generalizing g with
  | zero => rfl
  | succ k ih =>
    rw [pointMultiples, hG.add, ih, List.range_succ_eq_map, List.map_cons, List.map_map]
    congr 1
    · simp
    · apply List.map_congr_left
      intro i _
      simp only [Function.comp]
      rw [← two_nsmul, ← mul_smul, ← pow_succ]

theorem digP_pt (hG : CurveGroup E G pt) {e : Int} (he : e = 0 ∨ e = 1 ∨ e = -1) (g : G) :
    digP e (pt g) = pt (e • g) := by
  rcases he with rfl | rfl | rfl
  · rw [zero_smul, hG.zero]; rfl
  · rw [one_smul]; rfl
  · rw [neg_smul, one_smul, hG.neg]; rfl

theorem digF_cast {e : Int} (he : e = 0 ∨ e = 1 ∨ e = -1) : (digF e : F) = (e : F) := by
  rcases he with rfl | rfl | rfl <;> simp [digF]

/-- A row and the next satisfy the round. -/
def StepOk (E : EdCurve F) (v : Var → F) (r r' : BRow F) : Prop := FixedOk E r.g (r.vals r' v)

theorem fixedOk_iff {M : F × F} {v : Var → F} {r r' : BRow F} (hg : r.g = fixedG M) {e : Int}
    (he : e = 0 ∨ e = 1 ∨ e = -1) (ht : v r'.d = 2 * v r.d + (e : F))
    (ho : v r.o = (digP e M).1 * (digP e M).2) :
    FixedOk E r.g (r.vals r' v) ↔
      EdSum E (v r.a) (v r.b) (digP e M).1 (digP e M).2 (v r'.a) (v r'.b) := by
  unfold FixedOk BRow.vals EdSum
  simp only [hg, fixedG, ho, ht]
  rcases he with rfl | rfl | rfl
  · simp only [digP, if_true, Int.cast_zero, add_zero]
    constructor
    · rintro ⟨-, -, h1, h2⟩
      exact ⟨by linear_combination h1, by linear_combination h2⟩
    · rintro ⟨h1, h2⟩
      exact ⟨Or.inl (by ring), by ring, by linear_combination h1, by linear_combination h2⟩
  · simp only [digP, if_neg (show ¬ (1 : Int) = 0 by decide), if_neg (show ¬ (1 : Int) = -1 by decide),
      Int.cast_one]
    constructor
    · rintro ⟨-, -, h1, h2⟩
      exact ⟨by linear_combination h1, by linear_combination h2⟩
    · rintro ⟨h1, h2⟩
      exact ⟨Or.inr (Or.inl (by ring)), by ring, by linear_combination h1, by linear_combination h2⟩
  · simp only [digP, if_neg (show ¬ (-1 : Int) = 0 by decide), if_true, Int.cast_neg, Int.cast_one]
    constructor
    · rintro ⟨-, -, h1, h2⟩
      exact ⟨by linear_combination h1, by linear_combination h2⟩
    · rintro ⟨h1, h2⟩
      exact ⟨Or.inr (Or.inr (by ring)), by ring, by linear_combination h1, by linear_combination h2⟩

/-- In a satisfying assignment the rounds multiply the base by a signed number. -/
theorem rounds_sound (hG : CurveGroup E G pt) (g : G) (v : Var → F) (l : BRow F) :
    ∀ (rs : List (BRow F)), List.Forall₂ (fun r M => r.g = fixedG M) rs (mults pt g rs.length) →
      List.IsChain (StepOk E v) (rs ++ [l]) → ∀ S : Int, ∀ f, (rs ++ [l]).head? = some f →
      (v f.a, v f.b) = pt ((S * 2 ^ rs.length) • g) → v f.d = (S : F) →
      ∃ S' : Int, v l.d = (S' : F) ∧ (v l.a, v l.b) = pt (S' • g) ∧
        |S'| ≤ |S| * 2 ^ rs.length + (2 ^ rs.length - 1)
  | [], _, _, S, f, hf, hp, hs => by
    cases hf
    refine ⟨S, hs, by simpa using hp, by simp⟩
  | r :: rs, hgs, hch, S, f, hf, hp, hs => by
    cases hf
    rw [List.length_cons, mults_succ] at hgs
    obtain ⟨hg, hgs'⟩ := List.forall₂_cons.1 hgs
    obtain ⟨f', hf'⟩ : ∃ f', (rs ++ [l]).head? = some f' := by
      cases rs with
      | nil => exact ⟨l, rfl⟩
      | cons a t => exact ⟨a, rfl⟩
    obtain ⟨t, ht⟩ : ∃ t, rs ++ [l] = f' :: t := by
      cases h : rs ++ [l] with
      | nil => simp at h
      | cons a t => rw [h] at hf'; cases hf'; exact ⟨t, rfl⟩
    rw [List.cons_append, ht, List.isChain_cons_cons] at hch
    obtain ⟨hstep, hch'⟩ := hch
    rw [← ht] at hch'
    have hst := hstep
    unfold StepOk FixedOk BRow.vals at hst
    simp only at hst
    obtain ⟨hd, ho, -, -⟩ := hst
    obtain ⟨e, he, hte⟩ : ∃ e : Int, (e = 0 ∨ e = 1 ∨ e = -1) ∧ v f'.d - 2 * v r.d = (e : F) := by
      rcases hd with h | h | h
      · exact ⟨0, by simp, by simpa using h⟩
      · exact ⟨1, by simp, by simpa using h⟩
      · exact ⟨-1, by simp, by simpa using h⟩
    have htd : v f'.d = 2 * v r.d + (e : F) := by linear_combination hte
    have hov : v r.o = (digP e (pt ((2 ^ rs.length : ℕ) • g))).1 *
        (digP e (pt ((2 ^ rs.length : ℕ) • g))).2 := by
      rw [ho, hte, hg]
      rcases he with rfl | rfl | rfl <;> simp [digP, fixedG]
    have hsum := (fixedOk_iff hg he htd hov).1 hstep
    rw [digP_pt hG he] at hsum
    have ha : v r.a = (pt ((S * 2 ^ (rs.length + 1)) • g)).1 := by
      rw [List.length_cons] at hp; rw [← hp]
    have hb : v r.b = (pt ((S * 2 ^ (rs.length + 1)) • g)).2 := by
      rw [List.length_cons] at hp; rw [← hp]
    rw [ha, hb] at hsum
    have hnew := pointAddition_group hG hsum
    have hadd : (S * 2 ^ (rs.length + 1)) • g + e • (2 ^ rs.length : ℕ) • g =
        ((2 * S + e) * 2 ^ rs.length) • g := by
      rw [← natCast_zsmul, ← mul_smul, ← add_smul]
      congr 1
      push_cast
      rw [pow_succ]
      ring
    rw [hadd] at hnew
    obtain ⟨S', h1, h2, h3⟩ := rounds_sound hG g v l rs hgs' hch' (2 * S + e) f' hf' hnew (by
      rw [htd, hs]; push_cast; ring)
    refine ⟨S', h1, h2, h3.trans ?_⟩
    have hab : |2 * S + e| ≤ 2 * |S| + 1 := by
      rcases abs_cases (2 * S + e) with h | h <;> rcases abs_cases S with h' | h' <;>
        rcases he with rfl | rfl | rfl <;> omega
    rw [List.length_cons, pow_succ]
    have hpos : (0 : Int) ≤ 2 ^ rs.length := by positivity
    nlinarith [mul_le_mul_of_nonneg_right hab hpos]

/-- The composer's own values satisfy the rounds and end with the multiple. -/
theorem rounds_own (hG : CurveGroup E G pt) (g : G) (vs : List F) (v : Var → F)
    (hv : ∀ (x : ℕ) s, vs[x]? = some s → v x = s) (l : BRow F) :
    ∀ (ds : List Int) (rs : List (BRow F)) (S : Int),
      (∀ d ∈ ds, d = 0 ∨ d = 1 ∨ d = -1) →
      List.Forall₂ (RoundOk vs) (rounds E ds (mults pt g ds.length) (S : F)
        (pt ((S * 2 ^ ds.length) • g))) rs →
      vs[l.a]? = some (roundsEnd E ds (mults pt g ds.length) (S : F)
        (pt ((S * 2 ^ ds.length) • g))).2.1 →
      vs[l.b]? = some (roundsEnd E ds (mults pt g ds.length) (S : F)
        (pt ((S * 2 ^ ds.length) • g))).2.2 →
      vs[l.d]? = some (roundsEnd E ds (mults pt g ds.length) (S : F)
        (pt ((S * 2 ^ ds.length) • g))).1 →
      (∀ f, (rs ++ [l]).head? = some f → (v f.a, v f.b) = pt ((S * 2 ^ ds.length) • g) ∧
        v f.d = (S : F)) ∧
      List.IsChain (StepOk E v) (rs ++ [l]) ∧
      roundsEnd E ds (mults pt g ds.length) (S : F) (pt ((S * 2 ^ ds.length) • g)) =
        (((evalBe S ds : Int) : F), pt (evalBe S ds • g))
  | [], rs, S, _, hr, ha, hb, hd => by
    simp only [rounds, List.forall₂_nil_left_iff] at hr
    subst hr
    simp only [List.length_nil, roundsEnd, pow_zero, mul_one] at ha hb hd ⊢
    refine ⟨?_, by simp, rfl⟩
    intro f hf
    cases hf
    exact ⟨Prod.ext (hv _ _ ha) (hv _ _ hb), hv _ _ hd⟩
  | e :: ds, rs, S, hds, hr, ha, hb, hd => by
    have he := hds e (List.mem_cons_self ..)
    rw [List.length_cons, mults_succ] at hr ha hb hd ⊢
    rw [rounds] at hr
    rw [roundsEnd] at ha hb hd ⊢
    have hadd : (S * 2 ^ (ds.length + 1)) • g + e • (2 ^ ds.length : ℕ) • g =
        ((2 * S + e) * 2 ^ ds.length) • g := by
      rw [← natCast_zsmul, ← mul_smul, ← add_smul]
      congr 1
      push_cast
      rw [pow_succ]
      ring
    have hP : E.add (pt ((S * 2 ^ (ds.length + 1)) • g)) (digP e (pt ((2 ^ ds.length : ℕ) • g))) =
        pt (((2 * S + e) * 2 ^ ds.length) • g) := by
      rw [digP_pt hG he, hG.add, hadd]
    have hS : 2 * (S : F) + digF e = ((2 * S + e : Int) : F) := by
      rw [digF_cast he]; push_cast; ring
    rw [hP, hS] at hr ha hb hd ⊢
    obtain ⟨r, rs', hrow, hr', rfl⟩ := List.forall₂_cons_left_iff.1 hr
    obtain ⟨i1, i2, i3⟩ := rounds_own hG g vs v hv l ds rs' (2 * S + e)
      (fun d hd => hds d (List.mem_cons_of_mem _ hd)) hr' ha hb hd
    have hra := hv _ _ hrow.a
    have hrb := hv _ _ hrow.b
    have hro := hv _ _ hrow.o
    have hrd := hv _ _ hrow.d
    simp only at hra hrb hro hrd
    refine ⟨?_, ?_, i3⟩
    · intro f hf
      cases hf
      exact ⟨Prod.ext hra hrb, hrd⟩
    · obtain ⟨f', t, ht⟩ : ∃ f' t, rs' ++ [l] = f' :: t := by
        cases h : rs' ++ [l] with
        | nil => simp at h
        | cons a t => exact ⟨a, t, rfl⟩
      rw [List.cons_append, ht, List.isChain_cons_cons, ← ht]
      refine ⟨?_, i2⟩
      obtain ⟨j1, j2⟩ := i1 f' (by rw [ht]; rfl)
      unfold StepOk
      rw [fixedOk_iff (M := pt ((2 ^ ds.length : ℕ) • g)) hrow.g he
        (by rw [j2, hrd]; push_cast; ring) hro, hra, hrb, digP_pt hG he]
      have hs := hG.sum ((S * 2 ^ (ds.length + 1)) • g) (e • (2 ^ ds.length : ℕ) • g)
      rw [hadd, ← j1] at hs
      exact hs

end VO.Plonk
