import Verif.Model.PoseidonRounds
import Mathlib.Analysis.SpecialFunctions.Log.Base
import Mathlib.Tactic.Linarith
import Mathlib.Tactic.NormNum
import Mathlib.Tactic.IntervalCases

/-
C118: the round numbers, `/repo/plonk-hashing/src/poseidon/round_numbers.rs`.
-/

namespace VO

open VO.Poseidon

/-! ### C118 -/

/-- The pairs that the search looks at: an even number of full rounds from 2 to 1000, from 4 to 199 partial
rounds. -/
def Searched (rf rp : ℕ) : Prop := (∃ i < 500, rf = 2 * i + 2) ∧ 4 ≤ rp ∧ rp < 200

/-- The round numbers that a pair stands for: with the margin or without. -/
def withMargin (margin : ℕ → ℕ) (sm : Bool) (rf rp : ℕ) : ℕ × ℕ := if sm then (rf + 2, margin rp) else (rf, rp)

/-- The first pair is cheaper, or as cheap and with no more full rounds. -/
def NoWorse (t : ℕ) (p q : ℕ × ℕ) : Prop :=
  nSboxes t p.1 p.2 < nSboxes t q.1 q.2 ∨ (nSboxes t p.1 p.2 = nSboxes t q.1 q.2 ∧ p.1 ≤ q.1)

section search

variable {secure : ℕ → ℕ → Bool} {margin : ℕ → ℕ} {t : ℕ} {sm : Bool}

/-- The better of the best so far and a candidate. -/
def pick (t : ℕ) (b : Best) (p : ℕ × ℕ) : Best :=
  if nSboxes t p.1 p.2 < b.cost ∨ (nSboxes t p.1 p.2 = b.cost ∧ p.1 < b.rf) then ⟨p.1, p.2, nSboxes t p.1 p.2⟩ else b

theorem searchStep_eq (s : ℕ × Best) (rp : ℕ) : searchStep secure margin t sm s rp
    = if secure s.1 rp then ((withMargin margin sm s.1 rp).1, pick t s.2 (withMargin margin sm s.1 rp)) else s := by
  unfold searchStep withMargin pick
  cases sm <;> simp only [Bool.false_eq_true, if_false, if_true] <;> split
  · split <;> rfl
  · rfl
  · split <;> rfl
  · rfl

/-- Nothing changes behind the first secure pair. -/
theorem inner_stale (ht : 0 < t) (hm : Monotone margin) (rf0 rp0 : ℕ) (b : Best)
    (hb : b.cost ≤ nSboxes t (withMargin margin sm rf0 rp0).1 (withMargin margin sm rf0 rp0).2) :
    ∀ (L : List ℕ) (rf : ℕ), (withMargin margin sm rf0 rp0).1 ≤ rf → (∀ x ∈ L, rp0 < x) →
      (L.foldl (searchStep secure margin t sm) (rf, b)).2 = b
  | [], _, _, _ => rfl
  | x :: L, rf, hr, hL => by
    rw [List.foldl_cons, searchStep_eq]
    have hx := hL x (by simp)
    have hp : pick t b (withMargin margin sm rf x) = b := by
      unfold pick
      rw [if_neg]
      have : b.cost < nSboxes t (withMargin margin sm rf x).1 (withMargin margin sm rf x).2 := by
        refine lt_of_le_of_lt hb ?_
        unfold withMargin nSboxes at *
        cases sm
        · simp only [Bool.false_eq_true, if_false] at *
          have := Nat.mul_le_mul_left t hr
          omega
        · simp only [if_true] at *
          have h1 := Nat.mul_le_mul_left t hr
          have h2 := hm hx.le
          rw [Nat.mul_add t rf 2]
          omega
      omega
    split
    · simp only [hp]
      refine inner_stale ht hm rf0 rp0 b hb L _ (le_trans hr ?_) fun y hy => hL y (by simp [hy])
      unfold withMargin
      split <;> simp
    · exact inner_stale ht hm rf0 rp0 b hb L _ hr fun y hy => hL y (by simp [hy])

theorem pick_cost (b : Best) (p : ℕ × ℕ) : (pick t b p).cost ≤ nSboxes t p.1 p.2 := by
  unfold pick
  split
  · exact le_rfl
  · omega

/-- The inner loop takes the first secure number of partial rounds. -/
theorem inner_eq (ht : 0 < t) (hm : Monotone margin) (rf : ℕ) (b : Best) :
    ∀ (L : List ℕ), L.Pairwise (· < ·) → (L.foldl (searchStep secure margin t sm) (rf, b)).2
      = match L.find? (secure rf) with
        | some rp => pick t b (withMargin margin sm rf rp)
        | none => b
  | [], _ => rfl
  | x :: L, h => by
    rw [List.pairwise_cons] at h
    rw [List.foldl_cons, searchStep_eq, List.find?_cons]
    by_cases hs : secure rf x
    · rw [if_pos hs, hs]
      exact inner_stale ht hm rf x _ (pick_cost _ _) L _ le_rfl h.1
    · rw [if_neg hs, Bool.eq_false_of_not_eq_true hs]
      exact inner_eq ht hm rf b L h.2

/-- The candidates of the outer loop. -/
def cand (secure : ℕ → ℕ → Bool) (margin : ℕ → ℕ) (sm : Bool) (L : List ℕ) (rf : ℕ) : Option (ℕ × ℕ) :=
  (L.find? (secure rf)).map (withMargin margin sm rf)

theorem outer_eq (ht : 0 < t) (hm : Monotone margin) (L : List ℕ) (hL : L.Pairwise (· < ·)) :
    ∀ (K : List ℕ) (b : Best),
    K.foldl (fun (b : Best) rf => (L.foldl (searchStep secure margin t sm) (rf, b)).2) b
      = (K.filterMap (cand secure margin sm L)).foldl (pick t) b
  | [], _ => rfl
  | rf :: K, b => by
    rw [List.foldl_cons, inner_eq ht hm rf b L hL, List.filterMap_cons]
    unfold cand
    cases hf : L.find? (secure rf) with
    | none => exact outer_eq ht hm L hL K b
    | some rp => exact outer_eq ht hm L hL K _

/-- The fold keeps the best. -/
theorem pick_fold (t : ℕ) : ∀ (C : List (ℕ × ℕ)) (p0 : ℕ × ℕ),
    ∃ p, C.foldl (pick t) ⟨p0.1, p0.2, nSboxes t p0.1 p0.2⟩ = ⟨p.1, p.2, nSboxes t p.1 p.2⟩ ∧
      (p = p0 ∨ p ∈ C) ∧ NoWorse t p p0 ∧ ∀ q ∈ C, NoWorse t p q
  | [], p0 => ⟨p0, rfl, Or.inl rfl, Or.inr ⟨rfl, le_rfl⟩, fun q hq => by simp at hq⟩
  | c :: C, p0 => by
    rw [List.foldl_cons]
    unfold pick
    simp only
    split
    · next h =>
      obtain ⟨p, h1, h2, h3, h4⟩ := pick_fold t C c
      refine ⟨p, h1, Or.inr ?_, ?_, ?_⟩
      · rcases h2 with rfl | h2 <;> simp [*]
      · unfold NoWorse at *; omega
      · intro q hq
        rcases List.mem_cons.1 hq with rfl | hq
        · exact h3
        · exact h4 q hq
    · next h =>
      obtain ⟨p, h1, h2, h3, h4⟩ := pick_fold t C p0
      refine ⟨p, h1, ?_, h3, ?_⟩
      · rcases h2 with rfl | h2 <;> simp [*]
      · intro q hq
        rcases List.mem_cons.1 hq with rfl | hq
        · unfold NoWorse at *; omega
        · exact h4 q hq

theorem mem_full (rf : ℕ) : rf ∈ ((List.range 500).map fun i => 2 * i + 2) ↔ ∃ i < 500, rf = 2 * i + 2 := by
  simp only [List.mem_map, List.mem_range]
  constructor
  · rintro ⟨i, hi, rfl⟩; exact ⟨i, hi, rfl⟩
  · rintro ⟨i, hi, rfl⟩; exact ⟨i, hi, rfl⟩

theorem mem_part (rp : ℕ) : rp ∈ ((List.range 196).map fun i => i + 4) ↔ 4 ≤ rp ∧ rp < 200 := by
  simp only [List.mem_map, List.mem_range]
  constructor
  · rintro ⟨i, hi, rfl⟩; omega
  · rintro ⟨h1, h2⟩; exact ⟨rp - 4, by omega, by omega⟩

theorem sorted_part : ((List.range 196).map fun i => i + 4).Pairwise (· < ·) := by
  rw [List.pairwise_map]
  exact List.pairwise_lt_range.imp fun h => by omega

theorem find_first {f : ℕ → Bool} : ∀ {L : List ℕ} {x : ℕ}, L.Pairwise (· < ·) → x ∈ L → f x = true →
    ∃ y, L.find? f = some y ∧ y ≤ x
  | [], _, _, h, _ => by simp at h
  | a :: L, x, hp, hx, hf => by
    rw [List.pairwise_cons] at hp
    rw [List.find?_cons]
    by_cases ha : f a
    · rw [ha]
      refine ⟨a, rfl, ?_⟩
      rcases List.mem_cons.1 hx with rfl | hx
      · exact le_rfl
      · exact (hp.1 x hx).le
    · rw [Bool.eq_false_of_not_eq_true ha]
      rcases List.mem_cons.1 hx with rfl | hx
      · exact absurd hf ha
      · exact find_first hp.2 hx hf

/-- The search returns round numbers of a secure pair, and no secure pair it looks at is better, although the
inner loop changes the variable of the outer loop; it returns zeros when there is no secure pair. This holds
for every test of security and every margin that grows with the partial rounds. -/
theorem C118_minimal (ht : 0 < t) (hm : Monotone margin)
    (hbig : ∀ rf rp, Searched rf rp →
      nSboxes t (withMargin margin sm rf rp).1 (withMargin margin sm rf rp).2 < 2 ^ 64 - 1) :
    (∃ rf rp, Searched rf rp ∧ secure rf rp = true ∧ calcWith secure margin t sm = withMargin margin sm rf rp ∧
      ∀ rf' rp', Searched rf' rp' → secure rf' rp' = true →
        NoWorse t (withMargin margin sm rf rp) (withMargin margin sm rf' rp')) ∨
    (calcWith secure margin t sm = (0, 0) ∧ ∀ rf rp, Searched rf rp → secure rf rp = false) := by
  set L := (List.range 196).map fun i => i + 4 with hL
  set K := (List.range 500).map fun i => 2 * i + 2 with hK
  have hs : L.Pairwise (· < ·) := sorted_part
  have he : calcWith secure margin t sm = (((K.filterMap (cand secure margin sm L)).foldl (pick t)
      ⟨0, 0, 2 ^ 64 - 1⟩).rf, ((K.filterMap (cand secure margin sm L)).foldl (pick t) ⟨0, 0, 2 ^ 64 - 1⟩).rp) := by
    unfold calcWith
    rw [outer_eq ht hm L hs]
  have hmem : ∀ q ∈ K.filterMap (cand secure margin sm L), ∃ rf rp, Searched rf rp ∧ secure rf rp = true ∧
      q = withMargin margin sm rf rp := by
    intro q hq
    obtain ⟨rf, h1, h2⟩ := List.mem_filterMap.1 hq
    unfold cand at h2
    obtain ⟨rp, h3, rfl⟩ := Option.map_eq_some_iff.1 h2
    exact ⟨rf, rp, ⟨(mem_full rf).1 h1, (mem_part rp).1 (List.mem_of_find?_eq_some h3)⟩,
      List.find?_some h3, rfl⟩
  have hall : ∀ rf rp, Searched rf rp → secure rf rp = true →
      ∃ q ∈ K.filterMap (cand secure margin sm L), NoWorse t q (withMargin margin sm rf rp) := by
    intro rf rp h1 h2
    obtain ⟨y, h3, h4⟩ := find_first hs ((mem_part rp).2 h1.2) h2
    refine ⟨withMargin margin sm rf y, List.mem_filterMap.2 ⟨rf, (mem_full rf).2 h1.1, ?_⟩, ?_⟩
    · unfold cand; rw [h3]; rfl
    · unfold NoWorse withMargin nSboxes
      have := hm h4
      cases sm
      · simp only [Bool.false_eq_true, if_false]; omega
      · simp only [if_true]; omega
  rw [he]
  cases hC : K.filterMap (cand secure margin sm L) with
  | nil =>
    right
    refine ⟨rfl, fun rf rp h1 => ?_⟩
    by_contra h2
    obtain ⟨q, hq, -⟩ := hall rf rp h1 (by simpa using h2)
    rw [hC] at hq
    simp at hq
  | cons c C =>
    left
    obtain ⟨rf0, rp0, hc1, hc2, hc3⟩ := hmem c (by rw [hC]; simp)
    have hlt : nSboxes t c.1 c.2 < 2 ^ 64 - 1 := by rw [hc3]; exact hbig rf0 rp0 hc1
    have e1 : pick t ⟨0, 0, 2 ^ 64 - 1⟩ c = ⟨c.1, c.2, nSboxes t c.1 c.2⟩ := by
      unfold pick
      rw [if_pos (Or.inl hlt)]
    rw [List.foldl_cons, e1]
    obtain ⟨p, h1, h2, h3, h4⟩ := pick_fold t C c
    have hp : p ∈ c :: C := by rcases h2 with rfl | h2 <;> simp [*]
    obtain ⟨rf, rp, k1, k2, k3⟩ := hmem p (by rw [hC]; exact hp)
    refine ⟨rf, rp, k1, k2, by rw [h1]; exact k3, fun rf' rp' g1 g2 => ?_⟩
    obtain ⟨q, hq, hn⟩ := hall rf' rp' g1 g2
    rw [hC] at hq
    have hpq : NoWorse t p q := by
      rcases List.mem_cons.1 hq with rfl | hq
      · exact h3
      · exact h4 q hq
    rw [← k3]
    unfold NoWorse at *
    omega

end search

/-- The margin grows with the partial rounds, for every rounding that respects the order. -/
theorem margin_monotone {rnd : ℝ → ℝ} (hr : Monotone rnd) (h0 : 0 ≤ rnd 1.075) : Monotone (marginOf rnd) := by
  intro x y h
  unfold marginOf
  apply Nat.ceil_mono
  apply hr
  have : (x : ℝ) ≤ y := by exact_mod_cast h
  exact mul_le_mul_of_nonneg_left this h0

/-- More rounds are secure when fewer rounds are, for every rounding that respects the order. -/
theorem C118_monotone {rnd : ℝ → ℝ} (hr : Monotone rnd) (log2 : ℕ → ℝ) {t : ℕ} (ht : 0 ≤ rnd ((t : ℝ) - 1))
    {rf rf' rp rp' : ℕ} (h1 : rf ≤ rf') (h2 : rp ≤ rp') (h : areSecure rnd log2 t rf rp = true) :
    areSecure rnd log2 t rf' rp' = true := by
  unfold areSecure at *
  simp only [decide_eq_true_eq] at *
  have hp : (rp : ℝ) ≤ rp' := by exact_mod_cast h2
  refine le_trans (max_le_max (max_le_max (max_le_max le_rfl ?_) ?_) ?_) (le_trans h h1)
  · exact Nat.ceil_mono (hr (sub_le_sub_left hp _))
  · exact Nat.ceil_mono (hr (sub_le_sub_left hp _))
  · exact Nat.ceil_mono (hr (div_le_div_of_nonneg_right (hr (sub_le_sub_left hp _)) ht))

/-- The search with the real test: the number of full rounds is even, and when it is not zero the numbers are
those of a secure pair that no other secure pair beats. -/
theorem C118_even {rnd : ℝ → ℝ} (hr : Monotone rnd) (h0 : 0 ≤ rnd 1.075) (log2 : ℕ → ℝ) {t : ℕ} (ht : 0 < t)
    (sm : Bool) (hbig : ∀ rf rp, Searched rf rp →
      nSboxes t (withMargin (marginOf rnd) sm rf rp).1 (withMargin (marginOf rnd) sm rf rp).2 < 2 ^ 64 - 1) :
    2 ∣ (calcRoundNumbers rnd log2 t sm).1 := by
  unfold calcRoundNumbers
  rcases C118_minimal (secure := areSecure rnd log2 t) ht (margin_monotone hr h0) hbig with
    ⟨rf, rp, h1, h2, h3, h4⟩ | ⟨h1, h2⟩
  · rw [h3]
    obtain ⟨⟨i, -, rfl⟩, -⟩ := h1
    unfold withMargin
    cases sm
    · simp only [Bool.false_eq_true, if_false]; omega
    · simp only [if_true]; omega
  · rw [h1]; simp

theorem ceil_margin_le {x : ℕ} (h : x < 200) : marginOf id x ≤ 215 := by
  unfold marginOf
  rw [Nat.ceil_le]
  have : (x : ℝ) ≤ 199 := by exact_mod_cast Nat.le_of_lt_succ h
  simp only [id]
  norm_num
  linarith

theorem secure_id {t rf rp : ℕ} (ht : 2 ≤ t) : areSecure id (fun t => Real.logb 2 t) t rf rp = true ↔
    6 ≤ rf ∧ 55.04 + Real.logb 2 t ≤ rf + (rp : ℝ) ∧ 53.76 ≤ rf + (rp : ℝ) ∧
      (34.84 - (rp : ℝ)) / ((t : ℝ) - 1) ≤ rf := by
  have h2 : (2 : ℝ) ≤ t := by exact_mod_cast ht
  unfold areSecure
  simp only [decide_eq_true_eq, id, max_le_iff, Nat.ceil_le]
  rw [if_pos (by nlinarith)]
  constructor
  · rintro ⟨⟨⟨h1, h3⟩, h4⟩, h5⟩
    refine ⟨by exact_mod_cast h1, ?_, ?_, ?_⟩
    · norm_num at h3 ⊢; linarith
    · norm_num at h4 ⊢; linarith
    · norm_num at h5 ⊢; linarith
  · rintro ⟨h1, h3, h4, h5⟩
    refine ⟨⟨⟨by exact_mod_cast h1, ?_⟩, ?_⟩, ?_⟩
    · norm_num at h3 ⊢; linarith
    · norm_num at h4 ⊢; linarith
    · norm_num at h5 ⊢; linarith

/-- In exact arithmetic: 8 full rounds, and a number of partial rounds that depends on the width as given. -/
theorem C118_value {t : ℕ} (h2 : 2 ≤ t) (h64 : t ≤ 2 ^ 48) :
    calcRoundNumbers id (fun t => Real.logb 2 t) t true
      = (8, ⌈(1.075 : ℝ) * ⌈49.04 + Real.logb 2 t⌉₊⌉₊) := by
  have h2' : (2 : ℝ) ≤ t := by exact_mod_cast h2
  have hl1 : 1 ≤ Real.logb 2 t := by
    rw [← Real.logb_self_eq_one (b := 2) (by norm_num)]
    exact Real.logb_le_logb_of_le (by norm_num) (by norm_num) h2'
  have hl2 : Real.logb 2 t ≤ 48 := by
    have : Real.logb 2 t ≤ Real.logb 2 (2 ^ 48) :=
      Real.logb_le_logb_of_le (by norm_num) (by linarith) (by exact_mod_cast h64)
    rwa [show ((2 : ℝ) ^ 48) = (2 : ℝ) ^ (48 : ℝ) by norm_num, Real.logb_rpow (by norm_num) (by norm_num)] at this
  set l := Real.logb 2 t with hl
  set r0 : ℕ := ⌈49.04 + l⌉₊ with hr0
  have hr1 : 49.04 + l ≤ r0 := Nat.le_ceil _
  have hr2 : (r0 : ℝ) < 49.04 + l + 1 := Nat.ceil_lt_add_one (by linarith)
  have hr3 : r0 < 200 := by
    have : (r0 : ℝ) < 200 := by linarith
    exact_mod_cast this
  have hr4 : 50 ≤ r0 := by
    have : (50 : ℝ) < r0 := by linarith
    exact_mod_cast this.le
  have hm := margin_monotone (rnd := id) monotone_id (by norm_num)
  have hbig : ∀ rf rp, Searched rf rp → nSboxes t (withMargin (marginOf id) true rf rp).1
      (withMargin (marginOf id) true rf rp).2 < 2 ^ 64 - 1 := by
    rintro rf rp ⟨⟨i, hi, rfl⟩, h3, h4⟩
    unfold withMargin nSboxes
    simp only [if_true]
    have a := ceil_margin_le h4
    have b : t * (2 * i + 2 + 2) ≤ 2 ^ 48 * 1002 := Nat.mul_le_mul h64 (by omega)
    omega
  have hsec0 : areSecure id (fun t => Real.logb 2 t) t 6 r0 = true := by
    rw [secure_id h2]
    refine ⟨le_rfl, ?_, ?_, ?_⟩
    · push_cast; linarith
    · push_cast; linarith
    · have hr4' : (50 : ℝ) ≤ r0 := by exact_mod_cast hr4
      have : (34.84 - (r0 : ℝ)) / ((t : ℝ) - 1) ≤ 0 := div_nonpos_of_nonpos_of_nonneg (by linarith) (by linarith)
      push_cast; linarith
  have hs0 : Searched 6 r0 := ⟨⟨2, by omega, rfl⟩, by omega, hr3⟩
  unfold calcRoundNumbers
  rcases C118_minimal (secure := areSecure id (fun t => Real.logb 2 t) t) (by omega) hm hbig with
    ⟨rf, rp, k1, k2, k3, k4⟩ | ⟨k1, k2⟩
  · have k5 := k4 6 r0 hs0 hsec0
    rw [secure_id h2] at k2
    obtain ⟨s1, s2, -, -⟩ := k2
    rw [k3]
    obtain ⟨⟨i, hi, rfl⟩, k6, k7⟩ := k1
    obtain ⟨d, rfl⟩ : ∃ d, i = d + 2 := ⟨i - 2, by omega⟩
    unfold withMargin NoWorse nSboxes at *
    simp only [if_true] at *
    push_cast at s2
    have m1 : (1.075 : ℝ) * rp ≤ marginOf id rp := Nat.le_ceil _
    have m2 : (marginOf id r0 : ℝ) < 1.075 * r0 + 1 := Nat.ceil_lt_add_one (by
      simp only [id]
      positivity)
    have hd : d = 0 := by
      by_contra hd
      have hd1 : (1 : ℝ) ≤ d := by exact_mod_cast Nat.one_le_iff_ne_zero.2 hd
      have hcost : (t * (2 * (d + 2) + 2 + 2) + marginOf id rp : ℝ) ≤ t * (6 + 2) + marginOf id r0 := by
        have : t * (2 * (d + 2) + 2 + 2) + marginOf id rp ≤ t * (6 + 2) + marginOf id r0 := by omega
        exact_mod_cast this
      have : (r0 : ℝ) - 2 * d ≤ rp := by
        have : (r0 : ℝ) < rp + 2 * d + 1 := by linarith
        have : r0 < rp + 2 * d + 1 := by exact_mod_cast this
        have : r0 ≤ rp + 2 * d := by omega
        have : (r0 : ℝ) ≤ rp + 2 * d := by exact_mod_cast this
        linarith
      nlinarith
    subst hd
    have hr : r0 ≤ rp := by
      rw [hr0, Nat.ceil_le]
      norm_num at s2 ⊢
      linarith
    have h5 : marginOf id rp ≤ marginOf id r0 := by omega
    have h6 := hm hr
    have h7 : marginOf id rp = marginOf id r0 := by omega
    rw [h7]
    rfl
  · rw [k2 6 r0 hs0] at hsec0
    cases hsec0

/-- The round numbers of width 4: log 4 = 2. -/
example : calcRoundNumbers id (fun t => Real.logb 2 t) 4 true = (8, 56) := by
  rw [C118_value (by omega) (by norm_num)]
  have : Real.logb 2 ((4 : ℕ) : ℝ) = 2 := by
    rw [show ((4 : ℕ) : ℝ) = (2 : ℝ) ^ (2 : ℝ) by norm_num, Real.logb_rpow (by norm_num) (by norm_num)]
  rw [this]
  have h : ⌈(49.04 : ℝ) + 2⌉₊ = 52 := by
    rw [Nat.ceil_eq_iff (by norm_num)]; norm_num
  rw [h]
  have h : ⌈(1.075 : ℝ) * (52 : ℕ)⌉₊ = 56 := by
    rw [Nat.ceil_eq_iff (by norm_num)]; norm_num
  rw [h]

/-- A test of security that only knows a sum: the search finds the cheapest pair. -/
example : calcWith (fun rf rp => decide (30 ≤ 2 * rf + rp)) id 3 false = (2, 26) := by
  rcases C118_minimal (secure := fun rf rp => decide (30 ≤ 2 * rf + rp)) (margin := id) (t := 3) (sm := false)
    (by omega) monotone_id (by
      rintro rf rp ⟨⟨i, hi, rfl⟩, h3, h4⟩
      simp only [withMargin, nSboxes, Bool.false_eq_true, if_false]
      omega) with ⟨rf, rp, h1, h2, h3, h4⟩ | ⟨-, h2⟩
  · have h5 := h4 2 26 ⟨⟨0, by omega, rfl⟩, by omega, by omega⟩ (by decide)
    simp only [withMargin, Bool.false_eq_true, if_false, NoWorse, nSboxes, decide_eq_true_eq] at h2 h3 h5
    rw [h3]
    obtain ⟨⟨i, hi, rfl⟩, h6, h7⟩ := h1
    have : i = 0 := by omega
    subst this
    have : rp = 26 := by omega
    subst this
    rfl
  · have := h2 2 26 ⟨⟨0, by omega, rfl⟩, by omega, by omega⟩
    simp at this

end VO
