import Verif.Lemmas.PlonkEcc3

/-
Fixed-base multiplication.
-/

set_option linter.unusedSectionVars false

namespace VO.Plonk

open VO.Spec.Plonk

/-! ### The signed digits -/

/-- The number of a list of digits, least significant first. -/
def evalLe : List Int → Int
  | [] => 0
  | d :: ds => d + 2 * evalLe ds

theorem wnaf_digit (fuel e : ℕ) : ∀ d ∈ wnaf fuel e, d = 0 ∨ d = 1 ∨ d = -1 := by
  induction fuel generalizing e with
  | zero => intro d hd; simp [wnaf] at hd
  | succ f ih =>
    intro d hd
    unfold wnaf at hd
    split at hd
    · simp at hd
    · split at hd
      · rcases List.mem_cons.1 hd with rfl | h
        · right; left; rfl
        · exact ih _ d h
      · split at hd
        · rcases List.mem_cons.1 hd with rfl | h
          · right; right; rfl
          · exact ih _ d h
        · rcases List.mem_cons.1 hd with rfl | h
          · left; rfl
          · exact ih _ d h

theorem pow_not_three (m : ℕ) : 2 ^ m % 3 = 1 ∨ 2 ^ m % 3 = 2 := by
  induction m with
  | zero => left; rfl
  | succ m ih => rw [pow_succ]; omega

theorem wnaf_eval (fuel e : ℕ) (h : 3 * e < 2 ^ (fuel + 1)) : evalLe (wnaf fuel e) = e := by
  induction fuel generalizing e with
  | zero =>
    have : e = 0 := by simp at h; omega
    subst this; rfl
  | succ f ih =>
    have h2 : 2 ^ (f + 1 + 1) = 4 * 2 ^ f := by rw [pow_succ, pow_succ]; ring
    have h1 : 2 ^ (f + 1) = 2 * 2 ^ f := by rw [pow_succ]; ring
    have h3 := pow_not_three (f + 1 + 1)
    rw [h2] at h h3
    unfold wnaf
    split
    · next he => subst he; rfl
    · split
      · rw [evalLe, ih _ (by rw [h1]; omega)]; omega
      · split
        · rw [evalLe, ih _ (by rw [h1]; omega)]; omega
        · rw [evalLe, ih _ (by rw [h1]; omega)]; omega

theorem wnaf_length (fuel e m : ℕ) (hm : m < fuel) :
    (wnaf fuel e).length ≤ m ↔ 3 * e < 2 ^ (m + 1) := by
  induction fuel generalizing e m with
  | zero => omega
  | succ f ih =>
    unfold wnaf
    split
    · next he => subst he; simp
    · cases m with
      | zero =>
        have : ¬ 3 * e < 2 ^ (0 + 1) := by simp; omega
        simp only [this, iff_false]
        split
        · simp
        · split <;> simp
      | succ m =>
        have h2 : 2 ^ (m + 1 + 1) = 4 * 2 ^ m := by rw [pow_succ, pow_succ]; ring
        have h1 : 2 ^ (m + 1) = 2 * 2 ^ m := by rw [pow_succ]; ring
        have h3 := pow_not_three (m + 1 + 1)
        rw [h2] at h3 ⊢
        split
        · rw [List.length_cons, Nat.succ_le_succ_iff, ih _ m (by omega), h1]; omega
        · split
          · rw [List.length_cons, Nat.succ_le_succ_iff, ih _ m (by omega), h1]; omega
          · rw [List.length_cons, Nat.succ_le_succ_iff, ih _ m (by omega), h1]; omega

/-- The number of a list of digits, most significant first, after `s`. -/
def evalBe (s : Int) (ds : List Int) : Int := ds.foldl (fun s d => 2 * s + d) s

theorem evalBe_reverse (ds : List Int) : evalBe 0 ds.reverse = evalLe ds := by
  unfold evalBe
  rw [List.foldl_reverse]
  induction ds with
  | nil => rfl
  | cons d ds ih => rw [List.foldr_cons, ih, evalLe]; ring

theorem evalBe_pad (k : ℕ) (ds : List Int) :
    evalBe 0 (List.replicate k 0 ++ ds) = evalBe 0 ds := by
  induction k with
  | zero => rfl
  | succ k ih => rw [List.replicate_succ]; exact ih

/-! ### The rounds -/

variable {F : Type} [Field F] [DecidableEq F]

/-- The digit, in the field. -/
def digF (e : Int) : F := if e = 0 then 0 else if e = -1 then -1 else 1

/-- The multiple added for a digit. -/
def digP (e : Int) (M : F × F) : F × F := if e = 0 then (0, 1) else if e = -1 then (-M.1, M.2) else M

/-- The rounds, from the digits and multiples, most significant first. -/
def rounds (E : EdCurve F) : List Int → List (F × F) → F → F × F →
    List ((F × (F × F)) × F × (F × F))
  | e :: es, M :: Ms, s, P =>
    ((s, P), (digP e M).1 * (digP e M).2, M) :: rounds E es Ms (2 * s + digF e) (E.add P (digP e M))
  | _, _, _, _ => []

/-- The accumulators after all rounds. -/
def roundsEnd (E : EdCurve F) : List Int → List (F × F) → F → F × F → F × (F × F)
  | e :: es, M :: Ms, s, P => roundsEnd E es Ms (2 * s + digF e) (E.add P (digP e M))
  | _, _, s, P => (s, P)

theorem rounds_eq (E : EdCurve F) : ∀ (ds : List Int) (Ms : List (F × F)) (s : F) (P : F × F),
    ds.length = Ms.length →
    ((s, P) :: (wnafAccs E ds Ms s P).map (fun t => (t.1, t.2.1))).dropLast.zip
        (((wnafAccs E ds Ms s P).map (fun t => t.2.2)).zip Ms) = rounds E ds Ms s P ∧
      ((s, P) :: (wnafAccs E ds Ms s P).map (fun t => (t.1, t.2.1))).getLast? =
        some (roundsEnd E ds Ms s P)
  | [], [], s, P, _ => by simp [wnafAccs, rounds, roundsEnd]
  | [], _ :: _, _, _, h => by simp at h
  | _ :: _, [], _, _, h => by simp at h
  | e :: es, M :: Ms, s, P, h => by
    have := rounds_eq E es Ms (2 * s + digF e) (E.add P (digP e M)) (by simpa using h)
    obtain ⟨h1, h2⟩ := this
    rw [wnafAccs]
    simp only [List.map_cons]
    rw [List.dropLast_cons_of_ne_nil (by simp), List.zip_cons_cons, List.zip_cons_cons]
    refine ⟨?_, ?_⟩
    · rw [rounds, ← h1]; rfl
    · rw [List.getLast?_cons_cons, roundsEnd, ← h2]; rfl

/-- The selectors of a round. -/
def fixedG (M : F × F) : Gate F :=
  { (gate0 : Gate F) with l := M.1, r := M.2, c := M.1 * M.2, fixed := 1 }

/-- The closing row. -/
def closeG : Gate F := { (gate0 : Gate F) with arith := 1 }

/-- A row carries a round. -/
structure RoundOk (vs : List F) (q : (F × (F × F)) × F × (F × F)) (r : BRow F) : Prop where
  g : r.g = fixedG q.2.2
  a : vs[r.a]? = some q.1.2.1
  b : vs[r.b]? = some q.1.2.2
  o : vs[r.o]? = some q.2.1
  d : vs[r.d]? = some q.1.1

theorem RoundOk.mono {vs ts : List F} {q : (F × (F × F)) × F × (F × F)} {r : BRow F}
    (h : RoundOk vs q r) : RoundOk (vs ++ ts) q r :=
  ⟨h.g, getElem?_append_some h.a, getElem?_append_some h.b, getElem?_append_some h.o,
    getElem?_append_some h.d⟩

theorem getElem?_last {vs : List F} {x : F} : (vs ++ [x])[vs.length]? = some x := by simp

theorem fixedLoop_block {c0 : Composer F} (L : List ((F × (F × F)) × F × (F × F))) :
    ∀ {c : Composer F} {rs : List (BRow F)}, Block c0 c rs →
      ∃ c' rows ts, fixedLoop false L c = .ok ((), c') ∧ Block c0 c' (rs ++ rows) ∧
        c'.variables = c.variables ++ ts ∧ List.Forall₂ (RoundOk c'.variables) L rows := by
  induction L with
  | nil => intro c rs h; exact ⟨c, [], [], rfl, by simpa using h, by simp, List.Forall₂.nil⟩
  | cons q L ih =>
    intro c rs h
    obtain ⟨⟨s, P⟩, xy, M⟩ := q
    obtain ⟨c1, h1, B1, v1⟩ := h.input P.1
    obtain ⟨c2, h2, B2, v2⟩ := B1.input P.2
    obtain ⟨c3, h3, B3, v3⟩ := B2.input s
    obtain ⟨c4, h4, B4, v4⟩ := B3.input xy
    have g1 : c4.variables[c.variables.length]? = some P.1 := by
      rw [v4, v3, v2, v1]
      exact getElem?_append_some (getElem?_append_some (getElem?_append_some getElem?_last))
    have g2 : c4.variables[c1.variables.length]? = some P.2 := by
      rw [v4, v3, v2]
      exact getElem?_append_some (getElem?_append_some getElem?_last)
    have g3 : c4.variables[c2.variables.length]? = some s := by
      rw [v4, v3]
      exact getElem?_append_some getElem?_last
    have g4 : c4.variables[c3.variables.length]? = some xy := by
      rw [v4]
      exact getElem?_last
    obtain ⟨c5, h5, B5, v5⟩ := B4.push ⟨fixedG M, c.variables.length, c1.variables.length,
      c3.variables.length, c2.variables.length⟩ (List.getElem?_eq_some_iff.1 g1).1
      (List.getElem?_eq_some_iff.1 g2).1 (List.getElem?_eq_some_iff.1 g4).1
      (List.getElem?_eq_some_iff.1 g3).1
    obtain ⟨c6, rows, ts, h6, B6, v6, f6⟩ := ih B5
    refine ⟨c6, ⟨fixedG M, c.variables.length, c1.variables.length,
      c3.variables.length, c2.variables.length⟩ :: rows, [P.1] ++ [P.2] ++ [s] ++ [xy] ++ ts, ?_, ?_,
      ?_, List.Forall₂.cons ?_ f6⟩
    · unfold fixedLoop
      exact bindC_ok.2 ⟨_, _, h1, bindC_ok.2 ⟨_, _, h2, bindC_ok.2 ⟨_, _, h3, bindC_ok.2 ⟨_, _, h4,
        bindC_ok.2 ⟨_, _, h5, h6⟩⟩⟩⟩⟩
    · simpa using B6
    · rw [v6, v5, v4, v3, v2, v1]; simp
    · rw [v6, v5]
      exact RoundOk.mono ⟨rfl, g1, g2, g4, g3⟩

end VO.Plonk
