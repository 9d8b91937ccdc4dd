import Verif.Lemmas.PlonkPi2

/-
Which rows the methods add: all but the range and logic gates add rows without those selectors, and
an arithmetic selector is zero or one. The same run through the methods as in `PlonkPi`.
-/

set_option linter.unusedSectionVars false
set_option linter.unusedTactic false
set_option linter.unreachableTactic false

namespace VO.Plonk

open VO.Spec VO.Spec.Plonk

variable {F : Type} [Field F] [DecidableEq F]

/-- A row added by a method other than the range and logic gates. -/
structure PlainRow (c : Composer F) (i : ℕ) : Prop where
  arith : c.q_arith.getD i 0 = 0 ∨ c.q_arith.getD i 0 = 1
  range : c.q_range.getD i 0 = 0
  logic : c.q_logic.getD i 0 = 0
  pi : i ∈ c.intended_pi_pos → c.q_arith.getD i 0 = 1 ∨ c.q_lookup.getD i 0 = 1

/-- The rows from `n0` on are plain. -/
structure PlainC (n0 : ℕ) (c : Composer F) : Prop where
  arith : c.q_arith.length = c.n
  range : c.q_range.length = c.n
  logic : c.q_logic.length = c.n
  lookup : c.q_lookup.length = c.n
  int : ∀ i ∈ c.intended_pi_pos, i < c.n
  rows : ∀ i, n0 ≤ i → i < c.n → PlainRow c i

/-- The method adds plain rows. -/
def Plain (n0 : ℕ) {α : Type} (m : CM F α) : Prop :=
  ∀ c a c', PlainC n0 c → m c = .ok (a, c') → PlainC n0 c'

theorem Plain.bind {n0 : ℕ} {α β : Type} {m : CM F α} {f : α → CM F β} (h : Plain n0 m)
    (hf : ∀ a, Plain n0 (f a)) : Plain n0 (m >>= f) := by
  intro c b c' hc hr
  simp only [Bind.bind, StateT.bind] at hr
  obtain ⟨⟨a, c1⟩, h1, h2⟩ := bind_okE hr
  exact hf a c1 b c' (h c a c1 hc h1) h2

theorem Plain.pure {n0 : ℕ} {α : Type} (a : α) : Plain n0 (pure a : CM F α) := by
  intro c b c' hc hr
  simp only [Pure.pure, StateT.pure, Except.pure, Except.ok.injEq, Prod.mk.injEq] at hr
  rw [← hr.2]; exact hc

theorem Plain.same {n0 : ℕ} {α : Type} {m : CM F α}
    (h : ∀ c a c', m c = .ok (a, c') → c'.q_arith = c.q_arith ∧ c'.q_range = c.q_range ∧
      c'.q_logic = c.q_logic ∧ c'.q_lookup = c.q_lookup ∧ c'.n = c.n ∧
      c'.intended_pi_pos = c.intended_pi_pos) : Plain n0 m := by
  intro c a c' hc hr
  obtain ⟨e1, e2, e3, e4, e5, e6⟩ := h c a c' hr
  refine ⟨by rw [e1, e5, hc.arith], by rw [e2, e5, hc.range], by rw [e3, e5, hc.logic],
    by rw [e4, e5, hc.lookup], by rw [e5, e6]; exact hc.int, fun i h1 h2 => ?_⟩
  have := hc.rows i h1 (by rwa [← e5])
  exact ⟨by rw [e1]; exact this.arith, by rw [e2]; exact this.range, by rw [e3]; exact this.logic,
    by rw [e1, e4, e6]; exact this.pi⟩

theorem plain_panic {n0 : ℕ} {α : Type} : Plain n0 (panicC : CM F α) :=
  Plain.same fun c a c' h => by cases h

theorem plain_assert {n0 : ℕ} (p : Prop) [Decidable p] : Plain n0 (assertC p : CM F Unit) :=
  Plain.same fun c a c' h => by
    unfold assertC at h
    split_ifs at h
    · cases h; exact ⟨rfl, rfl, rfl, rfl, rfl, rfl⟩

theorem plain_value {n0 : ℕ} (x : Var) : Plain n0 (valueOfVar x : CM F F) :=
  Plain.same fun c a c' h => by
    unfold valueOfVar at h
    split at h <;> cases h
    exact ⟨rfl, rfl, rfl, rfl, rfl, rfl⟩

theorem plain_zero {n0 : ℕ} : Plain n0 (zeroVar : CM F Var) :=
  Plain.same fun c a c' h => by cases h; exact ⟨rfl, rfl, rfl, rfl, rfl, rfl⟩
theorem plain_input {n0 : ℕ} (s : F) : Plain n0 (addInput s) :=
  Plain.same fun c a c' h => by cases h; exact ⟨rfl, rfl, rfl, rfl, rfl, rfl⟩
theorem plain_count {n0 : ℕ} : Plain n0 (gateCount : CM F ℕ) :=
  Plain.same fun c a c' h => by cases h; exact ⟨rfl, rfl, rfl, rfl, rfl, rfl⟩
theorem plain_row {n0 : ℕ} (a b c d : F) : Plain n0 (insertRow a b c d) :=
  Plain.same fun c a c' h => by cases h; exact ⟨rfl, rfl, rfl, rfl, rfl, rfl⟩
theorem plain_modify {n0 : ℕ} (z : Var) :
    Plain n0 (modify fun c => { c with zero_var := z } : CM F Unit) :=
  Plain.same fun c a c' h => by cases h; exact ⟨rfl, rfl, rfl, rfl, rfl, rfl⟩
theorem plain_div {n0 : ℕ} (a b : F) : Plain n0 (divC a b) := by
  unfold divC
  split_ifs
  · exact plain_panic
  · exact Plain.pure _

theorem Plain.elim {n0 : ℕ} {α : Type} {m : CM F α} (h : Plain n0 m) {c c' : Composer F} {a : α}
    (hc : PlainC n0 c) (hr : m c = .ok (a, c')) : PlainC n0 c' := h c a c' hc hr

/-- The selectors of a plain row. -/
def PlainG (g : Gate F) : Prop := g.range = 0 ∧ g.logic = 0 ∧ (g.arith = 0 ∨ g.arith = 1)

theorem getD_snoc_lt {l : List F} {x : F} {i : ℕ} (h : i < l.length) :
    (l ++ [x]).getD i 0 = l.getD i 0 := by
  rw [List.getD_eq_getElem?_getD, List.getD_eq_getElem?_getD, List.getElem?_append_left h]

theorem getD_snoc_eq {l : List F} {x : F} {i : ℕ} (h : i = l.length) :
    (l ++ [x]).getD i 0 = x := by
  subst h
  rw [List.getD_eq_getElem?_getD, List.getElem?_append_right (le_refl _)]
  simp

/-- One gate, with declared rows up to and including its own. -/
theorem plain_push {n0 : ℕ} {g : Gate F} {a b c d : Var} {s s' : Composer F} {u : Unit}
    (hg : PlainG g) (h1 : s.q_arith.length = s.n) (h2 : s.q_range.length = s.n)
    (h3 : s.q_logic.length = s.n) (h4 : s.q_lookup.length = s.n)
    (hi : ∀ i ∈ s.intended_pi_pos, i < s.n ∨ (i = s.n ∧ (g.arith = 1 ∨ g.lookup = 1)))
    (hr : ∀ i, n0 ≤ i → i < s.n → PlainRow s i) (h : pushGate g a b c d s = .ok (u, s')) :
    PlainC n0 s' := by
  obtain ⟨v1, v2, v3, v4⟩ := pushGate_valid h
  obtain ⟨pm, e, -⟩ := pushGate_run g v1 v2 v3 v4
  rw [e] at h
  cases h
  refine ⟨by simp [pushed, h1], by simp [pushed, h2], by simp [pushed, h3], by simp [pushed, h4],
    ?_, ?_⟩
  · intro i hi'
    show i < s.n + 1
    rcases hi i hi' with h | ⟨h, -⟩ <;> omega
  · intro i hi1 hi2
    have hi2 : i < s.n + 1 := hi2
    rcases Nat.lt_or_ge i s.n with hlt | hge
    · have := hr i hi1 hlt
      refine ⟨?_, ?_, ?_, ?_⟩
      · show (s.q_arith ++ [g.arith]).getD i 0 = 0 ∨ (s.q_arith ++ [g.arith]).getD i 0 = 1
        rw [getD_snoc_lt (by omega)]; exact this.arith
      · show (s.q_range ++ [g.range]).getD i 0 = 0
        rw [getD_snoc_lt (by omega)]; exact this.range
      · show (s.q_logic ++ [g.logic]).getD i 0 = 0
        rw [getD_snoc_lt (by omega)]; exact this.logic
      · show i ∈ s.intended_pi_pos → (s.q_arith ++ [g.arith]).getD i 0 = 1 ∨
          (s.q_lookup ++ [g.lookup]).getD i 0 = 1
        rw [getD_snoc_lt (by omega), getD_snoc_lt (by omega)]; exact this.pi
    · have he : i = s.n := by omega
      refine ⟨?_, ?_, ?_, ?_⟩
      · show (s.q_arith ++ [g.arith]).getD i 0 = 0 ∨ (s.q_arith ++ [g.arith]).getD i 0 = 1
        rw [getD_snoc_eq (by omega)]; exact hg.2.2
      · show (s.q_range ++ [g.range]).getD i 0 = 0
        rw [getD_snoc_eq (by omega)]; exact hg.1
      · show (s.q_logic ++ [g.logic]).getD i 0 = 0
        rw [getD_snoc_eq (by omega)]; exact hg.2.1
      · show i ∈ s.intended_pi_pos → (s.q_arith ++ [g.arith]).getD i 0 = 1 ∨
          (s.q_lookup ++ [g.lookup]).getD i 0 = 1
        intro hm
        rw [getD_snoc_eq (by omega), getD_snoc_eq (by omega)]
        rcases hi i hm with h | ⟨-, h⟩
        · omega
        · exact h

theorem plain_gate {n0 : ℕ} (g : Gate F) (a b c d : Var) (hg : PlainG g) :
    Plain n0 (pushGate g a b c d) := fun s _ s' hs h =>
  plain_push hg hs.arith hs.range hs.logic hs.lookup (fun i hi => Or.inl (hs.int i hi)) hs.rows h

theorem pi_plain_step {n0 : ℕ} {pi : Option F} {g : Gate F} {a b c d : Var}
    {s s1 s2 s3 : Composer F} {u1 u3 : Unit} (hg : PlainG g) (hp : g.arith = 1 ∨ g.lookup = 1)
    (hs : PlainC n0 s) (e1 : addPiOpt pi s = .ok (u1, s1))
    (hm : s2.q_arith = s1.q_arith ∧ s2.q_range = s1.q_range ∧ s2.q_logic = s1.q_logic ∧
      s2.q_lookup = s1.q_lookup ∧ s2.n = s1.n ∧ s2.intended_pi_pos = s1.intended_pi_pos)
    (e3 : pushGate g a b c d s2 = .ok (u3, s3)) : PlainC n0 s3 := by
  obtain ⟨k1, k2, k3, k4, k5, k6⟩ := hm
  have e : s1.q_arith = s.q_arith ∧ s1.q_range = s.q_range ∧ s1.q_logic = s.q_logic ∧
      s1.q_lookup = s.q_lookup ∧ s1.n = s.n ∧
      ∀ i ∈ s1.intended_pi_pos, i ∈ s.intended_pi_pos ∨ i = s.n := by
    cases pi with
    | none => cases e1; exact ⟨rfl, rfl, rfl, rfl, rfl, fun i hi => Or.inl hi⟩
    | some val =>
      simp only [addPiOpt, addPi] at e1
      split at e1
      · cases e1
        refine ⟨rfl, rfl, rfl, rfl, rfl, fun i hi => ?_⟩
        simpa using hi
      · cases e1
  obtain ⟨f1, f2, f3, f4, f5, f6⟩ := e
  refine plain_push hg (by rw [k1, k5, f1, f5, hs.arith]) (by rw [k2, k5, f2, f5, hs.range])
    (by rw [k3, k5, f3, f5, hs.logic]) (by rw [k4, k5, f4, f5, hs.lookup]) ?_ ?_ e3
  · intro i hi
    rw [k6] at hi
    rw [k5, f5]
    rcases f6 i hi with h | h
    · exact Or.inl (hs.int i h)
    · exact Or.inr ⟨h, hp⟩
  · intro i h1 h2
    rw [k5, f5] at h2
    have := hs.rows i h1 h2
    refine ⟨by rw [k1, f1]; exact this.arith, by rw [k2, f2]; exact this.range,
      by rw [k3, f3]; exact this.logic, ?_⟩
    rw [k6, k1, k4, f1, f4]
    intro hi
    rcases f6 i hi with h | h
    · exact this.pi h
    · omega

theorem plain_pi_mid {n0 : ℕ} {α : Type} (pi : Option F) (m : CM F α) (g : Gate F)
    (f1 f2 f3 f4 : α → Var) (hg : PlainG g) (hp : g.arith = 1 ∨ g.lookup = 1)
    (hm : ∀ c a c', m c = .ok (a, c') → c'.q_arith = c.q_arith ∧ c'.q_range = c.q_range ∧
      c'.q_logic = c.q_logic ∧ c'.q_lookup = c.q_lookup ∧ c'.n = c.n ∧
      c'.intended_pi_pos = c.intended_pi_pos) :
    Plain n0 (addPiOpt pi >>= fun _ => m >>= fun x => pushGate g (f1 x) (f2 x) (f3 x) (f4 x) >>=
      fun _ => pure x) := by
  intro s u s' hs hr
  obtain ⟨u1, s1, e1, hr⟩ := bindC_ok.1 hr
  obtain ⟨x, s2, e2, hr⟩ := bindC_ok.1 hr
  obtain ⟨u3, s3, e3, hr⟩ := bindC_ok.1 hr
  cases hr
  exact pi_plain_step hg hp hs e1 (hm _ _ _ e2) e3

theorem plain_pi_gate {n0 : ℕ} (pi : Option F) (g : Gate F) (a b c d : Var) (hg : PlainG g)
    (hp : g.arith = 1 ∨ g.lookup = 1) :
    Plain n0 (addPiOpt pi >>= fun _ => pushGate g a b c d) := by
  intro s u s' hs hr
  obtain ⟨u1, s1, e1, hr⟩ := bindC_ok.1 hr
  exact pi_plain_step hg hp hs e1 ⟨rfl, rfl, rfl, rfl, rfl, rfl⟩ hr

theorem plain_pi_gate_pure {n0 : ℕ} {α : Type} (pi : Option F) (g : Gate F) (a b c d : Var) (x : α)
    (hg : PlainG g) (hp : g.arith = 1 ∨ g.lookup = 1) :
    Plain n0 (addPiOpt pi >>= fun _ => pushGate g a b c d >>= fun _ => pure x) := by
  intro s u s' hs hr
  obtain ⟨u1, s1, e1, hr⟩ := bindC_ok.1 hr
  obtain ⟨u3, s3, e3, hr⟩ := bindC_ok.1 hr
  cases hr
  exact pi_plain_step hg hp hs e1 ⟨rfl, rfl, rfl, rfl, rfl, rfl⟩ e3

attribute [irreducible] Plain

/-- Runs through a method. -/
macro "plain" : tactic => `(tactic|
  repeat' first
    | with_reducible assumption
    | with_reducible apply Plain.bind
    | with_reducible apply Plain.pure
    | with_reducible apply plain_panic
    | with_reducible apply plain_assert
    | with_reducible apply plain_value
    | with_reducible apply plain_zero
    | with_reducible apply plain_input
    | with_reducible apply plain_count
    | with_reducible apply plain_row
    | with_reducible apply plain_div
    | with_reducible intro _
    | split
    | dsimp only)

/-- The same, with gates. -/
macro "plaing" : tactic => `(tactic|
  repeat' first
    | exact ⟨rfl, rfl, Or.inl rfl⟩
    | exact ⟨rfl, rfl, Or.inr rfl⟩
    | exact Or.inl rfl
    | exact Or.inr rfl
    | with_reducible apply plain_gate
    | with_reducible apply plain_pi_gate
    | (plain; done)
    | with_reducible apply Plain.bind
    | with_reducible intro _
    | split
    | dsimp only)

theorem plain_poly {n0 : ℕ} (a b c : Var) (m l r o k : F) (pi : Option F) :
    Plain n0 (polyGate a b c m l r o k pi) := by
  unfold polyGate; plaing

theorem plain_const {n0 : ℕ} (a : Var) (k : F) (pi : Option F) :
    Plain n0 (constrainToConstant a k pi) := plain_poly ..

theorem plain_eq {n0 : ℕ} (a b : Var) : Plain n0 (assertEqual a b : CM F Unit) := by
  unfold assertEqual
  exact Plain.bind plain_zero fun _ => plain_poly ..

theorem plain_wit {n0 : ℕ} (s : F) : Plain n0 (addWitnessToCircuitDescription s) := by
  unfold addWitnessToCircuitDescription
  exact Plain.bind (plain_input _) fun _ => Plain.bind (plain_const ..) fun _ => Plain.pure _

theorem plain_arith {n0 : ℕ} (g : ArithGate F) : Plain n0 (arithmeticGate g) := by
  unfold arithmeticGate
  split
  · exact plain_panic
  · rename_i l r o _
    refine Plain.bind plain_zero fun z => ?_
    cases o with
    | some o =>
      refine plain_pi_mid g.pi _ _ (fun _ => _) (fun _ => _) (fun x => x) (fun _ => _)
        ⟨rfl, rfl, Or.inr rfl⟩ (Or.inl rfl) ?_
      intro c a c' h
      cases h; exact ⟨rfl, rfl, rfl, rfl, rfl, rfl⟩
    | none =>
      refine plain_pi_mid g.pi _ _ (fun _ => _) (fun _ => _) (fun x => x) (fun _ => _)
        ⟨rfl, rfl, Or.inr rfl⟩ (Or.inl rfl) ?_
      intro c a c' h
      obtain ⟨_, c1, e1, h⟩ := bindC_ok.1 h
      obtain ⟨_, c2, e2, h⟩ := bindC_ok.1 h
      obtain ⟨_, c3, e3, h⟩ := bindC_ok.1 h
      rw [value_same e3, value_same e2, value_same e1] at h
      cases h
      exact ⟨rfl, rfl, rfl, rfl, rfl, rfl⟩

theorem plain_bool {n0 : ℕ} (a : Var) : Plain n0 (booleanGate a : CM F Var) := by
  unfold booleanGate; plaing

theorem plain_isZero {n0 : ℕ} (a : Var) : Plain n0 (isZeroWithOutput a : CM F Var) := by
  unfold isZeroWithOutput
  repeat' first | with_reducible apply plain_arith | (plaing; done) | with_reducible apply Plain.bind | with_reducible intro _

theorem plain_isEq {n0 : ℕ} (a b : Var) : Plain n0 (isEqWithOutput a b : CM F Var) := by
  unfold isEqWithOutput
  exact Plain.bind (plain_arith _) fun _ => plain_isZero _

theorem plain_select {n0 : ℕ} (x a b : Var) : Plain n0 (conditionalSelect x a b : CM F Var) := by
  unfold conditionalSelect
  repeat' first | with_reducible apply plain_arith | (plaing; done) | with_reducible apply Plain.bind | with_reducible intro _

theorem plain_select0 {n0 : ℕ} (x a : Var) : Plain n0 (conditionalSelectZero x a : CM F Var) := plain_arith _

theorem plain_select1 {n0 : ℕ} (x a : Var) : Plain n0 (conditionalSelectOne x a : CM F Var) := by
  unfold conditionalSelectOne
  repeat' first | with_reducible apply plain_poly | (plaing; done) | with_reducible apply Plain.bind | with_reducible intro _

theorem plain_identity {n0 : ℕ} : Plain n0 (pointIdentity : CM F Point) := by
  unfold pointIdentity
  repeat' first | with_reducible apply plain_wit | (plain; done) | with_reducible apply Plain.bind | with_reducible intro _

theorem plain_affine {n0 : ℕ} (P : F × F) : Plain n0 (addAffine P) := by
  unfold addAffine; plain

theorem plain_add {n0 : ℕ} (E : EdCurve F) (p q : Point) : Plain n0 (pointAdditionGate E p q) := by
  unfold pointAdditionGate; plaing

theorem plain_selId {n0 : ℕ} (x : Var) (p : Point) : Plain n0 (conditionalSelectIdentity x p : CM F Point) := by
  unfold conditionalSelectIdentity
  repeat' first
    | with_reducible apply plain_select0 | with_reducible apply plain_select1 | (plain; done) | with_reducible apply Plain.bind | with_reducible intro _

theorem plain_bits {n0 : ℕ} (l : List Bool) : Plain n0 (addBits l : CM F (List Var)) := by
  induction l with
  | nil => exact Plain.pure _
  | cons b l ih =>
    unfold addBits
    repeat' first | with_reducible apply ih | (plain; done) | with_reducible apply Plain.bind | with_reducible intro _

theorem plain_decompose {n0 : ℕ} (k : ℕ) (l : List Var) (a : Var) : Plain n0 (decomposeLoop k l a : CM F Var) := by
  induction l generalizing k a with
  | nil => exact Plain.pure _
  | cons b l ih =>
    unfold decomposeLoop
    repeat' first | with_reducible apply ih | with_reducible apply plain_bool | with_reducible apply plain_arith | with_reducible apply Plain.bind | with_reducible intro _

theorem plain_doubleAdd {n0 : ℕ} (E : EdCurve F) (p : Point) (l : List Var) (a : Point) :
    Plain n0 (doubleAddLoop E p l a) := by
  induction l generalizing a with
  | nil => exact Plain.pure _
  | cons b l ih =>
    unfold doubleAddLoop
    repeat' first | with_reducible apply ih | with_reducible apply plain_add | with_reducible apply plain_selId | with_reducible apply Plain.bind | with_reducible intro _

theorem plain_varBase {n0 : ℕ} (R : FieldRep F) (E : EdCurve F) (x : Var) (p : Point) :
    Plain n0 (variableBaseScalarMul R E x p) := by
  unfold variableBaseScalarMul scalarDecomposition
  repeat' first
    | with_reducible apply plain_doubleAdd | with_reducible apply plain_identity | with_reducible apply plain_bits | with_reducible apply plain_decompose
    | with_reducible apply plain_eq | (plain; done) | with_reducible apply Plain.bind | with_reducible intro _

theorem plain_fixedLoop {n0 : ℕ} (b : Bool) (l : List ((F × (F × F)) × F × (F × F))) :
    Plain n0 (fixedLoop b l) := by
  induction l generalizing b with
  | nil => exact Plain.pure _
  | cons a l ih =>
    unfold fixedLoop fixedGroupAdd
    repeat' first
      | with_reducible apply ih | with_reducible apply plain_const | (with_reducible apply plain_gate) | exact ⟨rfl, rfl, Or.inl rfl⟩ | exact ⟨rfl, rfl, Or.inr rfl⟩ | (plain; done) | with_reducible apply Plain.bind | with_reducible intro _
      | split | dsimp only

theorem plain_fixedBase {n0 : ℕ} (R : FieldRep F) (E : EdCurve F) (x : Var) (P : F × F) :
    Plain n0 (fixedBaseScalarMul R E x P) := by
  unfold fixedBaseScalarMul
  repeat' first
    | with_reducible apply plain_fixedLoop | with_reducible apply plain_eq | with_reducible apply plain_arith | (plain; done) | with_reducible apply Plain.bind
    | with_reducible intro _ | split | dsimp only

theorem plain_blindRow {n0 : ℕ} (r : F × F × F × F) : Plain n0 (blindRow r) := by
  unfold blindRow; plaing

theorem plain_blind {n0 : ℕ} (r1 r2 : F × F × F × F) : Plain n0 (addBlindingFactors r1 r2) := by
  unfold addBlindingFactors
  repeat' first | with_reducible apply plain_blindRow | (plaing; done) | with_reducible apply Plain.bind | with_reducible intro _

/-- The range and logic gates. -/
inductive BlockMethod (R : FieldRep F) : {α : Type} → CM F α → Prop
  | range (x k) : BlockMethod R (rangeGate R x k)
  | logic (a b k x) : BlockMethod R (logicGate R a b k x)

theorem Method.plain {R : FieldRep F} {E : EdCurve F} {α : Type} {m : CM F α} (hm : Method R E m)
    (n0 : ℕ) : BlockMethod R m ∨ Plain n0 m := by
  by_cases hb : BlockMethod R m
  · exact Or.inl hb
  refine Or.inr ?_
  cases hm with
  | add_input => apply plain_input
  | add_witness_to_circuit_description => apply plain_wit
  | poly_gate => apply plain_poly
  | constrain_to_constant => apply plain_const
  | assert_equal => apply plain_eq
  | arithmetic_gate => apply plain_arith
  | boolean_gate => apply plain_bool
  | is_zero_with_output => apply plain_isZero
  | is_eq_with_output => apply plain_isEq
  | conditional_select => apply plain_select
  | conditional_select_zero => apply plain_select0
  | conditional_select_one => apply plain_select1
  | add_dummy_constraints => unfold addDummyConstraints; plaing
  | add_dummy_lookup_table => unfold addDummyLookupTable; plain
  | insert_row => apply plain_row
  | add_blinding_factors => apply plain_blind
  | lookup_gate =>
    unfold lookupGate
    exact Plain.bind plain_zero fun z => plain_pi_gate_pure _ _ _ _ _ _ _ ⟨rfl, rfl, Or.inl rfl⟩ (Or.inr rfl)
  | full_affine_transform_gate => unfold fullAffineTransformGate; plaing
  | partial_affine_transform_gate => unfold partialAffineTransformGate; plaing
  | range_gate => exact absurd (.range ..) hb
  | xor_gate => exact absurd (.logic ..) hb
  | and_gate => exact absurd (.logic ..) hb
  | identity => apply plain_identity
  | add_affine => apply plain_affine
  | add_public_affine =>
    unfold addPublicAffine
    repeat' first | with_reducible apply plain_affine | with_reducible apply plain_const | (plain; done) | with_reducible apply Plain.bind | with_reducible intro _
  | add_affine_to_circuit_description =>
    unfold addAffineToCircuitDescription
    repeat' first | with_reducible apply plain_wit | (plain; done) | with_reducible apply Plain.bind | with_reducible intro _
  | assert_equal_public_point =>
    unfold assertEqualPublicPoint
    repeat' first | with_reducible apply plain_const | (plain; done) | with_reducible apply Plain.bind | with_reducible intro _
  | assert_equal_point =>
    unfold assertEqualPoint
    repeat' first | with_reducible apply plain_eq | (plain; done) | with_reducible apply Plain.bind | with_reducible intro _
  | conditional_point_select =>
    unfold conditionalPointSelect
    repeat' first | with_reducible apply plain_select | (plain; done) | with_reducible apply Plain.bind | with_reducible intro _
  | conditional_point_neg =>
    unfold conditionalPointNeg
    repeat' first
      | with_reducible apply plain_select | with_reducible apply plain_arith | (plain; done) | with_reducible apply Plain.bind | with_reducible intro _
  | point_addition_gate => apply plain_add
  | variable_base_scalar_mul => apply plain_varBase
  | fixed_base_scalar_mul => apply plain_fixedBase


end VO.Plonk
