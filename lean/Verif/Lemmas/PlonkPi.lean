import Verif.Lemmas.PlonkReach
import Verif.Lemmas.PlonkPre

/-
The public inputs of a reachable composer: positions are in strictly increasing order. And what
`as_evals` makes of them.
-/

set_option linter.unusedSectionVars false
set_option linter.unusedTactic false
set_option linter.unreachableTactic false

namespace VO.Plonk

open VO.Spec VO.Spec.Plonk Polynomial

variable {F : Type} [Field F] [DecidableEq F]

/-- The positions are strictly increasing. -/
def PiSorted (c : Composer F) : Prop := c.public_inputs.Pairwise fun a b => a.1 < b.1

/-- The method keeps the positions in order. -/
def Keeps {α : Type} (m : CM F α) : Prop :=
  ∀ c a c', PiSorted c → m c = .ok (a, c') → PiSorted c'

theorem Keeps.bind {α β : Type} {m : CM F α} {f : α → CM F β} (h : Keeps m)
    (hf : ∀ a, Keeps (f a)) : Keeps (m >>= f) := by
  intro c b c' hc hr
  simp only [Bind.bind, StateT.bind] at hr
  obtain ⟨⟨a, c1⟩, h1, h2⟩ := bind_okE hr
  exact hf a c1 b c' (h c a c1 hc h1) h2

theorem Keeps.pure {α : Type} (a : α) : Keeps (pure a : CM F α) := by
  intro c b c' hc hr
  simp only [Pure.pure, StateT.pure, Except.pure, Except.ok.injEq, Prod.mk.injEq] at hr
  rw [← hr.2]; exact hc

theorem Keeps.same {α : Type} {m : CM F α}
    (h : ∀ c a c', m c = .ok (a, c') → c'.public_inputs = c.public_inputs) : Keeps m := by
  intro c a c' hc hr
  unfold PiSorted
  rw [h c a c' hr]; exact hc

theorem keeps_panic {α : Type} : Keeps (panicC : CM F α) := Keeps.same fun c a c' h => by cases h

theorem keeps_assert (p : Prop) [Decidable p] : Keeps (assertC p : CM F Unit) :=
  Keeps.same fun c a c' h => by
    unfold assertC at h
    split_ifs at h
    · cases h; rfl

theorem keeps_value (x : Var) : Keeps (valueOfVar x : CM F F) :=
  Keeps.same fun c a c' h => by
    unfold valueOfVar at h
    split at h <;> cases h
    rfl

theorem keeps_zero : Keeps (zeroVar : CM F Var) := Keeps.same fun c a c' h => by cases h; rfl

theorem keeps_input (s : F) : Keeps (addInput s) := Keeps.same fun c a c' h => by cases h; rfl

theorem keeps_map (x : Var) (p : WireData) : Keeps (addVariableToMap x p : CM F Unit) :=
  Keeps.same fun c a c' h => by
    unfold addVariableToMap at h
    split at h <;> cases h
    rfl

theorem keeps_sel (g : Gate F) : Keeps (pushSelectors g) := Keeps.same fun c a c' h => by cases h; rfl
theorem keeps_l (x : Var) : Keeps (pushL x : CM F Unit) := Keeps.same fun c a c' h => by cases h; rfl
theorem keeps_r (x : Var) : Keeps (pushR x : CM F Unit) := Keeps.same fun c a c' h => by cases h; rfl
theorem keeps_o (x : Var) : Keeps (pushO x : CM F Unit) := Keeps.same fun c a c' h => by cases h; rfl
theorem keeps_4 (x : Var) : Keeps (push4 x : CM F Unit) := Keeps.same fun c a c' h => by cases h; rfl
theorem keeps_count : Keeps (gateCount : CM F ℕ) := Keeps.same fun c a c' h => by cases h; rfl
theorem keeps_bump (k : ℕ) : Keeps (bump k : CM F Unit) := Keeps.same fun c a c' h => by cases h; rfl
theorem keeps_row (a b c d : F) : Keeps (insertRow a b c d) := Keeps.same fun c a c' h => by cases h; rfl
theorem keeps_ext (k : ℕ) : Keeps (extendRangeSelectors k : CM F Unit) :=
  Keeps.same fun c a c' h => by cases h; rfl
theorem keeps_clear : Keeps (clearLastRange : CM F Unit) :=
  Keeps.same fun c a c' h => by
    unfold clearLastRange at h
    split_ifs at h
    · cases h; rfl
theorem keeps_last : Keeps (lastFourth : CM F Var) :=
  Keeps.same fun c a c' h => by
    unfold lastFourth at h
    split at h <;> cases h
    rfl
theorem keeps_div (a b : F) : Keeps (divC a b) := by
  unfold divC
  split_ifs
  · exact keeps_panic
  · exact Keeps.pure _

theorem btreeInsert_mem {pos : ℕ} {val : F} {l : List (ℕ × F)} {e : ℕ × F}
    (h : e ∈ btreeInsert pos val l) : e = (pos, val) ∨ e ∈ l := by
  induction l with
  | nil => simpa [btreeInsert] using h
  | cons a l ih =>
    obtain ⟨k, x⟩ := a
    simp only [btreeInsert] at h
    split_ifs at h with hk
    · simpa using h
    · rcases List.mem_cons.1 h with h | h
      · exact Or.inr (by simp [h])
      · rcases ih h with h | h
        · exact Or.inl h
        · exact Or.inr (by simp [h])

theorem btreeInsert_sorted {pos : ℕ} {val : F} {l : List (ℕ × F)}
    (h : l.Pairwise fun a b => a.1 < b.1) (hn : ∀ e ∈ l, e.1 ≠ pos) :
    (btreeInsert pos val l).Pairwise fun a b => a.1 < b.1 := by
  induction l with
  | nil => simp [btreeInsert]
  | cons a l ih =>
    obtain ⟨k, x⟩ := a
    rw [List.pairwise_cons] at h
    simp only [btreeInsert]
    split_ifs with hk
    · rw [List.pairwise_cons, List.pairwise_cons]
      refine ⟨fun e he => ?_, h.1, h.2⟩
      rcases List.mem_cons.1 he with rfl | he
      · exact hk
      · exact lt_trans hk (h.1 e he)
    · rw [List.pairwise_cons]
      refine ⟨fun e he => ?_, ih h.2 fun e he => hn e (by simp [he])⟩
      rcases btreeInsert_mem he with rfl | he
      · have := hn (k, x) (by simp)
        simp only [ne_eq] at this ⊢
        omega
      · exact h.1 e he

theorem keeps_pi (val : F) : Keeps (addPi val) := by
  intro c a c' hc h
  unfold addPi piInsert at h
  split at h
  · rename_i ps hp
    simp only [Except.ok.injEq, Prod.mk.injEq] at h
    obtain ⟨-, rfl⟩ := h
    unfold PiSorted
    simp only
    split_ifs at hp with h1 h2
    · cases hp; exact hc
    · cases hp
      refine btreeInsert_sorted hc fun e he hk => h1 ?_
      rw [List.any_eq_true]
      exact ⟨e, he, by simp [hk]⟩
  · cases h

theorem keeps_modify (z : Var) : Keeps (modify fun c => { c with zero_var := z } : CM F Unit) :=
  Keeps.same fun c a c' h => by cases h; rfl

theorem Keeps.elim {α : Type} {m : CM F α} (h : Keeps m) {c c' : Composer F} {a : α}
    (hc : PiSorted c) (hr : m c = .ok (a, c')) : PiSorted c' := h c a c' hc hr

attribute [irreducible] Keeps

/-- Runs through a method. -/
macro "keeps" : tactic => `(tactic|
  repeat' first
    | with_reducible assumption
    | with_reducible apply Keeps.bind
    | with_reducible apply Keeps.pure
    | with_reducible apply keeps_panic
    | with_reducible apply keeps_assert
    | with_reducible apply keeps_value
    | with_reducible apply keeps_zero
    | with_reducible apply keeps_input
    | with_reducible apply keeps_map
    | with_reducible apply keeps_sel
    | with_reducible apply keeps_l
    | with_reducible apply keeps_r
    | with_reducible apply keeps_o
    | with_reducible apply keeps_4
    | with_reducible apply keeps_count
    | with_reducible apply keeps_bump
    | with_reducible apply keeps_row
    | with_reducible apply keeps_ext
    | with_reducible apply keeps_clear
    | with_reducible apply keeps_last
    | with_reducible apply keeps_div
    | with_reducible apply keeps_pi
    | with_reducible intro _
    | split
    | dsimp only)

theorem keeps_gate (g : Gate F) (a b c d : Var) : Keeps (pushGate g a b c d) := by
  unfold pushGate addVariablesToMap; keeps

theorem keeps_opt (pi : Option F) : Keeps (addPiOpt pi) := by
  cases pi <;> unfold addPiOpt <;> keeps

/-- The same, with gates. -/
macro "keepsg" : tactic => `(tactic|
  repeat' first
    | with_reducible apply keeps_gate
    | with_reducible apply keeps_opt
    | (keeps; done)
    | with_reducible apply Keeps.bind
    | with_reducible intro _
    | split
    | dsimp only)

theorem keeps_poly (a b c : Var) (m l r o k : F) (pi : Option F) :
    Keeps (polyGate a b c m l r o k pi) := by
  unfold polyGate; keepsg

theorem keeps_const (a : Var) (k : F) (pi : Option F) : Keeps (constrainToConstant a k pi) :=
  keeps_poly ..

theorem keeps_eq (a b : Var) : Keeps (assertEqual a b : CM F Unit) := by
  unfold assertEqual
  exact Keeps.bind keeps_zero fun _ => keeps_poly ..

theorem keeps_wit (s : F) : Keeps (addWitnessToCircuitDescription s) := by
  unfold addWitnessToCircuitDescription
  exact Keeps.bind (keeps_input _) fun _ => Keeps.bind (keeps_const ..) fun _ => Keeps.pure _

theorem keeps_arith (g : ArithGate F) : Keeps (arithmeticGate g) := by
  unfold arithmeticGate
  keepsg

theorem keeps_bool (a : Var) : Keeps (booleanGate a : CM F Var) := by
  unfold booleanGate; keepsg

theorem keeps_isZero (a : Var) : Keeps (isZeroWithOutput a : CM F Var) := by
  unfold isZeroWithOutput
  have := @keeps_arith F _ _
  repeat' first | with_reducible apply keeps_arith | (keepsg; done) | with_reducible apply Keeps.bind | with_reducible intro _

theorem keeps_isEq (a b : Var) : Keeps (isEqWithOutput a b : CM F Var) := by
  unfold isEqWithOutput
  exact Keeps.bind (keeps_arith _) fun _ => keeps_isZero _

theorem keeps_select (x a b : Var) : Keeps (conditionalSelect x a b : CM F Var) := by
  unfold conditionalSelect
  repeat' first | with_reducible apply keeps_arith | (keepsg; done) | with_reducible apply Keeps.bind | with_reducible intro _

theorem keeps_select0 (x a : Var) : Keeps (conditionalSelectZero x a : CM F Var) := keeps_arith _

theorem keeps_select1 (x a : Var) : Keeps (conditionalSelectOne x a : CM F Var) := by
  unfold conditionalSelectOne
  repeat' first | with_reducible apply keeps_poly | (keepsg; done) | with_reducible apply Keeps.bind | with_reducible intro _

theorem keeps_addWire (i : ℕ) (x : Var) : Keeps (addWire i x : CM F Unit) := by
  unfold addWire; keeps

theorem keeps_padLoop (z : Var) (i k : ℕ) : Keeps (padLoop z i k : CM F Unit) := by
  induction k generalizing i with
  | zero => exact Keeps.pure _
  | succ k ih => exact Keeps.bind (keeps_addWire _ _) fun _ => ih _

theorem keeps_accLoop (bits : List Bool) (m i k : ℕ) (acc : F) : Keeps (accLoop bits m i k acc) := by
  induction k generalizing i acc with
  | zero => exact Keeps.pure _
  | succ k ih =>
    unfold accLoop
    repeat' first | with_reducible apply keeps_addWire | with_reducible apply ih | (keeps; done) | with_reducible apply Keeps.bind | with_reducible intro _ | split | dsimp only

theorem keeps_range (R : FieldRep F) (x : Var) (k : ℕ) : Keeps (rangeGate R x k) := by
  unfold rangeGate
  repeat' first
    | with_reducible apply keeps_padLoop | with_reducible apply keeps_accLoop | with_reducible apply keeps_eq | (keeps; done)
    | with_reducible apply Keeps.bind | with_reducible intro _ | split | dsimp only

theorem keeps_logicLoop (a b : List Bool) (x : Bool) (i k : ℕ) (l r o : F) :
    Keeps (logicLoop a b x i k l r o) := by
  induction k generalizing i l r o with
  | zero => exact Keeps.pure _
  | succ k ih =>
    unfold logicLoop
    repeat' first | with_reducible apply ih | (keeps; done) | with_reducible apply Keeps.bind | with_reducible intro _ | split | dsimp only

theorem keeps_logicSel (x : Bool) (k : ℕ) : Keeps (logicSelectors x k : CM F Unit) := by
  induction k with
  | zero => exact Keeps.pure _
  | succ k ih => exact Keeps.bind (keeps_sel _) fun _ => ih

theorem keeps_logic (R : FieldRep F) (a b : Var) (k : ℕ) (x : Bool) : Keeps (logicGate R a b k x) := by
  unfold logicGate
  repeat' first
    | with_reducible apply keeps_logicLoop | with_reducible apply keeps_logicSel | (keeps; done) | with_reducible apply Keeps.bind | with_reducible intro _ | split | dsimp only

theorem keeps_identity : Keeps (pointIdentity : CM F Point) := by
  unfold pointIdentity
  repeat' first | with_reducible apply keeps_wit | (keeps; done) | with_reducible apply Keeps.bind | with_reducible intro _

theorem keeps_affine (P : F × F) : Keeps (addAffine P) := by
  unfold addAffine; keeps

theorem keeps_add (E : EdCurve F) (p q : Point) : Keeps (pointAdditionGate E p q) := by
  unfold pointAdditionGate; keepsg

theorem keeps_selId (x : Var) (p : Point) : Keeps (conditionalSelectIdentity x p : CM F Point) := by
  unfold conditionalSelectIdentity
  repeat' first
    | with_reducible apply keeps_select0 | with_reducible apply keeps_select1 | (keeps; done) | with_reducible apply Keeps.bind | with_reducible intro _

theorem keeps_bits (l : List Bool) : Keeps (addBits l : CM F (List Var)) := by
  induction l with
  | nil => exact Keeps.pure _
  | cons b l ih =>
    unfold addBits
    repeat' first | with_reducible apply ih | (keeps; done) | with_reducible apply Keeps.bind | with_reducible intro _

theorem keeps_decompose (k : ℕ) (l : List Var) (a : Var) : Keeps (decomposeLoop k l a : CM F Var) := by
  induction l generalizing k a with
  | nil => exact Keeps.pure _
  | cons b l ih =>
    unfold decomposeLoop
    repeat' first | with_reducible apply ih | with_reducible apply keeps_bool | with_reducible apply keeps_arith | with_reducible apply Keeps.bind | with_reducible intro _

theorem keeps_doubleAdd (E : EdCurve F) (p : Point) (l : List Var) (a : Point) :
    Keeps (doubleAddLoop E p l a) := by
  induction l generalizing a with
  | nil => exact Keeps.pure _
  | cons b l ih =>
    unfold doubleAddLoop
    repeat' first | with_reducible apply ih | with_reducible apply keeps_add | with_reducible apply keeps_selId | with_reducible apply Keeps.bind | with_reducible intro _

theorem keeps_varBase (R : FieldRep F) (E : EdCurve F) (x : Var) (p : Point) :
    Keeps (variableBaseScalarMul R E x p) := by
  unfold variableBaseScalarMul scalarDecomposition
  repeat' first
    | with_reducible apply keeps_doubleAdd | with_reducible apply keeps_identity | with_reducible apply keeps_bits | with_reducible apply keeps_decompose
    | with_reducible apply keeps_eq | (keeps; done) | with_reducible apply Keeps.bind | with_reducible intro _

theorem keeps_fixedLoop (b : Bool) (l : List ((F × (F × F)) × F × (F × F))) :
    Keeps (fixedLoop b l) := by
  induction l generalizing b with
  | nil => exact Keeps.pure _
  | cons a l ih =>
    unfold fixedLoop fixedGroupAdd
    repeat' first
      | with_reducible apply ih | with_reducible apply keeps_const | with_reducible apply keeps_gate | (keeps; done) | with_reducible apply Keeps.bind | with_reducible intro _
      | split | dsimp only

theorem keeps_fixedBase (R : FieldRep F) (E : EdCurve F) (x : Var) (P : F × F) :
    Keeps (fixedBaseScalarMul R E x P) := by
  unfold fixedBaseScalarMul
  repeat' first
    | with_reducible apply keeps_fixedLoop | with_reducible apply keeps_eq | with_reducible apply keeps_arith | (keeps; done) | with_reducible apply Keeps.bind
    | with_reducible intro _ | split | dsimp only

theorem keeps_blindRow (r : F × F × F × F) : Keeps (blindRow r) := by
  unfold blindRow; keepsg

theorem keeps_blind (r1 r2 : F × F × F × F) : Keeps (addBlindingFactors r1 r2) := by
  unfold addBlindingFactors
  repeat' first | with_reducible apply keeps_blindRow | (keepsg; done) | with_reducible apply Keeps.bind | with_reducible intro _

theorem Method.keeps {R : FieldRep F} {E : EdCurve F} {α : Type} {m : CM F α} (hm : Method R E m) :
    Keeps m := by
  cases hm with
  | add_input => apply keeps_input
  | add_witness_to_circuit_description => apply keeps_wit
  | poly_gate => apply keeps_poly
  | constrain_to_constant => apply keeps_const
  | assert_equal => apply keeps_eq
  | arithmetic_gate => apply keeps_arith
  | boolean_gate => apply keeps_bool
  | is_zero_with_output => apply keeps_isZero
  | is_eq_with_output => apply keeps_isEq
  | conditional_select => apply keeps_select
  | conditional_select_zero => apply keeps_select0
  | conditional_select_one => apply keeps_select1
  | add_dummy_constraints => unfold addDummyConstraints; keepsg
  | add_dummy_lookup_table => unfold addDummyLookupTable; keeps
  | insert_row => apply keeps_row
  | add_blinding_factors => apply keeps_blind
  | lookup_gate => unfold lookupGate; keepsg
  | full_affine_transform_gate => unfold fullAffineTransformGate; keepsg
  | partial_affine_transform_gate => unfold partialAffineTransformGate; keepsg
  | range_gate => apply keeps_range
  | xor_gate => apply keeps_logic
  | and_gate => apply keeps_logic
  | identity => apply keeps_identity
  | add_affine => apply keeps_affine
  | add_public_affine =>
    unfold addPublicAffine
    repeat' first | with_reducible apply keeps_affine | with_reducible apply keeps_const | (keeps; done) | with_reducible apply Keeps.bind | with_reducible intro _
  | add_affine_to_circuit_description =>
    unfold addAffineToCircuitDescription
    repeat' first | with_reducible apply keeps_wit | (keeps; done) | with_reducible apply Keeps.bind | with_reducible intro _
  | assert_equal_public_point =>
    unfold assertEqualPublicPoint
    repeat' first | with_reducible apply keeps_const | (keeps; done) | with_reducible apply Keeps.bind | with_reducible intro _
  | assert_equal_point =>
    unfold assertEqualPoint
    repeat' first | with_reducible apply keeps_eq | (keeps; done) | with_reducible apply Keeps.bind | with_reducible intro _
  | conditional_point_select =>
    unfold conditionalPointSelect
    repeat' first | with_reducible apply keeps_select | (keeps; done) | with_reducible apply Keeps.bind | with_reducible intro _
  | conditional_point_neg =>
    unfold conditionalPointNeg
    repeat' first
      | with_reducible apply keeps_select | with_reducible apply keeps_arith | (keeps; done) | with_reducible apply Keeps.bind | with_reducible intro _
  | point_addition_gate => apply keeps_add
  | variable_base_scalar_mul => apply keeps_varBase
  | fixed_base_scalar_mul => apply keeps_fixedBase

theorem newComposer_sorted {r1 r2 : F × F × F × F} {c : Composer F} (h : newComposer r1 r2 = .ok c) :
    PiSorted c := by
  unfold newComposer at h
  split at h
  · rename_i c' hc
    simp only [Except.ok.injEq] at h
    subst h
    refine Keeps.elim ?_ (c := emptyComposer) List.Pairwise.nil hc
    exact Keeps.bind (keeps_wit _) fun _ => Keeps.bind (keeps_modify _) fun _ => keeps_blind _ _
  · cases h

theorem _root_.VO.Spec.Plonk.Reach.sorted {R : FieldRep F} {E : EdCurve F} {c : Composer F}
    (h : Reach R E c) : PiSorted c := by
  induction h with
  | new h => exact newComposer_sorted h
  | call _ hm h ih => exact (Method.keeps hm).elim ih h

theorem _root_.VO.Spec.Plonk.Reach.four {R : FieldRep F} {E : EdCurve F} {c : Composer F}
    (h : Reach R E c) : 4 ≤ c.n := by
  induction h with
  | new h =>
    obtain ⟨c', h1, -, -, -, h2, -⟩ := newComposer_ok (F := F) _ _
    rw [h] at h1
    cases h1
    rw [h2]
  | call hr hm h ih => exact le_trans ih (Method.post hm (Reach.wf hr) h).2.n

/-! ### `as_evals` -/

theorem pubOf_absent {pi : List (ℕ × F)} {i : ℕ} (h : ∀ e ∈ pi, e.1 ≠ i) : pubOf pi i = 0 := by
  unfold pubOf
  rw [List.find?_eq_none.2 (by simpa using h)]

theorem asEvals_fold (pi : List (ℕ × F)) (l : List F) (hs : pi.Pairwise fun a b => a.1 < b.1)
    (hl : ∀ e ∈ pi, e.1 < l.length) :
    ∃ e, pi.foldlM (fun (l : List F) e => do assertR (e.1 < l.length); return l.set e.1 e.2) l
        = (.ok e : Res (List F)) ∧ e.length = l.length ∧
      ∀ i, e.getD i 0 = if (∃ x ∈ pi, x.1 = i) then pubOf pi i else l.getD i 0 := by
  induction pi generalizing l with
  | nil => exact ⟨l, rfl, rfl, fun i => by simp⟩
  | cons a pi ih =>
    rw [List.pairwise_cons] at hs
    have ha := hl a (by simp)
    obtain ⟨e, h1, h2, h3⟩ := ih (l.set a.1 a.2) hs.2 fun e he => by
      rw [List.length_set]; exact hl e (by simp [he])
    refine ⟨e, ?_, by rw [h2, List.length_set], fun i => ?_⟩
    · rw [List.foldlM_cons]
      simp only [assertR, ha, if_true, ok_bind, pure, Except.pure]
      exact h1
    · rw [h3 i]
      by_cases hi : a.1 = i
      · have hn : ¬ ∃ x ∈ pi, x.1 = i := by
          rintro ⟨x, hx, hxi⟩
          have := hs.1 x hx
          omega
        rw [if_neg hn, if_pos ⟨a, by simp, hi⟩]
        subst hi
        simp [pubOf, List.getD_eq_getElem?_getD, ha]
      · have hp : pubOf (a :: pi) i = pubOf pi i := by
          unfold pubOf
          rw [List.find?_cons_of_neg (by simpa using hi)]
        have hq : (∃ x ∈ a :: pi, x.1 = i) ↔ ∃ x ∈ pi, x.1 = i := by
          simp [hi]
        simp only [hq, hp]
        split_ifs
        · rfl
        · rw [List.getD_eq_getElem?_getD, List.getElem?_set_ne hi, List.getD_eq_getElem?_getD]

/-- The evaluations of public inputs that fit. -/
theorem asEvals_run {pi : List (ℕ × F)} {n : ℕ} (hn : 2 ^ Nat.log 2 n = n)
    (hs : pi.Pairwise fun a b => a.1 < b.1) (hl : ∀ e ∈ pi, e.1 < n) :
    ∃ e, asEvals pi n = .ok e ∧ e.length = n ∧ ∀ i, e.getD i 0 = pubOf pi i := by
  obtain ⟨e, h1, h2, h3⟩ := asEvals_fold pi (List.replicate n (0 : F)) hs (by simpa using hl)
  refine ⟨e, ?_, by simpa using h2, fun i => ?_⟩
  · unfold asEvals
    simp only [assertR, hn, if_true, ok_bind]
    exact h1
  · rw [h3 i]
    split_ifs with h
    · rfl
    · push Not at h
      rw [pubOf_absent h, List.getD_eq_getElem?_getD, List.getElem?_replicate]
      split_ifs <;> rfl

theorem asEvals_fold_panic (pi : List (ℕ × F)) (l : List F) (hl : ∃ e ∈ pi, l.length ≤ e.1) :
    pi.foldlM (fun (l : List F) e => do assertR (e.1 < l.length); return l.set e.1 e.2) l
      = (.error .panic : Res (List F)) := by
  induction pi generalizing l with
  | nil => simp at hl
  | cons a pi ih =>
    rw [List.foldlM_cons]
    by_cases ha : a.1 < l.length
    · simp only [assertR, ha, if_true, ok_bind, pure, Except.pure]
      obtain ⟨e, he, hle⟩ := hl
      rcases List.mem_cons.1 he with rfl | he
      · omega
      · exact ih _ ⟨e, he, by simpa using hle⟩
    · simp only [assertR, ha, if_false, error_bind]

theorem asEvals_inv {pi : List (ℕ × F)} {n : ℕ} {e : List F} (h : asEvals pi n = .ok e) :
    2 ^ Nat.log 2 n = n ∧ ∀ x ∈ pi, x.1 < n := by
  unfold asEvals at h
  obtain ⟨_, h1, h2⟩ := bind_okE h
  refine ⟨assertR_okE h1, fun x hx => ?_⟩
  by_contra hc
  rw [asEvals_fold_panic _ _ ⟨x, hx, by simpa using hc⟩] at h2
  cases h2

end VO.Plonk
