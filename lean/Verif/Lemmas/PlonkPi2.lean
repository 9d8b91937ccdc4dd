import Verif.Lemmas.PlonkPi

/-
The declared public input rows of a reachable composer are in strictly increasing order, and no zero
is stored. The same run through the methods as in `PlonkPi`.
-/

set_option linter.unusedSectionVars false
set_option linter.unusedTactic false
set_option linter.unreachableTactic false

namespace VO.Plonk

open VO.Spec VO.Spec.Plonk

variable {F : Type} [Field F] [DecidableEq F]

/-- The declared rows are in order and below the number of gates; no zero is stored. -/
def PiTidy (c : Composer F) : Prop :=
  (c.intended_pi_pos.Pairwise fun a b => a < b) ∧ (∀ i ∈ c.intended_pi_pos, i < c.n) ∧
    ∀ e ∈ c.public_inputs, e.2 ≠ 0

/-- The method tidy the positions in order. -/
def Tidy {α : Type} (m : CM F α) : Prop :=
  ∀ c a c', PiTidy c → m c = .ok (a, c') → PiTidy c'

theorem Tidy.bind {α β : Type} {m : CM F α} {f : α → CM F β} (h : Tidy m)
    (hf : ∀ a, Tidy (f a)) : Tidy (m >>= f) := by
  intro c b c' hc hr
  simp only [Bind.bind, StateT.bind] at hr
  obtain ⟨⟨a, c1⟩, h1, h2⟩ := bind_okE hr
  exact hf a c1 b c' (h c a c1 hc h1) h2

theorem Tidy.pure {α : Type} (a : α) : Tidy (pure a : CM F α) := by
  intro c b c' hc hr
  simp only [Pure.pure, StateT.pure, Except.pure, Except.ok.injEq, Prod.mk.injEq] at hr
  rw [← hr.2]; exact hc

theorem Tidy.same {α : Type} {m : CM F α}
    (h : ∀ c a c', m c = .ok (a, c') → c'.public_inputs = c.public_inputs ∧
      c'.intended_pi_pos = c.intended_pi_pos ∧ c.n ≤ c'.n) : Tidy m := by
  intro c a c' ⟨h1, h2, h3⟩ hr
  obtain ⟨e1, e2, e3⟩ := h c a c' hr
  unfold PiTidy
  rw [e1, e2]
  exact ⟨h1, fun i hi => lt_of_lt_of_le (h2 i hi) e3, h3⟩

theorem tidy_panic {α : Type} : Tidy (panicC : CM F α) := Tidy.same fun c a c' h => by cases h

theorem tidy_assert (p : Prop) [Decidable p] : Tidy (assertC p : CM F Unit) :=
  Tidy.same fun c a c' h => by
    unfold assertC at h
    split_ifs at h
    · cases h; exact ⟨rfl, rfl, le_rfl⟩

theorem tidy_value (x : Var) : Tidy (valueOfVar x : CM F F) :=
  Tidy.same fun c a c' h => by
    unfold valueOfVar at h
    split at h <;> cases h
    exact ⟨rfl, rfl, le_rfl⟩

theorem tidy_zero : Tidy (zeroVar : CM F Var) := Tidy.same fun c a c' h => by cases h; exact ⟨rfl, rfl, le_rfl⟩

theorem tidy_input (s : F) : Tidy (addInput s) := Tidy.same fun c a c' h => by cases h; exact ⟨rfl, rfl, le_rfl⟩

theorem tidy_map (x : Var) (p : WireData) : Tidy (addVariableToMap x p : CM F Unit) :=
  Tidy.same fun c a c' h => by
    unfold addVariableToMap at h
    split at h <;> cases h
    exact ⟨rfl, rfl, le_rfl⟩

theorem tidy_sel (g : Gate F) : Tidy (pushSelectors g) := Tidy.same fun c a c' h => by cases h; exact ⟨rfl, rfl, le_rfl⟩
theorem tidy_l (x : Var) : Tidy (pushL x : CM F Unit) := Tidy.same fun c a c' h => by cases h; exact ⟨rfl, rfl, le_rfl⟩
theorem tidy_r (x : Var) : Tidy (pushR x : CM F Unit) := Tidy.same fun c a c' h => by cases h; exact ⟨rfl, rfl, le_rfl⟩
theorem tidy_o (x : Var) : Tidy (pushO x : CM F Unit) := Tidy.same fun c a c' h => by cases h; exact ⟨rfl, rfl, le_rfl⟩
theorem tidy_4 (x : Var) : Tidy (push4 x : CM F Unit) := Tidy.same fun c a c' h => by cases h; exact ⟨rfl, rfl, le_rfl⟩
theorem tidy_count : Tidy (gateCount : CM F ℕ) := Tidy.same fun c a c' h => by cases h; exact ⟨rfl, rfl, le_rfl⟩
theorem tidy_bump (k : ℕ) : Tidy (bump k : CM F Unit) :=
  Tidy.same fun c a c' h => by cases h; exact ⟨rfl, rfl, Nat.le_add_right _ _⟩
theorem tidy_row (a b c d : F) : Tidy (insertRow a b c d) := Tidy.same fun c a c' h => by cases h; exact ⟨rfl, rfl, le_rfl⟩
theorem tidy_ext (k : ℕ) : Tidy (extendRangeSelectors k : CM F Unit) :=
  Tidy.same fun c a c' h => by cases h; exact ⟨rfl, rfl, le_rfl⟩
theorem tidy_clear : Tidy (clearLastRange : CM F Unit) :=
  Tidy.same fun c a c' h => by
    unfold clearLastRange at h
    split_ifs at h
    · cases h; exact ⟨rfl, rfl, le_rfl⟩
theorem tidy_last : Tidy (lastFourth : CM F Var) :=
  Tidy.same fun c a c' h => by
    unfold lastFourth at h
    split at h <;> cases h
    exact ⟨rfl, rfl, le_rfl⟩
theorem tidy_div (a b : F) : Tidy (divC a b) := by
  unfold divC
  split_ifs
  · exact tidy_panic
  · exact Tidy.pure _

theorem tidy_modify (z : Var) : Tidy (modify fun c => { c with zero_var := z } : CM F Unit) :=
  Tidy.same fun c a c' h => by cases h; exact ⟨rfl, rfl, le_rfl⟩

theorem Tidy.elim {α : Type} {m : CM F α} (h : Tidy m) {c c' : Composer F} {a : α}
    (hc : PiTidy c) (hr : m c = .ok (a, c')) : PiTidy c' := h c a c' hc hr

/-- A gate stores no public input and takes one row. -/
theorem pushGate_pis {g : Gate F} {a b c d : Var} {s s' : Composer F} {u : Unit}
    (h : pushGate g a b c d s = .ok (u, s')) :
    s'.public_inputs = s.public_inputs ∧ s'.intended_pi_pos = s.intended_pi_pos ∧ s'.n = s.n + 1 := by
  obtain ⟨h1, h2, h3, h4⟩ := pushGate_valid h
  obtain ⟨pm, e, -⟩ := pushGate_run g h1 h2 h3 h4
  rw [e] at h
  cases h
  exact ⟨rfl, rfl, rfl⟩

attribute [irreducible] Tidy


/-- Runs through a method. -/
macro "tidy" : tactic => `(tactic|
  repeat' first
    | with_reducible assumption
    | with_reducible apply Tidy.bind
    | with_reducible apply Tidy.pure
    | with_reducible apply tidy_panic
    | with_reducible apply tidy_assert
    | with_reducible apply tidy_value
    | with_reducible apply tidy_zero
    | with_reducible apply tidy_input
    | with_reducible apply tidy_map
    | with_reducible apply tidy_sel
    | with_reducible apply tidy_l
    | with_reducible apply tidy_r
    | with_reducible apply tidy_o
    | with_reducible apply tidy_4
    | with_reducible apply tidy_count
    | with_reducible apply tidy_bump
    | with_reducible apply tidy_row
    | with_reducible apply tidy_ext
    | with_reducible apply tidy_clear
    | with_reducible apply tidy_last
    | with_reducible apply tidy_div
    | with_reducible intro _
    | split
    | dsimp only)

theorem tidy_gate (g : Gate F) (a b c d : Var) : Tidy (pushGate g a b c d) := by
  unfold pushGate addVariablesToMap; tidy

theorem addPi_facts {val : F} {c c' : Composer F} {u : Unit} (h : addPi val c = .ok (u, c'))
    (hz : ∀ e ∈ c.public_inputs, e.2 ≠ 0) :
    c'.intended_pi_pos = c.intended_pi_pos ++ [c.n] ∧ c'.n = c.n ∧
      ∀ e ∈ c'.public_inputs, e.2 ≠ 0 := by
  unfold addPi piInsert at h
  split at h
  · rename_i ps hp
    simp only [Except.ok.injEq, Prod.mk.injEq] at h
    obtain ⟨-, rfl⟩ := h
    refine ⟨rfl, rfl, ?_⟩
    split_ifs at hp with h1 h2
    · cases hp; exact hz
    · cases hp
      intro e he
      rcases btreeInsert_mem he with rfl | he
      · exact h2
      · exact hz e he
  · cases h

theorem pi_gate_step {pi : Option F} {g : Gate F} {a b c d : Var} {s s1 s2 s3 : Composer F}
    {u1 u3 : Unit} (hs : PiTidy s) (e1 : addPiOpt pi s = .ok (u1, s1))
    (hm : s2.public_inputs = s1.public_inputs ∧ s2.intended_pi_pos = s1.intended_pi_pos ∧
      s2.n = s1.n) (e3 : pushGate g a b c d s2 = .ok (u3, s3)) : PiTidy s3 := by
  obtain ⟨h1, h2, h3⟩ := hs
  obtain ⟨g1, g2, g3⟩ := pushGate_pis e3
  obtain ⟨k1, k2, k3⟩ := hm
  unfold PiTidy
  rw [g1, g2, g3, k1, k2, k3]
  cases pi with
  | none =>
    cases e1
    exact ⟨h1, fun i hi => Nat.lt_succ_of_lt (h2 i hi), h3⟩
  | some val =>
    obtain ⟨f1, f2, f3⟩ := addPi_facts e1 h3
    rw [f1, f2]
    refine ⟨?_, ?_, f3⟩
    · rw [List.pairwise_append]
      exact ⟨h1, by simp, fun i hi j hj => by rw [List.mem_singleton.1 hj]; exact h2 i hi⟩
    · intro i hi
      rcases List.mem_append.1 hi with hi | hi
      · exact Nat.lt_succ_of_lt (h2 i hi)
      · rw [List.mem_singleton.1 hi]; exact Nat.lt_succ_self _

theorem tidy_pi_mid {α : Type} (pi : Option F) (m : CM F α) (g : Gate F) (f1 f2 f3 f4 : α → Var)
    (hm : ∀ c a c', m c = .ok (a, c') → c'.public_inputs = c.public_inputs ∧
      c'.intended_pi_pos = c.intended_pi_pos ∧ c'.n = c.n) :
    Tidy (addPiOpt pi >>= fun _ => m >>= fun x => pushGate g (f1 x) (f2 x) (f3 x) (f4 x) >>=
      fun _ => pure x) := by
  unfold Tidy
  intro s u s' hs hr
  obtain ⟨u1, s1, e1, hr⟩ := bindC_ok.1 hr
  obtain ⟨x, s2, e2, hr⟩ := bindC_ok.1 hr
  obtain ⟨u3, s3, e3, hr⟩ := bindC_ok.1 hr
  cases hr
  exact pi_gate_step hs e1 (hm _ _ _ e2) e3

theorem tidy_pi_gate (pi : Option F) (g : Gate F) (a b c d : Var) :
    Tidy (addPiOpt pi >>= fun _ => pushGate g a b c d) := by
  unfold Tidy
  intro s u s' hs hr
  obtain ⟨u1, s1, e1, hr⟩ := bindC_ok.1 hr
  exact pi_gate_step hs e1 ⟨rfl, rfl, rfl⟩ hr

theorem tidy_pi_gate_pure {α : Type} (pi : Option F) (g : Gate F) (a b c d : Var) (x : α) :
    Tidy (addPiOpt pi >>= fun _ => pushGate g a b c d >>= fun _ => pure x) := by
  unfold Tidy
  intro s u s' hs hr
  obtain ⟨u1, s1, e1, hr⟩ := bindC_ok.1 hr
  obtain ⟨u3, s3, e3, hr⟩ := bindC_ok.1 hr
  cases hr
  exact pi_gate_step hs e1 ⟨rfl, rfl, rfl⟩ e3

/-- The same, with gates. -/
macro "tidyg" : tactic => `(tactic|
  repeat' first
    | with_reducible apply tidy_gate
    | with_reducible apply tidy_pi_gate
    | (tidy; done)
    | with_reducible apply Tidy.bind
    | with_reducible intro _
    | split
    | dsimp only)

theorem tidy_poly (a b c : Var) (m l r o k : F) (pi : Option F) :
    Tidy (polyGate a b c m l r o k pi) := by
  unfold polyGate; tidyg

theorem tidy_const (a : Var) (k : F) (pi : Option F) : Tidy (constrainToConstant a k pi) :=
  tidy_poly ..

theorem tidy_eq (a b : Var) : Tidy (assertEqual a b : CM F Unit) := by
  unfold assertEqual
  exact Tidy.bind tidy_zero fun _ => tidy_poly ..

theorem tidy_wit (s : F) : Tidy (addWitnessToCircuitDescription s) := by
  unfold addWitnessToCircuitDescription
  exact Tidy.bind (tidy_input _) fun _ => Tidy.bind (tidy_const ..) fun _ => Tidy.pure _

theorem value_same {x : Var} {v : F} {c c' : Composer F} (h : valueOfVar x c = .ok (v, c')) :
    c' = c := by
  unfold valueOfVar at h
  split at h <;> cases h
  rfl

theorem tidy_arith (g : ArithGate F) : Tidy (arithmeticGate g) := by
  unfold arithmeticGate
  split
  · exact tidy_panic
  · rename_i l r o _
    refine Tidy.bind tidy_zero fun z => ?_
    cases o with
    | some o =>
      refine tidy_pi_mid g.pi _ _ (fun _ => _) (fun _ => _) (fun x => x) (fun _ => _) ?_
      intro c a c' h
      cases h; exact ⟨rfl, rfl, rfl⟩
    | none =>
      refine tidy_pi_mid g.pi _ _ (fun _ => _) (fun _ => _) (fun x => x) (fun _ => _) ?_
      intro c a c' h
      obtain ⟨_, c1, e1, h⟩ := bindC_ok.1 h
      obtain ⟨_, c2, e2, h⟩ := bindC_ok.1 h
      obtain ⟨_, c3, e3, h⟩ := bindC_ok.1 h
      rw [value_same e3, value_same e2, value_same e1] at h
      cases h
      exact ⟨rfl, rfl, rfl⟩

theorem tidy_bool (a : Var) : Tidy (booleanGate a : CM F Var) := by
  unfold booleanGate; tidyg

theorem tidy_isZero (a : Var) : Tidy (isZeroWithOutput a : CM F Var) := by
  unfold isZeroWithOutput
  have := @tidy_arith F _ _
  repeat' first | with_reducible apply tidy_arith | (tidyg; done) | with_reducible apply Tidy.bind | with_reducible intro _

theorem tidy_isEq (a b : Var) : Tidy (isEqWithOutput a b : CM F Var) := by
  unfold isEqWithOutput
  exact Tidy.bind (tidy_arith _) fun _ => tidy_isZero _

theorem tidy_select (x a b : Var) : Tidy (conditionalSelect x a b : CM F Var) := by
  unfold conditionalSelect
  repeat' first | with_reducible apply tidy_arith | (tidyg; done) | with_reducible apply Tidy.bind | with_reducible intro _

theorem tidy_select0 (x a : Var) : Tidy (conditionalSelectZero x a : CM F Var) := tidy_arith _

theorem tidy_select1 (x a : Var) : Tidy (conditionalSelectOne x a : CM F Var) := by
  unfold conditionalSelectOne
  repeat' first | with_reducible apply tidy_poly | (tidyg; done) | with_reducible apply Tidy.bind | with_reducible intro _

theorem tidy_addWire (i : ℕ) (x : Var) : Tidy (addWire i x : CM F Unit) := by
  unfold addWire; tidy

theorem tidy_padLoop (z : Var) (i k : ℕ) : Tidy (padLoop z i k : CM F Unit) := by
  induction k generalizing i with
  | zero => exact Tidy.pure _
  | succ k ih => exact Tidy.bind (tidy_addWire _ _) fun _ => ih _

theorem tidy_accLoop (bits : List Bool) (m i k : ℕ) (acc : F) : Tidy (accLoop bits m i k acc) := by
  induction k generalizing i acc with
  | zero => exact Tidy.pure _
  | succ k ih =>
    unfold accLoop
    repeat' first | with_reducible apply tidy_addWire | with_reducible apply ih | (tidy; done) | with_reducible apply Tidy.bind | with_reducible intro _ | split | dsimp only

theorem tidy_range (R : FieldRep F) (x : Var) (k : ℕ) : Tidy (rangeGate R x k) := by
  unfold rangeGate
  repeat' first
    | with_reducible apply tidy_padLoop | with_reducible apply tidy_accLoop | with_reducible apply tidy_eq | (tidy; done)
    | with_reducible apply Tidy.bind | with_reducible intro _ | split | dsimp only

theorem tidy_logicLoop (a b : List Bool) (x : Bool) (i k : ℕ) (l r o : F) :
    Tidy (logicLoop a b x i k l r o) := by
  induction k generalizing i l r o with
  | zero => exact Tidy.pure _
  | succ k ih =>
    unfold logicLoop
    repeat' first | with_reducible apply ih | (tidy; done) | with_reducible apply Tidy.bind | with_reducible intro _ | split | dsimp only

theorem tidy_logicSel (x : Bool) (k : ℕ) : Tidy (logicSelectors x k : CM F Unit) := by
  induction k with
  | zero => exact Tidy.pure _
  | succ k ih => exact Tidy.bind (tidy_sel _) fun _ => ih

theorem tidy_logic (R : FieldRep F) (a b : Var) (k : ℕ) (x : Bool) : Tidy (logicGate R a b k x) := by
  unfold logicGate
  repeat' first
    | with_reducible apply tidy_logicLoop | with_reducible apply tidy_logicSel | (tidy; done) | with_reducible apply Tidy.bind | with_reducible intro _ | split | dsimp only

theorem tidy_identity : Tidy (pointIdentity : CM F Point) := by
  unfold pointIdentity
  repeat' first | with_reducible apply tidy_wit | (tidy; done) | with_reducible apply Tidy.bind | with_reducible intro _

theorem tidy_affine (P : F × F) : Tidy (addAffine P) := by
  unfold addAffine; tidy

theorem tidy_add (E : EdCurve F) (p q : Point) : Tidy (pointAdditionGate E p q) := by
  unfold pointAdditionGate; tidyg

theorem tidy_selId (x : Var) (p : Point) : Tidy (conditionalSelectIdentity x p : CM F Point) := by
  unfold conditionalSelectIdentity
  repeat' first
    | with_reducible apply tidy_select0 | with_reducible apply tidy_select1 | (tidy; done) | with_reducible apply Tidy.bind | with_reducible intro _

theorem tidy_bits (l : List Bool) : Tidy (addBits l : CM F (List Var)) := by
  induction l with
  | nil => exact Tidy.pure _
  | cons b l ih =>
    unfold addBits
    repeat' first | with_reducible apply ih | (tidy; done) | with_reducible apply Tidy.bind | with_reducible intro _

theorem tidy_decompose (k : ℕ) (l : List Var) (a : Var) : Tidy (decomposeLoop k l a : CM F Var) := by
  induction l generalizing k a with
  | nil => exact Tidy.pure _
  | cons b l ih =>
    unfold decomposeLoop
    repeat' first | with_reducible apply ih | with_reducible apply tidy_bool | with_reducible apply tidy_arith | with_reducible apply Tidy.bind | with_reducible intro _

theorem tidy_doubleAdd (E : EdCurve F) (p : Point) (l : List Var) (a : Point) :
    Tidy (doubleAddLoop E p l a) := by
  induction l generalizing a with
  | nil => exact Tidy.pure _
  | cons b l ih =>
    unfold doubleAddLoop
    repeat' first | with_reducible apply ih | with_reducible apply tidy_add | with_reducible apply tidy_selId | with_reducible apply Tidy.bind | with_reducible intro _

theorem tidy_varBase (R : FieldRep F) (E : EdCurve F) (x : Var) (p : Point) :
    Tidy (variableBaseScalarMul R E x p) := by
  unfold variableBaseScalarMul scalarDecomposition
  repeat' first
    | with_reducible apply tidy_doubleAdd | with_reducible apply tidy_identity | with_reducible apply tidy_bits | with_reducible apply tidy_decompose
    | with_reducible apply tidy_eq | (tidy; done) | with_reducible apply Tidy.bind | with_reducible intro _

theorem tidy_fixedLoop (b : Bool) (l : List ((F × (F × F)) × F × (F × F))) :
    Tidy (fixedLoop b l) := by
  induction l generalizing b with
  | nil => exact Tidy.pure _
  | cons a l ih =>
    unfold fixedLoop fixedGroupAdd
    repeat' first
      | with_reducible apply ih | with_reducible apply tidy_const | with_reducible apply tidy_gate | (tidy; done) | with_reducible apply Tidy.bind | with_reducible intro _
      | split | dsimp only

theorem tidy_fixedBase (R : FieldRep F) (E : EdCurve F) (x : Var) (P : F × F) :
    Tidy (fixedBaseScalarMul R E x P) := by
  unfold fixedBaseScalarMul
  repeat' first
    | with_reducible apply tidy_fixedLoop | with_reducible apply tidy_eq | with_reducible apply tidy_arith | (tidy; done) | with_reducible apply Tidy.bind
    | with_reducible intro _ | split | dsimp only

theorem tidy_blindRow (r : F × F × F × F) : Tidy (blindRow r) := by
  unfold blindRow; tidyg

theorem tidy_blind (r1 r2 : F × F × F × F) : Tidy (addBlindingFactors r1 r2) := by
  unfold addBlindingFactors
  repeat' first | with_reducible apply tidy_blindRow | (tidyg; done) | with_reducible apply Tidy.bind | with_reducible intro _

theorem Method.tidy {R : FieldRep F} {E : EdCurve F} {α : Type} {m : CM F α} (hm : Method R E m) :
    Tidy m := by
  cases hm with
  | add_input => apply tidy_input
  | add_witness_to_circuit_description => apply tidy_wit
  | poly_gate => apply tidy_poly
  | constrain_to_constant => apply tidy_const
  | assert_equal => apply tidy_eq
  | arithmetic_gate => apply tidy_arith
  | boolean_gate => apply tidy_bool
  | is_zero_with_output => apply tidy_isZero
  | is_eq_with_output => apply tidy_isEq
  | conditional_select => apply tidy_select
  | conditional_select_zero => apply tidy_select0
  | conditional_select_one => apply tidy_select1
  | add_dummy_constraints => unfold addDummyConstraints; tidyg
  | add_dummy_lookup_table => unfold addDummyLookupTable; tidy
  | insert_row => apply tidy_row
  | add_blinding_factors => apply tidy_blind
  | lookup_gate =>
    unfold lookupGate
    exact Tidy.bind tidy_zero fun z => tidy_pi_gate_pure ..
  | full_affine_transform_gate => unfold fullAffineTransformGate; tidyg
  | partial_affine_transform_gate => unfold partialAffineTransformGate; tidyg
  | range_gate => apply tidy_range
  | xor_gate => apply tidy_logic
  | and_gate => apply tidy_logic
  | identity => apply tidy_identity
  | add_affine => apply tidy_affine
  | add_public_affine =>
    unfold addPublicAffine
    repeat' first | with_reducible apply tidy_affine | with_reducible apply tidy_const | (tidy; done) | with_reducible apply Tidy.bind | with_reducible intro _
  | add_affine_to_circuit_description =>
    unfold addAffineToCircuitDescription
    repeat' first | with_reducible apply tidy_wit | (tidy; done) | with_reducible apply Tidy.bind | with_reducible intro _
  | assert_equal_public_point =>
    unfold assertEqualPublicPoint
    repeat' first | with_reducible apply tidy_const | (tidy; done) | with_reducible apply Tidy.bind | with_reducible intro _
  | assert_equal_point =>
    unfold assertEqualPoint
    repeat' first | with_reducible apply tidy_eq | (tidy; done) | with_reducible apply Tidy.bind | with_reducible intro _
  | conditional_point_select =>
    unfold conditionalPointSelect
    repeat' first | with_reducible apply tidy_select | (tidy; done) | with_reducible apply Tidy.bind | with_reducible intro _
  | conditional_point_neg =>
    unfold conditionalPointNeg
    repeat' first
      | with_reducible apply tidy_select | with_reducible apply tidy_arith | (tidy; done) | with_reducible apply Tidy.bind | with_reducible intro _
  | point_addition_gate => apply tidy_add
  | variable_base_scalar_mul => apply tidy_varBase
  | fixed_base_scalar_mul => apply tidy_fixedBase

theorem newComposer_tidy {r1 r2 : F × F × F × F} {c : Composer F} (h : newComposer r1 r2 = .ok c) :
    PiTidy c := by
  unfold newComposer at h
  split at h
  · rename_i c' hc
    simp only [Except.ok.injEq] at h
    subst h
    refine Tidy.elim ?_ (c := emptyComposer) ⟨List.Pairwise.nil, by simp [emptyComposer], by simp [emptyComposer]⟩ hc
    exact Tidy.bind (tidy_wit _) fun _ => Tidy.bind (tidy_modify _) fun _ => tidy_blind _ _
  · cases h

theorem _root_.VO.Spec.Plonk.Reach.tidy {R : FieldRep F} {E : EdCurve F} {c : Composer F}
    (h : Reach R E c) : PiTidy c := by
  induction h with
  | new h => exact newComposer_tidy h
  | call _ hm h ih => exact (Method.tidy hm).elim ih h


end VO.Plonk
