import Verif.Lemmas.PlonkEcc7
import Verif.Spec.PlonkReach

/-
Reachable composers are well formed and calls only append.
-/

set_option linter.unusedSectionVars false

namespace VO.Plonk

open VO.Spec.Plonk

variable {F : Type} [Field F] [DecidableEq F]
variable {R : FieldRep F} {E : EdCurve F}

theorem Method.post {α : Type} {m : CM F α} (hm : Method R E m) {c c' : Composer F} (hw : WF c)
    {a : α} (h : m c = .ok (a, c')) : WF c' ∧ Ext c c' := by
  cases hm with
  | add_input s => have := addInput_fwd hw h; exact ⟨this.wf, this.ext⟩
  | add_witness_to_circuit_description s => have := addWitness_fwd hw h; exact ⟨this.1, this.2.1⟩
  | poly_gate => have := (polyGate_fwd hw h).1; exact ⟨this.wf, this.ext⟩
  | constrain_to_constant => have := (constrainToConstant_fwd hw h).1; exact ⟨this.wf, this.ext⟩
  | assert_equal => have := (assertEqual_fwd hw h).1; exact ⟨this.wf, this.ext⟩
  | arithmetic_gate g =>
    obtain ⟨w, h'⟩ : ∃ w, g.witness = some w := by
      cases hg : g.witness with
      | none => unfold arithmeticGate at h; rw [hg] at h; cases h
      | some w => exact ⟨w, rfl⟩
    obtain ⟨l, r, o⟩ := w
    cases o with
    | none => have := (arithmeticGate_fwd_none hw h' h).2.2; exact ⟨this.wf, this.ext⟩
    | some o => have := (arithmeticGate_fwd_some hw h' h).2.2; exact ⟨this.wf, this.ext⟩
  | boolean_gate => have := (booleanGate_fwd hw h).2.1; exact ⟨this.wf, this.ext⟩
  | is_zero_with_output => have := isZeroWithOutput_fwd hw h; exact ⟨this.1, this.2.1⟩
  | is_eq_with_output => have := isEqWithOutput_fwd hw h; exact ⟨this.1, this.2.1⟩
  | conditional_select => have := conditionalSelect_fwd hw h; exact ⟨this.1, this.2.1⟩
  | conditional_select_zero => have := conditionalSelectZero_fwd hw h; exact ⟨this.1, this.2.1⟩
  | conditional_select_one => have := conditionalSelectOne_fwd hw h; exact ⟨this.1, this.2.1⟩
  | add_dummy_constraints => have := addDummyConstraints_fwd hw h; exact ⟨this.1, this.2.1⟩
  | add_dummy_lookup_table => have := addDummyLookupTable_fwd hw h; exact ⟨this.1, this.2.1⟩
  | insert_row => have := insertRow_fwd hw h; exact ⟨this.1, this.2.1⟩
  | add_blinding_factors => have := addBlindingFactors_fwd hw h; exact ⟨this.1, this.2.1⟩
  | lookup_gate => have := (lookupGate_fwd hw h).2; exact ⟨this.1, this.2.ext⟩
  | full_affine_transform_gate => have := fullAffine_fwd hw h; exact ⟨this.2.1, this.2.2.1⟩
  | partial_affine_transform_gate => have := partialAffine_fwd hw h; exact ⟨this.2.1, this.2.2.1⟩
  | range_gate =>
    have := (rangeGate_fwd hw h).2.2.2.2
    exact ⟨this.1, this.2.1⟩
  | xor_gate =>
    have := (logicGate_post hw h).2.2.2.2.2.2
    exact ⟨this.1, this.2.1⟩
  | and_gate =>
    have := (logicGate_post hw h).2.2.2.2.2.2
    exact ⟨this.1, this.2.1⟩
  | identity => have := pointIdentity_fwd hw h; exact ⟨this.1, this.2.1⟩
  | add_affine => have := addAffine_fwd hw h; exact ⟨this.1, this.2.1⟩
  | add_public_affine => have := addPublicAffine_fwd hw h; exact ⟨this.1, this.2.1⟩
  | add_affine_to_circuit_description => have := addAffineToCd_fwd hw h; exact ⟨this.1, this.2.1⟩
  | assert_equal_public_point => have := assertEqualPublicPoint_fwd hw h; exact ⟨this.1, this.2.1⟩
  | assert_equal_point => have := assertEqualPoint_fwd hw h; exact ⟨this.1, this.2.1⟩
  | conditional_point_select => have := conditionalPointSelect_fwd hw h; exact ⟨this.1, this.2.1⟩
  | conditional_point_neg => have := conditionalPointNeg_fwd hw h; exact ⟨this.1, this.2.1⟩
  | point_addition_gate =>
    have := (pointAdditionGate_fwd hw h).2.2.2
    exact ⟨this.1, this.2.1⟩
  | variable_base_scalar_mul => have := variableBase_struct hw h; exact ⟨this.1, this.2.1⟩
  | fixed_base_scalar_mul => have := fixedBase_struct hw h; exact ⟨this.1, this.2.1⟩

theorem Reach.wf {c : Composer F} (h : Reach R E c) : WF c := by
  induction h with
  | new h =>
    obtain ⟨c', h1, h2, -⟩ := newComposer_ok (F := F) _ _
    rw [h] at h1
    cases h1
    exact h2
  | call _ hm h ih => exact (Method.post hm ih h).1

theorem rowOf_eq (p : WireData) : rowOf p = p.row := by cases p <;> rfl

theorem Ext.appendOnly {c c' : Composer F} (h : Ext c c') : AppendOnly c c' where
  rows := ⟨h.n, h.gate⟩
  wires := h.wv
  copies x p hp := ⟨fun h1 => (h.back x p h1).resolve_right (by rw [rowOf_eq] at hp; omega),
    h.wire x p⟩
  values := h.vars
  table := h.tab
  zero := h.zero
  declared := h.int
  publicInputs := h.pub

theorem WF.consistent {c : Composer F} (h : WF c) : Consistent c where
  selectors := by
    intro l hl
    simp only [List.mem_cons, List.not_mem_nil, or_false] at hl
    rcases hl with rfl | rfl | rfl | rfl | rfl | rfl | rfl | rfl | rfl | rfl | rfl | rfl | rfl |
      rfl | rfl
    exacts [h.sel.q_m, h.sel.q_l, h.sel.q_r, h.sel.q_o, h.sel.q_4, h.sel.q_c, h.sel.q_hl,
      h.sel.q_hr, h.sel.q_h4, h.sel.q_arith, h.sel.q_range, h.sel.q_logic, h.sel.q_fixed,
      h.sel.q_var, h.sel.q_lookup]
  wires := by
    intro l hl
    simp only [List.mem_cons, List.not_mem_nil, or_false] at hl
    rcases hl with rfl | rfl | rfl | rfl
    · refine ⟨h.w_l, fun x hx => ?_⟩
      obtain ⟨i, hi⟩ := List.mem_iff_getElem?.1 hx
      exact h.valid (.left i) x hi
    · refine ⟨h.w_r, fun x hx => ?_⟩
      obtain ⟨i, hi⟩ := List.mem_iff_getElem?.1 hx
      exact h.valid (.right i) x hi
    · refine ⟨h.w_o, fun x hx => ?_⟩
      obtain ⟨i, hi⟩ := List.mem_iff_getElem?.1 hx
      exact h.valid (.output i) x hi
    · refine ⟨h.w_4, fun x hx => ?_⟩
      obtain ⟨i, hi⟩ := List.mem_iff_getElem?.1 hx
      exact h.valid (.fourth i) x hi
  keys := h.permLen
  listed := h.agree
  declared := h.pis
  declaredRow := h.int

end VO.Plonk
