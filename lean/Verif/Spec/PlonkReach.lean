import Verif.Spec.Plonk

/-
The composers a user of `/repo/plonk-core` can have: a new one, and what its public methods make
of it. And what "consistent" and "only appends" mean.
-/

namespace VO.Spec.Plonk

open VO.Plonk

variable {F : Type} [Field F] [DecidableEq F]

/-- The public methods of the composer, with any arguments. -/
inductive Method (R : FieldRep F) (E : EdCurve F) : {α : Type} → CM F α → Prop
  | add_input (s) : Method R E (addInput s)
  | add_witness_to_circuit_description (s) : Method R E (addWitnessToCircuitDescription s)
  | poly_gate (a b c q_m q_l q_r q_o q_c pi) : Method R E (polyGate a b c q_m q_l q_r q_o q_c pi)
  | constrain_to_constant (a k pi) : Method R E (constrainToConstant a k pi)
  | assert_equal (a b) : Method R E (assertEqual a b)
  | arithmetic_gate (g) : Method R E (arithmeticGate g)
  | boolean_gate (a) : Method R E (booleanGate a)
  | is_zero_with_output (a) : Method R E (isZeroWithOutput a)
  | is_eq_with_output (a b) : Method R E (isEqWithOutput a b)
  | conditional_select (bit a b) : Method R E (conditionalSelect bit a b)
  | conditional_select_zero (bit a) : Method R E (conditionalSelectZero bit a)
  | conditional_select_one (bit a) : Method R E (conditionalSelectOne bit a)
  | add_dummy_constraints : Method R E addDummyConstraints
  | add_dummy_lookup_table : Method R E addDummyLookupTable
  | insert_row (a b c d) : Method R E (insertRow a b c d)
  | add_blinding_factors (r1 r2) : Method R E (addBlindingFactors r1 r2)
  | lookup_gate (a b c d pi) : Method R E (lookupGate a b c d pi)
  | full_affine_transform_gate (x0 x1 x2 q0 q1 q2 q3 q4) :
      Method R E (fullAffineTransformGate x0 x1 x2 q0 q1 q2 q3 q4)
  | partial_affine_transform_gate (x0 x1 x2 q0 q1 q2 q3 q4) :
      Method R E (partialAffineTransformGate x0 x1 x2 q0 q1 q2 q3 q4)
  | range_gate (x k) : Method R E (rangeGate R x k)
  | xor_gate (a b k) : Method R E (xorGate R a b k)
  | and_gate (a b k) : Method R E (andGate R a b k)
  | identity : Method R E pointIdentity
  | add_affine (P) : Method R E (addAffine P)
  | add_public_affine (P) : Method R E (addPublicAffine P)
  | add_affine_to_circuit_description (P) : Method R E (addAffineToCircuitDescription P)
  | assert_equal_public_point (p P) : Method R E (assertEqualPublicPoint p P)
  | assert_equal_point (p q) : Method R E (assertEqualPoint p q)
  | conditional_point_select (p q bit) : Method R E (conditionalPointSelect p q bit)
  | conditional_point_neg (bit p) : Method R E (conditionalPointNeg bit p)
  | point_addition_gate (p q) : Method R E (pointAdditionGate E p q)
  | variable_base_scalar_mul (x p) : Method R E (variableBaseScalarMul R E x p)
  | fixed_base_scalar_mul (x P) : Method R E (fixedBaseScalarMul R E x P)

/-- A new composer, or one left by a call that did not panic. -/
inductive Reach (R : FieldRep F) (E : EdCurve F) : Composer F → Prop
  | new {r1 r2 c} : newComposer r1 r2 = .ok c → Reach R E c
  | call {α : Type} {m : CM F α} {c c' : Composer F} {a : α} :
      Reach R E c → Method R E m → m c = .ok (a, c') → Reach R E c'

/-- Any number of calls, none of which panics, turn the first composer into the second. -/
inductive Calls (R : FieldRep F) (E : EdCurve F) (c : Composer F) : Composer F → Prop
  | none : Calls R E c c
  | more {α : Type} {m : CM F α} {c1 c2 : Composer F} {a : α} :
      Calls R E c c1 → Method R E m → m c1 = .ok (a, c2) → Calls R E c c2

/-- The row of a wire position. -/
def rowOf : WireData → ℕ
  | .left i => i
  | .right i => i
  | .output i => i
  | .fourth i => i

/-- Every vector has one entry per row, wires carry variables of the composer, a position listed
under a variable carries that variable, and public inputs sit in declared rows. -/
structure Consistent (c : Composer F) : Prop where
  selectors : ∀ l ∈ [c.q_m, c.q_l, c.q_r, c.q_o, c.q_4, c.q_c, c.q_hl, c.q_hr, c.q_h4, c.q_arith,
    c.q_range, c.q_logic, c.q_fixed_group_add, c.q_variable_group_add, c.q_lookup], l.length = c.n
  wires : ∀ l ∈ [c.w_l, c.w_r, c.w_o, c.w_4], l.length = c.n ∧ ∀ x ∈ l, x < c.variables.length
  keys : c.perm.length = c.variables.length
  listed : ∀ x p, OnWire c x p → wireVar c p = some x
  declared : ∀ e ∈ c.public_inputs, e.1 ∈ c.intended_pi_pos
  declaredRow : ∀ i ∈ c.intended_pi_pos, i < c.n

/-- The second composer has the rows, wires, values, table rows and public inputs of the first,
with the same meaning, and possibly more of each. -/
structure AppendOnly (c c' : Composer F) : Prop where
  rows : c.n ≤ c'.n ∧ ∀ i < c.n, gateAt c' i = gateAt c i
  wires : ∀ p x, wireVar c p = some x → wireVar c' p = some x
  copies : ∀ x p, rowOf p < c.n → (OnWire c' x p ↔ OnWire c x p)
  values : c.variables <+: c'.variables
  table : ∀ t ∈ c.lookup_table, t ∈ c'.lookup_table
  zero : c'.zero_var = c.zero_var
  declared : ∀ i < c.n, (i ∈ c'.intended_pi_pos ↔ i ∈ c.intended_pi_pos)
  publicInputs : ∀ i < c.n, ownPub c' i = ownPub c i

end VO.Spec.Plonk
