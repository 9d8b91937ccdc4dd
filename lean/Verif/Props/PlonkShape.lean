import Verif.Spec.PlonkShape
import Verif.Lemmas.PlonkShape
import Verif.Props.PlonkCompile

/-
C129: the circuit a gadget builds does not depend on the values it is run with.
-/

set_option linter.unusedSectionVars false

namespace VO

open VO.Plonk VO.Spec VO.Spec.Plonk

variable {F : Type} [Field F] [DecidableEq F] {R : FieldRep F} {E : EdCurve F}

namespace Plonk

theorem liftC_ok {α : Type} {r : Res α} {c c' : Composer F} {x : α} :
    liftC r c = .ok (x, c') ↔ r = .ok x ∧ c' = c := by
  unfold liftC
  constructor
  · intro h
    split at h
    · cases h; exact ⟨rfl, rfl⟩
    · cases h
  · rintro ⟨rfl, rfl⟩; rfl

theorem obl_method {α : Type} {m : CM F α} (h : Method R E m) : Obl Eq m m := by
  cases h with
  | add_input s => exact .input _ _
  | add_witness_to_circuit_description s => exact .constant _
  | poly_gate => exact .poly _ _ _ _ _ _ _ _ rfl
  | constrain_to_constant => exact .constrain _ _ rfl
  | assert_equal => exact .equal _ _
  | arithmetic_gate g => exact .arithE _
  | boolean_gate => exact .boolean _
  | is_zero_with_output => exact .isZero _
  | is_eq_with_output => exact .isEq _ _
  | conditional_select => exact .select _ _ _
  | conditional_select_zero => exact .arithE _
  | conditional_select_one => exact .selectOne _ _
  | add_dummy_constraints => exact .dummy
  | add_dummy_lookup_table => exact .dummyTable
  | insert_row => exact .row _ _ _ _
  | add_blinding_factors => exact .blinding _ _ _ _
  | lookup_gate => exact .lookup _ _ _ _ rfl
  | full_affine_transform_gate => exact .fullAffine _ _ _ _ _ _ _ _
  | partial_affine_transform_gate => exact .partialAffine _ _ _ _ _ _ _ _
  | range_gate => exact .range _ _ _
  | xor_gate => exact .logic _ _ _ _ _
  | and_gate => exact .logic _ _ _ _ _
  | identity => exact .identity
  | add_affine => exact .affine _ _
  | add_public_affine => exact .publicAffine _ _
  | add_affine_to_circuit_description => exact .constantPoint _
  | assert_equal_public_point => exact .publicPoint _ _ _
  | assert_equal_point => exact .equalPoint _ _
  | conditional_point_select => exact .pointSelect _ _ _
  | conditional_point_neg => exact .pointNeg _ _
  | point_addition_gate => exact .pointAdd _ _ _
  | variable_base_scalar_mul => exact .variableBase _ _ _ _
  | fixed_base_scalar_mul => exact .fixedBase _ _ _ _

theorem obl_call {α : Type} {m m' : CM F α} (h : SameCall R E m m') : Obl Eq m m' := by
  cases h with
  | same h => exact obl_method h
  | add_input => exact .input _ _
  | poly_gate a b c q_m q_l q_r q_o q_c h => exact .poly _ _ _ _ _ _ _ _ h
  | constrain_to_constant a k h => exact .constrain _ _ h
  | arithmetic_gate g h => exact .arith rfl h
  | lookup_gate a b c d h => exact .lookup _ _ _ _ h
  | add_blinding_factors => exact .blinding _ _ _ _
  | add_affine => exact .affine _ _
  | add_public_affine => exact .publicAffine _ _
  | assert_equal_public_point => exact .publicPoint _ _ _

theorem sameCall_methods {α : Type} {m m' : CM F α} (h : SameCall R E m m') :
    Method R E m ∧ Method R E m' := by
  cases h with
  | same h => exact ⟨h, h⟩
  | add_input => exact ⟨.add_input _, .add_input _⟩
  | poly_gate => exact ⟨.poly_gate .., .poly_gate ..⟩
  | constrain_to_constant => exact ⟨.constrain_to_constant .., .constrain_to_constant ..⟩
  | arithmetic_gate => exact ⟨.arithmetic_gate _, .arithmetic_gate _⟩
  | lookup_gate => exact ⟨.lookup_gate .., .lookup_gate ..⟩
  | add_blinding_factors => exact ⟨.add_blinding_factors .., .add_blinding_factors ..⟩
  | add_affine => exact ⟨.add_affine _, .add_affine _⟩
  | add_public_affine => exact ⟨.add_public_affine _, .add_public_affine _⟩
  | assert_equal_public_point => exact ⟨.assert_equal_public_point .., .assert_equal_public_point ..⟩

theorem obl_gadget {β : Type} {m m' : CM F β} (h : SameGadget R E m m') : Obl Eq m m' := by
  induction h with
  | done b => exact .pureE _
  | call h _ ih => exact .bindE (obl_call h) ih
  | zero_var _ ih => exact .bindE .zero ih
  | value_of_var x _ ih => exact .bind (.value _ _) fun a b _ => ih a b
  | outside r r' _ ih =>
    intro c c' x x' d d' hs h1 h2
    obtain ⟨a, e, g1, g2⟩ := bindC_ok.1 h1
    obtain ⟨a', e', g1', g2'⟩ := bindC_ok.1 h2
    obtain ⟨p, rfl⟩ := liftC_ok.1 g1
    obtain ⟨p', rfl⟩ := liftC_ok.1 g1'
    exact ih a a' _ _ _ _ _ _ hs g2 g2'
  | outside_same r _ ih =>
    intro c c' x x' d d' hs h1 h2
    obtain ⟨a, e, g1, g2⟩ := bindC_ok.1 h1
    obtain ⟨a', e', g1', g2'⟩ := bindC_ok.1 h2
    obtain ⟨p, rfl⟩ := liftC_ok.1 g1
    obtain ⟨p', rfl⟩ := liftC_ok.1 g1'
    rw [p] at p'
    cases p'
    exact ih a _ _ _ _ _ _ hs g2 g2'

theorem gadget_builds {β : Type} {m m' : CM F β} (h : SameGadget R E m m') :
    (∀ c x c', Reach R E c → m c = .ok (x, c') → Reach R E c') ∧
      ∀ c x c', Reach R E c → m' c = .ok (x, c') → Reach R E c' := by
  induction h with
  | done b =>
    constructor <;>
    · intro c x c' hr h
      obtain ⟨-, rfl⟩ := pureC_ok.1 h
      exact hr
  | call h _ ih =>
    constructor
    · intro c x c' hr h1
      obtain ⟨a, d, h2, h3⟩ := bindC_ok.1 h1
      exact (ih a).1 d x c' (.call hr (sameCall_methods h).1 h2) h3
    · intro c x c' hr h1
      obtain ⟨a, d, h2, h3⟩ := bindC_ok.1 h1
      exact (ih a).2 d x c' (.call hr (sameCall_methods h).2 h2) h3
  | zero_var _ ih =>
    constructor
    · intro c x c' hr h1
      obtain ⟨a, d, h2, h3⟩ := bindC_ok.1 h1
      obtain ⟨-, rfl⟩ := zeroVar_ok.1 h2
      exact (ih a).1 _ x c' hr h3
    · intro c x c' hr h1
      obtain ⟨a, d, h2, h3⟩ := bindC_ok.1 h1
      obtain ⟨-, rfl⟩ := zeroVar_ok.1 h2
      exact (ih a).2 _ x c' hr h3
  | value_of_var y _ ih =>
    constructor
    · intro c x c' hr h1
      obtain ⟨a, d, h2, h3⟩ := bindC_ok.1 h1
      obtain ⟨-, rfl⟩ := valueOfVar_ok.1 h2
      exact (ih a a).1 _ x c' hr h3
    · intro c x c' hr h1
      obtain ⟨a, d, h2, h3⟩ := bindC_ok.1 h1
      obtain ⟨-, rfl⟩ := valueOfVar_ok.1 h2
      exact (ih a a).2 _ x c' hr h3
  | outside r r' _ ih =>
    constructor
    · intro c x c' hr h1
      obtain ⟨a, d, h2, h3⟩ := bindC_ok.1 h1
      obtain ⟨p, rfl⟩ := liftC_ok.1 h2
      exact (ih a a).1 _ x c' hr h3
    · intro c x c' hr h1
      obtain ⟨a, d, h2, h3⟩ := bindC_ok.1 h1
      obtain ⟨p, rfl⟩ := liftC_ok.1 h2
      exact (ih a a).2 _ x c' hr h3
  | outside_same r _ ih =>
    constructor
    · intro c x c' hr h1
      obtain ⟨a, d, h2, h3⟩ := bindC_ok.1 h1
      obtain ⟨p, rfl⟩ := liftC_ok.1 h2
      exact (ih a).1 _ x c' hr h3
    · intro c x c' hr h1
      obtain ⟨a, d, h2, h3⟩ := bindC_ok.1 h1
      obtain ⟨p, rfl⟩ := liftC_ok.1 h2
      exact (ih a).2 _ x c' hr h3

end Plonk

/-- One call. On two composers that hold the same circuit with possibly different values, the same method
with possibly different values, when neither call panics, returns the same variables and leaves the
same circuit. -/
theorem C129_call {α : Type} {m m' : CM F α} (h : SameCall R E m m') {c c' d d' : Composer F} {a a' : α}
    (hs : SameCircuit c c') (h1 : m c = .ok (a, d)) (h2 : m' c' = .ok (a', d')) :
    a = a' ∧ SameCircuit d d' :=
  obl_call h _ _ _ _ _ _ hs h1 h2

/-- New composers hold the same circuit, whatever their randomness; and so do composers filled by the
same gadget with other values. -/
theorem C129_gadget {C C' : Circ F} (h : SameGadget R E C.gadget C'.gadget)
    {r r' : (F × F × F × F) × (F × F × F × F)} {c c' : Composer F} (hc : Filled C r c)
    (hc' : Filled C' r' c') : SameCircuit c c' := by
  obtain ⟨c0, h0, h1⟩ := hc
  obtain ⟨c0', h0', h1'⟩ := hc'
  exact (obl_gadget h _ _ _ _ _ _ (newComposer_same _ _ _ _ h0 h0') h1 h1').2

/-- So a circuit can be compiled once, with any values for which its gadget runs, and then used with all
others: with large enough parameters `compile` succeeds, and whenever the values of the second circuit
satisfy its composer, for all but few values of each challenge `gen_proof` and then `verify_proof`
succeed. -/
theorem C129_compile_once {K : PField F} {P : PCS F} {d m n : ℕ}
    (hK : PFieldOk K) (hP : PcsComplete P d) {C C' : Circ F} (hg : SameGadget R E C.gadget C'.gadget)
    {rp rv r r' rn : (F × F × F × F) × (F × F × F × F)} {cp cv c : Composer F}
    (hcp : Filled C rp cp) (hcv : Filled C rv cv) (hc : Filled C' r c) (hs : OwnSat E c)
    (hn : n = circuitBound c) (hd : n ≤ d)
    (hsize : C.size = C'.size) (hns : n ≤ C.size) (hm : C.size ≤ m)
    (h8 : Nat.clog 2 (8 * n) ≤ K.fft.twoAdicity) (hT : c.lookup_table.Nodup) (label : String) :
    ∃ pk vk, circuitCompile K P m C rp rv = .ok (pk, vk, c.intended_pi_pos) ∧
      Mostly (3 * c.lookup_table.length ^ 2 + 2) fun zeta : F =>
      ∀ beta, Mostly (4 * n + 1) fun gamma : F =>
      Mostly 3 fun delta : F => Mostly (2 * n + 3) fun epsilon : F =>
      ∀ alpha range logic fixed var lookup, Mostly n fun z : F => ∀ aw saw,
        let ro : Transcript F P.Comm → F := coins [zeta, beta, gamma, delta, epsilon, alpha, range,
          logic, fixed, var, lookup, z, aw, saw]
        ∃ pr, circuitProve K E P ro m C' pk label r r' = .ok (pr, c.public_inputs) ∧
          circuitVerify K E P ro m vk pr c.public_inputs label rn = .ok () := by
  have hb := gadget_builds hg
  exact C110_succeeds hK hP (C := C) (C' := C') (R := R) (E := E) (fun c x c' => hb.1 c x c')
    (fun c x c' => hb.2 c x c') hcp hcv hc hs hn hd (C129_gadget hg hcp hc) (C129_gadget hg hcv hc) hsize hns
    hm h8 hT label

/-- The gadget of the small circuit with different values is the same gadget. -/
theorem exCirc_same (s k s' k' : K7681) :
    SameGadget R7681 E7681 (exCirc s k).gadget (exCirc s' k').gadget := by
  unfold exCirc exProg
  simp only [bind_assoc]
  exact .call (.same (.insert_row ..)) fun _ => .call (.same (.insert_row ..)) fun _ =>
    .call (.add_input _ _) fun _ => .call (.add_input _ _) fun _ => .call (.add_input _ _) fun _ =>
    .call (.lookup_gate _ _ _ _ rfl) fun _ => .call (.constrain_to_constant _ _ rfl) fun _ => .done _

/-- The hypotheses can be met. -/
example : SameGadget R7681 E7681 (exCirc 0 0).gadget (exCirc 1 2).gadget ∧
    Filled (exCirc 0 0) ((1, 2, 3, 4), (5, 6, 7, 8)) (exC 0 0) ∧
    Filled (exCirc 1 2) ((1, 2, 3, 4), (5, 6, 7, 8)) (exC 1 2) ∧ exC 0 0 ≠ exC 1 2 :=
  ⟨exCirc_same _ _ _ _, exCirc_filled _ _, exCirc_filled _ _, by decide +kernel⟩

/-- A constant of the circuit is not a value: `add_witness_to_circuit_description` of two different
elements makes different circuits. -/
theorem C129_constants {c c1 c2 : Composer F} {x y : Var} {s s' : F} (hne : s ≠ s')
    (h1 : addWitnessToCircuitDescription s c = .ok (x, c1))
    (h2 : addWitnessToCircuitDescription s' c = .ok (y, c2)) : ¬ SameCircuit c1 c2 := by
  intro hs
  have hm : ∀ {u : Var} {p : WireData} {e e' : Composer F} {w : Unit},
      addVariableToMap u p e = .ok (w, e') → e'.q_c = e.q_c := by
    intro u p e e' w h
    unfold addVariableToMap at h
    split at h
    · cases h; rfl
    · cases h
  have hg : ∀ {g : Gate F} {a b o d : Var} {e e' : Composer F} {w : Unit},
      pushGate g a b o d e = .ok (w, e') → e'.q_c = e.q_c ++ [g.c] := by
    intro g a b o d e e' w h
    unfold pushGate at h
    obtain ⟨_, e1, a1, h⟩ := bindC_ok.1 h
    obtain ⟨_, e2, a2, h⟩ := bindC_ok.1 h
    obtain ⟨_, e3, a3, h⟩ := bindC_ok.1 h
    obtain ⟨_, e4, a4, h⟩ := bindC_ok.1 h
    obtain ⟨_, e5, a5, h⟩ := bindC_ok.1 h
    obtain ⟨n, e6, a6, h⟩ := bindC_ok.1 h
    obtain ⟨_, e7, a7, h⟩ := bindC_ok.1 h
    unfold addVariablesToMap at a7
    obtain ⟨_, f1, b1, a7⟩ := bindC_ok.1 a7
    obtain ⟨_, f2, b2, a7⟩ := bindC_ok.1 a7
    obtain ⟨_, f3, b3, a7⟩ := bindC_ok.1 a7
    have k1 : e'.q_c = e7.q_c := by cases h; rfl
    rw [k1, hm a7, hm b3, hm b2, hm b1]
    cases a1; cases a2; cases a3; cases a4; cases a5; cases a6
    rfl
  have hq : ∀ {t : F} {z : Var} {d : Composer F}, addWitnessToCircuitDescription t c = .ok (z, d) →
      d.q_c = c.q_c ++ [-t] := by
    intro t z d h
    unfold addWitnessToCircuitDescription at h
    obtain ⟨_, e1, a1, h⟩ := bindC_ok.1 h
    obtain ⟨_, e2, a2, h⟩ := bindC_ok.1 h
    obtain ⟨-, rfl⟩ := pureC_ok.1 h
    unfold constrainToConstant polyGate at a2
    obtain ⟨_, e3, a3, a2⟩ := bindC_ok.1 a2
    obtain ⟨_, e4, a4, a2⟩ := bindC_ok.1 a2
    rw [hg a2]
    obtain ⟨-, rfl⟩ := pureC_ok.1 a4
    cases a1; cases a3
    rfl
  have e1 := hq h1
  have e2 := hq h2
  have e3 : c2.q_c = c1.q_c := by
    unfold SameCircuit at hs
    rw [hs]
  rw [e1, e2] at e3
  have := List.append_cancel_left e3
  simp only [List.cons.injEq, neg_inj, and_true] at this
  exact hne this.symm

end VO
