import Verif.Lemmas.PlonkGadget2

/-
Lookup, hash, blinding and dummy gates; the fresh composer.
-/

set_option linter.unusedSectionVars false

namespace VO.Plonk

open VO.Spec.Plonk

variable {F : Type} [Field F] [DecidableEq F]

theorem lookupGate_fwd {c c' : Composer F} (hw : WF c) {a b o : Var} {d : Option Var}
    {pi : Option F} {x : Var} (h : lookupGate a b o d pi c = .ok (x, c')) :
    x = o ∧ WF c' ∧
      Added c c' ⟨0, 0, 0, 0, 0, 0, 0, 0, 0, 0, 0, 0, 0, 0, 1⟩ a b o (d.getD c.zero_var) pi := by
  unfold lookupGate at h
  obtain ⟨z, c1, hz, h1⟩ := bindC_ok.1 h
  obtain ⟨rfl, rfl⟩ := zeroVar_ok.1 hz
  simp only at h1
  obtain ⟨u, c2, h2, h3⟩ := bindC_ok.1 h1
  obtain ⟨u', c3, h4, h5⟩ := bindC_ok.1 h3
  obtain ⟨rfl, rfl⟩ := pureC_ok.1 h5
  obtain ⟨hw', ha⟩ := addedGate_fwd hw (not_usesNext_arith _ _ _ _ _ _ _ _ _ _ _)
    (bindC_ok.2 ⟨u, _, h2, h4⟩)
  exact ⟨rfl, hw', ha⟩

theorem lookupGate_run {c : Composer F} (hw : WF c) {a b o : Var} {d : Option Var}
    (pi : Option F) (ha : a < c.variables.length) (hb : b < c.variables.length)
    (ho : o < c.variables.length) (hd : ∀ x, d = some x → x < c.variables.length) :
    ∃ c', lookupGate a b o d pi c = .ok (o, c') := by
  have hd' : d.getD c.zero_var < c.variables.length := by
    cases d with
    | none => exact hw.zero
    | some x => exact hd x rfl
  obtain ⟨c', h, _⟩ := addedGate_run' hw
    (⟨0, 0, 0, 0, 0, 0, 0, 0, 0, 0, 0, 0, 0, 0, 1⟩ : Gate F) ha hb ho hd' pi
  obtain ⟨u, c1, h1, h2⟩ := bindC_ok.1 h
  exact ⟨c', bindC_ok.2 ⟨_, _, rfl, bindC_ok.2 ⟨_, _, h1, bindC_ok.2 ⟨_, _, h2, rfl⟩⟩⟩⟩

theorem fullAffine_fwd {c c' : Composer F} (hw : WF c) {x0 x1 x2 x : Var} {q0 q1 q2 q3 q4 : F}
    (h : fullAffineTransformGate x0 x1 x2 q0 q1 q2 q3 q4 c = .ok (x, c')) :
    q4 ≠ 0 ∧ WF c' ∧ Ext c c' ∧ x < c'.variables.length ∧
      ownV c' x = (q0 * ownV c x0 ^ 5 + q1 * ownV c x1 ^ 5 + q2 * ownV c x2 ^ 5 + q3) / (-q4) ∧
      (∀ E, OwnSat E c → OwnSat E c') ∧
      (∀ E T N pub w v, Sat E T N c' pub w v →
        q0 * v x0 ^ 5 + q1 * v x1 ^ 5 + q2 * v x2 ^ 5 + q3 + q4 * v x = 0) := by
  unfold fullAffineTransformGate at h
  obtain ⟨s0, c1, h1, g1⟩ := bindC_ok.1 h
  obtain ⟨hs0, rfl⟩ := valueOfVar_ok.1 h1
  obtain ⟨s1, c2, h2, g2⟩ := bindC_ok.1 g1
  obtain ⟨hs1, rfl⟩ := valueOfVar_ok.1 h2
  obtain ⟨s2, c3, h3, g3⟩ := bindC_ok.1 g2
  obtain ⟨hs2, rfl⟩ := valueOfVar_ok.1 h3
  obtain ⟨w, c4, h4, g4⟩ := bindC_ok.1 g3
  unfold divC at h4
  split at h4
  · exact (panicC_ok.1 h4).elim
  next hq =>
  obtain ⟨rfl, rfl⟩ := pureC_ok.1 h4
  obtain ⟨y, c5, h5, g5⟩ := bindC_ok.1 g4
  obtain ⟨u, c6, h6, g6⟩ := bindC_ok.1 g5
  obtain ⟨rfl, rfl⟩ := pureC_ok.1 g6
  have hN := addInput_fwd hw h5
  obtain ⟨hw', ha⟩ := pushGate_fwd hN.wf (not_usesNext_arith _ _ _ _ _ _ _ _ _ _ _) h6
  have l0 := (List.getElem?_eq_some_iff.1 hs0).1
  have l1 := (List.getElem?_eq_some_iff.1 hs1).1
  have l2 := (List.getElem?_eq_some_iff.1 hs2).1
  have hq4 : q4 ≠ 0 := fun h => hq (by rw [h, neg_zero])
  have hval : ownV c6 x
      = (q0 * ownV c x0 ^ 5 + q1 * ownV c x1 ^ 5 + q2 * ownV c x2 ^ 5 + q3) / (-q4) := by
    rw [show ownV c6 x = ownV c5 x by unfold ownV; rw [ha.vars], hN.val, ownV_of_some hs0,
      ownV_of_some hs1, ownV_of_some hs2]
  refine ⟨hq4, hw', hN.ext.trans ha.ext, by rw [ha.vars]; exact ha.valid.2.2.1, hval, ?_, ?_⟩
  · intro E hs
    refine ha.own hN.wf hw' (not_usesNext_arith _ _ _ _ _ _ _ _ _ _ _) (hN.own E hs) ?_
      (fun h => absurd rfl h)
    have e : ownV c5 x
      = (q0 * ownV c x0 ^ 5 + q1 * ownV c x1 ^ 5 + q2 * ownV c x2 ^ 5 + q3) / (-q4) := by
      rw [← hval]; unfold ownV; rw [ha.vars]
    simp only [e, hN.ext.ownV l0, hN.ext.ownV l1, hN.ext.ownV l2, gate0, Option.getD_none]
    field_simp
    ring
  · intro E T N pub w v hs
    have e := ha.arith hs
    rw [ha.pub0 hs] at e
    simp only [gate0] at e
    linear_combination e

theorem fullAffine_run {c : Composer F} (hw : WF c) {x0 x1 x2 : Var} {q0 q1 q2 q3 q4 : F}
    (hq : q4 ≠ 0) (h0 : x0 < c.variables.length) (h1 : x1 < c.variables.length)
    (h2 : x2 < c.variables.length) :
    ∃ x c', fullAffineTransformGate x0 x1 x2 q0 q1 q2 q3 q4 c = .ok (x, c') := by
  obtain ⟨c1, e1, hN⟩ := addInput_run hw
    ((q0 * ownV c x0 ^ 5 + q1 * ownV c x1 ^ 5 + q2 * ownV c x2 ^ 5 + q3) / (-q4))
  obtain ⟨c2, e2, _⟩ := addedGate_run' hN.wf
    (⟨0, 0, 0, q4, 0, q3, q0, q1, q2, 1, 0, 0, 0, 0, 0⟩ : Gate F) (hN.ext.lt h0) (hN.ext.lt h1)
    (x3 := c.variables.length) (by rw [hN.vars]; simp) (hN.ext.lt h2) none
  refine ⟨_, c2, bindC_ok.2 ⟨_, _, valueOfVar_run h0, bindC_ok.2 ⟨_, _, valueOfVar_run h1,
    bindC_ok.2 ⟨_, _, valueOfVar_run h2, bindC_ok.2 ⟨_, _, ?_, bindC_ok.2 ⟨_, _, e1,
      bindC_ok.2 ⟨_, _, e2, rfl⟩⟩⟩⟩⟩⟩⟩
  unfold divC
  rw [if_neg (by simpa using hq)]
  rfl

theorem partialAffine_fwd {c c' : Composer F} (hw : WF c) {x0 x1 x2 x : Var} {q0 q1 q2 q3 q4 : F}
    (h : partialAffineTransformGate x0 x1 x2 q0 q1 q2 q3 q4 c = .ok (x, c')) :
    q4 ≠ 0 ∧ WF c' ∧ Ext c c' ∧ x < c'.variables.length ∧
      ownV c' x = (q0 * ownV c x0 ^ 5 + q1 * ownV c x1 + q2 * ownV c x2 + q3) / (-q4) ∧
      (∀ E, OwnSat E c → OwnSat E c') ∧
      (∀ E T N pub w v, Sat E T N c' pub w v →
        q0 * v x0 ^ 5 + q1 * v x1 + q2 * v x2 + q3 + q4 * v x = 0) := by
  unfold partialAffineTransformGate at h
  obtain ⟨s0, c1, h1, g1⟩ := bindC_ok.1 h
  obtain ⟨hs0, rfl⟩ := valueOfVar_ok.1 h1
  obtain ⟨s1, c2, h2, g2⟩ := bindC_ok.1 g1
  obtain ⟨hs1, rfl⟩ := valueOfVar_ok.1 h2
  obtain ⟨s2, c3, h3, g3⟩ := bindC_ok.1 g2
  obtain ⟨hs2, rfl⟩ := valueOfVar_ok.1 h3
  obtain ⟨w, c4, h4, g4⟩ := bindC_ok.1 g3
  unfold divC at h4
  split at h4
  · exact (panicC_ok.1 h4).elim
  next hq =>
  obtain ⟨rfl, rfl⟩ := pureC_ok.1 h4
  obtain ⟨y, c5, h5, g5⟩ := bindC_ok.1 g4
  obtain ⟨u, c6, h6, g6⟩ := bindC_ok.1 g5
  obtain ⟨rfl, rfl⟩ := pureC_ok.1 g6
  have hN := addInput_fwd hw h5
  obtain ⟨hw', ha⟩ := pushGate_fwd hN.wf (not_usesNext_arith _ _ _ _ _ _ _ _ _ _ _) h6
  have l0 := (List.getElem?_eq_some_iff.1 hs0).1
  have l1 := (List.getElem?_eq_some_iff.1 hs1).1
  have l2 := (List.getElem?_eq_some_iff.1 hs2).1
  have hq4 : q4 ≠ 0 := fun h => hq (by rw [h, neg_zero])
  have hval : ownV c6 x
      = (q0 * ownV c x0 ^ 5 + q1 * ownV c x1 + q2 * ownV c x2 + q3) / (-q4) := by
    rw [show ownV c6 x = ownV c5 x by unfold ownV; rw [ha.vars], hN.val, ownV_of_some hs0,
      ownV_of_some hs1, ownV_of_some hs2]
  refine ⟨hq4, hw', hN.ext.trans ha.ext, by rw [ha.vars]; exact ha.valid.2.2.1, hval, ?_, ?_⟩
  · intro E hs
    refine ha.own hN.wf hw' (not_usesNext_arith _ _ _ _ _ _ _ _ _ _ _) (hN.own E hs) ?_
      (fun h => absurd rfl h)
    have e : ownV c5 x
      = (q0 * ownV c x0 ^ 5 + q1 * ownV c x1 + q2 * ownV c x2 + q3) / (-q4) := by
      rw [← hval]; unfold ownV; rw [ha.vars]
    simp only [e, hN.ext.ownV l0, hN.ext.ownV l1, hN.ext.ownV l2, gate0, Option.getD_none]
    field_simp
    ring
  · intro E T N pub w v hs
    have e := ha.arith hs
    rw [ha.pub0 hs] at e
    simp only [gate0] at e
    linear_combination e

theorem partialAffine_run {c : Composer F} (hw : WF c) {x0 x1 x2 : Var} {q0 q1 q2 q3 q4 : F}
    (hq : q4 ≠ 0) (h0 : x0 < c.variables.length) (h1 : x1 < c.variables.length)
    (h2 : x2 < c.variables.length) :
    ∃ x c', partialAffineTransformGate x0 x1 x2 q0 q1 q2 q3 q4 c = .ok (x, c') := by
  obtain ⟨c1, e1, hN⟩ := addInput_run hw
    ((q0 * ownV c x0 ^ 5 + q1 * ownV c x1 + q2 * ownV c x2 + q3) / (-q4))
  obtain ⟨c2, e2, _⟩ := addedGate_run' hN.wf
    (⟨0, 0, q1, q4, q2, q3, q0, 0, 0, 1, 0, 0, 0, 0, 0⟩ : Gate F) (hN.ext.lt h0) (hN.ext.lt h1)
    (x3 := c.variables.length) (by rw [hN.vars]; simp) (hN.ext.lt h2) none
  refine ⟨_, c2, bindC_ok.2 ⟨_, _, valueOfVar_run h0, bindC_ok.2 ⟨_, _, valueOfVar_run h1,
    bindC_ok.2 ⟨_, _, valueOfVar_run h2, bindC_ok.2 ⟨_, _, ?_, bindC_ok.2 ⟨_, _, e1,
      bindC_ok.2 ⟨_, _, e2, rfl⟩⟩⟩⟩⟩⟩⟩
  unfold divC
  rw [if_neg (by simpa using hq)]
  rfl

/-- A gate with no equation at all. -/
theorem emptyGate_own {c c' : Composer F} (hw : WF c) (hw' : WF c') {x1 x2 x3 x4 : Var}
    (h : Added c c' gate0 x1 x2 x3 x4 none) {E : EdCurve F} (hs : OwnSat E c) : OwnSat E c' :=
  h.own hw hw' (not_usesNext_arith _ _ _ _ _ _ _ _ _ _ _) hs (by simp [gate0])
    (fun h => absurd rfl h)

theorem blindRow_fwd {c c' : Composer F} (hw : WF c) {r : F × F × F × F} {p : Var × Var}
    (h : blindRow r c = .ok (p, c')) :
    WF c' ∧ Ext c c' ∧ p.1 < c'.variables.length ∧ p.2 < c'.variables.length ∧
      (∀ E, OwnSat E c → OwnSat E c') ∧ c'.n = c.n + 1 ∧
      c'.variables = c.variables ++ [r.1, r.2.1, r.2.2.1, r.2.2.2] := by
  unfold blindRow at h
  obtain ⟨x1, c1, h1, g1⟩ := bindC_ok.1 h
  obtain ⟨x2, c2, h2, g2⟩ := bindC_ok.1 g1
  obtain ⟨x3, c3, h3, g3⟩ := bindC_ok.1 g2
  obtain ⟨x4, c4, h4, g4⟩ := bindC_ok.1 g3
  obtain ⟨u, c5, h5, g5⟩ := bindC_ok.1 g4
  obtain ⟨rfl, rfl⟩ := pureC_ok.1 g5
  have n1 := addInput_fwd hw h1
  have n2 := addInput_fwd n1.wf h2
  have n3 := addInput_fwd n2.wf h3
  have n4 := addInput_fwd n3.wf h4
  obtain ⟨hw', ha⟩ := pushGate_fwd n4.wf (not_usesNext_arith _ _ _ _ _ _ _ _ _ _ _) h5
  refine ⟨hw', (((n1.ext.trans n2.ext).trans n3.ext).trans n4.ext).trans ha.ext, ?_, ?_, ?_,
    by rw [ha.n, n4.n, n3.n, n2.n, n1.n], by rw [ha.vars, n4.vars, n3.vars, n2.vars, n1.vars]; simp⟩
  · rw [ha.vars]; exact ha.valid.1
  · rw [ha.vars]; exact ha.valid.2.1
  · intro E hs
    exact emptyGate_own n4.wf hw' ha (n4.own E (n3.own E (n2.own E (n1.own E hs))))

theorem blindRow_run {c : Composer F} (hw : WF c) (r : F × F × F × F) :
    ∃ p c', blindRow r c = .ok (p, c') := by
  obtain ⟨c1, h1, n1⟩ := addInput_run hw r.1
  obtain ⟨c2, h2, n2⟩ := addInput_run n1.wf r.2.1
  obtain ⟨c3, h3, n3⟩ := addInput_run n2.wf r.2.2.1
  obtain ⟨c4, h4, n4⟩ := addInput_run n3.wf r.2.2.2
  have l1 : c.variables.length < c1.variables.length := by rw [n1.vars]; simp
  have l2 : c1.variables.length < c2.variables.length := by rw [n2.vars]; simp
  have l3 : c2.variables.length < c3.variables.length := by rw [n3.vars]; simp
  have l4 : c3.variables.length < c4.variables.length := by rw [n4.vars]; simp
  obtain ⟨c5, h5, _⟩ := addedGate_run' n4.wf (gate0 : Gate F) (x1 := c.variables.length)
    (x2 := c1.variables.length) (x3 := c2.variables.length) (x4 := c3.variables.length)
    (by omega) (by omega) (by omega) (by omega) none
  exact ⟨_, c5, bindC_ok.2 ⟨_, _, h1, bindC_ok.2 ⟨_, _, h2, bindC_ok.2 ⟨_, _, h3, bindC_ok.2
    ⟨_, _, h4, bindC_ok.2 ⟨_, _, h5, rfl⟩⟩⟩⟩⟩⟩

theorem addBlindingFactors_fwd {c c' : Composer F} (hw : WF c) {r1 r2 : F × F × F × F} {u : Unit}
    (h : addBlindingFactors r1 r2 c = .ok (u, c')) :
    WF c' ∧ Ext c c' ∧ (∀ E, OwnSat E c → OwnSat E c') ∧ c'.n = c.n + 3 ∧
      c'.variables = c.variables ++ [r1.1, r1.2.1, r1.2.2.1, r1.2.2.2, r2.1, r2.2.1, r2.2.2.1,
        r2.2.2.2] := by
  unfold addBlindingFactors at h
  obtain ⟨p1, c1, h1, g1⟩ := bindC_ok.1 h
  obtain ⟨⟨y1, y2⟩, c2, h2, g2⟩ := bindC_ok.1 g1
  obtain ⟨z, c3, h3, g3⟩ := bindC_ok.1 g2
  obtain ⟨rfl, rfl⟩ := zeroVar_ok.1 h3
  obtain ⟨w1, e1, -, -, o1, m1, v1⟩ := blindRow_fwd hw h1
  obtain ⟨w2, e2, -, -, o2, m2, v2⟩ := blindRow_fwd w1 h2
  obtain ⟨hw', ha⟩ := pushGate_fwd w2 (not_usesNext_arith _ _ _ _ _ _ _ _ _ _ _) g3
  exact ⟨hw', (e1.trans e2).trans ha.ext, fun E hs => emptyGate_own w2 hw' ha (o2 E (o1 E hs)),
    by rw [ha.n, m2, m1], by rw [ha.vars, v2, v1]; simp⟩

theorem addBlindingFactors_run {c : Composer F} (hw : WF c) (r1 r2 : F × F × F × F) :
    ∃ c', addBlindingFactors r1 r2 c = .ok ((), c') := by
  obtain ⟨p1, c1, h1⟩ := blindRow_run hw r1
  obtain ⟨w1, e1, -, -, -, -, -⟩ := blindRow_fwd hw h1
  obtain ⟨⟨y1, y2⟩, c2, h2⟩ := blindRow_run w1 r2
  obtain ⟨w2, e2, l1, l2, -, -, -⟩ := blindRow_fwd w1 h2
  obtain ⟨c3, h3, _⟩ := addedGate_run' w2 (gate0 : Gate F) l1 l2 w2.zero w2.zero none
  exact ⟨c3, bindC_ok.2 ⟨_, _, h1, bindC_ok.2 ⟨_, _, h2, bindC_ok.2 ⟨_, _, rfl, h3⟩⟩⟩⟩

/-- The composer `with_expected_size` has after reserving its first variable. -/
def seedComposer : Composer F :=
  { (emptyComposer : Composer F) with
    n := 1, q_m := [0], q_l := [1], q_r := [0], q_o := [0], q_4 := [0], q_c := [0], q_hl := [0],
    q_hr := [0], q_h4 := [0], q_arith := [1], q_range := [0], q_logic := [0],
    q_fixed_group_add := [0], q_variable_group_add := [0], q_lookup := [0], w_l := [0], w_r := [0],
    w_o := [0], w_4 := [0], «variables» := [0],
    perm := [[.left 0, .right 0, .output 0, .fourth 0]] }

theorem seed_eq : addWitnessToCircuitDescription (0 : F) emptyComposer = .ok (0, seedComposer) := by
  refine bindC_ok.2 ⟨0, _, rfl, bindC_ok.2 ⟨(), seedComposer, ?_, rfl⟩⟩
  have : (-(0 : F)) = 0 := neg_zero
  unfold constrainToConstant
  rw [this]
  rfl

theorem seed_wf : WF (seedComposer : Composer F) := by
  have hon : ∀ x p, OnWire (seedComposer : Composer F) x p →
      x = 0 ∧ (p = .left 0 ∨ p = .right 0 ∨ p = .output 0 ∨ p = .fourth 0) := by
    rintro x p ⟨ws, h1, h2⟩
    have hx : x = 0 := by
      have := (List.getElem?_eq_some_iff.1 h1).1
      simp only [seedComposer, List.length_singleton] at this
      omega
    subst hx
    simp only [seedComposer, List.getElem?_cons_zero, Option.some.injEq] at h1
    subst h1
    simpa using h2
  refine ⟨⟨rfl, rfl, rfl, rfl, rfl, rfl, rfl, rfl, rfl, rfl, rfl, rfl, rfl, rfl, rfl⟩, rfl, rfl,
    rfl, rfl, rfl, by simp [seedComposer, emptyComposer], ?_, ?_, ?_, ?_, ?_, ?_, ?_⟩
  · intro x p h
    obtain ⟨rfl, rfl | rfl | rfl | rfl⟩ := hon x p h <;> rfl
  · intro p x h
    have key : ∀ {i : ℕ}, ([0] : List ℕ)[i]? = some x → x = 0 := by
      intro i h
      have := List.mem_of_getElem? h
      simpa using this
    have : x = 0 := by cases p <;> exact key h
    subst this
    simp [seedComposer]
  · intro i h; simp [seedComposer, emptyComposer] at h
  · intro i h; simp [seedComposer, emptyComposer] at h
  · intro i hi
    have : i = 0 := by simp only [seedComposer] at hi; omega
    subst this
    simp [UsesNext, gateAt, seedComposer]
  · intro E T N pub w v hs
    have h1 := (hs.rows 0 (by simp [seedComposer])).arith
    have h2 := hs.pubZero 0 (by simp [seedComposer]) (by simp [seedComposer, emptyComposer])
    have h3 := hs.copy 0 (.left 0) ⟨_, rfl, by simp⟩
    rw [h2] at h1
    simp only [ArithOk, rowAt, gateAt, seedComposer, h3, List.getD_cons_zero] at h1
    show v 0 = 0
    linear_combination h1
  · intro x ws h
    have hx : x = 0 := by
      have := (List.getElem?_eq_some_iff.1 h).1
      simp only [seedComposer, List.length_singleton] at this
      omega
    subst hx
    simp only [seedComposer, List.getElem?_cons_zero, Option.some.injEq] at h
    subst h
    simp

theorem seed_own (E : EdCurve F) : OwnSat E (seedComposer : Composer F) := by
  intro N hN
  refine ⟨hN, fun i _ _ => rfl, ?_, ?_⟩
  · intro i hi
    have : i = 0 := by simp only [seedComposer] at hi; omega
    subst this
    refine ⟨?_, ?_, ?_, ?_, ?_, ?_⟩
    · have e : ∀ p, p = WireData.left 0 ∨ p = .right 0 ∨ p = .output 0 ∨ p = .fourth 0 →
          ownW (seedComposer : Composer F) p = 0 := by
        rintro p (rfl | rfl | rfl | rfl) <;> rfl
      simp only [ArithOk, rowAt, gateAt, e _ (Or.inl rfl), e _ (Or.inr (Or.inl rfl)),
        e _ (Or.inr (Or.inr (Or.inl rfl))), e _ (Or.inr (Or.inr (Or.inr rfl)))]
      simp [seedComposer, emptyComposer, ownPub]
    all_goals
      intro h
      exact absurd rfl h
  · intro x p h
    simp only [ownW, seed_wf.agree x p h]

theorem newComposer_ok (r1 r2 : F × F × F × F) :
    ∃ c : Composer F, newComposer r1 r2 = .ok c ∧ WF c ∧ (∀ E, OwnSat E c) ∧
      Ext seedComposer c ∧ c.n = 4 ∧ c.variables = [0, r1.1, r1.2.1, r1.2.2.1, r1.2.2.2, r2.1,
        r2.2.1, r2.2.2.1, r2.2.2.2] := by
  obtain ⟨c, h⟩ := addBlindingFactors_run (seed_wf (F := F)) r1 r2
  obtain ⟨hw, he, ho, hn, hv⟩ := addBlindingFactors_fwd seed_wf h
  refine ⟨c, ?_, hw, fun E => ho E (seed_own E), he, hn, hv⟩
  have : (do
    let z ← addWitnessToCircuitDescription (0 : F)
    modify fun c => { c with zero_var := z }
    addBlindingFactors r1 r2 : CM F Unit) emptyComposer = .ok ((), c) :=
    bindC_ok.2 ⟨_, _, seed_eq, bindC_ok.2 ⟨(), seedComposer, rfl, h⟩⟩
  unfold newComposer
  rw [this]

theorem addDummyConstraints_fwd {c c' : Composer F} (hw : WF c) {u : Unit}
    (h : addDummyConstraints c = .ok (u, c')) :
    WF c' ∧ Ext c c' ∧
      (∀ E, OwnSat E c → ((6 : F), (7 : F), (-20 : F), (1 : F)) ∈ c.lookup_table →
        ((-20 : F), (6 : F), (7 : F), (0 : F)) ∈ c.lookup_table → OwnSat E c') := by
  unfold addDummyConstraints at h
  obtain ⟨x1, c1, h1, g1⟩ := bindC_ok.1 h
  obtain ⟨x2, c2, h2, g2⟩ := bindC_ok.1 g1
  obtain ⟨x3, c3, h3, g3⟩ := bindC_ok.1 g2
  obtain ⟨x4, c4, h4, g4⟩ := bindC_ok.1 g3
  obtain ⟨u', c5, h5, g5⟩ := bindC_ok.1 g4
  obtain ⟨z, c6, h6, g6⟩ := bindC_ok.1 g5
  obtain ⟨rfl, rfl⟩ := zeroVar_ok.1 h6
  have n1 := addInput_fwd hw h1
  have n2 := addInput_fwd n1.wf h2
  have n3 := addInput_fwd n2.wf h3
  have n4 := addInput_fwd n3.wf h4
  obtain ⟨w5, a5⟩ := pushGate_fwd n4.wf (not_usesNext_arith _ _ _ _ _ _ _ _ _ _ _) h5
  obtain ⟨w6, a6⟩ := pushGate_fwd w5 (not_usesNext_arith _ _ _ _ _ _ _ _ _ _ _) g6
  refine ⟨w6, (((n1.ext.trans n2.ext).trans n3.ext).trans n4.ext).trans (a5.ext.trans a6.ext), ?_⟩
  intro E hs t1 t2
  have l1 : x1 < c1.variables.length := by rw [n1.vars, n1.fresh]; simp
  have l2 : x2 < c2.variables.length := by rw [n2.vars, n2.fresh]; simp
  have l3 : x3 < c3.variables.length := by rw [n3.vars, n3.fresh]; simp
  have e4 : ownV c4 x4 = -20 := n4.val
  have e3 : ownV c4 x3 = 7 := by rw [n4.ext.ownV l3, n3.val]
  have e2 : ownV c4 x2 = 1 := by rw [n4.ext.ownV (n3.ext.lt l2), n3.ext.ownV l2, n2.val]
  have e1 : ownV c4 x1 = 6 := by
    rw [n4.ext.ownV (n3.ext.lt (n2.ext.lt l1)), n3.ext.ownV (n2.ext.lt l1), n2.ext.ownV l1, n1.val]
  have s4 := n4.own E (n3.own E (n2.own E (n1.own E hs)))
  have tab : c4.lookup_table = c.lookup_table := by rw [n4.table, n3.table, n2.table, n1.table]
  have s5 : OwnSat E c5 := by
    refine a5.own n4.wf w5 (not_usesNext_arith _ _ _ _ _ _ _ _ _ _ _) s4 ?_ ?_
    · simp only [e1, e2, e3, e4, gate0, Option.getD_none]
      ring
    · intro _
      rw [e1, e2, e3, e4, tab]
      exact t1
  have hv : ∀ x, ownV c5 x = ownV c4 x := fun x => by unfold ownV; rw [a5.vars]
  have hz : ownV c5 c5.zero_var = 0 := w5.zeroVal s5
  refine a6.own w5 w6 (not_usesNext_arith _ _ _ _ _ _ _ _ _ _ _) s5 ?_ ?_
  · simp only [hz, gate0, Option.getD_none]
    simp only [hv, e1, e3, e4]
    ring
  · intro _
    rw [hz, hv, hv, hv, e1, e3, e4, a5.table, tab]
    exact t2

theorem insertRow_fwd {c c' : Composer F} (hw : WF c) {a b e d : F} {u : Unit}
    (h : insertRow a b e d c = .ok (u, c')) :
    WF c' ∧ Ext c c' ∧ c'.lookup_table = c.lookup_table ++ [(a, b, e, d)] ∧
      (∀ E, OwnSat E c → OwnSat E c') := by
  unfold insertRow at h
  cases h
  have hext : Ext c { c with lookup_table := c.lookup_table ++ [(a, b, e, d)] } :=
    ⟨le_refl _, fun _ _ => rfl, rfl, fun _ _ h => h, fun _ _ h => h, List.prefix_refl _,
      le_refl _, fun t ht => List.mem_append_left _ ht, fun _ _ => Iff.rfl, fun _ _ => rfl,
      fun _ _ h => Or.inl h⟩
  have hwf : WF { c with lookup_table := c.lookup_table ++ [(a, b, e, d)] } :=
    ⟨⟨hw.sel.1, hw.sel.2, hw.sel.3, hw.sel.4, hw.sel.5, hw.sel.6, hw.sel.7, hw.sel.8,
      hw.sel.9, hw.sel.10, hw.sel.11, hw.sel.12, hw.sel.13, hw.sel.14, hw.sel.15⟩, hw.w_l, hw.w_r,
      hw.w_o, hw.w_4, hw.permLen, hw.zero, hw.agree, hw.valid, hw.int, hw.pis, hw.lastFree,
      fun E T N pub w v hs => hw.zeroSound E T N pub w v (hext.sat hs), hw.nod⟩
  refine ⟨hwf, hext, rfl, ?_⟩
  intro E hs
  refine hs.ext hw hwf hext (fun i hi => hwf.ownPub_zero hi) ?_
  intro N hN i h1 h2
  exact absurd h2 (not_lt.2 h1)

theorem addDummyLookupTable_fwd {c c' : Composer F} (hw : WF c) {u : Unit}
    (h : addDummyLookupTable c = .ok (u, c')) :
    WF c' ∧ Ext c c' ∧ c'.lookup_table
      = c.lookup_table ++ [(6, 7, -20, 1), (-20, 6, 7, 0), (3, 1, 4, 9)] ∧
      (∀ E, OwnSat E c → OwnSat E c') := by
  unfold addDummyLookupTable at h
  obtain ⟨u1, c1, h1, g1⟩ := bindC_ok.1 h
  obtain ⟨u2, c2, h2, g2⟩ := bindC_ok.1 g1
  obtain ⟨w1, e1, t1, o1⟩ := insertRow_fwd hw h1
  obtain ⟨w2, e2, t2, o2⟩ := insertRow_fwd w1 h2
  obtain ⟨w3, e3, t3, o3⟩ := insertRow_fwd w2 g2
  exact ⟨w3, (e1.trans e2).trans e3, by rw [t3, t2, t1]; simp,
    fun E hs => o3 E (o2 E (o1 E hs))⟩

theorem addDummyLookupTable_run (c : Composer F) : ∃ c', addDummyLookupTable c = .ok ((), c') :=
  ⟨_, rfl⟩

theorem addDummyConstraints_run {c : Composer F} (hw : WF c) :
    ∃ c', addDummyConstraints c = .ok ((), c') := by
  obtain ⟨c1, h1, n1⟩ := addInput_run hw 6
  obtain ⟨c2, h2, n2⟩ := addInput_run n1.wf 1
  obtain ⟨c3, h3, n3⟩ := addInput_run n2.wf 7
  obtain ⟨c4, h4, n4⟩ := addInput_run n3.wf (-20)
  have l1 : c.variables.length < c1.variables.length := by rw [n1.vars]; simp
  have l2 : c1.variables.length < c2.variables.length := by rw [n2.vars]; simp
  have l3 : c2.variables.length < c3.variables.length := by rw [n3.vars]; simp
  have l4 : c3.variables.length < c4.variables.length := by rw [n4.vars]; simp
  obtain ⟨c5, h5, w5, a5⟩ := addedGate_run' n4.wf { (gate0 : Gate F) with
    m := 1, l := 2, r := 3, o := 4, c := 4, q4 := 1, arith := 1, lookup := 1 }
    (x1 := c.variables.length) (x2 := c2.variables.length) (x3 := c3.variables.length)
    (x4 := c1.variables.length) (by omega) (by omega) (by omega) (by omega) none
  have w5' := w5 (not_usesNext_arith _ _ _ _ _ _ _ _ _ _ _)
  have e5 : c5.variables.length = c4.variables.length := by rw [a5.vars]
  obtain ⟨c6, h6, -, -⟩ := addedGate_run' w5' { (gate0 : Gate F) with
    m := 1, l := 1, r := 1, o := 1, c := 127, q4 := 0, arith := 1, lookup := 1 }
    (x1 := c3.variables.length) (x2 := c.variables.length) (x3 := c2.variables.length)
    (x4 := c5.zero_var) (by omega) (by omega) (by omega) w5'.zero none
  exact ⟨c6, bindC_ok.2 ⟨_, _, h1, bindC_ok.2 ⟨_, _, h2, bindC_ok.2 ⟨_, _, h3, bindC_ok.2
    ⟨_, _, h4, bindC_ok.2 ⟨_, _, h5, bindC_ok.2 ⟨_, _, rfl, h6⟩⟩⟩⟩⟩⟩⟩

end VO.Plonk
