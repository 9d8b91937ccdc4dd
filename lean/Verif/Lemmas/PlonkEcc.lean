import Mathlib.Tactic.FieldSimp
import Mathlib.Algebra.Group.Even
import Verif.Lemmas.PlonkLogic2

/-
Curve points in circuits.
-/

set_option linter.unusedSectionVars false

namespace VO.Plonk

open VO.Spec.Plonk

variable {F : Type} [Field F] [DecidableEq F]

/-! ### The addition law -/

theorem edSum_add {E : EdCurve F} {P Q : F × F} (h : EdDen E P Q) :
    EdSum E P.1 P.2 Q.1 Q.2 (E.add P Q).1 (E.add P Q).2 := by
  obtain ⟨h1, h2⟩ := h
  have e : E.d * P.1 * Q.1 * P.2 * Q.2 = E.d * P.1 * Q.1 * P.2 * Q.2 := rfl
  refine ⟨?_, ?_⟩
  · show (P.1 * Q.2 + P.2 * Q.1) / _ * _ = _
    rw [div_mul_cancel₀ _ h1]
  · show (P.2 * Q.2 - E.a * P.1 * Q.1) / _ * _ = _
    rw [div_mul_cancel₀ _ h2]

theorem edSum_unique {E : EdCurve F} {P Q : F × F} (h : EdDen E P Q) {x y x' y' : F}
    (h1 : EdSum E P.1 P.2 Q.1 Q.2 x y) (h2 : EdSum E P.1 P.2 Q.1 Q.2 x' y') : x = x' ∧ y = y' := by
  refine ⟨mul_right_cancel₀ h.1 (h1.1.trans h2.1.symm), mul_right_cancel₀ h.2 (h1.2.trans h2.2.symm)⟩

theorem edAdd_eq {E : EdCurve F} {P Q : F × F} (h : EdDen E P Q) {x y : F}
    (h1 : EdSum E P.1 P.2 Q.1 Q.2 x y) : E.add P Q = (x, y) := by
  have := edSum_unique h (edSum_add h) h1
  exact Prod.ext this.1 this.2

/-- On a curve whose `a` is a square and whose `d` is not, the addition law is complete. -/
theorem edDen_complete {E : EdCurve F} (h2 : (2 : F) ≠ 0) {s : F} (ha : E.a = s ^ 2) (hs : s ≠ 0)
    (hd : ∀ t : F, t ^ 2 ≠ E.d) {P Q : F × F} (hP : OnCurve E P) (hQ : OnCurve E Q) :
    EdDen E P Q := by
  obtain ⟨x1, y1⟩ := P
  obtain ⟨x2, y2⟩ := Q
  unfold OnCurve at hP hQ
  simp only at hP hQ
  -- `e = ± 1` is impossible
  have key : ∀ e : F, e ^ 2 = 1 → E.d * x1 * x2 * y1 * y2 = e → False := by
    intro e he h
    have he0 : e ≠ 0 := by
      rintro rfl
      simp at he
    have hx1 : x1 ≠ 0 := by rintro rfl; apply he0; rw [← h]; ring
    have hy1 : y1 ≠ 0 := by rintro rfl; apply he0; rw [← h]; ring
    have hx2 : x2 ≠ 0 := by rintro rfl; apply he0; rw [← h]; ring
    have hbase : E.d * x1 ^ 2 * y1 ^ 2 * (E.a * x2 ^ 2 + y2 ^ 2) = E.a * x1 ^ 2 + y1 ^ 2 := by
      rw [hQ, hP]
      have : E.d * x1 ^ 2 * y1 ^ 2 * (1 + E.d * x2 ^ 2 * y2 ^ 2)
          = E.d * x1 ^ 2 * y1 ^ 2 + (E.d * x1 * x2 * y1 * y2) ^ 2 := by ring
      rw [this, h, he]
      ring
    have hp : (s * x1 + e * y1) ^ 2 = E.d * (x1 * y1 * (s * x2 + y2)) ^ 2 := by
      have e1 : (s * x1 + e * y1) ^ 2 = E.a * x1 ^ 2 + y1 ^ 2 + 2 * s * x1 * y1 * e := by
        rw [ha]; linear_combination y1 ^ 2 * he
      rw [e1, ← hbase, ← h, ha]
      ring
    have hm : (s * x1 - e * y1) ^ 2 = E.d * (x1 * y1 * (s * x2 - y2)) ^ 2 := by
      have e1 : (s * x1 - e * y1) ^ 2 = E.a * x1 ^ 2 + y1 ^ 2 - 2 * s * x1 * y1 * e := by
        rw [ha]; linear_combination y1 ^ 2 * he
      rw [e1, ← hbase, ← h, ha]
      ring
    by_cases hz : s * x2 + y2 = 0
    · have hz' : s * x2 - y2 ≠ 0 := by
        intro hz'
        have : 2 * (s * x2) = 0 := by linear_combination hz + hz'
        exact (mul_ne_zero h2 (mul_ne_zero hs hx2)) this
      apply hd ((s * x1 - e * y1) / (x1 * y1 * (s * x2 - y2)))
      rw [div_pow, hm]
      have := mul_ne_zero (mul_ne_zero hx1 hy1) hz'
      field_simp
    · apply hd ((s * x1 + e * y1) / (x1 * y1 * (s * x2 + y2)))
      rw [div_pow, hp]
      have := mul_ne_zero (mul_ne_zero hx1 hy1) hz
      field_simp
  refine ⟨?_, ?_⟩
  · intro h0
    exact key (-1) (by ring) (by simp only at h0; linear_combination h0)
  · intro h0
    exact key 1 (by ring) (by simp only at h0; linear_combination -h0)

theorem check_onCurve {E : EdCurve F} {P : F × F} (h : E.check P = true) : OnCurve E P := by
  unfold EdCurve.check at h
  simp only [Bool.and_eq_true, decide_eq_true_eq] at h
  exact h.1

/-! ### Simple point gadgets -/

theorem pointIdentity_fwd {c c' : Composer F} (hw : WF c) {p : Point}
    (h : pointIdentity c = .ok (p, c')) :
    WF c' ∧ Ext c c' ∧ p.x < c'.variables.length ∧ p.y < c'.variables.length ∧
    c'.variables = c.variables ++ [1] ∧
    (∀ E, OwnSat E c → OwnSat E c' ∧ ptV (ownV c') p = (0, 1)) ∧
    (∀ E T N pub w v, Sat E T N c' pub w v → ptV v p = (0, 1)) := by
  unfold pointIdentity at h
  obtain ⟨one, c1, h1, g1⟩ := bindC_ok.1 h
  obtain ⟨z, c2, h2, g2⟩ := bindC_ok.1 g1
  obtain ⟨rfl, rfl⟩ := zeroVar_ok.1 h2
  obtain ⟨rfl, rfl⟩ := pureC_ok.1 g2
  obtain ⟨hw1, he1, hx, hv, hn, ho, hs⟩ := addWitness_fwd hw h1
  have hone : ownV c1 one = 1 := by
    unfold ownV; rw [hv, hx]; exact getD_append_at _ _ rfl
  refine ⟨hw1, he1, hw1.zero, by simp only; rw [hv, hx]; simp, hv, ?_, ?_⟩
  · intro E h
    refine ⟨ho E h, ?_⟩
    unfold ptV
    simp only [hone, hw1.zeroVal (ho E h)]
  · intro E T N pub w v h
    unfold ptV
    simp only [hs E T N pub w v h, hw1.zeroSound _ _ _ _ _ _ h]

theorem pointIdentity_run {c : Composer F} (hw : WF c) :
    ∃ p c', (pointIdentity : CM F Point) c = .ok (p, c') := by
  obtain ⟨x, c1, h1⟩ := addWitness_run hw (1 : F)
  exact ⟨_, c1, bindC_ok.2 ⟨_, _, h1, bindC_ok.2 ⟨_, _, rfl, rfl⟩⟩⟩

theorem addAffine_fwd {c c' : Composer F} (hw : WF c) {P : F × F} {p : Point}
    (h : addAffine P c = .ok (p, c')) :
    WF c' ∧ Ext c c' ∧ p.x < c'.variables.length ∧ p.y < c'.variables.length ∧
    ptV (ownV c') p = P ∧ c'.n = c.n ∧ (∀ E, OwnSat E c → OwnSat E c') := by
  unfold addAffine at h
  obtain ⟨x, c1, h1, g1⟩ := bindC_ok.1 h
  obtain ⟨y, c2, h2, g2⟩ := bindC_ok.1 g1
  obtain ⟨rfl, rfl⟩ := pureC_ok.1 g2
  have n1 := addInput_fwd hw h1
  have n2 := addInput_fwd n1.wf h2
  have hx : x < c1.variables.length := by rw [n1.vars, n1.fresh]; simp
  refine ⟨n2.wf, n1.ext.trans n2.ext, n2.ext.lt hx, by simp only; rw [n2.vars, n2.fresh]; simp, ?_,
    by rw [n2.n, n1.n], fun E h => n2.own E (n1.own E h)⟩
  unfold ptV
  simp only
  rw [n2.ext.ownV hx, n1.val, n2.val]

theorem addAffine_run {c : Composer F} (hw : WF c) (P : F × F) :
    ∃ p c', addAffine P c = .ok (p, c') := by
  obtain ⟨c1, h1, n1⟩ := addInput_run hw P.1
  obtain ⟨c2, h2, n2⟩ := addInput_run n1.wf P.2
  exact ⟨_, c2, bindC_ok.2 ⟨_, _, h1, bindC_ok.2 ⟨_, _, h2, rfl⟩⟩⟩

theorem assertEqualPublicPoint_fwd {c c' : Composer F} (hw : WF c) {P : F × F} {p : Point} {u : Unit}
    (h : assertEqualPublicPoint p P c = .ok (u, c')) :
    WF c' ∧ Ext c c' ∧ p.x < c.variables.length ∧ p.y < c.variables.length ∧
    c'.variables = c.variables ∧ c'.n = c.n + 2 ∧
    (∀ E, OwnSat E c → ptV (ownV c) p = P → OwnSat E c') ∧
    (∀ E T N pub w v, Sat E T N c' pub w v → ptV v p = (-pub c.n, -pub (c.n + 1))) := by
  unfold assertEqualPublicPoint at h
  obtain ⟨u1, c1, h1, g1⟩ := bindC_ok.1 h
  obtain ⟨P1, v1⟩ := constrainToConstant_fwd hw h1
  obtain ⟨P2, v2⟩ := constrainToConstant_fwd P1.wf g1
  refine ⟨P2.wf, P1.ext.trans P2.ext, P1.lIn, by have := P2.lIn; rwa [v1] at this, by rw [v2, v1],
    by rw [P2.n, P1.n], ?_, ?_⟩
  · intro E hs hp
    unfold ptV at hp
    have e1 : ownV c p.x = P.1 := by rw [← hp]
    have e2 : ownV c p.y = P.2 := by rw [← hp]
    have ev1 : ∀ x, ownV c1 x = ownV c x := fun x => by unfold ownV; rw [v1]
    have ev2 : ∀ x, ownV c' x = ownV c1 x := fun x => by unfold ownV; rw [v2]
    refine P2.own (P1.own hs ?_) ?_
    · rw [ev1, e1, Option.getD_some]; ring
    · rw [ev2, ev1, e2, Option.getD_some]; ring
  · intro E T N pub w v hs
    have s2 := P2.sound hs
    have s1 := P1.sound (P2.ext.sat hs)
    rw [P1.n] at s2
    unfold ptV
    refine Prod.ext ?_ ?_
    · show v p.x = -pub c.n
      linear_combination s1
    · show v p.y = -pub (c.n + 1)
      linear_combination s2

theorem constrainToConstant_run {c : Composer F} (hw : WF c) {a : Var} (k : F) (pi : Option F)
    (ha : a < c.variables.length) : ∃ c', constrainToConstant a k pi c = .ok ((), c') :=
  polyGate_run hw 0 1 0 0 (-k) pi ha ha ha

theorem polyGate_pub {c c' : Composer F} (hw : WF c) {a b o : Var} {qm ql qr qo qc : F}
    {pi : Option F} {u : Unit} (h : polyGate a b o qm ql qr qo qc pi c = .ok (u, c')) :
    ownPub c' c.n = pi.getD 0 := by
  unfold polyGate at h
  obtain ⟨z, c1, hz, h⟩ := bindC_ok.1 h
  obtain ⟨rfl, rfl⟩ := zeroVar_ok.1 hz
  obtain ⟨-, ha⟩ := addedGate_fwd hw (not_usesNext_arith _ _ _ _ _ _ _ _ _ _ _) h
  exact ha.pub

theorem assertEqualPublicPoint_pub {c c' : Composer F} (hw : WF c) {P : F × F} {p : Point} {u : Unit}
    (h : assertEqualPublicPoint p P c = .ok (u, c')) :
    (ownPub c' c.n, ownPub c' (c.n + 1)) = (-P.1, -P.2) := by
  unfold assertEqualPublicPoint at h
  obtain ⟨u1, c1, h1, g1⟩ := bindC_ok.1 h
  obtain ⟨P1, v1⟩ := constrainToConstant_fwd hw h1
  obtain ⟨P2, v2⟩ := constrainToConstant_fwd P1.wf g1
  have e1 := polyGate_pub hw h1
  have e2 := polyGate_pub P1.wf g1
  rw [P1.n] at e2
  rw [P2.ext.pub c.n (by rw [P1.n]; omega), e1, e2]
  rfl

theorem assertEqualPublicPoint_run {c : Composer F} (hw : WF c) (P : F × F) {p : Point}
    (hx : p.x < c.variables.length) (hy : p.y < c.variables.length) :
    ∃ c', assertEqualPublicPoint p P c = .ok ((), c') := by
  obtain ⟨c1, h1⟩ := constrainToConstant_run hw 0 (some (-P.1)) hx
  obtain ⟨P1, v1⟩ := constrainToConstant_fwd hw h1
  obtain ⟨c2, h2⟩ := constrainToConstant_run P1.wf 0 (some (-P.2)) (a := p.y) (by rw [v1]; exact hy)
  exact ⟨c2, bindC_ok.2 ⟨_, _, h1, h2⟩⟩

theorem addPublicAffine_eq (P : F × F) :
    (addPublicAffine P : CM F Point) = (do
      let p ← addAffine P
      assertEqualPublicPoint p P
      pure p) := by
  unfold addPublicAffine assertEqualPublicPoint
  simp only [bind_assoc]

theorem addPublicAffine_fwd {c c' : Composer F} (hw : WF c) {P : F × F} {p : Point}
    (h : addPublicAffine P c = .ok (p, c')) :
    WF c' ∧ Ext c c' ∧ p.x < c'.variables.length ∧ p.y < c'.variables.length ∧
    ptV (ownV c') p = P ∧ c'.n = c.n + 2 ∧ (∀ E, OwnSat E c → OwnSat E c') ∧
    (∀ E T N pub w v, Sat E T N c' pub w v → ptV v p = (-pub c.n, -pub (c.n + 1))) := by
  rw [addPublicAffine_eq] at h
  obtain ⟨q, c1, h1, g1⟩ := bindC_ok.1 h
  obtain ⟨u, c2, h2, g2⟩ := bindC_ok.1 g1
  obtain ⟨rfl, rfl⟩ := pureC_ok.1 g2
  obtain ⟨w1, e1, x1, y1, p1, n1, o1⟩ := addAffine_fwd hw h1
  obtain ⟨w2, e2, x2, y2, v2, n2, o2, s2⟩ := assertEqualPublicPoint_fwd w1 h2
  refine ⟨w2, e1.trans e2, e2.lt x1, e2.lt y1, ?_, by rw [n2, n1], fun E h => o2 E (o1 E h) p1, ?_⟩
  · rw [← p1]
    unfold ptV ownV
    rw [v2]
  · intro E T N pub w v hs
    have := s2 E T N pub w v hs
    rwa [n1] at this

theorem addPublicAffine_run {c : Composer F} (hw : WF c) (P : F × F) :
    ∃ p c', addPublicAffine P c = .ok (p, c') := by
  rw [addPublicAffine_eq]
  obtain ⟨p, c1, h1⟩ := addAffine_run hw P
  obtain ⟨w1, -, x1, y1, -⟩ := addAffine_fwd hw h1
  obtain ⟨c2, h2⟩ := assertEqualPublicPoint_run w1 P x1 y1
  exact ⟨p, c2, bindC_ok.2 ⟨_, _, h1, bindC_ok.2 ⟨_, _, h2, rfl⟩⟩⟩

theorem addAffineToCd_fwd {c c' : Composer F} (hw : WF c) {P : F × F} {p : Point}
    (h : addAffineToCircuitDescription P c = .ok (p, c')) :
    WF c' ∧ Ext c c' ∧ p.x < c'.variables.length ∧ p.y < c'.variables.length ∧
    ptV (ownV c') p = P ∧ (∀ E, OwnSat E c → OwnSat E c') ∧
    (∀ E T N pub w v, Sat E T N c' pub w v → ptV v p = P) := by
  unfold addAffineToCircuitDescription at h
  obtain ⟨x, c1, h1, g1⟩ := bindC_ok.1 h
  obtain ⟨y, c2, h2, g2⟩ := bindC_ok.1 g1
  obtain ⟨rfl, rfl⟩ := pureC_ok.1 g2
  obtain ⟨w1, e1, x1, v1, n1, o1, s1⟩ := addWitness_fwd hw h1
  obtain ⟨w2, e2, x2, v2, n2, o2, s2⟩ := addWitness_fwd w1 h2
  have hx : x < c1.variables.length := by rw [v1, x1]; simp
  have hval1 : ownV c1 x = P.1 := by unfold ownV; rw [v1, x1]; exact getD_append_at _ _ rfl
  have hval2 : ownV c2 y = P.2 := by unfold ownV; rw [v2, x2]; exact getD_append_at _ _ rfl
  refine ⟨w2, e1.trans e2, e2.lt hx, by simp only; rw [v2, x2]; simp, ?_,
    fun E h => o2 E (o1 E h), ?_⟩
  · unfold ptV
    simp only
    rw [e2.ownV hx, hval1, hval2]
  · intro E T N pub w v hs
    unfold ptV
    simp only
    rw [s2 E T N pub w v hs, s1 E T N pub w v (e2.sat hs)]

theorem addAffineToCd_run {c : Composer F} (hw : WF c) (P : F × F) :
    ∃ p c', addAffineToCircuitDescription P c = .ok (p, c') := by
  obtain ⟨x, c1, h1⟩ := addWitness_run hw P.1
  obtain ⟨w1, -⟩ := addWitness_fwd hw h1
  obtain ⟨y, c2, h2⟩ := addWitness_run w1 P.2
  exact ⟨_, c2, bindC_ok.2 ⟨_, _, h1, bindC_ok.2 ⟨_, _, h2, rfl⟩⟩⟩

theorem assertEqualPoint_fwd {c c' : Composer F} (hw : WF c) {p q : Point} {u : Unit}
    (h : assertEqualPoint p q c = .ok (u, c')) :
    WF c' ∧ Ext c c' ∧ c'.variables = c.variables ∧
    (∀ E, OwnSat E c → ptV (ownV c) p = ptV (ownV c) q → OwnSat E c') ∧
    (∀ E T N pub w v, Sat E T N c' pub w v → ptV v p = ptV v q) := by
  unfold assertEqualPoint at h
  obtain ⟨u1, c1, h1, g1⟩ := bindC_ok.1 h
  obtain ⟨P1, v1⟩ := assertEqual_fwd hw h1
  obtain ⟨P2, v2⟩ := assertEqual_fwd P1.wf g1
  refine ⟨P2.wf, P1.ext.trans P2.ext, by rw [v2, v1], ?_, ?_⟩
  · intro E hs hp
    unfold ptV at hp
    have ev1 : ∀ x, ownV c1 x = ownV c x := fun x => by unfold ownV; rw [v1]
    have ev2 : ∀ x, ownV c' x = ownV c1 x := fun x => by unfold ownV; rw [v2]
    have hp1 := congrArg Prod.fst hp
    have hp2 := congrArg Prod.snd hp
    simp only at hp1 hp2
    refine P2.own (P1.own hs ?_) ?_
    · rw [ev1, ev1, hp1, Option.getD_none]; ring
    · rw [ev2, ev2, ev1, ev1, hp2, Option.getD_none]; ring
  · intro E T N pub w v hs
    unfold ptV
    rw [assertEqual_sound P1.wf g1 hs, assertEqual_sound hw h1 (P2.ext.sat hs)]

theorem assertEqualPoint_run {c : Composer F} (hw : WF c) {p q : Point}
    (hpx : p.x < c.variables.length) (hpy : p.y < c.variables.length)
    (hqx : q.x < c.variables.length) (hqy : q.y < c.variables.length) :
    ∃ c', assertEqualPoint p q c = .ok ((), c') := by
  obtain ⟨c1, h1⟩ := assertEqual_run hw hpx hqx
  obtain ⟨P1, v1⟩ := assertEqual_fwd hw h1
  obtain ⟨c2, h2⟩ := assertEqual_run P1.wf (a := p.y) (b := q.y) (by rw [v1]; exact hpy)
    (by rw [v1]; exact hqy)
  exact ⟨c2, bindC_ok.2 ⟨_, _, h1, h2⟩⟩

end VO.Plonk
