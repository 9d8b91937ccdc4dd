import Verif.Lemmas.PlonkEcc

/-
Selecting, negating and adding points.
-/

set_option linter.unusedSectionVars false

namespace VO.Plonk

open VO.Spec.Plonk

variable {F : Type} [Field F] [DecidableEq F]

theorem conditionalPointSelect_fwd {c c' : Composer F} (hw : WF c) {p1 p0 r : Point} {bit : Var}
    (h : conditionalPointSelect p1 p0 bit c = .ok (r, c')) :
    WF c' ∧ Ext c c' ∧ bit < c.variables.length ∧ r.x < c'.variables.length ∧
    r.y < c'.variables.length ∧
    (∀ E, OwnSat E c → p0.x < c.variables.length → p0.y < c.variables.length →
      p1.y < c.variables.length → OwnSat E c' ∧
      (ownV c bit = 1 → ptV (ownV c') r = ptV (ownV c) p1) ∧
      (ownV c bit = 0 → ptV (ownV c') r = ptV (ownV c) p0)) ∧
    (∀ E T N pub w v, Sat E T N c' pub w v →
      (v bit = 1 → ptV v r = ptV v p1) ∧ (v bit = 0 → ptV v r = ptV v p0)) := by
  unfold conditionalPointSelect at h
  obtain ⟨x, c1, h1, g1⟩ := bindC_ok.1 h
  obtain ⟨y, c2, h2, g2⟩ := bindC_ok.1 g1
  obtain ⟨rfl, rfl⟩ := pureC_ok.1 g2
  obtain ⟨w1, e1, b1, a1, x1, o1, s1⟩ := conditionalSelect_fwd hw h1
  obtain ⟨w2, e2, b2, a2, x2, o2, s2⟩ := conditionalSelect_fwd w1 h2
  refine ⟨w2, e1.trans e2, b1, e2.lt x1, x2, ?_, ?_⟩
  · intro E hs hx0 hy0 hy1
    obtain ⟨hs1, v1⟩ := o1 hx0 E hs
    obtain ⟨hs2, v2⟩ := o2 (e1.lt hy0) E hs1
    rw [e1.ownV b1, e1.ownV hy0, e1.ownV hy1] at v2
    have vx : ownV c2 x = ownV c bit * ownV c p1.x + (1 - ownV c bit) * ownV c p0.x := by
      rw [e2.ownV x1]; exact v1
    refine ⟨hs2, ?_, ?_⟩ <;> intro hb <;> unfold ptV <;> simp only [vx, v2, hb]
    · refine Prod.ext ?_ ?_ <;> simp
    · refine Prod.ext ?_ ?_ <;> simp
  · intro E T N pub w v hs
    have v1 := s1 E T N pub w v (e2.sat hs)
    have v2 := s2 E T N pub w v hs
    refine ⟨?_, ?_⟩ <;> intro hb <;> unfold ptV <;> simp only [v1, v2, hb]
    · refine Prod.ext ?_ ?_ <;> simp
    · refine Prod.ext ?_ ?_ <;> simp

theorem conditionalPointSelect_run {c : Composer F} (hw : WF c) {p1 p0 : Point} {bit : Var}
    (hb : bit < c.variables.length) (h1x : p1.x < c.variables.length)
    (h1y : p1.y < c.variables.length) (h0x : p0.x < c.variables.length)
    (h0y : p0.y < c.variables.length) :
    ∃ r c', conditionalPointSelect p1 p0 bit c = .ok (r, c') := by
  obtain ⟨x, c1, h1⟩ := conditionalSelect_run hw hb h1x h0x
  obtain ⟨w1, e1, -⟩ := conditionalSelect_fwd hw h1
  obtain ⟨y, c2, h2⟩ := conditionalSelect_run w1 (e1.lt hb) (e1.lt h1y) (e1.lt h0y)
  exact ⟨_, c2, bindC_ok.2 ⟨_, _, h1, bindC_ok.2 ⟨_, _, h2, rfl⟩⟩⟩

theorem conditionalPointNeg_fwd {c c' : Composer F} (hw : WF c) {p r : Point} {bit : Var}
    (h : conditionalPointNeg bit p c = .ok (r, c')) :
    WF c' ∧ Ext c c' ∧ p.x < c.variables.length ∧
    r.x < c'.variables.length ∧ r.y = p.y ∧
    (∀ E, OwnSat E c → bit < c.variables.length → p.y < c.variables.length → OwnSat E c' ∧
      (ownV c bit = 1 → ptV (ownV c') r = (-(ownV c p.x), ownV c p.y)) ∧
      (ownV c bit = 0 → ptV (ownV c') r = ptV (ownV c) p)) ∧
    (∀ E T N pub w v, Sat E T N c' pub w v →
      (v bit = 1 → ptV v r = (-(v p.x), v p.y)) ∧ (v bit = 0 → ptV v r = ptV v p)) := by
  unfold conditionalPointNeg at h
  obtain ⟨z, c0, h0, g0⟩ := bindC_ok.1 h
  obtain ⟨rfl, rfl⟩ := zeroVar_ok.1 h0
  obtain ⟨xn, c1, h1, g1⟩ := bindC_ok.1 g0
  obtain ⟨xu, c2, h2, g2⟩ := bindC_ok.1 g1
  obtain ⟨rfl, rfl⟩ := pureC_ok.1 g2
  obtain ⟨P1, v1, o1, f1⟩ := arithmeticGate_new hw rfl (by simp [ArithGate.new]) h1
  simp only [arithOut, fan3, ArithGate.new, Option.getD_none] at v1
  obtain ⟨w2, e2, b2, a2, x2, o2, s2⟩ := conditionalSelect_fwd P1.wf h2
  have hxn : ∀ {E T N pub w v}, Sat E T N c1 pub w v → v xn = -(v p.x) := by
    intro E T N pub w v hs
    have e1 := P1.sound0 hs
    simp only [fan3, ArithGate.new] at e1
    linear_combination -e1
  refine ⟨w2, P1.ext.trans e2, P1.lIn, x2, rfl, ?_, ?_⟩
  · intro E hs hb hy
    obtain ⟨hs2, v2⟩ := o2 (P1.ext.lt P1.lIn) E (o1 E hs)
    have hv1 : ownV c1 xn = -(ownV c p.x) := by rw [v1]; ring
    rw [P1.ext.ownV hb, P1.ext.ownV P1.lIn, hv1] at v2
    refine ⟨hs2, ?_, ?_⟩ <;> intro hbv <;> unfold ptV <;>
      simp only [v2, hbv, (P1.ext.trans e2).ownV hy]
    · refine Prod.ext ?_ ?_ <;> simp
    · refine Prod.ext ?_ ?_ <;> simp
  · intro E T N pub w v hs
    have v2 := s2 E T N pub w v hs
    rw [hxn (e2.sat hs)] at v2
    refine ⟨?_, ?_⟩ <;> intro hbv <;> unfold ptV <;> simp only [v2, hbv]
    · refine Prod.ext ?_ ?_ <;> simp
    · refine Prod.ext ?_ ?_ <;> simp

theorem conditionalPointNeg_run {c : Composer F} (hw : WF c) {p : Point} {bit : Var}
    (hb : bit < c.variables.length) (hx : p.x < c.variables.length) :
    ∃ r c', conditionalPointNeg bit p c = .ok (r, c') := by
  obtain ⟨xn, c1, h1⟩ := arithmeticGate_run hw (g := { (ArithGate.new : ArithGate F) with
    witness := some (p.x, c.zero_var, none), add := (-1, 0) }) rfl hx hw.zero
    (fun x hx => by cases hx) (fun p hp => by cases hp)
  obtain ⟨P1, -⟩ := arithmeticGate_new hw rfl (by simp [ArithGate.new]) h1
  obtain ⟨xu, c2, h2⟩ := conditionalSelect_run P1.wf (P1.ext.lt hb) P1.xIn (P1.ext.lt hx)
  exact ⟨_, c2, bindC_ok.2 ⟨_, _, rfl, bindC_ok.2 ⟨_, _, h1, bindC_ok.2 ⟨_, _, h2, rfl⟩⟩⟩⟩

theorem conditionalSelectIdentity_fwd {c c' : Composer F} (hw : WF c) {p r : Point} {bit : Var}
    (h : conditionalSelectIdentity bit p c = .ok (r, c')) :
    WF c' ∧ Ext c c' ∧ bit < c.variables.length ∧ p.x < c.variables.length ∧
    r.x < c'.variables.length ∧ r.y < c'.variables.length ∧
    (∀ E, OwnSat E c → OwnSat E c') ∧
    (p.y < c.variables.length →
      ptV (ownV c') r = (ownV c bit * ownV c p.x, 1 - ownV c bit + ownV c bit * ownV c p.y)) ∧
    (∀ E T N pub w v, Sat E T N c' pub w v →
      ptV v r = (v bit * v p.x, 1 - v bit + v bit * v p.y)) := by
  unfold conditionalSelectIdentity at h
  obtain ⟨x, c1, h1, g1⟩ := bindC_ok.1 h
  obtain ⟨y, c2, h2, g2⟩ := bindC_ok.1 g1
  obtain ⟨rfl, rfl⟩ := pureC_ok.1 g2
  obtain ⟨w1, e1, b1, a1, x1, o1, v1, s1⟩ := conditionalSelectZero_fwd hw h1
  obtain ⟨w2, e2, b2, a2, x2, o2, v2, s2⟩ := conditionalSelectOne_fwd w1 h2
  refine ⟨w2, e1.trans e2, b1, a1, e2.lt x1, x2, fun E h => o2 E (o1 E h), ?_, ?_⟩
  · intro hy
    unfold ptV
    simp only
    rw [e2.ownV x1, v1, v2, e1.ownV b1, e1.ownV hy]
  · intro E T N pub w v hs
    unfold ptV
    simp only
    rw [s2 E T N pub w v hs, s1 E T N pub w v (e2.sat hs)]

theorem conditionalSelectIdentity_run {c : Composer F} (hw : WF c) {p : Point} {bit : Var}
    (hb : bit < c.variables.length) (hx : p.x < c.variables.length)
    (hy : p.y < c.variables.length) : ∃ r c', conditionalSelectIdentity bit p c = .ok (r, c') := by
  obtain ⟨x, c1, h1⟩ := conditionalSelectZero_run hw hb hx
  obtain ⟨w1, e1, -⟩ := conditionalSelectZero_fwd hw h1
  obtain ⟨y, c2, h2⟩ := conditionalSelectOne_run w1 (e1.lt hb) (e1.lt hy)
  exact ⟨_, c2, bindC_ok.2 ⟨_, _, h1, bindC_ok.2 ⟨_, _, h2, rfl⟩⟩⟩

/-- The first row of a point addition. -/
def varG : Gate F := { (gate0 : Gate F) with var := 1 }

theorem pointAdditionGate_run {E : EdCurve F} {c : Composer F} (hw : WF c) {p q : Point}
    (hpx : p.x < c.variables.length) (hpy : p.y < c.variables.length)
    (hqx : q.x < c.variables.length) (hqy : q.y < c.variables.length)
    (hp : E.check (ptV (ownV c) p) = true) (hq : E.check (ptV (ownV c) q) = true) :
    ∃ r c', pointAdditionGate E p q c = .ok (r, c') := by
  obtain ⟨c1, h1, n1⟩ := addInput_run hw (ownV c p.x * ownV c q.y)
  obtain ⟨c2, h2, n2⟩ := addInput_run n1.wf (E.add (ptV (ownV c) p) (ptV (ownV c) q)).1
  obtain ⟨c3, h3, n3⟩ := addInput_run n2.wf (E.add (ptV (ownV c) p) (ptV (ownV c) q)).2
  have hext := (n1.ext.trans n2.ext).trans n3.ext
  obtain ⟨c4, h4, B4, v4⟩ := (Block.nil n3.wf).push ⟨varG, p.x, p.y, q.x, q.y⟩
    (hext.lt hpx) (hext.lt hpy) (hext.lt hqx) (hext.lt hqy)
  have l1 : c.variables.length < c3.variables.length :=
    (n2.ext.trans n3.ext).lt (by rw [n1.vars]; simp)
  have l2 : c1.variables.length < c3.variables.length := n3.ext.lt (by rw [n2.vars]; simp)
  have l3 : c2.variables.length < c3.variables.length := by rw [n3.vars]; simp
  obtain ⟨c5, h5, B5, v5⟩ := B4.push ⟨gate0, c1.variables.length, c2.variables.length, c3.zero_var,
    c.variables.length⟩ (by rw [v4]; exact l2) (by rw [v4]; exact l3)
    (by rw [v4]; exact n3.wf.zero) (by rw [v4]; exact l1)
  refine ⟨⟨c1.variables.length, c2.variables.length⟩, c5, ?_⟩
  unfold pointAdditionGate
  refine bindC_ok.2 ⟨_, _, valueOfVar_run hpx, bindC_ok.2 ⟨_, _, valueOfVar_run hpy,
    bindC_ok.2 ⟨_, _, valueOfVar_run hqx, bindC_ok.2 ⟨_, _, valueOfVar_run hqy,
    bindC_ok.2 ⟨(), _, assertC_ok.2 ⟨hp, rfl⟩, bindC_ok.2 ⟨(), _, assertC_ok.2 ⟨hq, rfl⟩,
    bindC_ok.2 ⟨_, _, h1, bindC_ok.2 ⟨_, _, h2, bindC_ok.2 ⟨_, _, h3, bindC_ok.2 ⟨_, _, rfl,
    bindC_ok.2 ⟨_, _, h4, bindC_ok.2 ⟨_, _, h5, rfl⟩⟩⟩⟩⟩⟩⟩⟩⟩⟩⟩⟩

theorem pointAdditionGate_fwd {E : EdCurve F} {c c' : Composer F} (hw : WF c) {p q r : Point}
    (h : pointAdditionGate E p q c = .ok (r, c')) :
    (p.x < c.variables.length ∧ p.y < c.variables.length ∧ q.x < c.variables.length ∧
      q.y < c.variables.length) ∧
    E.check (ptV (ownV c) p) = true ∧ E.check (ptV (ownV c) q) = true ∧
    WF c' ∧ Ext c c' ∧ r.x < c'.variables.length ∧ r.y < c'.variables.length ∧
    c'.n = c.n + 2 ∧
    ptV (ownV c') r = E.add (ptV (ownV c) p) (ptV (ownV c) q) ∧
    (OwnSat E c → EdDen E (ptV (ownV c) p) (ptV (ownV c) q) → OwnSat E c') ∧
    (∀ T N pub w v, Sat E T N c' pub w v → EdSum E (v p.x) (v p.y) (v q.x) (v q.y) (v r.x) (v r.y)) := by
  unfold pointAdditionGate at h
  obtain ⟨x1, d1, a1, b1⟩ := bindC_ok.1 h
  obtain ⟨hx1, rfl⟩ := valueOfVar_ok.1 a1
  obtain ⟨y1, d2, a2, b2⟩ := bindC_ok.1 b1
  obtain ⟨hy1, rfl⟩ := valueOfVar_ok.1 a2
  obtain ⟨x2, d3, a3, b3⟩ := bindC_ok.1 b2
  obtain ⟨hx2, rfl⟩ := valueOfVar_ok.1 a3
  obtain ⟨y2, d4, a4, b4⟩ := bindC_ok.1 b3
  obtain ⟨hy2, rfl⟩ := valueOfVar_ok.1 a4
  obtain ⟨u5, d5, a5, b5⟩ := bindC_ok.1 b4
  obtain ⟨hc1, rfl⟩ := assertC_ok.1 a5
  obtain ⟨u6, d6, a6, b6⟩ := bindC_ok.1 b5
  obtain ⟨hc2, rfl⟩ := assertC_ok.1 a6
  have hpx := (List.getElem?_eq_some_iff.1 hx1).1
  have hpy := (List.getElem?_eq_some_iff.1 hy1).1
  have hqx := (List.getElem?_eq_some_iff.1 hx2).1
  have hqy := (List.getElem?_eq_some_iff.1 hy2).1
  have e1 := ownV_of_some hx1
  have e2 := ownV_of_some hy1
  have e3 := ownV_of_some hx2
  have e4 := ownV_of_some hy2
  have ep : ptV (ownV c) p = (x1, y1) := by unfold ptV; rw [e1, e2]
  have eq : ptV (ownV c) q = (x2, y2) := by unfold ptV; rw [e3, e4]
  obtain ⟨xy, c1, h1, b7⟩ := bindC_ok.1 b6
  obtain ⟨x3, c2, h2, b8⟩ := bindC_ok.1 b7
  obtain ⟨y3, c3, h3, b9⟩ := bindC_ok.1 b8
  obtain ⟨z, d7, a7, b10⟩ := bindC_ok.1 b9
  obtain ⟨rfl, rfl⟩ := zeroVar_ok.1 a7
  obtain ⟨u8, c4, h4, b11⟩ := bindC_ok.1 b10
  obtain ⟨u9, c5, h5, b12⟩ := bindC_ok.1 b11
  obtain ⟨rfl, rfl⟩ := pureC_ok.1 b12
  have n1 := addInput_fwd hw h1
  have n2 := addInput_fwd n1.wf h2
  have n3 := addInput_fwd n2.wf h3
  have hext := (n1.ext.trans n2.ext).trans n3.ext
  obtain ⟨c4', h4', B4, v4⟩ := (Block.nil n3.wf).push ⟨varG, p.x, p.y, q.x, q.y⟩
    (hext.lt hpx) (hext.lt hpy) (hext.lt hqx) (hext.lt hqy)
  have l1 : xy < c1.variables.length := by rw [n1.vars, n1.fresh]; simp
  have l2 : x3 < c2.variables.length := by rw [n2.vars, n2.fresh]; simp
  have l3 : y3 < c3.variables.length := by rw [n3.vars, n3.fresh]; simp
  have l1' := (n2.ext.trans n3.ext).lt l1
  have l2' := n3.ext.lt l2
  have e45 : c4' = c4 := by
    have : (Except.ok ((), c4') : Except Err _) = .ok (u8, c4) := h4'.symm.trans h4
    cases this; rfl
  subst e45
  obtain ⟨c5', h5', B5, v5⟩ := B4.push ⟨gate0, x3, y3, c3.zero_var, xy⟩ (by rw [v4]; exact l2')
    (by rw [v4]; exact l3) (by rw [v4]; exact n3.wf.zero) (by rw [v4]; exact l1')
  have e55 : c5' = c5 := by
    have : (Except.ok ((), c5') : Except Err _) = .ok (u9, c5) := h5'.symm.trans h5
    cases this; rfl
  subst e55
  simp only [List.nil_append, List.cons_append] at B5
  have hlast : ([⟨varG, p.x, p.y, q.x, q.y⟩, ⟨gate0, x3, y3, c3.zero_var, xy⟩] :
    List (BRow F)).getLast? = some ⟨gate0, x3, y3, c3.zero_var, xy⟩ := rfl
  have hwf := B5.wf' hlast not_usesNext_gate0
  have hv53 : c5'.variables = c3.variables := by rw [v5, v4]
  have ov : ∀ x, ownV c5' x = ownV c3 x := fun x => by unfold ownV; rw [hv53]
  have vx3 : ownV c5' x3 = (E.add (x1, y1) (x2, y2)).1 := by
    rw [ov, n3.ext.ownV l2, n2.val]
  have vy3 : ownV c5' y3 = (E.add (x1, y1) (x2, y2)).2 := by rw [ov, n3.val]
  have vxy : ownV c5' xy = x1 * y2 := by rw [ov, (n2.ext.trans n3.ext).ownV l1, n1.val]
  refine ⟨⟨hpx, hpy, hqx, hqy⟩, by rw [ep]; exact hc1, by rw [eq]; exact hc2, hwf,
    hext.trans B5.ext, by simp only; rw [hv53]; exact l2', by simp only; rw [hv53]; exact l3,
    by rw [B5.n, n3.n, n2.n, n1.n]; rfl, ?_, ?_, ?_⟩
  · rw [ep, eq]
    unfold ptV
    simp only [vx3, vy3]
  · intro hs hden
    rw [ep, eq] at hden
    refine B5.own n3.wf hlast not_usesNext_gate0 (n3.own E (n2.own E (n1.own E hs))) ?_ ?_
    · intro j r r' hr hr'
      have hj : j = 0 := by
        have := (List.getElem?_eq_some_iff.1 hr').1
        simp only [List.length_cons, List.length_nil] at this
        omega
      subst hj
      cases hr
      cases hr'
      refine ⟨?_, fun h => absurd rfl h, fun h => absurd rfl h, fun h => absurd rfl h, ?_,
        fun h => absurd rfl h⟩
      · simp [ArithOk, varG, gate0]
      · intro _
        unfold VarOk BRow.vals
        simp only
        rw [vxy, vx3, vy3, (hext.trans B5.ext).ownV hpx, (hext.trans B5.ext).ownV hpy,
          (hext.trans B5.ext).ownV hqx, (hext.trans B5.ext).ownV hqy, e1, e2, e3, e4]
        exact ⟨rfl, edSum_add hden⟩
    · refine ⟨?_, fun h => absurd rfl h, fun h => absurd rfl h, fun h => absurd rfl h,
        fun h => absurd rfl h, fun h => absurd rfl h⟩
      simp [ArithOk, gate0]
  · intro T N pub w v hs
    have := (B5.row hs (j := 0) rfl rfl).var (by
      show (1 : F) ≠ 0
      exact one_ne_zero)
    exact this.2

/-- A point addition inside a group. -/
theorem pointAddition_group {E : EdCurve F} {G : Type} [AddCommGroup G] {pt : G → F × F}
    (hG : CurveGroup E G pt) {g h : G} {x y : F} (hs : EdSum E (pt g).1 (pt g).2 (pt h).1 (pt h).2 x y) :
    (x, y) = pt (g + h) := by
  have := edSum_unique (hG.den g h) hs (hG.sum g h)
  exact Prod.ext this.1 this.2

theorem _root_.VO.Spec.Plonk.CurveGroup.add {E : EdCurve F} {G : Type} [AddCommGroup G] {pt : G → F × F}
    (hG : CurveGroup E G pt) (g h : G) : E.add (pt g) (pt h) = pt (g + h) :=
  edAdd_eq (hG.den g h) (hG.sum g h)

end VO.Plonk
