import Mathlib.Tactic.Ring
import Verif.Lemmas.PlonkGadget

/-
Gadgets made of a few arithmetic gates.
-/

set_option linter.unusedSectionVars false

namespace VO.Plonk

open VO.Spec.Plonk

variable {F : Type} [Field F] [DecidableEq F]

theorem Ext.len {c c' : Composer F} (h : Ext c c') : c.variables.length ≤ c'.variables.length :=
  h.vars.length_le

theorem Ext.lt {c c' : Composer F} (h : Ext c c') {x : Var} (hx : x < c.variables.length) :
    x < c'.variables.length := lt_of_lt_of_le hx h.len

/-- An arithmetic gate that makes its own output, with output selector `1` or `-1`. -/
theorem arithmeticGate_new {c c' : Composer F} (hw : WF c) {g : ArithGate F} {l r x : Var}
    (hg : g.witness = some (l, r, none)) (hout : g.out * g.out = 1)
    (h : arithmeticGate g c = .ok (x, c')) :
    ArithPost c c' l r x (fan3 g c.zero_var).2 g.mul g.add.1 g.add.2 g.out (fan3 g c.zero_var).1
      g.const g.pi ∧
    ownV c' x = arithOut g l r (fan3 g c.zero_var).2 (fan3 g c.zero_var).1 (ownV c) ∧
    (∀ E, OwnSat E c → OwnSat E c') ∧ c.variables.length ≤ x := by
  obtain ⟨hx, hv, hP⟩ := arithmeticGate_fwd_none hw hg h
  have hval : ownV c' x = arithOut g l r (fan3 g c.zero_var).2 (fan3 g c.zero_var).1 (ownV c) := by
    unfold ownV
    rw [hv, hx]
    exact getD_append_at _ _ rfl
  refine ⟨hP, hval, ?_, hx.ge⟩
  intro E hs
  refine hP.own hs ?_
  rw [hval, hP.ext.ownV hP.lIn, hP.ext.ownV hP.rIn, hP.ext.ownV hP.dIn]
  unfold arithOut
  linear_combination
    -(g.mul * (ownV c l * ownV c r) + g.add.1 * ownV c l + g.add.2 * ownV c r + g.const
      + (fan3 g c.zero_var).1 * ownV c (fan3 g c.zero_var).2 + g.pi.getD 0) * hout

theorem constrainToConstant_fwd {c c' : Composer F} (hw : WF c) {a : Var} {k : F} {pi : Option F}
    {u : Unit} (h : constrainToConstant a k pi c = .ok (u, c')) :
    ArithPost c c' a a a c.zero_var 0 1 0 0 0 (-k) pi ∧ c'.variables = c.variables :=
  polyGate_fwd hw h

theorem assertEqual_fwd {c c' : Composer F} (hw : WF c) {a b : Var} {u : Unit}
    (h : assertEqual a b c = .ok (u, c')) :
    ArithPost c c' a b c.zero_var c.zero_var 0 1 (-1) 0 0 0 none ∧ c'.variables = c.variables := by
  unfold assertEqual at h
  obtain ⟨z, c1, hz, h1⟩ := bindC_ok.1 h
  obtain ⟨rfl, rfl⟩ := zeroVar_ok.1 hz
  exact polyGate_fwd hw h1

theorem assertEqual_run {c : Composer F} (hw : WF c) {a b : Var} (ha : a < c.variables.length)
    (hb : b < c.variables.length) : ∃ c', assertEqual a b c = .ok ((), c') := by
  obtain ⟨c', h⟩ := polyGate_run hw 0 1 (-1) 0 0 none ha hb hw.zero
  refine ⟨c', ?_⟩
  unfold assertEqual
  exact bindC_ok.2 ⟨_, _, rfl, h⟩

theorem assertEqual_sound {c c' : Composer F} (hw : WF c) {a b : Var} {u : Unit}
    (h : assertEqual a b c = .ok (u, c')) {E : EdCurve F} {T : List (F × F × F × F)} {N : ℕ}
    {pub : ℕ → F} {w : WireData → F} {v : Var → F} (hs : Sat E T N c' pub w v) : v a = v b := by
  have := (assertEqual_fwd hw h).1.sound0 hs
  linear_combination this

theorem addWitness_fwd {c c' : Composer F} (hw : WF c) {k : F} {x : Var}
    (h : addWitnessToCircuitDescription k c = .ok (x, c')) :
    WF c' ∧ Ext c c' ∧ x = c.variables.length ∧ c'.variables = c.variables ++ [k] ∧
      c'.n = c.n + 1 ∧
      (∀ E, OwnSat E c → OwnSat E c') ∧
      (∀ E T N pub w v, Sat E T N c' pub w v → v x = k) := by
  unfold addWitnessToCircuitDescription at h
  obtain ⟨y, c1, h1, h2⟩ := bindC_ok.1 h
  obtain ⟨u, c2, h3, h4⟩ := bindC_ok.1 h2
  obtain ⟨rfl, rfl⟩ := pureC_ok.1 h4
  have hN := addInput_fwd hw h1
  obtain ⟨hP, hv⟩ := constrainToConstant_fwd hN.wf h3
  refine ⟨hP.wf, hN.ext.trans hP.ext, hN.fresh, by rw [hv, hN.vars], by rw [hP.n, hN.n], ?_, ?_⟩
  · intro E hs
    refine hP.own (hN.own E hs) ?_
    rw [hP.ext.ownV hP.lIn, hN.val]
    simp
  · intro E T N pub w v hs
    have := hP.sound0 hs
    linear_combination this

theorem addWitness_run {c : Composer F} (hw : WF c) (k : F) :
    ∃ x c', addWitnessToCircuitDescription k c = .ok (x, c') := by
  obtain ⟨c1, h1, hN⟩ := addInput_run hw k
  have hx : c.variables.length < c1.variables.length := by rw [hN.vars]; simp
  obtain ⟨c', h⟩ := polyGate_run hN.wf 0 1 0 0 (-k) none hx hx hx
  exact ⟨_, c', bindC_ok.2 ⟨_, _, h1, bindC_ok.2 ⟨_, _, h, rfl⟩⟩⟩

theorem booleanGate_fwd {c c' : Composer F} (hw : WF c) {a x : Var}
    (h : booleanGate a c = .ok (x, c')) :
    x = a ∧ ArithPost c c' a a a c.zero_var 1 0 0 (-1) 0 0 none ∧ c'.variables = c.variables := by
  unfold booleanGate at h
  obtain ⟨z, c1, hz, h1⟩ := bindC_ok.1 h
  obtain ⟨rfl, rfl⟩ := zeroVar_ok.1 hz
  obtain ⟨u, c2, h2, h3⟩ := bindC_ok.1 h1
  obtain ⟨rfl, rfl⟩ := pureC_ok.1 h3
  obtain ⟨hw', ha⟩ := pushGate_fwd hw (not_usesNext_arith _ _ _ _ _ _ _ _ _ _ _) h2
  exact ⟨rfl, ArithPost.of_added hw hw' ha, ha.vars⟩

theorem booleanGate_run {c : Composer F} (hw : WF c) {a : Var} (ha : a < c.variables.length) :
    ∃ c', booleanGate a c = .ok (a, c') := by
  obtain ⟨c', h, _⟩ := addedGate_run' hw (⟨1, 0, 0, -1, 0, 0, 0, 0, 0, 1, 0, 0, 0, 0, 0⟩ : Gate F)
    ha ha ha hw.zero none
  exact ⟨c', bindC_ok.2 ⟨_, _, rfl, bindC_ok.2 ⟨_, _, h, rfl⟩⟩⟩

theorem booleanGate_sound {c c' : Composer F} (hw : WF c) {a x : Var}
    (h : booleanGate a c = .ok (x, c')) {E : EdCurve F} {T : List (F × F × F × F)} {N : ℕ}
    {pub : ℕ → F} {w : WireData → F} {v : Var → F} (hs : Sat E T N c' pub w v) :
    v a = 0 ∨ v a = 1 := by
  have := (booleanGate_fwd hw h).2.1.sound0 hs
  have h2 : v a * (v a - 1) = 0 := by linear_combination this
  rcases mul_eq_zero.1 h2 with h | h
  · exact Or.inl h
  · exact Or.inr (sub_eq_zero.1 h)

theorem booleanGate_own {c c' : Composer F} (hw : WF c) {a x : Var}
    (h : booleanGate a c = .ok (x, c')) {E : EdCurve F} (hs : OwnSat E c)
    (hb : ownV c a = 0 ∨ ownV c a = 1) : OwnSat E c' := by
  obtain ⟨-, hP, hv⟩ := booleanGate_fwd hw h
  refine hP.own hs ?_
  rw [hP.ext.ownV hP.lIn]
  rcases hb with hb | hb <;> simp [hb]

theorem isZeroWithOutput_fwd {c c' : Composer F} (hw : WF c) {a b : Var}
    (h : isZeroWithOutput a c = .ok (b, c')) :
    WF c' ∧ Ext c c' ∧ a < c.variables.length ∧ b < c'.variables.length ∧
      ownV c' b = (if ownV c a = 0 then 1 else 0) ∧
      (∀ E, OwnSat E c → OwnSat E c') ∧
      (∀ E T N pub w v, Sat E T N c' pub w v → v b = if v a = 0 then 1 else 0) := by
  unfold isZeroWithOutput at h
  obtain ⟨av, c1, h1, h2⟩ := bindC_ok.1 h
  obtain ⟨hav, rfl⟩ := valueOfVar_ok.1 h1
  simp only at h2
  obtain ⟨y, c2, h3, h4⟩ := bindC_ok.1 h2
  obtain ⟨b', c3, h5, h6⟩ := bindC_ok.1 h4
  obtain ⟨z, c4, h7, h8⟩ := bindC_ok.1 h6
  obtain ⟨rfl, rfl⟩ := zeroVar_ok.1 h7
  obtain ⟨o1, c5, h9, h10⟩ := bindC_ok.1 h8
  obtain ⟨o2, c6, h11, h12⟩ := bindC_ok.1 h10
  obtain ⟨rfl, rfl⟩ := pureC_ok.1 h12
  have hy := addInput_fwd hw h3
  have hb := addInput_fwd hy.wf h5
  obtain ⟨-, hv1, hP1⟩ := arithmeticGate_fwd_some hb.wf rfl h9
  obtain ⟨-, hv2, hP2⟩ := arithmeticGate_fwd_some hP1.wf rfl h11
  have hal : a < c.variables.length := (List.getElem?_eq_some_iff.1 hav).1
  have hav' : ownV c a = av := ownV_of_some hav
  have ea : ownV c6 a = av := by
    rw [hP2.ext.ownV hP2.lIn, hP1.ext.ownV hP1.lIn, hb.ext.ownV (hy.ext.lt hal),
      hy.ext.ownV hal, hav']
  have ea5 : ownV c5 a = av := by
    rw [hP1.ext.ownV hP1.lIn, hb.ext.ownV (hy.ext.lt hal), hy.ext.ownV hal, hav']
  have eb5 : ownV c5 b = 1 - av * (if av = 0 then 1 else av⁻¹) := by
    rw [hP1.ext.ownV hP1.rIn, hb.val]
  have hbl : b < c5.variables.length := hP1.ext.lt hP1.rIn
  have eb : ownV c6 b = 1 - av * (if av = 0 then 1 else av⁻¹) := by
    rw [hP2.ext.ownV hbl, eb5]
  have hyl : y < c2.variables.length := by rw [hy.vars, hy.fresh]; simp
  have ey : ownV c6 y = (if av = 0 then 1 else av⁻¹) := by
    rw [hP2.ext.ownV hP2.rIn, hP1.ext.ownV (hb.ext.lt hyl), hb.ext.ownV hyl, hy.val]
  have hz1 : c5.zero_var = c3.zero_var := hP1.ext.zero
  refine ⟨hP2.wf, ((hy.ext.trans hb.ext).trans hP1.ext).trans hP2.ext, hal, hP2.ext.lt hbl, ?_,
    ?_, ?_⟩
  · rw [eb, hav']
    by_cases h0 : av = 0
    · simp [h0]
    · simp [h0]
  · intro E hs
    have hs3 := hb.own E (hy.own E hs)
    have hs5 : OwnSat E c5 := by
      refine hP1.own hs3 ?_
      have hz : ownV c5 c3.zero_var = 0 := by
        rw [hP1.ext.ownV hb.wf.zero, hb.wf.zeroVal hs3]
      simp only [ArithGate.new, fan3, ea5, eb5, hz]
      by_cases h0 : av = 0
      · simp [h0]
      · simp [h0]
    refine hP2.own hs5 ?_
    have hz : ownV c6 c3.zero_var = 0 := by
      rw [← hz1, hP2.ext.ownV hP1.wf.zero, hP1.wf.zeroVal hs5]
    simp only [ArithGate.new, fan3, ea, eb, ey, hz]
    by_cases h0 : av = 0
    · simp [h0]
    · simp [h0]
  · intro E T N pub w v hs
    have hs5 := hP2.ext.sat hs
    have e1 := hP1.sound0 hs5
    have e2 := hP2.sound0 hs
    have hz : v c3.zero_var = 0 := by
      rw [← hz1]
      exact hP1.wf.zeroSound _ _ _ _ _ _ hs5
    simp only [ArithGate.new, fan3, hz] at e1 e2
    have f1 : v a * v b = 0 := by linear_combination e1
    have f2 : v b = 1 - v a * v y := by linear_combination e2
    by_cases h0 : v a = 0
    · rw [if_pos h0, f2, h0]; ring
    · rw [if_neg h0]
      exact (mul_eq_zero.1 f1).resolve_left h0

theorem isZeroWithOutput_run {c : Composer F} (hw : WF c) {a : Var}
    (ha : a < c.variables.length) : ∃ b c', isZeroWithOutput a c = .ok (b, c') := by
  obtain ⟨c1, h1, hy⟩ := addInput_run hw (if ownV c a = 0 then (1 : F) else (ownV c a)⁻¹)
  obtain ⟨c2, h2, hb⟩ := addInput_run hy.wf
    (1 - ownV c a * (if ownV c a = 0 then (1 : F) else (ownV c a)⁻¹))
  have hyl : c.variables.length < c1.variables.length := by rw [hy.vars]; simp
  have hbl : c1.variables.length < c2.variables.length := by rw [hb.vars]; simp
  obtain ⟨x1, c3, h3⟩ := arithmeticGate_run hb.wf (g := { (ArithGate.new : ArithGate F) with
    witness := some (a, c1.variables.length, some c2.zero_var), mul := 1 }) rfl
    (hb.ext.lt (hy.ext.lt ha)) hbl
    (fun x hx => by cases hx; exact hb.wf.zero) (fun p hp => by cases hp)
  obtain ⟨-, -, hP⟩ := arithmeticGate_fwd_some hb.wf rfl h3
  obtain ⟨x2, c4, h4⟩ := arithmeticGate_run hP.wf (g := { (ArithGate.new : ArithGate F) with
    witness := some (a, c.variables.length, some c2.zero_var), mul := 1,
    fan_in_3 := some (1, c1.variables.length), const := -1 }) rfl
    (hP.ext.lt hP.lIn) (hP.ext.lt (hb.ext.lt hyl))
    (fun x hx => by cases hx; exact hP.ext.lt hb.wf.zero)
    (fun p hp => by cases hp; exact hP.ext.lt hbl)
  refine ⟨_, c4, bindC_ok.2 ⟨_, _, valueOfVar_run ha, bindC_ok.2 ⟨_, _, h1, bindC_ok.2
    ⟨_, _, h2, bindC_ok.2 ⟨_, _, rfl, bindC_ok.2 ⟨_, _, h3, bindC_ok.2 ⟨_, _, h4, rfl⟩⟩⟩⟩⟩⟩⟩

theorem isEqWithOutput_fwd {c c' : Composer F} (hw : WF c) {a b r : Var}
    (h : isEqWithOutput a b c = .ok (r, c')) :
    WF c' ∧ Ext c c' ∧ a < c.variables.length ∧ b < c.variables.length ∧
      r < c'.variables.length ∧
      ownV c' r = (if ownV c a = ownV c b then 1 else 0) ∧
      (∀ E, OwnSat E c → OwnSat E c') ∧
      (∀ E T N pub w v, Sat E T N c' pub w v → v r = if v a = v b then 1 else 0) := by
  unfold isEqWithOutput at h
  obtain ⟨d, c1, h1, h2⟩ := bindC_ok.1 h
  obtain ⟨hP, hval, hown, -⟩ := arithmeticGate_new hw rfl (by simp [ArithGate.new]) h1
  obtain ⟨hw', he, hd, hr, hv, ho, hs⟩ := isZeroWithOutput_fwd hP.wf h2
  refine ⟨hw', hP.ext.trans he, hP.lIn, hP.rIn, hr, ?_, fun E h => ho E (hown E h), ?_⟩
  · have hval' : ownV c1 d = ownV c a - ownV c b := by
      rw [hval]
      simp only [arithOut, fan3, ArithGate.new, Option.getD_none]
      ring
    rw [hv, hval']
    simp only [sub_eq_zero]
  · intro E T N pub w v hsat
    rw [hs E T N pub w v hsat]
    have e := hP.sound0 (he.sat hsat)
    simp only [ArithGate.new, fan3] at e
    have : v d = v a - v b := by linear_combination -e
    rw [this]
    simp only [sub_eq_zero]

theorem isEqWithOutput_run {c : Composer F} (hw : WF c) {a b : Var}
    (ha : a < c.variables.length) (hb : b < c.variables.length) :
    ∃ r c', isEqWithOutput a b c = .ok (r, c') := by
  obtain ⟨d, c1, h1⟩ := arithmeticGate_run hw (g := { (ArithGate.new : ArithGate F) with
    witness := some (a, b, none), add := (1, -1) }) rfl ha hb (fun x hx => by cases hx)
    (fun p hp => by cases hp)
  obtain ⟨hP, -⟩ := arithmeticGate_new hw rfl (by simp [ArithGate.new]) h1
  obtain ⟨r, c', h2⟩ := isZeroWithOutput_run hP.wf hP.xIn
  exact ⟨r, c', bindC_ok.2 ⟨_, _, h1, h2⟩⟩

theorem conditionalSelect_fwd {c c' : Composer F} (hw : WF c) {bit a b r : Var}
    (h : conditionalSelect bit a b c = .ok (r, c')) :
    WF c' ∧ Ext c c' ∧ bit < c.variables.length ∧ a < c.variables.length ∧
      r < c'.variables.length ∧
      (b < c.variables.length → ∀ E, OwnSat E c → OwnSat E c' ∧
        ownV c' r = ownV c bit * ownV c a + (1 - ownV c bit) * ownV c b) ∧
      (∀ E T N pub w v, Sat E T N c' pub w v →
        v r = v bit * v a + (1 - v bit) * v b) := by
  unfold conditionalSelect at h
  obtain ⟨z, c0, h0, h1⟩ := bindC_ok.1 h
  obtain ⟨rfl, rfl⟩ := zeroVar_ok.1 h0
  obtain ⟨ba, c1, h2, h3⟩ := bindC_ok.1 h1
  obtain ⟨om, c2, h4, h5⟩ := bindC_ok.1 h3
  obtain ⟨bb, c3, h6, h7⟩ := bindC_ok.1 h5
  obtain ⟨hP1, hv1, ho1, -⟩ := arithmeticGate_new hw rfl (by simp [ArithGate.new]) h2
  obtain ⟨hP2, hv2, ho2, -⟩ := arithmeticGate_new hP1.wf rfl (by simp [ArithGate.new]) h4
  obtain ⟨hP3, hv3, ho3, -⟩ := arithmeticGate_new hP2.wf rfl (by simp [ArithGate.new]) h6
  obtain ⟨hP4, hv4, ho4, -⟩ := arithmeticGate_new hP3.wf rfl (by simp [ArithGate.new]) h7
  simp only [arithOut, fan3, ArithGate.new, Option.getD_none] at hv1 hv2 hv3 hv4
  refine ⟨hP4.wf, ((hP1.ext.trans hP2.ext).trans hP3.ext).trans hP4.ext, hP1.lIn, hP1.rIn,
    hP4.xIn, ?_, ?_⟩
  · intro hbl E hs
    refine ⟨ho4 E (ho3 E (ho2 E (ho1 E hs))), ?_⟩
    rw [hv4, hv3, hP3.ext.ownV (hP2.ext.lt hP1.xIn), hP2.ext.ownV hP1.xIn, hv1, hv2,
      hP1.ext.ownV hP1.lIn, hP2.ext.ownV (hP1.ext.lt hbl), hP1.ext.ownV hbl]
    ring
  · intro E T N pub w v hs
    have e4 := hP4.sound0 hs
    have e3 := hP3.sound0 (hP4.ext.sat hs)
    have e2 := hP2.sound0 (hP3.ext.sat (hP4.ext.sat hs))
    have e1 := hP1.sound0 (hP2.ext.sat (hP3.ext.sat (hP4.ext.sat hs)))
    simp only [fan3, ArithGate.new] at e1 e2 e3 e4
    have f1 : v ba = v bit * v a := by linear_combination -e1
    have f2 : v om = 1 - v bit := by linear_combination -e2
    have f3 : v bb = v om * v b := by linear_combination -e3
    have f4 : v r = v bb + v ba := by linear_combination -e4
    rw [f4, f3, f2, f1]
    ring

theorem conditionalSelect_run {c : Composer F} (hw : WF c) {bit a b : Var}
    (hbit : bit < c.variables.length) (ha : a < c.variables.length)
    (hb : b < c.variables.length) : ∃ r c', conditionalSelect bit a b c = .ok (r, c') := by
  obtain ⟨ba, c1, h1⟩ := arithmeticGate_run hw (g := { (ArithGate.new : ArithGate F) with
    witness := some (bit, a, none), mul := 1 }) rfl hbit ha (fun x hx => by cases hx)
    (fun p hp => by cases hp)
  obtain ⟨hP1, -⟩ := arithmeticGate_new hw rfl (by simp [ArithGate.new]) h1
  obtain ⟨om, c2, h2⟩ := arithmeticGate_run hP1.wf (g := { (ArithGate.new : ArithGate F) with
    witness := some (bit, c.zero_var, none), add := (-1, 0), const := 1 }) rfl
    (hP1.ext.lt hbit) (hP1.ext.lt hw.zero) (fun x hx => by cases hx) (fun p hp => by cases hp)
  obtain ⟨hP2, -⟩ := arithmeticGate_new hP1.wf rfl (by simp [ArithGate.new]) h2
  obtain ⟨bb, c3, h3⟩ := arithmeticGate_run hP2.wf (g := { (ArithGate.new : ArithGate F) with
    witness := some (om, b, none), mul := 1 }) rfl hP2.xIn (hP2.ext.lt (hP1.ext.lt hb))
    (fun x hx => by cases hx) (fun p hp => by cases hp)
  obtain ⟨hP3, -⟩ := arithmeticGate_new hP2.wf rfl (by simp [ArithGate.new]) h3
  obtain ⟨r, c4, h4⟩ := arithmeticGate_run hP3.wf (g := { (ArithGate.new : ArithGate F) with
    witness := some (bb, ba, none), add := (1, 1) }) rfl hP3.xIn
    (hP3.ext.lt (hP2.ext.lt hP1.xIn)) (fun x hx => by cases hx) (fun p hp => by cases hp)
  exact ⟨r, c4, bindC_ok.2 ⟨_, _, rfl, bindC_ok.2 ⟨_, _, h1, bindC_ok.2 ⟨_, _, h2, bindC_ok.2
    ⟨_, _, h3, h4⟩⟩⟩⟩⟩

theorem conditionalSelectZero_fwd {c c' : Composer F} (hw : WF c) {bit a r : Var}
    (h : conditionalSelectZero bit a c = .ok (r, c')) :
    WF c' ∧ Ext c c' ∧ bit < c.variables.length ∧ a < c.variables.length ∧
      r < c'.variables.length ∧
      (∀ E, OwnSat E c → OwnSat E c') ∧ ownV c' r = ownV c bit * ownV c a ∧
      (∀ E T N pub w v, Sat E T N c' pub w v → v r = v bit * v a) := by
  unfold conditionalSelectZero at h
  obtain ⟨hP1, hv1, ho1, -⟩ := arithmeticGate_new hw rfl (by simp [ArithGate.new]) h
  simp only [arithOut, fan3, ArithGate.new, Option.getD_none] at hv1
  refine ⟨hP1.wf, hP1.ext, hP1.lIn, hP1.rIn, hP1.xIn, ho1, by rw [hv1]; ring, ?_⟩
  intro E T N pub w v hs
  have e1 := hP1.sound0 hs
  simp only [fan3, ArithGate.new] at e1
  linear_combination -e1

theorem conditionalSelectZero_run {c : Composer F} (hw : WF c) {bit a : Var}
    (hbit : bit < c.variables.length) (ha : a < c.variables.length) :
    ∃ r c', conditionalSelectZero bit a c = .ok (r, c') :=
  arithmeticGate_run hw rfl hbit ha (fun x hx => by cases hx) (fun p hp => by cases hp)

theorem conditionalSelectOne_fwd {c c' : Composer F} (hw : WF c) {bit a r : Var}
    (h : conditionalSelectOne bit a c = .ok (r, c')) :
    WF c' ∧ Ext c c' ∧ bit < c.variables.length ∧ a < c.variables.length ∧
      r < c'.variables.length ∧
      (∀ E, OwnSat E c → OwnSat E c') ∧ ownV c' r = 1 - ownV c bit + ownV c bit * ownV c a ∧
      (∀ E T N pub w v, Sat E T N c' pub w v → v r = 1 - v bit + v bit * v a) := by
  unfold conditionalSelectOne at h
  obtain ⟨vv, c1, h1, h2⟩ := bindC_ok.1 h
  obtain ⟨hvv, rfl⟩ := valueOfVar_ok.1 h1
  obtain ⟨bv, c2, h3, h4⟩ := bindC_ok.1 h2
  obtain ⟨hbv, rfl⟩ := valueOfVar_ok.1 h3
  obtain ⟨fx, c3, h5, h6⟩ := bindC_ok.1 h4
  obtain ⟨u, c4, h7, h8⟩ := bindC_ok.1 h6
  obtain ⟨rfl, rfl⟩ := pureC_ok.1 h8
  have hN := addInput_fwd hw h5
  obtain ⟨hP, hv⟩ := polyGate_fwd hN.wf h7
  have hal : a < c.variables.length := (List.getElem?_eq_some_iff.1 hvv).1
  have hbl : bit < c.variables.length := (List.getElem?_eq_some_iff.1 hbv).1
  have hval : ownV c4 r = 1 - ownV c bit + ownV c bit * ownV c a := by
    rw [show ownV c4 r = ownV c3 r by unfold ownV; rw [hv], hN.val, ownV_of_some hvv,
      ownV_of_some hbv]
  refine ⟨hP.wf, hN.ext.trans hP.ext, hbl, hal, hP.xIn, ?_, hval, ?_⟩
  · intro E hs
    refine hP.own (hN.own E hs) ?_
    rw [hval, hP.ext.ownV hP.lIn, hP.ext.ownV hP.rIn, hN.ext.ownV hbl, hN.ext.ownV hal]
    simp only [Option.getD_none]
    ring
  · intro E T N pub w v hs
    have e1 := hP.sound0 hs
    linear_combination -e1

theorem conditionalSelectOne_run {c : Composer F} (hw : WF c) {bit a : Var}
    (hbit : bit < c.variables.length) (ha : a < c.variables.length) :
    ∃ r c', conditionalSelectOne bit a c = .ok (r, c') := by
  obtain ⟨c1, h1, hN⟩ := addInput_run hw (1 - ownV c bit + ownV c bit * ownV c a)
  obtain ⟨c2, h2⟩ := polyGate_run hN.wf 1 (-1) 0 (-1) 1 none (hN.ext.lt hbit) (hN.ext.lt ha)
    (o := c.variables.length) (by rw [hN.vars]; simp)
  exact ⟨_, c2, bindC_ok.2 ⟨_, _, valueOfVar_run ha, bindC_ok.2 ⟨_, _, valueOfVar_run hbit,
    bindC_ok.2 ⟨_, _, h1, bindC_ok.2 ⟨_, _, h2, rfl⟩⟩⟩⟩⟩

end VO.Plonk
