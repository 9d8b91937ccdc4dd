import Mathlib.Tactic.FieldSimp
import Verif.Lemmas.PlonkGate

/-
The arithmetic gadgets of the composer.
-/

set_option linter.unusedSectionVars false

namespace VO.Plonk

open VO.Spec.Plonk

variable {F : Type} [Field F] [DecidableEq F]

/-- What one arithmetic gate on wires `l, r, x, w4` leaves behind. -/
structure ArithPost (c c' : Composer F) (l r x w4 : Var) (qm ql qr qo q4 qc : F) (pi : Option F) :
    Prop where
  wf : WF c'
  ext : Ext c c'
  n : c'.n = c.n + 1
  table : c'.lookup_table = c.lookup_table
  int : c.n ∈ c'.intended_pi_pos ↔ pi.isSome
  lIn : l < c.variables.length
  rIn : r < c.variables.length
  dIn : w4 < c.variables.length
  xIn : x < c'.variables.length
  sound : ∀ {E : EdCurve F} {T : List (F × F × F × F)} {N : ℕ} {pub : ℕ → F} {w : WireData → F}
    {v : Var → F}, Sat E T N c' pub w v →
    qm * v l * v r + ql * v l + qr * v r + qo * v x + q4 * v w4 + qc + pub c.n = 0
  own : ∀ {E : EdCurve F}, OwnSat E c →
    qm * ownV c' l * ownV c' r + ql * ownV c' l + qr * ownV c' r + qo * ownV c' x
      + q4 * ownV c' w4 + qc + pi.getD 0 = 0 → OwnSat E c'

theorem ArithPost.pub0 {c c' : Composer F} {l r x w4 : Var} {qm ql qr qo q4 qc : F}
    (h : ArithPost c c' l r x w4 qm ql qr qo q4 qc none) {E : EdCurve F}
    {T : List (F × F × F × F)} {N : ℕ} {pub : ℕ → F} {w : WireData → F}
    {v : Var → F} (hs : Sat E T N c' pub w v) : pub c.n = 0 :=
  hs.pubZero c.n (by rw [h.n]; omega) (by rw [h.int]; simp)

theorem ArithPost.sound0 {c c' : Composer F} {l r x w4 : Var} {qm ql qr qo q4 qc : F}
    (h : ArithPost c c' l r x w4 qm ql qr qo q4 qc none) {E : EdCurve F}
    {T : List (F × F × F × F)} {N : ℕ} {pub : ℕ → F} {w : WireData → F}
    {v : Var → F} (hs : Sat E T N c' pub w v) :
    qm * v l * v r + ql * v l + qr * v r + qo * v x + q4 * v w4 + qc = 0 := by
  have h1 := h.sound hs
  rw [h.pub0 hs, add_zero] at h1
  exact h1

theorem not_usesNext_arith (m l r o q4 c hl hr h4 arith lookup : F) :
    ¬ UsesNext (⟨m, l, r, o, q4, c, hl, hr, h4, arith, 0, 0, 0, 0, lookup⟩ : Gate F) := by
  simp [UsesNext]

theorem ArithPost.of_added {c c' : Composer F} (hw : WF c) (hw' : WF c') {l r x w4 : Var}
    {qm ql qr qo q4 qc : F} {pi : Option F}
    (h : Added c c' ⟨qm, ql, qr, qo, q4, qc, 0, 0, 0, 1, 0, 0, 0, 0, 0⟩ l r x w4 pi) :
    ArithPost c c' l r x w4 qm ql qr qo q4 qc pi := by
  have hv : ∀ x, ownV c' x = ownV c x := fun x => by unfold ownV; rw [h.vars]
  refine ⟨hw', h.ext, h.n, h.table, h.int, h.valid.1, h.valid.2.1, h.valid.2.2.2, ?_, ?_, ?_⟩
  · rw [h.vars]; exact h.valid.2.2.1
  · intro E T N pub w v hs
    have := h.arith hs
    simp only at this
    linear_combination this
  · intro E hs he
    refine h.own hw hw' (not_usesNext_arith _ _ _ _ _ _ _ _ _ _ _) hs ?_ (fun h => absurd rfl h)
    simp only [hv] at he
    simp only
    linear_combination he

theorem polyGate_fwd {c c' : Composer F} (hw : WF c) {a b o : Var} {qm ql qr qo qc : F}
    {pi : Option F} {u : Unit} (h : polyGate a b o qm ql qr qo qc pi c = .ok (u, c')) :
    ArithPost c c' a b o c.zero_var qm ql qr qo 0 qc pi ∧ c'.variables = c.variables := by
  unfold polyGate at h
  obtain ⟨z, c1, hz, h⟩ := bindC_ok.1 h
  obtain ⟨rfl, rfl⟩ := zeroVar_ok.1 hz
  obtain ⟨hw', ha⟩ := addedGate_fwd hw (not_usesNext_arith _ _ _ _ _ _ _ _ _ _ _) h
  exact ⟨ArithPost.of_added hw hw' ha, ha.vars⟩

theorem polyGate_run {c : Composer F} (hw : WF c) {a b o : Var} (qm ql qr qo qc : F)
    (pi : Option F) (ha : a < c.variables.length) (hb : b < c.variables.length)
    (ho : o < c.variables.length) : ∃ c', polyGate a b o qm ql qr qo qc pi c = .ok ((), c') := by
  obtain ⟨c', h, _⟩ := addedGate_run' hw
    ⟨qm, ql, qr, qo, 0, qc, 0, 0, 0, 1, 0, 0, 0, 0, 0⟩ ha hb ho hw.zero pi
  refine ⟨c', ?_⟩
  unfold polyGate
  rw [bindC_ok]
  exact ⟨c.zero_var, c, rfl, h⟩

theorem addPi_addInput_comm {c c1 c2 : Composer F} {pi : Option F} {u : Unit} {s : F} {x : Var}
    (h1 : addPiOpt pi c = .ok (u, c1)) (h2 : addInput s c1 = .ok (x, c2)) :
    ∃ d, addInput s c = .ok (x, d) ∧ addPiOpt pi d = .ok (u, c2) := by
  cases pi with
  | none => cases h1; exact ⟨c2, h2, rfl⟩
  | some val =>
    simp only [addPiOpt, addPi] at h1
    split at h1
    · next ps hps =>
      cases h1
      unfold addInput at h2
      cases h2
      refine ⟨_, rfl, ?_⟩
      simp only [addPiOpt, addPi, hps]
    · cases h1

/-- The fourth wire of an arithmetic gate and its selector. -/
def fan3 (g : ArithGate F) (z : Var) : F × Var :=
  match g.fan_in_3 with
  | some p => p
  | none => (0, z)

/-- The value `arithmetic_gate` gives to a fresh output. -/
def arithOut (g : ArithGate F) (l r w4 : Var) (q4 : F) (v : Var → F) : F :=
  (g.mul * (v l * v r) + g.add.1 * v l + g.add.2 * v r + g.const + q4 * v w4 + g.pi.getD 0)
    * (-g.out)

theorem arithmeticGate_fwd_some {c c' : Composer F} (hw : WF c) {g : ArithGate F} {l r o x : Var}
    (hg : g.witness = some (l, r, some o)) (h : arithmeticGate g c = .ok (x, c')) :
    x = o ∧ c'.variables = c.variables ∧
    ArithPost c c' l r o (fan3 g c.zero_var).2 g.mul g.add.1 g.add.2 g.out (fan3 g c.zero_var).1
      g.const g.pi := by
  unfold arithmeticGate at h
  rw [hg] at h
  simp only at h
  obtain ⟨z, c1, hz, h1x⟩ := bindC_ok.1 h
  obtain ⟨rfl, rfl⟩ := zeroVar_ok.1 hz
  obtain ⟨u, c2, hp, h2x⟩ := bindC_ok.1 h1x
  obtain ⟨o', c3, ho, h3x⟩ := bindC_ok.1 h2x
  obtain ⟨rfl, rfl⟩ := pureC_ok.1 ho
  obtain ⟨u', c4, hq, h4x⟩ := bindC_ok.1 h3x
  obtain ⟨rfl, rfl⟩ := pureC_ok.1 h4x
  obtain ⟨hw', ha⟩ := addedGate_fwd hw (not_usesNext_arith _ _ _ _ _ _ _ _ _ _ _) (bindC_ok.2 ⟨u, _, hp, hq⟩)
  exact ⟨rfl, ha.vars, ArithPost.of_added hw hw' ha⟩

theorem arithmeticGate_fwd_none {c c' : Composer F} (hw : WF c) {g : ArithGate F} {l r x : Var}
    (hg : g.witness = some (l, r, none)) (h : arithmeticGate g c = .ok (x, c')) :
    x = c.variables.length ∧
    c'.variables = c.variables ++
      [arithOut g l r (fan3 g c.zero_var).2 (fan3 g c.zero_var).1 (ownV c)] ∧
    ArithPost c c' l r x (fan3 g c.zero_var).2 g.mul g.add.1 g.add.2 g.out (fan3 g c.zero_var).1
      g.const g.pi := by
  unfold arithmeticGate at h
  rw [hg] at h
  simp only at h
  obtain ⟨z, c1, hz, h1x⟩ := bindC_ok.1 h
  obtain ⟨rfl, rfl⟩ := zeroVar_ok.1 hz
  obtain ⟨u, c2, hp, h2x⟩ := bindC_ok.1 h1x
  obtain ⟨o', c3, ho, h3x⟩ := bindC_ok.1 h2x
  obtain ⟨u', c4, hq, h4x⟩ := bindC_ok.1 h3x
  obtain ⟨rfl, rfl⟩ := pureC_ok.1 h4x
  obtain ⟨vl, d1, hl0, ho1⟩ := bindC_ok.1 ho
  obtain ⟨hl, rfl⟩ := valueOfVar_ok.1 hl0
  obtain ⟨vr, d2, hr0, ho2⟩ := bindC_ok.1 ho1
  obtain ⟨hr, rfl⟩ := valueOfVar_ok.1 hr0
  obtain ⟨v4, d3, h40, ho3⟩ := bindC_ok.1 ho2
  obtain ⟨h4, rfl⟩ := valueOfVar_ok.1 h40
  obtain ⟨d, hd, hpd⟩ := addPi_addInput_comm hp ho3
  have hN := addInput_fwd hw hd
  rw [(addPiOpt_perm hp).2.1] at hl hr h4
  change c.variables[(fan3 g c.zero_var).2]? = some v4 at h4
  have h4' := ownV_of_some h4
  obtain ⟨hw', ha⟩ := addedGate_fwd hN.wf (not_usesNext_arith _ _ _ _ _ _ _ _ _ _ _) (bindC_ok.2 ⟨u, _, hpd, hq⟩)
  have hP := ArithPost.of_added hN.wf hw' ha
  refine ⟨hN.fresh, ?_, ?_⟩
  · rw [ha.vars, hN.vars]
    unfold arithOut
    rw [ownV_of_some hl, ownV_of_some hr, h4']
    rfl
  · refine ⟨hP.wf, hN.ext.trans hP.ext, by rw [hP.n, hN.n], hP.table.trans hN.table,
      by rw [← hN.n]; exact hP.int, (List.getElem?_eq_some_iff.1 hl).1,
      (List.getElem?_eq_some_iff.1 hr).1, (List.getElem?_eq_some_iff.1 h4).1, hP.xIn, ?_, ?_⟩
    · intro E T N pub w v hs
      have := hP.sound hs
      rw [hN.n] at this
      exact this
    · intro E hs he
      exact hP.own (hN.own E hs) he

theorem arithmeticGate_run {c : Composer F} (hw : WF c) {g : ArithGate F} {l r : Var}
    {o : Option Var} (hg : g.witness = some (l, r, o)) (hl : l < c.variables.length)
    (hr : r < c.variables.length) (ho : ∀ x, o = some x → x < c.variables.length)
    (h3 : ∀ p, g.fan_in_3 = some p → p.2 < c.variables.length) :
    ∃ x c', arithmeticGate g c = .ok (x, c') := by
  have hf : (fan3 g c.zero_var).2 < c.variables.length := by
    unfold fan3
    split
    · next p hp => exact h3 p hp
    · exact hw.zero
  cases o with
  | some o =>
    obtain ⟨c', h, _⟩ := addedGate_run' hw
      ⟨g.mul, g.add.1, g.add.2, g.out, (fan3 g c.zero_var).1, g.const, 0, 0, 0, 1, 0, 0, 0, 0, 0⟩
      hl hr (ho o rfl) hf g.pi
    obtain ⟨u, c1, h1, h2⟩ := bindC_ok.1 h
    refine ⟨o, c', ?_⟩
    unfold arithmeticGate
    rw [hg]
    simp only
    refine bindC_ok.2 ⟨c.zero_var, c, rfl, bindC_ok.2 ⟨u, c1, h1, bindC_ok.2 ⟨o, c1, rfl,
      bindC_ok.2 ⟨(), c', h2, rfl⟩⟩⟩⟩
  | none =>
    obtain ⟨d, hd, hN⟩ := addInput_run hw
      (arithOut g l r (fan3 g c.zero_var).2 (fan3 g c.zero_var).1 (ownV c))
    have hlt : ∀ {y}, y < c.variables.length → y < d.variables.length := by
      intro y hy
      rw [hN.vars, List.length_append]
      omega
    obtain ⟨c', h, _⟩ := addedGate_run' hN.wf
      ⟨g.mul, g.add.1, g.add.2, g.out, (fan3 g c.zero_var).1, g.const, 0, 0, 0, 1, 0, 0, 0, 0, 0⟩
      (hlt hl) (hlt hr) (x3 := c.variables.length) (by rw [hN.vars]; simp) (hlt hf) g.pi
    obtain ⟨u, c2, h1, h2⟩ := bindC_ok.1 h
    obtain ⟨ps, ip, hp, _⟩ := addPiOpt_run hw.int hw.pis g.pi
    refine ⟨c.variables.length, c', ?_⟩
    unfold arithmeticGate
    rw [hg]
    simp only
    obtain ⟨d', hd', hpd⟩ := addPi_addInput_comm hp
      (s := arithOut g l r (fan3 g c.zero_var).2 (fan3 g c.zero_var).1 (ownV c)) rfl
    rw [hd] at hd'
    injection hd' with hd'
    injection hd' with e1 e2
    subst e2
    rw [h1] at hpd
    injection hpd with hpd
    injection hpd with e3 e4
    refine bindC_ok.2 ⟨c.zero_var, c, rfl, bindC_ok.2 ⟨(), _, hp, bindC_ok.2
      ⟨c.variables.length, _, bindC_ok.2 ⟨_, _, valueOfVar_run hl, bindC_ok.2
        ⟨_, _, valueOfVar_run hr, bindC_ok.2 ⟨_, _, valueOfVar_run hf, ?_⟩⟩⟩,
      bindC_ok.2 ⟨(), c', h2, rfl⟩⟩⟩⟩
    rw [e4]
    show addInput _ _ = _
    unfold addInput
    simp only [hw.permLen]
    rfl

end VO.Plonk
