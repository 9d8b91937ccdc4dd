import Verif.Lemmas.PlonkExample

/-
C85-C94: the composer of `/repo/plonk-core` and its gates. Throughout, `Reach R E c` says `c` is a
composer some sequence of public calls leads to; a soundness statement speaks of every assignment
that satisfies the circuit, not only the composer's own values; `OwnSat` speaks of those.
-/

namespace VO

open VO.Plonk VO.Spec.Plonk

variable {F : Type} [Field F] [DecidableEq F] {R : FieldRep F} {E : EdCurve F}

/-! ### C85 -/

/-- Every reachable composer is consistent. -/
theorem C85_consistent {c : Composer F} (h : Reach R E c) : Consistent c :=
  (Reach.wf h).consistent

/-- In every reachable circuit the zero variable is zero in every satisfying assignment. -/
theorem C85_zero_var {c : Composer F} (h : Reach R E c) {E' : EdCurve F} {T : List (F × F × F × F)}
    {N : ℕ} {pub : ℕ → F} {w : WireData → F} {v : Var → F} (hs : Sat E' T N c pub w v) :
    v c.zero_var = 0 :=
  (Reach.wf h).zeroSound E' T N pub w v hs

/-- A new composer never panics and its own values satisfy it, whatever the randomness. -/
theorem C85_new (r1 r2 : F × F × F × F) :
    ∃ c : Composer F, newComposer r1 r2 = .ok c ∧ Reach R E c ∧ OwnSat E c ∧ c.n = 4 ∧
      ownV c c.zero_var = 0 := by
  obtain ⟨c, h, hw, hs, -, hn, -⟩ := newComposer_ok (F := F) r1 r2
  exact ⟨c, h, Reach.new h, hs E, hn, hw.zeroVal (hs E)⟩

example : ∃ c : Composer K97, Reach R97 E97 c ∧ ∃ x < c.variables.length, ownV c x = 5 := by
  obtain ⟨c, x, h, -, hx, hv⟩ := input1 R97 E97 5
  exact ⟨c, h, x, hx, hv⟩

/-! ### C86 -/

/-- Calls only append to a reachable composer. -/
theorem C86_append_only {c c' : Composer F} (h : Reach R E c) (hc : Calls R E c c') :
    AppendOnly c c' :=
  (Calls.wf (Reach.wf h) hc).2.appendOnly

/-- An assignment satisfying the circuit after more calls satisfies the circuit before them, so
whatever a call enforces stays enforced. -/
theorem C86_sat_mono {c c' : Composer F} (h : Reach R E c) (hc : Calls R E c c') {E' : EdCurve F}
    {T : List (F × F × F × F)} {N : ℕ} {pub : ℕ → F} {w : WireData → F} {v : Var → F}
    (hs : Sat E' T N c' pub w v) : Sat E' T N c pub w v :=
  (Calls.wf (Reach.wf h) hc).2.sat hs

/-- Variables keep their value. -/
theorem C86_value {c c' : Composer F} (h : Reach R E c) (hc : Calls R E c c') {x : Var} {s : F}
    (hx : valueOfVar x c = .ok (s, c)) : valueOfVar x c' = .ok (s, c') := by
  obtain ⟨h1, -⟩ := valueOfVar_ok.1 hx
  have := (Calls.wf (Reach.wf h) hc).2.var h1
  exact valueOfVar_ok.2 ⟨this, rfl⟩

example : ∃ c c' : Composer K97, Reach R97 E97 c ∧ Calls R97 E97 c c' ∧ c.n < c'.n := by
  obtain ⟨c, x, h, -, hx, -⟩ := input1 R97 E97 5
  obtain ⟨c', h1⟩ := assertEqual_run (Reach.wf h) hx hx
  refine ⟨c, c', h, .more .none (.assert_equal x x) h1, ?_⟩
  rw [(assertEqual_fwd (Reach.wf h) h1).1.n]
  omega

/-! ### C87 -/

/-- `add_input` never panics; it returns a new variable with the given value, and adds no row. -/
theorem C87_add_input {c : Composer F} (h : Reach R E c) (s : F) :
    ∃ x c', addInput s c = .ok (x, c') ∧ ¬ x < c.variables.length ∧ x < c'.variables.length ∧
      ownV c' x = s ∧ c'.n = c.n ∧ (OwnSat E c → OwnSat E c') := by
  obtain ⟨c', h1, n⟩ := addInput_run (Reach.wf h) s
  exact ⟨_, c', h1, by omega, by rw [n.vars]; simp, n.val, n.n, n.own E⟩

/-- `add_witness_to_circuit_description`: the new variable is the constant in every satisfying
assignment. -/
theorem C87_add_constant {c : Composer F} (h : Reach R E c) (s : F) :
    ∃ x c', addWitnessToCircuitDescription s c = .ok (x, c') ∧ ¬ x < c.variables.length ∧
      ownV c' x = s ∧ (OwnSat E c → OwnSat E c') ∧
      ∀ E' T N pub w v, Sat E' T N c' pub w v → v x = s := by
  obtain ⟨x, c', h1⟩ := addWitness_run (Reach.wf h) s
  obtain ⟨w, e, rfl, hv, -, o, s'⟩ := addWitness_fwd (Reach.wf h) h1
  exact ⟨_, c', h1, by omega, ownV_of_some (by rw [hv]; simp), o E, s'⟩

/-- `assert_equal` panics exactly for unknown variables; it enforces equality, and the own values
satisfy it exactly when they are equal. -/
theorem C87_assert_equal {c : Composer F} (h : Reach R E c) (a b : Var) :
    ((∃ c', assertEqual a b c = .ok ((), c')) ↔
      a < c.variables.length ∧ b < c.variables.length) ∧
    ∀ c', assertEqual a b c = .ok ((), c') →
      (∀ E' T N pub w v, Sat E' T N c' pub w v → v a = v b) ∧
      (OwnSat E c → (OwnSat E c' ↔ ownV c a = ownV c b)) := by
  have hw := Reach.wf h
  refine ⟨⟨?_, fun ⟨ha, hb⟩ => assertEqual_run hw ha hb⟩, ?_⟩
  · rintro ⟨c', h1⟩
    obtain ⟨P, -⟩ := assertEqual_fwd hw h1
    exact ⟨P.lIn, P.rIn⟩
  · intro c' h1
    obtain ⟨P, hv⟩ := assertEqual_fwd hw h1
    have ov : ∀ x, ownV c' x = ownV c x := fun x => by unfold ownV; rw [hv]
    refine ⟨fun E' T N pub w v hs => assertEqual_sound hw h1 hs, fun hs => ⟨fun hs' => ?_, ?_⟩⟩
    · have := assertEqual_sound hw h1 (hs' c'.n (le_refl _))
      rwa [ov, ov] at this
    · intro he
      refine P.own hs ?_
      rw [ov, ov, he]
      simp

/-- `constrain_to_constant` without a public input enforces the constant; with one, the variable
plus the row's public input is the constant. -/
theorem C87_constrain_to_constant {c c' : Composer F} (h : Reach R E c) {a : Var} {k : F}
    {pi : Option F} (h1 : constrainToConstant a k pi c = .ok ((), c')) :
    (pi = none → ∀ E' T N pub w v, Sat E' T N c' pub w v → v a = k) ∧
    (∀ E' T N pub w v, Sat E' T N c' pub w v → v a = k - pub c.n) ∧
    (OwnSat E c → ownV c a = k - pi.getD 0 → OwnSat E c') := by
  have hw := Reach.wf h
  obtain ⟨P, hv⟩ := constrainToConstant_fwd hw h1
  have hg : ∀ E' T N pub w v, Sat E' T N c' pub w v → v a = k - pub c.n := by
    intro E' T N pub w v hs
    have := P.sound hs
    linear_combination this
  refine ⟨?_, hg, ?_⟩
  · rintro rfl E' T N pub w v hs
    rw [hg E' T N pub w v hs, P.pub0 hs, sub_zero]
  · intro hs he
    refine P.own hs ?_
    have ov : ownV c' a = ownV c a := by unfold ownV; rw [hv]
    rw [ov, he]
    ring

/-- `poly_gate` enforces the gate equation with the row's public input, and the own values satisfy
it when they meet the equation. -/
theorem C87_poly_gate {c c' : Composer F} (h : Reach R E c) {a b o : Var} {qm ql qr qo qc : F}
    {pi : Option F} (h1 : polyGate a b o qm ql qr qo qc pi c = .ok ((), c')) :
    (∀ E' T N pub w v, Sat E' T N c' pub w v →
      qm * v a * v b + ql * v a + qr * v b + qo * v o + qc + pub c.n = 0) ∧
    (OwnSat E c → qm * ownV c a * ownV c b + ql * ownV c a + qr * ownV c b + qo * ownV c o + qc
      + pi.getD 0 = 0 → OwnSat E c') ∧ ownPub c' c.n = pi.getD 0 := by
  have hw := Reach.wf h
  obtain ⟨P, hv⟩ := polyGate_fwd hw h1
  have ov : ∀ x, ownV c' x = ownV c x := fun x => by unfold ownV; rw [hv]
  refine ⟨?_, ?_, ?_⟩
  · intro E' T N pub w v hs
    have := P.sound hs
    linear_combination this
  · intro hs he
    refine P.own hs ?_
    simp only [ov]
    linear_combination he
  · unfold polyGate at h1
    obtain ⟨z, c1, hz, h2⟩ := bindC_ok.1 h1
    obtain ⟨rfl, rfl⟩ := zeroVar_ok.1 hz
    exact (addedGate_fwd hw (not_usesNext_arith _ _ _ _ _ _ _ _ _ _ _) h2).2.pub

example : ∃ (c c' : Composer K97) (a : Var), Reach R97 E97 c ∧ OwnSat E97 c ∧
    constrainToConstant a 5 none c = .ok ((), c') ∧ ownV c a = 5 := by
  obtain ⟨c, x, h, hs, hx, hv⟩ := input1 R97 E97 5
  obtain ⟨c', h1⟩ := constrainToConstant_run (Reach.wf h) 5 none hx
  exact ⟨c, c', x, h, hs, h1, hv⟩

/-! ### C88 -/

/-- The value `arithmetic_gate` balances: everything except the output term. -/
def C88_sum (g : ArithGate F) (z l r : Var) (v : Var → F) (p : F) : F :=
  g.mul * v l * v r + g.add.1 * v l + g.add.2 * v r + g.const + p +
    (match g.fan_in_3 with
      | some (q4, d) => q4 * v d
      | none => 0 * v z)

/-- `arithmetic_gate` with a fresh output: every satisfying assignment has `sum + q_o · out = 0`;
the value it gives the output is `- q_o · sum`; so the own values satisfy the gate exactly when
`(1 - q_o²) · sum = 0`, in particular always for the default `q_o = -1`. -/
theorem C88_arithmetic_gate {c c' : Composer F} (h : Reach R E c) {g : ArithGate F} {l r x : Var}
    (hg : g.witness = some (l, r, none)) (h1 : arithmeticGate g c = .ok (x, c')) :
    ¬ x < c.variables.length ∧
    (∀ E' T N pub w v, Sat E' T N c' pub w v →
      C88_sum g c.zero_var l r v (pub c.n) + g.out * v x = 0) ∧
    ownV c' x = -g.out * C88_sum g c.zero_var l r (ownV c) (g.pi.getD 0) ∧
    (OwnSat E c → (OwnSat E c' ↔
      (1 - g.out ^ 2) * C88_sum g c.zero_var l r (ownV c) (g.pi.getD 0) = 0)) ∧
    ownPub c' c.n = g.pi.getD 0 := by
  have hw := Reach.wf h
  obtain ⟨hx, hv, P⟩ := arithmeticGate_fwd_none hw hg h1
  have hsum : ∀ (v : Var → F) p, C88_sum g c.zero_var l r v p =
      g.mul * v l * v r + g.add.1 * v l + g.add.2 * v r + g.const + p
        + (fan3 g c.zero_var).1 * v (fan3 g c.zero_var).2 := by
    intro v p
    unfold C88_sum fan3
    cases g.fan_in_3 <;> rfl
  have hox : ownV c' x = -g.out * C88_sum g c.zero_var l r (ownV c) (g.pi.getD 0) := by
    have : c'.variables[x]? = some (arithOut g l r (fan3 g c.zero_var).2 (fan3 g c.zero_var).1
      (ownV c)) := by rw [hv, hx]; simp
    rw [ownV_of_some this, hsum]
    unfold arithOut
    ring
  have hpub : ownPub c' c.n = g.pi.getD 0 := by
    unfold arithmeticGate at h1
    rw [hg] at h1
    simp only at h1
    obtain ⟨z, c1, hz, h1x⟩ := bindC_ok.1 h1
    obtain ⟨rfl, rfl⟩ := zeroVar_ok.1 hz
    obtain ⟨u, c2, hp, h2x⟩ := bindC_ok.1 h1x
    obtain ⟨o', c3, ho, h3x⟩ := bindC_ok.1 h2x
    obtain ⟨u', c4, hq, h4x⟩ := bindC_ok.1 h3x
    obtain ⟨rfl, rfl⟩ := pureC_ok.1 h4x
    obtain ⟨vl, d1, hl0, ho1⟩ := bindC_ok.1 ho
    obtain ⟨-, rfl⟩ := valueOfVar_ok.1 hl0
    obtain ⟨vr, d2, hr0, ho2⟩ := bindC_ok.1 ho1
    obtain ⟨-, rfl⟩ := valueOfVar_ok.1 hr0
    obtain ⟨v4, d3, h40, ho3⟩ := bindC_ok.1 ho2
    obtain ⟨-, rfl⟩ := valueOfVar_ok.1 h40
    obtain ⟨d, hd1, hd2⟩ := addPi_addInput_comm hp ho3
    have n := addInput_fwd hw hd1
    have hA := (addedGate_fwd n.wf (not_usesNext_arith _ _ _ _ _ _ _ _ _ _ _)
      (bindC_ok.2 ⟨u, _, hd2, hq⟩)).2
    have := hA.pub
    rwa [n.n] at this
  have hgen : ∀ E' T N pub w v, Sat E' T N c' pub w v →
      C88_sum g c.zero_var l r v (pub c.n) + g.out * v x = 0 := by
    intro E' T N pub w v hs
    have := P.sound hs
    rw [hsum]
    linear_combination this
  have ol := P.ext.ownV P.lIn
  have or' := P.ext.ownV P.rIn
  have od := P.ext.ownV P.dIn
  refine ⟨by omega, hgen, hox, fun hs => ⟨fun hs' => ?_, fun he => P.own hs ?_⟩, hpub⟩
  · have := hgen E _ _ _ _ _ (hs' c'.n (le_refl _))
    rw [hpub, hsum, ol, or', od, ← hsum (ownV c), hox] at this
    linear_combination this
  · rw [ol, or', od]
    rw [hox]
    have := hsum (ownV c) (g.pi.getD 0)
    linear_combination he - (1 - g.out ^ 2) * this + (1 - g.out ^ 2) * this +
      (-this)

/-- `arithmetic_gate` with a given output adds only the check. -/
theorem C88_arithmetic_gate_output {c c' : Composer F} (h : Reach R E c) {g : ArithGate F}
    {l r o x : Var} (hg : g.witness = some (l, r, some o))
    (h1 : arithmeticGate g c = .ok (x, c')) :
    x = o ∧ c'.variables = c.variables ∧
    (∀ E' T N pub w v, Sat E' T N c' pub w v →
      C88_sum g c.zero_var l r v (pub c.n) + g.out * v o = 0) ∧
    (OwnSat E c → C88_sum g c.zero_var l r (ownV c) (g.pi.getD 0) + g.out * ownV c o = 0 →
      OwnSat E c') := by
  have hw := Reach.wf h
  obtain ⟨hx, hv, P⟩ := arithmeticGate_fwd_some hw hg h1
  have hsum : ∀ (v : Var → F) p, C88_sum g c.zero_var l r v p =
      g.mul * v l * v r + g.add.1 * v l + g.add.2 * v r + g.const + p
        + (fan3 g c.zero_var).1 * v (fan3 g c.zero_var).2 := by
    intro v p
    unfold C88_sum fan3
    cases g.fan_in_3 <;> rfl
  refine ⟨hx, hv, ?_, ?_⟩
  · intro E' T N pub w v hs
    have := P.sound hs
    rw [hsum]
    linear_combination this
  · intro hs he
    refine P.own hs ?_
    have ov : ∀ x, ownV c' x = ownV c x := fun x => by unfold ownV; rw [hv]
    simp only [ov]
    rw [hsum] at he
    linear_combination he

/-- It panics exactly when no wires were given or one is unknown to the composer. -/
theorem C88_panics {c : Composer F} (h : Reach R E c) (g : ArithGate F) :
    (∃ x c', arithmeticGate g c = .ok (x, c')) ↔
      ∃ l r o, g.witness = some (l, r, o) ∧ l < c.variables.length ∧ r < c.variables.length ∧
        (∀ x, o = some x → x < c.variables.length) ∧
        (∀ p, g.fan_in_3 = some p → p.2 < c.variables.length) := by
  have hw := Reach.wf h
  constructor
  · rintro ⟨x, c', h1⟩
    cases hg : g.witness with
    | none => unfold arithmeticGate at h1; rw [hg] at h1; cases h1
    | some t =>
      obtain ⟨l, r, o⟩ := t
      have hfan : ∀ p, g.fan_in_3 = some p → (fan3 g c.zero_var).2 = p.2 := by
        intro p hp; unfold fan3; rw [hp]
      cases o with
      | none =>
        have P := (arithmeticGate_fwd_none hw hg h1).2.2
        exact ⟨l, r, none, rfl, P.lIn, P.rIn, by simp, fun p hp => hfan p hp ▸ P.dIn⟩
      | some o =>
        obtain ⟨-, hv, P⟩ := arithmeticGate_fwd_some hw hg h1
        refine ⟨l, r, some o, rfl, P.lIn, P.rIn, ?_, fun p hp => hfan p hp ▸ P.dIn⟩
        rintro y ⟨⟩
        rw [← hv]; exact P.xIn
  · rintro ⟨l, r, o, hg, hl, hr, ho, h3⟩
    exact arithmeticGate_run hw hg hl hr ho h3

/-- With `q_o = 2` the value put on the output does not satisfy the gate. -/
example : ∃ (c c' : Composer K97) (x y : Var), Reach R97 E97 c ∧ OwnSat E97 c ∧
    arithmeticGate { (ArithGate.new : ArithGate K97) with
      witness := some (x, x, none), add := (1, 0), out := 2 } c = .ok (y, c') ∧ ¬ OwnSat E97 c' := by
  obtain ⟨c, x, h, hs, hx, hv⟩ := input1 R97 E97 5
  obtain ⟨y, c', h1⟩ := arithmeticGate_run (Reach.wf h) (g := { (ArithGate.new : ArithGate K97) with
      witness := some (x, x, none), add := (1, 0), out := 2 }) rfl hx hx (by simp) (by simp [ArithGate.new])
  refine ⟨c, c', x, y, h, hs, h1, fun hs' => ?_⟩
  have := ((C88_arithmetic_gate h rfl h1).2.2.2.1 hs).1 hs'
  simp only [C88_sum, ArithGate.new, hv, zero_mul, add_zero, Option.getD_none] at this
  revert this
  decide +kernel

/-! ### C89 -/

/-- `boolean_gate` enforces that the variable is zero or one, returns it, and the own values
satisfy it exactly when it is. -/
theorem C89_boolean_gate {c : Composer F} (h : Reach R E c) (a : Var) :
    ((∃ x c', booleanGate a c = .ok (x, c')) ↔ a < c.variables.length) ∧
    ∀ x c', booleanGate a c = .ok (x, c') → x = a ∧
      (∀ E' T N pub w v, Sat E' T N c' pub w v → v a = 0 ∨ v a = 1) ∧
      (OwnSat E c → (OwnSat E c' ↔ ownV c a = 0 ∨ ownV c a = 1)) := by
  have hw := Reach.wf h
  refine ⟨⟨?_, fun ha => let ⟨c', h1⟩ := booleanGate_run hw ha; ⟨_, c', h1⟩⟩, ?_⟩
  · rintro ⟨x, c', h1⟩
    exact (booleanGate_fwd hw h1).2.1.lIn
  · intro x c' h1
    obtain ⟨hx, P, hv⟩ := booleanGate_fwd hw h1
    refine ⟨hx, fun E' T N pub w v hs => booleanGate_sound hw h1 hs, fun hs => ⟨fun hs' => ?_,
      booleanGate_own hw h1 hs⟩⟩
    have := booleanGate_sound hw h1 (hs' c'.n (le_refl _))
    have ov : ownV c' a = ownV c a := by unfold ownV; rw [hv]
    rwa [ov] at this

/-- `is_zero_with_output`: the returned variable is the zero test in every satisfying assignment,
and the own values always satisfy it. -/
theorem C89_is_zero {c : Composer F} (h : Reach R E c) (a : Var) :
    ((∃ x c', isZeroWithOutput a c = .ok (x, c')) ↔ a < c.variables.length) ∧
    ∀ x c', isZeroWithOutput a c = .ok (x, c') →
      (∀ E' T N pub w v, Sat E' T N c' pub w v → v x = if v a = 0 then 1 else 0) ∧
      (OwnSat E c → OwnSat E c') ∧ ownV c' x = if ownV c a = 0 then 1 else 0 := by
  have hw := Reach.wf h
  refine ⟨⟨?_, fun ha => isZeroWithOutput_run hw ha⟩, ?_⟩
  · rintro ⟨x, c', h1⟩
    exact (isZeroWithOutput_fwd hw h1).2.2.1
  · intro x c' h1
    obtain ⟨-, -, -, -, h2, h3, h4⟩ := isZeroWithOutput_fwd hw h1
    exact ⟨h4, h3 E, h2⟩

/-- `is_eq_with_output`, likewise. -/
theorem C89_is_eq {c : Composer F} (h : Reach R E c) (a b : Var) :
    ((∃ x c', isEqWithOutput a b c = .ok (x, c')) ↔
      a < c.variables.length ∧ b < c.variables.length) ∧
    ∀ x c', isEqWithOutput a b c = .ok (x, c') →
      (∀ E' T N pub w v, Sat E' T N c' pub w v → v x = if v a = v b then 1 else 0) ∧
      (OwnSat E c → OwnSat E c') ∧ ownV c' x = if ownV c a = ownV c b then 1 else 0 := by
  have hw := Reach.wf h
  refine ⟨⟨?_, fun ⟨ha, hb⟩ => isEqWithOutput_run hw ha hb⟩, ?_⟩
  · rintro ⟨x, c', h1⟩
    obtain ⟨-, -, h2, h3, -⟩ := isEqWithOutput_fwd hw h1
    exact ⟨h2, h3⟩
  · intro x c' h1
    obtain ⟨-, -, -, -, -, h2, h3, h4⟩ := isEqWithOutput_fwd hw h1
    exact ⟨h4, h3 E, h2⟩

example : ∃ (c c' : Composer K97) (a b x : Var), Reach R97 E97 c ∧ OwnSat E97 c ∧
    isEqWithOutput a b c = .ok (x, c') ∧ ownV c a = 5 ∧ ownV c b = 6 := by
  obtain ⟨c, a, b, d, h, hs, ha, hb, hd, va, vb, vd⟩ := input3 R97 E97 5 6 7
  obtain ⟨x, c', h1⟩ := ((C89_is_eq h a b).1).2 ⟨ha, hb⟩
  exact ⟨c, c', a, b, x, h, hs, h1, va, vb⟩

/-! ### C90 -/

/-- `conditional_select` returns `a` when the bit is one and `b` when it is zero, in every
satisfying assignment and in the own values. -/
theorem C90_select {c : Composer F} (h : Reach R E c) {bit a b : Var}
    (hbit : bit < c.variables.length) (ha : a < c.variables.length) (hb : b < c.variables.length) :
    ∃ x c', conditionalSelect bit a b c = .ok (x, c') ∧
      (∀ E' T N pub w v, Sat E' T N c' pub w v →
        (v bit = 1 → v x = v a) ∧ (v bit = 0 → v x = v b)) ∧
      (OwnSat E c → OwnSat E c' ∧ (ownV c bit = 1 → ownV c' x = ownV c a) ∧
        (ownV c bit = 0 → ownV c' x = ownV c b)) := by
  have hw := Reach.wf h
  obtain ⟨x, c', h1⟩ := conditionalSelect_run hw hbit ha hb
  obtain ⟨-, -, -, -, -, h2, h3⟩ := conditionalSelect_fwd hw h1
  refine ⟨x, c', h1, ?_, ?_⟩
  · intro E' T N pub w v hs
    have := h3 E' T N pub w v hs
    exact ⟨fun hb1 => by rw [this, hb1]; ring, fun hb0 => by rw [this, hb0]; ring⟩
  · intro hs
    obtain ⟨h4, h5⟩ := h2 hb E hs
    exact ⟨h4, fun hb1 => by rw [h5, hb1]; ring, fun hb0 => by rw [h5, hb0]; ring⟩

/-- `conditional_select_zero` returns the value or zero. -/
theorem C90_select_zero {c : Composer F} (h : Reach R E c) {bit a : Var}
    (hbit : bit < c.variables.length) (ha : a < c.variables.length) :
    ∃ x c', conditionalSelectZero bit a c = .ok (x, c') ∧
      (∀ E' T N pub w v, Sat E' T N c' pub w v →
        (v bit = 1 → v x = v a) ∧ (v bit = 0 → v x = 0)) ∧
      (OwnSat E c → OwnSat E c') ∧ (ownV c bit = 1 → ownV c' x = ownV c a) ∧
        (ownV c bit = 0 → ownV c' x = 0) := by
  have hw := Reach.wf h
  obtain ⟨x, c', h1⟩ := conditionalSelectZero_run hw hbit ha
  obtain ⟨-, -, -, -, -, h2, h3, h4⟩ := conditionalSelectZero_fwd hw h1
  refine ⟨x, c', h1, ?_, h2 E, fun hb1 => by rw [h3, hb1]; ring, fun hb0 => by rw [h3, hb0]; ring⟩
  intro E' T N pub w v hs
  have := h4 E' T N pub w v hs
  exact ⟨fun hb1 => by rw [this, hb1]; ring, fun hb0 => by rw [this, hb0]; ring⟩

/-- `conditional_select_one` returns the value or one. -/
theorem C90_select_one {c : Composer F} (h : Reach R E c) {bit a : Var}
    (hbit : bit < c.variables.length) (ha : a < c.variables.length) :
    ∃ x c', conditionalSelectOne bit a c = .ok (x, c') ∧
      (∀ E' T N pub w v, Sat E' T N c' pub w v →
        (v bit = 1 → v x = v a) ∧ (v bit = 0 → v x = 1)) ∧
      (OwnSat E c → OwnSat E c') ∧ (ownV c bit = 1 → ownV c' x = ownV c a) ∧
        (ownV c bit = 0 → ownV c' x = 1) := by
  have hw := Reach.wf h
  obtain ⟨x, c', h1⟩ := conditionalSelectOne_run hw hbit ha
  obtain ⟨-, -, -, -, -, h2, h3, h4⟩ := conditionalSelectOne_fwd hw h1
  refine ⟨x, c', h1, ?_, h2 E, fun hb1 => by rw [h3, hb1]; ring, fun hb0 => by rw [h3, hb0]; ring⟩
  intro E' T N pub w v hs
  have := h4 E' T N pub w v hs
  exact ⟨fun hb1 => by rw [this, hb1]; ring, fun hb0 => by rw [this, hb0]; ring⟩

example : ∃ (c : Composer K97) (bit a b : Var), Reach R97 E97 c ∧ OwnSat E97 c ∧
    bit < c.variables.length ∧ a < c.variables.length ∧ b < c.variables.length ∧
    ownV c bit = 1 ∧ ownV c a = 5 ∧ ownV c b = 6 := by
  obtain ⟨c, a, b, d, h, hs, ha, hb, hd, va, vb, vd⟩ := input3 R97 E97 1 5 6
  exact ⟨c, a, b, d, h, hs, ha, hb, hd, va, vb, vd⟩

/-! ### C91 -/

/-- `range_gate` panics exactly for an odd or zero number of bits, more bits than the
representation, or an unknown variable. In every satisfying assignment the variable holds (the
image of) a number below `2 ^ numBits`; the own values satisfy the gate exactly when its own
number is below `2 ^ numBits`. -/
theorem C91_range_gate {c : Composer F} (h : Reach R E c) (x : Var) (numBits : ℕ) :
    ((∃ c', rangeGate R x numBits c = .ok ((), c')) ↔
      numBits % 2 = 0 ∧ 0 < numBits ∧ numBits ≤ R.bigBits ∧ x < c.variables.length) ∧
    ∀ c', rangeGate R x numBits c = .ok ((), c') →
      (∀ E' T N pub w v, Sat E' T N c' pub w v → ∃ m < 2 ^ numBits, v x = ((m : ℕ) : F)) ∧
      (RepOk R → OwnSat E c → R.toNat (ownV c x) < 2 ^ numBits → OwnSat E c') := by
  have hw := Reach.wf h
  refine ⟨⟨?_, fun ⟨h1, h2, h3, h4⟩ => rangeGate_run hw h1 h2 h3 h4⟩, ?_⟩
  · rintro ⟨c', h1⟩
    obtain ⟨a, b, d, e, -⟩ := rangeGate_fwd hw h1
    exact ⟨a, b, d, e⟩
  · intro c' h1
    obtain ⟨-, -, -, -, -, -, s, o⟩ := rangeGate_fwd hw h1
    exact ⟨s, fun hR hs hlt => o hR E hs hlt⟩

/-- When the modulus exceeds `2 ^ numBits` the own values that satisfy the gate are exactly those
in range. -/
theorem C91_range_gate_own {c c' : Composer F} (h : Reach R E c) {x : Var} {numBits : ℕ}
    (hR : RepOk R) (hn : numBits < R.modBits) (h1 : rangeGate R x numBits c = .ok ((), c'))
    (hs : OwnSat E c) : OwnSat E c' ↔ R.toNat (ownV c x) < 2 ^ numBits := by
  have hw := Reach.wf h
  obtain ⟨-, -, -, hx, -, e, s, o⟩ := rangeGate_fwd hw h1
  refine ⟨fun hs' => ?_, fun hlt => o hR E hs hlt⟩
  obtain ⟨m, hm, hv⟩ := s _ _ _ _ _ _ (hs' c'.n (le_refl _))
  rw [e.ownV hx] at hv
  rw [hv, hR.own m (lt_of_lt_of_le hm (Nat.pow_le_pow_right (by omega) (by omega)))]
  exact hm

example : ∃ (c c' : Composer K97) (x : Var), Reach R97 E97 c ∧ OwnSat E97 c ∧ RepOk R97 ∧
    6 < R97.modBits ∧ rangeGate R97 x 6 c = .ok ((), c') ∧ ownV c x = 37 := by
  obtain ⟨c, x, h, hs, hx, hv⟩ := input1 R97 E97 37
  obtain ⟨c', h1⟩ := ((C91_range_gate h x 6).1).2 ⟨rfl, by decide, by decide, hx⟩
  exact ⟨c, c', x, h, hs, repOk97, by decide, h1, hv⟩

/-! ### C92 -/

/-- The own values of `xor_gate` and `and_gate`, for a field whose representation has 256 bits:
the gates compute the bitwise operation of the low `numBits` bits of the two values, and are
satisfied. -/
theorem C92_logic_own {c : Composer F} (h : Reach R E c) (hs : OwnSat E c) (h256 : R.bigBits = 256)
    {a b : Var} {numBits : ℕ} (he : numBits % 2 = 0) (hn : numBits ≤ 256)
    (ha : a < c.variables.length) (hb : b < c.variables.length) :
    (∃ o c', xorGate R a b numBits c = .ok (o, c') ∧ OwnSat E c' ∧ ownV c' o =
      (((R.toNat (ownV c a) % 2 ^ numBits) ^^^ (R.toNat (ownV c b) % 2 ^ numBits) : ℕ) : F)) ∧
    (∃ o c', andGate R a b numBits c = .ok (o, c') ∧ OwnSat E c' ∧ ownV c' o =
      (((R.toNat (ownV c a) % 2 ^ numBits) &&& (R.toNat (ownV c b) % 2 ^ numBits) : ℕ) : F)) := by
  have hw := Reach.wf h
  have harg : ∀ x, logicArg R x numBits = R.toNat x % 2 ^ numBits := by
    intro x; unfold logicArg; rw [h256]; simp
  constructor
  · obtain ⟨pm, h1, -⟩ := logicGate_run (R := R) (isXor := true) hw he hn (by omega) ha hb
    obtain ⟨-, -, -, -, -, -, -, -, -, -, o, -⟩ := logicGate_post hw h1
    obtain ⟨o1, o2⟩ := o E hs
    refine ⟨_, _, h1, o1, o2.trans ?_⟩
    rw [harg, harg]
    rfl
  · obtain ⟨pm, h1, -⟩ := logicGate_run (R := R) (isXor := false) hw he hn (by omega) ha hb
    obtain ⟨-, -, -, -, -, -, -, -, -, -, o, -⟩ := logicGate_post hw h1
    obtain ⟨o1, o2⟩ := o E hs
    refine ⟨_, _, h1, o1, o2.trans ?_⟩
    rw [harg, harg]
    rfl

/-- What the gates enforce: the output is the operation applied to some two numbers of `numBits`
bits. -/
theorem C92_logic_sound {c c' : Composer F} (h : Reach R E c) (h2 : (2 : F) ≠ 0)
    (h3 : (3 : F) ≠ 0) {a b o : Var} {numBits : ℕ} {E' : EdCurve F} {T : List (F × F × F × F)}
    {N : ℕ} {pub : ℕ → F} {w : WireData → F} {v : Var → F} (hs : Sat E' T N c' pub w v) :
    (xorGate R a b numBits c = .ok (o, c') →
      ∃ A B, A < 2 ^ numBits ∧ B < 2 ^ numBits ∧ v o = ((A ^^^ B : ℕ) : F)) ∧
    (andGate R a b numBits c = .ok (o, c') →
      ∃ A B, A < 2 ^ numBits ∧ B < 2 ^ numBits ∧ v o = ((A &&& B : ℕ) : F)) := by
  have hw := Reach.wf h
  constructor
  · intro h1
    obtain ⟨-, -, -, -, -, -, -, -, -, s, -, -⟩ := logicGate_post hw h1
    exact s h2 h3 E' T N pub w v hs
  · intro h1
    obtain ⟨-, -, -, -, -, -, -, -, -, s, -, -⟩ := logicGate_post hw h1
    exact s h2 h3 E' T N pub w v hs

/-- What the gates do not enforce: the two numbers need not be the inputs. Whatever values satisfy
the circuit before the call, they extend over the gate with the output of any two numbers. So the
output of `xor_gate` may be any number of `numBits` bits, whatever the inputs are. -/
theorem C92_logic_inputs_not_bound {c c' : Composer F} (h : Reach R E c) {a b o : Var}
    {numBits : ℕ} {E' : EdCurve F} {T : List (F × F × F × F)} {N : ℕ} {pub : ℕ → F}
    {w : WireData → F} {v : Var → F} (hs : Sat E' T N c pub w v) (hN : c'.n ≤ N)
    (h1 : xorGate R a b numBits c = .ok (o, c')) {m : ℕ} (hm : m < 2 ^ numBits) :
    ∃ pub' w' v', Sat E' T N c' pub' w' v' ∧ (∀ x < c.variables.length, v' x = v x) ∧
      (∀ i < c.n, pub' i = pub i) ∧ v' o = (m : F) := by
  have hw := Reach.wf h
  obtain ⟨-, -, -, -, -, -, -, -, -, -, -, d⟩ := logicGate_post hw h1
  obtain ⟨pub', w', v', g1, g2, g3, g4⟩ := d E' T N pub w v hs hN m 0 hm (by positivity)
  refine ⟨pub', w', v', g1, g2, g3, ?_⟩
  rw [g4]
  simp [opN]

example : ∃ (c c' : Composer K97) (a b o : Var), Reach R97 E97 c ∧ OwnSat E97 c ∧
    xorGate R97 a b 6 c = .ok (o, c') ∧ ownV c' o = ((12 ^^^ 10 : ℕ) : K97) := by
  obtain ⟨c, a, b, d, h, hs, ha, hb, hd, va, vb, vd⟩ := input3 R97 E97 12 10 7
  obtain ⟨o, c', h1, -, h2⟩ := (C92_logic_own h hs rfl (numBits := 6) rfl (by decide) ha hb).1
  refine ⟨c, c', a, b, o, h, hs, h1, ?_⟩
  rw [h2, va, vb]
  rfl

/-! ### C93 -/

/-- `lookup_gate` without a public input: every satisfying assignment has the four values (zero
for a missing fourth) in the table; the own values satisfy it exactly when they are in the
composer's table. It returns the third variable. -/
theorem C93_lookup {c : Composer F} (h : Reach R E c) {a b o : Var} {d : Option Var}
    (ha : a < c.variables.length) (hb : b < c.variables.length) (ho : o < c.variables.length)
    (hd : ∀ x, d = some x → x < c.variables.length) :
    ∃ c', lookupGate a b o d none c = .ok (o, c') ∧
      (∀ E' T N pub w v, Sat E' T N c' pub w v →
        (v a, v b, v o, d.elim 0 v) ∈ T) ∧
      (OwnSat E c → (OwnSat E c' ↔
        (ownV c a, ownV c b, ownV c o, d.elim 0 (ownV c)) ∈
          c.lookup_table)) := by
  have hw := Reach.wf h
  obtain ⟨c', h1⟩ := lookupGate_run hw none ha hb ho hd
  obtain ⟨-, hw', hA⟩ := lookupGate_fwd hw h1
  have ov : ∀ x : Var, ownV c' x = ownV c x := by
    intro x
    unfold ownV
    rw [hA.vars]
  have hsound : ∀ E' T N pub w v, Sat E' T N c' pub w v →
        (v a, v b, v o, d.elim 0 v) ∈ T := by
    intro E' T N pub w v hs
    obtain ⟨d1, d2, d3, d4⟩ : w (.left c.n) = v a ∧ w (.right c.n) = v b ∧ w (.output c.n) = v o ∧
        w (.fourth c.n) = v (d.getD c.zero_var) :=
      ⟨hs.copy _ _ hA.left, hs.copy _ _ hA.right, hs.copy _ _ hA.output, hs.copy _ _ hA.fourth⟩
    have hrow := hs.rows c.n (by rw [hA.n]; omega)
    rw [hA.gate] at hrow
    have := hrow.lookup (by simp)
    simp only [rowAt] at this
    rw [d1, d2, d3, d4] at this
    cases d with
    | some x => exact this
    | none =>
      have hz := hw.zeroSound E' T N pub w v (hA.ext.sat hs)
      simp only [Option.getD_none] at this
      rw [hz] at this
      exact this
  refine ⟨c', h1, hsound, fun hs => ⟨fun hs' => ?_, fun hm => ?_⟩⟩
  · have := hsound _ _ _ _ _ _ (hs' c'.n (le_refl _))
    rw [show ownV c' = ownV c from funext ov, hA.table] at this
    exact this
  · refine hA.own hw hw' (by simp [UsesNext]) hs (by simp) ?_
    intro _
    cases d with
    | some x => exact hm
    | none =>
      simp only [Option.getD_none]
      rw [hw.zeroVal hs]
      exact hm

/-- With a public input that is not zero, `lookup_gate` makes the circuit unsatisfiable for that
public input. -/
theorem C93_lookup_public_input {c c' : Composer F} (h : Reach R E c) {a b o : Var}
    {d : Option Var} {k : F} (h1 : lookupGate a b o d (some k) c = .ok (o, c')) {E' : EdCurve F}
    {T : List (F × F × F × F)} {N : ℕ} {pub : ℕ → F} {w : WireData → F} {v : Var → F}
    (hs : Sat E' T N c' pub w v) : pub c.n = 0 := by
  have hw := Reach.wf h
  obtain ⟨-, hw', hA⟩ := lookupGate_fwd hw h1
  have hrow := (hs.rows c.n (by rw [hA.n]; omega)).arith
  rw [hA.gate] at hrow
  unfold ArithOk at hrow
  simpa using hrow

example : ∃ (c c' : Composer K97) (a b o : Var), Reach R97 E97 c ∧
    lookupGate a b o none (some 3) c = .ok (o, c') ∧ ¬ OwnSat E97 c' := by
  obtain ⟨c, a, b, o, h, hs, ha, hb, ho, va, vb, vo⟩ := input3 R97 E97 12 10 7
  obtain ⟨c', h1⟩ := lookupGate_run (Reach.wf h) (d := none) (some 3) ha hb ho (by simp)
  refine ⟨c, c', a, b, o, h, h1, fun hs' => ?_⟩
  have := C93_lookup_public_input h h1 (hs' c'.n (le_refl _))
  obtain ⟨-, -, hA⟩ := lookupGate_fwd (Reach.wf h) h1
  rw [hA.pub] at this
  revert this
  decide +kernel

/-! ### C94 -/

/-- `full_affine_transform_gate`: it panics exactly when the output coefficient is zero or a
variable is unknown; its output is the affine combination of fifth powers in every satisfying
assignment and in the own values. -/
theorem C94_full_affine {c : Composer F} (h : Reach R E c) (x0 x1 x2 : Var) (q0 q1 q2 q3 q4 : F) :
    ((∃ x c', fullAffineTransformGate x0 x1 x2 q0 q1 q2 q3 q4 c = .ok (x, c')) ↔
      q4 ≠ 0 ∧ x0 < c.variables.length ∧ x1 < c.variables.length ∧ x2 < c.variables.length) ∧
    ∀ x c', fullAffineTransformGate x0 x1 x2 q0 q1 q2 q3 q4 c = .ok (x, c') →
      (∀ E' T N pub w v, Sat E' T N c' pub w v →
        v x = -(q0 * v x0 ^ 5 + q1 * v x1 ^ 5 + q2 * v x2 ^ 5 + q3) / q4) ∧
      (OwnSat E c → OwnSat E c') ∧
      ownV c' x = -(q0 * ownV c x0 ^ 5 + q1 * ownV c x1 ^ 5 + q2 * ownV c x2 ^ 5 + q3) / q4 := by
  have hw := Reach.wf h
  refine ⟨⟨?_, fun ⟨h0, h1, h2, h3⟩ => fullAffine_run hw h0 h1 h2 h3⟩, ?_⟩
  · rintro ⟨x, c', h1⟩
    refine ⟨(fullAffine_fwd hw h1).1, ?_⟩
    unfold fullAffineTransformGate at h1
    obtain ⟨y0, d0, a0, b0⟩ := bindC_ok.1 h1
    obtain ⟨e0, rfl⟩ := valueOfVar_ok.1 a0
    obtain ⟨y1, d1, a1, b1⟩ := bindC_ok.1 b0
    obtain ⟨e1, rfl⟩ := valueOfVar_ok.1 a1
    obtain ⟨y2, d2, a2, b2⟩ := bindC_ok.1 b1
    obtain ⟨e2, rfl⟩ := valueOfVar_ok.1 a2
    exact ⟨(List.getElem?_eq_some_iff.1 e0).1, (List.getElem?_eq_some_iff.1 e1).1,
      (List.getElem?_eq_some_iff.1 e2).1⟩
  · intro x c' h1
    obtain ⟨hq, -, -, -, hv, o, s⟩ := fullAffine_fwd hw h1
    refine ⟨?_, o E, ?_⟩
    · intro E' T N pub w v hs
      have := s E' T N pub w v hs
      rw [eq_div_iff hq]
      linear_combination this
    · rw [hv, div_neg, neg_div]

/-- `partial_affine_transform_gate`: only the first variable is raised to the fifth power. -/
theorem C94_affinePartialRound {c : Composer F} (h : Reach R E c) (x0 x1 x2 : Var)
    (q0 q1 q2 q3 q4 : F) :
    ((∃ x c', partialAffineTransformGate x0 x1 x2 q0 q1 q2 q3 q4 c = .ok (x, c')) ↔
      q4 ≠ 0 ∧ x0 < c.variables.length ∧ x1 < c.variables.length ∧ x2 < c.variables.length) ∧
    ∀ x c', partialAffineTransformGate x0 x1 x2 q0 q1 q2 q3 q4 c = .ok (x, c') →
      (∀ E' T N pub w v, Sat E' T N c' pub w v →
        v x = -(q0 * v x0 ^ 5 + q1 * v x1 + q2 * v x2 + q3) / q4) ∧
      (OwnSat E c → OwnSat E c') ∧
      ownV c' x = -(q0 * ownV c x0 ^ 5 + q1 * ownV c x1 + q2 * ownV c x2 + q3) / q4 := by
  have hw := Reach.wf h
  refine ⟨⟨?_, fun ⟨h0, h1, h2, h3⟩ => partialAffine_run hw h0 h1 h2 h3⟩, ?_⟩
  · rintro ⟨x, c', h1⟩
    refine ⟨(partialAffine_fwd hw h1).1, ?_⟩
    unfold partialAffineTransformGate at h1
    obtain ⟨y0, d0, a0, b0⟩ := bindC_ok.1 h1
    obtain ⟨e0, rfl⟩ := valueOfVar_ok.1 a0
    obtain ⟨y1, d1, a1, b1⟩ := bindC_ok.1 b0
    obtain ⟨e1, rfl⟩ := valueOfVar_ok.1 a1
    obtain ⟨y2, d2, a2, b2⟩ := bindC_ok.1 b1
    obtain ⟨e2, rfl⟩ := valueOfVar_ok.1 a2
    exact ⟨(List.getElem?_eq_some_iff.1 e0).1, (List.getElem?_eq_some_iff.1 e1).1,
      (List.getElem?_eq_some_iff.1 e2).1⟩
  · intro x c' h1
    obtain ⟨hq, -, -, -, hv, o, s⟩ := partialAffine_fwd hw h1
    refine ⟨?_, o E, ?_⟩
    · intro E' T N pub w v hs
      have := s E' T N pub w v hs
      rw [eq_div_iff hq]
      linear_combination this
    · rw [hv, div_neg, neg_div]

example : ∃ (c c' : Composer K97) (x0 x1 x2 x : Var), Reach R97 E97 c ∧ OwnSat E97 c ∧
    fullAffineTransformGate x0 x1 x2 2 3 4 5 6 c = .ok (x, c') ∧ ownV c x0 = 12 := by
  obtain ⟨c, a, b, o, h, hs, ha, hb, ho, va, vb, vo⟩ := input3 R97 E97 12 10 7
  obtain ⟨x, c', h1⟩ := ((C94_full_affine h a b o 2 3 4 5 6).1).2 ⟨by decide +kernel, ha, hb, ho⟩
  exact ⟨c, c', a, b, o, x, h, hs, h1, va⟩

end VO
