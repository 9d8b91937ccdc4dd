import Verif.Lemmas.PlonkExample
import Verif.Lemmas.PlonkGadget
import Verif.Lemmas.PoseidonNative

/-
A circuit program that computes what a native program computes: the Poseidon gadget of
`/repo/plonk-hashing/src/poseidon/poseidon_ref.rs`, function by function.
-/

set_option linter.unusedSectionVars false

namespace VO.Poseidon

open VO.Plonk VO.Spec.Plonk

variable {F : Type} [Field F] [DecidableEq F]

/-- The same composer with other values. -/
def Same (c c' : Composer F) : Prop :=
  c' = { c with «variables» := c'.variables } ∧ c'.variables.length = c.variables.length

theorem Same.refl (c : Composer F) : Same c c := ⟨rfl, rfl⟩

theorem pushGate_eq {c c' : Composer F} {x1 x2 x3 x4 : Var} {g : Gate F} {u : Unit}
    (h : pushGate g x1 x2 x3 x4 c = .ok (u, c')) :
    c' = pushed c g x1 x2 x3 x4 (permAdd (permAdd (permAdd (permAdd c.perm x1 (.left c.n)) x2 (.right c.n))
      x3 (.output c.n)) x4 (.fourth c.n)) := by
  unfold pushGate addVariablesToMap at h
  simp only [bindC_ok] at h
  obtain ⟨_, _, e1, _, _, e2, _, _, e3, _, _, e4, _, _, e5, _, _, e6, _, _,
    ⟨_, _, a1, _, _, a2, _, _, a3, a4⟩, e7⟩ := h
  cases e1; cases e2; cases e3; cases e4; cases e5; cases e6
  have h1 := addVariableToMap_lt a1
  rw [addVariableToMap_run h1] at a1
  cases a1
  have h2 := addVariableToMap_lt a2
  rw [addVariableToMap_run h2] at a2
  cases a2
  have h3 := addVariableToMap_lt a3
  rw [addVariableToMap_run h3] at a3
  cases a3
  have h4 := addVariableToMap_lt a4
  rw [addVariableToMap_run h4] at a4
  cases a4
  cases e7
  rfl

theorem pushGate_same {c c' c2 : Composer F} {x1 x2 x3 x4 : Var} {g : Gate F} {u : Unit}
    (h : pushGate g x1 x2 x3 x4 c = .ok (u, c')) (hs : Same c c2) :
    ∃ c2', pushGate g x1 x2 x3 x4 c2 = .ok (u, c2') ∧ Same c' c2' := by
  obtain ⟨v1, v2, v3, v4⟩ := pushGate_valid h
  have hp : c2.perm = c.perm := by rw [hs.1]
  obtain ⟨pm, hpm, -⟩ := pushGate_run (c := c2) g (by rw [hp]; exact v1) (by rw [hp]; exact v2)
    (by rw [hp]; exact v3) (by rw [hp]; exact v4)
  have e1 := pushGate_eq h
  have e2 := pushGate_eq hpm
  refine ⟨_, hpm, ?_, ?_⟩
  · rw [e2, e1, hs.1]
    rfl
  · rw [e1]
    exact hs.2

theorem addInput_same {c c' c2 : Composer F} {s s2 : F} {x : Var}
    (h : addInput s c = .ok (x, c')) (hs : Same c c2) :
    ∃ c2', addInput s2 c2 = .ok (x, c2') ∧ Same c' c2' := by
  have hp : c2.perm = c.perm := by rw [hs.1]
  unfold addInput at h ⊢
  simp only [Except.ok.injEq, Prod.mk.injEq] at h
  obtain ⟨rfl, rfl⟩ := h
  refine ⟨_, by rw [hp], ?_, ?_⟩
  · conv_lhs => rw [hs.1]
  · simp [hs.2]

theorem arithmeticGate_same {c c' c2 : Composer F} {g : ArithGate F} {l r x : Var}
    (hg : g.witness = some (l, r, none)) (hp : g.pi = none) (h : arithmeticGate g c = .ok (x, c'))
    (hs : Same c c2) :
    ∃ c2', arithmeticGate g c2 = .ok (x, c2') ∧ Same c' c2' := by
  unfold arithmeticGate at h ⊢
  rw [hg] at h ⊢
  simp only at h ⊢
  rw [hp] at h ⊢
  obtain ⟨z, c1, hz, h⟩ := bindC_ok.1 h
  obtain ⟨rfl, rfl⟩ := zeroVar_ok.1 hz
  obtain ⟨u, d0, hp, h⟩ := bindC_ok.1 h
  obtain ⟨-, rfl⟩ := pureC_ok.1 hp
  obtain ⟨o', c3, ho, h⟩ := bindC_ok.1 h
  obtain ⟨u', c4, hq, h⟩ := bindC_ok.1 h
  obtain ⟨rfl, rfl⟩ := pureC_ok.1 h
  obtain ⟨vl, d1, hl0, ho⟩ := bindC_ok.1 ho
  obtain ⟨hl, rfl⟩ := valueOfVar_ok.1 hl0
  obtain ⟨vr, d2, hr0, ho⟩ := bindC_ok.1 ho
  obtain ⟨hr, rfl⟩ := valueOfVar_ok.1 hr0
  obtain ⟨v4, d3, h40, ho⟩ := bindC_ok.1 ho
  obtain ⟨h4, rfl⟩ := valueOfVar_ok.1 h40
  have hz2 : c2.zero_var = c.zero_var := by rw [hs.1]
  have lt : ∀ {x : Var} {s : F}, c.variables[x]? = some s → x < c2.variables.length := fun h => by
    rw [hs.2]; exact (List.getElem?_eq_some_iff.1 h).1
  obtain ⟨e3, he, hs3⟩ := addInput_same (s2 := (g.mul * (ownV c2 l * ownV c2 r) + g.add.1 * ownV c2 l
    + g.add.2 * ownV c2 r + g.const + (match g.fan_in_3 with
      | some p => p
      | none => ((0 : F), c.zero_var)).1 * ownV c2 (match g.fan_in_3 with
      | some p => p
      | none => ((0 : F), c.zero_var)).2 + Option.getD none 0) * (-g.out)) ho hs
  obtain ⟨e4, he4, hs4⟩ := pushGate_same hq hs3
  refine ⟨e4, ?_, hs4⟩
  refine bindC_ok.2 ⟨c2.zero_var, c2, rfl, bindC_ok.2 ⟨(), c2, rfl, bindC_ok.2 ⟨x, e3, ?_,
    bindC_ok.2 ⟨u', e4, ?_, rfl⟩⟩⟩⟩
  · refine bindC_ok.2 ⟨ownV c2 l, c2, valueOfVar_run (lt hl), bindC_ok.2 ⟨ownV c2 r, c2,
      valueOfVar_run (lt hr), bindC_ok.2 ⟨_, c2, valueOfVar_run (x := (match g.fan_in_3 with
      | some p => p
      | none => ((0 : F), c2.zero_var)).2) ?_, ?_⟩⟩⟩
    · rw [hz2]; exact lt h4
    · rw [hz2]; exact he
  · rw [hz2]; exact he4

/-- The program `mc` succeeds in the composer `c` by calls of public methods, keeps a satisfied composer
satisfied, makes the same gates whatever the values, and its result has the meaning `mp` of the native
program `na` in every satisfying assignment. -/
def Sim (R : FieldRep F) (E : EdCurve F) (c : Composer F) {α β : Type} (mc : CM F α) (na : (Var → F) → Res β)
    (mp : (Var → F) → α → β) (inn : Composer F → α → Prop) : Prop :=
  ∃ a c', mc c = .ok (a, c') ∧ Calls R E c c' ∧ (∀ E', OwnSat E' c → OwnSat E' c') ∧ inn c' a ∧
    (∀ E' T N pub w v, Sat E' T N c' pub w v → na v = .ok (mp v a)) ∧
    (∀ c2, Same c c2 → ∃ c2', mc c2 = .ok (a, c2') ∧ Same c' c2')

theorem _root_.VO.Spec.Plonk.Calls.trans' {R : FieldRep F} {E : EdCurve F} {c c1 c2 : Composer F} (h1 : Calls R E c c1)
    (h2 : Calls R E c1 c2) : Calls R E c c2 := by
  induction h2 with
  | none => exact h1
  | more _ hm h ih => exact .more ih hm h

variable {R : FieldRep F} {E : EdCurve F}

theorem Sim.bind {c : Composer F} (hw : WF c) {α β γ δ : Type} {mc : CM F α} {na : (Var → F) → Res β}
    {mp : (Var → F) → α → β} {inn : Composer F → α → Prop} {f : α → CM F γ} {g : (Var → F) → β → Res δ}
    {mp' : (Var → F) → γ → δ} {inn' : Composer F → γ → Prop} (h : Sim R E c mc na mp inn)
    (hf : ∀ a c', WF c' → Ext c c' → inn c' a → Sim R E c' (f a) (fun v => g v (mp v a)) mp' inn') :
    Sim R E c (mc >>= f) (fun v => na v >>= g v) mp' inn' := by
  obtain ⟨a, c1, r1, k1, o1, i1, s1, m1⟩ := h
  obtain ⟨hw1, he1⟩ := Calls.wf hw k1
  obtain ⟨b, c2, r2, k2, o2, i2, s2, m2⟩ := hf a c1 hw1 he1 i1
  obtain ⟨hw2, he2⟩ := Calls.wf hw1 k2
  refine ⟨b, c2, bindC_ok.2 ⟨a, c1, r1, r2⟩, k1.trans' k2, fun E' h => o2 E' (o1 E' h), i2, ?_, ?_⟩
  · intro E' T N pub w v hs
    show na v >>= g v = _
    rw [s1 E' T N pub w v (he2.sat hs), ok_bind]
    exact s2 E' T N pub w v hs
  · intro d hd
    obtain ⟨d1, h1, hd1⟩ := m1 d hd
    obtain ⟨d2, h2, hd2⟩ := m2 d1 hd1
    exact ⟨d2, bindC_ok.2 ⟨a, d1, h1, h2⟩, hd2⟩

theorem Sim.pure {c : Composer F} {α β : Type} (a : α) (mp : (Var → F) → α → β) {na : (Var → F) → Res β}
    {inn : Composer F → α → Prop} (hi : inn c a) (hn : ∀ v, na v = .ok (mp v a)) :
    Sim R E c (pure a : CM F α) na mp inn :=
  ⟨a, c, rfl, .none, fun _ h => h, hi, fun _ _ _ _ _ v _ => hn v, fun c2 h => ⟨c2, rfl, h⟩⟩

theorem Sim.congr {c : Composer F} {α β : Type} {mc : CM F α} {na na' : (Var → F) → Res β}
    {mp : (Var → F) → α → β} {inn : Composer F → α → Prop} (h : Sim R E c mc na mp inn)
    (he : ∀ v, na v = na' v) : Sim R E c mc na' mp inn := by
  have : na' = na := (funext he).symm
  rw [this]
  exact h

/-- A variable of the composer. -/
def InV (c : Composer F) (x : Var) : Prop := x < c.variables.length

theorem InV.mono {c c' : Composer F} (h : Ext c c') {x : Var} (hx : InV c x) : InV c' x := by
  have := h.vars.length_le
  unfold InV at *
  omega

/-- All are variables of the composer. -/
def InL (c : Composer F) (xs : List Var) : Prop := ∀ x ∈ xs, InV c x

theorem InL.mono {c c' : Composer F} (h : Ext c c') {xs : List Var} (hx : InL c xs) : InL c' xs :=
  fun x h' => InV.mono h (hx x h')

/-- An arithmetic gate with two inputs. -/
theorem Sim.arith {c : Composer F} (hw : WF c) {x y : Var} (hx : InV c x) (hy : InV c y)
    (qm ql qr qc : F) {na : (Var → F) → Res F}
    (hn : ∀ v, v c.zero_var = 0 → na v = .ok (qm * (v x * v y) + ql * v x + qr * v y + qc)) :
    Sim R E c (arithmeticGate { (ArithGate.new : ArithGate F) with
      witness := some (x, y, none), mul := qm, add := (ql, qr), const := qc }) na (fun v x => v x) InV := by
  set g : ArithGate F := { (ArithGate.new : ArithGate F) with
      witness := some (x, y, none), mul := qm, add := (ql, qr), const := qc } with hg
  obtain ⟨z, c', hr⟩ := arithmeticGate_run hw (g := g) (l := x) (r := y) (o := none) rfl hx hy
    (fun _ h => by cases h) (fun _ h => by cases h)
  obtain ⟨hz, hv, P⟩ := arithmeticGate_fwd_none hw (g := g) (l := x) (r := y) rfl hr
  refine ⟨z, c', hr, .more .none (.arithmetic_gate g) hr, ?_, P.xIn, ?_, ?_⟩
  · intro E' hs
    refine P.own hs ?_
    have e1 : ownV c' z = arithOut g x y (fan3 g c.zero_var).2 (fan3 g c.zero_var).1 (ownV c) := by
      rw [hz]
      unfold ownV
      rw [hv]
      exact getD_append_at _ _ rfl
    rw [e1, P.ext.ownV hx, P.ext.ownV hy]
    simp only [arithOut, fan3, hg, ArithGate.new, Option.getD_none]
    ring
  · intro E' T N pub w v hs
    have h1 := P.sound0 hs
    simp only [fan3, hg, ArithGate.new] at h1
    rw [hn v (hw.zeroSound E' T N pub w v (P.ext.sat hs))]
    congr 1
    linear_combination h1
  · intro c2 h2
    exact arithmeticGate_same (g := g) rfl rfl hr h2

theorem sim_add {c : Composer F} (hw : WF c) {x y : Var} (hx : InV c x) (hy : InV c y) :
    Sim R E c ((plonkSpec (F := F)).add x y) (fun v => (nativeSpec (F := F)).add (v x) (v y))
      (fun v x => v x) InV :=
  Sim.arith hw hx hy 0 1 1 0 fun v _ => by
    show Except.ok (v x + v y) = _
    congr 1; ring

theorem sim_mul {c : Composer F} (hw : WF c) {x y : Var} (hx : InV c x) (hy : InV c y) :
    Sim R E c ((plonkSpec (F := F)).mul x y) (fun v => (nativeSpec (F := F)).mul (v x) (v y))
      (fun v x => v x) InV :=
  Sim.arith hw hx hy 1 0 0 0 fun v _ => by
    show Except.ok (v x * v y) = _
    congr 1; ring

theorem sim_addi {c : Composer F} (hw : WF c) {x : Var} (hx : InV c x) (b : F) :
    Sim R E c ((plonkSpec (F := F)).addi x b) (fun v => (nativeSpec (F := F)).addi (v x) b)
      (fun v x => v x) InV := by
  have : (plonkSpec (F := F)).addi x b = (zeroVar >>= fun z =>
    arithmeticGate { (ArithGate.new : ArithGate F) with
      witness := some (x, z, none), add := (1, 0), const := b }) := rfl
  rw [this]
  obtain ⟨a, c', h1, h2, h3, h4, h5, h6⟩ := Sim.arith (R := R) (E := E) hw hx hw.zero 0 1 0 b
    (na := fun v => (nativeSpec (F := F)).addi (v x) b) fun v _ => by
      show Except.ok (v x + b) = _
      congr 1; ring
  refine ⟨a, c', h1, h2, h3, h4, h5, fun c2 hc => ?_⟩
  obtain ⟨c2', e1, e2⟩ := h6 c2 hc
  have hz2 : c2.zero_var = c.zero_var := by rw [hc.1]
  exact ⟨c2', bindC_ok.2 ⟨c2.zero_var, c2, rfl, by rw [hz2]; exact e1⟩, e2⟩

theorem sim_muli {c : Composer F} (hw : WF c) {x : Var} (hx : InV c x) (b : F) :
    Sim R E c ((plonkSpec (F := F)).muli x b) (fun v => (nativeSpec (F := F)).muli (v x) b)
      (fun v x => v x) InV := by
  obtain ⟨a, c', h1, h2, h3, h4, h5, h6⟩ := Sim.arith (R := R) (E := E) hw hx hw.zero 0 b 0 0
    (na := fun v => (nativeSpec (F := F)).muli (v x) b) fun v _ => by
      show Except.ok (v x * b) = _
      congr 1; ring
  refine ⟨a, c', h1, h2, h3, h4, h5, fun c2 hc => ?_⟩
  obtain ⟨c2', e1, e2⟩ := h6 c2 hc
  have hz2 : c2.zero_var = c.zero_var := by rw [hc.1]
  exact ⟨c2', bindC_ok.2 ⟨c2.zero_var, c2, rfl, by rw [hz2]; exact e1⟩, e2⟩

theorem sim_zeros {c : Composer F} (hw : WF c) (k : ℕ) :
    Sim R E c ((plonkSpec (F := F)).zeros k) (fun _ => (nativeSpec (F := F)).zeros k)
      (fun v xs => xs.map v) (fun c xs => InL c xs ∧ xs.length = k) := by
  refine ⟨List.replicate k c.zero_var, c, rfl, .none, fun _ h => h, ⟨fun x hx => ?_, by simp⟩, ?_, ?_⟩
  · rw [List.eq_of_mem_replicate hx]; exact hw.zero
  · intro E' T N pub w v hs
    show Except.ok (List.replicate k 0) = Except.ok (List.map v (List.replicate k c.zero_var))
    rw [List.map_replicate, hw.zeroSound E' T N pub w v hs]
  · intro c2 hc
    refine ⟨c2, ?_, hc⟩
    have hz2 : c2.zero_var = c.zero_var := by rw [hc.1]
    exact bindC_ok.2 ⟨c2.zero_var, c2, rfl, by rw [hz2]; rfl⟩

theorem sim_idx {c : Composer F} {xs : List Var} (hx : InL c xs) {i : ℕ} (hi : i < xs.length) :
    Sim R E c (idx (plonkSpec (F := F)) xs i) (fun v => idx (nativeSpec (F := F)) (xs.map v) i)
      (fun v x => v x) InV := by
  have e : idx (plonkSpec (F := F)) xs i = pure xs[i] := by
    unfold idx; rw [List.getElem?_eq_getElem hi]
  rw [e]
  refine Sim.pure _ _ (hx _ (List.getElem_mem _)) fun v => ?_
  unfold idx
  rw [List.getElem?_map, List.getElem?_eq_getElem hi]
  rfl

theorem sim_idx_const {c : Composer F} {α : Type} {xs : List α} {i : ℕ} (hi : i < xs.length) :
    Sim R E c (idx (plonkSpec (F := F)) xs i) (fun _ => idx (nativeSpec (F := F)) xs i)
      (fun _ x => x) (fun _ x => x = xs[i]) := by
  have e : idx (plonkSpec (F := F)) xs i = pure xs[i] := by
    unfold idx; rw [List.getElem?_eq_getElem hi]
  rw [e]
  refine Sim.pure _ _ rfl fun v => ?_
  unfold idx
  rw [List.getElem?_eq_getElem hi]
  rfl

end VO.Poseidon
