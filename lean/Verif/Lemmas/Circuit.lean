import Verif.Spec.Circuit
import Mathlib.Tactic.Ring

/-
Invariants of the circuit builder.
-/

set_option linter.unusedSectionVars false

namespace VO
open Spec

variable {F : Type} [Field F] [DecidableEq F]

namespace Circuit

/-! ### Field projections of the elementary updates -/

@[simp] theorem gates_pushGate (c : Circuit F) (k k' : Kind) (g : BinGate) :
    (c.pushGate k g).gates k' = if k' = k then c.gates k ++ [g] else c.gates k' := by
  cases k <;> cases k' <;> rfl

@[simp] theorem vars_pushGate (c : Circuit F) (k : Kind) (g : BinGate) :
    (c.pushGate k g).vars = c.vars := by cases k <;> rfl
@[simp] theorem constGates_pushGate (c : Circuit F) (k : Kind) (g : BinGate) :
    (c.pushGate k g).constGates = c.constGates := by cases k <;> rfl
@[simp] theorem numInputs_pushGate (c : Circuit F) (k : Kind) (g : BinGate) :
    (c.pushGate k g).numInputs = c.numInputs := by cases k <;> rfl
@[simp] theorem cache_pushGate (c : Circuit F) (k k' : Kind) (g : BinGate) :
    (c.pushGate k g).cache k' = c.cache k' := by cases k <;> cases k' <;> rfl
@[simp] theorem constCache_pushGate (c : Circuit F) (k : Kind) (g : BinGate) :
    (c.pushGate k g).constCache = c.constCache := by cases k <;> rfl
@[simp] theorem outputs_pushGate (c : Circuit F) (k : Kind) (g : BinGate) :
    (c.pushGate k g).outputs = c.outputs := by cases k <;> rfl
@[simp] theorem assertEquals_pushGate (c : Circuit F) (k : Kind) (g : BinGate) :
    (c.pushGate k g).assertEquals = c.assertEquals := by cases k <;> rfl
@[simp] theorem publicIo_pushGate (c : Circuit F) (k : Kind) (g : BinGate) :
    (c.pushGate k g).publicIo = c.publicIo := by cases k <;> rfl

@[simp] theorem gates_pushCache (c : Circuit F) (k k' : Kind) (e : (ℕ × ℕ) × ℕ) :
    (c.pushCache k e).gates k' = c.gates k' := by cases k <;> cases k' <;> rfl
@[simp] theorem cache_pushCache (c : Circuit F) (k k' : Kind) (e : (ℕ × ℕ) × ℕ) :
    (c.pushCache k e).cache k' = if k' = k then e :: c.cache k else c.cache k' := by
  cases k <;> cases k' <;> rfl
@[simp] theorem vars_pushCache (c : Circuit F) (k : Kind) (e : (ℕ × ℕ) × ℕ) :
    (c.pushCache k e).vars = c.vars := by cases k <;> rfl
@[simp] theorem constGates_pushCache (c : Circuit F) (k : Kind) (e : (ℕ × ℕ) × ℕ) :
    (c.pushCache k e).constGates = c.constGates := by cases k <;> rfl
@[simp] theorem numInputs_pushCache (c : Circuit F) (k : Kind) (e : (ℕ × ℕ) × ℕ) :
    (c.pushCache k e).numInputs = c.numInputs := by cases k <;> rfl
@[simp] theorem constCache_pushCache (c : Circuit F) (k : Kind) (e : (ℕ × ℕ) × ℕ) :
    (c.pushCache k e).constCache = c.constCache := by cases k <;> rfl
@[simp] theorem outputs_pushCache (c : Circuit F) (k : Kind) (e : (ℕ × ℕ) × ℕ) :
    (c.pushCache k e).outputs = c.outputs := by cases k <;> rfl
@[simp] theorem assertEquals_pushCache (c : Circuit F) (k : Kind) (e : (ℕ × ℕ) × ℕ) :
    (c.pushCache k e).assertEquals = c.assertEquals := by cases k <;> rfl
@[simp] theorem publicIo_pushCache (c : Circuit F) (k : Kind) (e : (ℕ × ℕ) × ℕ) :
    (c.pushCache k e).publicIo = c.publicIo := by cases k <;> rfl

theorem gates_withVars (c : Circuit F) (xs : List (Variable F)) (k : Kind) :
    ({ c with vars := xs } : Circuit F).gates k = c.gates k := by cases k <;> rfl
theorem cache_withVars (c : Circuit F) (xs : List (Variable F)) (k : Kind) :
    ({ c with vars := xs } : Circuit F).cache k = c.cache k := by cases k <;> rfl

/-! ### Attaching a gate -/

/-- What `add_add_gate`/`add_mul_gate` do to the variable at index `v`. -/
def attached (k : Kind) (i a b out v : ℕ) (x : Variable F) : Variable F :=
  { x with
    inputWires := x.inputWires ++ (if v = a then [⟨k, i, .left⟩] else [])
      ++ (if v = b then [⟨k, i, .right⟩] else [])
    outputWire := if v = out then some (.bin k i) else x.outputWire }

theorem attachInput_spec (c : Circuit F) (v : ℕ) (w : InputGateWire) :
    (v < c.vars.length ∧ ∃ xs, c.attachInput v w = (.ok (), { c with vars := xs }) ∧
      xs.length = c.vars.length ∧
      ∀ u : ℕ, xs[u]? = (c.vars[u]?).map (fun x : Variable F =>
        { x with inputWires := x.inputWires ++ (if u = v then [w] else []) })) ∨
    (c.vars.length ≤ v ∧ c.attachInput v w = (.error .panic, c)) := by
  unfold attachInput
  by_cases h : v < c.vars.length
  · left
    refine ⟨h, _, by rw [List.getElem?_eq_getElem h], by simp, fun u => ?_⟩
    by_cases hu : u = v
    · subst hu; simp [h]
    · rw [List.getElem?_set_ne (Ne.symm hu)]
      simp only [if_neg hu, List.append_nil]
      cases c.vars[u]? <;> rfl
  · right
    exact ⟨by omega, by rw [List.getElem?_eq_none (by omega)]⟩

theorem attachOutput_spec (c : Circuit F) (v : ℕ) (w : OutputGateWire) :
    (∃ x : Variable F, c.vars[v]? = some x ∧ x.outputWire = none ∧
      ∃ xs, c.attachOutput v w = (.ok (), { c with vars := xs }) ∧ xs.length = c.vars.length ∧
      ∀ u : ℕ, xs[u]? = (c.vars[u]?).map (fun x : Variable F =>
        { x with outputWire := if u = v then some w else x.outputWire })) ∨
    ((∀ x : Variable F, c.vars[v]? = some x → x.outputWire ≠ none) ∧
      ∃ e, c.attachOutput v w = (.error e, c)) := by
  unfold attachOutput
  rcases hx : c.vars[v]? with _ | x
  · right; exact ⟨by simp, .panic, rfl⟩
  · cases ho : x.outputWire with
    | some w' => right; exact ⟨by rintro y hy; cases hy; simp [ho], _, by simp [ho]; rfl⟩
    | none =>
      left
      refine ⟨x, rfl, ho, _, by simp [ho]; rfl, by simp, fun u => ?_⟩
      have hv : v < c.vars.length := (List.getElem?_eq_some_iff.mp hx).1
      by_cases hu : u = v
      · subst hu; rw [hx, List.getElem?_set_self hv]; simp
      · rw [List.getElem?_set_ne (Ne.symm hu)]
        simp only [if_neg hu]
        cases c.vars[u]? <;> rfl

theorem addBinGate_spec (c : Circuit F) (k : Kind) (a b out : ℕ) :
    (a < c.vars.length ∧ b < c.vars.length ∧
      (∃ x : Variable F, c.vars[out]? = some x ∧ x.outputWire = none) ∧
      ∃ xs, c.addBinGate k a b out = (.ok (), { c.pushGate k ⟨a, b, out⟩ with vars := xs }) ∧
      xs.length = c.vars.length ∧
      ∀ v : ℕ, xs[v]? = (c.vars[v]?).map (attached k (c.gates k).length a b out v)) ∨
    (¬ (a < c.vars.length ∧ b < c.vars.length ∧
      ∃ x : Variable F, c.vars[out]? = some x ∧ x.outputWire = none) ∧
      ∃ e c', c.addBinGate k a b out = (.error e, c')) := by
  unfold addBinGate
  simp only [gates_pushGate, if_true, List.length_append, List.length_singleton,
    Nat.add_sub_cancel]
  rcases attachInput_spec (c.pushGate k ⟨a, b, out⟩) a ⟨k, (c.gates k).length, .left⟩ with
    ⟨ha, x1, h1, l1, g1⟩ | ⟨ha, h1⟩
  · rw [h1]
    simp only
    rcases attachInput_spec ({ c.pushGate k ⟨a, b, out⟩ with vars := x1 } : Circuit F) b
      ⟨k, (c.gates k).length, .right⟩ with ⟨hb, x2, h2, l2, g2⟩ | ⟨hb, h2⟩
    · rw [h2]
      simp only
      simp only [vars_pushGate] at ha l1 g1 hb l2 g2
      rcases attachOutput_spec ({ c.pushGate k ⟨a, b, out⟩ with vars := x2 } : Circuit F) out
        (.bin k (c.gates k).length) with ⟨x, hx, ho, x3, h3, l3, g3⟩ | ⟨hx, e, h3⟩
      · left
        simp only at hx l3 g3 h3
        rw [g2, g1] at hx
        rcases hy : c.vars[out]? with _ | y
        · rw [hy] at hx; cases hx
        rw [hy] at hx
        have hx' := Option.some.inj hx
        refine ⟨ha, by omega, ⟨y, rfl, by rw [← hx'] at ho; exact ho⟩, x3, h3, by omega,
          fun v => ?_⟩
        rw [g3, g2, g1]
        cases c.vars[v]? with
        | none => rfl
        | some z => rfl
      · right
        refine ⟨?_, e, _, h3⟩
        rintro ⟨-, -, y, hy, hn⟩
        simp only at hx
        have := g2 out
        rw [g1, hy] at this
        exact hx _ this hn
    · right
      simp only [vars_pushGate] at hb l1
      exact ⟨by rintro ⟨-, h, -⟩; omega, _, _, by rw [h2]⟩
  · right
    simp only [vars_pushGate] at ha
    exact ⟨by rintro ⟨h, -, -⟩; omega, _, _, by rw [h1]⟩

theorem addConstGate_spec (c : Circuit F) (a : F) (out : ℕ) :
    ((∃ x : Variable F, c.vars[out]? = some x ∧ x.outputWire = none) ∧
      ∃ xs, c.addConstGate a out
        = (.ok (), { c with constGates := c.constGates ++ [⟨out, a⟩], vars := xs }) ∧
      xs.length = c.vars.length ∧
      ∀ v : ℕ, xs[v]? = (c.vars[v]?).map (fun x : Variable F =>
        { x with outputWire := if v = out then some (.const c.constGates.length)
                               else x.outputWire })) ∨
    ((∀ x : Variable F, c.vars[out]? = some x → x.outputWire ≠ none) ∧
      ∃ e c', c.addConstGate a out = (.error e, c')) := by
  unfold addConstGate
  simp only [List.length_append, List.length_singleton, Nat.add_sub_cancel]
  rcases attachOutput_spec ({ c with constGates := c.constGates ++ [⟨out, a⟩] } : Circuit F) out
    (.const c.constGates.length) with ⟨x, hx, ho, xs, h3, l3, g3⟩ | ⟨hx, e, h3⟩
  · left
    exact ⟨⟨x, hx, ho⟩, xs, h3, l3, g3⟩
  · right
    exact ⟨hx, e, _, h3⟩

/-! ### Preservation of `Wired` -/

theorem getElem?_append_one {α : Type} (l : List α) (a : α) (i : ℕ) (x : α) :
    (l ++ [a])[i]? = some x ↔ l[i]? = some x ∨ (i = l.length ∧ x = a) := by
  rcases Nat.lt_trichotomy i l.length with h | h | h
  · rw [List.getElem?_append_left h]; simp; omega
  · subst h; simp; exact eq_comm
  · rw [List.getElem?_append_right (by omega), List.getElem?_eq_none (by simp; omega),
      List.getElem?_eq_none (by omega)]
    simp; omega

theorem carries_pushGate (c : Circuit F) (k : Kind) (g : BinGate) (xs : List (Variable F))
    (w : GateWire) (v : ℕ) :
    Carries ({ c.pushGate k g with vars := xs } : Circuit F) w v ↔
      Carries c w v ∨ (w = .input ⟨k, (c.gates k).length, .left⟩ ∧ v = g.left) ∨
        (w = .input ⟨k, (c.gates k).length, .right⟩ ∧ v = g.right) ∨
        (w = .output (.bin k (c.gates k).length) ∧ v = g.output) := by
  match w with
  | .input ⟨k', i, s⟩ =>
    simp only [Carries, gates_withVars, gates_pushGate]
    by_cases hk : k' = k
    · subst hk
      simp only [if_true, getElem?_append_one]
      cases s <;> simp [port, or_and_right, exists_or] <;> aesop
    · simp [hk]
  | .output (.bin k' i) =>
    simp only [Carries, gates_withVars, gates_pushGate]
    by_cases hk : k' = k
    · subst hk
      simp only [if_true, getElem?_append_one]
      simp [or_and_right, exists_or]; aesop
    · simp [hk]
  | .output (.const i) =>
    simp [Carries]

theorem carries_pushConst (c : Circuit F) (g : ConstGate F) (xs : List (Variable F))
    (w : GateWire) (v : ℕ) :
    Carries ({ c with constGates := c.constGates ++ [g], vars := xs } : Circuit F) w v ↔
      Carries c w v ∨ (w = .output (.const c.constGates.length) ∧ v = g.output) := by
  match w with
  | .input ⟨k', i, s⟩ => cases k' <;> simp [Carries, gates]
  | .output (.bin k' i) => cases k' <;> simp [Carries, gates]
  | .output (.const i) =>
    simp only [Carries, getElem?_append_one]
    simp [or_and_right, exists_or]; aesop

theorem not_carries_new (c : Circuit F) (k : Kind) (s : Side) (v : ℕ) :
    ¬ Carries c (.input ⟨k, (c.gates k).length, s⟩) v := by
  simp [Carries]
theorem not_carries_new_out (c : Circuit F) (k : Kind) (v : ℕ) :
    ¬ Carries c (.output (.bin k (c.gates k).length)) v := by
  simp [Carries]
theorem not_carries_new_const (c : Circuit F) (v : ℕ) :
    ¬ Carries c (.output (.const c.constGates.length)) v := by
  simp [Carries]

theorem wired_bin {c : Circuit F} (hw : Wired c) {k : Kind} {a b out : ℕ} {c' : Circuit F}
    (h : c.addBinGate k a b out = (.ok (), c')) : Wired c' := by
  rcases addBinGate_spec c k a b out with ⟨ha, hb, ⟨y, hy, hyo⟩, xs, h1, hl, hg⟩ | ⟨-, e, c'', h1⟩
  swap
  · rw [h] at h1; cases h1
  rw [h] at h1
  obtain rfl := (Prod.mk.inj h1).2
  have hout : out < c.vars.length := (List.getElem?_eq_some_iff.mp hy).1
  have back : ∀ (v : ℕ) (x : Variable F), xs[v]? = some x → ∃ x0 : Variable F, c.vars[v]? = some x0 ∧
      x = attached k (c.gates k).length a b out v x0 := by
    intro v x hx
    rw [hg] at hx
    rcases h0 : c.vars[v]? with _ | x0
    · rw [h0] at hx; cases hx
    · rw [h0] at hx; exact ⟨x0, rfl, (Option.some.inj hx).symm⟩
  refine ⟨?_, ?_, ?_, ?_⟩
  · intro v x hx w
    obtain ⟨x0, h0, rfl⟩ := back v x hx
    rw [carries_pushGate, ← hw.inputs v x0 h0 w]
    simp only [attached, List.mem_append, GateWire.input.injEq, reduceCtorEq, false_and, or_false]
    by_cases hva : v = a <;> by_cases hvb : v = b <;> simp [hva, hvb, or_assoc]
    all_goals aesop
  · intro v x hx
    obtain ⟨x0, h0, rfl⟩ := back v x hx
    have hn := hw.nodup v x0 h0
    have hL : ∀ s, (⟨k, (c.gates k).length, s⟩ : InputGateWire) ∉ x0.inputWires := fun s hm =>
      not_carries_new c k s v ((hw.inputs v x0 h0 _).mp hm)
    have hLi : ∀ s, ∀ w ∈ x0.inputWires, w ≠ ⟨k, (c.gates k).length, s⟩ := fun s w hm h =>
      hL s (h ▸ hm)
    simp only [attached, List.append_assoc, List.nodup_append]
    refine ⟨hn, ⟨by split_ifs <;> simp, by split_ifs <;> simp, by split_ifs <;> simp⟩, ?_⟩
    intro w hm w' hm'
    rw [List.mem_append] at hm'
    rcases hm' with hm' | hm' <;> split_ifs at hm' <;> simp at hm' <;> subst hm' <;>
      exact hLi _ w hm
  · intro v x hx w
    obtain ⟨x0, h0, rfl⟩ := back v x hx
    rw [carries_pushGate, ← hw.driver v x0 h0 w]
    simp only [attached, reduceCtorEq, false_and, false_or, GateWire.output.injEq]
    by_cases hvo : v = out
    · subst hvo
      rw [h0] at hy
      obtain rfl := Option.some.inj hy
      simp [hyo]; exact eq_comm
    · simp [hvo]
  · intro w v hc
    rw [carries_pushGate] at hc
    simp only [hl]
    rcases hc with hc | ⟨-, rfl⟩ | ⟨-, rfl⟩ | ⟨-, rfl⟩
    · exact hw.range w v hc
    · exact ha
    · exact hb
    · exact hout

theorem wired_const {c : Circuit F} (hw : Wired c) {a : F} {out : ℕ} {c' : Circuit F}
    (h : c.addConstGate a out = (.ok (), c')) : Wired c' := by
  rcases addConstGate_spec c a out with ⟨⟨y, hy, hyo⟩, xs, h1, hl, hg⟩ | ⟨-, e, c'', h1⟩
  swap
  · rw [h] at h1; cases h1
  rw [h] at h1
  obtain rfl := (Prod.mk.inj h1).2
  have hout : out < c.vars.length := (List.getElem?_eq_some_iff.mp hy).1
  have back : ∀ (v : ℕ) (x : Variable F), xs[v]? = some x → ∃ x0 : Variable F, c.vars[v]? = some x0 ∧
      x = { x0 with outputWire := if v = out then some (.const c.constGates.length)
                               else x0.outputWire } := by
    intro v x hx
    rw [hg] at hx
    rcases h0 : c.vars[v]? with _ | x0
    · rw [h0] at hx; cases hx
    · rw [h0] at hx; exact ⟨x0, rfl, (Option.some.inj hx).symm⟩
  refine ⟨?_, ?_, ?_, ?_⟩
  · intro v x hx w
    obtain ⟨x0, h0, rfl⟩ := back v x hx
    rw [carries_pushConst, ← hw.inputs v x0 h0 w]
    simp
  · intro v x hx
    obtain ⟨x0, h0, rfl⟩ := back v x hx
    exact hw.nodup v x0 h0
  · intro v x hx w
    obtain ⟨x0, h0, rfl⟩ := back v x hx
    rw [carries_pushConst, ← hw.driver v x0 h0 w]
    simp only [GateWire.output.injEq]
    by_cases hvo : v = out
    · subst hvo
      rw [h0] at hy
      obtain rfl := Option.some.inj hy
      simp [hyo]; exact eq_comm
    · simp [hvo]
  · intro w v hc
    rw [carries_pushConst] at hc
    simp only [hl]
    rcases hc with hc | ⟨-, rfl⟩
    · exact hw.range w v hc
    · exact hout

/-- `Wired` only depends on the gates and on the wires of the variables. -/
theorem _root_.VO.Spec.Wired.congr {c c' : Circuit F} (hw : Wired c) (hg : ∀ k, c'.gates k = c.gates k)
    (hc : c'.constGates = c.constGates) (hl : c'.vars.length = c.vars.length)
    (hv : ∀ (v : ℕ) (x : Variable F), c'.vars[v]? = some x → ∃ x0 : Variable F, c.vars[v]? = some x0 ∧
      x.inputWires = x0.inputWires ∧ x.outputWire = x0.outputWire) : Wired c' := by
  have hcar : ∀ w v, Carries c' w v ↔ Carries c w v := by
    intro w v
    match w with
    | .input w => simp only [Carries, hg]
    | .output (.bin k i) => simp only [Carries, hg]
    | .output (.const i) => simp only [Carries, hc]
  refine ⟨?_, ?_, ?_, ?_⟩
  · intro v x hx w
    obtain ⟨x0, h0, h1, -⟩ := hv v x hx
    rw [hcar, h1, hw.inputs v x0 h0 w]
  · intro v x hx
    obtain ⟨x0, h0, h1, -⟩ := hv v x hx
    rw [h1]; exact hw.nodup v x0 h0
  · intro v x hx w
    obtain ⟨x0, h0, -, h2⟩ := hv v x hx
    rw [hcar, h2, hw.driver v x0 h0 w]
  · intro w v h
    rw [hcar] at h
    rw [hl]; exact hw.range w v h

theorem wired_newVar {c : Circuit F} (hw : Wired c) : Wired c.addNewVariable.2 := by
  have hcar : ∀ w v, Carries c.addNewVariable.2 w v ↔ Carries c w v := by
    intro w v
    match w with
    | .input ⟨k, i, s⟩ => cases k <;> rfl
    | .output (.bin k i) => cases k <;> rfl
    | .output (.const i) => rfl
  have hv : ∀ v x, c.addNewVariable.2.vars[v]? = some x → c.vars[v]? = some x ∨
      (v = c.vars.length ∧ x = Variable.new) := by
    intro v x hx
    exact (getElem?_append_one _ _ _ _).mp hx
  have hno : ∀ w, ¬ Carries c w c.vars.length := fun w h => by
    have := hw.range w _ h; omega
  refine ⟨?_, ?_, ?_, ?_⟩
  · intro v x hx w
    rw [hcar]
    rcases hv v x hx with h | ⟨rfl, rfl⟩
    · exact hw.inputs v x h w
    · simp [Variable.new, hno]
  · intro v x hx
    rcases hv v x hx with h | ⟨rfl, rfl⟩
    · exact hw.nodup v x h
    · simp [Variable.new]
  · intro v x hx w
    rw [hcar]
    rcases hv v x hx with h | ⟨rfl, rfl⟩
    · exact hw.driver v x h w
    · simp [Variable.new, hno]
  · intro w v h
    rw [hcar] at h
    have := hw.range w v h
    simp [addNewVariable]; omega

theorem wired_new : Wired (Circuit.new : Circuit F) := by
  refine ⟨?_, ?_, ?_, ?_⟩
  · intro v x hx; simp [Circuit.new] at hx
  · intro v x hx; simp [Circuit.new] at hx
  · intro v x hx; simp [Circuit.new] at hx
  · intro w v h
    match w with
    | .input ⟨k, i, s⟩ => cases k <;> simp [Carries, Circuit.new, gates] at h
    | .output (.bin k i) => cases k <;> simp [Carries, Circuit.new, gates] at h
    | .output (.const i) => simp [Carries, Circuit.new] at h

end Circuit
end VO
