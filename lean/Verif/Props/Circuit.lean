import Verif.Lemmas.CircuitCache
import Mathlib.Tactic.NormNum

/-
Property theorems C29-C31: building and evaluating circuits
(`/repo/voproof/src/cs/circuit/fan_in_two.rs`).
-/

set_option linter.unusedSectionVars false

namespace VO
open Spec

variable {F : Type} [Field F] [DecidableEq F]

/-! ## C29: wire structure -/

/-- **C29.** After every history of successful calls (the low-level ones and evaluations
included), every gate wire is listed by exactly the variable it carries, once; a variable's driver
is the one output wire that carries it; gates only mention existing variables. -/
theorem C29_wired (l : List (Call F)) (c : Circuit F) (h : Builds Circuit.new l c) : Wired c :=
  Circuit.builds_wired h Circuit.wired_new

/-- **C29.** Each wire is attached to one variable, each variable has at most one driver. -/
theorem C29_unique (l : List (Call F)) (c : Circuit F) (h : Builds Circuit.new l c) :
    (∀ w, (∃ v, Carries c w v) → ∃! v, Carries c w v) ∧
    (∀ v w w', Carries c (.output w) v → Carries c (.output w') v → w = w') ∧
    (∀ (w : InputGateWire) (v : ℕ), Carries c (.input w) v →
      ∃ x : Variable F, c.vars[v]? = some x ∧ x.inputWires.count w = 1) := by
  have hw := C29_wired l c h
  refine ⟨?_, ?_, ?_⟩
  · rintro w ⟨v, hv⟩
    refine ⟨v, hv, fun v' hv' => ?_⟩
    match w with
    | .input w =>
      obtain ⟨g, h1, rfl⟩ := hv; obtain ⟨g', h1', rfl⟩ := hv'
      rw [h1] at h1'; cases h1'; rfl
    | .output (.bin k i) =>
      obtain ⟨g, h1, rfl⟩ := hv; obtain ⟨g', h1', rfl⟩ := hv'
      rw [h1] at h1'; cases h1'; rfl
    | .output (.const i) =>
      obtain ⟨g, h1, rfl⟩ := hv; obtain ⟨g', h1', rfl⟩ := hv'
      rw [h1] at h1'; cases h1'; rfl
  · intro v w w' h1 h2
    have hv := List.getElem?_eq_getElem (hw.range _ _ h1)
    have e1 := (hw.driver v _ hv w).mpr h1
    have e2 := (hw.driver v _ hv w').mpr h2
    rw [e1] at e2; exact Option.some.inj e2
  · intro w v hc
    have hv := List.getElem?_eq_getElem (hw.range _ _ hc)
    refine ⟨_, hv, List.count_eq_one_of_mem (hw.nodup v _ hv) ((hw.inputs v _ hv w).mpr hc)⟩

/-- **C29.** With the high-level calls, inputs come first, every other variable has a driver, and
the operands of a gate precede its output. -/
theorem C29_ordered (l : List (Call F)) (c : Circuit F) (h : Builds Circuit.new l c)
    (hl : ∀ x ∈ l, HighLevel x) : Ordered c :=
  (Circuit.builds_good h hl Circuit.good_new).1.ordered

/-- A history: `x0 + x1 = y`, `x0 * x1 = 6`, all of it high-level, `y` asserted equal to a
constant. -/
def exCalls : List (Call ℚ) :=
  [.input, .input, .bin .add 0 1, .bin .mul 0 1, .bin .add 1 0, .const 5, .assertEq 2 4,
    .complete, .markPublic 2, .markPublic 0, .evaluate [2, 3]]

theorem builds_of_run {c c' : Circuit F} {l : List (Call F)}
    (h : ∀ l1 x l2, l = l1 ++ x :: l2 → ∀ s, c.run l1 = .ok s → ∀ v ∈ refs x, v < s.vars.length)
    (hr : c.run l = .ok c') : Builds c l c' := by
  induction l generalizing c with
  | nil => obtain rfl := Except.ok.inj hr; exact .nil _
  | cons x l ih =>
    unfold Circuit.run at hr
    split at hr
    · cases hr
    · rename_i c1 h1
      refine .cons (h [] x l rfl c rfl) h1 (ih ?_ hr)
      intro l1 y l2 hl s hs
      refine h (x :: l1) y l2 (by rw [hl]; rfl) s ?_
      unfold Circuit.run
      rw [h1]; exact hs

/-- Decidable version of "every call refers to existing variables and succeeds". -/
def buildsB (c : Circuit F) : List (Call F) → Bool
  | [] => true
  | x :: l => (refs x).all (fun v => decide (v < c.vars.length)) &&
    (match c.step x with
      | .ok c1 => buildsB c1 l
      | .error _ => false)

theorem builds_of_buildsB {c : Circuit F} {l : List (Call F)} (h : buildsB c l = true) :
    ∃ c', Builds c l c' := by
  induction l generalizing c with
  | nil => exact ⟨c, .nil _⟩
  | cons x l ih =>
    unfold buildsB at h
    rw [Bool.and_eq_true] at h
    obtain ⟨h1, h2⟩ := h
    split at h2
    · rename_i c1 hc1
      obtain ⟨c', h'⟩ := ih h2
      exact ⟨c', .cons (fun v hv => by simpa using List.all_eq_true.mp h1 v hv) hc1 h'⟩
    · cases h2

example : ∃ c : Circuit ℚ, Builds Circuit.new exCalls c :=
  builds_of_buildsB (by decide +kernel)
example : ∀ x ∈ exCalls, HighLevel x := by
  intro x hx
  simp only [exCalls, List.mem_cons, List.not_mem_nil, or_false] at hx
  rcases hx with rfl | rfl | rfl | rfl | rfl | rfl | rfl | rfl | rfl | rfl | rfl <;> trivial
/-- A low-level history. -/
example : ∃ c : Circuit ℚ, Builds Circuit.new
    [.input, .newVar, .rawGate .mul 0 0 1, .newVar, .rawConst 3 2, .complete] c :=
  builds_of_buildsB (by decide +kernel)

/-- **C29 (deviation).** A failed `add_add_gate`/`add_mul_gate` is not rolled back: when the output
variable already has a driver, the call reports an error but the gate stays in the gate list (a
gate whose output wire no variable lists). -/
theorem C29_failed_gate_remains (c : Circuit F) (k : Kind) (a b out : ℕ) (x : Variable F)
    (hw : Wired c) (ha : a < c.vars.length) (hb : b < c.vars.length) (hx : c.vars[out]? = some x)
    (ho : x.outputWire ≠ none) :
    (c.addBinGate k a b out).1 = .error .variableAlreadySetAsOutput ∧
    (c.addBinGate k a b out).2.gates k = c.gates k ++ [⟨a, b, out⟩] ∧
    ¬ Wired (c.addBinGate k a b out).2 := by
  have key : ∃ xs y, c.addBinGate k a b out
      = (.error .variableAlreadySetAsOutput, { c.pushGate k ⟨a, b, out⟩ with vars := xs }) ∧
      xs[out]? = some y ∧ y.outputWire = x.outputWire := by
    unfold Circuit.addBinGate
    simp only [Circuit.gates_pushGate, if_true, List.length_append, List.length_singleton,
      Nat.add_sub_cancel]
    rcases Circuit.attachInput_spec (c.pushGate k ⟨a, b, out⟩) a ⟨k, (c.gates k).length, .left⟩ with
      ⟨-, x1, h1, l1, g1⟩ | ⟨ha', h1⟩
    swap
    · simp at ha'; omega
    rw [h1]
    simp only
    simp only [Circuit.vars_pushGate] at l1 g1
    rcases Circuit.attachInput_spec ({ c.pushGate k ⟨a, b, out⟩ with vars := x1 } : Circuit F) b
      ⟨k, (c.gates k).length, .right⟩ with ⟨-, x2, h2, l2, g2⟩ | ⟨hb', h2⟩
    swap
    · simp at hb'; omega
    rw [h2]
    simp only at g2 ⊢
    have hy := g2 out
    rw [g1, hx] at hy
    simp only [Option.map_some] at hy
    refine ⟨x2, _, ?_, hy, rfl⟩
    unfold Circuit.attachOutput
    simp only
    rw [hy]
    simp only
    rw [if_pos (by cases h : x.outputWire with
      | none => exact absurd h ho
      | some w => rfl)]
  obtain ⟨xs, y, h1, hy, hyo⟩ := key
  rw [h1]
  refine ⟨rfl, ?_, ?_⟩
  · simp only [Circuit.gates_withVars, Circuit.gates_pushGate, if_true]
  · intro hw'
    have hc : Carries ({ c.pushGate k ⟨a, b, out⟩ with vars := xs } : Circuit F)
        (.output (.bin k (c.gates k).length)) out :=
      (Circuit.carries_pushGate c k ⟨a, b, out⟩ xs _ _).mpr (.inr (.inr (.inr ⟨rfl, rfl⟩)))
    have h2 := (hw'.driver out y hy _).mpr hc
    rw [hyo] at h2
    exact Circuit.not_carries_new_out c k out ((hw.driver out x hx _).mp h2)

/-! ## C30: caching -/

/-- **C30.** Requesting a sum or product returns a variable that every later request for the same
operands, in either order, returns again without changing the circuit, and whose value after any
later evaluation is the sum or product of the operands' values. -/
theorem C30_bin (l0 l1 : List (Call F)) (s s1 c : Circuit F) (k : Kind) (a b r : ℕ)
    (h0 : Builds Circuit.new l0 s) (hl0 : ∀ x ∈ l0, HighLevel x)
    (ha : a < s.vars.length) (hb : b < s.vars.length) (hr : s.binVars k a b = .ok (r, s1))
    (h1 : Builds s1 l1 c) (hl1 : ∀ x ∈ l1, HighLevel x) :
    c.binVars k a b = .ok (r, c) ∧ c.binVars k b a = .ok (r, c) ∧
    ∀ input c', c.evaluate input = .ok c' → ∃ x y, valueOf c' a = some x ∧ valueOf c' b = some y ∧
      valueOf c' r = some (arith k x y) := by
  have hg := (Circuit.builds_good h0 hl0 Circuit.good_new).1
  obtain ⟨hg1, he1, -, -, -, -, i, hi⟩ := Circuit.binVars_spec hg ha hb hr
  obtain ⟨hgc, hec⟩ := Circuit.builds_good h1 hl1 hg1
  have hcache := (Circuit.builds_cacheExt h1).bin _ _ _ (Circuit.binVars_cacheExt hr).2
  refine ⟨Circuit.binVars_cached hcache,
    Circuit.binVars_cached (by rw [Circuit.normPair_comm]; exact hcache), ?_⟩
  intro input c' hev
  obtain ⟨hc, hlen, -⟩ := Circuit.evaluate_ok_needs hev
  obtain ⟨c'', hev', val, hx, hv⟩ := Circuit.evaluate_execution hgc input hc hlen
  rw [hev] at hev'; cases hev'
  have hva := hv a (by have := he1.vars; have := hec.vars; omega)
  have hvb := hv b (by have := he1.vars; have := hec.vars; omega)
  rcases hi with hi | hi
  · have hgi := hec.gates k i _ hi
    have hvr := hv r (hgc.wired.range (.output (.bin k i)) r ⟨_, hgi, rfl⟩)
    refine ⟨_, _, hva, hvb, ?_⟩
    rw [hvr, hx.bin k i _ hgi]
  · have hgi := hec.gates k i _ hi
    have hvr := hv r (hgc.wired.range (.output (.bin k i)) r ⟨_, hgi, rfl⟩)
    refine ⟨_, _, hva, hvb, ?_⟩
    rw [hvr, hx.bin k i _ hgi]
    cases k
    · exact congrArg some (add_comm _ _)
    · exact congrArg some (mul_comm _ _)

/-- **C30.** A constant variable is shared by all requests for the constant and evaluates to it. -/
theorem C30_const (l0 l1 : List (Call F)) (s s1 c : Circuit F) (a : F) (r : ℕ)
    (h0 : Builds Circuit.new l0 s) (hl0 : ∀ x ∈ l0, HighLevel x)
    (hr : s.constVar a = .ok (r, s1)) (h1 : Builds s1 l1 c) (hl1 : ∀ x ∈ l1, HighLevel x) :
    c.constVar a = .ok (r, c) ∧
    ∀ input c', c.evaluate input = .ok c' → valueOf c' r = some a := by
  have hg := (Circuit.builds_good h0 hl0 Circuit.good_new).1
  obtain ⟨hg1, -, -, -, -, -, i, hi⟩ := Circuit.constVar_spec hg hr
  obtain ⟨hgc, hec⟩ := Circuit.builds_good h1 hl1 hg1
  refine ⟨Circuit.constVar_cached
    ((Circuit.builds_cacheExt h1).const _ _ (Circuit.constVar_cacheExt hr).2), ?_⟩
  intro input c' hev
  obtain ⟨hc, hlen, -⟩ := Circuit.evaluate_ok_needs hev
  obtain ⟨c'', hev', val, hx, hv⟩ := Circuit.evaluate_execution hgc input hc hlen
  rw [hev] at hev'; cases hev'
  have hgi := hec.consts i _ hi
  rw [hv r (hgc.wired.range (.output (.const i)) r ⟨_, hgi, rfl⟩)]
  exact congrArg some (hx.const i _ hgi)

/-- **C30.** The `n`-th requested input variable evaluates to the `n`-th input. -/
theorem C30_input (l0 l1 : List (Call F)) (s s1 c : Circuit F) (r : ℕ)
    (h0 : Builds Circuit.new l0 s) (hl0 : ∀ x ∈ l0, HighLevel x)
    (hr : s.addGlobalInputVariable = .ok (r, s1)) (h1 : Builds s1 l1 c)
    (hl1 : ∀ x ∈ l1, HighLevel x) :
    r = s.numInputs ∧ ∀ input c', c.evaluate input = .ok c' →
      valueOf c' r = input[s.numInputs]? := by
  have hg := (Circuit.builds_good h0 hl0 Circuit.good_new).1
  obtain ⟨hg1, -, rfl, hn1, -, hn, -⟩ := Circuit.good_newInput hg hr
  obtain ⟨hgc, hec⟩ := Circuit.builds_good h1 hl1 hg1
  refine ⟨hn.symm, ?_⟩
  intro input c' hev
  obtain ⟨hc, hlen, -⟩ := Circuit.evaluate_ok_needs hev
  obtain ⟨c'', hev', val, hx, hv⟩ := Circuit.evaluate_execution hgc input hc hlen
  rw [hev] at hev'; cases hev'
  have := hec.inputs
  have hle := hgc.ordered.numInputs_le
  rw [hn, hx.inputs s.vars.length (by omega), hv s.vars.length (by omega)]

/-- Successful requests exist: sum and constant in a two-input circuit. -/
example : ∃ s s1 : Circuit ℚ, ∃ r, Builds Circuit.new [.input, .input] s ∧
    s.binVars .add 0 1 = .ok (r, s1) ∧ ∃ s2 r2, s1.constVar 5 = .ok (r2, s2) :=
  ⟨_, _, _, .cons (by simp [refs]) rfl (.cons (by simp [refs]) rfl (.nil _)), rfl, _, _, rfl⟩

/-! ## C31: evaluation -/

/-- **C31.** `evaluate` succeeds iff the circuit is complete, the number of inputs is right and
every variable that is not an input has a driver, whenever gates are in order (operands before
outputs). -/
theorem C31_succeeds_iff (l : List (Call F)) (c : Circuit F) (h : Builds Circuit.new l c)
    (hb : ∀ (k : Kind) (i : ℕ) (g : BinGate), (c.gates k)[i]? = some g →
      g.left < g.output ∧ g.right < g.output)
    (hn : c.numInputs ≤ c.vars.length) (input : List F) :
    (∃ c', c.evaluate input = .ok c') ↔
      c.outputs ≠ [] ∧ input.length = c.numInputs ∧
        ∀ v, c.numInputs ≤ v → v < c.vars.length → ∃ w, Carries c (.output w) v := by
  have hw := C29_wired l c h
  have hcomp : c.isComplete = true ↔ c.outputs ≠ [] := by
    unfold Circuit.isComplete
    cases c.outputs <;> simp
  constructor
  · rintro ⟨c', hc'⟩
    obtain ⟨h1, h2, h3⟩ := Circuit.evaluate_ok_needs hc'
    refine ⟨hcomp.mp h1, h2, fun v hv1 hv2 => ?_⟩
    obtain ⟨x, hx, ho⟩ := h3 v hv1 hv2
    rcases hw' : x.outputWire with _ | w
    · exact absurd hw' ho
    · exact ⟨w, (hw.driver v x hx w).mp hw'⟩
  · rintro ⟨h1, h2, h3⟩
    obtain ⟨c', hc', -⟩ := Circuit.evaluate_spec input hw hb hn (hcomp.mpr h1) h2 (by
      intro v hv1 hv2
      obtain ⟨w, hcar⟩ := h3 v hv1 hv2
      refine ⟨_, List.getElem?_eq_getElem hv2, ?_⟩
      rw [(hw.driver v _ (List.getElem?_eq_getElem hv2) w).mpr hcar]
      simp)
    exact ⟨c', hc'⟩

/-- **C31.** On a circuit built with the high-level calls, `evaluate` succeeds iff the circuit is
complete and the number of inputs is right, and fails with the corresponding error otherwise. -/
theorem C31_errors (l : List (Call F)) (c : Circuit F) (h : Builds Circuit.new l c)
    (hl : ∀ x ∈ l, HighLevel x) (input : List F) :
    (c.outputs = [] → c.evaluate input = .error .circuitNotComplete) ∧
    (c.outputs ≠ [] → input.length ≠ c.numInputs →
      c.evaluate input = .error (.inputSizeNotSupported c.numInputs input.length)) ∧
    (c.outputs ≠ [] → input.length = c.numInputs → ∃ c', c.evaluate input = .ok c') := by
  have hcomp : c.isComplete = true ↔ c.outputs ≠ [] := by
    unfold Circuit.isComplete
    cases c.outputs <;> simp
  refine ⟨?_, ?_, ?_⟩
  · intro h0
    unfold Circuit.evaluate
    rw [Circuit.assignGlobalInputs_eq, if_neg (by rw [hcomp]; simp [h0])]
    rfl
  · intro h0 h1
    unfold Circuit.evaluate
    rw [Circuit.assignGlobalInputs_eq, if_pos (hcomp.mpr h0), if_neg (Ne.symm h1)]
    rfl
  · intro h0 h1
    obtain ⟨c', hc', -⟩ := Circuit.evaluate_execution
      (Circuit.builds_good h hl Circuit.good_new).1 input (hcomp.mpr h0) h1
    exact ⟨c', hc'⟩

/-- **C31.** A successful evaluation changes nothing but values, and the values are the unique
execution of the circuit on the input: inputs as given, every gate equation true. In particular
they do not depend on values left by earlier evaluations. -/
theorem C31_values (l : List (Call F)) (c c' : Circuit F) (h : Builds Circuit.new l c)
    (hl : ∀ x ∈ l, HighLevel x) (input : List F) (hev : c.evaluate input = .ok c') :
    SameShape c c' ∧ ∃ val, Execution c input val ∧
      (∀ v < c.vars.length, valueOf c' v = some (val v)) ∧
      (∀ val', Execution c input val' → ∀ v < c.vars.length, valueOf c' v = some (val' v)) := by
  have hg := (Circuit.builds_good h hl Circuit.good_new).1
  obtain ⟨hc, hlen, -⟩ := Circuit.evaluate_ok_needs hev
  obtain ⟨c'', hev', val, hx, hv⟩ := Circuit.evaluate_execution hg input hc hlen
  rw [hev] at hev'; cases hev'
  refine ⟨Circuit.evaluate_same hev, val, hx, hv, fun val' hx' v hlt => ?_⟩
  rw [hv v hlt, Circuit.execution_unique hg hx hx' v hlt]

/-- Evaluating a second time on other inputs works and forgets the first values. -/
example :
    ((Circuit.new : Circuit ℚ).run [.input, .input, .bin .add 0 1, .bin .mul 2 0, .complete,
      .evaluate [2, 3]]).map (valueOf · 3) = .ok (some 10) ∧
    ((Circuit.new : Circuit ℚ).run [.input, .input, .bin .add 0 1, .bin .mul 2 0, .complete,
      .evaluate [2, 3], .evaluate [1, 4]]).map (valueOf · 3) = .ok (some 5) := by decide +kernel

end VO
