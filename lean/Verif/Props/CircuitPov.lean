import Verif.Lemmas.CircuitPov
import Verif.Lemmas.WiringForest
import Verif.Props.Circuit
import Verif.Props.Cs
import Verif.Props.Permutation

/-
Property theorems C32-C35: wire indices, wire pairs and the POV system of a circuit
(`/repo/voproof/src/cs/circuit/fan_in_two.rs`, `/repo/voproof/src/cs/pov.rs`).
-/

set_option linter.unusedSectionVars false

namespace VO
open Spec

variable {F : Type} [Field F] [DecidableEq F]

/-! ## C32: wire indices -/

/-- **C32.** The index of a wire is `column * (number of gates) + row`. -/
theorem C32_layout (c : Circuit F) (w : GateWire) :
    c.getWireGlobalIndex w = column w * gateCount c + slot c w := c.index_eq w

/-- **C32.** Distinct wires of a circuit have distinct indices below three times the number of
gates. -/
theorem C32_injective (c : Circuit F) (w w' : GateWire) (v v' : ℕ) (h : Carries c w v)
    (h' : Carries c w' v') :
    c.getWireGlobalIndex w < 3 * gateCount c ∧
    (c.getWireGlobalIndex w = c.getWireGlobalIndex w' → w = w') :=
  ⟨Circuit.index_lt h, Circuit.index_inj h h'⟩

/-- **C32.** Every index below three times the number of gates is the index of a wire, except the
rows of constant gates in the two input columns, which are the index of no wire. -/
theorem C32_onto (c : Circuit F) (i : ℕ) (hi : i < 3 * gateCount c) :
    (∃ w v, Carries c w v ∧ c.getWireGlobalIndex w = i) ↔
      ¬ (c.mulGates.length + c.addGates.length ≤ i % gateCount c ∧ i < 2 * gateCount c) := by
  constructor
  · rintro ⟨w, v, hc, rfl⟩ ⟨h1, h2⟩
    have hs := Circuit.slot_lt hc
    rw [c.index_eq] at h1 h2
    have hmod : (column w * gateCount c + slot c w) % gateCount c = slot c w := by
      rw [Nat.mul_comm, Nat.mul_add_mod, Nat.mod_eq_of_lt hs]
    rw [hmod] at h1
    match w with
    | .input ⟨.mul, j, s⟩ =>
      have := Circuit.mulSlot_lt hc (.inl ⟨s, rfl⟩)
      simp only [slot] at h1; omega
    | .input ⟨.add, j, s⟩ =>
      have := Circuit.addSlot_lt hc (.inl ⟨s, rfl⟩)
      simp only [slot] at h1; omega
    | .output w => simp only [column] at h2; omega
  · exact Circuit.index_surj c i hi

example : ((Circuit.new : Circuit ℚ).run exCalls).map (fun c =>
    (c.getWireGlobalIndex (.input ⟨.add, 0, .right⟩), c.getWireGlobalIndex (.output (.const 0))))
    = .ok (4, 8) := by decide +kernel

/-! ## C33: wire pairs -/

/-- **C33.** The wire pairs connect two wires iff their variables are the same or linked by
asserted equalities. -/
theorem C33_linked (l : List (Call F)) (c : Circuit F) (h : Builds Circuit.new l c)
    (wires : List (ℕ × ℕ)) (hw : c.getWiring = .ok wires) (w w' : GateWire) (v v' : ℕ)
    (hc : Carries c w v) (hc' : Carries c w' v') :
    Linked wires (c.getWireGlobalIndex w) (c.getWireGlobalIndex w') ↔ Linked (asserted l) v v' := by
  have ha : c.assertEquals = asserted l := by
    rw [Circuit.builds_asserts h]; rfl
  rw [Circuit.linked_iff (C29_wired l c h) hw hc hc', EqLinked, ha]

/-- **C33.** `get_wiring` succeeds iff the circuit is complete and both sides of every asserted
equality have a wire; all pairs produced are indices of wires. -/
theorem C33_succeeds_iff (l : List (Call F)) (c : Circuit F) (h : Builds Circuit.new l c) :
    ((∃ wires, c.getWiring = .ok wires) ↔ c.outputs ≠ [] ∧
      ∀ p ∈ asserted l, Connected c p.1 ∧ Connected c p.2) ∧
    ∀ wires, c.getWiring = .ok wires → ∀ p ∈ wires, p.1 < 3 * gateCount c ∧ p.2 < 3 * gateCount c := by
  have ha : c.assertEquals = asserted l := by
    rw [Circuit.builds_asserts h]; rfl
  have hw := C29_wired l c h
  have hcomp : c.isComplete = true ↔ c.outputs ≠ [] := by
    unfold Circuit.isComplete
    cases c.outputs <;> simp
  refine ⟨⟨?_, ?_⟩, ?_⟩
  · rintro ⟨wires, hwi⟩
    refine ⟨hcomp.mp (Circuit.getWiring_ok.mp hwi).1, ?_⟩
    rw [← ha]; exact Circuit.getWiring_connected hw hwi
  · rintro ⟨h1, h2⟩
    exact Circuit.getWiring_exists hw (hcomp.mpr h1) (by rw [ha]; exact h2)
  · intro wires hwi p hp
    obtain ⟨w, w', v, v', c1, c2, rfl, -⟩ := Circuit.wiring_pair hw hwi hp
    exact ⟨Circuit.index_lt c1, Circuit.index_lt c2⟩

/-- **C33.** The wire pairs form a forest (so that, by C11, the permutation built from them
enforces exactly the copy constraints) iff the asserted equalities do. -/
theorem C33_forest (l : List (Call F)) (c : Circuit F) (h : Builds Circuit.new l c)
    (wires : List (ℕ × ℕ)) (hw : c.getWiring = .ok wires) :
    Forest wires ↔ Forest (asserted l) := by
  have ha : c.assertEquals = asserted l := by
    rw [Circuit.builds_asserts h]; rfl
  rw [Circuit.forest_wiring (C29_wired l c h) hw, ha]

example : ((Circuit.new : Circuit ℚ).run exCalls).bind Circuit.getWiring
    = .ok [(1, 0), (4, 3), (7, 8)] := by decide +kernel

/-! ## C34: the honest witness -/

/-- **C34.** After evaluating a circuit, `get_instance` and `get_witness` succeed; the witness
has one entry per gate, satisfies all gates and the instance, and satisfies the wiring iff the
asserted equalities hold for the values; the instance lists the values of the variables made
public, in order. Hence `satisfy` accepts iff the asserted equalities hold. -/
theorem C34_honest (l : List (Call F)) (c c' : Circuit F) (h : Builds Circuit.new l c)
    (hl : ∀ x ∈ l, HighLevel x) (input : List F) (hev : c.evaluate input = .ok c') (p : POV F)
    (hp : POV.ofCircuit c' = .ok p) :
    ∃ ins wit, c'.getInstance = .ok ins ∧ c'.getWitness = .ok wit ∧ PovShape p wit ∧
      GatesHold p wit ∧ InstanceHolds wit ins ∧
      (publicVars l).map (valueOf c') = ins.vals.map some ∧
      (WiringHolds p wit ↔ ∀ q ∈ asserted l, valueOf c' q.1 = valueOf c' q.2) ∧
      (p.satisfy ins wit = .ok true ↔ ∀ q ∈ asserted l, valueOf c' q.1 = valueOf c' q.2) := by
  have hg := (Circuit.builds_good h hl Circuit.good_new).1
  have ha : c.assertEquals = asserted l := by
    rw [Circuit.builds_asserts h]; rfl
  obtain ⟨ws, hpub, hf⟩ := Circuit.builds_public h hl Circuit.good_new
  rw [show (Circuit.new : Circuit F).publicIo = [] from rfl, List.nil_append] at hpub
  have hs := Circuit.evaluate_same hev
  have hw' : Wired c' := hs.wired hg.wired
  obtain ⟨-, val, hx, hv, -⟩ := C31_values l c c' h hl input hev
  have hv' : ∀ v < c'.vars.length, valueOf c' v = some (val v) := by
    intro v hlt; rw [hs.length] at hlt; exact hv v hlt
  obtain ⟨wires, hwir, rfl⟩ := Circuit.ofCircuit_ok hp
  -- the witness
  have hwit := Circuit.getWitness_eq hw' hv'
  set wit := Circuit.witnessOf c' val with hwitdef
  have hshape : PovShape ⟨c'.getConsts, wires, c'.getMulNum, c'.getAddNum⟩ wit := by
    obtain ⟨l0, l1, l2⟩ := Circuit.witnessOf_lengths c' val
    have e : gateCount c' = c'.getMulNum + c'.getAddNum + c'.getConsts.length := by
      simp [gateCount, Circuit.getConsts, Circuit.getMulNum, Circuit.getAddNum]
    exact ⟨by rw [l0, e], by rw [l1, e], by rw [l2, e]⟩
  have hgates : GatesHold ⟨c'.getConsts, wires, c'.getMulNum, c'.getAddNum⟩ wit := by
    rw [Circuit.gatesHold_iff c' wires wit hshape]
    constructor
    · intro k i hi
      have hgi : (c'.gates k)[i]? = some (c'.gates k)[i] := List.getElem?_eq_getElem hi
      refine ⟨_, _, Circuit.witnessOf_at val (w := .input ⟨k, i, .left⟩) ⟨_, hgi, rfl⟩,
        Circuit.witnessOf_at val (w := .input ⟨k, i, .right⟩) ⟨_, hgi, rfl⟩, ?_⟩
      rw [Circuit.witnessOf_at val (w := .output (.bin k i)) ⟨_, hgi, rfl⟩]
      exact congrArg some (hx.bin k i _ (by rw [← hs.gates]; exact hgi))
    · intro i g hgi
      rw [Circuit.witnessOf_at val (w := .output (.const i)) ⟨_, hgi, rfl⟩]
      exact congrArg some (hx.const i _ (by rw [← hs.constGates]; exact hgi))
  have hwiring : WiringHolds ⟨c'.getConsts, wires, c'.getMulNum, c'.getAddNum⟩ wit ↔
      ∀ q ∈ asserted l, valueOf c' q.1 = valueOf c' q.2 := by
    constructor
    · intro hwh q hq
      obtain ⟨-, eqs, he, hwires⟩ := Circuit.getWiring_ok.mp hwir
      obtain ⟨r, hr, h1⟩ := mapM_mem_left _ _ _ he q (by rw [hs.assertEquals, ha]; exact hq)
      obtain ⟨w, w', c1, c2, rfl⟩ := Circuit.assertPair_ok hw' h1
      obtain ⟨a, e1, e2⟩ := hwh _ (by rw [hwires, List.mem_append]; exact .inr hr)
      simp only at e1 e2
      rw [Circuit.witnessOf_at val c1] at e1
      rw [Circuit.witnessOf_at val c2] at e2
      rw [hv' _ (hw'.range _ _ c1), hv' _ (hw'.range _ _ c2), e1, e2]
    · intro hq r hr
      obtain ⟨w, w', v, v', c1, c2, rfl, hor⟩ := Circuit.wiring_pair hw' hwir hr
      refine ⟨val v, Circuit.witnessOf_at val c1, ?_⟩
      simp only
      rw [Circuit.witnessOf_at val c2]
      rcases hor with rfl | hm
      · rfl
      · rw [hs.assertEquals, ha] at hm
        have := hq _ hm
        simp only at this
        rw [hv' _ (hw'.range _ _ c1), hv' _ (hw'.range _ _ c2)] at this
        exact this.symm
  -- the instance
  have hf' : List.Forall₂ (Carries c') c'.publicIo (publicVars l) := by
    rw [hs.publicIo, hpub]
    exact hf.imp (fun w v hwv => (hs.carries w v).mpr hwv)
  have hvw : ∀ w v, Carries c' w v → c'.getWireValue w = .ok (val v) := by
    intro w v hc
    have h1 : c'.getVarFromWire w = .ok v := by
      unfold Circuit.getVarFromWire
      match w with
      | .input ⟨k, i, .left⟩ => obtain ⟨g, h1, rfl⟩ := hc; simp only at h1; simp [h1, port]
      | .input ⟨k, i, .right⟩ => obtain ⟨g, h1, rfl⟩ := hc; simp only at h1; simp [h1, port]
      | .output (.bin k i) => obtain ⟨g, h1, rfl⟩ := hc; simp [h1]
      | .output (.const i) => obtain ⟨g, h1, rfl⟩ := hc; simp [h1]
    unfold Circuit.getWireValue
    rw [h1]
    exact (Circuit.getVarValue_ok c' v _).mpr (hv' v (hw'.range w v hc))
  have hinst : ∀ (pio : List GateWire) (vs : List ℕ), List.Forall₂ (Carries c') pio vs →
      pio.mapM c'.getWireValue = .ok (vs.map val) ∧ (vs.map (valueOf c') = (vs.map val).map some) ∧
      ∀ q ∈ (pio.map c'.getWireGlobalIndex).zip (vs.map val), (povVec wit)[q.1]? = some q.2 := by
    intro pio vs hfa
    induction hfa with
    | nil => exact ⟨rfl, rfl, by simp⟩
    | @cons w v ws vs hwv hrest ih =>
      obtain ⟨i1, i2, i3⟩ := ih
      refine ⟨?_, ?_, ?_⟩
      · rw [mapM_cons_ok]
        exact ⟨_, _, hvw w v hwv, i1, rfl⟩
      · rw [List.map_cons, List.map_cons, List.map_cons, i2, hv' v (hw'.range w v hwv)]
      · intro q hq
        simp only [List.map_cons, List.zip_cons_cons, List.mem_cons] at hq
        rcases hq with rfl | hq
        · exact Circuit.witnessOf_at val hwv
        · exact i3 q hq
  obtain ⟨i1, i2, i3⟩ := hinst _ _ hf'
  have hins : c'.getInstance = .ok ⟨c'.publicIo.map c'.getWireGlobalIndex, (publicVars l).map val⟩ := by
    unfold Circuit.getInstance
    rw [i1]; rfl
  refine ⟨_, _, hins, hwit, hshape, hgates, i3, i2, hwiring, ?_⟩
  rw [(C27_satisfy _ _ wit hshape).1]
  exact ⟨fun hh => hwiring.mp hh.2.1, fun hh => ⟨hgates, hwiring.mpr hh, i3⟩⟩

/-- **C34.** The POV system exists iff the circuit is complete and both sides of every asserted
equality have a wire, and does not depend on the values held by the circuit. -/
theorem C34_system (l : List (Call F)) (c : Circuit F) (h : Builds Circuit.new l c) :
    ((∃ p, POV.ofCircuit c = .ok p) ↔ c.outputs ≠ [] ∧
      ∀ p ∈ asserted l, Connected c p.1 ∧ Connected c p.2) ∧
    (∀ p, POV.ofCircuit c = .ok p → p.nmul = c.mulGates.length ∧ p.nadd = c.addGates.length ∧
      p.consts = c.constGates.map (·.value)) ∧
    ∀ c', SameShape c c' → POV.ofCircuit c' = POV.ofCircuit c := by
  refine ⟨?_, ?_, fun c' hs => Circuit.ofCircuit_sameShape hs⟩
  · rw [← (C33_succeeds_iff l c h).1]
    constructor
    · rintro ⟨p, hp⟩
      obtain ⟨wires, hw, -⟩ := Circuit.ofCircuit_ok hp
      exact ⟨wires, hw⟩
    · rintro ⟨wires, hw⟩
      exact ⟨_, by unfold POV.ofCircuit; rw [hw]⟩
  · intro p hp
    obtain ⟨wires, hw, rfl⟩ := Circuit.ofCircuit_ok hp
    exact ⟨rfl, rfl, rfl⟩

/-- The example circuit: accepted for inputs 2, 3 (sum 5), rejected for 2, 2. -/
example : ((Circuit.new : Circuit ℚ).run exCalls).bind (fun c => do
      let p ← POV.ofCircuit c
      let i ← c.getInstance
      let w ← c.getWitness
      p.satisfy i w) = .ok true ∧
    (((Circuit.new : Circuit ℚ).run (exCalls ++ [.evaluate [2, 2]])).bind (fun c => do
      let p ← POV.ofCircuit c
      let i ← c.getInstance
      let w ← c.getWitness
      p.satisfy i w)) = .ok false := by decide +kernel

/-! ## C35: adversarial witnesses -/

/-- **C35.** Every witness, however it was made, that satisfies the gates and the wiring of the
system derived from a circuit is an honest execution: there are inputs on which the circuit
evaluates to exactly the values the witness holds at all wires, and with these values all asserted
equalities hold. If the witness also satisfies an instance at the public positions, the public
variables have the instance's values. -/
theorem C35_sound (l : List (Call F)) (c : Circuit F) (h : Builds Circuit.new l c)
    (hl : ∀ x ∈ l, HighLevel x) (p : POV F) (hp : POV.ofCircuit c = .ok p) (wit : POVWitness F)
    (hs : PovShape p wit) (hgates : GatesHold p wit) (hwiring : WiringHolds p wit) :
    ∃ input c', c.evaluate input = .ok c' ∧
      (∀ w v, Carries c w v → (povVec wit)[c.getWireGlobalIndex w]? = valueOf c' v) ∧
      (∀ q ∈ asserted l, valueOf c' q.1 = valueOf c' q.2) ∧
      ∀ vals, vals.length = (publicVars l).length →
        InstanceHolds wit ⟨c.publicIo.map c.getWireGlobalIndex, vals⟩ →
        (publicVars l).map (valueOf c') = vals.map some := by
  classical
  have hg := (Circuit.builds_good h hl Circuit.good_new).1
  have ha : c.assertEquals = asserted l := by
    rw [Circuit.builds_asserts h]; rfl
  obtain ⟨ws, hpub, hf⟩ := Circuit.builds_public h hl Circuit.good_new
  rw [show (Circuit.new : Circuit F).publicIo = [] from rfl, List.nil_append] at hpub
  obtain ⟨wires, hwir, rfl⟩ := Circuit.ofCircuit_ok hp
  have hlk : ∀ i j, Linked wires i j → (povVec wit)[i]? = (povVec wit)[j]? := by
    intro i j hij
    induction hij with
    | rel i j hr =>
      obtain ⟨a, e1, e2⟩ := hwiring (i, j) hr
      simp only at e1 e2
      rw [e1, e2]
    | refl i => rfl
    | symm i j _ ih => exact ih.symm
    | trans i j k _ _ h1 h2 => exact h1.trans h2
  have hsame : ∀ w w' v v', Carries c w v → Carries c w' v' → Linked (asserted l) v v' →
      (povVec wit)[c.getWireGlobalIndex w]? = (povVec wit)[c.getWireGlobalIndex w']? := by
    intro w w' v v' c1 c2 hll
    exact hlk _ _ ((C33_linked l c h wires hwir w w' v v' c1 c2).mpr hll)
  have hlen : (povVec wit).length = 3 * gateCount c := by
    obtain ⟨s0, s1, s2⟩ := hs
    simp only [Circuit.getConsts, List.length_map, Circuit.getMulNum, Circuit.getAddNum] at s0 s1 s2
    simp only [povVec, List.length_append, gateCount]
    omega
  -- the value of a variable
  let val : ℕ → F := fun v =>
    if hc : ∃ w, Carries c w v then (povVec wit).getD (c.getWireGlobalIndex hc.choose) 0 else 0
  have hval : ∀ w v, Carries c w v → (povVec wit)[c.getWireGlobalIndex w]? = some (val v) := by
    intro w v hc
    have hex : ∃ w, Carries c w v := ⟨w, hc⟩
    have h1 : val v = (povVec wit).getD (c.getWireGlobalIndex hex.choose) 0 := by
      simp only [val]; rw [dif_pos hex]
    have h2 := hsame w hex.choose v v hc hex.choose_spec (.refl _)
    have h3 : c.getWireGlobalIndex hex.choose < (povVec wit).length := by
      rw [hlen]; exact Circuit.index_lt hex.choose_spec
    rw [h2, h1, List.getElem?_eq_getElem h3]
    simp [List.getD, h3]
  have hex : Execution c ((List.range c.numInputs).map val) val := by
    obtain ⟨g1, g2⟩ := (Circuit.gatesHold_iff c wires wit hs).mp hgates
    refine ⟨?_, ?_, ?_⟩
    · intro i hi
      rw [List.getElem?_map, List.getElem?_range hi]; rfl
    · intro k i g hgi
      obtain ⟨x, y, e1, e2, e3⟩ := g1 k i (List.getElem?_eq_some_iff.mp hgi).1
      rw [hval (.input ⟨k, i, .left⟩) g.left ⟨g, hgi, rfl⟩] at e1
      rw [hval (.input ⟨k, i, .right⟩) g.right ⟨g, hgi, rfl⟩] at e2
      rw [hval (.output (.bin k i)) g.output ⟨g, hgi, rfl⟩] at e3
      rw [Option.some.inj e1, Option.some.inj e2, Option.some.inj e3]
    · intro i g hgi
      have e := g2 i g hgi
      rw [hval (.output (.const i)) g.output ⟨g, hgi, rfl⟩] at e
      exact Option.some.inj e
  obtain ⟨c', hev, val', hx', hv'⟩ := Circuit.evaluate_execution hg ((List.range c.numInputs).map val)
    (Circuit.getWiring_ok.mp hwir).1 (by simp)
  have hvv : ∀ v < c.vars.length, valueOf c' v = some (val v) := by
    intro v hlt
    rw [hv' v hlt, Circuit.execution_unique hg hx' hex v hlt]
  refine ⟨_, c', hev, ?_, ?_, ?_⟩
  · intro w v hc
    rw [hvv v (hg.wired.range w v hc)]
    exact hval w v hc
  · intro q hq
    obtain ⟨⟨w, c1⟩, ⟨w', c2⟩⟩ := Circuit.getWiring_connected hg.wired hwir q (by rw [ha]; exact hq)
    rw [hvv _ (hg.wired.range _ _ c1), hvv _ (hg.wired.range _ _ c2), ← hval _ _ c1, ← hval _ _ c2]
    exact hsame w w' q.1 q.2 c1 c2 (.rel _ _ hq)
  · intro vals hvl hi
    rw [← hpub] at hf
    unfold InstanceHolds at hi
    simp only at hi
    have key : ∀ (pio : List GateWire) (vs : List ℕ) (vals : List F), List.Forall₂ (Carries c) pio vs →
        vals.length = vs.length →
        (∀ q ∈ (pio.map c.getWireGlobalIndex).zip vals, (povVec wit)[q.1]? = some q.2) →
        vs.map (valueOf c') = vals.map some := by
      intro pio vs vals hfa hlen hq
      induction hfa generalizing vals with
      | nil =>
        have : vals = [] := List.eq_nil_of_length_eq_zero (by simpa using hlen)
        subst this; rfl
      | @cons w v ws vs hwv hrest ih =>
        rcases vals with _ | ⟨a, vals⟩
        · simp at hlen
        rw [List.map_cons, List.map_cons, ih vals (by simpa using hlen) (fun q hqm =>
          hq q (by simp only [List.map_cons, List.zip_cons_cons, List.mem_cons]; exact .inr hqm))]
        have h1 := hq (c.getWireGlobalIndex w, a) (by simp)
        simp only at h1
        rw [hval w v hwv] at h1
        rw [hvv v (hg.wired.range w v hwv), h1]
    exact key _ _ vals hf hvl hi

/-- Non-vacuity: a hand-made witness for the example circuit. -/
example : ((Circuit.new : Circuit ℚ).run exCalls).bind (fun c => do
      let p ← POV.ofCircuit c
      p.satisfy ⟨[7, 0], [5, 1]⟩ ⟨[1, 1, 0], [4, 4, 0], [4, 5, 5]⟩) = .ok true := by decide +kernel

end VO
