import Verif.Props.CircuitPov

/-
Lemmas for C132: reading the values of variables off a POV witness that satisfies only the wiring, and the
wires that represent public variables.
-/

set_option linter.unusedSectionVars false

namespace VO
open Spec

variable {F : Type} [Field F] [DecidableEq F]

namespace Circuit

/-- The public wire of a variable is its driver, or the variable is an input of the circuit. -/
theorem step_publicDriver {c c' : Circuit F} (x : Call F) (hx : HighLevel x) (hg : Good c)
    (hr : ∀ v ∈ refs x, v < c.vars.length) (h : c.step x = .ok c') :
    ∃ ws, c'.publicIo = c.publicIo ++ ws ∧
      List.Forall₂ (fun w v => Carries c' w v ∧ ((∃ o, w = .output o) ∨ v < c'.numInputs)) ws
        (publicVars [x]) := by
  by_cases hm : ∃ v, x = .markPublic v
  · obtain ⟨v, rfl⟩ := hm
    obtain ⟨ws, e, hf⟩ := step_public _ hx hg hr h
    refine ⟨ws, e, ?_⟩
    have hv : publicVars [(.markPublic v : Call F)] = [v] := rfl
    rw [hv] at hf ⊢
    cases hf with
    | cons hwv hrest =>
      cases hrest
      rename_i w
      refine .cons ⟨hwv, ?_⟩ .nil
      have h' : c.markVariableAsPublic v = .ok c' := h
      unfold markVariableAsPublic at h'
      split at h'
      · cases h'
      rename_i y hy
      split at h'
      · rename_i o ho
        obtain rfl := Except.ok.inj h'
        simp only [List.append_cancel_left_eq, List.cons.injEq, and_true] at e
        exact .inl ⟨o, e.symm⟩
      · rename_i o1 o2 h1 h2
        obtain rfl := Except.ok.inj h'
        exact .inr ((hg.ordered.driven v y hy).mp h1)
      · cases h'
  · obtain ⟨ws, e, hf⟩ := step_public _ hx hg hr h
    have hv : publicVars [x] = [] := by
      cases x <;> first | rfl | exact absurd ⟨_, rfl⟩ hm
    rw [hv] at hf ⊢
    cases hf
    exact ⟨[], e, .nil⟩

theorem builds_publicDriver {c c' : Circuit F} {l : List (Call F)} (h : Builds c l c')
    (hl : ∀ x ∈ l, HighLevel x) (hg : Good c) :
    ∃ ws, c'.publicIo = c.publicIo ++ ws ∧
      List.Forall₂ (fun w v => Carries c' w v ∧ ((∃ o, w = .output o) ∨ v < c'.numInputs)) ws
        (publicVars l) := by
  induction h with
  | nil c => exact ⟨[], by simp, by simp [publicVars]⟩
  | @cons c c1 c2 x l hr h1 h2 ih =>
    obtain ⟨ws, e1, f1⟩ := step_publicDriver x (hl _ (by simp)) hg hr h1
    obtain ⟨g1, -⟩ := step_good _ (hl _ (by simp)) hr hg h1
    obtain ⟨ws', e2, f2⟩ := ih (fun x hx => hl x (by simp [hx])) g1
    have hext := (builds_good h2 (fun x hx => hl x (by simp [hx])) g1).2
    refine ⟨ws ++ ws', by rw [e2, e1, List.append_assoc], ?_⟩
    have : publicVars (x :: l) = publicVars [x] ++ publicVars l := by
      unfold publicVars; rw [← List.filterMap_append]; rfl
    rw [this]
    exact List.rel_append (f1.imp (fun a b hab => ⟨hext.carries hab.1,
      hab.2.imp_right (fun hh => lt_of_lt_of_le hh hext.inputs)⟩)) f2

/-- A variable has at most one output wire. -/
theorem output_unique {c : Circuit F} (hw : Wired c) {o o' : OutputGateWire} {v : ℕ}
    (h : Carries c (.output o) v) (h' : Carries c (.output o') v) : o = o' := by
  have hv := hw.range _ _ h
  have hx : c.vars[v]? = some c.vars[v] := List.getElem?_eq_getElem hv
  have h1 := (hw.driver v _ hx o).mpr h
  have h2 := (hw.driver v _ hx o').mpr h'
  exact Option.some.inj (h1.symm.trans h2)

/-- In the final circuit: the public wires, with the constant added at constant positions. -/
theorem public_shift {c : Circuit F} (hg : Good c) {w : GateWire} {v : ℕ} (h : Carries c w v)
    (hd : (∃ o, w = .output o) ∨ v < c.numInputs) :
    (∀ g ∈ c.constGates, g.output = v →
      2 * gateCount c + c.addGates.length + c.mulGates.length ≤ c.getWireGlobalIndex w ∧
      (c.constGates.map (·.value)).getD
        (c.getWireGlobalIndex w - (2 * gateCount c + c.addGates.length + c.mulGates.length)) 0 = g.value) ∧
    ((∀ g ∈ c.constGates, g.output ≠ v) →
      c.getWireGlobalIndex w < 2 * gateCount c + c.addGates.length + c.mulGates.length) := by
  constructor
  · intro g hgm hgv
    obtain ⟨i, hi, hgi⟩ := List.mem_iff_getElem.mp hgm
    have hc : Carries c (.output (.const i)) v := ⟨g, by rw [List.getElem?_eq_getElem hi, hgi], hgv⟩
    have hw : w = .output (.const i) := by
      rcases hd with ⟨o, rfl⟩ | hlt
      · rw [output_unique hg.wired h hc]
      · have hv := hg.wired.range _ _ hc
        have hx : c.vars[v]? = some c.vars[v] := List.getElem?_eq_getElem hv
        have h1 := (hg.wired.driver v _ hx _).mpr hc
        have h2 := (hg.ordered.driven v _ hx).mpr hlt
        rw [h1] at h2; cases h2
    subst hw
    rw [index_eq]
    simp only [column, slot]
    refine ⟨by omega, ?_⟩
    rw [show 2 * gateCount c + (c.mulGates.length + c.addGates.length + i)
        - (2 * gateCount c + c.addGates.length + c.mulGates.length) = i by omega,
      List.getD_eq_getElem?_getD, List.getElem?_map, List.getElem?_eq_getElem hi, hgi]
    rfl
  · intro hno
    have hs := slot_lt h
    rw [index_eq]
    match w with
    | .input ⟨k, i, .left⟩ => simp only [column]; omega
    | .input ⟨k, i, .right⟩ => simp only [column]; omega
    | .output (.bin .mul i) =>
      obtain ⟨g, h1, -⟩ := h
      have : i < c.mulGates.length := (List.getElem?_eq_some_iff.mp h1).1
      simp only [column, slot]; omega
    | .output (.bin .add i) =>
      obtain ⟨g, h1, -⟩ := h
      have : i < c.addGates.length := (List.getElem?_eq_some_iff.mp h1).1
      simp only [column, slot]; omega
    | .output (.const i) =>
      obtain ⟨g, h1, h2⟩ := h
      exact absurd h2 (hno g (List.mem_of_getElem? h1))

/-- The columns at a multiplication gate, read through its wires. -/
theorem mul_columns {c : Circuit F} {wit : POVWitness F} (h0 : wit.w0.length = gateCount c)
    (h1 : wit.w1.length = gateCount c) {i : ℕ} (hi : i < c.mulGates.length) {x y z : F}
    (ex : (povVec wit)[c.getWireGlobalIndex (.input ⟨.mul, i, .left⟩)]? = some x)
    (ey : (povVec wit)[c.getWireGlobalIndex (.input ⟨.mul, i, .right⟩)]? = some y)
    (ez : (povVec wit)[c.getWireGlobalIndex (.output (.bin .mul i))]? = some z) :
    wit.w0.getD i 0 = x ∧ wit.w1.getD i 0 = y ∧ wit.w2.getD i 0 = z := by
  have hN : i < gateCount c := by unfold gateCount; omega
  rw [index_eq, povVec_at wit _ h0 h1 _ _ (by simpa [slot] using hN)] at ex ey ez
  simp only [column, slot, if_true, one_ne_zero, if_false] at ex ey ez
  simp only [OfNat.ofNat_ne_zero, OfNat.ofNat_ne_one, if_false, Nat.sub_self, zero_mul, zero_add] at ez
  simp [List.getD_eq_getElem?_getD, ex, ey, ez]

end Circuit

/-- A witness that satisfies the wiring gives each variable one value, and asserted equalities hold. -/
theorem values_of_wiring (l : List (Call F)) (c : Circuit F) (h : Builds Circuit.new l c)
    (hl : ∀ x ∈ l, HighLevel x) (p : POV F) (hp : POV.ofCircuit c = .ok p) (wit : POVWitness F)
    (hs : PovShape p wit) (hwiring : WiringHolds p wit) :
    ∃ val : ℕ → F, (∀ w v, Carries c w v → (povVec wit)[c.getWireGlobalIndex w]? = some (val v)) ∧
      ∀ q ∈ asserted l, val q.1 = val q.2 := by
  classical
  have hg := (Circuit.builds_good h hl Circuit.good_new).1
  have ha : c.assertEquals = asserted l := by
    rw [Circuit.builds_asserts h]; rfl
  obtain ⟨wires, hwir, rfl⟩ := Circuit.ofCircuit_ok hp
  have hlk : ∀ i j, Linked wires i j → (povVec wit)[i]? = (povVec wit)[j]? := by
    intro i j hij
    induction hij with
    | rel i j hr =>
      obtain ⟨a, e1, e2⟩ := hwiring (i, j) hr
      simp only at e1 e2
      rw [e1, e2]
    | refl i => rfl
    | symm i j _ ih => exact ih.symm
    | trans i j k _ _ h1 h2 => exact h1.trans h2
  have hsame : ∀ w w' v v', Carries c w v → Carries c w' v' → Linked (asserted l) v v' →
      (povVec wit)[c.getWireGlobalIndex w]? = (povVec wit)[c.getWireGlobalIndex w']? := by
    intro w w' v v' c1 c2 hll
    exact hlk _ _ ((C33_linked l c h wires hwir w w' v v' c1 c2).mpr hll)
  have hlen : (povVec wit).length = 3 * gateCount c := by
    obtain ⟨s0, s1, s2⟩ := hs
    simp only [Circuit.getConsts, List.length_map, Circuit.getMulNum, Circuit.getAddNum] at s0 s1 s2
    simp only [povVec, List.length_append, gateCount]
    omega
  let val : ℕ → F := fun v =>
    if hc : ∃ w, Carries c w v then (povVec wit).getD (c.getWireGlobalIndex hc.choose) 0 else 0
  have hval : ∀ w v, Carries c w v → (povVec wit)[c.getWireGlobalIndex w]? = some (val v) := by
    intro w v hc
    have hex : ∃ w, Carries c w v := ⟨w, hc⟩
    have h1 : val v = (povVec wit).getD (c.getWireGlobalIndex hex.choose) 0 := by
      simp only [val]; rw [dif_pos hex]
    have h2 := hsame w hex.choose v v hc hex.choose_spec (.refl _)
    have h3 : c.getWireGlobalIndex hex.choose < (povVec wit).length := by
      rw [hlen]; exact Circuit.index_lt hex.choose_spec
    rw [h2, h1, List.getElem?_eq_getElem h3]
    simp [List.getD, h3]
  refine ⟨val, hval, ?_⟩
  intro q hq
  obtain ⟨⟨w, c1⟩, ⟨w', c2⟩⟩ := Circuit.getWiring_connected hg.wired hwir q (by rw [ha]; exact hq)
  have := hsame w w' q.1 q.2 c1 c2 (.rel _ _ hq)
  rw [hval _ _ c1, hval _ _ c2] at this
  exact Option.some.inj this

/-- The witness made from values that satisfy the asserted equalities satisfies the wiring. -/
theorem wiring_of_values (l : List (Call F)) (c : Circuit F) (h : Builds Circuit.new l c)
    (p : POV F) (hp : POV.ofCircuit c = .ok p) (val : ℕ → F) (hq : ∀ q ∈ asserted l, val q.1 = val q.2) :
    PovShape p (Circuit.witnessOf c val) ∧ WiringHolds p (Circuit.witnessOf c val) := by
  have ha : c.assertEquals = asserted l := by
    rw [Circuit.builds_asserts h]; rfl
  have hw := C29_wired l c h
  obtain ⟨wires, hwir, rfl⟩ := Circuit.ofCircuit_ok hp
  constructor
  · obtain ⟨l0, l1, l2⟩ := Circuit.witnessOf_lengths c val
    have e : gateCount c = c.getMulNum + c.getAddNum + c.getConsts.length := by
      simp [gateCount, Circuit.getConsts, Circuit.getMulNum, Circuit.getAddNum]
    exact ⟨by rw [l0, e], by rw [l1, e], by rw [l2, e]⟩
  · intro r hr
    obtain ⟨w, w', v, v', c1, c2, rfl, hor⟩ := Circuit.wiring_pair hw hwir hr
    refine ⟨val v, Circuit.witnessOf_at val c1, ?_⟩
    simp only
    rw [Circuit.witnessOf_at val c2]
    rcases hor with rfl | hm
    · rfl
    · rw [ha] at hm
      rw [hq _ hm]

end VO
