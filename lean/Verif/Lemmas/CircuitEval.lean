import Verif.Lemmas.CircuitRun

/-
Assigning values and evaluation keep the shape of a circuit; steps keep the invariants.
-/

set_option linter.unusedSectionVars false

namespace VO
open Spec

variable {F : Type} [Field F] [DecidableEq F]

namespace Circuit

theorem _root_.VO.Spec.SameShape.refl (c : Circuit F) : SameShape c c := ⟨rfl, rfl⟩

theorem _root_.VO.Spec.SameShape.trans {c1 c2 c3 : Circuit F} (h : SameShape c1 c2)
    (h' : SameShape c2 c3) : SameShape c1 c3 := by
  refine ⟨?_, h'.2.trans h.2⟩
  rw [h'.1, h.1]

section
variable {c c' : Circuit F} (h : SameShape c c')
include h
theorem _root_.VO.Spec.SameShape.gates (k : Kind) : c'.gates k = c.gates k := by
  rw [h.1, gates_withVars]
theorem _root_.VO.Spec.SameShape.cache (k : Kind) : c'.cache k = c.cache k := by
  rw [h.1, cache_withVars]
theorem _root_.VO.Spec.SameShape.constGates : c'.constGates = c.constGates := by rw [h.1]
theorem _root_.VO.Spec.SameShape.constCache : c'.constCache = c.constCache := by rw [h.1]
theorem _root_.VO.Spec.SameShape.numInputs : c'.numInputs = c.numInputs := by rw [h.1]
theorem _root_.VO.Spec.SameShape.outputs : c'.outputs = c.outputs := by rw [h.1]
theorem _root_.VO.Spec.SameShape.publicIo : c'.publicIo = c.publicIo := by rw [h.1]
theorem _root_.VO.Spec.SameShape.assertEquals : c'.assertEquals = c.assertEquals := by rw [h.1]
theorem _root_.VO.Spec.SameShape.length : c'.vars.length = c.vars.length := by
  have := congrArg List.length h.2
  simpa using this
theorem _root_.VO.Spec.SameShape.back (v : ℕ) (x : Variable F) (hx : c'.vars[v]? = some x) :
    ∃ x0 : Variable F, c.vars[v]? = some x0 ∧ x.inputWires = x0.inputWires ∧
      x.outputWire = x0.outputWire := by
  have h1 := congrArg (fun l => l[v]?) h.2
  simp only [List.getElem?_map, hx, Option.map_some] at h1
  rcases h0 : c.vars[v]? with _ | x0
  · rw [h0] at h1; cases h1
  · rw [h0] at h1
    have := Prod.mk.inj (Option.some.inj h1)
    exact ⟨x0, rfl, this.1, this.2⟩
theorem _root_.VO.Spec.SameShape.forth (v : ℕ) (x0 : Variable F) (hx : c.vars[v]? = some x0) :
    ∃ x : Variable F, c'.vars[v]? = some x ∧ x.inputWires = x0.inputWires ∧
      x.outputWire = x0.outputWire := by
  have h1 := congrArg (fun l => l[v]?) h.2
  simp only [List.getElem?_map, hx, Option.map_some] at h1
  rcases h0 : c'.vars[v]? with _ | x
  · rw [h0] at h1; cases h1
  · rw [h0] at h1
    have := Prod.mk.inj (Option.some.inj h1)
    exact ⟨x, rfl, this.1, this.2⟩
theorem _root_.VO.Spec.SameShape.wired (hw : Wired c) : Wired c' :=
  hw.congr h.gates h.constGates h.length h.back
theorem _root_.VO.Spec.SameShape.good (hg : Good c) : Good c' :=
  hg.congr h.gates h.constGates h.cache h.constCache h.numInputs h.length h.back
theorem _root_.VO.Spec.SameShape.ext : Ext c c' :=
  ⟨fun k i g hg => by rw [h.gates]; exact hg, fun i g hg => by rw [h.constGates]; exact hg,
    h.length.ge, h.numInputs.ge, fun p hp => by rw [h.assertEquals]; exact hp⟩
theorem _root_.VO.Spec.SameShape.carries (w : GateWire) (v : ℕ) :
    Carries c' w v ↔ Carries c w v := by
  match w with
  | .input w => simp only [Carries, h.gates]
  | .output (.bin k i) => simp only [Carries, h.gates]
  | .output (.const i) => simp only [Carries, h.constGates]
end

theorem map_set_same {α β : Type} (f : α → β) (l : List α) (v : ℕ) (x y : α) (hx : l[v]? = some x)
    (hf : f y = f x) : (l.set v y).map f = l.map f := by
  apply List.ext_getElem?
  intro i
  rw [List.getElem?_map, List.getElem?_map]
  by_cases hi : i = v
  · subst hi
    rw [List.getElem?_set_self (List.getElem?_eq_some_iff.mp hx).1, hx]
    simp [hf]
  · rw [List.getElem?_set_ne (Ne.symm hi)]

theorem sameShape_set (c : Circuit F) (v : ℕ) (x : Variable F) (a : Option F)
    (hx : c.vars[v]? = some x) :
    SameShape c { c with vars := c.vars.set v { x with value := a } } :=
  ⟨rfl, map_set_same _ _ _ _ _ hx rfl⟩

theorem setVar_ok {c c' : Circuit F} {v : ℕ} {a : F} (h : c.setVar v a = .ok c') :
    SameShape c c' ∧ v < c.vars.length ∧ valueOf c' v = some a ∧
      ∀ u, u ≠ v → valueOf c' u = valueOf c u := by
  unfold setVar at h
  split at h
  · cases h
  · rename_i x hx
    obtain rfl := Except.ok.inj h
    have hv := (List.getElem?_eq_some_iff.mp hx).1
    refine ⟨sameShape_set c v x _ hx, hv, ?_, ?_⟩
    · simp [valueOf, hv]
    · intro u hu
      simp only [valueOf]
      rw [List.getElem?_set_ne (Ne.symm hu)]

theorem setVar_exists (c : Circuit F) {v : ℕ} (a : F) (h : v < c.vars.length) :
    ∃ c', c.setVar v a = .ok c' := by
  unfold setVar
  rw [List.getElem?_eq_getElem h]
  exact ⟨_, rfl⟩

theorem getVarValue_ok (c : Circuit F) (v : ℕ) (a : F) :
    c.getVarValue v = .ok a ↔ valueOf c v = some a := by
  unfold getVarValue valueOf
  rcases c.vars[v]? with _ | x
  · simp
  · rcases h : x.value with _ | b <;> simp [h]

theorem evalGate_same {c c' : Circuit F} {g : OutputGateWire} (h : c.evalGate g = .ok c') :
    SameShape c c' := by
  unfold evalGate at h
  split at h
  · split at h
    · cases h
    · simp only [bind, Except.bind] at h
      split at h
      · cases h
      · split at h
        · cases h
        · exact (setVar_ok h).1
  · split at h
    · cases h
    · exact (setVar_ok h).1

theorem evaluateGo_same {c c' : Circuit F} (n i : ℕ) (h : c.evaluateGo n i = .ok c') :
    SameShape c c' := by
  induction n generalizing c i with
  | zero =>
    obtain rfl := Except.ok.inj h; exact SameShape.refl _
  | succ n ih =>
    unfold evaluateGo at h
    split at h
    · cases h
    · split at h
      · cases h
      · split at h
        · cases h
        · rename_i c1 h1
          exact (evalGate_same h1).trans (ih _ h)

theorem assignGo_map (l : List F) (xs : List (Variable F)) :
    (assignGo l xs).map (fun x => (x.inputWires, x.outputWire))
      = xs.map (fun x => (x.inputWires, x.outputWire)) := by
  induction l generalizing xs with
  | nil => rfl
  | cons a l ih =>
    cases xs with
    | nil => rfl
    | cons x xs => simp [assignGo, ih]

theorem assignGlobalInputs_eq (c : Circuit F) (l : List F) :
    c.assignGlobalInputs l = if c.isComplete then
      (if c.numInputs = l.length then .ok { c with vars := assignGo l c.vars }
        else .error (.inputSizeNotSupported c.numInputs l.length))
      else .error .circuitNotComplete := by
  unfold assignGlobalInputs assertInputSize getInputSize assertComplete
  by_cases hc : c.isComplete = true <;> by_cases hn : c.numInputs = l.length <;>
    simp [bind, Except.bind, pure, Except.pure, hc, hn]

theorem assignGlobalInputs_ok {c c' : Circuit F} {l : List F}
    (h : c.assignGlobalInputs l = .ok c') :
    SameShape c c' ∧ c.isComplete = true ∧ l.length = c.numInputs ∧
      c' = { c with vars := assignGo l c.vars } := by
  rw [assignGlobalInputs_eq] at h
  split_ifs at h with hc hn
  obtain rfl := Except.ok.inj h
  exact ⟨⟨rfl, assignGo_map _ _⟩, hc, hn.symm, rfl⟩

theorem evaluate_same {c c' : Circuit F} {l : List F} (h : c.evaluate l = .ok c') :
    SameShape c c' := by
  unfold evaluate at h
  simp only [bind, Except.bind] at h
  split at h
  · cases h
  · rename_i c1 h1
    exact (assignGlobalInputs_ok h1).1.trans (evaluateGo_same _ _ h)

theorem assignPublicGo_same {c c' : Circuit F} (l : List (F × GateWire))
    (h : c.assignPublicGo l = .ok c') : SameShape c c' := by
  induction l generalizing c with
  | nil => obtain rfl := Except.ok.inj h; exact SameShape.refl _
  | cons p l ih =>
    obtain ⟨a, w⟩ := p
    simp only [assignPublicGo, bind, Except.bind] at h
    split at h
    · cases h
    · split at h
      · cases h
      · rename_i v _ _ c1 h1
        unfold assignNoOverwrite at h1
        split at h1
        · cases h1
        · rename_i x hx
          split at h1
          · obtain rfl := Except.ok.inj h1
            exact (sameShape_set c v x _ hx).trans (ih h)
          · cases h1

theorem assignPublicIo_same {c c' : Circuit F} {l : List F} (h : c.assignPublicIo l = .ok c') :
    SameShape c c' := by
  unfold assignPublicIo at h
  simp only [bind, Except.bind] at h
  split at h
  · cases h
  · exact assignPublicGo_same _ h

/-! ### Steps -/

theorem markAsComplete_state (c : Circuit F) :
    c.markAsComplete.2 = { c with outputs := c.markAsComplete.2.outputs } := by
  unfold markAsComplete
  split_ifs
  · rfl
  · split
    · rfl
    · simp only
      split_ifs <;> rfl

theorem wired_withOutputs {c : Circuit F} (hw : Wired c) (o : List ℕ) :
    Wired ({ c with outputs := o } : Circuit F) :=
  hw.congr (fun k => by cases k <;> rfl) rfl rfl (fun v x hx => ⟨x, hx, rfl, rfl⟩)

theorem good_withOutputs {c : Circuit F} (hg : Good c) (o : List ℕ) :
    Good ({ c with outputs := o } : Circuit F) :=
  hg.congr (fun k => by cases k <;> rfl) rfl (fun k => by cases k <;> rfl) rfl rfl rfl
    (fun v x hx => ⟨x, hx, rfl, rfl⟩)

theorem ext_withOutputs (c : Circuit F) (o : List ℕ) :
    Ext c ({ c with outputs := o } : Circuit F) :=
  ⟨fun k i g h => by cases k <;> exact h, fun i g h => h, le_rfl, le_rfl, fun p h => h⟩

theorem unwrapS_ok {α : Type} {r : Res α × Circuit F} {c : Circuit F} (h : unwrapS r = .ok c) :
    r.2 = c ∧ ∃ a, r.1 = .ok a := by
  unfold unwrapS at h
  split at h
  · exact ⟨Except.ok.inj h, _, rfl⟩
  · cases h

theorem markVariableAsPublic_state {c c' : Circuit F} {v : ℕ}
    (h : c.markVariableAsPublic v = .ok c') : c' = { c with publicIo := c'.publicIo } := by
  unfold markVariableAsPublic at h
  split at h
  · cases h
  · split at h
    · obtain rfl := Except.ok.inj h; rfl
    · obtain rfl := Except.ok.inj h; rfl
    · cases h

theorem assertEqual_ok {c c' : Circuit F} {a b : ℕ} (h : c.assertEqual a b = .ok c') :
    a ≠ b ∧ c' = { c with assertEquals := c.assertEquals ++ [(a, b)] } := by
  unfold assertEqual at h
  split_ifs at h with hab
  exact ⟨hab, (Except.ok.inj h).symm⟩

theorem map_snd_ok {α : Type} {r : Res (α × Circuit F)} {c : Circuit F}
    (h : r.map Prod.snd = .ok c) : ∃ a, r = .ok (a, c) := by
  cases r with
  | error e => cases h
  | ok p => obtain ⟨a, c1⟩ := p; obtain rfl := Except.ok.inj h; exact ⟨a, rfl⟩

/-- Every successful call keeps the wire bookkeeping exact. -/
theorem step_wired {c c' : Circuit F} (x : Call F) (hw : Wired c)
    (h : c.step x = .ok c') : Wired c' := by
  cases x with
  | input =>
    obtain ⟨r, h⟩ := map_snd_ok h
    unfold addGlobalInputVariable at h
    split at h
    · cases h
    · obtain ⟨-, rfl⟩ := Prod.mk.inj (Except.ok.inj h)
      exact (wired_newVar hw).congr (fun k => by cases k <;> rfl) rfl rfl
        (fun v x hx => ⟨x, hx, rfl, rfl⟩)
  | bin k a b =>
    obtain ⟨r, h⟩ := map_snd_ok h
    unfold binVars at h
    simp only at h
    split at h
    · obtain ⟨-, rfl⟩ := Prod.mk.inj (Except.ok.inj h); exact hw
    · split at h
      · cases h
      · rename_i c1 h1
        obtain ⟨-, rfl⟩ := Prod.mk.inj (Except.ok.inj h)
        have := wired_bin (wired_newVar hw) h1
        exact this.congr (by simp) (by simp) (by simp)
          (fun v x hx => ⟨x, by simpa using hx, rfl, rfl⟩)
  | const v =>
    obtain ⟨r, h⟩ := map_snd_ok h
    unfold constVar at h
    simp only at h
    split at h
    · obtain ⟨-, rfl⟩ := Prod.mk.inj (Except.ok.inj h); exact hw
    · split at h
      · cases h
      · rename_i c1 h1
        obtain ⟨-, rfl⟩ := Prod.mk.inj (Except.ok.inj h)
        have := wired_const (wired_newVar hw) h1
        exact this.congr (fun k => by cases k <;> rfl) rfl rfl
          (fun v x hx => ⟨x, hx, rfl, rfl⟩)
  | assertEq a b =>
    obtain ⟨-, rfl⟩ := assertEqual_ok h
    exact hw.congr (fun k => by cases k <;> rfl) rfl rfl (fun v x hx => ⟨x, hx, rfl, rfl⟩)
  | complete =>
    obtain ⟨rfl, -⟩ := unwrapS_ok h
    rw [markAsComplete_state]
    exact wired_withOutputs hw _
  | tryComplete =>
    obtain rfl := Except.ok.inj h
    rw [markAsComplete_state]
    exact wired_withOutputs hw _
  | markPublic v =>
    rw [markVariableAsPublic_state h]
    exact hw.congr (fun k => by cases k <;> rfl) rfl rfl (fun v x hx => ⟨x, hx, rfl, rfl⟩)
  | assignInputs l => exact (assignGlobalInputs_ok h).1.wired hw
  | assignPublic l => exact (assignPublicIo_same h).wired hw
  | evaluate l => exact (evaluate_same h).wired hw
  | newVar =>
    obtain rfl := Except.ok.inj h
    exact wired_newVar hw
  | rawGate k a b out =>
    obtain ⟨h1, u, h2⟩ := unwrapS_ok h
    refine wired_bin hw (k := k) (a := a) (b := b) (out := out) ?_
    rw [Prod.ext_iff]; exact ⟨h2, h1⟩
  | rawConst v out =>
    obtain ⟨h1, u, h2⟩ := unwrapS_ok h
    refine wired_const hw (a := v) (out := out) ?_
    rw [Prod.ext_iff]; exact ⟨h2, h1⟩

/-- Every successful high-level call keeps the full invariant and extends the circuit. -/
theorem step_good {c c' : Circuit F} (x : Call F) (hx : HighLevel x)
    (hr : ∀ v ∈ refs x, v < c.vars.length) (hg : Good c) (h : c.step x = .ok c') :
    Good c' ∧ Ext c c' := by
  cases x with
  | input =>
    obtain ⟨r, h⟩ := map_snd_ok h
    have := good_newInput hg h
    exact ⟨this.1, this.2.1⟩
  | bin k a b =>
    obtain ⟨r, h⟩ := map_snd_ok h
    have := binVars_spec hg (hr a (by simp [refs])) (hr b (by simp [refs])) h
    exact ⟨this.1, this.2.1⟩
  | const v =>
    obtain ⟨r, h⟩ := map_snd_ok h
    have := constVar_spec hg h
    exact ⟨this.1, this.2.1⟩
  | assertEq a b =>
    obtain ⟨-, rfl⟩ := assertEqual_ok h
    refine ⟨hg.congr (fun k => by cases k <;> rfl) rfl (fun k => by cases k <;> rfl) rfl rfl rfl
      (fun v x hx => ⟨x, hx, rfl, rfl⟩), ⟨fun k i g h => by cases k <;> exact h, fun i g h => h,
      le_rfl, le_rfl, fun p h => by simp [h]⟩⟩
  | complete =>
    obtain ⟨rfl, -⟩ := unwrapS_ok h
    rw [markAsComplete_state]
    exact ⟨good_withOutputs hg _, ext_withOutputs _ _⟩
  | tryComplete =>
    obtain rfl := Except.ok.inj h
    rw [markAsComplete_state]
    exact ⟨good_withOutputs hg _, ext_withOutputs _ _⟩
  | markPublic v =>
    rw [markVariableAsPublic_state h]
    exact ⟨hg.congr (fun k => by cases k <;> rfl) rfl (fun k => by cases k <;> rfl) rfl rfl rfl
      (fun v x hx => ⟨x, hx, rfl, rfl⟩), ⟨fun k i g h => by cases k <;> exact h, fun i g h => h,
      le_rfl, le_rfl, fun p h => h⟩⟩
  | assignInputs l =>
    have := (assignGlobalInputs_ok h).1
    exact ⟨this.good hg, this.ext⟩
  | assignPublic l => exact ⟨(assignPublicIo_same h).good hg, (assignPublicIo_same h).ext⟩
  | evaluate l => exact ⟨(evaluate_same h).good hg, (evaluate_same h).ext⟩
  | newVar => exact hx.elim
  | rawGate k a b out => exact hx.elim
  | rawConst v out => exact hx.elim

theorem builds_wired {c c' : Circuit F} {l : List (Call F)} (h : Builds c l c') (hw : Wired c) :
    Wired c' := by
  induction h with
  | nil c => exact hw
  | cons hr h1 h2 ih => exact ih (step_wired _ hw h1)

theorem builds_good {c c' : Circuit F} {l : List (Call F)} (h : Builds c l c')
    (hl : ∀ x ∈ l, HighLevel x) (hg : Good c) : Good c' ∧ Ext c c' := by
  induction h with
  | nil c => exact ⟨hg, Ext.refl _⟩
  | cons hr h1 h2 ih =>
    obtain ⟨g1, e1⟩ := step_good _ (hl _ (by simp)) hr hg h1
    obtain ⟨g2, e2⟩ := ih (fun x hx => hl x (by simp [hx])) g1
    exact ⟨g2, e1.trans e2⟩

end Circuit

end VO
