import Verif.Lemmas.CircuitEval

/-
What `evaluate` computes.
-/

set_option linter.unusedSectionVars false

namespace VO
open Spec

variable {F : Type} [Field F] [DecidableEq F]

namespace Circuit

theorem op_eq (k : Kind) (a b : F) : op k a b = arith k a b := by cases k <;> rfl

theorem valueOf_assignGo (l : List F) (xs : List (Variable F)) (v : ℕ) :
    ((assignGo l xs)[v]?).bind (·.value)
      = if v < l.length then (xs[v]?).bind (fun _ => l[v]?) else (xs[v]?).bind (·.value) := by
  induction l generalizing xs v with
  | nil => simp [assignGo]
  | cons a l ih =>
    cases xs with
    | nil => simp [assignGo]
    | cons x xs =>
      cases v with
      | zero => simp [assignGo]
      | succ v => simp [assignGo, ih xs v]

/-- The equations of the gates whose output is at least `i`. -/
structure GateEqs (c : Circuit F) (i : ℕ) : Prop where
  bin : ∀ (k : Kind) (j : ℕ) (g : BinGate), (c.gates k)[j]? = some g → i ≤ g.output →
    ∃ a b, valueOf c g.left = some a ∧ valueOf c g.right = some b ∧
      valueOf c g.output = some (arith k a b)
  const : ∀ (j : ℕ) (g : ConstGate F), c.constGates[j]? = some g → i ≤ g.output →
    valueOf c g.output = some g.value

theorem evaluateGo_drivers {c c' : Circuit F} (n i : ℕ) (h : c.evaluateGo n i = .ok c') :
    ∀ v, i ≤ v → v < i + n → ∃ x : Variable F, c.vars[v]? = some x ∧ x.outputWire ≠ none := by
  induction n generalizing c i with
  | zero => intro v h1 h2; omega
  | succ n ih =>
    unfold evaluateGo at h
    split at h
    · cases h
    · rename_i x hx
      split at h
      · cases h
      · rename_i g hg
        split at h
        · cases h
        · rename_i c1 h1
          intro v hv1 hv2
          by_cases hv : v = i
          · subst hv; exact ⟨x, hx, by simp [hg]⟩
          · obtain ⟨y, hy, hyo⟩ := ih _ h v (by omega) (by omega)
            obtain ⟨x0, h0, -, ho⟩ := (evalGate_same h1).back v y hy
            exact ⟨x0, h0, by rw [← ho]; exact hyo⟩

theorem evaluateGo_spec {c : Circuit F} (n i : ℕ) (hw : Wired c)
    (hb : ∀ (k : Kind) (j : ℕ) (g : BinGate), (c.gates k)[j]? = some g →
      g.left < g.output ∧ g.right < g.output)
    (hn : i + n = c.vars.length) (hvals : ∀ v < i, ∃ a, valueOf c v = some a)
    (hd : ∀ v, i ≤ v → v < c.vars.length →
      ∃ x : Variable F, c.vars[v]? = some x ∧ x.outputWire ≠ none) :
    ∃ c', c.evaluateGo n i = .ok c' ∧ (∀ v < i, valueOf c' v = valueOf c v) ∧
      (∀ v < c.vars.length, ∃ a, valueOf c' v = some a) ∧ GateEqs c' i := by
  induction n generalizing c i with
  | zero =>
    refine ⟨c, rfl, fun _ _ => rfl, fun v hv => hvals v (by omega), ⟨?_, ?_⟩⟩
    · intro k j g hg ho
      have : Carries c (.output (.bin k j)) g.output := ⟨g, hg, rfl⟩
      have := hw.range _ _ this
      omega
    · intro j g hg ho
      have : Carries c (.output (.const j)) g.output := ⟨g, hg, rfl⟩
      have := hw.range _ _ this
      omega
  | succ n ih =>
    obtain ⟨x, hx, hxo⟩ := hd i le_rfl (by omega)
    rcases ho : x.outputWire with _ | g
    · exact absurd ho hxo
    have hi : i < c.vars.length := by omega
    have hcar := (hw.driver i x hx g).mp ho
    -- the step
    have step : ∃ a c1, c.evalGate g = .ok c1 ∧ valueOf c1 i = some a ∧
        (∀ u, u ≠ i → valueOf c1 u = valueOf c u) ∧
        (∀ k j gg, g = .bin k j → (c.gates k)[j]? = some gg →
          ∃ p q, valueOf c gg.left = some p ∧ valueOf c gg.right = some q ∧ a = arith k p q) ∧
        (∀ j gg, g = .const j → c.constGates[j]? = some gg → a = gg.value) := by
      match g with
      | .bin k j =>
        obtain ⟨gg, hgg, hout⟩ := hcar
        obtain ⟨h1, h2⟩ := hb k j gg hgg
        obtain ⟨p, hp⟩ := hvals gg.left (by omega)
        obtain ⟨q, hq⟩ := hvals gg.right (by omega)
        obtain ⟨c1, hc1⟩ := setVar_exists c (op k p q) (v := gg.output) (by omega)
        refine ⟨op k p q, c1, ?_, ?_, ?_, ?_, ?_⟩
        · unfold evalGate
          simp only [hgg, bind, Except.bind, (getVarValue_ok c _ _).mpr hp,
            (getVarValue_ok c _ _).mpr hq, hc1]
        · rw [← hout]; exact (setVar_ok hc1).2.2.1
        · rw [← hout]; exact (setVar_ok hc1).2.2.2
        · intro k' j' g' he hg'
          cases he
          rw [hgg] at hg'; cases hg'
          exact ⟨p, q, hp, hq, op_eq _ _ _⟩
        · intro j' g' he; cases he
      | .const j =>
        obtain ⟨gg, hgg, hout⟩ := hcar
        obtain ⟨c1, hc1⟩ := setVar_exists c gg.value (v := gg.output) (by omega)
        refine ⟨gg.value, c1, ?_, ?_, ?_, ?_, ?_⟩
        · unfold evalGate
          simp only [hgg, hc1]
        · rw [← hout]; exact (setVar_ok hc1).2.2.1
        · rw [← hout]; exact (setVar_ok hc1).2.2.2
        · intro k' j' g' he; cases he
        · intro j' g' he hg'
          cases he
          rw [hgg] at hg'; cases hg'; rfl
    obtain ⟨a, c1, he, hvi, hvu, hbin, hconst⟩ := step
    have hs := evalGate_same he
    obtain ⟨c', h1, h2, h3, h4⟩ := ih (c := c1) (i + 1) (hs.wired hw)
      (fun k j g hg => hb k j g (by rw [hs.gates] at hg; exact hg)) (by rw [hs.length]; omega)
      (by
        intro v hv
        by_cases hvi' : v = i
        · subst hvi'; exact ⟨a, hvi⟩
        · obtain ⟨b, hb'⟩ := hvals v (by omega)
          exact ⟨b, by rw [hvu v hvi', hb']⟩)
      (by
        intro v hv1 hv2
        rw [hs.length] at hv2
        obtain ⟨y, hy, hyo⟩ := hd v (by omega) hv2
        obtain ⟨z, hz, -, hzo⟩ := hs.forth v y hy
        exact ⟨z, hz, by rw [hzo]; exact hyo⟩)
    have hs' := evaluateGo_same _ _ h1
    refine ⟨c', ?_, ?_, ?_, ⟨?_, ?_⟩⟩
    · unfold evaluateGo
      simp only [hx, ho, he, h1]
    · intro v hv
      rw [h2 v (by omega), hvu v (by omega)]
    · intro v hv
      exact h3 v (by rw [hs.length]; exact hv)
    · intro k j gg hgg hle
      by_cases hout : gg.output = i
      · have hgg0 : (c.gates k)[j]? = some gg := by
          rw [hs'.gates, hs.gates] at hgg; exact hgg
        have : g = .bin k j := by
          have hc : Carries c (.output (.bin k j)) i := ⟨gg, hgg0, hout⟩
          have := (hw.driver i x hx (.bin k j)).mpr hc
          rw [ho] at this; exact Option.some.inj this
        obtain ⟨p, q, hp, hq, rfl⟩ := hbin k j gg this hgg0
        obtain ⟨hl, hr⟩ := hb k j gg hgg0
        refine ⟨p, q, ?_, ?_, ?_⟩
        · rw [h2 _ (by omega), hvu _ (by omega), hp]
        · rw [h2 _ (by omega), hvu _ (by omega), hq]
        · rw [hout, h2 _ (by omega), hvi]
      · exact h4.bin k j gg hgg (by omega)
    · intro j gg hgg hle
      by_cases hout : gg.output = i
      · have hgg0 : c.constGates[j]? = some gg := by
          rw [hs'.constGates, hs.constGates] at hgg; exact hgg
        have : g = .const j := by
          have hc : Carries c (.output (.const j)) i := ⟨gg, hgg0, hout⟩
          have := (hw.driver i x hx (.const j)).mpr hc
          rw [ho] at this; exact Option.some.inj this
        rw [hout, h2 _ (by omega), hvi, hconst j gg this hgg0]
      · exact h4.const j gg hgg (by omega)

/-- `evaluate` on an ordered circuit. -/
theorem evaluate_spec {c : Circuit F} (input : List F) (hw : Wired c)
    (hb : ∀ (k : Kind) (j : ℕ) (g : BinGate), (c.gates k)[j]? = some g →
      g.left < g.output ∧ g.right < g.output)
    (hn : c.numInputs ≤ c.vars.length) (hc : c.isComplete = true)
    (hi : input.length = c.numInputs)
    (hd : ∀ v, c.numInputs ≤ v → v < c.vars.length →
      ∃ x : Variable F, c.vars[v]? = some x ∧ x.outputWire ≠ none) :
    ∃ c', c.evaluate input = .ok c' ∧ (∀ v < c.numInputs, valueOf c' v = input[v]?) ∧
      (∀ v < c.vars.length, ∃ a, valueOf c' v = some a) ∧ GateEqs c' c.numInputs := by
  have hs : SameShape c { c with vars := assignGo input c.vars } := ⟨rfl, assignGo_map _ _⟩
  have hv0 : ∀ v < c.numInputs,
      valueOf ({ c with vars := assignGo input c.vars } : Circuit F) v = input[v]? := by
    intro v hv
    have := valueOf_assignGo input c.vars v
    rw [if_pos (by omega), List.getElem?_eq_getElem (by omega : v < c.vars.length)] at this
    exact this
  obtain ⟨c', h1, h2, h3, h4⟩ := evaluateGo_spec (c := { c with vars := assignGo input c.vars })
    (c.vars.length - input.length) input.length (hs.wired hw)
    (fun k j g hg => hb k j g (by rw [hs.gates] at hg; exact hg))
    (by rw [hs.length]; omega)
    (by
      intro v hv
      rw [hv0 v (by omega)]
      exact ⟨_, List.getElem?_eq_getElem hv⟩)
    (by
      intro v hv1 hv2
      rw [hs.length] at hv2
      obtain ⟨y, hy, hyo⟩ := hd v (by omega) hv2
      obtain ⟨z, hz, -, hzo⟩ := hs.forth v y hy
      exact ⟨z, hz, by rw [hzo]; exact hyo⟩)
  refine ⟨c', ?_, ?_, ?_, ?_⟩
  · unfold evaluate
    rw [assignGlobalInputs_eq, if_pos hc, if_pos hi.symm]
    simp only [bind, Except.bind]
    have hl := hs.length
    simp only at hl
    rw [hl]
    exact h1
  · intro v hv
    rw [h2 v (by omega), hv0 v hv]
  · intro v hv
    exact h3 v (by rw [hs.length]; exact hv)
  · rw [← hi]; exact h4

theorem evaluate_ok_needs {c c' : Circuit F} {input : List F} (h : c.evaluate input = .ok c') :
    c.isComplete = true ∧ input.length = c.numInputs ∧
      ∀ v, c.numInputs ≤ v → v < c.vars.length →
        ∃ x : Variable F, c.vars[v]? = some x ∧ x.outputWire ≠ none := by
  unfold evaluate at h
  simp only [bind, Except.bind] at h
  split at h
  · cases h
  · rename_i c1 h1
    obtain ⟨hs, hc, hl, -⟩ := assignGlobalInputs_ok h1
    refine ⟨hc, hl, fun v hv1 hv2 => ?_⟩
    have hlen := hs.length
    obtain ⟨y, hy, hyo⟩ := evaluateGo_drivers _ _ h v (by omega) (by omega)
    obtain ⟨x0, h0, -, ho⟩ := hs.back v y hy
    exact ⟨x0, h0, by rw [← ho]; exact hyo⟩

/-- In a well-wired ordered circuit, gate equations and inputs determine all values. -/
theorem execution_unique {c : Circuit F} (hg : Good c) {input : List F} {val val' : ℕ → F}
    (h : Execution c input val) (h' : Execution c input val') :
    ∀ v < c.vars.length, val v = val' v := by
  intro v
  induction v using Nat.strong_induction_on with
  | _ v ih =>
    intro hv
    have hx := List.getElem?_eq_getElem hv
    rcases ho : (c.vars[v]).outputWire with _ | w
    · have := (hg.ordered.driven v _ hx).mp ho
      have h1 := h.inputs v this
      have h2 := h'.inputs v this
      rw [h1] at h2; exact Option.some.inj h2
    · have hc := (hg.wired.driver v _ hx w).mp ho
      match w with
      | .bin k j =>
        obtain ⟨g, hgg, hout⟩ := hc
        obtain ⟨hl, hr⟩ := hg.ordered.before k j g hgg
        have h1 := h.bin k j g hgg
        have h2 := h'.bin k j g hgg
        rw [hout] at h1 h2 hl hr
        rw [h1, h2, ih g.left hl (by omega), ih g.right hr (by omega)]
      | .const j =>
        obtain ⟨g, hgg, hout⟩ := hc
        have h1 := h.const j g hgg
        have h2 := h'.const j g hgg
        rw [hout] at h1 h2
        rw [h1, h2]

/-- The values after evaluation are the execution. -/
theorem evaluate_execution {c : Circuit F} (hg : Good c) (input : List F)
    (hc : c.isComplete = true) (hi : input.length = c.numInputs) :
    ∃ c', c.evaluate input = .ok c' ∧ ∃ val, Execution c input val ∧
      ∀ v < c.vars.length, valueOf c' v = some (val v) := by
  obtain ⟨c', h1, h2, h3, h4⟩ := evaluate_spec input hg.wired hg.ordered.before
    hg.ordered.numInputs_le hc hi (by
      intro v hv1 hv2
      refine ⟨_, List.getElem?_eq_getElem hv2, fun hn => ?_⟩
      have := (hg.ordered.driven v _ (List.getElem?_eq_getElem hv2)).mp hn
      omega)
  have hs := evaluate_same h1
  have hval : ∀ v < c.vars.length, valueOf c' v = some ((valueOf c' v).getD 0) := by
    intro v hv
    obtain ⟨a, ha⟩ := h3 v hv
    rw [ha]; rfl
  have hno : ∀ w v, Carries c (.output w) v → c.numInputs ≤ v := by
    intro w v hcar
    have hv := hg.wired.range _ _ hcar
    have hd := (hg.wired.driver v _ (List.getElem?_eq_getElem hv) w).mpr hcar
    by_contra hlt
    have := (hg.ordered.driven v _ (List.getElem?_eq_getElem hv)).mpr (by omega)
    rw [this] at hd; cases hd
  refine ⟨c', h1, fun v => (valueOf c' v).getD 0, ⟨?_, ?_, ?_⟩, hval⟩
  · intro i hi'
    have hle := hg.ordered.numInputs_le
    rw [← h2 i hi']
    exact hval i (by omega)
  · intro k i g hgi
    obtain ⟨a, b, e1, e2, e3⟩ := h4.bin k i g (by rw [hs.gates]; exact hgi)
      (hno (.bin k i) _ ⟨g, hgi, rfl⟩)
    simp [e1, e2, e3]
  · intro i g hgi
    have := h4.const i g (by rw [hs.constGates]; exact hgi) (hno (.const i) _ ⟨g, hgi, rfl⟩)
    simp [this]

end Circuit

end VO
