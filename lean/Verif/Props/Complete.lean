import Verif.Props.CircuitPov

/-
Property theorems C52: completing a circuit and reading its outputs
(`/repo/voproof/src/cs/circuit/fan_in_two.rs`).
-/

set_option linter.unusedSectionVars false

namespace VO
open Spec

variable {F : Type} [Field F] [DecidableEq F]

namespace Circuit

/-- Indices, counted from `i`, of the variables that feed no gate. -/
def unusedFrom : ℕ → List (Variable F) → List ℕ
  | _, [] => []
  | i, x :: l => (if x.inputWires.isEmpty then [i] else []) ++ unusedFrom (i + 1) l

theorem completeGo_ok (i : ℕ) (l : List (Variable F)) (outs : List ℕ)
    (h : ∀ x ∈ l, ¬ (x.inputWires.isEmpty ∧ ¬ x.outputWire.isSome)) :
    completeGo i l outs = (.ok (), outs ++ unusedFrom i l) := by
  induction l generalizing i outs with
  | nil => simp [completeGo, unusedFrom]
  | cons x l ih =>
    unfold completeGo unusedFrom
    rw [if_neg (h x (by simp)), ih _ _ (fun y hy => h y (by simp [hy]))]
    split_ifs <;> simp

theorem completeGo_bad (i : ℕ) (l : List (Variable F)) (outs : List ℕ)
    (h : ∃ x ∈ l, x.inputWires.isEmpty ∧ ¬ x.outputWire.isSome) :
    ∃ j, (∃ x : Variable F, l[j]? = some x ∧ x.inputWires.isEmpty ∧ ¬ x.outputWire.isSome) ∧
      (∀ k < j, ∃ x : Variable F, l[k]? = some x ∧ ¬ (x.inputWires.isEmpty ∧ ¬ x.outputWire.isSome)) ∧
      completeGo i l outs = (.error (.variableNotConnected (i + j)), outs ++ unusedFrom i (l.take j)) := by
  induction l generalizing i outs with
  | nil => simp at h
  | cons x l ih =>
    by_cases hx : x.inputWires.isEmpty ∧ ¬ x.outputWire.isSome
    · refine ⟨0, ⟨x, rfl, hx⟩, by simp, ?_⟩
      unfold completeGo
      rw [if_pos hx]; simp [unusedFrom]
    · obtain ⟨y, hy, hyy⟩ := h
      have hy' : y ∈ l := by
        rcases List.mem_cons.mp hy with rfl | h
        · exact absurd hyy hx
        · exact h
      obtain ⟨j, h1, h2, h3⟩ := ih (i + 1) (if x.inputWires.isEmpty then outs ++ [i] else outs)
        ⟨y, hy', hyy⟩
      refine ⟨j + 1, by simpa using h1, ?_, ?_⟩
      · intro k hk
        cases k with
        | zero => exact ⟨x, rfl, hx⟩
        | succ k => simpa using h2 k (by omega)
      · unfold completeGo
        rw [if_neg hx, h3, List.take_succ_cons, unusedFrom]
        rw [show i + 1 + j = i + (j + 1) by omega]
        split_ifs <;> simp

theorem unusedFrom_mem (i : ℕ) (l : List (Variable F)) (v : ℕ) :
    v ∈ unusedFrom i l ↔ i ≤ v ∧ ∃ x : Variable F, l[v - i]? = some x ∧ x.inputWires = [] := by
  induction l generalizing i with
  | nil => simp [unusedFrom]
  | cons x l ih =>
    unfold unusedFrom
    rw [List.mem_append, ih]
    rcases Nat.lt_trichotomy v i with h | h | h
    · have : ¬ i ≤ v := by omega
      have : ¬ i + 1 ≤ v := by omega
      split_ifs <;> simp <;> omega
    · subst h
      have : ¬ v + 1 ≤ v := by omega
      rcases hx : x.inputWires with _ | ⟨w, ws⟩ <;> simp [hx]
    · obtain ⟨d, rfl⟩ : ∃ d, v = i + 1 + d := ⟨v - i - 1, by omega⟩
      have e1 : i + 1 + d - i = d + 1 := by omega
      have e2 : i + 1 + d - (i + 1) = d := by omega
      have e3 : i + 1 + d ≠ i := by omega
      rw [e1, e2, List.getElem?_cons_succ]
      split_ifs <;> simp [e3] <;> omega

theorem unusedFrom_lt (i : ℕ) (l : List (Variable F)) :
    ∀ v ∈ unusedFrom i l, i ≤ v ∧ v < i + l.length := by
  intro v hv
  obtain ⟨h1, x, hx, -⟩ := (unusedFrom_mem i l v).mp hv
  have := (List.getElem?_eq_some_iff.mp hx).1
  omega

theorem unusedFrom_sorted (i : ℕ) (l : List (Variable F)) :
    (unusedFrom i l).Pairwise (· < ·) := by
  induction l generalizing i with
  | nil => simp [unusedFrom]
  | cons x l ih =>
    unfold unusedFrom
    rw [List.pairwise_append]
    refine ⟨by split_ifs <;> simp, ih _, ?_⟩
    intro a ha b hb
    have := (unusedFrom_lt _ _ b hb).1
    split_ifs at ha
    · simp at ha; omega
    · simp at ha

theorem unconnected_iff {c : Circuit F} (hw : Wired c) {v : ℕ} {x : Variable F}
    (hx : c.vars[v]? = some x) :
    (x.inputWires.isEmpty ∧ ¬ x.outputWire.isSome) ↔ ¬ Connected c v := by
  constructor
  · rintro ⟨h1, h2⟩ ⟨w, hc⟩
    have := (mem_wiresOf hw hx w).mpr hc
    rw [List.isEmpty_iff] at h1
    unfold wiresOf at this
    rw [h1] at this
    cases ho : x.outputWire with
    | none => rw [ho] at this; simp at this
    | some w => rw [ho] at h2; simp at h2
  · intro h
    rcases hi : x.inputWires with _ | ⟨w, ws⟩
    · refine ⟨rfl, ?_⟩
      cases ho : x.outputWire with
      | none => simp
      | some w => exact absurd ⟨.output w, (hw.driver v x hx w).mp ho⟩ h
    · exact absurd ⟨.input w, (hw.inputs v x hx w).mp (by rw [hi]; simp)⟩ h

theorem unused_iff {c : Circuit F} (hw : Wired c) {v : ℕ} {x : Variable F}
    (hx : c.vars[v]? = some x) : x.inputWires = [] ↔ ∀ w, ¬ Carries c (.input w) v := by
  constructor
  · intro h w hc
    have := (hw.inputs v x hx w).mpr hc
    rw [h] at this; cases this
  · intro h
    rcases hi : x.inputWires with _ | ⟨w, ws⟩
    · rfl
    · exact absurd ((hw.inputs v x hx w).mp (by rw [hi]; simp)) (h w)

theorem markAsComplete_connected {c : Circuit F} (hn : 0 < c.numInputs) (hw : Wired c)
    (h : ∀ v < c.vars.length, Connected c v) :
    c.markAsComplete = (if c.outputs ++ unusedFrom 0 c.vars = [] then .error .allVariablesAreInputs
      else .ok (), { c with outputs := c.outputs ++ unusedFrom 0 c.vars }) := by
  unfold markAsComplete
  rw [if_neg (by omega), completeGo_ok]
  · simp only [isComplete]
    rcases c.outputs ++ unusedFrom 0 c.vars with _ | ⟨a, l⟩ <;> simp
  · intro x hx hbad
    obtain ⟨v, hv, hxv⟩ := List.mem_iff_getElem.mp hx
    exact (unconnected_iff hw (by rw [List.getElem?_eq_getElem hv, hxv])).mp hbad (h v hv)

theorem markAsComplete_unconnected {c : Circuit F} (hn : 0 < c.numInputs) (hw : Wired c)
    (h : ¬ ∀ v < c.vars.length, Connected c v) :
    ∃ j < c.vars.length, ¬ Connected c j ∧ (∀ v < j, Connected c v) ∧
      c.markAsComplete = (.error (.variableNotConnected j),
        { c with outputs := c.outputs ++ unusedFrom 0 (c.vars.take j) }) := by
  push Not at h
  obtain ⟨v, hv, hc⟩ := h
  obtain ⟨j, ⟨x, hx, h1⟩, h2, h3⟩ := completeGo_bad 0 c.vars c.outputs
    ⟨_, List.getElem_mem hv, (unconnected_iff hw (List.getElem?_eq_getElem hv)).mpr hc⟩
  refine ⟨j, (List.getElem?_eq_some_iff.mp hx).1, (unconnected_iff hw hx).mp h1, ?_, ?_⟩
  · intro v hvj
    obtain ⟨y, hy, hyy⟩ := h2 v hvj
    by_contra hcon
    exact hyy ((unconnected_iff hw hy).mpr hcon)
  · unfold markAsComplete
    rw [if_neg (by omega), h3]
    simp

theorem completeGo_lt (i : ℕ) (l : List (Variable F)) (outs : List ℕ) (n : ℕ)
    (h : ∀ v ∈ outs, v < n) (hn : i + l.length ≤ n) : ∀ v ∈ (completeGo i l outs).2, v < n := by
  induction l generalizing i outs with
  | nil => simpa [completeGo] using h
  | cons x l ih =>
    rw [List.length_cons] at hn
    unfold completeGo
    split_ifs
    · exact h
    · apply ih _ _ _ (by omega)
      intro v hv
      rcases List.mem_append.mp hv with hv | hv
      · exact h v hv
      · simp at hv; omega
    · exact ih _ _ h (by omega)

theorem markAsComplete_lt {c : Circuit F} (h : ∀ v ∈ c.outputs, v < c.vars.length) :
    ∀ v ∈ c.markAsComplete.2.outputs, v < c.vars.length := by
  have := completeGo_lt 0 c.vars c.outputs c.vars.length h (by omega)
  unfold markAsComplete
  split_ifs
  · exact h
  · split
    · rename_i e outs he
      rw [he] at this; exact this
    · rename_i outs he
      rw [he] at this
      simp only
      split_ifs <;> exact this

theorem step_outputs {c c' : Circuit F} (x : Call F) (hx : HighLevel x)
    (hr : ∀ v ∈ refs x, v < c.vars.length) (hg : Good c) (h : c.step x = .ok c')
    (ho : ∀ v ∈ c.outputs, v < c.vars.length) : ∀ v ∈ c'.outputs, v < c'.vars.length := by
  have hext := (step_good x hx hr hg h).2.vars
  have same : c'.outputs = c.outputs → ∀ v ∈ c'.outputs, v < c'.vars.length := by
    intro e v hv; rw [e] at hv; have := ho v hv; omega
  cases x with
  | input =>
    obtain ⟨r, h⟩ := map_snd_ok h
    exact same (good_newInput hg h).2.2.2.2.2.2.2.2.2.2
  | bin k a b =>
    obtain ⟨r, h⟩ := map_snd_ok h
    exact same (binVars_spec hg (hr a (by simp [refs])) (hr b (by simp [refs])) h).2.2.2.2.1
  | const v =>
    obtain ⟨r, h⟩ := map_snd_ok h
    exact same (constVar_spec hg h).2.2.2.2.1
  | assertEq a b => obtain ⟨-, rfl⟩ := assertEqual_ok h; exact same rfl
  | complete =>
    obtain ⟨rfl, -⟩ := unwrapS_ok h
    intro v hv
    have := markAsComplete_lt ho v hv
    omega
  | tryComplete =>
    obtain rfl := Except.ok.inj h
    intro v hv
    have := markAsComplete_lt ho v hv
    omega
  | markPublic v => exact same (by rw [markVariableAsPublic_state h])
  | assignInputs l => exact same (assignGlobalInputs_ok h).1.outputs
  | assignPublic l => exact same (assignPublicIo_same h).outputs
  | evaluate l => exact same (evaluate_same h).outputs
  | newVar => exact hx.elim
  | rawGate k a b out => exact hx.elim
  | rawConst v out => exact hx.elim

theorem builds_outputs {c c' : Circuit F} {l : List (Call F)} (h : Builds c l c')
    (hl : ∀ x ∈ l, HighLevel x) (hg : Good c) (ho : ∀ v ∈ c.outputs, v < c.vars.length) :
    ∀ v ∈ c'.outputs, v < c'.vars.length := by
  induction h with
  | nil c => exact ho
  | cons hr h1 h2 ih =>
    exact ih (fun x hx => hl x (by simp [hx])) (step_good _ (hl _ (by simp)) hr hg h1).1
      (step_outputs _ (hl _ (by simp)) hr hg h1 ho)

end Circuit

/-- **C52.** `mark_as_complete` on a circuit not completed before succeeds iff there is an input,
every variable has a wire and some variable feeds no gate. It then records exactly the variables
that feed no gate, in increasing order, as outputs, and changes nothing else. -/
theorem C52_complete (l : List (Call F)) (c : Circuit F) (h : Builds Circuit.new l c)
    (h0 : c.outputs = []) :
    (c.markAsComplete.1 = .ok () ↔ 0 < c.numInputs ∧ (∀ v < c.vars.length, Connected c v) ∧
      ∃ v < c.vars.length, ∀ w, ¬ Carries c (.input w) v) ∧
    (c.markAsComplete.1 = .ok () → ∃ outs, c.markAsComplete.2 = { c with outputs := outs } ∧
      outs.Pairwise (· < ·) ∧
      ∀ v, v ∈ outs ↔ v < c.vars.length ∧ ∀ w, ¬ Carries c (.input w) v) := by
  have hw := C29_wired l c h
  have hmem : ∀ v, v ∈ Circuit.unusedFrom 0 c.vars ↔
      v < c.vars.length ∧ ∀ w, ¬ Carries c (.input w) v := by
    intro v
    rw [Circuit.unusedFrom_mem]
    constructor
    · rintro ⟨-, x, hx, hi⟩
      rw [Nat.sub_zero] at hx
      exact ⟨(List.getElem?_eq_some_iff.mp hx).1, (Circuit.unused_iff hw hx).mp hi⟩
    · rintro ⟨hv, hi⟩
      have hx := List.getElem?_eq_getElem hv
      exact ⟨Nat.zero_le _, _, by rw [Nat.sub_zero]; exact hx, (Circuit.unused_iff hw hx).mpr hi⟩
  by_cases hn : 0 < c.numInputs
  swap
  · have : c.markAsComplete = (.error .circuitHasNoGlobalInput, c) := by
      unfold Circuit.markAsComplete; rw [if_pos (by omega)]
    rw [this]
    simp [hn]
  by_cases hcon : ∀ v < c.vars.length, Connected c v
  · rw [Circuit.markAsComplete_connected hn hw hcon, h0, List.nil_append]
    constructor
    · simp only
      rcases hu : Circuit.unusedFrom 0 c.vars with _ | ⟨a, rest⟩
      · simp only [if_true, reduceCtorEq, false_iff, not_and, not_exists]
        intro _ _ v hv hall
        have := (hmem v).mpr ⟨hv, hall⟩
        rw [hu] at this; cases this
      · simp only [reduceCtorEq, if_false, true_iff]
        have := (hmem a).mp (by rw [hu]; simp)
        exact ⟨hn, hcon, a, this.1, this.2⟩
    · intro _
      exact ⟨_, rfl, Circuit.unusedFrom_sorted _ _, hmem⟩
  · obtain ⟨j, -, -, -, e⟩ := Circuit.markAsComplete_unconnected hn hw hcon
    rw [e]
    simp [hcon]

/-- **C52.** With the high-level calls only, a failed `mark_as_complete` leaves a circuit that was
not complete as it was. -/
theorem C52_failure_is_clean (l : List (Call F)) (c : Circuit F) (h : Builds Circuit.new l c)
    (hl : ∀ x ∈ l, HighLevel x) (h0 : c.outputs = []) (hf : c.markAsComplete.1 ≠ .ok ()) :
    c.markAsComplete.2 = c := by
  have hg := (Circuit.builds_good h hl Circuit.good_new).1
  by_cases hn : 0 < c.numInputs
  swap
  · unfold Circuit.markAsComplete; rw [if_pos (by omega)]
  by_cases hcon : ∀ v < c.vars.length, Connected c v
  · rw [Circuit.markAsComplete_connected hn hg.wired hcon] at hf ⊢
    simp only at hf ⊢
    split_ifs at hf with he
    · rw [he, ← h0]
    · exact absurd rfl hf
  · obtain ⟨j, hj, hjn, hjc, e⟩ := Circuit.markAsComplete_unconnected hn hg.wired hcon
    rw [e, h0]
    simp only [List.nil_append]
    have : Circuit.unusedFrom 0 (c.vars.take j) = [] := by
      rw [List.eq_nil_iff_forall_not_mem]
      intro v hv
      obtain ⟨-, x, hx, hi⟩ := (Circuit.unusedFrom_mem _ _ _).mp hv
      rw [Nat.sub_zero] at hx
      have hvj : v < j := by
        have := (List.getElem?_eq_some_iff.mp hx).1
        rw [List.length_take] at this; omega
      rw [List.getElem?_take_of_lt hvj] at hx
      -- `v` is connected but feeds no gate, so it has a driver, so it is no input, but `j` is one
      have hjx := List.getElem?_eq_getElem hj
      have hjnone : (c.vars[j]).outputWire = none := by
        rcases ho : (c.vars[j]).outputWire with _ | w
        · rfl
        · exact absurd ⟨.output w, (hg.wired.driver j _ hjx w).mp ho⟩ hjn
      have hj1 := (hg.ordered.driven j _ hjx).mp hjnone
      have hv1 : x.outputWire = none := (hg.ordered.driven v x hx).mpr (by omega)
      obtain ⟨w, hc⟩ := hjc v hvj
      match w with
      | .input w => exact (Circuit.unused_iff hg.wired hx).mp hi w hc
      | .output w =>
        have := (hg.wired.driver v x hx w).mpr hc
        rw [hv1] at this; cases this
    rw [this, ← h0]

/-- **C52 (deviation).** With hand-made variables a failed `mark_as_complete` can leave the circuit
complete: here variable 2 has no wire, but variable 1 is already recorded as an output. -/
theorem C52_failed_but_complete :
    ∃ c : Circuit ℚ, Builds Circuit.new [.input, .bin .add 0 0, .newVar] c ∧ c.isComplete = false ∧
      c.markAsComplete.1 = .error (.variableNotConnected 2) ∧
      c.markAsComplete.2.isComplete = true := by
  obtain ⟨c, hc⟩ := builds_of_buildsB (F := ℚ) (c := Circuit.new)
    (l := [.input, .bin .add 0 0, .newVar]) (by decide +kernel)
  have hr : (Circuit.new : Circuit ℚ).run [.input, .bin .add 0 0, .newVar] = .ok c := by
    have : ∀ (c c' : Circuit ℚ) l, Builds c l c' → c.run l = .ok c' := by
      intro c c' l hb
      induction hb with
      | nil c => rfl
      | cons hr h1 h2 ih => unfold Circuit.run; rw [h1]; exact ih
    exact this _ _ _ hc
  have h1 : ((Circuit.new : Circuit ℚ).run [.input, .bin .add 0 0, .newVar]).map (fun c =>
      (c.isComplete, c.markAsComplete.1, c.markAsComplete.2.isComplete))
      = .ok (false, .error (.variableNotConnected 2), true) := by decide +kernel
  rw [hr] at h1
  have h2 := Except.ok.inj h1
  simp only [Prod.mk.injEq] at h2
  exact ⟨c, hc, h2.1, h2.2.1, h2.2.2⟩

/-- **C52 (deviation).** Completing a complete circuit again appends its outputs once more. -/
theorem C52_twice (l : List (Call F)) (c : Circuit F) (h : Builds Circuit.new l c)
    (h0 : c.outputs = []) (hok : c.markAsComplete.1 = .ok ()) :
    c.markAsComplete.2.markAsComplete.1 = .ok () ∧
    c.markAsComplete.2.markAsComplete.2.outputs
      = c.markAsComplete.2.outputs ++ c.markAsComplete.2.outputs := by
  have hw := C29_wired l c h
  have hn : 0 < c.numInputs := ((C52_complete l c h h0).1.mp hok).1
  have hcon := ((C52_complete l c h h0).1.mp hok).2.1
  have e := Circuit.markAsComplete_connected hn hw hcon
  rw [h0, List.nil_append] at e
  rw [e] at hok ⊢
  simp only at hok ⊢
  have hne : Circuit.unusedFrom 0 c.vars ≠ [] := by
    intro hc; rw [hc] at hok; simp at hok
  have hw2 := Circuit.wired_withOutputs hw (Circuit.unusedFrom 0 c.vars)
  have e2 := Circuit.markAsComplete_connected (c := { c with outputs := Circuit.unusedFrom 0 c.vars })
    hn hw2 (by
      intro v hv
      obtain ⟨w, hc⟩ := hcon v hv
      refine ⟨w, ?_⟩
      match w with
      | .input ⟨k, i, s⟩ => cases k <;> exact hc
      | .output (.bin k i) => cases k <;> exact hc
      | .output (.const i) => exact hc)
  rw [e2]
  simp [hne]

/-- **C52.** After a successful evaluation `get_output` returns the values of the outputs. -/
theorem C52_output (l : List (Call F)) (c c' : Circuit F) (h : Builds Circuit.new l c)
    (hl : ∀ x ∈ l, HighLevel x) (input : List F)
    (hev : c.evaluate input = .ok c') :
    ∃ vs, c'.getOutput = .ok vs ∧ vs.map some = c.outputs.map (valueOf c') := by
  have hlt := Circuit.builds_outputs h hl Circuit.good_new (by simp [Circuit.new])
  obtain ⟨hs, val, -, hv, -⟩ := C31_values l c c' h hl input hev
  refine ⟨c.outputs.map val, ?_, ?_⟩
  · unfold Circuit.getOutput
    rw [hs.outputs]
    exact mapM_map _ _ _ (fun v hv' => (Circuit.getVarValue_ok c' v _).mpr (hv v (hlt v hv')))
  · rw [List.map_map]
    apply List.map_congr_left
    intro v hv'
    rw [hv v (hlt v hv')]; rfl

example : ((Circuit.new : Circuit ℚ).run exCalls).bind Circuit.getOutput = .ok [5, 6, 5] := by
  decide +kernel
example : (Circuit.new : Circuit ℚ).run [.input, .input, .bin .add 0 1] |>.map
    (fun c => (c.outputs, c.markAsComplete.1, c.markAsComplete.2.outputs)) |>.toOption
    |> (· == some ([], .ok (), [2])) := by decide +kernel

end VO
