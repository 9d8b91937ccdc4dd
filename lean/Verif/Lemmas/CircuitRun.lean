import Verif.Lemmas.Circuit

/-
Invariants of sequences of builder calls, and evaluation.
-/

set_option linter.unusedSectionVars false

namespace VO
open Spec

variable {F : Type} [Field F] [DecidableEq F]

namespace Circuit

/-- The invariant of circuits built through the high-level interface. -/
structure Good (c : Circuit F) : Prop where
  wired : Wired c
  ordered : Ordered c
  cacheOk : ∀ (k : Kind) (a b r : ℕ), ((a, b), r) ∈ c.cache k →
    ∃ i : ℕ, (c.gates k)[i]? = some ⟨a, b, r⟩
  constOk : ∀ (v : F) (r : ℕ), (v, r) ∈ c.constCache → ∃ i : ℕ, c.constGates[i]? = some ⟨r, v⟩

/-- `c'` extends `c`: gates and variables are only appended. -/
structure Ext (c c' : Circuit F) : Prop where
  gates : ∀ (k : Kind) (i : ℕ) (g : BinGate), (c.gates k)[i]? = some g → (c'.gates k)[i]? = some g
  consts : ∀ (i : ℕ) (g : ConstGate F), c.constGates[i]? = some g → c'.constGates[i]? = some g
  vars : c.vars.length ≤ c'.vars.length
  inputs : c.numInputs ≤ c'.numInputs
  asserts : ∀ p ∈ c.assertEquals, p ∈ c'.assertEquals

theorem Ext.refl (c : Circuit F) : Ext c c :=
  ⟨fun _ _ _ h => h, fun _ _ h => h, le_rfl, le_rfl, fun _ h => h⟩

theorem Ext.trans {c1 c2 c3 : Circuit F} (h : Ext c1 c2) (h' : Ext c2 c3) : Ext c1 c3 :=
  ⟨fun k i g hg => h'.gates k i g (h.gates k i g hg), fun i g hg => h'.consts i g (h.consts i g hg),
    h.vars.trans h'.vars, h.inputs.trans h'.inputs, fun p hp => h'.asserts p (h.asserts p hp)⟩

theorem Ext.carries {c c' : Circuit F} (h : Ext c c') {w : GateWire} {v : ℕ}
    (hc : Carries c w v) : Carries c' w v := by
  match w with
  | .input w => obtain ⟨g, h1, h2⟩ := hc; exact ⟨g, h.gates _ _ _ h1, h2⟩
  | .output (.bin k i) => obtain ⟨g, h1, h2⟩ := hc; exact ⟨g, h.gates _ _ _ h1, h2⟩
  | .output (.const i) => obtain ⟨g, h1, h2⟩ := hc; exact ⟨g, h.consts _ _ h1, h2⟩

theorem gates_new (k : Kind) : (Circuit.new : Circuit F).gates k = [] := by cases k <;> rfl

theorem good_new : Good (Circuit.new : Circuit F) := by
  refine ⟨wired_new, ⟨by simp [Circuit.new], ?_, ?_⟩, ?_, ?_⟩
  · intro v x hx; simp [Circuit.new] at hx
  · intro k i g h; simp [gates_new] at h
  · intro k a b r h; cases k <;> simp [Circuit.new, cache] at h
  · intro v r h; simp [Circuit.new] at h

theorem lookup_mem {α β : Type} [BEq α] [LawfulBEq α] (l : List (α × β)) (a : α) (b : β)
    (h : l.lookup a = some b) : (a, b) ∈ l := by
  induction l with
  | nil => cases h
  | cons p l ih =>
    obtain ⟨x, y⟩ := p
    rw [List.lookup_cons] at h
    by_cases hx : a == x
    · simp only [hx] at h
      obtain rfl := Option.some.inj h
      rw [eq_of_beq hx]; simp
    · simp only [hx] at h
      exact List.mem_cons_of_mem _ (ih h)

theorem addNewVariable_gates (c : Circuit F) (k : Kind) :
    c.addNewVariable.2.gates k = c.gates k := by cases k <;> rfl
theorem addNewVariable_cache (c : Circuit F) (k : Kind) :
    c.addNewVariable.2.cache k = c.cache k := by cases k <;> rfl

/-- Adding a binary gate with a fresh output variable. -/
theorem freshBin_spec (c : Circuit F) (k : Kind) (a b : ℕ) :
    (a < c.vars.length + 1 ∧ b < c.vars.length + 1 ∧
      ∃ xs, c.addNewVariable.2.addBinGate k a b c.vars.length
        = (.ok (), { c.pushGate k ⟨a, b, c.vars.length⟩ with vars := xs }) ∧
      xs.length = c.vars.length + 1 ∧
      ∀ v : ℕ, xs[v]? = ((c.vars ++ [Variable.new])[v]?).map
        (attached k (c.gates k).length a b c.vars.length v)) ∨
    (¬ (a < c.vars.length + 1 ∧ b < c.vars.length + 1) ∧
      ∃ e c', c.addNewVariable.2.addBinGate k a b c.vars.length = (.error e, c')) := by
  rcases addBinGate_spec c.addNewVariable.2 k a b c.vars.length with
    ⟨ha, hb, -, xs, h1, hl, hg⟩ | ⟨hn, e, c', h1⟩
  · left
    refine ⟨by simpa [addNewVariable] using ha, by simpa [addNewVariable] using hb, xs, ?_,
      by rw [hl]; simp [addNewVariable], fun v => ?_⟩
    · rw [h1]
      cases k <;> rfl
    · rw [hg, addNewVariable_gates]; rfl
  · right
    refine ⟨fun h => hn ⟨by simpa [addNewVariable] using h.1, by simpa [addNewVariable] using h.2,
      Variable.new, by simp [addNewVariable], rfl⟩, e, c', h1⟩

theorem binVars_spec {c c' : Circuit F} {k : Kind} {a b r : ℕ} (hg : Good c)
    (ha0 : a < c.vars.length) (hb0 : b < c.vars.length) (h : c.binVars k a b = .ok (r, c')) :
    Good c' ∧ Ext c c' ∧ c'.numInputs = c.numInputs ∧ c'.assertEquals = c.assertEquals ∧
      c'.outputs = c.outputs ∧ c'.publicIo = c.publicIo ∧
      (∃ i : ℕ, (c'.gates k)[i]? = some ⟨a, b, r⟩ ∨ (c'.gates k)[i]? = some ⟨b, a, r⟩) := by
  unfold binVars at h
  have hpair : ∃ a' b', (if a < b then (a, b) else (b, a)) = (a', b') ∧
      ((a' = a ∧ b' = b) ∨ (a' = b ∧ b' = a)) := by
    by_cases hab : a < b
    · exact ⟨a, b, by rw [if_pos hab], .inl ⟨rfl, rfl⟩⟩
    · exact ⟨b, a, by rw [if_neg hab], .inr ⟨rfl, rfl⟩⟩
  obtain ⟨a', b', hp, hor⟩ := hpair
  rw [hp] at h
  simp only at h
  have fin : ∀ d : Circuit F, (∃ i : ℕ, (d.gates k)[i]? = some ⟨a', b', r⟩) →
      ∃ i : ℕ, (d.gates k)[i]? = some ⟨a, b, r⟩ ∨ (d.gates k)[i]? = some ⟨b, a, r⟩ := by
    rintro d ⟨i, hi⟩
    rcases hor with ⟨rfl, rfl⟩ | ⟨rfl, rfl⟩
    · exact ⟨i, .inl hi⟩
    · exact ⟨i, .inr hi⟩
  split at h
  · rename_i v hv
    obtain ⟨rfl, rfl⟩ := Prod.mk.inj (Except.ok.inj h)
    exact ⟨hg, Ext.refl _, rfl, rfl, rfl, rfl, fin _ (hg.cacheOk k a' b' v (lookup_mem _ _ _ hv))⟩
  · rename_i hv
    simp only [addNewVariable] at h
    rcases freshBin_spec c k a' b' with ⟨ha, hb, xs, h1, hl, hx⟩ | ⟨-, e, c'', h1⟩
    swap
    · simp only [addNewVariable] at h1
      rw [h1] at h; cases h
    have hw := wired_bin (wired_newVar hg.wired) h1
    simp only [addNewVariable] at h1
    rw [h1] at h
    simp only at h
    obtain ⟨rfl, rfl⟩ := Prod.mk.inj (Except.ok.inj h)
    have ha' : a' < c.vars.length := by omega
    have hb' : b' < c.vars.length := by omega
    have hord : Ordered (({ c.pushGate k ⟨a', b', c.vars.length⟩ with vars := xs }
        : Circuit F).pushCache k ((a', b'), c.vars.length)) := by
      refine ⟨?_, ?_, ?_⟩
      · simp only [numInputs_pushCache, numInputs_pushGate, vars_pushCache]
        have := hg.ordered.numInputs_le
        omega
      · intro v x hxv
        simp only [vars_pushCache] at hxv
        simp only [numInputs_pushCache, numInputs_pushGate]
        rw [hx v] at hxv
        rcases h0 : (c.vars ++ [Variable.new])[v]? with _ | x0
        · rw [h0] at hxv; cases hxv
        rw [h0] at hxv
        obtain rfl := (Option.some.inj hxv).symm
        simp only [attached]
        rcases (getElem?_append_one _ _ _ _).mp h0 with h0 | ⟨rfl, rfl⟩
        · have hv' : v < c.vars.length := (List.getElem?_eq_some_iff.mp h0).1
          rw [if_neg (by omega)]
          exact hg.ordered.driven v x0 h0
        · have := hg.ordered.numInputs_le
          rw [if_pos rfl]
          simp; omega
      · intro k' i g hgi
        simp only [gates_pushCache, gates_withVars, gates_pushGate] at hgi
        by_cases hk : k' = k
        · subst hk
          rw [if_pos rfl, getElem?_append_one] at hgi
          rcases hgi with hgi | ⟨-, rfl⟩
          · exact hg.ordered.before k' i g hgi
          · exact ⟨ha', hb'⟩
        · rw [if_neg hk] at hgi
          exact hg.ordered.before k' i g hgi
    refine ⟨⟨?_, hord, ?_, ?_⟩, ⟨?_, ?_, ?_, ?_, ?_⟩, by simp, by simp, by simp, by simp, ?_⟩
    · exact hw.congr (by simp) (by simp) (by simp) (fun v x hxv => ⟨x, by simpa using hxv, rfl, rfl⟩)
    · intro k' p q s hm
      simp only [cache_pushCache, cache_withVars, cache_pushGate] at hm
      simp only [gates_pushCache, gates_withVars, gates_pushGate]
      by_cases hk : k' = k
      · subst hk
        rw [if_pos rfl, List.mem_cons] at hm
        rw [if_pos rfl]
        rcases hm with hm | hm
        · obtain ⟨h1, h2⟩ := Prod.mk.inj hm
          obtain ⟨rfl, rfl⟩ := Prod.mk.inj h1
          subst h2
          exact ⟨(c.gates k').length, by simp⟩
        · obtain ⟨i, hi⟩ := hg.cacheOk k' p q s hm
          exact ⟨i, (getElem?_append_one _ _ _ _).mpr (.inl hi)⟩
      · rw [if_neg hk] at hm
        rw [if_neg hk]
        exact hg.cacheOk k' p q s hm
    · intro v s hm
      simp only [constCache_pushCache, constCache_pushGate] at hm
      simp only [constGates_pushCache, constGates_pushGate]
      exact hg.constOk v s hm
    · intro k' i g hgi
      simp only [gates_pushCache, gates_withVars, gates_pushGate]
      by_cases hk : k' = k
      · subst hk
        rw [if_pos rfl, getElem?_append_one]
        exact .inl hgi
      · rw [if_neg hk]; exact hgi
    · intro i g hgi; simpa using hgi
    · simp only [vars_pushCache]; omega
    · simp
    · intro p hp; simpa using hp
    · refine fin _ ⟨(c.gates k).length, ?_⟩
      rw [gates_pushCache, gates_withVars, gates_pushGate, if_pos rfl]; simp

theorem good_newInput {c : Circuit F} (hg : Good c) {r : ℕ} {c' : Circuit F}
    (h : c.addGlobalInputVariable = .ok (r, c')) :
    Good c' ∧ Ext c c' ∧ r = c.vars.length ∧ c'.numInputs = c.numInputs + 1 ∧
      c'.vars.length = c.vars.length + 1 ∧ c.numInputs = c.vars.length ∧
      c'.assertEquals = c.assertEquals ∧ (∀ k, c'.gates k = []) ∧ c'.constGates = [] ∧
      c'.publicIo = c.publicIo ∧ c'.outputs = c.outputs := by
  unfold addGlobalInputVariable assertNoGate at h
  split_ifs at h with hno
  · obtain ⟨h1, h2, h3⟩ := hno
    have h3' : c.constGates = [] := List.eq_nil_of_length_eq_zero h3
    simp only [addNewVariable] at h
    obtain ⟨rfl, rfl⟩ := Prod.mk.inj (Except.ok.inj h)
    have hall : ∀ (v : ℕ) (x : Variable F), c.vars[v]? = some x → x.outputWire = none := by
      intro v x hx
      rcases ho : x.outputWire with _ | w
      · rfl
      · have := (hg.wired.driver v x hx w).mp ho
        match w with
        | .bin .add i => simp [Carries, gates, h1] at this
        | .bin .mul i => simp [Carries, gates, h2] at this
        | .const i => simp [Carries, h3'] at this
    have hn : c.numInputs = c.vars.length := by
      have h1 := hg.ordered.numInputs_le
      by_contra hne
      have hlt : c.numInputs < c.vars.length := by omega
      have := hg.ordered.driven c.numInputs _ (List.getElem?_eq_getElem hlt)
      have h2 := this.mp (hall _ _ (List.getElem?_eq_getElem hlt))
      omega
    have hw := wired_newVar hg.wired
    refine ⟨⟨?_, ⟨by simp; omega, ?_, ?_⟩, ?_, ?_⟩, ⟨?_, ?_, by simp, by simp, by simp⟩, rfl, rfl,
      by simp, hn, rfl, ?_, h3', rfl, rfl⟩
    · exact hw.congr (fun k => by cases k <;> rfl) rfl rfl (fun v x hxv => ⟨x, hxv, rfl, rfl⟩)
    · intro v x hx
      simp only at hx ⊢
      rcases (getElem?_append_one _ _ _ _).mp hx with h0 | ⟨rfl, rfl⟩
      · have hv := (List.getElem?_eq_some_iff.mp h0).1
        simp only [hall v x h0, true_iff]; omega
      · simp [Variable.new]; omega
    · intro k i g hgi
      cases k
      · simp [gates, h1] at hgi
      · simp [gates, h2] at hgi
    · intro k a b r hm
      cases k
      · obtain ⟨i, hi⟩ := hg.cacheOk .add a b r hm
        simp [gates, h1] at hi
      · obtain ⟨i, hi⟩ := hg.cacheOk .mul a b r hm
        simp [gates, h2] at hi
    · intro v r hm
      exact hg.constOk v r hm
    · intro k i g hgi
      cases k <;> exact hgi
    · intro i g hgi; exact hgi
    · intro k; cases k
      · exact h1
      · exact h2

theorem constVar_spec {c c' : Circuit F} {a : F} {r : ℕ} (hg : Good c)
    (h : c.constVar a = .ok (r, c')) :
    Good c' ∧ Ext c c' ∧ c'.numInputs = c.numInputs ∧ c'.assertEquals = c.assertEquals ∧
      c'.outputs = c.outputs ∧ c'.publicIo = c.publicIo ∧
      ∃ i : ℕ, c'.constGates[i]? = some ⟨r, a⟩ := by
  unfold constVar at h
  split at h
  · rename_i v hv
    obtain ⟨rfl, rfl⟩ := Prod.mk.inj (Except.ok.inj h)
    exact ⟨hg, Ext.refl _, rfl, rfl, rfl, rfl, hg.constOk a v (lookup_mem _ _ _ hv)⟩
  · simp only [addNewVariable] at h
    rcases addConstGate_spec c.addNewVariable.2 a c.vars.length with
      ⟨-, xs, h1, hl, hx⟩ | ⟨-, e, c'', h1⟩
    swap
    · simp only [addNewVariable] at h1
      rw [h1] at h; cases h
    have hw := wired_const (wired_newVar hg.wired) h1
    simp only [addNewVariable] at h1 hl hx
    rw [h1] at h
    simp only at h
    obtain ⟨rfl, rfl⟩ := Prod.mk.inj (Except.ok.inj h)
    have hle := hg.ordered.numInputs_le
    refine ⟨⟨?_, ⟨?_, ?_, ?_⟩, ?_, ?_⟩, ⟨?_, ?_, ?_, le_rfl, fun _ h => h⟩, rfl, rfl, rfl, rfl,
      c.constGates.length, by simp⟩
    · exact hw.congr (fun k => by cases k <;> rfl) rfl rfl (fun v x hxv => ⟨x, hxv, rfl, rfl⟩)
    · simp only [hl, List.length_append, List.length_singleton]; omega
    · intro v x hxv
      simp only at hxv ⊢
      rw [hx v] at hxv
      rcases h0 : (c.vars ++ [Variable.new])[v]? with _ | x0
      · rw [h0] at hxv; cases hxv
      rw [h0] at hxv
      obtain rfl := (Option.some.inj hxv).symm
      simp only
      rcases (getElem?_append_one _ _ _ _).mp h0 with h0 | ⟨rfl, rfl⟩
      · have hv' : v < c.vars.length := (List.getElem?_eq_some_iff.mp h0).1
        rw [if_neg (by omega)]
        exact hg.ordered.driven v x0 h0
      · rw [if_pos rfl]; simp; omega
    · intro k i g hgi
      exact hg.ordered.before k i g (by cases k <;> exact hgi)
    · intro k p q s hm
      obtain ⟨i, hi⟩ := hg.cacheOk k p q s (by cases k <;> exact hm)
      exact ⟨i, by cases k <;> exact hi⟩
    · intro v s hm
      simp only [List.mem_cons] at hm
      rcases hm with hm | hm
      · obtain ⟨rfl, rfl⟩ := Prod.mk.inj hm
        exact ⟨c.constGates.length, by simp⟩
      · obtain ⟨i, hi⟩ := hg.constOk v s hm
        exact ⟨i, (getElem?_append_one _ _ _ _).mpr (.inl hi)⟩
    · intro k i g hgi; cases k <;> exact hgi
    · intro i g hgi; exact (getElem?_append_one _ _ _ _).mpr (.inl hgi)
    · simp only [hl, List.length_append, List.length_singleton]; omega

/-- `Good` only depends on gates, variables' wires, caches and the number of inputs. -/
theorem Good.congr {c c' : Circuit F} (hg : Good c) (h1 : ∀ k, c'.gates k = c.gates k)
    (h2 : c'.constGates = c.constGates) (h3 : ∀ k, c'.cache k = c.cache k)
    (h4 : c'.constCache = c.constCache) (h5 : c'.numInputs = c.numInputs)
    (hl : c'.vars.length = c.vars.length)
    (hv : ∀ (v : ℕ) (x : Variable F), c'.vars[v]? = some x → ∃ x0 : Variable F,
      c.vars[v]? = some x0 ∧ x.inputWires = x0.inputWires ∧ x.outputWire = x0.outputWire) :
    Good c' := by
  refine ⟨hg.wired.congr h1 h2 hl hv, ⟨by rw [h5, hl]; exact hg.ordered.numInputs_le, ?_, ?_⟩, ?_,
    ?_⟩
  · intro v x hx
    obtain ⟨x0, h0, -, ho⟩ := hv v x hx
    rw [ho, h5]; exact hg.ordered.driven v x0 h0
  · intro k i g hgi
    rw [h1] at hgi; exact hg.ordered.before k i g hgi
  · intro k a b r hm
    rw [h3] at hm; rw [h1]; exact hg.cacheOk k a b r hm
  · intro v r hm
    rw [h4] at hm; rw [h2]; exact hg.constOk v r hm

end Circuit

end VO
