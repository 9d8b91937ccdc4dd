import Verif.Lemmas.CircuitCache
import Verif.Lemmas.MapM

/-
Global wire indices and the wire pairs of a circuit.
-/

set_option linter.unusedSectionVars false

namespace VO
open Spec

variable {F : Type} [Field F] [DecidableEq F]

namespace Circuit

theorem index_eq (c : Circuit F) (w : GateWire) :
    c.getWireGlobalIndex w = column w * gateCount c + slot c w := by
  unfold getWireGlobalIndex getOffset gateIndex column slot gateCount getGateNum getMulNum getAddNum
    getConstNum
  match w with
  | .input ⟨.add, i, .left⟩ => simp; omega
  | .input ⟨.add, i, .right⟩ => simp; omega
  | .input ⟨.mul, i, .left⟩ => simp
  | .input ⟨.mul, i, .right⟩ => simp; omega
  | .output (.bin .add i) => simp; omega
  | .output (.bin .mul i) => simp; omega
  | .output (.const i) => simp; omega

theorem slot_lt {c : Circuit F} {w : GateWire} {v : ℕ} (h : Carries c w v) :
    slot c w < gateCount c := by
  unfold slot gateCount
  match w with
  | .input ⟨.add, i, s⟩ =>
    obtain ⟨g, h1, -⟩ := h
    have : i < c.addGates.length := (List.getElem?_eq_some_iff.mp h1).1
    simp; omega
  | .input ⟨.mul, i, s⟩ =>
    obtain ⟨g, h1, -⟩ := h
    have : i < c.mulGates.length := (List.getElem?_eq_some_iff.mp h1).1
    simp; omega
  | .output (.bin .add i) =>
    obtain ⟨g, h1, -⟩ := h
    have : i < c.addGates.length := (List.getElem?_eq_some_iff.mp h1).1
    simp; omega
  | .output (.bin .mul i) =>
    obtain ⟨g, h1, -⟩ := h
    have : i < c.mulGates.length := (List.getElem?_eq_some_iff.mp h1).1
    simp; omega
  | .output (.const i) =>
    obtain ⟨g, h1, -⟩ := h
    have : i < c.constGates.length := (List.getElem?_eq_some_iff.mp h1).1
    simp; omega

theorem mulSlot_lt {c : Circuit F} {w : GateWire} {v i : ℕ} (h : Carries c w v)
    (hw : (∃ s, w = .input ⟨.mul, i, s⟩) ∨ w = .output (.bin .mul i)) :
    i < c.mulGates.length := by
  rcases hw with ⟨s, rfl⟩ | rfl
  · obtain ⟨g, h1, -⟩ := h; exact (List.getElem?_eq_some_iff.mp h1).1
  · obtain ⟨g, h1, -⟩ := h; exact (List.getElem?_eq_some_iff.mp h1).1

theorem addSlot_lt {c : Circuit F} {w : GateWire} {v i : ℕ} (h : Carries c w v)
    (hw : (∃ s, w = .input ⟨.add, i, s⟩) ∨ w = .output (.bin .add i)) :
    i < c.addGates.length := by
  rcases hw with ⟨s, rfl⟩ | rfl
  · obtain ⟨g, h1, -⟩ := h; exact (List.getElem?_eq_some_iff.mp h1).1
  · obtain ⟨g, h1, -⟩ := h; exact (List.getElem?_eq_some_iff.mp h1).1

theorem colslot_inj {c : Circuit F} {w w' : GateWire} {v v' : ℕ} (h : Carries c w v)
    (h' : Carries c w' v') (hc : column w = column w') (hs : slot c w = slot c w') : w = w' := by
  match w, w' with
  | .input ⟨.mul, i, .left⟩, .input ⟨.mul, j, .left⟩ => simp [slot] at hs; rw [hs]
  | .input ⟨.mul, i, .right⟩, .input ⟨.mul, j, .right⟩ => simp [slot] at hs; rw [hs]
  | .input ⟨.add, i, .left⟩, .input ⟨.add, j, .left⟩ => simp [slot] at hs; rw [hs]
  | .input ⟨.add, i, .right⟩, .input ⟨.add, j, .right⟩ => simp [slot] at hs; rw [hs]
  | .input ⟨.mul, i, .left⟩, .input ⟨.add, j, .left⟩ =>
    have := mulSlot_lt h (.inl ⟨_, rfl⟩); simp [slot] at hs; omega
  | .input ⟨.add, i, .left⟩, .input ⟨.mul, j, .left⟩ =>
    have := mulSlot_lt h' (.inl ⟨_, rfl⟩); simp [slot] at hs; omega
  | .input ⟨.mul, i, .right⟩, .input ⟨.add, j, .right⟩ =>
    have := mulSlot_lt h (.inl ⟨_, rfl⟩); simp [slot] at hs; omega
  | .input ⟨.add, i, .right⟩, .input ⟨.mul, j, .right⟩ =>
    have := mulSlot_lt h' (.inl ⟨_, rfl⟩); simp [slot] at hs; omega
  | .input ⟨_, i, .left⟩, .input ⟨_, j, .right⟩ => simp [column] at hc
  | .input ⟨_, i, .right⟩, .input ⟨_, j, .left⟩ => simp [column] at hc
  | .input ⟨_, i, .left⟩, .output _ => simp [column] at hc
  | .input ⟨_, i, .right⟩, .output _ => simp [column] at hc
  | .output _, .input ⟨_, i, .left⟩ => simp [column] at hc
  | .output _, .input ⟨_, i, .right⟩ => simp [column] at hc
  | .output (.bin .mul i), .output (.bin .mul j) => simp [slot] at hs; rw [hs]
  | .output (.bin .add i), .output (.bin .add j) => simp [slot] at hs; rw [hs]
  | .output (.const i), .output (.const j) => simp [slot] at hs; rw [hs]
  | .output (.bin .mul i), .output (.bin .add j) =>
    have := mulSlot_lt h (.inr rfl); simp [slot] at hs; omega
  | .output (.bin .add i), .output (.bin .mul j) =>
    have := mulSlot_lt h' (.inr rfl); simp [slot] at hs; omega
  | .output (.bin .mul i), .output (.const j) =>
    have := mulSlot_lt h (.inr rfl); simp [slot] at hs; omega
  | .output (.const j), .output (.bin .mul i) =>
    have := mulSlot_lt h' (.inr rfl); simp [slot] at hs; omega
  | .output (.bin .add i), .output (.const j) =>
    have := addSlot_lt h (.inr rfl); simp [slot] at hs; omega
  | .output (.const j), .output (.bin .add i) =>
    have := addSlot_lt h' (.inr rfl); simp [slot] at hs; omega

theorem index_inj {c : Circuit F} {w w' : GateWire} {v v' : ℕ} (h : Carries c w v)
    (h' : Carries c w' v') (hi : c.getWireGlobalIndex w = c.getWireGlobalIndex w') : w = w' := by
  have h1 := slot_lt h
  have h2 := slot_lt h'
  rw [index_eq, index_eq] at hi
  have hN : 0 < gateCount c := by omega
  have e1 : (column w * gateCount c + slot c w) / gateCount c = column w := by
    rw [Nat.mul_comm, Nat.mul_add_div hN, Nat.div_eq_of_lt h1]; omega
  have e2 : (column w' * gateCount c + slot c w') / gateCount c = column w' := by
    rw [Nat.mul_comm, Nat.mul_add_div hN, Nat.div_eq_of_lt h2]; omega
  have hc : column w = column w' := by rw [← e1, ← e2, hi]
  rw [hc] at hi
  exact colslot_inj h h' hc (by omega)

theorem column_le (w : GateWire) : column w ≤ 2 := by
  match w with
  | .input ⟨_, _, .left⟩ => simp [column]
  | .input ⟨_, _, .right⟩ => simp [column]
  | .output _ => simp [column]

theorem index_lt {c : Circuit F} {w : GateWire} {v : ℕ} (h : Carries c w v) :
    c.getWireGlobalIndex w < 3 * gateCount c := by
  have h1 := slot_lt h
  rw [index_eq]
  have h2 := column_le w
  have : column w * gateCount c ≤ 2 * gateCount c := Nat.mul_le_mul_right _ h2
  omega

/-- Every row of every column is a wire, except the input columns of constant gates. -/
theorem index_surj (c : Circuit F) (i : ℕ) (hi : i < 3 * gateCount c)
    (hne : ¬ (c.mulGates.length + c.addGates.length ≤ i % gateCount c ∧ i < 2 * gateCount c)) :
    ∃ w v, Carries c w v ∧ c.getWireGlobalIndex w = i := by
  have hN : 0 < gateCount c := by omega
  have hcases : ∃ m, m < gateCount c ∧ i % gateCount c = m ∧
      (i = m ∨ i = gateCount c + m ∨ i = 2 * gateCount c + m) := by
    refine ⟨i % gateCount c, Nat.mod_lt i hN, rfl, ?_⟩
    have hdm := Nat.div_add_mod i (gateCount c)
    have hq : i / gateCount c < 3 := by
      rw [Nat.div_lt_iff_lt_mul hN]; exact hi
    generalize hqd : i / gateCount c = q at hdm hq
    generalize i % gateCount c = m at hdm
    rcases (by omega : q = 0 ∨ q = 1 ∨ q = 2) with rfl | rfl | rfl
    · left; omega
    · right; left; omega
    · right; right; omega
  obtain ⟨m, hm, hmod, hq⟩ := hcases
  rw [hmod] at hne
  have hNdef : gateCount c = c.mulGates.length + c.addGates.length + c.constGates.length := rfl
  by_cases h1 : m < c.mulGates.length
  · have hg : (c.gates .mul)[m]? = some c.mulGates[m] := List.getElem?_eq_getElem h1
    rcases hq with h | h | h
    · refine ⟨.input ⟨.mul, m, .left⟩, _, ⟨_, hg, rfl⟩, ?_⟩
      rw [index_eq]; simp [column, slot]; omega
    · refine ⟨.input ⟨.mul, m, .right⟩, _, ⟨_, hg, rfl⟩, ?_⟩
      rw [index_eq]; simp [column, slot]; omega
    · refine ⟨.output (.bin .mul m), _, ⟨_, hg, rfl⟩, ?_⟩
      rw [index_eq]; simp [column, slot]; omega
  · by_cases h2 : m < c.mulGates.length + c.addGates.length
    · have h2' : m - c.mulGates.length < c.addGates.length := by omega
      have hg : (c.gates .add)[m - c.mulGates.length]? = some _ := List.getElem?_eq_getElem h2'
      rcases hq with h | h | h
      · refine ⟨.input ⟨.add, m - c.mulGates.length, .left⟩, _, ⟨_, hg, rfl⟩, ?_⟩
        rw [index_eq]; simp [column, slot]; omega
      · refine ⟨.input ⟨.add, m - c.mulGates.length, .right⟩, _, ⟨_, hg, rfl⟩, ?_⟩
        rw [index_eq]; simp [column, slot]; omega
      · refine ⟨.output (.bin .add (m - c.mulGates.length)), _, ⟨_, hg, rfl⟩, ?_⟩
        rw [index_eq]; simp [column, slot]; omega
    · have h3 : m - (c.mulGates.length + c.addGates.length) < c.constGates.length := by omega
      have hg : c.constGates[m - (c.mulGates.length + c.addGates.length)]? = some _ :=
        List.getElem?_eq_getElem h3
      rcases hq with h | h | h
      · exfalso; apply hne; omega
      · exfalso; apply hne; omega
      · refine ⟨.output (.const (m - (c.mulGates.length + c.addGates.length))), _, ⟨_, hg, rfl⟩, ?_⟩
        rw [index_eq]; simp [column, slot]; omega

/-! ### Wire pairs -/

theorem windows2_linked (pairs : List (ℕ × ℕ)) (l : List ℕ) (h : ∀ p ∈ windows2 l, p ∈ pairs) :
    ∀ a ∈ l, ∀ b ∈ l, Linked pairs a b := by
  induction l with
  | nil => simp
  | cons x l ih =>
    cases l with
    | nil =>
      intro a ha b hb
      simp at ha hb; subst ha; subst hb
      exact .refl _
    | cons y l =>
      have hxy : Linked pairs x y := .rel _ _ (h (x, y) (by simp [windows2]))
      have ih' := ih (fun p hp => h p (by simp only [windows2, List.mem_cons]; exact .inr hp))
      intro a ha b hb
      rcases List.mem_cons.mp ha with rfl | ha' <;> rcases List.mem_cons.mp hb with rfl | hb'
      · exact .refl _
      · exact .trans _ _ _ hxy (ih' y (by simp) b hb')
      · exact .trans _ _ _ (ih' a ha' y (by simp)) (.symm _ _ hxy)
      · exact ih' a ha' b hb'

theorem windows2_mem (l : List ℕ) (p : ℕ × ℕ) (h : p ∈ windows2 l) : p.1 ∈ l ∧ p.2 ∈ l := by
  induction l with
  | nil => simp [windows2] at h
  | cons x l ih =>
    cases l with
    | nil => simp [windows2] at h
    | cons y l =>
      simp only [windows2, List.mem_cons] at h
      rcases h with rfl | h
      · simp
      · have := ih h
        exact ⟨List.mem_cons_of_mem _ this.1, List.mem_cons_of_mem _ this.2⟩

theorem mem_wiresOf {c : Circuit F} (hw : Wired c) {v : ℕ} {x : Variable F}
    (hx : c.vars[v]? = some x) (w : GateWire) : w ∈ wiresOf x ↔ Carries c w v := by
  unfold wiresOf
  rw [List.mem_append]
  match w with
  | .input w =>
    rw [← hw.inputs v x hx w]
    cases x.outputWire <;> simp
  | .output w =>
    rw [← hw.driver v x hx w]
    cases h : x.outputWire with
    | none => simp
    | some w' => simp; exact eq_comm

theorem anyWire_some {x : Variable F} {w : GateWire} (h : anyWire x = some w) : w ∈ wiresOf x := by
  unfold anyWire at h
  unfold wiresOf
  split at h
  · rename_i h1; rw [h1]; cases h; simp
  · rename_i h1 h2; rw [h1, h2]; cases h; simp
  · cases h

theorem anyWire_none {x : Variable F} : anyWire x = none ↔ wiresOf x = [] := by
  unfold anyWire wiresOf
  rcases x.inputWires with _ | ⟨w, l⟩ <;> rcases x.outputWire with _ | w' <;> simp

theorem assertPair_ok {c : Circuit F} {p q : ℕ × ℕ} (hw : Wired c) :
    c.assertPair p = .ok q → ∃ w w', Carries c w p.1 ∧ Carries c w' p.2 ∧
      q = (c.getWireGlobalIndex w, c.getWireGlobalIndex w') := by
  intro h
  unfold assertPair at h
  split at h
  · cases h
  · rename_i x hx
    split at h
    · cases h
    · rename_i a ha
      split at h
      · cases h
      · rename_i y hy
        split at h
        · cases h
        · rename_i b hb
          exact ⟨a, b, (mem_wiresOf hw hx a).mp (anyWire_some ha),
            (mem_wiresOf hw hy b).mp (anyWire_some hb), (Except.ok.inj h).symm⟩

theorem anyWire_of_connected {c : Circuit F} (hw : Wired c) {v : ℕ} {x : Variable F}
    (hx : c.vars[v]? = some x) (h : Connected c v) : ∃ w, anyWire x = some w := by
  rcases ha : anyWire x with _ | w
  · rw [anyWire_none] at ha
    obtain ⟨w, hc⟩ := h
    have := (mem_wiresOf hw hx w).mpr hc
    rw [ha] at this; cases this
  · exact ⟨w, rfl⟩

theorem assertPair_exists {c : Circuit F} (hw : Wired c) {p : ℕ × ℕ} (h1 : Connected c p.1)
    (h2 : Connected c p.2) : ∃ q, c.assertPair p = .ok q := by
  have l1 : p.1 < c.vars.length := by obtain ⟨w, h⟩ := h1; exact hw.range _ _ h
  have l2 : p.2 < c.vars.length := by obtain ⟨w, h⟩ := h2; exact hw.range _ _ h
  obtain ⟨a, ha⟩ := anyWire_of_connected hw (List.getElem?_eq_getElem l1) h1
  obtain ⟨b, hb⟩ := anyWire_of_connected hw (List.getElem?_eq_getElem l2) h2
  unfold assertPair
  rw [List.getElem?_eq_getElem l1]
  simp only [ha]
  rw [List.getElem?_eq_getElem l2]
  simp only [hb]
  exact ⟨_, rfl⟩

theorem getWiring_ok {c : Circuit F} {wires : List (ℕ × ℕ)} :
    c.getWiring = .ok wires ↔ c.isComplete = true ∧ ∃ eqs, c.assertEquals.mapM c.assertPair = .ok eqs ∧
      wires = c.vars.flatMap (fun x => windows2 ((wiresOf x).map c.getWireGlobalIndex)) ++ eqs := by
  unfold getWiring assertComplete
  by_cases hc : c.isComplete = true
  · simp only [hc, if_true, bind, Except.bind, pure, Except.pure, true_and]
    rcases c.assertEquals.mapM c.assertPair with e | eqs
    · simp
    · simp [eq_comm]
  · simp [hc, bind, Except.bind]

theorem carries_fun {c : Circuit F} {w : GateWire} {v v' : ℕ} (h : Carries c w v)
    (h' : Carries c w v') : v = v' := by
  match w with
  | .input w =>
    obtain ⟨g, h1, rfl⟩ := h; obtain ⟨g', h1', rfl⟩ := h'
    rw [h1] at h1'; cases h1'; rfl
  | .output (.bin k i) =>
    obtain ⟨g, h1, rfl⟩ := h; obtain ⟨g', h1', rfl⟩ := h'
    rw [h1] at h1'; cases h1'; rfl
  | .output (.const i) =>
    obtain ⟨g, h1, rfl⟩ := h; obtain ⟨g', h1', rfl⟩ := h'
    rw [h1] at h1'; cases h1'; rfl

/-- Every produced pair joins two wires of one variable, or of two variables asserted equal. -/
theorem wiring_pair {c : Circuit F} (hw : Wired c) {wires : List (ℕ × ℕ)}
    (h : c.getWiring = .ok wires) {p : ℕ × ℕ} (hp : p ∈ wires) :
    ∃ w w' v v', Carries c w v ∧ Carries c w' v' ∧ p = (c.getWireGlobalIndex w, c.getWireGlobalIndex w') ∧
      (v = v' ∨ (v, v') ∈ c.assertEquals) := by
  obtain ⟨-, eqs, he, rfl⟩ := getWiring_ok.mp h
  rcases List.mem_append.mp hp with hp | hp
  · obtain ⟨x, hx, hp⟩ := List.mem_flatMap.mp hp
    obtain ⟨v, hv, hxv⟩ := List.mem_iff_getElem.mp hx
    have hx' : c.vars[v]? = some x := by rw [List.getElem?_eq_getElem hv, hxv]
    obtain ⟨h1, h2⟩ := windows2_mem _ _ hp
    obtain ⟨w, hw1, e1⟩ := List.mem_map.mp h1
    obtain ⟨w', hw2, e2⟩ := List.mem_map.mp h2
    exact ⟨w, w', v, v, (mem_wiresOf hw hx' w).mp hw1, (mem_wiresOf hw hx' w').mp hw2,
      by rw [e1, e2], .inl rfl⟩
  · obtain ⟨q, hq, h1⟩ := mapM_mem_right _ _ _ he p hp
    obtain ⟨w, w', c1, c2, e⟩ := assertPair_ok hw h1
    exact ⟨w, w', q.1, q.2, c1, c2, e, .inr hq⟩

theorem linked_iff {c : Circuit F} (hw : Wired c) {wires : List (ℕ × ℕ)}
    (h : c.getWiring = .ok wires) {w w' : GateWire} {v v' : ℕ} (hc : Carries c w v)
    (hc' : Carries c w' v') :
    Linked wires (c.getWireGlobalIndex w) (c.getWireGlobalIndex w') ↔ EqLinked c v v' := by
  constructor
  · intro hl
    have key : ∀ i j, Linked wires i j → i = j ∨ ∃ w w' v v', Carries c w v ∧ Carries c w' v' ∧
        c.getWireGlobalIndex w = i ∧ c.getWireGlobalIndex w' = j ∧ EqLinked c v v' := by
      intro i j hij
      induction hij with
      | rel i j hr =>
        right
        obtain ⟨w, w', v, v', c1, c2, e, hor⟩ := wiring_pair hw h hr
        refine ⟨w, w', v, v', c1, c2, (Prod.mk.inj e).1.symm, (Prod.mk.inj e).2.symm, ?_⟩
        rcases hor with rfl | hm
        · exact .refl _
        · exact .rel _ _ hm
      | refl i => exact .inl rfl
      | symm i j _ ih =>
        rcases ih with rfl | ⟨w, w', v, v', c1, c2, e1, e2, hl⟩
        · exact .inl rfl
        · exact .inr ⟨w', w, v', v, c2, c1, e2, e1, .symm _ _ hl⟩
      | trans i j k _ _ ih1 ih2 =>
        rcases ih1 with rfl | ⟨w, w', v, v', c1, c2, e1, e2, hl⟩
        · exact ih2
        · rcases ih2 with rfl | ⟨u, u', t, t', d1, d2, f1, f2, hl'⟩
          · exact .inr ⟨w, w', v, v', c1, c2, e1, e2, hl⟩
          · obtain rfl := index_inj c2 d1 (by rw [e2, f1])
            obtain rfl := carries_fun c2 d1
            exact .inr ⟨w, u', v, t', c1, d2, e1, f2, .trans _ _ _ hl hl'⟩
    rcases key _ _ hl with he | ⟨u, u', t, t', d1, d2, e1, e2, hl'⟩
    · obtain rfl := index_inj hc hc' he
      obtain rfl := carries_fun hc hc'
      exact .refl _
    · obtain rfl := index_inj hc d1 e1.symm
      obtain rfl := index_inj hc' d2 e2.symm
      obtain rfl := carries_fun hc d1
      obtain rfl := carries_fun hc' d2
      exact hl'
  · intro hl
    obtain ⟨-, eqs, he, hwires⟩ := getWiring_ok.mp h
    have own : ∀ v w w', Carries c w v → Carries c w' v →
        Linked wires (c.getWireGlobalIndex w) (c.getWireGlobalIndex w') := by
      intro v w w' c1 c2
      have hv := hw.range _ _ c1
      have hx := List.getElem?_eq_getElem hv
      refine windows2_linked wires ((wiresOf c.vars[v]).map c.getWireGlobalIndex) ?_ _
        (List.mem_map_of_mem ((mem_wiresOf hw hx w).mpr c1)) _
        (List.mem_map_of_mem ((mem_wiresOf hw hx w').mpr c2))
      intro p hp
      rw [hwires, List.mem_append]
      exact .inl (List.mem_flatMap.mpr ⟨_, List.getElem_mem hv, hp⟩)
    have key : ∀ v v', EqLinked c v v' → v = v' ∨ (Connected c v ∧ Connected c v' ∧
        ∀ w w', Carries c w v → Carries c w' v' →
          Linked wires (c.getWireGlobalIndex w) (c.getWireGlobalIndex w')) := by
      intro v v' hvv
      induction hvv with
      | rel a b hr =>
        right
        obtain ⟨q, hq, h1⟩ := mapM_mem_left _ _ _ he (a, b) hr
        obtain ⟨u, u', d1, d2, rfl⟩ := assertPair_ok hw h1
        refine ⟨⟨u, d1⟩, ⟨u', d2⟩, fun w w' c1 c2 => ?_⟩
        have : Linked wires (c.getWireGlobalIndex u) (c.getWireGlobalIndex u') :=
          .rel _ _ (by rw [hwires, List.mem_append]; exact .inr hq)
        exact .trans _ _ _ (own _ _ _ c1 d1) (.trans _ _ _ this (own _ _ _ d2 c2))
      | refl a => exact .inl rfl
      | symm a b _ ih =>
        rcases ih with rfl | ⟨h1, h2, h3⟩
        · exact .inl rfl
        · exact .inr ⟨h2, h1, fun w w' c1 c2 => .symm _ _ (h3 w' w c2 c1)⟩
      | trans a b d _ _ ih1 ih2 =>
        rcases ih1 with rfl | ⟨h1, h2, h3⟩
        · exact ih2
        · rcases ih2 with rfl | ⟨g1, g2, g3⟩
          · exact .inr ⟨h1, h2, h3⟩
          · obtain ⟨u, hu⟩ := g1
            exact .inr ⟨h1, g2, fun w w' c1 c2 => .trans _ _ _ (h3 w u c1 hu) (g3 u w' hu c2)⟩
    rcases key v v' hl with rfl | ⟨-, -, h3⟩
    · exact own _ _ _ hc hc'
    · exact h3 _ _ hc hc'

theorem getWiring_exists {c : Circuit F} (hw : Wired c) (hc : c.isComplete = true)
    (h : ∀ p ∈ c.assertEquals, Connected c p.1 ∧ Connected c p.2) :
    ∃ wires, c.getWiring = .ok wires := by
  obtain ⟨eqs, he⟩ := mapM_exists c.assertPair c.assertEquals
    (fun p hp => assertPair_exists hw (h p hp).1 (h p hp).2)
  exact ⟨_, getWiring_ok.mpr ⟨hc, eqs, he, rfl⟩⟩

theorem getWiring_connected {c : Circuit F} (hw : Wired c) {wires : List (ℕ × ℕ)}
    (h : c.getWiring = .ok wires) : ∀ p ∈ c.assertEquals, Connected c p.1 ∧ Connected c p.2 := by
  obtain ⟨-, eqs, he, -⟩ := getWiring_ok.mp h
  intro p hp
  obtain ⟨q, -, h1⟩ := mapM_mem_left _ _ _ he p hp
  obtain ⟨w, w', c1, c2, -⟩ := assertPair_ok hw h1
  exact ⟨⟨w, c1⟩, ⟨w', c2⟩⟩

end Circuit

end VO
