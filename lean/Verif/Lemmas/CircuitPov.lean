import Verif.Lemmas.Wiring
import Verif.Spec.Cs
import Verif.Lemmas.Cs
import Mathlib.Data.List.Forall2

/-
The POV system, instance and witness of a circuit.
-/

set_option linter.unusedSectionVars false

namespace VO
open Spec

variable {F : Type} [Field F] [DecidableEq F]

namespace Circuit

/-! ### History of assertions and public variables -/

theorem step_asserts {c c' : Circuit F} (x : Call F) (h : c.step x = .ok c') :
    c'.assertEquals = c.assertEquals ++ asserted [x] := by
  cases x with
  | input =>
    obtain ⟨r, h⟩ := map_snd_ok h
    unfold addGlobalInputVariable at h
    split at h
    · cases h
    · obtain ⟨-, rfl⟩ := Prod.mk.inj (Except.ok.inj h)
      simp [asserted]
  | bin k a b =>
    obtain ⟨r, h⟩ := map_snd_ok h
    unfold binVars at h
    simp only at h
    split at h
    · obtain ⟨-, rfl⟩ := Prod.mk.inj (Except.ok.inj h); simp [asserted]
    · split at h
      · cases h
      · rename_i c1 h1
        obtain ⟨-, rfl⟩ := Prod.mk.inj (Except.ok.inj h)
        rcases freshBin_spec c k (if a < b then (a, b) else (b, a)).1
          (if a < b then (a, b) else (b, a)).2 with ⟨-, -, xs, h2, -⟩ | ⟨-, e, c2, h2⟩
        · rw [show c.addNewVariable.1 = c.vars.length from rfl, h2] at h1
          obtain rfl := (Prod.mk.inj h1).2
          simp [asserted]
        · rw [show c.addNewVariable.1 = c.vars.length from rfl, h2] at h1; cases h1
  | const v =>
    obtain ⟨r, h⟩ := map_snd_ok h
    unfold constVar at h
    simp only at h
    split at h
    · obtain ⟨-, rfl⟩ := Prod.mk.inj (Except.ok.inj h); simp [asserted]
    · split at h
      · cases h
      · rename_i c1 h1
        obtain ⟨-, rfl⟩ := Prod.mk.inj (Except.ok.inj h)
        rcases addConstGate_spec c.addNewVariable.2 v c.vars.length with
          ⟨-, xs, h2, -⟩ | ⟨-, e, c2, h2⟩
        · rw [show c.addNewVariable.1 = c.vars.length from rfl, h2] at h1
          obtain rfl := (Prod.mk.inj h1).2
          simp [asserted, addNewVariable]
        · rw [show c.addNewVariable.1 = c.vars.length from rfl, h2] at h1; cases h1
  | assertEq a b =>
    obtain ⟨-, rfl⟩ := assertEqual_ok h
    simp [asserted]
  | complete =>
    obtain ⟨rfl, -⟩ := unwrapS_ok h
    rw [markAsComplete_state]; simp [asserted]
  | tryComplete =>
    obtain rfl := Except.ok.inj h
    rw [markAsComplete_state]; simp [asserted]
  | markPublic v => rw [markVariableAsPublic_state h]; simp [asserted]
  | assignInputs l => rw [(assignGlobalInputs_ok h).1.assertEquals]; simp [asserted]
  | assignPublic l => rw [(assignPublicIo_same h).assertEquals]; simp [asserted]
  | evaluate l => rw [(evaluate_same h).assertEquals]; simp [asserted]
  | newVar =>
    obtain rfl := Except.ok.inj h
    simp [asserted, addNewVariable]
  | rawGate k a b out =>
    obtain ⟨h1, u, h2⟩ := unwrapS_ok h
    rcases addBinGate_spec c k a b out with ⟨-, -, -, xs, h3, -⟩ | ⟨-, e, c2, h3⟩
    · rw [h3] at h1; rw [← h1]; simp [asserted]
    · rw [h3] at h2; cases h2
  | rawConst v out =>
    obtain ⟨h1, u, h2⟩ := unwrapS_ok h
    rcases addConstGate_spec c v out with ⟨-, xs, h3, -⟩ | ⟨-, e, c2, h3⟩
    · rw [h3] at h1; rw [← h1]; simp [asserted]
    · rw [h3] at h2; cases h2

theorem builds_asserts {c c' : Circuit F} {l : List (Call F)} (h : Builds c l c') :
    c'.assertEquals = c.assertEquals ++ asserted l := by
  induction h with
  | nil c => simp [asserted]
  | @cons c c1 c2 x l hr h1 h2 ih =>
    rw [ih, step_asserts x h1, List.append_assoc]
    congr 1
    unfold asserted
    rw [← List.filterMap_append]; rfl

theorem markPublic_spec {c c' : Circuit F} {v : ℕ} (hw : Wired c)
    (h : c.markVariableAsPublic v = .ok c') :
    ∃ w, Carries c w v ∧ c' = { c with publicIo := c.publicIo ++ [w] } := by
  unfold markVariableAsPublic at h
  split at h
  · cases h
  · rename_i x hx
    split at h
    · rename_i w hw'
      exact ⟨.output w, (hw.driver v x hx w).mp hw', (Except.ok.inj h).symm⟩
    · rename_i w l h1 h2
      exact ⟨.input w, (hw.inputs v x hx w).mp (by rw [h2]; simp), (Except.ok.inj h).symm⟩
    · cases h

theorem step_public {c c' : Circuit F} (x : Call F) (hx : HighLevel x) (hg : Good c)
    (hr : ∀ v ∈ refs x, v < c.vars.length) (h : c.step x = .ok c') :
    ∃ ws, c'.publicIo = c.publicIo ++ ws ∧ List.Forall₂ (Carries c') ws (publicVars [x]) := by
  cases x with
  | input =>
    obtain ⟨r, h⟩ := map_snd_ok h
    have := good_newInput hg h
    exact ⟨[], by simp [this.2.2.2.2.2.2.2.2.2.1], by simp [publicVars]⟩
  | bin k a b =>
    obtain ⟨r, h⟩ := map_snd_ok h
    have := binVars_spec hg (hr a (by simp [refs])) (hr b (by simp [refs])) h
    exact ⟨[], by simp [this.2.2.2.2.2.1], by simp [publicVars]⟩
  | const v =>
    obtain ⟨r, h⟩ := map_snd_ok h
    have := constVar_spec hg h
    exact ⟨[], by simp [this.2.2.2.2.2.1], by simp [publicVars]⟩
  | assertEq a b =>
    obtain ⟨-, rfl⟩ := assertEqual_ok h
    exact ⟨[], by simp, by simp [publicVars]⟩
  | complete =>
    obtain ⟨rfl, -⟩ := unwrapS_ok h
    exact ⟨[], by rw [markAsComplete_state]; simp, by simp [publicVars]⟩
  | tryComplete =>
    obtain rfl := Except.ok.inj h
    exact ⟨[], by rw [markAsComplete_state]; simp, by simp [publicVars]⟩
  | markPublic v =>
    obtain ⟨w, hc, rfl⟩ := markPublic_spec hg.wired h
    refine ⟨[w], rfl, ?_⟩
    have : Carries ({ c with publicIo := c.publicIo ++ [w] } : Circuit F) w v := by
      match w with
      | .input ⟨k, i, s⟩ => cases k <;> exact hc
      | .output (.bin k i) => cases k <;> exact hc
      | .output (.const i) => exact hc
    simpa [publicVars] using this
  | assignInputs l =>
    exact ⟨[], by rw [(assignGlobalInputs_ok h).1.publicIo]; simp, by simp [publicVars]⟩
  | assignPublic l =>
    exact ⟨[], by rw [(assignPublicIo_same h).publicIo]; simp, by simp [publicVars]⟩
  | evaluate l => exact ⟨[], by rw [(evaluate_same h).publicIo]; simp, by simp [publicVars]⟩
  | newVar => exact hx.elim
  | rawGate k a b out => exact hx.elim
  | rawConst v out => exact hx.elim

theorem builds_public {c c' : Circuit F} {l : List (Call F)} (h : Builds c l c')
    (hl : ∀ x ∈ l, HighLevel x) (hg : Good c) :
    ∃ ws, c'.publicIo = c.publicIo ++ ws ∧ List.Forall₂ (Carries c') ws (publicVars l) := by
  induction h with
  | nil c => exact ⟨[], by simp, by simp [publicVars]⟩
  | @cons c c1 c2 x l hr h1 h2 ih =>
    obtain ⟨ws, e1, f1⟩ := step_public x (hl _ (by simp)) hg hr h1
    obtain ⟨g1, -⟩ := step_good _ (hl _ (by simp)) hr hg h1
    obtain ⟨ws', e2, f2⟩ := ih (fun x hx => hl x (by simp [hx])) g1
    have hext := (builds_good h2 (fun x hx => hl x (by simp [hx])) g1).2
    refine ⟨ws ++ ws', by rw [e2, e1, List.append_assoc], ?_⟩
    have : publicVars (x :: l) = publicVars [x] ++ publicVars l := by
      unfold publicVars; rw [← List.filterMap_append]; rfl
    rw [this]
    exact List.rel_append (f1.imp (fun a b hab => hext.carries hab)) f2

/-! ### The honest witness -/

/-- The witness with the given values. -/
def witnessOf (c : Circuit F) (val : ℕ → F) : POVWitness F :=
  ⟨c.mulGates.map (fun g => val g.left) ++ c.addGates.map (fun g => val g.left)
      ++ List.replicate c.getConstNum 0,
    c.mulGates.map (fun g => val g.right) ++ c.addGates.map (fun g => val g.right)
      ++ List.replicate c.getConstNum 0,
    c.mulGates.map (fun g => val g.output) ++ c.addGates.map (fun g => val g.output)
      ++ c.constGates.map (fun g => val g.output)⟩

theorem getWitness_eq {c : Circuit F} (hw : Wired c) {val : ℕ → F}
    (hv : ∀ v < c.vars.length, valueOf c v = some (val v)) :
    c.getWitness = .ok (witnessOf c val) := by
  have hval : ∀ w v, Carries c w v → c.getVarValue v = .ok (val v) := fun w v h =>
    (getVarValue_ok c v _).mpr (hv v (hw.range w v h))
  have hbin : ∀ (k : Kind) (g : BinGate), g ∈ c.gates k → c.getVarValue g.left = .ok (val g.left) ∧
      c.getVarValue g.right = .ok (val g.right) ∧ c.getVarValue g.output = .ok (val g.output) := by
    intro k g hg
    obtain ⟨i, hi, hgi⟩ := List.mem_iff_getElem.mp hg
    have h1 : (c.gates k)[i]? = some g := by rw [List.getElem?_eq_getElem hi, hgi]
    exact ⟨hval (.input ⟨k, i, .left⟩) _ ⟨g, h1, rfl⟩, hval (.input ⟨k, i, .right⟩) _ ⟨g, h1, rfl⟩,
      hval (.output (.bin k i)) _ ⟨g, h1, rfl⟩⟩
  have hconst : ∀ g ∈ c.constGates, c.getVarValue g.output = .ok (val g.output) := by
    intro g hg
    obtain ⟨i, hi, hgi⟩ := List.mem_iff_getElem.mp hg
    exact hval (.output (.const i)) _ ⟨g, by rw [List.getElem?_eq_getElem hi, hgi], rfl⟩
  unfold getWitness witnessOf
  rw [mapM_map _ (fun g => val g.left) c.mulGates (fun g hg => (hbin .mul g hg).1),
    mapM_map _ (fun g => val g.left) c.addGates (fun g hg => (hbin .add g hg).1),
    mapM_map _ (fun g => val g.right) c.mulGates (fun g hg => (hbin .mul g hg).2.1),
    mapM_map _ (fun g => val g.right) c.addGates (fun g hg => (hbin .add g hg).2.1),
    mapM_map _ (fun g => val g.output) c.mulGates (fun g hg => (hbin .mul g hg).2.2),
    mapM_map _ (fun g => val g.output) c.addGates (fun g hg => (hbin .add g hg).2.2),
    mapM_map _ (fun g => val g.output) c.constGates hconst]
  rfl

/-- Reading the three columns at a wire's index. -/
theorem povVec_at (w : POVWitness F) (N : ℕ) (h0 : w.w0.length = N) (h1 : w.w1.length = N)
    (col s : ℕ) (hs : s < N) :
    (povVec w)[col * N + s]? = if col = 0 then w.w0[s]? else if col = 1 then w.w1[s]?
      else w.w2[(col - 2) * N + s]? := by
  unfold povVec
  split_ifs with c0 c1
  · subst c0
    rw [List.append_assoc, List.getElem?_append_left (by omega)]; simp
  · subst c1
    rw [List.append_assoc, List.getElem?_append_right (by omega),
      List.getElem?_append_left (by omega)]
    congr 1; omega
  · obtain ⟨d, rfl⟩ : ∃ d, col = d + 2 := ⟨col - 2, by omega⟩
    have e : (d + 2) * N = d * N + 2 * N := by ring
    rw [List.getElem?_append_right (by rw [List.length_append]; omega)]
    congr 1
    rw [List.length_append, Nat.add_sub_cancel]; omega

theorem getElem?_mid {α : Type} (a b c : List α) (i : ℕ) (hi : i < b.length) :
    (a ++ b ++ c)[a.length + i]? = b[i]? := by
  rw [List.append_assoc, List.getElem?_append_right (by omega),
    List.getElem?_append_left (by omega)]
  congr 1; omega

theorem getElem?_fst {α : Type} (a b c : List α) (i : ℕ) (hi : i < a.length) :
    (a ++ b ++ c)[i]? = a[i]? := by
  rw [List.append_assoc, List.getElem?_append_left (by omega)]

theorem getElem?_lst {α : Type} (a b c : List α) (i : ℕ) :
    (a ++ b ++ c)[a.length + b.length + i]? = c[i]? := by
  rw [List.getElem?_append_right (by rw [List.length_append]; omega), List.length_append]
  congr 1; omega

theorem witnessOf_lengths (c : Circuit F) (val : ℕ → F) :
    (witnessOf c val).w0.length = gateCount c ∧ (witnessOf c val).w1.length = gateCount c ∧
      (witnessOf c val).w2.length = gateCount c := by
  simp [witnessOf, gateCount, getConstNum]; omega

/-- The honest witness holds, at the index of every wire, the value of its variable. -/
theorem witnessOf_at {c : Circuit F} (val : ℕ → F) {w : GateWire} {v : ℕ} (h : Carries c w v) :
    (povVec (witnessOf c val))[c.getWireGlobalIndex w]? = some (val v) := by
  obtain ⟨l0, l1, -⟩ := witnessOf_lengths c val
  rw [index_eq, povVec_at _ _ l0 l1 _ _ (slot_lt h)]
  match w with
  | .input ⟨.mul, i, .left⟩ =>
    obtain ⟨g, h1, rfl⟩ := h
    have hi : i < c.mulGates.length := (List.getElem?_eq_some_iff.mp h1).1
    simp only [column, slot, witnessOf, if_true]
    rw [getElem?_fst _ _ _ _ (by simpa using hi), List.getElem?_map]
    change Option.map _ ((c.gates .mul)[i]?) = _
    rw [h1]; rfl
  | .input ⟨.mul, i, .right⟩ =>
    obtain ⟨g, h1, rfl⟩ := h
    have hi : i < c.mulGates.length := (List.getElem?_eq_some_iff.mp h1).1
    simp only [column, slot, witnessOf, one_ne_zero, if_false, if_true]
    rw [getElem?_fst _ _ _ _ (by simpa using hi), List.getElem?_map]
    change Option.map _ ((c.gates .mul)[i]?) = _
    rw [h1]; rfl
  | .input ⟨.add, i, .left⟩ =>
    obtain ⟨g, h1, rfl⟩ := h
    have hi : i < c.addGates.length := (List.getElem?_eq_some_iff.mp h1).1
    simp only [column, slot, witnessOf, if_true]
    have := getElem?_mid (c.mulGates.map (fun g => val g.left))
      (c.addGates.map (fun g => val g.left)) (List.replicate c.getConstNum 0) i (by simpa using hi)
    rw [List.length_map] at this
    rw [this, List.getElem?_map]
    change Option.map _ ((c.gates .add)[i]?) = _
    rw [h1]; rfl
  | .input ⟨.add, i, .right⟩ =>
    obtain ⟨g, h1, rfl⟩ := h
    have hi : i < c.addGates.length := (List.getElem?_eq_some_iff.mp h1).1
    simp only [column, slot, witnessOf, one_ne_zero, if_false, if_true]
    have := getElem?_mid (c.mulGates.map (fun g => val g.right))
      (c.addGates.map (fun g => val g.right)) (List.replicate c.getConstNum 0) i (by simpa using hi)
    rw [List.length_map] at this
    rw [this, List.getElem?_map]
    change Option.map _ ((c.gates .add)[i]?) = _
    rw [h1]; rfl
  | .output (.bin .mul i) =>
    obtain ⟨g, h1, rfl⟩ := h
    have hi : i < c.mulGates.length := (List.getElem?_eq_some_iff.mp h1).1
    simp only [column, slot, witnessOf, OfNat.ofNat_ne_zero, OfNat.ofNat_ne_one, if_false,
      Nat.sub_self, Nat.zero_mul, Nat.zero_add]
    rw [getElem?_fst _ _ _ _ (by simpa using hi), List.getElem?_map]
    change Option.map _ ((c.gates .mul)[i]?) = _
    rw [h1]; rfl
  | .output (.bin .add i) =>
    obtain ⟨g, h1, rfl⟩ := h
    have hi : i < c.addGates.length := (List.getElem?_eq_some_iff.mp h1).1
    simp only [column, slot, witnessOf, OfNat.ofNat_ne_zero, OfNat.ofNat_ne_one, if_false,
      Nat.sub_self, Nat.zero_mul, Nat.zero_add]
    have := getElem?_mid (c.mulGates.map (fun g => val g.output))
      (c.addGates.map (fun g => val g.output)) (c.constGates.map (fun g => val g.output)) i
      (by simpa using hi)
    rw [List.length_map] at this
    rw [this, List.getElem?_map]
    change Option.map _ ((c.gates .add)[i]?) = _
    rw [h1]; rfl
  | .output (.const i) =>
    obtain ⟨g, h1, rfl⟩ := h
    simp only [column, slot, witnessOf, OfNat.ofNat_ne_zero, OfNat.ofNat_ne_one, if_false,
      Nat.sub_self, Nat.zero_mul, Nat.zero_add]
    have := getElem?_lst (c.mulGates.map (fun g => val g.output))
      (c.addGates.map (fun g => val g.output)) (c.constGates.map (fun g => val g.output)) i
    rw [List.length_map, List.length_map] at this
    rw [this, List.getElem?_map, h1]; rfl

/-- Gate equations of a POV witness in terms of the circuit's wires. -/
theorem gatesHold_iff (c : Circuit F) (wires : List (ℕ × ℕ)) (w : POVWitness F)
    (hs : PovShape ⟨c.getConsts, wires, c.getMulNum, c.getAddNum⟩ w) :
    GatesHold ⟨c.getConsts, wires, c.getMulNum, c.getAddNum⟩ w ↔
      (∀ (k : Kind) (i : ℕ), i < (c.gates k).length → ∃ x y,
        (povVec w)[c.getWireGlobalIndex (.input ⟨k, i, .left⟩)]? = some x ∧
        (povVec w)[c.getWireGlobalIndex (.input ⟨k, i, .right⟩)]? = some y ∧
        (povVec w)[c.getWireGlobalIndex (.output (.bin k i))]? = some (arith k x y)) ∧
      (∀ (i : ℕ) (g : ConstGate F), c.constGates[i]? = some g →
        (povVec w)[c.getWireGlobalIndex (.output (.const i))]? = some g.value) := by
  obtain ⟨h0, h1, h2⟩ := hs
  simp only [getConsts, List.length_map, getMulNum, getAddNum] at h0 h1 h2
  have hN : gateCount c = c.mulGates.length + c.addGates.length + c.constGates.length := rfl
  have at0 : ∀ s < gateCount c, (povVec w)[0 * gateCount c + s]? = some (w.w0.getD s 0) := by
    intro s hs
    rw [povVec_at w (gateCount c) h0 h1 0 s hs, if_pos rfl, List.getElem?_eq_getElem (by omega)]
    simp [List.getD, show s < w.w0.length by omega]
  have at1 : ∀ s < gateCount c, (povVec w)[1 * gateCount c + s]? = some (w.w1.getD s 0) := by
    intro s hs
    rw [povVec_at w (gateCount c) h0 h1 1 s hs, if_neg (by omega), if_pos rfl,
      List.getElem?_eq_getElem (by omega)]
    simp [List.getD, show s < w.w1.length by omega]
  have at2 : ∀ s < gateCount c, (povVec w)[2 * gateCount c + s]? = some (w.w2.getD s 0) := by
    intro s hs
    rw [povVec_at w (gateCount c) h0 h1 2 s hs, if_neg (by omega), if_neg (by omega)]
    simp [List.getD, show s < w.w2.length by omega]
  have hmul : ∀ i < c.mulGates.length,
      (povVec w)[c.getWireGlobalIndex (.input ⟨.mul, i, .left⟩)]? = some (w.w0.getD i 0) ∧
      (povVec w)[c.getWireGlobalIndex (.input ⟨.mul, i, .right⟩)]? = some (w.w1.getD i 0) ∧
      (povVec w)[c.getWireGlobalIndex (.output (.bin .mul i))]? = some (w.w2.getD i 0) := by
    intro i hi
    rw [index_eq, index_eq, index_eq]
    exact ⟨at0 i (by omega), at1 i (by omega), at2 i (by omega)⟩
  have hadd : ∀ i < c.addGates.length,
      (povVec w)[c.getWireGlobalIndex (.input ⟨.add, i, .left⟩)]?
        = some (w.w0.getD (c.mulGates.length + i) 0) ∧
      (povVec w)[c.getWireGlobalIndex (.input ⟨.add, i, .right⟩)]?
        = some (w.w1.getD (c.mulGates.length + i) 0) ∧
      (povVec w)[c.getWireGlobalIndex (.output (.bin .add i))]?
        = some (w.w2.getD (c.mulGates.length + i) 0) := by
    intro i hi
    rw [index_eq, index_eq, index_eq]
    exact ⟨at0 (c.mulGates.length + i) (by omega), at1 (c.mulGates.length + i) (by omega),
      at2 (c.mulGates.length + i) (by omega)⟩
  have hconst : ∀ i < c.constGates.length,
      (povVec w)[c.getWireGlobalIndex (.output (.const i))]?
        = some (w.w2.getD (c.mulGates.length + c.addGates.length + i) 0) := by
    intro i hi
    rw [index_eq]
    exact at2 (c.mulGates.length + c.addGates.length + i) (by omega)
  constructor
  · rintro ⟨g1, g2, g3⟩
    refine ⟨?_, ?_⟩
    · intro k i hi
      cases k
      · obtain ⟨e1, e2, e3⟩ := hadd i hi
        exact ⟨_, _, e1, e2, by rw [e3]; exact congrArg some (g2 i hi)⟩
      · obtain ⟨e1, e2, e3⟩ := hmul i hi
        exact ⟨_, _, e1, e2, by rw [e3]; exact congrArg some (g1 i hi)⟩
    · intro i g hg
      have hi := (List.getElem?_eq_some_iff.mp hg).1
      rw [hconst i hi]
      have := g3 i (by simpa [getConsts] using hi)
      simp only [getMulNum, getAddNum, getConsts] at this
      rw [this]
      simp [List.getD, hg]
  · rintro ⟨g1, g2⟩
    refine ⟨?_, ?_, ?_⟩
    · intro i hi
      obtain ⟨e1, e2, e3⟩ := hmul i hi
      obtain ⟨x, y, f1, f2, f3⟩ := g1 .mul i hi
      rw [e1] at f1; rw [e2] at f2; rw [e3] at f3
      rw [Option.some.inj f1, Option.some.inj f2, Option.some.inj f3]; rfl
    · intro i hi
      obtain ⟨e1, e2, e3⟩ := hadd i hi
      obtain ⟨x, y, f1, f2, f3⟩ := g1 .add i hi
      rw [e1] at f1; rw [e2] at f2; rw [e3] at f3
      simp only [getMulNum]
      rw [Option.some.inj f1, Option.some.inj f2, Option.some.inj f3]; rfl
    · intro i hi
      simp only [getConsts, List.length_map] at hi
      have e := hconst i hi
      have f := g2 i _ (List.getElem?_eq_getElem hi)
      rw [e] at f
      simp only [getMulNum, getAddNum]
      rw [Option.some.inj f]
      simp [getConsts, List.getD, hi]

theorem ofCircuit_ok {c : Circuit F} {p : POV F} (h : POV.ofCircuit c = .ok p) :
    ∃ wires, c.getWiring = .ok wires ∧ p = ⟨c.getConsts, wires, c.getMulNum, c.getAddNum⟩ := by
  unfold POV.ofCircuit at h
  split at h
  · cases h
  · rename_i wires hw
    exact ⟨wires, hw, (Except.ok.inj h).symm⟩

/-- The derived system does not depend on values. -/
theorem ofCircuit_sameShape {c c' : Circuit F} (h : SameShape c c') :
    POV.ofCircuit c' = POV.ofCircuit c := by
  have hidx : c'.getWireGlobalIndex = c.getWireGlobalIndex := by
    funext w
    rw [h.1]; rfl
  have hwo : c'.vars.flatMap (fun x => windows2 ((wiresOf x).map c'.getWireGlobalIndex))
      = c.vars.flatMap (fun x => windows2 ((wiresOf x).map c.getWireGlobalIndex)) := by
    rw [hidx]
    have e : ∀ l : List (Variable F),
        l.flatMap (fun x => windows2 ((wiresOf x).map c.getWireGlobalIndex))
        = (l.map (fun x => (x.inputWires, x.outputWire))).flatMap (fun q =>
          windows2 ((wiresOf (F := F) ⟨q.1, q.2, none⟩).map c.getWireGlobalIndex)) := by
      intro l
      rw [List.flatMap_map]
      rfl
    rw [e, e, h.2]
  have hap : c'.assertPair = c.assertPair := by
    funext p
    unfold assertPair
    rw [hidx]
    have hany : ∀ v : ℕ, (c'.vars[v]?).map anyWire = (c.vars[v]?).map anyWire := by
      intro v
      rcases h0 : c'.vars[v]? with _ | x
      · have : c.vars[v]? = none := by
          rw [List.getElem?_eq_none_iff] at h0 ⊢
          rw [← h.length]; exact h0
        rw [this]
      · obtain ⟨x0, h1, h2, h3⟩ := h.back v x h0
        rw [h1]
        simp [anyWire, h2, h3]
    have h1 := hany p.1
    have h2 := hany p.2
    generalize c'.vars[p.1]? = o1 at h1
    generalize c.vars[p.1]? = o2 at h1
    generalize c'.vars[p.2]? = o3 at h2
    generalize c.vars[p.2]? = o4 at h2
    rcases o1 with _ | x <;> rcases o2 with _ | x0 <;>
      simp only [Option.map_some, Option.map_none, reduceCtorEq, Option.some.injEq] at h1
    · rfl
    · rcases o3 with _ | y <;> rcases o4 with _ | y0 <;>
        simp only [Option.map_some, Option.map_none, reduceCtorEq, Option.some.injEq] at h2
      · simp only [h1]
      · simp only [h1, h2]
  have hwir : c'.getWiring = c.getWiring := by
    unfold getWiring assertComplete isComplete
    rw [h.outputs, h.assertEquals, hap, hwo]
  unfold POV.ofCircuit
  rw [hwir]
  unfold getConsts getMulNum getAddNum
  rw [h.constGates, show c'.mulGates = c.mulGates from h.gates .mul,
    show c'.addGates = c.addGates from h.gates .add]

end Circuit

end VO
