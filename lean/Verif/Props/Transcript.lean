import Verif.Lemmas.Transcript
import Verif.Model.Fibonacci
import Verif.Model.Pov
import Verif.Model.PovPe
import Verif.Model.R1csSnark
import Verif.Model.R1csPe
import Verif.Model.HprSnark
import Verif.Model.RangeCheck
import Verif.Lemmas.SnarkExample

/-
Property theorems C153: the bytes that are hashed determine the transcript
(`/repo/voproof/src/tools/mod.rs:119-129, 1001-1028` and the calls of `get_randomness_from_hash!` in
`/repo/voproof/src/snarks`).
-/

set_option linter.unusedSectionVars false
set_option linter.unusedSimpArgs false

namespace VO
open Spec

variable {F G1 G2 GT : Type} [Field F] [DecidableEq F]
  [AddCommGroup G1] [DecidableEq G1] [Module F G1] [AddCommGroup G2] [Module F G2]
  [AddCommGroup GT] [Module F GT] [DecidableEq GT]

/-- **C153.** Two lists of items whose types follow the same pattern, as far as they go, are equal when they are
written to the same bytes. -/
theorem C153_bytes (cf : Codec F) (cg : Codec G1) (hf : Faithful cf) (hg : Faithful cg) (ks : List Kind)
    (l l' : List (Item F G1)) (h : Follows ks l) (h' : Follows ks l') (hl : ∀ i ∈ l, FitsU64 i)
    (hl' : ∀ i ∈ l', FitsU64 i) (hb : toBytes cf cg l = toBytes cf cg l') : l = l' :=
  toBytes_inj hf hg ks h h' hl hl' hb

/-! ## The seven proof systems

In each theorem: whatever challenge is assigned to each list of items, there is a hash function on bytes that
gives the same challenges, so that prover and verifier do the same, for all keys, instances, witnesses and
proofs. In other words: no two different transcripts of a proof system, at whatever step, are hashed from the
same bytes. -/

/-- **C153 (Fibonacci).** -/
theorem C153_fibonacci (cf : Codec F) (cg : Codec G1) (hf : Faithful cf) (hg : Faithful cg)
    (env : Env F G1 G2 GT) : ∃ H : List UInt8 → F,
      let env' := { env with hash := fun l => H (toBytes cf cg l) }
      ∀ x : FibInstance F, (∀ pk w, fibProve env' pk x w = fibProve env pk x w) ∧
        ∀ vk π, fibVerify env' vk x π = fibVerify env vk x π := by
  obtain ⟨H, hH⟩ := ok_onBytes hf hg (.fld :: List.replicate 7 .cm ++ List.replicate 5 .fld) env.hash
  refine ⟨H, fun x => ?_⟩
  have e3 : ∀ a : F, FitsU64 (.fld a : Item F G1) := fun _ => trivial
  have e4 : ∀ a : G1, FitsU64 (.cm a : Item F G1) := fun _ => trivial
  refine ⟨fun pk w => ?_, fun vk π => ?_⟩
  · unfold fibProve
    simp only [hH, fibAlpha, fibOmega, fibZ, fibXi, okItems, kind, e3, e4, List.cons_append, List.nil_append, List.map_cons,
        List.map_nil, List.replicate, true_and, and_true, and_self]
  · unfold fibVerify
    simp only [hH, fibAlpha, fibOmega, fibZ, fibXi, okItems, kind, e3, e4, List.cons_append, List.nil_append, List.map_cons,
        List.map_nil, List.replicate, true_and, and_true, and_self]
    try rfl

/-- **C153 (POV).** -/
theorem C153_pov (cf : Codec F) (cg : Codec G1) (hf : Faithful cf) (hg : Faithful cg)
    (env : Env F G1 G2 GT) : ∃ H : List UInt8 → F,
      let env' := { env with hash := fun l => H (toBytes cf cg l) }
      ∀ x : POVInstance F, x.idx.length < 2 ^ 64 → (∀ i ∈ x.idx, i < 2 ^ 64) →
        x.vals.length < 2 ^ 64 → (∀ pk w, povProve env' pk x w = povProve env pk x w) ∧
        ∀ vk π, povVerify env' vk x π = povVerify env vk x π := by
  obtain ⟨H, hH⟩ := ok_onBytes hf hg ([.fld, .nats, .flds] ++ List.replicate 8 .cm ++ List.replicate 4 .fld) env.hash
  refine ⟨H, fun x h1 h2 h3 => ?_⟩
  have e1 : FitsU64 (.nats x.idx : Item F G1) := ⟨h1, h2⟩
  have e2 : FitsU64 (.flds x.vals : Item F G1) := h3
  have e3 : ∀ a : F, FitsU64 (.fld a : Item F G1) := fun _ => trivial
  have e4 : ∀ a : G1, FitsU64 (.cm a : Item F G1) := fun _ => trivial
  refine ⟨fun pk w => ?_, fun vk π => ?_⟩
  · unfold povProve
    simp only [hH, povPrefix, povXiItems, okItems, kind, e1, e2, e3, e4, List.cons_append, List.nil_append, List.map_cons,
        List.map_nil, List.replicate, true_and, and_true, and_self]
  · unfold povVerify
    simp only [hH, povPrefix, povXiItems, okItems, kind, e1, e2, e3, e4, List.cons_append, List.nil_append, List.map_cons,
        List.map_nil, List.replicate, true_and, and_true, and_self]
    try rfl

/-- **C153 (prover-efficient POV).** -/
theorem C153_pov_pe (cf : Codec F) (cg : Codec G1) (hf : Faithful cf) (hg : Faithful cg)
    (env : Env F G1 G2 GT) : ∃ H : List UInt8 → F,
      let env' := { env with hash := fun l => H (toBytes cf cg l) }
      ∀ x : POVInstance F, x.idx.length < 2 ^ 64 → (∀ i ∈ x.idx, i < 2 ^ 64) →
        x.vals.length < 2 ^ 64 → (∀ pk w, povPeProve env' pk x w = povPeProve env pk x w) ∧
        ∀ vk π, povPeVerify env' vk x π = povPeVerify env vk x π := by
  obtain ⟨H, hH⟩ := ok_onBytes hf hg ([.fld, .nats, .flds] ++ List.replicate 9 .cm ++ List.replicate 4 .fld) env.hash
  refine ⟨H, fun x h1 h2 h3 => ?_⟩
  have e1 : FitsU64 (.nats x.idx : Item F G1) := ⟨h1, h2⟩
  have e2 : FitsU64 (.flds x.vals : Item F G1) := h3
  have e3 : ∀ a : F, FitsU64 (.fld a : Item F G1) := fun _ => trivial
  have e4 : ∀ a : G1, FitsU64 (.cm a : Item F G1) := fun _ => trivial
  refine ⟨fun pk w => ?_, fun vk π => ?_⟩
  · unfold povPeProve
    simp only [hH, povPrefix, povPeXiItems, okItems, kind, e1, e2, e3, e4, List.cons_append, List.nil_append, List.map_cons,
        List.map_nil, List.replicate, true_and, and_true, and_self]
  · unfold povPeVerify
    simp only [hH, povPrefix, povPeXiItems, okItems, kind, e1, e2, e3, e4, List.cons_append, List.nil_append, List.map_cons,
        List.map_nil, List.replicate, true_and, and_true, and_self]
    try rfl

/-- **C153 (R1CS).** -/
theorem C153_r1cs (cf : Codec F) (cg : Codec G1) (hf : Faithful cf) (hg : Faithful cg)
    (env : Env F G1 G2 GT) : ∃ H : List UInt8 → F,
      let env' := { env with hash := fun l => H (toBytes cf cg l) }
      ∀ x : List F, x.length < 2 ^ 64 → (∀ pk w, r1csProve env' pk x w = r1csProve env pk x w) ∧
        ∀ vk π, r1csVerify env' vk x π = r1csVerify env vk x π := by
  obtain ⟨H, hH⟩ := ok_onBytes hf hg ([.fld, .flds] ++ List.replicate 12 .cm ++ List.replicate 4 .fld) env.hash
  refine ⟨H, fun x h1 => ?_⟩
  have e1 : FitsU64 (.flds x : Item F G1) := h1
  have e3 : ∀ a : F, FitsU64 (.fld a : Item F G1) := fun _ => trivial
  have e4 : ∀ a : G1, FitsU64 (.cm a : Item F G1) := fun _ => trivial
  refine ⟨fun pk w => ?_, fun vk π => ?_⟩
  · unfold r1csProve
    simp only [hH, r1csPrefix, r1csXiItems, okItems, kind, e1, e3, e4, List.cons_append, List.nil_append, List.map_cons,
        List.map_nil, List.replicate, true_and, and_true, and_self]
  · unfold r1csVerify
    simp only [hH, r1csPrefix, r1csXiItems, okItems, kind, e1, e3, e4, List.cons_append, List.nil_append, List.map_cons,
        List.map_nil, List.replicate, true_and, and_true, and_self]
    try rfl

/-- **C153 (prover-efficient R1CS).** -/
theorem C153_r1cs_pe (cf : Codec F) (cg : Codec G1) (hf : Faithful cf) (hg : Faithful cg)
    (env : Env F G1 G2 GT) : ∃ H : List UInt8 → F,
      let env' := { env with hash := fun l => H (toBytes cf cg l) }
      ∀ x : List F, x.length < 2 ^ 64 → (∀ pk w, r1csPeProve env' pk x w = r1csPeProve env pk x w) ∧
        ∀ vk π, r1csPeVerify env' vk x π = r1csPeVerify env vk x π := by
  obtain ⟨H, hH⟩ := ok_onBytes hf hg ([.fld, .flds] ++ List.replicate 15 .cm ++ List.replicate 5 .fld) env.hash
  refine ⟨H, fun x h1 => ?_⟩
  have e1 : FitsU64 (.flds x : Item F G1) := h1
  have e3 : ∀ a : F, FitsU64 (.fld a : Item F G1) := fun _ => trivial
  have e4 : ∀ a : G1, FitsU64 (.cm a : Item F G1) := fun _ => trivial
  refine ⟨fun pk w => ?_, fun vk π => ?_⟩
  · unfold r1csPeProve
    simp only [hH, r1csPrefix, r1csPeXiItems, okItems, kind, e1, e3, e4, List.cons_append, List.nil_append, List.map_cons,
        List.map_nil, List.replicate, true_and, and_true, and_self]
  · unfold r1csPeVerify
    simp only [hH, r1csPrefix, r1csPeXiItems, okItems, kind, e1, e3, e4, List.cons_append, List.nil_append, List.map_cons,
        List.map_nil, List.replicate, true_and, and_true, and_self]
    try rfl

/-- **C153 (HPR).** -/
theorem C153_hpr (cf : Codec F) (cg : Codec G1) (hf : Faithful cf) (hg : Faithful cg)
    (env : Env F G1 G2 GT) : ∃ H : List UInt8 → F,
      let env' := { env with hash := fun l => H (toBytes cf cg l) }
      ∀ x : List F, x.length < 2 ^ 64 → (∀ pk w, hprProve env' pk x w = hprProve env pk x w) ∧
        ∀ vk π, hprVerify env' vk x π = hprVerify env vk x π := by
  obtain ⟨H, hH⟩ := ok_onBytes hf hg ([.fld, .flds] ++ List.replicate 12 .cm ++ List.replicate 4 .fld) env.hash
  refine ⟨H, fun x h1 => ?_⟩
  have e1 : FitsU64 (.flds x : Item F G1) := h1
  have e3 : ∀ a : F, FitsU64 (.fld a : Item F G1) := fun _ => trivial
  have e4 : ∀ a : G1, FitsU64 (.cm a : Item F G1) := fun _ => trivial
  refine ⟨fun pk w => ?_, fun vk π => ?_⟩
  · unfold hprProve
    simp only [hH, r1csPrefix, r1csXiItems, okItems, kind, e1, e3, e4, List.cons_append, List.nil_append, List.map_cons,
        List.map_nil, List.replicate, true_and, and_true, and_self]
  · unfold hprVerify
    simp only [hH, r1csPrefix, r1csXiItems, okItems, kind, e1, e3, e4, List.cons_append, List.nil_append, List.map_cons,
        List.map_nil, List.replicate, true_and, and_true, and_self]
    try rfl

/-- **C153 (range check).** -/
theorem C153_range_check (cf : Codec F) (cg : Codec G1) (hf : Faithful cf) (hg : Faithful cg)
    (env : Env F G1 G2 GT) : ∃ H : List UInt8 → F,
      let env' := { env with hash := fun l => H (toBytes cf cg l) }
      (∀ pk w, rcProve env' pk w = rcProve env pk w) ∧
        ∀ vk π, rcVerify env' vk π = rcVerify env vk π := by
  obtain ⟨H, hH⟩ := ok_onBytes hf hg (.fld :: List.replicate 10 .cm ++ List.replicate 5 .fld) env.hash
  refine ⟨H, ?_⟩
  have e3 : ∀ a : F, FitsU64 (.fld a : Item F G1) := fun _ => trivial
  have e4 : ∀ a : G1, FitsU64 (.cm a : Item F G1) := fun _ => trivial
  refine ⟨fun pk w => ?_, fun vk π => ?_⟩
  · unfold rcProve
    simp only [hH, rcBeta, rcBeta1, rcAlpha, rcOmega, rcZ, rcXi, okItems, kind, e3, e4, List.cons_append, List.nil_append, List.map_cons,
        List.map_nil, List.replicate, true_and, and_true, and_self]
  · unfold rcVerify
    simp only [hH, rcBeta, rcBeta1, rcAlpha, rcOmega, rcZ, rcXi, okItems, kind, e3, e4, List.cons_append, List.nil_append, List.map_cons,
        List.map_nil, List.replicate, true_and, and_true, and_self]
    try rfl

/-! Concrete cases. -/

/-- One byte for an element of the field with 97 elements. -/
def codec97 : Codec K97 where
  enc a := [UInt8.ofNat a.val]
  dec
    | [] => none
    | b :: l => some ((b.toNat : K97), l)
  size _ := 1

theorem codec97_faithful : Faithful codec97 := by
  refine ⟨fun a rest => ?_, fun a => by simp [codec97]⟩
  have h : ∀ a : K97, ((UInt8.ofNat a.val).toNat : K97) = a := by decide +kernel
  exact congrArg (fun b => some (b, rest)) (h a)

example : toBytes codec97 codec97 [.fld 1, .nats [6], .flds [10], .cm 7]
    = [1, 1, 0, 0, 0, 0, 0, 0, 0, 6, 0, 0, 0, 0, 0, 0, 0, 1, 0, 0, 0, 0, 0, 0, 0, 10, 7] := by decide +kernel

/-- The types matter: lists of items of different types may have the same bytes. -/
example : toBytes codec97 codec97 [.fld 1, .cm 7] = toBytes codec97 codec97 [.cm 1, .fld 7] ∧
    toBytes codec97 codec97 [.nats []] = toBytes codec97 codec97 [.flds []] := by decide +kernel

/-- A hash on bytes that gives the challenges of the example environment. -/
example : ∃ H : List UInt8 → K97, let env' := { env97 with hash := fun l => H (toBytes codec97 codec97 l) }
    ∀ pk w π vk, povProve env' pk ⟨[6], [10]⟩ w = povProve env97 pk ⟨[6], [10]⟩ w ∧
      povVerify env' vk ⟨[6], [10]⟩ π = povVerify env97 vk ⟨[6], [10]⟩ π := by
  obtain ⟨H, hH⟩ := C153_pov codec97 codec97 codec97_faithful codec97_faithful env97
  have := hH ⟨[6], [10]⟩ (by decide) (by decide) (by decide)
  exact ⟨H, fun pk w π vk => ⟨this.1 pk w, this.2 vk π⟩⟩

end VO
