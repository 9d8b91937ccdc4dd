import Verif.Lemmas.Malleable
import Verif.Props.PlonkKzgForge
import Verif.Props.Examples
import Verif.Spec.Malleable

/-
Property theorems C152: which parts of an accepted proof can be changed
(`/repo/voproof/src/kzg/mod.rs`, the `verify` functions of `/repo/voproof/src/snarks` and
`/repo/plonk-core/src/proof_system/proof.rs`).
-/

set_option linter.unusedSectionVars false

namespace VO
open Spec

variable {F G1 G2 GT : Type} [Field F] [DecidableEq F]
  [AddCommGroup G1] [Module F G1] [AddCommGroup G2] [Module F G2]
  [AddCommGroup GT] [Module F GT] [DecidableEq GT]

/-! ## KZG -/

/-- **C152.** `check` accepts at most one opening proof for a commitment, point and value, unless the point
is the trapdoor. -/
theorem C152_check (e : G1 →ₗ[F] G2 →ₗ[F] GT) (β : F) (g : G1) (h : G2) (hnd : NonDegenerate e h)
    (vk : VerifierKey G1 G2) (hvk : HonestVk β g h vk) (c : G1) (z v : F) (hz : β ≠ z) (w w' : G1)
    (h1 : kzgCheck e vk c z v w = true) (h2 : kzgCheck e vk c z v w' = true) : w = w' := by
  rw [C20_check_iff e β g h hnd vk hvk] at h1 h2
  exact smul_right_injective G1 (sub_ne_zero.mpr hz) (h1.symm.trans h2)

/-- **C152.** `batch_check` with randomizer `r` does not bind the two opening proofs: the accepted pairs are
those that differ from one accepted pair by a solution of one linear equation. -/
theorem C152_batch_check (e : G1 →ₗ[F] G2 →ₗ[F] GT) (β : F) (g : G1) (h : G2) (hnd : NonDegenerate e h)
    (vk : VerifierKey G1 G2) (hvk : HonestVk β g h vk) (fcs gcs : List G1) (fvs gvs : List F)
    (hl : fcs.length = fvs.length) (hl2 : gcs.length = gvs.length) (a z xi xi2 r : F) (w w2 : G1)
    (hok : batchCheck e vk fcs gcs a z xi xi2 fvs gvs w w2 r = true) (w' w2' : G1) :
    batchCheck e vk fcs gcs a z xi xi2 fvs gvs w' w2' r = true ↔
      (β - a) • (w' - w) + (r * (β - z)) • (w2' - w2) = 0 := by
  have hb : ByBatch e vk a z fun r w w2 => if batchCheck e vk fcs gcs a z xi xi2 fvs gvs w w2 r then
      .ok () else .error .verificationFail := ByBatch.base hl hl2
  have key := hb.coset hvk hnd (r := r) (w := w) (w2 := w2) (by simp [hok]) w' w2'
  rw [← key]
  by_cases hc : batchCheck e vk fcs gcs a z xi xi2 fvs gvs w' w2' r = true <;> simp [hc]

/-- The second of the published powers. -/
theorem second_power {D : ℕ} {β : F} {g : G1} {h : G2} {pp : UniversalParams G1 G2}
    (hs : kzgSetup D β g h = .ok pp) {b : G1} (hb : pp.powersOfG[1]? = some b) : b = β • g := by
  obtain ⟨h0, h1⟩ := C17_setup D β g h
  by_cases hD : D = 0
  · rw [h0 hD] at hs; cases hs
  · obtain ⟨pp', e1, e2, -⟩ := h1 hD
    obtain rfl := Except.ok.inj (hs.symm.trans e1)
    rw [e2, srs, List.getElem?_map, List.getElem?_range (by omega)] at hb
    simpa using hb.symm

theorem shift_ne {β a t : F} {g w : G1} (hg : g ≠ 0) (ha : β ≠ a) (ht : t ≠ 0) :
    shiftSecond g (β • g) a t w ≠ w := by
  intro hc
  have : t • (β • g - a • g) = 0 := by
    have := congrArg (fun u => w - u) hc
    simpa [shiftSecond] using this
  rw [← sub_smul, smul_smul] at this
  rcases smul_eq_zero.mp this with h | h
  · rcases mul_eq_zero.mp h with h | h
    · exact ht h
    · exact ha (sub_eq_zero.mp h)
  · exact hg h

/-! ## The seven verifiers

In each theorem: the first part, that anyone who knows the number `r` that the verifier draws for
`batch_check` can change the two opening proofs of an accepted proof without changing the answer (`t` is
arbitrary; `verify` draws `r` from `test_rng()`, which is deterministic in some builds); the second, that this does change
the proof; the third, that if the prover cannot predict `r`, the opening proofs are determined by the rest
of the proof: two proofs that differ in nothing else and are each accepted for two values of `r` are
equal. -/

/-- **C152 (POV).** -/
theorem C152_pov (env : Env F G1 G2 GT) (D : ℕ) (β : F) (g : G1) (h : G2) (pp : UniversalParams G1 G2)
    (hs : kzgSetup D β g h = .ok pp) (b : G1) (hb : pp.powersOfG[1]? = some b) (vk : PovVK G1 G2)
    (hvk : HonestVk β g h vk.kzgVk) (x : POVInstance F) (π : PovProof F G1) :
    let ω := env.hash ([.fld 1, .nats x.idx, .flds x.vals, .cm vk.cmSigma, .cm vk.cmD,
      .cm π.cmW, .cm π.cmR, .cm π.cmT1])
    let z := env.hash ([.fld 1, .nats x.idx, .flds x.vals, .cm vk.cmSigma, .cm vk.cmD,
      .cm π.cmW, .cm π.cmR, .cm π.cmT1, .cm π.cmH1, .cm π.cmH2])
    let shifted := fun t => { π with
      capW := shiftFirst vk.kzgVk.g b env.rngU128 z t π.capW
      capW1 := shiftSecond vk.kzgVk.g b (ω / z) t π.capW1 }
    (∀ t, povVerify env vk x (shifted t) = povVerify env vk x π) ∧
    (g ≠ 0 → β ≠ ω / z → ∀ t, t ≠ 0 → shifted t ≠ π) ∧
    (NonDegenerate env.e h → β ≠ ω / z → β ≠ z → ∀ (w w2 : G1) (r1 r2 r3 r4 : F), r1 ≠ r2 → r3 ≠ r4 →
      povVerify { env with rngU128 := r1 } vk x π = .ok () →
      povVerify { env with rngU128 := r2 } vk x π = .ok () →
      povVerify { env with rngU128 := r3 } vk x { π with capW := w, capW1 := w2 } = .ok () →
      povVerify { env with rngU128 := r4 } vk x { π with capW := w, capW1 := w2 } = .ok () →
      { π with capW := w, capW1 := w2 } = π) := by
  intro ω z shifted
  obtain rfl := second_power hs hb
  have hV := pov_byBatch env vk x π
  have hg := hvk.1
  refine ⟨fun t => ?_, fun hg0 ha t ht hc => ?_, fun hnd ha hz w w2 r1 r2 r3 r4 h12 h34 a1 a2 a3 a4 => ?_⟩
  · have := hV.maul hvk env.rngU128 π.capW π.capW1 t
    simp only [shifted, shiftFirst, shiftSecond, hg]
    exact this
  · have hc' := congrArg PovProof.capW1 hc
    simp only [shifted, hg] at hc'
    exact shift_ne hg0 ha ht hc'
  · obtain ⟨rfl, rfl⟩ := hV.unique hvk hnd ha hz h12 h34 (w := π.capW) (w2 := π.capW1) a1 a2 a3 a4
    rfl

/-- **C152 (prover-efficient POV).** -/
theorem C152_pov_pe (env : Env F G1 G2 GT) (D : ℕ) (β : F) (g : G1) (h : G2) (pp : UniversalParams G1 G2)
    (hs : kzgSetup D β g h = .ok pp) (b : G1) (hb : pp.powersOfG[1]? = some b) (vk : PovPeVK G1 G2)
    (hvk : HonestVk β g h vk.kzgVk) (x : POVInstance F) (π : PovPeProof F G1) :
    let ω := env.hash ([.fld 1, .nats x.idx, .flds x.vals, .cm vk.cmSigma, .cm vk.cmD,
      .cm π.cmU, .cm π.cmV, .cm π.cmR, .cm π.cmT1])
    let z := env.hash ([.fld 1, .nats x.idx, .flds x.vals, .cm vk.cmSigma, .cm vk.cmD,
      .cm π.cmU, .cm π.cmV, .cm π.cmR, .cm π.cmT1, .cm π.cmH1, .cm π.cmH2])
    let shifted := fun t => { π with
      capW := shiftFirst vk.kzgVk.g b env.rngU128 z t π.capW
      capW1 := shiftSecond vk.kzgVk.g b (ω / z) t π.capW1 }
    (∀ t, povPeVerify env vk x (shifted t) = povPeVerify env vk x π) ∧
    (g ≠ 0 → β ≠ ω / z → ∀ t, t ≠ 0 → shifted t ≠ π) ∧
    (NonDegenerate env.e h → β ≠ ω / z → β ≠ z → ∀ (w w2 : G1) (r1 r2 r3 r4 : F), r1 ≠ r2 → r3 ≠ r4 →
      povPeVerify { env with rngU128 := r1 } vk x π = .ok () →
      povPeVerify { env with rngU128 := r2 } vk x π = .ok () →
      povPeVerify { env with rngU128 := r3 } vk x { π with capW := w, capW1 := w2 } = .ok () →
      povPeVerify { env with rngU128 := r4 } vk x { π with capW := w, capW1 := w2 } = .ok () →
      { π with capW := w, capW1 := w2 } = π) := by
  intro ω z shifted
  obtain rfl := second_power hs hb
  have hV := povPe_byBatch env vk x π
  have hg := hvk.1
  refine ⟨fun t => ?_, fun hg0 ha t ht hc => ?_, fun hnd ha hz w w2 r1 r2 r3 r4 h12 h34 a1 a2 a3 a4 => ?_⟩
  · have := hV.maul hvk env.rngU128 π.capW π.capW1 t
    simp only [shifted, shiftFirst, shiftSecond, hg]
    exact this
  · have hc' := congrArg PovPeProof.capW1 hc
    simp only [shifted, hg] at hc'
    exact shift_ne hg0 ha ht hc'
  · obtain ⟨rfl, rfl⟩ := hV.unique hvk hnd ha hz h12 h34 (w := π.capW) (w2 := π.capW1) a1 a2 a3 a4
    rfl

/-- **C152 (R1CS).** -/
theorem C152_r1cs (env : Env F G1 G2 GT) (D : ℕ) (β : F) (g : G1) (h : G2) (pp : UniversalParams G1 G2)
    (hs : kzgSetup D β g h = .ok pp) (b : G1) (hb : pp.powersOfG[1]? = some b) (vk : R1csVK G1 G2)
    (hvk : HonestVk β g h vk.kzgVk) (x : List F) (π : R1csProof F G1) :
    let ω := env.hash ([.fld 1, .flds x, .cm vk.cmU, .cm vk.cmW, .cm vk.cmV, .cm vk.cmY,
      .cm π.cmU1, .cm π.cmS, .cm π.cmH, .cm π.cmR, .cm π.cmT])
    let z := env.hash ([.fld 1, .flds x, .cm vk.cmU, .cm vk.cmW, .cm vk.cmV, .cm vk.cmY,
      .cm π.cmU1, .cm π.cmS, .cm π.cmH, .cm π.cmR, .cm π.cmT, .cm π.cmH2, .cm π.cmH3])
    let shifted := fun t => { π with
      capW := shiftFirst vk.kzgVk.g b env.rngU128 z t π.capW
      capW1 := shiftSecond vk.kzgVk.g b (ω / z) t π.capW1 }
    (∀ t, r1csVerify env vk x (shifted t) = r1csVerify env vk x π) ∧
    (g ≠ 0 → β ≠ ω / z → ∀ t, t ≠ 0 → shifted t ≠ π) ∧
    (NonDegenerate env.e h → β ≠ ω / z → β ≠ z → ∀ (w w2 : G1) (r1 r2 r3 r4 : F), r1 ≠ r2 → r3 ≠ r4 →
      r1csVerify { env with rngU128 := r1 } vk x π = .ok () →
      r1csVerify { env with rngU128 := r2 } vk x π = .ok () →
      r1csVerify { env with rngU128 := r3 } vk x { π with capW := w, capW1 := w2 } = .ok () →
      r1csVerify { env with rngU128 := r4 } vk x { π with capW := w, capW1 := w2 } = .ok () →
      { π with capW := w, capW1 := w2 } = π) := by
  intro ω z shifted
  obtain rfl := second_power hs hb
  have hV := r1cs_byBatch env vk x π
  have hg := hvk.1
  refine ⟨fun t => ?_, fun hg0 ha t ht hc => ?_, fun hnd ha hz w w2 r1 r2 r3 r4 h12 h34 a1 a2 a3 a4 => ?_⟩
  · have := hV.maul hvk env.rngU128 π.capW π.capW1 t
    simp only [shifted, shiftFirst, shiftSecond, hg]
    exact this
  · have hc' := congrArg R1csProof.capW1 hc
    simp only [shifted, hg] at hc'
    exact shift_ne hg0 ha ht hc'
  · obtain ⟨rfl, rfl⟩ := hV.unique hvk hnd ha hz h12 h34 (w := π.capW) (w2 := π.capW1) a1 a2 a3 a4
    rfl

/-- **C152 (prover-efficient R1CS).** -/
theorem C152_r1cs_pe (env : Env F G1 G2 GT) (D : ℕ) (β : F) (g : G1) (h : G2) (pp : UniversalParams G1 G2)
    (hs : kzgSetup D β g h = .ok pp) (b : G1) (hb : pp.powersOfG[1]? = some b) (vk : R1csPeVK G1 G2)
    (hvk : HonestVk β g h vk.kzgVk) (x : List F) (π : R1csPeProof F G1) :
    let ω := env.hash ([.fld 1, .flds x, .cm vk.cmU, .cm vk.cmW, .cm vk.cmV, .cm vk.cmY,
      .cm π.cmY1, .cm π.cmW, .cm π.cmR, .cm π.cmC, .cm π.cmRnu, .cm π.cmT, .cm π.cmRt, .cm π.cmT1])
    let z := env.hash ([.fld 1, .flds x, .cm vk.cmU, .cm vk.cmW, .cm vk.cmV, .cm vk.cmY,
      .cm π.cmY1, .cm π.cmW, .cm π.cmR, .cm π.cmC, .cm π.cmRnu, .cm π.cmT, .cm π.cmRt, .cm π.cmT1, .cm π.cmH1, .cm π.cmH2])
    let shifted := fun t => { π with
      capW := shiftFirst vk.kzgVk.g b env.rngU128 z t π.capW
      capW1 := shiftSecond vk.kzgVk.g b (ω / z) t π.capW1 }
    (∀ t, r1csPeVerify env vk x (shifted t) = r1csPeVerify env vk x π) ∧
    (g ≠ 0 → β ≠ ω / z → ∀ t, t ≠ 0 → shifted t ≠ π) ∧
    (NonDegenerate env.e h → β ≠ ω / z → β ≠ z → ∀ (w w2 : G1) (r1 r2 r3 r4 : F), r1 ≠ r2 → r3 ≠ r4 →
      r1csPeVerify { env with rngU128 := r1 } vk x π = .ok () →
      r1csPeVerify { env with rngU128 := r2 } vk x π = .ok () →
      r1csPeVerify { env with rngU128 := r3 } vk x { π with capW := w, capW1 := w2 } = .ok () →
      r1csPeVerify { env with rngU128 := r4 } vk x { π with capW := w, capW1 := w2 } = .ok () →
      { π with capW := w, capW1 := w2 } = π) := by
  intro ω z shifted
  obtain rfl := second_power hs hb
  have hV := r1csPe_byBatch env vk x π
  have hg := hvk.1
  refine ⟨fun t => ?_, fun hg0 ha t ht hc => ?_, fun hnd ha hz w w2 r1 r2 r3 r4 h12 h34 a1 a2 a3 a4 => ?_⟩
  · have := hV.maul hvk env.rngU128 π.capW π.capW1 t
    simp only [shifted, shiftFirst, shiftSecond, hg]
    exact this
  · have hc' := congrArg R1csPeProof.capW1 hc
    simp only [shifted, hg] at hc'
    exact shift_ne hg0 ha ht hc'
  · obtain ⟨rfl, rfl⟩ := hV.unique hvk hnd ha hz h12 h34 (w := π.capW) (w2 := π.capW1) a1 a2 a3 a4
    rfl

/-- **C152 (HPR).** -/
theorem C152_hpr (env : Env F G1 G2 GT) (D : ℕ) (β : F) (g : G1) (h : G2) (pp : UniversalParams G1 G2)
    (hs : kzgSetup D β g h = .ok pp) (b : G1) (hb : pp.powersOfG[1]? = some b) (vk : HprVK G1 G2)
    (hvk : HonestVk β g h vk.kzgVk) (x : List F) (π : HprProof F G1) :
    let ω := env.hash ([.fld 1, .flds x, .cm vk.cmU, .cm vk.cmW, .cm vk.cmV, .cm vk.cmY,
      .cm π.cmW1, .cm π.cmS, .cm π.cmH, .cm π.cmR, .cm π.cmT])
    let z := env.hash ([.fld 1, .flds x, .cm vk.cmU, .cm vk.cmW, .cm vk.cmV, .cm vk.cmY,
      .cm π.cmW1, .cm π.cmS, .cm π.cmH, .cm π.cmR, .cm π.cmT, .cm π.cmH2, .cm π.cmH3])
    let shifted := fun t => { π with
      capW := shiftFirst vk.kzgVk.g b env.rngU128 z t π.capW
      capW1 := shiftSecond vk.kzgVk.g b (ω / z) t π.capW1 }
    (∀ t, hprVerify env vk x (shifted t) = hprVerify env vk x π) ∧
    (g ≠ 0 → β ≠ ω / z → ∀ t, t ≠ 0 → shifted t ≠ π) ∧
    (NonDegenerate env.e h → β ≠ ω / z → β ≠ z → ∀ (w w2 : G1) (r1 r2 r3 r4 : F), r1 ≠ r2 → r3 ≠ r4 →
      hprVerify { env with rngU128 := r1 } vk x π = .ok () →
      hprVerify { env with rngU128 := r2 } vk x π = .ok () →
      hprVerify { env with rngU128 := r3 } vk x { π with capW := w, capW1 := w2 } = .ok () →
      hprVerify { env with rngU128 := r4 } vk x { π with capW := w, capW1 := w2 } = .ok () →
      { π with capW := w, capW1 := w2 } = π) := by
  intro ω z shifted
  obtain rfl := second_power hs hb
  have hV := hpr_byBatch env vk x π
  have hg := hvk.1
  refine ⟨fun t => ?_, fun hg0 ha t ht hc => ?_, fun hnd ha hz w w2 r1 r2 r3 r4 h12 h34 a1 a2 a3 a4 => ?_⟩
  · have := hV.maul hvk env.rngU128 π.capW π.capW1 t
    simp only [shifted, shiftFirst, shiftSecond, hg]
    exact this
  · have hc' := congrArg HprProof.capW1 hc
    simp only [shifted, hg] at hc'
    exact shift_ne hg0 ha ht hc'
  · obtain ⟨rfl, rfl⟩ := hV.unique hvk hnd ha hz h12 h34 (w := π.capW) (w2 := π.capW1) a1 a2 a3 a4
    rfl

/-- **C152 (Fibonacci).** -/
theorem C152_fibonacci (env : Env F G1 G2 GT) (D : ℕ) (β : F) (g : G1) (h : G2) (pp : UniversalParams G1 G2)
    (hs : kzgSetup D β g h = .ok pp) (b : G1) (hb : pp.powersOfG[1]? = some b) (vk : FibVK G1 G2)
    (hvk : HonestVk β g h vk.kzgVk) (x : FibInstance F) (π : FibProof F G1) :
    let ω := env.hash [.fld 1, .cm vk.cmT, .cm π.cmW, .cm π.cmR, .cm π.cmT1]
    let z := env.hash [.fld 1, .cm vk.cmT, .cm π.cmW, .cm π.cmR, .cm π.cmT1, .cm π.cmH1, .cm π.cmH2]
    let shifted := fun t => { π with
      capW := shiftFirst vk.kzgVk.g b env.rngU128 z t π.capW
      capW1 := shiftSecond vk.kzgVk.g b (ω / z) t π.capW1 }
    (∀ t, fibVerify env vk x (shifted t) = fibVerify env vk x π) ∧
    (g ≠ 0 → β ≠ ω / z → ∀ t, t ≠ 0 → shifted t ≠ π) ∧
    (NonDegenerate env.e h → β ≠ ω / z → β ≠ z → ∀ (w w2 : G1) (r1 r2 r3 r4 : F), r1 ≠ r2 → r3 ≠ r4 →
      fibVerify { env with rngU128 := r1 } vk x π = .ok () →
      fibVerify { env with rngU128 := r2 } vk x π = .ok () →
      fibVerify { env with rngU128 := r3 } vk x { π with capW := w, capW1 := w2 } = .ok () →
      fibVerify { env with rngU128 := r4 } vk x { π with capW := w, capW1 := w2 } = .ok () →
      { π with capW := w, capW1 := w2 } = π) := by
  intro ω z shifted
  obtain rfl := second_power hs hb
  have hV := fib_byBatch env vk x π
  have hg := hvk.1
  refine ⟨fun t => ?_, fun hg0 ha t ht hc => ?_, fun hnd ha hz w w2 r1 r2 r3 r4 h12 h34 a1 a2 a3 a4 => ?_⟩
  · have := hV.maul hvk env.rngU128 π.capW π.capW1 t
    simp only [shifted, shiftFirst, shiftSecond, hg]
    exact this
  · have hc' := congrArg FibProof.capW1 hc
    simp only [shifted, hg] at hc'
    exact shift_ne hg0 ha ht hc'
  · obtain ⟨rfl, rfl⟩ := hV.unique hvk hnd ha hz h12 h34 (w := π.capW) (w2 := π.capW1) a1 a2 a3 a4
    rfl

/-- **C152 (range check).** -/
theorem C152_range_check (env : Env F G1 G2 GT) (D : ℕ) (β : F) (g : G1) (h : G2) (pp : UniversalParams G1 G2)
    (hs : kzgSetup D β g h = .ok pp) (b : G1) (hb : pp.powersOfG[1]? = some b) (vk : RcVK G1 G2)
    (hvk : HonestVk β g h vk.kzgVk) (π : RcProof F G1) :
    let ω := env.hash [.fld 1, .cm vk.cmT, .cm π.cmW, .cm π.cmM, .cm π.cmR, .cm π.cmS, .cm π.cmRt, .cm π.cmT1]
    let z := env.hash [.fld 1, .cm vk.cmT, .cm π.cmW, .cm π.cmM, .cm π.cmR, .cm π.cmS, .cm π.cmRt, .cm π.cmT1,
      .cm π.cmH1, .cm π.cmH2]
    let shifted := fun t => { π with
      capW := shiftFirst vk.kzgVk.g b env.rngU128 z t π.capW
      capW1 := shiftSecond vk.kzgVk.g b (ω / z) t π.capW1 }
    (∀ t, rcVerify env vk (shifted t) = rcVerify env vk π) ∧
    (g ≠ 0 → β ≠ ω / z → ∀ t, t ≠ 0 → shifted t ≠ π) ∧
    (NonDegenerate env.e h → β ≠ ω / z → β ≠ z → ∀ (w w2 : G1) (r1 r2 r3 r4 : F), r1 ≠ r2 → r3 ≠ r4 →
      rcVerify { env with rngU128 := r1 } vk π = .ok () →
      rcVerify { env with rngU128 := r2 } vk π = .ok () →
      rcVerify { env with rngU128 := r3 } vk { π with capW := w, capW1 := w2 } = .ok () →
      rcVerify { env with rngU128 := r4 } vk { π with capW := w, capW1 := w2 } = .ok () →
      { π with capW := w, capW1 := w2 } = π) := by
  intro ω z shifted
  obtain rfl := second_power hs hb
  have hV := rc_byBatch env vk π
  have hg := hvk.1
  refine ⟨fun t => ?_, fun hg0 ha t ht hc => ?_, fun hnd ha hz w w2 r1 r2 r3 r4 h12 h34 a1 a2 a3 a4 => ?_⟩
  · have := hV.maul hvk env.rngU128 π.capW π.capW1 t
    simp only [shifted, shiftFirst, shiftSecond, hg]
    exact this
  · have hc' := congrArg RcProof.capW1 hc
    simp only [shifted, hg] at hc'
    exact shift_ne hg0 ha ht hc'
  · obtain ⟨rfl, rfl⟩ := hV.unique hvk hnd ha hz h12 h34 (w := π.capW) (w2 := π.capW1) a1 a2 a3 a4
    rfl

/-! ## PLONK -/

open VO.Plonk VO.Spec.Plonk

namespace Plonk

theorem kzgPcs_unique {e : G1 →ₗ[F] G2 →ₗ[F] GT} {g : G1} {h : G2} {D : ℕ} {τ : F}
    (hh : NonDegenerate e h) {x : F} (hx : τ ≠ x) {cs : List (kzgPcs e g h D τ).Comm} {vs : List F} {xi : F}
    {w w' : G1} (h1 : (kzgPcs e g h D τ).check cs x vs w xi = .ok true)
    (h2 : (kzgPcs e g h D τ).check cs x vs w' xi = .ok true) : w = w' := by
  have k1 := @of_decide_eq_true _ (_) (Except.ok.inj h1)
  have k2 := @of_decide_eq_true _ (_) (Except.ok.inj h2)
  have k := k1.symm.trans k2
  rw [← sub_smul, map_smul, map_smul] at k
  have k' := smul_right_injective GT (sub_ne_zero.mpr hx) k
  exact sub_eq_zero.mp (hh _ (by rw [map_sub, LinearMap.sub_apply]; exact sub_eq_zero.mpr k'))

end Plonk

/-- **C152 (PLONK).** The two opening proofs of an accepted PLONK proof are determined by the rest of the
proof, unless one of the two evaluation points is the trapdoor. -/
theorem C152_plonk {K : PField F} {E : EdCurve F} {n D : ℕ} (hK : PFieldOk K) {c : Composer F}
    (hn : n = circuitBound c) (e : G1 →ₗ[F] G2 →ₗ[F] GT) {g : G1} {h : G2} (hh : NonDegenerate e h) {τ : F}
    {tr : Transcript F G1} (htr : tr.countP isChal = 0) {v : Verifier (kzgPcs e g h D τ)}
    (hv : Verifier.preprocess K (P := kzgPcs e g h D τ) ⟨none, c, tr⟩ = .ok v) {pi : List (ℕ × F)}
    {zeta beta gamma delta epsilon alpha range logic fixed var lookup zz aw saw : F} (hz : τ ≠ zz)
    (hz' : τ ≠ zz * K.fft.root (Nat.clog 2 n)) {π π' : PlonkProof (kzgPcs e g h D τ)}
    (hrest : π' = { π with aw := π'.aw, saw := π'.saw })
    (h1 : v.verify K E (coins [zeta, beta, gamma, delta, epsilon, alpha, range, logic, fixed, var, lookup,
      zz, aw, saw]) π pi = .ok ())
    (h2 : v.verify K E (coins [zeta, beta, gamma, delta, epsilon, alpha, range, logic, fixed, var, lookup,
      zz, aw, saw]) π' pi = .ok ()) : π' = π := by
  obtain ⟨Dm, sel, sig, tab, vk, hD, hpre, e1, e2⟩ := verifier_inv hK hv
  obtain ⟨-, hDe⟩ := newDom_inv hD.self
  have homega : K.fft.root (Nat.clog 2 n) = Dm.omega := by
    rw [hn, ← hD.eq]; exact (congrArg Dom.omega hDe).symm
  rw [homega] at hz'
  generalize π'.aw = w, π'.saw = w2 at hrest
  subst hrest
  unfold Verifier.verify at h1 h2
  rw [e1] at h1 h2
  simp only [plonkVerify, hpre.n, hD.self, ok_bind] at h1 h2
  rw [coins_chals (by rw [e2]; exact seed_count _ htr) pi _ ⟨zeta, beta, gamma, delta, epsilon,
    alpha, range, logic, fixed, var, lookup, zz, aw, saw⟩, verifyWith_iff] at h1 h2
  obtain ⟨l1, pe, q, cv, aN, bN, dN, p1, a1, a2⟩ := h1
  obtain ⟨l1', pe', q', cv', aN', bN', dN', p2, b1, b2⟩ := h2
  obtain rfl := Except.ok.inj (p1.l1.symm.trans p2.l1)
  obtain rfl := Except.ok.inj (p1.pe.symm.trans p2.pe)
  obtain rfl := Except.ok.inj (p1.q.symm.trans p2.q)
  obtain rfl := Except.ok.inj (p1.v.symm.trans p2.v)
  obtain rfl := Except.ok.inj (p1.a.symm.trans p2.a)
  obtain rfl := Except.ok.inj (p1.b.symm.trans p2.b)
  obtain rfl := Except.ok.inj (p1.d.symm.trans p2.d)
  obtain rfl := kzgPcs_unique hh hz a1 b1
  obtain rfl := kzgPcs_unique hh hz' a2 b2
  rfl

/-! A proof of a concrete statement is shifted: the shifted proof is accepted and different, and it is
rejected when the verifier draws another number. -/

/-- A Fibonacci proof, shifted by `t`: the answer to the original, the answer to the shifted proof, whether
they differ, the answer of a verifier that draws `r`. -/
def shiftedFib97 (t r : K97) : Res (Res Unit × Res Unit × Bool × Res Unit) := do
  let pp ← kzgSetup 20 (33 : K97) (1 : K97) (1 : K97)
  let keys ← fibIndex pp ⟨3, [1, 2, 3]⟩
  let vk := keys.2
  let x : FibInstance K97 := ⟨4, 5, 78⟩
  let π ← fibProve env97 keys.1 x [9, 23, 78]
  let ω := env97.hash [.fld 1, .cm vk.cmT, .cm π.cmW, .cm π.cmR, .cm π.cmT1]
  let z := env97.hash [.fld 1, .cm vk.cmT, .cm π.cmW, .cm π.cmR, .cm π.cmT1, .cm π.cmH1, .cm π.cmH2]
  let b := pp.powersOfG.getD 1 0
  let π' := { π with
    capW := shiftFirst vk.kzgVk.g b env97.rngU128 z t π.capW
    capW1 := shiftSecond vk.kzgVk.g b (ω / z) t π.capW1 }
  return (fibVerify env97 vk x π, fibVerify env97 vk x π', decide (π'.capW1 ≠ π.capW1),
    fibVerify { env97 with rngU128 := r } vk x π')

example : shiftedFib97 1 24 = .ok (.ok (), .ok (), true, .error .verificationFail) := by decide +kernel

/-- The same for a POV proof. -/
def shiftedPov97 (t r : K97) : Res (Res Unit × Res Unit × Bool × Res Unit) := do
  let pp ← kzgSetup 30 (33 : K97) (1 : K97) (1 : K97)
  let keys ← povIndex env97.gamma pp ⟨[5], [(0, 4), (3, 8)], 1, 1⟩
  let vk := keys.2
  let x : POVInstance K97 := ⟨[6], [10]⟩
  let π ← povProve env97 keys.1 x ⟨[2, 1, 0], [5, 2, 0], [10, 3, 5]⟩
  let ω := env97.hash ([.fld 1, .nats x.idx, .flds x.vals, .cm vk.cmSigma, .cm vk.cmD,
    .cm π.cmW, .cm π.cmR, .cm π.cmT1])
  let z := env97.hash ([.fld 1, .nats x.idx, .flds x.vals, .cm vk.cmSigma, .cm vk.cmD,
    .cm π.cmW, .cm π.cmR, .cm π.cmT1, .cm π.cmH1, .cm π.cmH2])
  let b := pp.powersOfG.getD 1 0
  let π' := { π with
    capW := shiftFirst vk.kzgVk.g b env97.rngU128 z t π.capW
    capW1 := shiftSecond vk.kzgVk.g b (ω / z) t π.capW1 }
  return (povVerify env97 vk x π, povVerify env97 vk x π', decide (π'.capW1 ≠ π.capW1),
    povVerify { env97 with rngU128 := r } vk x π')

example : shiftedPov97 2 24 = .ok (.ok (), .ok (), true, .error .verificationFail) := by decide +kernel

end VO
