import Verif.Props.Kzg
import Verif.Model.Fibonacci
import Verif.Model.Pov
import Verif.Model.PovPe
import Verif.Model.R1csSnark
import Verif.Model.R1csPe
import Verif.Model.HprSnark
import Verif.Model.RangeCheck

/-
Lemmas for C152: a verifier whose last step is `batch_check` of the two opening proofs, with everything
else fixed before.
-/

set_option linter.unusedSectionVars false

namespace VO
open Spec

variable {F G1 G2 GT : Type} [Field F] [DecidableEq F]
  [AddCommGroup G1] [Module F G1] [AddCommGroup G2] [Module F G2]
  [AddCommGroup GT] [Module F GT] [DecidableEq GT]

/-- The answer for randomizer `r` and opening proofs `w`, `w2` is an error that depends on none of them,
or the answer of `batch_check` at the points `a` and `z` on data that depend on none of them. -/
def ByBatch (e : G1 →ₗ[F] G2 →ₗ[F] GT) (vk : VerifierKey G1 G2) (a z : F) (V : F → G1 → G1 → Res Unit) :
    Prop :=
  (∃ err, ∀ r w w2, V r w w2 = .error err) ∨
  ∃ (fcs gcs : List G1) (fvs gvs : List F) (xi xi2 : F), fcs.length = fvs.length ∧ gcs.length = gvs.length ∧
    ∀ r w w2, V r w w2 = if batchCheck e vk fcs gcs a z xi xi2 fvs gvs w w2 r then .ok ()
      else .error .verificationFail

section
variable {e : G1 →ₗ[F] G2 →ₗ[F] GT} {vk : VerifierKey G1 G2} {a z : F} {V : F → G1 → G1 → Res Unit}

theorem ByBatch.maul (hV : ByBatch e vk a z V) {β : F} {g : G1} {h : G2} (hvk : HonestVk β g h vk)
    (r : F) (w w2 : G1) (t : F) :
    V r (w + (t * r) • (β • g - z • g)) (w2 - t • (β • g - a • g)) = V r w w2 := by
  rcases hV with ⟨err, hV⟩ | ⟨fcs, gcs, fvs, gvs, xi, xi2, -, -, hV⟩
  · rw [hV, hV]
  · rw [hV, hV]
    congr 1
    rw [batchCheck_eq e β g h vk hvk, batchCheck_eq e β g h vk hvk]
    congr! 3
    module

theorem ByBatch.unique (hV : ByBatch e vk a z V) {β : F} {g : G1} {h : G2} (hvk : HonestVk β g h vk)
    (hnd : NonDegenerate e h) (ha : β ≠ a) (hz : β ≠ z) {r1 r2 r3 r4 : F} {w w2 w' w2' : G1}
    (h12 : r1 ≠ r2) (h34 : r3 ≠ r4) (h1 : V r1 w w2 = .ok ()) (h2 : V r2 w w2 = .ok ())
    (h3 : V r3 w' w2' = .ok ()) (h4 : V r4 w' w2' = .ok ()) : w' = w ∧ w2' = w2 := by
  rcases hV with ⟨err, hV⟩ | ⟨fcs, gcs, fvs, gvs, xi, xi2, hl, hl2, hV⟩
  · rw [hV] at h1; cases h1
  · have ok : ∀ r u v, V r u v = .ok () → batchCheck e vk fcs gcs a z xi xi2 fvs gvs u v r = true := by
      intro r u v hh
      rw [hV] at hh
      by_contra hc
      rw [if_neg hc] at hh
      cases hh
    obtain ⟨k1, k2⟩ := C22_randomizer e β g h hnd vk hvk fcs gcs fvs gvs hl hl2 a z xi xi2 w w2 r1 r2 h12
      (ok _ _ _ h1) (ok _ _ _ h2)
    obtain ⟨j1, j2⟩ := C22_randomizer e β g h hnd vk hvk fcs gcs fvs gvs hl hl2 a z xi xi2 w' w2' r3 r4 h34
      (ok _ _ _ h3) (ok _ _ _ h4)
    rw [C20_check_iff e β g h hnd vk hvk] at k1 k2 j1 j2
    exact ⟨smul_right_injective G1 (sub_ne_zero.mpr ha) (j1.symm.trans k1),
      smul_right_injective G1 (sub_ne_zero.mpr hz) (j2.symm.trans k2)⟩

theorem ByBatch.coset (hV : ByBatch e vk a z V) {β : F} {g : G1} {h : G2} (hvk : HonestVk β g h vk)
    (hnd : NonDegenerate e h) {r : F} {w w2 : G1} (h1 : V r w w2 = .ok ()) (w' w2' : G1) :
    V r w' w2' = .ok () ↔ (β - a) • (w' - w) + (r * (β - z)) • (w2' - w2) = 0 := by
  rcases hV with ⟨err, hV⟩ | ⟨fcs, gcs, fvs, gvs, xi, xi2, hl, hl2, hV⟩
  · rw [hV] at h1; cases h1
  · have ok : ∀ r u v, V r u v = .ok () ↔ batchCheck e vk fcs gcs a z xi xi2 fvs gvs u v r = true := by
      intro r u v
      rw [hV]
      by_cases hc : batchCheck e vk fcs gcs a z xi xi2 fvs gvs u v r = true <;> simp [hc]
    rw [ok, C22_batch_iff e β g h hnd vk hvk _ _ _ _ hl hl2] at h1 ⊢
    constructor
    · intro h2
      have := congrArg₂ (· - ·) h1 h2
      simp only [sub_zero] at this
      rw [← this]
      module
    · intro h2
      have := congrArg₂ (· - ·) h1 h2
      simp only [sub_zero] at this
      rw [← this]
      module

end

theorem ByBatch.base {e : G1 →ₗ[F] G2 →ₗ[F] GT} {vk : VerifierKey G1 G2} {a z : F} {fcs gcs : List G1}
    {fvs gvs : List F} {xi xi2 : F} (hl : fcs.length = fvs.length) (hl2 : gcs.length = gvs.length) :
    ByBatch e vk a z fun r w w2 => if batchCheck e vk fcs gcs a z xi xi2 fvs gvs w w2 r then .ok ()
      else .error .verificationFail :=
  .inr ⟨fcs, gcs, fvs, gvs, xi, xi2, hl, hl2, fun _ _ _ => rfl⟩

theorem ByBatch.bind {e : G1 →ₗ[F] G2 →ₗ[F] GT} {vk : VerifierKey G1 G2} {a z : F} {α : Type} {m : Res α}
    {V : α → F → G1 → G1 → Res Unit} (h : ∀ k, m = .ok k → ByBatch e vk a z (V k)) :
    ByBatch e vk a z fun r w w2 => m >>= fun k => V k r w w2 := by
  rcases m with err | k
  · exact .inl ⟨err, fun _ _ _ => rfl⟩
  · exact h k rfl

theorem divR_val {x y q : F} (h : divR x y = .ok q) : q = x / y := by
  unfold divR at h
  split at h
  · cases h
  · exact (Except.ok.inj h).symm

/-! ## The seven verifiers -/

variable (env : Env F G1 G2 GT)

theorem fib_byBatch (vk : FibVK G1 G2) (x : FibInstance F) (π : FibProof F G1) :
    let ω := fibOmega env vk.cmT π.cmW π.cmR π.cmT1
    let z := fibZ env vk.cmT π.cmW π.cmR π.cmT1 π.cmH1 π.cmH2
    ByBatch env.e vk.kzgVk (ω / z) z fun r w w2 =>
      fibVerify { env with rngU128 := r } vk x { π with capW := w, capW1 := w2 } := by
  intro ω z
  dsimp only [fibVerify, fibAlpha, fibOmega, fibZ, fibXi]
  refine ByBatch.bind fun k _ => ?_
  refine ByBatch.bind fun oz hoz => ?_
  obtain rfl := divR_val hoz
  exact ByBatch.base rfl rfl

theorem rc_byBatch (vk : RcVK G1 G2) (π : RcProof F G1) :
    let ω := rcOmega env vk.cmT π.cmW π.cmM π.cmR π.cmS π.cmRt π.cmT1
    let z := rcZ env vk.cmT π.cmW π.cmM π.cmR π.cmS π.cmRt π.cmT1 π.cmH1 π.cmH2
    ByBatch env.e vk.kzgVk (ω / z) z fun r w w2 =>
      rcVerify { env with rngU128 := r } vk { π with capW := w, capW1 := w2 } := by
  intro ω z
  dsimp only [rcVerify, rcAlpha, rcBeta, rcOmega, rcZ, rcXi]
  refine ByBatch.bind fun k _ => ?_
  refine ByBatch.bind fun oz hoz => ?_
  obtain rfl := divR_val hoz
  exact ByBatch.base rfl rfl

theorem pov_byBatch (vk : PovVK G1 G2) (x : POVInstance F) (π : PovProof F G1) :
    let ω := env.hash ([.fld 1, .nats x.idx, .flds x.vals, .cm vk.cmSigma, .cm vk.cmD] ++
      [.cm π.cmW, .cm π.cmR, .cm π.cmT1])
    let z := env.hash ([.fld 1, .nats x.idx, .flds x.vals, .cm vk.cmSigma, .cm vk.cmD] ++
      [.cm π.cmW, .cm π.cmR, .cm π.cmT1, .cm π.cmH1, .cm π.cmH2])
    ByBatch env.e vk.kzgVk (ω / z) z fun r w w2 =>
      povVerify { env with rngU128 := r } vk x { π with capW := w, capW1 := w2 } := by
  intro ω z
  dsimp only [povVerify]
  refine ByBatch.bind fun oz hoz => ?_
  refine ByBatch.bind fun k _ => ?_
  obtain rfl := divR_val hoz
  exact ByBatch.base rfl rfl

theorem povPe_byBatch (vk : PovPeVK G1 G2) (x : POVInstance F) (π : PovPeProof F G1) :
    let ω := env.hash ([.fld 1, .nats x.idx, .flds x.vals, .cm vk.cmSigma, .cm vk.cmD] ++
      [.cm π.cmU, .cm π.cmV, .cm π.cmR, .cm π.cmT1])
    let z := env.hash ([.fld 1, .nats x.idx, .flds x.vals, .cm vk.cmSigma, .cm vk.cmD] ++
      [.cm π.cmU, .cm π.cmV, .cm π.cmR, .cm π.cmT1, .cm π.cmH1, .cm π.cmH2])
    ByBatch env.e vk.kzgVk (ω / z) z fun r w w2 =>
      povPeVerify { env with rngU128 := r } vk x { π with capW := w, capW1 := w2 } := by
  intro ω z
  dsimp only [povPeVerify]
  refine ByBatch.bind fun oz hoz => ?_
  refine ByBatch.bind fun k _ => ?_
  obtain rfl := divR_val hoz
  exact ByBatch.base rfl rfl

theorem r1cs_byBatch (vk : R1csVK G1 G2) (x : List F) (π : R1csProof F G1) :
    let ω := env.hash ([.fld 1, .flds x, .cm vk.cmU, .cm vk.cmW, .cm vk.cmV, .cm vk.cmY] ++
      [.cm π.cmU1, .cm π.cmS, .cm π.cmH, .cm π.cmR, .cm π.cmT])
    let z := env.hash ([.fld 1, .flds x, .cm vk.cmU, .cm vk.cmW, .cm vk.cmV, .cm vk.cmY] ++
      [.cm π.cmU1, .cm π.cmS, .cm π.cmH, .cm π.cmR, .cm π.cmT, .cm π.cmH2, .cm π.cmH3])
    ByBatch env.e vk.kzgVk (ω / z) z fun r w w2 =>
      r1csVerify { env with rngU128 := r } vk x { π with capW := w, capW1 := w2 } := by
  intro ω z
  dsimp only [r1csVerify]
  refine ByBatch.bind fun k _ => ?_
  refine ByBatch.bind fun oz hoz => ?_
  obtain rfl := divR_val hoz
  exact ByBatch.base rfl rfl

theorem r1csPe_byBatch (vk : R1csPeVK G1 G2) (x : List F) (π : R1csPeProof F G1) :
    let ω := env.hash ([.fld 1, .flds x, .cm vk.cmU, .cm vk.cmW, .cm vk.cmV, .cm vk.cmY] ++
      [.cm π.cmY1, .cm π.cmW, .cm π.cmR, .cm π.cmC, .cm π.cmRnu, .cm π.cmT, .cm π.cmRt, .cm π.cmT1])
    let z := env.hash ([.fld 1, .flds x, .cm vk.cmU, .cm vk.cmW, .cm vk.cmV, .cm vk.cmY] ++
      [.cm π.cmY1, .cm π.cmW, .cm π.cmR, .cm π.cmC, .cm π.cmRnu, .cm π.cmT, .cm π.cmRt, .cm π.cmT1, .cm π.cmH1, .cm π.cmH2])
    ByBatch env.e vk.kzgVk (ω / z) z fun r w w2 =>
      r1csPeVerify { env with rngU128 := r } vk x { π with capW := w, capW1 := w2 } := by
  intro ω z
  dsimp only [r1csPeVerify]
  refine ByBatch.bind fun k _ => ?_
  refine ByBatch.bind fun oz hoz => ?_
  obtain rfl := divR_val hoz
  exact ByBatch.base rfl rfl

theorem hpr_byBatch (vk : HprVK G1 G2) (x : List F) (π : HprProof F G1) :
    let ω := env.hash ([.fld 1, .flds x, .cm vk.cmU, .cm vk.cmW, .cm vk.cmV, .cm vk.cmY] ++
      [.cm π.cmW1, .cm π.cmS, .cm π.cmH, .cm π.cmR, .cm π.cmT])
    let z := env.hash ([.fld 1, .flds x, .cm vk.cmU, .cm vk.cmW, .cm vk.cmV, .cm vk.cmY] ++
      [.cm π.cmW1, .cm π.cmS, .cm π.cmH, .cm π.cmR, .cm π.cmT, .cm π.cmH2, .cm π.cmH3])
    ByBatch env.e vk.kzgVk (ω / z) z fun r w w2 =>
      hprVerify { env with rngU128 := r } vk x { π with capW := w, capW1 := w2 } := by
  intro ω z
  dsimp only [hprVerify]
  refine ByBatch.bind fun oz hoz => ?_
  refine ByBatch.bind fun k _ => ?_
  obtain rfl := divR_val hoz
  exact ByBatch.base rfl rfl

end VO
