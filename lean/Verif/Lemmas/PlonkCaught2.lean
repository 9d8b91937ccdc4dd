import Verif.Lemmas.PlonkCaught

/-
The wires committed by the code of the prover are the composer's values, whether or not they satisfy
the circuit.
-/

set_option linter.unusedSectionVars false

namespace VO.Plonk

open VO.Spec VO.Spec.Plonk

variable {F : Type} [Field F] [DecidableEq F]

/-- The zero variable holds zero. -/
theorem _root_.VO.Spec.Plonk.Reach.zeroVal {R : FieldRep F} {E : EdCurve F} {c : Composer F}
    (h : Reach R E c) : ownV c c.zero_var = 0 := by
  induction h with
  | new h =>
    obtain ⟨c', h1, h2, h3, -⟩ := newComposer_ok (F := F) _ _
    rw [h] at h1
    cases h1
    exact ownSat_zero h2 (h3 E)
  | call hr hm h ih =>
    have hx := (Method.post hm (Reach.wf hr) h).2
    rw [hx.zero, ← ih]
    obtain ⟨t, ht⟩ := hx.vars
    unfold ownV
    rw [← ht, List.getD_append _ _ _ _ (Reach.wf hr).zero]

/-- `prove_pad` for values that need not satisfy the circuit. -/
theorem prove_pad' {K : PField F} {E : EdCurve F} {P : PCS F} {c : Composer F} {D : Dom F}
    (hD : CDom K c D) (hw : WF c) (hz : ownV c c.zero_var = 0) (ro : Transcript F P.Comm → F) (pk : PKey F)
    (tr : Transcript F P.Comm) :
    proveWithPreprocessed K E P ro (padComposer c (D.size - c.n)) pk tr
      = proveWithPreprocessed K E P ro c pk tr := by
  unfold proveWithPreprocessed
  rw [circuitBound_pad hD.eq, hD.self, hD.new]
  simp only [ok_bind]
  rw [round1_pad hw hz hD.n]
  simp only [round2_pad hw hD.n]
  rfl

/-- The wires of round 1. -/
theorem round1_wires {K : PField F} {P : PCS F} {d : ℕ} (hS : PcsSound P d) {c : Composer F} {D : Dom F}
    (hD : CDom K c D) (hw : WF c) {r1 : WitRound P} (h : proveRound1 P D c = .ok r1) {p : WireData}
    (hp : posRow p < D.size) :
    committedWires hS D.omega r1.c.a r1.c.b r1.c.c r1.c.d p = ownW c p := by
  obtain ⟨h1, h2, h3, h4⟩ := wires_run hw hD.n
  unfold proveRound1 at h
  simp only [h1, h2, h3, h4, liftP, ok_bind] at h
  obtain ⟨wC, hq, h⟩ := bind_okE h
  simp only [pure, Except.pure, Except.ok.injEq] at h
  obtain ⟨q1, q2, q3, q4⟩ := commitQuad_inv hq
  rw [← polyW_own hD.ok c hp, ← h]
  cases p <;> simp only [committedWires, polyW, wP, wpolys, hS.commit _ _ q1, hS.commit _ _ q2,
    hS.commit _ _ q3, hS.commit _ _ q4]

/-- If the committed wires satisfy the circuit of a verifier with the same circuit, so do the
composer's values. -/
theorem sat_own {K : PField F} {E : EdCurve F} {P : PCS F} {d : ℕ} (hS : PcsSound P d) {c cv : Composer F}
    {D : Dom F} (hD : CDom K c D) (hw : WF c) (hcv : SameCircuit cv c) {r1 : WitRound P}
    (h : proveRound1 P D c = .ok r1) {T : List (F × F × F × F)} {x : Var → F}
    (hs : Sat E T D.size cv (piAt c.public_inputs)
      (committedWires hS D.omega r1.c.a r1.c.b r1.c.c r1.c.d) x) :
    Sat E T D.size c (ownPub c) (ownW c) (ownV c) := by
  have hs' : Sat E T D.size c (piAt c.public_inputs)
      (committedWires hS D.omega r1.c.a r1.c.b r1.c.c r1.c.d) x := by
    unfold SameCircuit at hcv
    rw [hcv]
    exact ⟨hs.fits, hs.pubZero, hs.rows, hs.copy⟩
  have hpos : 0 < D.size := hD.ok.pos
  refine ⟨hs'.fits, hs'.pubZero, fun i hi => ?_, fun y p hy => ?_⟩
  · have := hs'.rows i hi
    have e : rowAt D.size (committedWires hS D.omega r1.c.a r1.c.b r1.c.c r1.c.d) i
        = rowAt D.size (ownW c) i := by
      have hi' : i < D.size := lt_of_lt_of_le hi hD.n
      have hm : (i + 1) % D.size < D.size := Nat.mod_lt _ hpos
      unfold rowAt
      simp only [round1_wires hS hD hw h (p := .left i) hi', round1_wires hS hD hw h (p := .right i) hi',
        round1_wires hS hD hw h (p := .output i) hi', round1_wires hS hD hw h (p := .fourth i) hi',
        round1_wires hS hD hw h (p := .left _) hm, round1_wires hS hD hw h (p := .right _) hm,
        round1_wires hS hD hw h (p := .fourth _) hm]
    rw [e] at this
    exact this
  · unfold ownW
    rw [hw.agree _ _ hy]

end VO.Plonk
