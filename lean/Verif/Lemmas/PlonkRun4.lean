import Verif.Lemmas.PlonkRun3

/-
The whole honest run: keys, prover and verifier.
-/

set_option linter.unusedSectionVars false

namespace VO.Plonk

open VO.Spec VO.Spec.Plonk Polynomial

variable {F : Type} [Field F] [DecidableEq F]

section
variable {K : PField F} {E : EdCurve F} {P : PCS F} {d : ℕ} (hP : PcsComplete P d)
  {c : Composer F} {D D8 : Dom F} {pk : PKey F} {vk : VKey P}
include hP

/-- The transcript before `zeta`. -/
noncomputable def tr1 (c : Composer F) (D : Dom F) (tr : Transcript F P.Comm) : Transcript F P.Comm :=
  (tr ++ [.pi "pi" c.public_inputs]) ++ [.comm "w_l" (wround hP c D).c.a,
    .comm "w_r" (wround hP c D).c.b, .comm "w_o" (wround hP c D).c.c, .comm "w_4" (wround hP c D).c.d]

end

/-- The transcript after a challenge that is absorbed. -/
def absorb {C : Type} (ro : Transcript F C → F) (tr : Transcript F C) (l : String)
    (l' : String := l) : Transcript F C :=
  (challengeAppend ro tr l l').2

/-- The transcript before `beta`. -/
def tr2 {P : PCS F} (ro : Transcript F P.Comm → F) (r2 : LookRound P) (tr : Transcript F P.Comm) :
    Transcript F P.Comm :=
  (absorb ro tr "zeta" ++ [.comm "f" r2.fC]) ++ [.comm "h1" r2.h1C, .comm "h2" r2.h2C]

/-- The four challenges of round 3. -/
def ch3 {C : Type} (ro : Transcript F C → F) (tr : Transcript F C) : F × F × F × F :=
  let (beta, tr) := challengeAppend ro tr "beta"
  let (gamma, tr) := challengeAppend ro tr "gamma"
  let (delta, tr) := challengeAppend ro tr "delta"
  let (epsilon, _) := challengeAppend ro tr "epsilon"
  (beta, gamma, delta, epsilon)

/-- The transcript before `alpha`. -/
def tr3 {P : PCS F} (ro : Transcript F P.Comm → F) (r3 : AccRound P) (tr : Transcript F P.Comm) :
    Transcript F P.Comm :=
  absorb ro (absorb ro (absorb ro (absorb ro tr "beta") "gamma") "delta") "epsilon"
    ++ [.comm "z" r3.zC]

/-- The challenges before the quotient. -/
def ch4 {C : Type} (ro : Transcript F C → F) (zeta : F) (b : F × F × F × F) (tr : Transcript F C) :
    Chals F :=
  let (alpha, tr) := challengeAppend ro tr "alpha"
  let (range, tr) := challengeAppend ro tr "range separation challenge" "range seperation challenge"
  let (logic, tr) := challengeAppend ro tr "logic separation challenge" "logic seperation challenge"
  let (fixed, tr) := challengeAppend ro tr "fixed base separation challenge"
  let (var, tr) := challengeAppend ro tr "variable base separation challenge"
  let (lookup, _) := challengeAppend ro tr "lookup separation challenge"
  ⟨zeta, b.1, b.2.1, b.2.2.1, b.2.2.2, alpha, range, logic, fixed, var, lookup, 0, 0, 0⟩

/-- The transcript before `z`. -/
def tr4 {P : PCS F} (ro : Transcript F P.Comm → F) (tC : Fin 8 → P.Comm) (tr : Transcript F P.Comm) :
    Transcript F P.Comm :=
  absorb ro (absorb ro (absorb ro (absorb ro (absorb ro (absorb ro tr "alpha")
    "range separation challenge" "range seperation challenge")
    "logic separation challenge" "logic seperation challenge")
    "fixed base separation challenge") "variable base separation challenge")
    "lookup separation challenge" ++
    [.comm "t_1" (tC 0), .comm "t_2" (tC 1), .comm "t_3" (tC 2), .comm "t_4" (tC 3),
     .comm "t_5" (tC 4), .comm "t_6" (tC 5), .comm "t_7" (tC 6), .comm "t_8" (tC 7)]

section
variable {K : PField F} {E : EdCurve F} {P : PCS F} {d : ℕ} (hP : PcsComplete P d)
  {c : Composer F} {D D8 : Dom F} {pk : PKey F} {vk : VKey P}
include hP

theorem prove_unfold (hD : CDom K c D) (hd : D.size ≤ d) (hw : WF c)
    (ro : Transcript F P.Comm → F) (tr : Transcript F P.Comm) :
    proveWithPreprocessed K E P ro c pk tr = (do
      let zeta := (challengeAppend ro (tr1 hP c D tr) "zeta").1
      let r2 ← proveRound2 P D c pk (wround hP c D) zeta
      let tr := tr2 ro r2 (tr1 hP c D tr)
      let b := ch3 ro tr
      let r3 ← proveRound3 K P D c pk (wround hP c D) r2 b.1 b.2.1 b.2.2.1 b.2.2.2
      let tr := tr3 ro r3 tr
      let ch := ch4 ro zeta b tr
      let p := honestPolys c D r2 r3
      let (t, tC) ← proveRound4 K E P D pk p ch
      let tr := tr4 ro tC tr
      let (z, tr) := challengeAppend ro tr "z"
      let ch : Chals F := { ch with z := z }
      let (lin, e) ← linearisation E D pk p t ch
      let tr := appendEvals tr e
      let (aw, tr) := challenge ro tr "aggregate_witness"
      let (saw, _) := challenge ro tr "aggregate_witness"
      let ch : Chals F := { ch with aw := aw, saw := saw }
      let (awO, sawO) ← proveOpenings P D pk p lin ch
      return ⟨(wround hP c D).c.a, (wround hP c D).c.b, (wround hP c D).c.c, (wround hP c D).c.d,
        r3.zC, r2.fC, r2.h1C, r2.h2C, r3.z2C, tC, awO, sawO, e⟩) := by
  unfold proveWithPreprocessed
  rw [hD.new]
  simp only [ok_bind, round1_run hP hD.ok hd hw hD.n]
  rfl

theorem prove_run (hD : CDom K c D) (hd : D.size ≤ d) (h8 : Dom8 K D D8) (h2n : 2 ≤ D.size)
    (hw : WF c) (hp : PiSorted c) (hs : OwnSat E c) (hk : PkFor K c D D8 pk)
    (hv : VkFor hP c D pk vk) (ro : Transcript F P.Comm → F) (tr : Transcript F P.Comm) :
    let t1 := tr1 hP c D tr
    let zeta := (challengeAppend ro t1 "zeta").1
    let pv := proveWithPreprocessed K E P ro c pk tr
    (zeta = 0 ∨ zeta = 1 → pv = .error .panic) ∧
    (∀ pr, pv = .ok pr → (verifierChals ro tr c.public_inputs pr).zeta = zeta) ∧
    (zeta ≠ 0 → zeta ≠ 1 → ∃ r2, LookOk c D hP.rep zeta r2 ∧
      let t2 := tr2 ro r2 t1
      let b := ch3 ro t2
      (∀ pr, pv = .ok pr → Good3 D c pk.sig r2.h1v r2.h2v b.1 b.2.1 b.2.2.1 b.2.2.2) ∧
      (Good3 D c pk.sig r2.h1v r2.h2v b.1 b.2.1 b.2.2.1 b.2.2.2 →
        ∃ r3, AccOk c D hP.rep pk.sig r2 b.1 b.2.1 b.2.2.1 b.2.2.2 r3 ∧
        (Contiguous r2.ct → ∃ tC : Fin 8 → P.Comm,
          let z := (challengeAppend ro (tr4 ro tC (tr3 ro r3 t2)) "z").1
          (∀ pr, pv = .ok pr → (verifierChals ro tr c.public_inputs pr).z = z) ∧
          (z ^ D.size ≠ 1 → ∃ pr, pv = .ok pr ∧
            verifyWith E P D vk c.public_inputs pr (verifierChals ro tr c.public_inputs pr)
              = .ok ())))) := by
  intro t1 zeta pv
  have hun := prove_unfold (E := E) (pk := pk) hP hD hd hw ro tr
  refine ⟨fun hz => ?_, fun pr hpr => ?_, fun z0 z1 => ?_⟩
  · refine hun.trans ?_
    simp only []
    rw [round2_panic hk.tab _ hz]
    rfl
  · have h := hun.symm.trans hpr
    obtain ⟨r2, -, h⟩ := bind_okE h
    obtain ⟨r3, -, h⟩ := bind_okE h
    obtain ⟨t, -, h⟩ := bind_okE h
    obtain ⟨l, -, h⟩ := bind_okE h
    obtain ⟨o, -, h⟩ := bind_okE h
    simp only [pure, Except.pure, Except.ok.injEq] at h
    subst h
    rfl
  · obtain ⟨r2, e2, h2⟩ := round2_run hP hD hd hw hs hk.tab z0 z1
    refine ⟨r2, h2, fun pr hpr => ?_, fun hg => ?_⟩
    · have h := hun.symm.trans hpr
      simp only [] at h
      rw [e2, ok_bind] at h
      obtain ⟨r3, e3, h⟩ := bind_okE h
      exact round3_inv hP h2 e3
    · obtain ⟨r3, e3, h3⟩ := round3_run hP hD hd hw hp hs hk.sig h2 hg
      refine ⟨r3, h3, fun hc => ?_⟩
      let ch := ch4 ro zeta (ch3 ro (tr2 ro r2 t1)) (tr3 ro r3 (tr2 ro r2 t1))
      obtain ⟨tp, e4, t2, t3⟩ := round4_run (E := E) (ch := ch) hP hD hd h8 h2n hw hs hk h2 h3 hc z0 z1
      have hun' := hun
      simp only [] at hun'
      rw [e2, ok_bind, e3, ok_bind, e4, ok_bind] at hun'
      refine ⟨fun k => hP.rep (polyOf (splitTx D.size tp k)), fun pr hpr => ?_, fun hz => ?_⟩
      · have h := hun'.symm.trans hpr
        obtain ⟨l, -, h⟩ := bind_okE h
        obtain ⟨o, -, h⟩ := bind_okE h
        simp only [pure, Except.pure, Except.ok.injEq] at h
        subst h
        rfl
      · let z := (challengeAppend ro (tr4 ro (fun k => hP.rep (polyOf (splitTx D.size tp k)))
          (tr3 ro r3 (tr2 ro r2 t1))) "z")
        let e := honestEvals D pk (honestPolys c D r2 r3) z.1
        let aw := challenge ro (appendEvals z.2 e) "aggregate_witness"
        let saw := challenge ro aw.2 "aggregate_witness"
        obtain ⟨lin, awO, sawO, l1, l2, l3⟩ := verify_run (E := E)
          (ch := { ch with z := z.1, aw := aw.1, saw := saw.1 }) hP hD hd hw hk hv h2 h3 hg z0 z1 hz
          t2 t3
        refine ⟨_, ?_, l3⟩
        refine hun'.trans ?_
        have l1' : linearisation E D pk (honestPolys c D r2 r3) (splitTx D.size tp)
          { ch with z := z.1 } = .ok (lin, e) := l1
        simp only []
        erw [l1', ok_bind]
        simp only []
        erw [l2, ok_bind]
        rfl

end

/-! ### Keys -/

theorem CDom.same {K : PField F} {c0 c : Composer F} {D : Dom F} (h : SameCircuit c0 c)
    (hD : CDom K c0 D) : CDom K c D := by
  unfold SameCircuit at h
  rw [h]
  exact ⟨hD.new, hD.ok, hD.n, hD.tab, hD.pow, hD.self, hD.eq⟩

theorem PreOk.same {P : PCS F} {c0 c : Composer F} {D : Dom F} {sel : Gate (List F)}
    {sig tab : Quad F} {vk : VKey P} (h : SameCircuit c0 c) (hp : PreOk P c0 D sel sig tab vk) :
    PreOk P c D sel sig tab vk := by
  unfold SameCircuit at h
  rw [h]
  exact ⟨hp.n, hp.selEq, hp.sigEq, hp.tabEq, hp.selC, hp.sigC, hp.tabC⟩

theorem preprocessProver_inv {K : PField F} (hK : PFieldOk K) {P : PCS F} {c0 c c' : Composer F}
    {tr tr' : Transcript F P.Comm} {pk : PKey F} (hs : SameCircuit c0 c)
    (h : preprocessProver K P c0 tr = .ok (c', pk, tr')) :
    ∃ D D8 vk, CDom K c D ∧ Dom8 K D D8 ∧ PkFor K c D D8 pk ∧ PreOk P c D pk.sel pk.sig pk.tab vk ∧
      c' = padComposer c0 (D.size - c0.n) ∧ tr' = seedTranscript vk tr := by
  unfold preprocessProver at h
  obtain ⟨⟨c1, vk, sel, sig, D, tab, t⟩, h1, h⟩ := bind_okE h
  obtain ⟨D8, h2, h⟩ := bind_okE h
  obtain ⟨vH, h3, h⟩ := bind_okE h
  simp only [pure, Except.pure, Except.ok.injEq, Prod.mk.injEq] at h
  obtain ⟨rfl, rfl, rfl⟩ := h
  obtain ⟨a1, a2, a3, a4⟩ := preprocessShared_inv hK h1
  have h3 := liftP_okE h3
  unfold vanishingCoset at h3
  obtain ⟨_, -, h3⟩ := bind_okE h3
  simp only [pure, Except.pure, Except.ok.injEq] at h3
  have a5 := a3.same hs
  refine ⟨D, D8, vk, a1.same hs, dom8_new hK a1.new h2, ⟨a5.selEq, a5.sigEq, a5.tabEq, ?_⟩, a5, a2, a4⟩
  exact ⟨rfl, rfl, rfl, h3.symm⟩

theorem preprocessVerifier_inv {K : PField F} (hK : PFieldOk K) {P : PCS F} {c0 c c' : Composer F}
    {tr tr' : Transcript F P.Comm} {vk : VKey P} (hs : SameCircuit c0 c)
    (h : preprocessVerifier K P c0 tr = .ok (c', vk, tr')) :
    ∃ D sel sig tab, CDom K c D ∧ PreOk P c D sel sig tab vk ∧
      c' = padComposer c0 (D.size - c0.n) ∧ tr' = seedTranscript vk tr := by
  unfold preprocessVerifier at h
  obtain ⟨⟨c1, vk1, sel, sig, D, tab, t⟩, h1, h⟩ := bind_okE h
  simp only [pure, Except.pure, Except.ok.injEq, Prod.mk.injEq] at h
  obtain ⟨rfl, rfl, rfl⟩ := h
  obtain ⟨a1, a2, a3, a4⟩ := preprocessShared_inv hK h1
  exact ⟨D, sel, sig, tab, a1.same hs, a3.same hs, a2, a4⟩

theorem CDom.uniq {K : PField F} {c : Composer F} {D D' : Dom F} (h : CDom K c D)
    (h' : CDom K c D') : D = D' := by
  have := h.new.symm.trans h'.new
  simpa using this

theorem PreOk.uniq {P : PCS F} {c : Composer F} {D : Dom F} {sel sel' : Gate (List F)}
    {sig tab sig' tab' : Quad F} {vk vk' : VKey P} (h : PreOk P c D sel sig tab vk)
    (h' : PreOk P c D sel' sig' tab' vk') : sel = sel' ∧ sig = sig' ∧ tab = tab' ∧ vk = vk' := by
  have e1 : sel = sel' := h.selEq.trans h'.selEq.symm
  have e2 : sig = sig' := by simpa using h.sigEq.symm.trans h'.sigEq
  have e3 : tab = tab' := h.tabEq.trans h'.tabEq.symm
  subst e1 e2 e3
  refine ⟨rfl, rfl, rfl, ?_⟩
  have f1 := h.n.trans h'.n.symm
  have f2 : vk.sel = vk'.sel := by simpa using h.selC.symm.trans h'.selC
  have f3 : vk.sig = vk'.sig := by simpa using h.sigC.symm.trans h'.sigC
  have f4 : vk.tab = vk'.tab := by simpa using h.tabC.symm.trans h'.tabC
  cases vk; cases vk'
  simp only at f1 f2 f3 f4
  subst f1 f2 f3 f4
  rfl

theorem vkFor_pre {K : PField F} {P : PCS F} {d : ℕ} (hP : PcsComplete P d) {c : Composer F}
    (hw : WF c) {D : Dom F} (hD : CDom K c D) (hd : D.size ≤ d) {pk : PKey F} {vk : VKey P}
    (h : PreOk P c D pk.sel pk.sig pk.tab vk) : VkFor hP c D pk vk := by
  have lt : ∀ p : List F, (polyOf p).degree < D.size → P.commit p = .ok (hP.rep (polyOf p)) :=
    fun p hp => commit_lt hP hd hp
  obtain ⟨s1, s2, s3, s4⟩ := sig_degree hD.ok hw hD.n h.sigEq
  obtain ⟨t1, t2, t3, t4⟩ := tab_degree hD
  refine ⟨h.n, ?_, ?_, ?_⟩
  · have := commitGate_run (P := P) (g := pk.sel) (r := fun p => hP.rep (polyOf p)) (by
      rw [h.selEq]
      obtain ⟨h1, h2, h3, h4, h5, h6, h7, h8, h9, h10, h11, h12, h13, h14, h15⟩ :=
        selector_degree hD hw
      exact ⟨lt _ h1, lt _ h2, lt _ h3, lt _ h4, lt _ h5, lt _ h6, lt _ h7, lt _ h8, lt _ h9,
        lt _ h10, lt _ h11, lt _ h12, lt _ h13, lt _ h14, lt _ h15⟩)
    simpa using h.selC.symm.trans this
  · have := commitQuad_run (P := P) (q := pk.sig) (r := fun p => hP.rep (polyOf p)) (lt _ s1)
      (lt _ s2) (lt _ s3) (lt _ s4)
    have := h.sigC.symm.trans this
    simp only [Except.ok.injEq] at this
    rw [this]; rfl
  · have := commitQuad_run (P := P) (q := tabPolys D c.lookup_table)
      (r := fun p => hP.rep (polyOf p)) (lt _ t1) (lt _ t2) (lt _ t3) (lt _ t4)
    have := h.tabC.symm.trans this
    simp only [Except.ok.injEq] at this
    rw [this]; rfl

theorem ownSat_zero {E : EdCurve F} {c : Composer F} (hw : WF c) (hs : OwnSat E c) :
    ownV c c.zero_var = 0 :=
  hw.zeroSound _ _ _ _ _ _ (hs c.n le_rfl)

theorem prove_pad {K : PField F} {E : EdCurve F} {P : PCS F} {c : Composer F} {D : Dom F}
    (hD : CDom K c D) (hw : WF c) (hs : OwnSat E c) (ro : Transcript F P.Comm → F) (pk : PKey F)
    (tr : Transcript F P.Comm) :
    proveWithPreprocessed K E P ro (padComposer c (D.size - c.n)) pk tr
      = proveWithPreprocessed K E P ro c pk tr := by
  unfold proveWithPreprocessed
  rw [circuitBound_pad hD.eq, hD.self, hD.new]
  simp only [ok_bind]
  rw [round1_pad hw (ownSat_zero hw hs) hD.n]
  simp only [round2_pad hw hD.n]
  rfl

end VO.Plonk
