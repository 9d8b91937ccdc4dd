import Verif.Spec.PlonkReuse
import Verif.Props.PlonkCaught

/-
C144: the end-to-end tester of gadgets. C145: one prover for many proofs.
-/

set_option linter.unusedSectionVars false

namespace VO

open VO.Plonk VO.Spec VO.Spec.Plonk

variable {F : Type} [Field F] [DecidableEq F]

namespace Plonk

theorem fill_okE {g : CM F Unit} {r : (F × F × F × F) × (F × F × F × F)} {c : Composer F}
    (h : fill g r = .ok c) : ∃ c0, newComposer r.1 r.2 = .ok c0 ∧ g c0 = .ok ((), c) := by
  unfold fill at h
  obtain ⟨c0, h0, h⟩ := bind_okE h
  refine ⟨c0, liftP_okE h0, ?_⟩
  split at h
  · cases h
  · rename_i hg
    cases h
    exact hg

theorem fill_reach {R : FieldRep F} {E : EdCurve F} {g g' : CM F Unit} (hg : SameGadget R E g g')
    {r : (F × F × F × F) × (F × F × F × F)} {c : Composer F} (h : fill g r = .ok c) : Reach R E c := by
  obtain ⟨c0, h1, h2⟩ := fill_okE h
  exact (gadget_builds hg).1 _ _ _ (.new h1) h2

theorem fill_reach' {R : FieldRep F} {E : EdCurve F} {g g' : CM F Unit} (hg : SameGadget R E g g')
    {r : (F × F × F × F) × (F × F × F × F)} {c : Composer F} (h : fill g' r = .ok c) : Reach R E c := by
  obtain ⟨c0, h1, h2⟩ := fill_okE h
  exact (gadget_builds hg).2 _ _ _ (.new h1) h2

theorem fill_same {R : FieldRep F} {E : EdCurve F} {g g' : CM F Unit} (hg : SameGadget R E g g')
    {r r' : (F × F × F × F) × (F × F × F × F)} {c c' : Composer F} (h : fill g r = .ok c)
    (h' : fill g' r' = .ok c') : SameCircuit c c' := by
  obtain ⟨c0, h1, h2⟩ := fill_okE h
  obtain ⟨c0', h1', h2'⟩ := fill_okE h'
  exact (obl_gadget hg _ _ _ _ _ _ (newComposer_same _ _ _ _ h1 h1') h2 h2').2

theorem _root_.VO.Spec.Plonk.SameCircuit.symm' {c c' : Composer F} (h : SameCircuit c c') : SameCircuit c' c := by
  unfold SameCircuit at *
  rw [h]

theorem sameCircuit_bound {c c' : Composer F} (h : SameCircuit c c') : circuitBound c' = circuitBound c := by
  unfold SameCircuit at h
  rw [h]
  rfl

/-- Preprocessing first makes no difference to the proof. -/
theorem prove_preprocess {K : PField F} {E : EdCurve F} {P : PCS F} {ro : Transcript F P.Comm → F}
    {c : Composer F} {tr : Transcript F P.Comm} {sp : Prover P}
    (h : Prover.preprocess K (P := P) ⟨none, c, tr⟩ = .ok sp) (r1 r2 : F × F × F × F) :
    Prover.prove K E ro sp r1 r2 = Prover.prove K E ro ⟨none, c, tr⟩ r1 r2 := by
  unfold Prover.preprocess at h
  simp only [Option.isSome_none, Bool.false_eq_true, if_false] at h
  obtain ⟨⟨cp', pk, trp⟩, hp', h⟩ := bind_okE h
  simp only [pure, Except.pure, Except.ok.injEq] at h
  subst h
  unfold Prover.prove
  simp only [hp', ok_bind, pure, Except.pure]

theorem preprocess_pi {K : PField F} (hK : PFieldOk K) {P : PCS F} {c : Composer F}
    {tr : Transcript F P.Comm} {sp : Prover P}
    (h : Prover.preprocess K (P := P) ⟨none, c, tr⟩ = .ok sp) : sp.cs.public_inputs = c.public_inputs := by
  unfold Prover.preprocess at h
  simp only [Option.isSome_none, Bool.false_eq_true, if_false] at h
  obtain ⟨⟨cp', pk, trp⟩, hp', h⟩ := bind_okE h
  simp only [pure, Except.pure, Except.ok.injEq] at h
  subst h
  obtain ⟨D, D8, vk, hD, -, hpk, -, rfl, rfl⟩ := preprocessProver_inv hK (SameCircuit.refl c) hp'
  rfl

/-- The transcript of the tester. -/
def demoTr (P : PCS F) : Transcript F P.Comm := [.init "demo", .user "key" "additional seed information"]

/-- What the tester does, on the filled composers. -/
theorem tester_iff {K : PField F} (hK : PFieldOk K) {E : EdCurve F} {P : PCS F} {ro : Transcript F P.Comm → F}
    {g g' : CM F Unit} {n : ℕ} {rp rp' rv : (F × F × F × F) × (F × F × F × F)} {c cv : Composer F}
    (hc : fill g rp = .ok c) (hcv : fill g' rv = .ok cv) (hs : SameCircuit cv c) :
    (∃ x, gadgetTester K E P ro g g' n rp rp' rv = .ok x) ↔ circuitBound c ≤ 2 * n ∧
      ∃ (v : Verifier (trimmed P (circuitBound c))) (pr : PlonkProof (trimmed P (circuitBound c)))
        (s : Prover (trimmed P (circuitBound c))),
        Verifier.preprocess K (P := trimmed P (circuitBound c)) ⟨none, cv, demoTr P⟩ = .ok v ∧
        Prover.prove K E (P := trimmed P (circuitBound c)) ro ⟨none, c, demoTr P⟩ rp'.1 rp'.2
          = .ok (pr, s) ∧
        Verifier.verify K E (P := trimmed P (circuitBound c)) ro v pr c.public_inputs = .ok () := by
  have hb : circuitBound cv = circuitBound c := (sameCircuit_bound hs).symm
  unfold gadgetTester
  simp only [hc, hcv, ok_bind, hb]
  constructor
  · rintro ⟨x, h⟩
    obtain ⟨⟨pr, pi⟩, h1, h⟩ := bind_okE h
    obtain ⟨_, h2, -⟩ := bind_okE h
    unfold testerProve at h1
    obtain ⟨_, ht, h1⟩ := bind_okE h1
    obtain ⟨p, hp, h1⟩ := bind_okE h1
    obtain ⟨⟨pr', s⟩, hpr, h1⟩ := bind_okE h1
    simp only [pure, Except.pure, Except.ok.injEq, Prod.mk.injEq] at h1
    obtain ⟨rfl, rfl⟩ := h1
    unfold testerVerify at h2
    obtain ⟨_, -, h2⟩ := bind_okE h2
    obtain ⟨v, hv, h2⟩ := bind_okE h2
    refine ⟨trimOk_inv ht, v, pr', s, hv, ?_, ?_⟩
    · rw [← hpr]
      exact (prove_preprocess (P := trimmed P (circuitBound c)) hp _ _).symm
    · rw [← preprocess_pi (P := trimmed P (circuitBound c)) hK hp]
      exact h2
  · rintro ⟨hm, v, pr, s, hv, hpr, hok⟩
    have hpp : ∃ sp, Prover.preprocess K (P := trimmed P (circuitBound c)) ⟨none, c, demoTr P⟩ = .ok sp := by
      cases hq : preprocessProver K (trimmed P (circuitBound c)) c (demoTr P) with
      | error e =>
        unfold Prover.prove at hpr
        simp only [hq] at hpr
        cases hpr
      | ok q =>
        exact ⟨⟨some q.2.1, q.1, q.2.2⟩, by
          unfold Prover.preprocess
          simp only [Option.isSome_none, Bool.false_eq_true, if_false]
          rw [hq]; rfl⟩
    obtain ⟨sp, hsp⟩ := hpp
    have e1 : testerProve K E P ro (2 * n) (circuitBound c) c rp' = .ok (pr, c.public_inputs) := by
      unfold testerProve
      rw [trimOk, if_pos hm]
      simp only [ok_bind]
      have : Prover.preprocess K (P := trimmed P (circuitBound c))
        (Prover.keyTranscript ⟨none, c, [.init "demo"]⟩ "key" "additional seed information") = .ok sp := hsp
      rw [this]
      simp only [ok_bind]
      have h3 : Prover.prove K E (P := trimmed P (circuitBound c)) ro sp rp'.1 rp'.2 = .ok (pr, s) :=
        (prove_preprocess (P := trimmed P (circuitBound c)) hsp _ _).trans hpr
      rw [h3, preprocess_pi (P := trimmed P (circuitBound c)) hK hsp]
      rfl
    have e2 : testerVerify K E P ro (2 * n) (circuitBound c) cv pr c.public_inputs = .ok () := by
      unfold testerVerify
      rw [trimOk, if_pos hm]
      simp only [ok_bind]
      have : Verifier.preprocess K (P := trimmed P (circuitBound c))
        (Verifier.keyTranscript ⟨none, cv, [.init "demo"]⟩ "key" "additional seed information") = .ok v := hv
      rw [this]
      exact hok
    rw [e1]
    simp only [ok_bind]
    rw [e2]
    exact ⟨_, rfl⟩

end Plonk

section
variable [Fintype F]

/-- **C144.** A gadget whose values satisfy it passes the end-to-end tester: if both runs of the gadget
build the same circuit, the prover's values satisfy it, the parameters `2n` are large enough for its
`N = circuit_bound` rows and the field for `8N`, and no row is twice in the lookup table, then
`gadget_tester` returns `Ok` except with probability `(3T² + 7N + 9) / |F|`. -/
theorem C144_passes {R : FieldRep F} {K : PField F} {E : EdCurve F} {P : PCS F} {n N d : ℕ}
    (hK : PFieldOk K) (hP : PcsComplete P d) {g g' : CM F Unit} (hg : SameGadget R E g g')
    {rp rp' rv : (F × F × F × F) × (F × F × F × F)} {c cv : Composer F} (hc : fill g rp = .ok c)
    (hcv : fill g' rv = .ok cv) (hs : OwnSat E c) (hN : N = circuitBound c) (hm : N ≤ 2 * n) (hd : N ≤ d)
    (h8 : Nat.clog 2 (8 * N) ≤ K.fft.twoAdicity) (hT : c.lookup_table.Nodup) :
    Odds F (3 * c.lookup_table.length ^ 2 + 7 * N + 9)
      fun t : F × F × F × F × F × F × F × F × F × F × F × F × F × F =>
      let (zeta, beta, gamma, delta, epsilon, alpha, range, logic, fixed, var, lookup, z, aw, saw) := t
      ¬ ∃ x, gadgetTester K E P (coins [zeta, beta, gamma, delta, epsilon, alpha, range, logic, fixed,
        var, lookup, z, aw, saw]) g g' n rp rp' rv = .ok x := by
  subst hN
  obtain ⟨v, hv, h⟩ := C142_prove (E := E) hK
    (trimmed_complete hP hd (Nat.le_succ (circuitBound c))) (fill_reach hg hc) hs rfl le_rfl h8 hT
    (fill_reach' hg hcv) (fill_same hg hc hcv).symm' (tr := demoTr P) rfl rp'.1 rp'.2
  refine h.mono le_rfl ?_
  rintro ⟨zeta, beta, gamma, delta, epsilon, alpha, range, logic, fixed, var, lookup, zz, aw, saw⟩ hno
    ⟨pr, s, h1, h2⟩
  exact hno ((tester_iff hK hc hcv (fill_same hg hc hcv).symm').2 ⟨hm, v, pr, s, hv, h1, h2⟩)

/-- **C144 (failing gadgets).** A gadget whose values do not satisfy it does not pass: `gadget_tester`
returns `Ok` with probability at most `(17N + 10 max(d, N) + 34) / |F|`. -/
theorem C144_fails {R : FieldRep F} {K : PField F} {E : EdCurve F} {P : PCS F} {n N d : ℕ}
    (hK : PFieldOk K) (hS : PcsSound P d) {g g' : CM F Unit} (hg : SameGadget R E g g')
    {rp rp' rv : (F × F × F × F) × (F × F × F × F)} {c : Composer F} (hc : fill g rp = .ok c)
    (hN : N = circuitBound c)
    (hbad : ¬ Sat E (padRows c.lookup_table N) N c (ownPub c) (ownW c) (ownV c)) :
    Odds F (17 * N + 10 * max d N + 34)
      fun t : F × F × F × F × F × F × F × F × F × F × F × F × F × F =>
      let (zeta, beta, gamma, delta, epsilon, alpha, range, logic, fixed, var, lookup, z, aw, saw) := t
      ∃ x, gadgetTester K E P (coins [zeta, beta, gamma, delta, epsilon, alpha, range, logic, fixed,
        var, lookup, z, aw, saw]) g g' n rp rp' rv = .ok x := by
  subst hN
  cases hcv : fill g' rv with
  | error e =>
    refine odds_empty ?_
    rintro ⟨zeta, beta, gamma, delta, epsilon, alpha, range, logic, fixed, var, lookup, zz, aw, saw⟩
      ⟨x, h⟩
    unfold gadgetTester at h
    simp only [hcv] at h
    obtain ⟨_, -, h⟩ := bind_okE h
    obtain ⟨_, -, h⟩ := bind_okE h
    cases h
  | ok cv =>
    have hs := (fill_same hg hc hcv).symm'
    cases hv : Verifier.preprocess K (P := trimmed P (circuitBound c)) ⟨none, cv, demoTr P⟩ with
    | error e =>
      refine odds_empty ?_
      rintro ⟨zeta, beta, gamma, delta, epsilon, alpha, range, logic, fixed, var, lookup, zz, aw, saw⟩ h
      obtain ⟨-, v, _, _, h1, -⟩ := (tester_iff hK hc hcv hs).1 h
      rw [hv] at h1
      cases h1
    | ok v =>
      refine (C143_prove (E := E) hK (trimmed_sound hS (circuitBound c)) (fill_reach hg hc)
        (fill_reach' hg hcv) hs rfl hbad (tr := demoTr P) rfl hv rp'.1 rp'.2).mono le_rfl ?_
      rintro ⟨zeta, beta, gamma, delta, epsilon, alpha, range, logic, fixed, var, lookup, zz, aw, saw⟩ h
      obtain ⟨-, v', pr, s, h1, h2, h3⟩ := (tester_iff hK hc hcv hs).1 h
      obtain rfl : v' = v := by rw [hv] at h1; simpa using h1.symm
      exact ⟨pr, s, h2, h3⟩

end

namespace Plonk

theorem blindRow_table {c c' : Composer F} (hw : WF c) {r : F × F × F × F} {p : Var × Var}
    (h : blindRow r c = .ok (p, c')) : c'.lookup_table = c.lookup_table := by
  unfold blindRow at h
  obtain ⟨x1, c1, h1, g1⟩ := bindC_ok.1 h
  obtain ⟨x2, c2, h2, g2⟩ := bindC_ok.1 g1
  obtain ⟨x3, c3, h3, g3⟩ := bindC_ok.1 g2
  obtain ⟨x4, c4, h4, g4⟩ := bindC_ok.1 g3
  obtain ⟨u, c5, h5, g5⟩ := bindC_ok.1 g4
  obtain ⟨rfl, rfl⟩ := pureC_ok.1 g5
  have n1 := addInput_fwd hw h1
  have n2 := addInput_fwd n1.wf h2
  have n3 := addInput_fwd n2.wf h3
  have n4 := addInput_fwd n3.wf h4
  obtain ⟨-, ha⟩ := pushGate_fwd n4.wf (not_usesNext_arith _ _ _ _ _ _ _ _ _ _ _) h5
  rw [ha.table, n4.table, n3.table, n2.table, n1.table]

theorem newComposer_table {r1 r2 : F × F × F × F} {c : Composer F} (h : newComposer r1 r2 = .ok c) :
    c.lookup_table = [] := by
  obtain ⟨c', h1⟩ := addBlindingFactors_run (seed_wf (F := F)) r1 r2
  have h2 : c'.lookup_table = [] := by
    have h := h1
    unfold addBlindingFactors at h
    obtain ⟨p1, c1, h1, g1⟩ := bindC_ok.1 h
    obtain ⟨⟨y1, y2⟩, c2, h2, g2⟩ := bindC_ok.1 g1
    obtain ⟨z, c3, h3, g3⟩ := bindC_ok.1 g2
    obtain ⟨rfl, rfl⟩ := zeroVar_ok.1 h3
    obtain ⟨w1, -⟩ := blindRow_fwd seed_wf h1
    obtain ⟨w2, -⟩ := blindRow_fwd w1 h2
    obtain ⟨-, ha⟩ := pushGate_fwd w2 (not_usesNext_arith _ _ _ _ _ _ _ _ _ _ _) g3
    rw [ha.table, blindRow_table w1 h2, blindRow_table seed_wf h1]
    rfl
  have h3 : newComposer r1 r2 = .ok c' := by
    have : (do
      let z ← addWitnessToCircuitDescription (0 : F)
      modify fun c => { c with zero_var := z }
      addBlindingFactors r1 r2 : CM F Unit) emptyComposer = .ok ((), c') :=
      bindC_ok.2 ⟨_, _, seed_eq, bindC_ok.2 ⟨(), seedComposer, rfl, h1⟩⟩
    unfold newComposer
    rw [this]
  rw [h] at h3
  cases h3
  exact h2

end Plonk

/-- `dummy_gadget` never panics, adds one gate per step, and its values satisfy it. -/
theorem C144_dummy (R : FieldRep F) (E : EdCurve F) (k : ℕ) (r : (F × F × F × F) × (F × F × F × F)) :
    SameGadget R E (dummyGadget (F := F) k) (dummyGadget k) ∧
    ∃ c : Composer F, fill (dummyGadget k) r = .ok c ∧ OwnSat E c ∧ c.n = k + 4 ∧
      c.lookup_table = [] ∧ circuitBound c = 2 ^ Nat.clog 2 (k + 4) := by
  constructor
  · unfold dummyGadget
    refine .call (.add_input _ _) fun x => ?_
    induction k with
    | zero => exact .done _
    | succ k ih =>
      exact .call (.same (.arithmetic_gate _)) fun _ => ih
  · obtain ⟨c0, h0, hr0, hs0, hn0, -⟩ := C85_new (R := R) (E := E) r.1 r.2
    obtain ⟨c1, h1, n1⟩ := addInput_run (Reach.wf hr0) (1 : F)
    have hr1 : Reach R E c1 := .call hr0 (.add_input 1) h1
    have ht1 : c1.lookup_table = [] := by rw [n1.table, newComposer_table h0]
    have hx1 : c0.variables.length < c1.variables.length := by rw [n1.vars]; simp
    have key : ∀ (k : ℕ) (c : Composer F), Reach R E c → c0.variables.length < c.variables.length →
        OwnSat E c → ∃ c', dummyLoop c0.variables.length k c = .ok ((), c') ∧ OwnSat E c' ∧ c'.n = c.n + k ∧ c'.lookup_table = c.lookup_table := by
      intro k
      induction k with
      | zero => intro c _ _ hs; exact ⟨c, rfl, hs, rfl, rfl⟩
      | succ k ih =>
        intro c hr hx hs
        obtain ⟨x, c', h⟩ := (C88_panics hr
          ⟨some (c0.variables.length, c0.variables.length, none), none, 0, (1, 1), -1, 0, none⟩).2
          ⟨_, _, _, rfl, hx, hx, fun x hx => (by cases hx), fun p hp => (by cases hp)⟩
        obtain ⟨-, -, -, h4, -⟩ := C88_arithmetic_gate hr rfl h
        obtain ⟨-, hv, P⟩ := arithmeticGate_fwd_none (Reach.wf hr) rfl h
        obtain ⟨c'', g1, g2, g3, g4⟩ := ih c' (.call hr (.arithmetic_gate _) h)
          (by rw [hv]; simp; omega) ((h4 hs).2 (by simp))
        refine ⟨c'', ?_, g2, by rw [g3, P.n]; omega, by rw [g4, P.table]⟩
        exact bindC_ok.2 ⟨_, _, h, g1⟩
    obtain ⟨c, g1, g2, g3, g4⟩ := key k c1 hr1 hx1 (n1.own E hs0)
    have hn : c.n = k + 4 := by rw [g3, n1.n, hn0]; omega
    have ht : c.lookup_table = [] := by rw [g4, ht1]
    refine ⟨c, ?_, g2, hn, ht, by unfold circuitBound; rw [hn, ht]; simp⟩
    unfold fill
    rw [h0]
    simp only [liftP, ok_bind]
    have : dummyGadget k c0 = .ok ((), c) := bindC_ok.2 ⟨_, _, h1, g1⟩
    rw [this]

/-- So `gadget_tester` accepts `dummy_gadget(k)` with parameters `2n ≥ N`, the power of two above `k + 4`,
except with probability `(7N + 9) / |F|`. -/
theorem C144_dummy_passes [Fintype F] (R : FieldRep F) {K : PField F} {E : EdCurve F} {P : PCS F}
    {n d k : ℕ} (hK : PFieldOk K) (hP : PcsComplete P d) (hm : 2 ^ Nat.clog 2 (k + 4) ≤ 2 * n)
    (hd : 2 ^ Nat.clog 2 (k + 4) ≤ d) (h8 : Nat.clog 2 (8 * 2 ^ Nat.clog 2 (k + 4)) ≤ K.fft.twoAdicity)
    (rp rp' rv : (F × F × F × F) × (F × F × F × F)) :
    Odds F (7 * 2 ^ Nat.clog 2 (k + 4) + 9)
      fun t : F × F × F × F × F × F × F × F × F × F × F × F × F × F =>
      let (zeta, beta, gamma, delta, epsilon, alpha, range, logic, fixed, var, lookup, z, aw, saw) := t
      ¬ ∃ x, gadgetTester K E P (coins [zeta, beta, gamma, delta, epsilon, alpha, range, logic, fixed,
        var, lookup, z, aw, saw]) (dummyGadget k) (dummyGadget k) n rp rp' rv = .ok x := by
  obtain ⟨hg, c, h1, h2, -, h4, h5⟩ := C144_dummy R E k rp
  obtain ⟨-, cv, h1', -⟩ := C144_dummy R E k rv
  have := C144_passes (n := n) (rp' := rp') hK hP hg h1 h1' h2 h5.symm hm hd h8 (by rw [h4]; simp)
  rw [h4] at this
  simpa using this

/-- The hypotheses can be met. -/
example : ∃ c : Composer K7681, fill (exProg 0 0) ((1, 2, 3, 4), (5, 6, 7, 8)) = .ok c ∧
    8 = circuitBound c ∧
    ¬ Sat E7681 (padRows c.lookup_table 8) 8 c (ownPub c) (ownW c) (ownV c) ∧
    SameGadget R7681 E7681 (exProg 0 0) (exProg 0 0) := by
  obtain ⟨c0, h0, h1⟩ := exCirc_filled 0 0
  obtain ⟨_, c, h1, h2⟩ := bindC_ok.1 h1
  obtain ⟨-, rfl⟩ := pureC_ok.1 h2
  have hb : 8 = circuitBound (exC 0 0) := by decide +kernel
  refine ⟨_, ?_, hb, fun h => exC_own_unsat ?_, ?_⟩
  · unfold fill
    rw [h0]
    simp only [liftP, ok_bind, h1]
  · rw [hb] at h
    exact (C143_own (exC_facts 0 0).1 (by decide +kernel)).1 h
  · unfold exProg
    exact .call (.same (.insert_row ..)) fun _ => .call (.same (.insert_row ..)) fun _ =>
      .call (.add_input _ _) fun _ => .call (.add_input _ _) fun _ => .call (.add_input _ _) fun _ =>
      .call (.lookup_gate _ _ _ _ rfl) fun _ => by
        have := fun a => SameGadget.call (R := R7681) (E := E7681) (k := fun u : Unit => pure u)
          (k' := fun u => pure u)
          (SameCall.constrain_to_constant a 3 (pi := some (0 : K7681)) (pi' := some 0) rfl) fun u => .done u
        simp only [bind_pure] at this
        exact this _

/-! ## C145 -/

namespace Plonk

theorem _root_.VO.Spec.Plonk.SameCircuit.trans' {c c' c'' : Composer F} (h : SameCircuit c c')
    (h' : SameCircuit c' c'') : SameCircuit c c'' := by
  unfold SameCircuit at *
  rw [h', h]

/-- What `prove` leaves behind. -/
theorem prove_state {K : PField F} {E : EdCurve F} {P : PCS F} {ro : Transcript F P.Comm → F}
    {pk : PKey F} {s0 : Prover P} (hk : s0.key = some pk) {r1 r2 : F × F × F × F} {pr : PlonkProof P}
    {s : Prover P} (h : Prover.prove K E ro s0 r1 r2 = .ok (pr, s)) :
    s.key = s0.key ∧ s.tr = s0.tr ∧ newComposer r1 r2 = .ok s.cs := by
  unfold Prover.prove at h
  simp only [hk, ok_bind, pure, Except.pure] at h
  obtain ⟨pr', h2, h⟩ := bind_okE h
  obtain ⟨c2, h3, h⟩ := bind_okE h
  simp only [Except.ok.injEq, Prod.mk.injEq] at h
  obtain ⟨-, rfl⟩ := h
  exact ⟨hk.symm, rfl, liftP_okE h3⟩

theorem preprocess_of_prove {K : PField F} {E : EdCurve F} {P : PCS F} {ro : Transcript F P.Comm → F}
    {c : Composer F} {tr : Transcript F P.Comm} {r1 r2 : F × F × F × F} {x : PlonkProof P × Prover P}
    (h : Prover.prove K E ro ⟨none, c, tr⟩ r1 r2 = .ok x) :
    ∃ sp, Prover.preprocess K (P := P) ⟨none, c, tr⟩ = .ok sp := by
  cases hq : preprocessProver K P c tr with
  | error e =>
    unfold Prover.prove at h
    simp only [hq] at h
    cases h
  | ok q =>
    exact ⟨⟨some q.2.1, q.1, q.2.2⟩, by
      unfold Prover.preprocess
      simp only [Option.isSome_none, Bool.false_eq_true, if_false]
      rw [hq]; rfl⟩

theorem preprocess_key {K : PField F} {P : PCS F} {s sp : Prover P}
    (h : Prover.preprocess K s = .ok sp) : ∃ pk, sp.key = some pk := by
  unfold Prover.preprocess at h
  by_cases hk : s.key.isSome
  · simp only [hk, if_true] at h
    cases h
  · simp only [hk, Bool.false_eq_true, if_false] at h
    obtain ⟨q, -, h⟩ := bind_okE h
    simp only [pure, Except.pure, Except.ok.injEq] at h
    subst h
    exact ⟨_, rfl⟩

end Plonk

/-- **C145.** One prover, many proofs. A verifier is preprocessed for a circuit. A prover with the same
label and keys, either new or preprocessed with any values for this circuit and then cleared with
`clear_witness`, is used any number of times: `clear_witness`, or a gadget that builds the same circuit
with other values and then `prove`. If the values satisfy the circuit each time, then every proof is
accepted with its public inputs (with the two conditions of `C105_complete` for its own challenges), and
after all of it the prover still has the same key and transcript. -/
theorem C145_session {R : FieldRep F} {K : PField F} {E : EdCurve F} {P : PCS F} {d n : ℕ}
    (hK : PFieldOk K) (hP : PcsComplete P d) {g0 : CM F Unit} {rv : (F × F × F × F) × (F × F × F × F)}
    {cv : Composer F} (hcv : fill g0 rv = .ok cv) (hn : n = circuitBound cv) (hd : n ≤ d)
    {tr : Transcript F P.Comm} {v : Verifier P}
    (hv : Verifier.preprocess K (P := P) ⟨none, cv, tr⟩ = .ok v) (ro : Transcript F P.Comm → F)
    (uses : List (Use F))
    (hu : ∀ g r, Use.prove g r ∈ uses → SameGadget R E g g0 ∧ ∀ r' c, fill g r' = .ok c → OwnSat E c)
    {s0 s : Prover P}
    (hs0 : freshProver P tr s0 ∨ ∃ g r cp sp, ∃ rc : (F × F × F × F) × (F × F × F × F), SameGadget R E g g0 ∧ fill g r = .ok cp ∧
      Prover.preprocess K (P := P) ⟨none, cp, tr⟩ = .ok sp ∧ sp.clearWitness rc.1 rc.2 = .ok s0)
    {out : List (PlonkProof P × List (ℕ × F))} (h : session K E ro s0 uses = .ok (out, s)) :
    out.length = uses.countP (fun u => match u with | .prove .. => true | _ => false) ∧
    (∀ x ∈ out, Contiguous (compressedTable cv n (verifierChals ro v.tr x.2 x.1).zeta) →
      (verifierChals ro v.tr x.2 x.1).z ^ n ≠ 1 → v.verify K E ro x.1 x.2 = .ok ()) ∧
    (s0.key ≠ none → s.key = s0.key ∧ s.tr = s0.tr) := by
  have hinv : freshProver P tr s0 ∨ ∃ g r cp sp, SameGadget R E g g0 ∧ fill g r = .ok cp ∧
      Prover.preprocess K (P := P) ⟨none, cp, tr⟩ = .ok sp ∧ s0.key = sp.key ∧ s0.tr = sp.tr ∧
      ∃ r1 r2, newComposer r1 r2 = .ok s0.cs := by
    refine hs0.imp id ?_
    rintro ⟨g, r, cp, sp, rc, h1, h2, h3, h4⟩
    unfold Prover.clearWitness at h4
    obtain ⟨c, h5, h4⟩ := bind_okE h4
    simp only [pure, Except.pure, Except.ok.injEq] at h4
    subst h4
    exact ⟨g, r, cp, sp, h1, h2, h3, rfl, rfl, _, _, h5⟩
  clear hs0
  induction uses generalizing s0 out with
  | nil =>
    simp only [session, Except.ok.injEq, Prod.mk.injEq] at h
    obtain ⟨rfl, rfl⟩ := h
    exact ⟨rfl, by simp, fun _ => ⟨rfl, rfl⟩⟩
  | cons u uses ih =>
    have hu' := fun g r hm => hu g r (List.mem_cons_of_mem _ hm)
    cases u with
    | clear_witness r =>
      unfold session at h
      obtain ⟨s1, h1, h⟩ := bind_okE h
      have h1 := liftP_okE h1
      unfold Prover.clearWitness at h1
      obtain ⟨c, h2, h1⟩ := bind_okE h1
      simp only [pure, Except.pure, Except.ok.injEq] at h1
      subst h1
      obtain ⟨q1, q2, q3⟩ := ih hu' h (by
        rcases hinv with ⟨k1, k2, -⟩ | ⟨g, r', cp, sp, k1, k2, k3, k4, k5, -⟩
        · exact .inl ⟨k1, k2, _, _, h2⟩
        · exact .inr ⟨g, r', cp, sp, k1, k2, k3, k4, k5, _, _, h2⟩)
      exact ⟨by simpa using q1, q2, q3⟩
    | prove g r =>
      obtain ⟨hg, hsat⟩ := hu g r List.mem_cons_self
      unfold session at h
      split at h
      · cases h
      rename_i c hc
      obtain ⟨⟨pr, s1⟩, hpr, h⟩ := bind_okE h
      obtain ⟨⟨out', s2⟩, h2, h⟩ := bind_okE h
      simp only [pure, Except.pure, Except.ok.injEq, Prod.mk.injEq] at h
      obtain ⟨rfl, rfl⟩ := h
      obtain ⟨ra, rb, hnew⟩ : ∃ r1 r2, newComposer r1 r2 = .ok s0.cs := by
        rcases hinv with ⟨-, -, h⟩ | ⟨_, _, _, _, -, -, -, -, -, h⟩ <;> exact h
      have hfill : fill g (ra, rb) = .ok c := by
        unfold fill
        simp only [hnew, liftP, ok_bind, hc]
      have hr := fill_reach hg hfill
      have hs := hsat _ _ hfill
      have hsv : SameCircuit cv c := (fill_same hg hfill hcv).symm'
      have hb : circuitBound c = n := by rw [hn, sameCircuit_bound hsv]
      have htab : compressedTable c n = compressedTable cv n := by
        have : c.lookup_table = cv.lookup_table := by
          have h' := hsv
          unfold SameCircuit at h'
          rw [h']
        funext z
        unfold compressedTable
        rw [this]
      -- the prover as if preprocessed before
      have hpre : ∃ g' r' cp sp, SameGadget R E g' g0 ∧ fill g' r' = .ok cp ∧
          Prover.preprocess K (P := P) ⟨none, cp, tr⟩ = .ok sp ∧
          (Prover.prove K E ro { sp with cs := c } r.1 r.2 = .ok (pr, s1) ∨
            cp = c ∧ Prover.prove K E ro sp r.1 r.2 = .ok (pr, s1)) ∧
          (s0.key ≠ none → s0.key = sp.key ∧ s0.tr = sp.tr) := by
        rcases hinv with ⟨k1, k2, -⟩ | ⟨g', r', cp, sp, k1, k2, k3, k4, k5, -⟩
        · obtain ⟨sk, scs, str⟩ := s0
          simp only [] at k1 k2
          subst k1 k2
          obtain ⟨sp, hsp⟩ := preprocess_of_prove hpr
          refine ⟨g, _, c, sp, hg, hfill, hsp, .inr ⟨rfl, ?_⟩, fun h => absurd rfl h⟩
          rw [prove_preprocess hsp]
          exact hpr
        · refine ⟨g', r', cp, sp, k1, k2, k3, .inl ?_, fun _ => ⟨k4, k5⟩⟩
          have e : ({ s0 with cs := c } : Prover P) = { sp with cs := c } := by rw [k4, k5]
          rw [← e]
          exact hpr
      obtain ⟨g', r', cp, sp, k1, k2, k3, k4, k5⟩ := hpre
      obtain ⟨pk, hpk⟩ := preprocess_key k3
      have hst : s1.key = sp.key ∧ s1.tr = sp.tr ∧ newComposer r.1 r.2 = .ok s1.cs := by
        rcases k4 with k4 | ⟨-, k4⟩
        · have := prove_state (s0 := { sp with cs := c }) hpk k4
          exact this
        · exact prove_state hpk k4
      obtain ⟨q1, q2, q3⟩ := ih hu' h2 (.inr ⟨g', r', cp, sp, k1, k2, k3, hst.1, hst.2.1, _, _, hst.2.2⟩)
      refine ⟨by simp [q1], ?_, fun hk => ?_⟩
      · intro x hx hz1 hz2
        rcases List.mem_cons.1 hx with rfl | hx
        · refine (C105_preprocessed hK hP hr hs (by rw [hb]; exact hd)
            ((fill_same k1 k2 hcv).trans' hsv) hsv hv k3 ro k4 ?_ ?_).1
          · rw [hb, htab]; exact hz1
          · rw [hb]; exact hz2
        · exact q2 x hx hz1 hz2
      · obtain ⟨e1, e2⟩ := k5 hk
        obtain ⟨e3, e4⟩ := q3 (by rw [hst.1, hpk]; simp)
        exact ⟨e3.trans (hst.1.trans e1.symm), e4.trans (hst.2.1.trans e2.symm)⟩

/-- `clear` does not return the prover to what `new` made: the label is gone, whatever it was. So after
`clear` a prover made with another label than `plonk` writes other transcripts than before. -/
theorem C145_clear {P : PCS F} {label : String} {ra rb : F × F × F × F} {s0 : Prover P}
    (h0 : Prover.new P label ra rb = .ok s0) (s : Prover P) (r1 r2 : F × F × F × F) :
    s.clear r1 r2 = Prover.default P r1 r2 ∧
    (∃ s', s.clear r1 r2 = .ok s' ∧ (s'.tr = s0.tr ↔ label = "plonk")) := by
  obtain ⟨c, hc, -⟩ := newComposer_ok (F := F) r1 r2
  have h1 : s.clear r1 r2 = .ok ⟨none, c, [.init "plonk"]⟩ := by
    unfold Prover.clear Prover.clearWitness
    rw [hc]
    rfl
  refine ⟨?_, _, h1, ?_⟩
  · rw [h1]
    unfold Prover.default Prover.new
    rw [hc]
    rfl
  · unfold Prover.new at h0
    obtain ⟨c0, -, h0⟩ := bind_okE h0
    simp only [pure, Except.pure, Except.ok.injEq] at h0
    subst h0
    simp [eq_comm]

/-- A prover that made a proof makes the same proof again from the same values (the hash being a
function): `prove` puts no randomness into proofs of its own. -/
theorem C145_again {R : FieldRep F} {K : PField F} {E : EdCurve F} {P : PCS F} (hK : PFieldOk K)
    {c : Composer F} (hc : Reach R E c) {tr : Transcript F P.Comm} {ro : Transcript F P.Comm → F}
    {r1 r2 : F × F × F × F} {pr : PlonkProof P} {s : Prover P}
    (h : Prover.prove K E ro ⟨none, c, tr⟩ r1 r2 = .ok (pr, s)) :
    Prover.prove K E ro { s with cs := c } r1 r2 = .ok (pr, s) := by
  cases hp : preprocessProver K P c tr with
  | error e =>
    unfold Prover.prove at h
    simp only [hp] at h
    cases h
  | ok q =>
    obtain ⟨c', pk, trp⟩ := q
    obtain ⟨D, D8, vk, hD, -, hpk, -, rfl, rfl⟩ := preprocessProver_inv hK (SameCircuit.refl c) hp
    unfold Prover.prove at h
    simp only [hp, ok_bind, pure, Except.pure] at h
    obtain ⟨pr', h2, h⟩ := bind_okE h
    obtain ⟨c2, h3, h⟩ := bind_okE h
    simp only [Except.ok.injEq, Prod.mk.injEq] at h
    obtain ⟨rfl, rfl⟩ := h
    rw [prove_pad' hD (Reach.wf hc) (Reach.zeroVal hc)] at h2
    unfold Prover.prove
    simp only [ok_bind, pure, Except.pure]
    rw [h2]
    simp only [ok_bind]
    rw [h3]
    rfl

theorem _root_.VO.Spec.Odds.exists_not [Fintype F] {T : Type} [Fintype T] [Nonempty T] {k : ℕ}
    {Q : T → Prop} (h : Odds F k Q) (hk : k < Fintype.card F) : ∃ t, ¬ Q t := by
  by_contra hno
  push Not at hno
  unfold Odds at h
  rw [show {t | Q t} = Set.univ from Set.eq_univ_of_forall hno, Set.ncard_univ, Nat.card_eq_fintype_card,
    Nat.mul_comm] at h
  have := Nat.le_of_mul_le_mul_right h Fintype.card_pos
  omega

/-- The hypotheses of `C145_session` can be met: two proofs with one prover, with `clear_witness` in
between. -/
example : ∃ (cv : Composer K7681) (v : Verifier (idealPcs K7681 8)) (s0 s : Prover (idealPcs K7681 8))
    (l : List K7681) (out : List (PlonkProof (idealPcs K7681 8) × List (ℕ × K7681))),
    fill (dummyGadget 3) ((9, 2, 3, 4), (5, 6, 7, 8)) = .ok cv ∧ 8 = circuitBound cv ∧
    Verifier.preprocess pf7681 ⟨none, cv, [.init "plonk"]⟩ = .ok v ∧
    freshProver (idealPcs K7681 8) [.init "plonk"] s0 ∧
    (let r := ((1, 2, 3, 4), (5, 6, 7, 8))
     let uses : List (Use K7681) := [.prove (dummyGadget 3) r, .clear_witness r, .prove (dummyGadget 3) r]
     (∀ g r, Use.prove g r ∈ uses → SameGadget R7681 E7681 g (dummyGadget 3) ∧
        ∀ r' c, fill g r' = .ok c → OwnSat E7681 c) ∧
     session pf7681 E7681 (coins l) s0 uses = .ok (out, s)) ∧ out.length = 2 := by
  obtain ⟨hg, cv, h1, h2, h3, h4, h5⟩ := C144_dummy R7681 E7681 3 ((9, 2, 3, 4), (5, 6, 7, 8))
  obtain ⟨-, c, g1, g2, g3, g4, g5⟩ := C144_dummy R7681 E7681 3 ((1, 2, 3, 4), (5, 6, 7, 8))
  have hb : (2 : ℕ) ^ Nat.clog 2 (3 + 4) = 8 := by decide +kernel
  rw [hb] at h5 g5
  obtain ⟨v, hv, ho⟩ := C142_prove pf7681_ok (ideal_complete (F := K7681) 8) (fill_reach hg g1) g2
    (n := 8) g5.symm le_rfl (by decide +kernel) (by rw [g4]; simp) (fill_reach hg h1)
    (fill_same hg h1 g1) (tr := [.init "plonk"]) rfl (1, 2, 3, 4) (5, 6, 7, 8)
  obtain ⟨c0, hc0, hf⟩ := fill_okE g1
  have hex : ∃ (l : List K7681) (pr : PlonkProof (idealPcs K7681 8)) (s : Prover (idealPcs K7681 8)),
      Prover.prove pf7681 E7681 (coins l) ⟨none, c, [.init "plonk"]⟩ (1, 2, 3, 4) (5, 6, 7, 8)
        = .ok (pr, s) := by
    obtain ⟨⟨a1, a2, a3, a4, a5, a6, a7, a8, a9, a10, a11, a12, a13, a14⟩, ht⟩ := ho.exists_not (by
      rw [g4, show Fintype.card K7681 = 7681 from ZMod.card _]
      simp)
    simp only [not_not] at ht
    obtain ⟨pr, s, h, -⟩ := ht
    exact ⟨_, pr, s, h⟩
  obtain ⟨l, pr, s, hpr⟩ := hex
  have hk : s.key ≠ none ∧ newComposer (1, 2, 3, 4) (5, 6, 7, 8) = .ok s.cs := by
    obtain ⟨sp, hsp⟩ := preprocess_of_prove hpr
    obtain ⟨pk, hpk⟩ := preprocess_key hsp
    rw [← prove_preprocess hsp] at hpr
    obtain ⟨e1, -, e3⟩ := prove_state hpk hpr
    exact ⟨by rw [e1, hpk]; simp, e3⟩
  have hs0 : s.cs = c0 := by
    have := hk.2.symm.trans hc0
    simpa using this
  refine ⟨cv, v, ⟨none, c0, [.init "plonk"]⟩, s, l, [(pr, c.public_inputs), (pr, c.public_inputs)], h1,
    h5.symm, hv, ⟨rfl, rfl, _, _, hc0⟩, ⟨?_, ?_⟩, rfl⟩
  · intro g r hm
    have : g = dummyGadget 3 := by
      simp only [List.mem_cons, Use.prove.injEq, List.not_mem_nil, or_false, reduceCtorEq, false_or] at hm
      rcases hm with h | h <;> exact h.1
    subst this
    refine ⟨hg, fun r' c' hf' => ?_⟩
    obtain ⟨-, c1, k1, k2, -⟩ := C144_dummy R7681 E7681 3 r'
    rw [hf'] at k1
    cases k1
    exact k2
  · have hag := C145_again pf7681_ok (fill_reach hg g1) hpr
    simp only [session, hf, hpr, ok_bind, Prover.clearWitness, hc0, liftP, pure, Except.pure]
    have e : ({ s with cs := c0 } : Prover (idealPcs K7681 8)) = s := by rw [← hs0]
    rw [hag]
    rfl

end VO
