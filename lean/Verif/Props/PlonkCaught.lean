import Verif.Lemmas.PlonkCaught2
import Verif.Props.PlonkErr

/-
C143: values that do not satisfy the circuit are caught, with the prover of the library itself.
-/

set_option linter.unusedSectionVars false

namespace VO

open VO.Plonk VO.Spec VO.Spec.Plonk

variable {F : Type} [Field F] [DecidableEq F]

namespace Plonk

/-- The values of the selectors the prover sends are right. -/
theorem honest_selectors {P : PCS F} {d : ℕ} (hS : PcsSound P d) {c : Composer F} {D : Dom F} {pk : PKey F}
    {sig tab : Quad F} {vk : VKey P} (hpre : PreOk P c D pk.sel sig tab vk) (p : ProverPolys F) (z : F) :
    HonestSelectors hS vk (honestEvals D pk p z) z := by
  have h := ext_sel hS hpre
  have h1 := congrArg Gate.arith h
  have h2 := congrArg Gate.l h
  have h3 := congrArg Gate.r h
  have h4 := congrArg Gate.c h
  simp only [Gate.map] at h1 h2 h3 h4
  constructor <;> simp [customGet, honestEvals, polyEval_eq, h1, h2, h3, h4]

end Plonk

variable [Fintype F]

namespace Plonk

theorem odds_empty {T : Type} [Fintype T] {k : ℕ} {Q : T → Prop} (h : ∀ t, ¬ Q t) : Odds F k Q := by
  have : {t | Q t} = ∅ := by ext t; simpa using h t
  unfold Odds
  rw [this]
  simp

/-- The core of C143. -/
theorem caught {R : FieldRep F} {K : PField F} {E : EdCurve F} {P : PCS F} {d n : ℕ}
    (hK : PFieldOk K) (hS : PcsSound P d) {c cv : Composer F} (hc : Reach R E c) (hrv : Reach R E cv)
    (hcv : SameCircuit cv c) (hn : n = circuitBound c) {tr : Transcript F P.Comm}
    (htr : tr.countP isChal = 0) {v : Verifier P}
    (hv : Verifier.preprocess K (P := P) ⟨none, cv, tr⟩ = .ok v) {pk : PKey F} {D : Dom F} (hD : CDom K c D)
    (hpk : pk.sel = selectorPolys D (padComposer c (D.size - c.n)))
    {trp : Transcript F P.Comm} (htrp : trp.countP isChal = 0)
    (hbad : ¬ Sat E (padRows c.lookup_table n) n c (ownPub c) (ownW c) (ownV c)) :
    Odds F (17 * n + 10 * max d n + 34)
      fun t : F × F × F × F × F × F × F × F × F × F × F × F × F × F =>
      let (zeta, beta, gamma, delta, epsilon, alpha, range, logic, fixed, var, lookup, zz, aw, saw) := t
      let ro : Transcript F P.Comm → F := coins [zeta, beta, gamma, delta, epsilon, alpha, range, logic,
        fixed, var, lookup, zz, aw, saw]
      ∃ pr, proveWithPreprocessed K E P ro c pk trp = .ok pr ∧
        v.verify K E ro pr c.public_inputs = .ok () := by
  have hw := Reach.wf hc
  obtain ⟨Dv, sel, sig, tab, vk, hDv, hpre, e1, -⟩ := verifier_inv hK hv
  obtain rfl : Dv = D := (hDv.same hcv).uniq hD
  have hpre' := hpre.same hcv
  obtain rfl : sel = pk.sel := by rw [hpk]; exact hpre'.selEq
  by_cases hex : ∃ (zeta beta gamma delta epsilon alpha range logic fixed var lookup zz aw saw : F)
      (pr : PlonkProof P), proveWithPreprocessed K E P (coins [zeta, beta, gamma, delta, epsilon, alpha,
        range, logic, fixed, var, lookup, zz, aw, saw]) c pk trp = .ok pr
  swap
  · refine odds_empty ?_
    rintro ⟨zeta, beta, gamma, delta, epsilon, alpha, range, logic, fixed, var, lookup, zz, aw, saw⟩
      ⟨pr, h, -⟩
    exact hex ⟨_, _, _, _, _, _, _, _, _, _, _, _, _, _, pr, h⟩
  obtain ⟨_, _, _, _, _, _, _, _, _, _, _, _, _, _, pr0, h0⟩ := hex
  obtain ⟨D', r1, hD', hr1, -, -⟩ := code_run htrp h0
  obtain rfl : D' = Dv := by
    have := hD'.symm.trans hD.new
    simpa using this
  have hnv : n = circuitBound cv := by
    rw [hn, ← hD.eq, hDv.eq]
  obtain ⟨-, hDe⟩ := newDom_inv hD.self
  have homega : K.fft.root (Nat.clog 2 n) = D'.omega := by
    rw [hn, ← hD.eq]; exact (congrArg Dom.omega hDe).symm
  have hT : cv.lookup_table = c.lookup_table := by
    unfold SameCircuit at hcv
    rw [hcv]
  have hint : cv.intended_pi_pos = c.intended_pi_pos := by
    unfold SameCircuit at hcv
    rw [hcv]
  have hsz : n = D'.size := by rw [hn, hD.eq]
  have key := C139_plonk hK hS hrv hnv htr hv e1 (pi := c.public_inputs) (Reach.sorted hc)
    (by rw [hint]; exact hw.pis) (codeStrategy K E P D' c pk r1 pr0.ev pr0.aw) (by
      rintro ⟨x, hx⟩
      rw [homega, hT, hsz] at hx
      rw [hsz] at hbad
      exact hbad (sat_own hS hD hw hcv hr1 hx))
  refine key.mono le_rfl ?_
  rintro ⟨zeta, beta, gamma, delta, epsilon, alpha, range, logic, fixed, var, lookup, zz, aw, saw⟩
    ⟨pr, h, hok⟩
  obtain ⟨D2, r2, hD2, hr2, hpr, p, hev⟩ := code_run htrp h
  obtain rfl : D2 = D' := by
    have := hD2.symm.trans hD.new
    simpa using this
  obtain rfl : r2 = r1 := by
    have := hr2.symm.trans hr1
    simpa using this
  simp only []
  rw [← hpr]
  exact ⟨by rw [hev]; exact honest_selectors hS hpre' p zz, hok⟩

end Plonk

/-- **C143.** The library's own prover does not get values that do not satisfy the circuit past the
verifier: if the values of the composer do not satisfy it, in a domain of `n` rows with the lookup table
filled up to `n` rows, then the probability, over uniform challenges, that `prove` returns a proof that
`verify` accepts with the composer's public inputs is at most `(17n + 10 max(d, n) + 34) / |F|`. -/
theorem C143_prove {R : FieldRep F} {K : PField F} {E : EdCurve F} {P : PCS F} {d n : ℕ}
    (hK : PFieldOk K) (hS : PcsSound P d) {c cv : Composer F} (hc : Reach R E c) (hrv : Reach R E cv)
    (hcv : SameCircuit cv c) (hn : n = circuitBound c)
    (hbad : ¬ Sat E (padRows c.lookup_table n) n c (ownPub c) (ownW c) (ownV c))
    {tr : Transcript F P.Comm} (htr : tr.countP isChal = 0) {v : Verifier P}
    (hv : Verifier.preprocess K (P := P) ⟨none, cv, tr⟩ = .ok v) (r1 r2 : F × F × F × F) :
    Odds F (17 * n + 10 * max d n + 34)
      fun t : F × F × F × F × F × F × F × F × F × F × F × F × F × F =>
      let (zeta, beta, gamma, delta, epsilon, alpha, range, logic, fixed, var, lookup, z, aw, saw) := t
      let ro : Transcript F P.Comm → F := coins [zeta, beta, gamma, delta, epsilon, alpha, range, logic,
        fixed, var, lookup, z, aw, saw]
      ∃ pr s, Prover.prove K E ro ⟨none, c, tr⟩ r1 r2 = .ok (pr, s) ∧
        v.verify K E ro pr c.public_inputs = .ok () := by
  cases hp : preprocessProver K P c tr with
  | error e =>
    refine odds_empty ?_
    rintro ⟨zeta, beta, gamma, delta, epsilon, alpha, range, logic, fixed, var, lookup, zz, aw, saw⟩
      ⟨pr, s, h, -⟩
    unfold Prover.prove at h
    simp only [hp] at h
    cases h
  | ok a =>
    obtain ⟨c', pk, trp⟩ := a
    obtain ⟨D, D8, vk, hD, -, hpk, -, rfl, rfl⟩ := preprocessProver_inv hK (SameCircuit.refl c) hp
    refine (caught hK hS hc hrv hcv hn htr hv hD hpk.sel (seed_count vk htr) hbad).mono le_rfl ?_
    rintro ⟨zeta, beta, gamma, delta, epsilon, alpha, range, logic, fixed, var, lookup, zz, aw, saw⟩
      ⟨pr, s, h, hok⟩
    refine ⟨pr, ?_, hok⟩
    unfold Prover.prove at h
    simp only [hp, ok_bind, pure, Except.pure] at h
    obtain ⟨pr', h2, h⟩ := bind_okE h
    obtain ⟨c2, -, h⟩ := bind_okE h
    simp only [Except.ok.injEq, Prod.mk.injEq] at h
    obtain ⟨rfl, -⟩ := h
    rw [← h2, prove_pad' hD (Reach.wf hc) (Reach.zeroVal hc)]

/-- The same for a prover that was preprocessed with any values for the same circuit, its composer then
filled with these values. -/
theorem C143_preprocessed {R : FieldRep F} {K : PField F} {E : EdCurve F} {P : PCS F} {d n : ℕ}
    (hK : PFieldOk K) (hS : PcsSound P d) {c cp cv : Composer F} (hc : Reach R E c) (hrv : Reach R E cv)
    (hcp : SameCircuit cp c) (hcv : SameCircuit cv c) (hn : n = circuitBound c)
    (hbad : ¬ Sat E (padRows c.lookup_table n) n c (ownPub c) (ownW c) (ownV c))
    {tr : Transcript F P.Comm} (htr : tr.countP isChal = 0) {v : Verifier P} {sp : Prover P}
    (hv : Verifier.preprocess K (P := P) ⟨none, cv, tr⟩ = .ok v)
    (hp : Prover.preprocess K (P := P) ⟨none, cp, tr⟩ = .ok sp) (r1 r2 : F × F × F × F) :
    Odds F (17 * n + 10 * max d n + 34)
      fun t : F × F × F × F × F × F × F × F × F × F × F × F × F × F =>
      let (zeta, beta, gamma, delta, epsilon, alpha, range, logic, fixed, var, lookup, z, aw, saw) := t
      let ro : Transcript F P.Comm → F := coins [zeta, beta, gamma, delta, epsilon, alpha, range, logic,
        fixed, var, lookup, z, aw, saw]
      ∃ pr s, (Prover.prove K E ro { sp with cs := c } r1 r2 = .ok (pr, s) ∨
          cp = c ∧ Prover.prove K E ro sp r1 r2 = .ok (pr, s)) ∧
        v.verify K E ro pr c.public_inputs = .ok () := by
  unfold Prover.preprocess at hp
  simp only [Option.isSome_none, Bool.false_eq_true, if_false] at hp
  obtain ⟨⟨cp', pk, trp⟩, hp', h⟩ := bind_okE hp
  simp only [pure, Except.pure, Except.ok.injEq] at h
  subst h
  obtain ⟨D, D8, vk, hD, -, hpk, -, rfl, rfl⟩ := preprocessProver_inv hK hcp hp'
  refine (caught hK hS hc hrv hcv hn htr hv hD hpk.sel (seed_count vk htr) hbad).mono le_rfl ?_
  rintro ⟨zeta, beta, gamma, delta, epsilon, alpha, range, logic, fixed, var, lookup, zz, aw, saw⟩
    ⟨pr, s, h, hok⟩
  refine ⟨pr, ?_, hok⟩
  rcases h with h | ⟨rfl, h⟩
  all_goals
    unfold Prover.prove at h
    simp only [ok_bind, pure, Except.pure] at h
    obtain ⟨pr', h2, h⟩ := bind_okE h
    obtain ⟨c2, -, h⟩ := bind_okE h
    simp only [Except.ok.injEq, Prod.mk.injEq] at h
    obtain ⟨rfl, -⟩ := h
  · exact h2
  · rw [← h2, prove_pad' hD (Reach.wf hc) (Reach.zeroVal hc)]

/-- The same for the `Circuit` interface: compiled once with any values, `gen_proof` with values that do
not satisfy the circuit, `verify_proof`. -/
theorem C143_circuit {R : FieldRep F} {K : PField F} {E : EdCurve F} {P : PCS F} {d m n : ℕ}
    (hK : PFieldOk K) (hS : PcsSound P d) {C C' : Circ F} (hg : SameGadget R E C.gadget C'.gadget)
    (hsize : C.size = C'.size) {rp rv r r' rn : (F × F × F × F) × (F × F × F × F)} {c : Composer F}
    (hc : Filled C' r c) (hn : n = circuitBound c)
    (hbad : ¬ Sat E (padRows c.lookup_table n) n c (ownPub c) (ownW c) (ownV c))
    {pk : PKey F} {vk : VKey (trimmed P C.size)} {pos : List ℕ}
    (hcomp : circuitCompile K P m C rp rv = .ok (pk, vk, pos)) (label : String) :
    Odds F (17 * n + 10 * max d n + 34)
      fun t : F × F × F × F × F × F × F × F × F × F × F × F × F × F =>
      let (zeta, beta, gamma, delta, epsilon, alpha, range, logic, fixed, var, lookup, z, aw, saw) := t
      let ro : Transcript F P.Comm → F := coins [zeta, beta, gamma, delta, epsilon, alpha, range, logic,
        fixed, var, lookup, z, aw, saw]
      ∃ pr pi, circuitProve K E P ro m C' pk label r r' = .ok (pr, pi) ∧
        circuitVerify K E P ro m vk pr pi label rn = .ok () := by
  have hb := gadget_builds hg
  obtain ⟨G', s⟩ := C'
  simp only [] at hsize
  subst hsize
  obtain ⟨-, cp, cv, cp', cv', trp, trv, f1, f2, h1, h2, rfl⟩ := compile_inv hcomp
  have hr : Reach R E c := hc.reach (fun c x c' => hb.2 c x c')
  have hrv : Reach R E cv := f2.reach (fun c x c' => hb.1 c x c')
  have hsp : SameCircuit cp c := C129_gadget hg f1 hc
  have hsv : SameCircuit cv c := C129_gadget hg f2 hc
  obtain ⟨D, D8, vk1, hD, -, hpk, -, -, -⟩ := preprocessProver_inv hK hsp h1
  have htr : trv.countP isChal = 0 := by
    obtain ⟨_, _, _, _, _, _, _, rfl⟩ := preprocessVerifier_inv hK (SameCircuit.refl cv) h2
    exact seed_count _ rfl
  refine (caught hK (trimmed_sound hS C.size) hr hrv hsv hn (tr := [.init "CircuitCompilation"]) rfl
    (v := ⟨some vk, cv', trv⟩) (by unfold Verifier.preprocess; rw [h2]; rfl) hD hpk.sel
    (trp := [.init label]) rfl hbad).mono le_rfl ?_
  rintro ⟨zeta, beta, gamma, delta, epsilon, alpha, range, logic, fixed, var, lookup, zz, aw, saw⟩
    ⟨pr, pi, h, hok⟩
  obtain ⟨-, c1, hc1, rfl, hpr⟩ := circuitProve_inv h
  obtain rfl := hc1.uniq hc
  refine ⟨pr, hpr, ?_⟩
  by_cases hm' : 2 ^ Nat.clog 2 vk.n ≤ m
  · rw [circuitVerify_eq hm'] at hok
    exact (coins_verify (P := trimmed P C.size) htr (tr' := [.init label]) rfl vk _
      pr ⟨zeta, beta, gamma, delta, epsilon, alpha,
      range, logic, fixed, var, lookup, zz, aw, saw⟩).trans hok
  · exfalso
    unfold circuitVerify at hok
    obtain ⟨_, -, hok⟩ := bind_okE hok
    obtain ⟨_, hk, -⟩ := bind_okE hok
    exact hm' (trimOk_inv hk)

/-- With a table, to satisfy the circuit with the table filled up is to satisfy it in every domain with
the table as it is. -/
theorem C143_own {R : FieldRep F} {E : EdCurve F} {c : Composer F} (hc : Reach R E c)
    (hT : c.lookup_table ≠ []) :
    Sat E (padRows c.lookup_table (circuitBound c)) (circuitBound c) c (ownPub c) (ownW c) (ownV c)
      ↔ OwnSat E c := by
  have hw := Reach.wf hc
  have hb : c.n ≤ circuitBound c := by
    unfold circuitBound
    exact le_trans (le_max_left _ _) (Nat.le_pow_clog (by norm_num) _)
  have hmem : ∀ N x, x ∈ padRows c.lookup_table N ↔ x ∈ c.lookup_table := by
    intro N x
    unfold padRows
    simp only [if_neg hT, List.mem_append, List.mem_replicate]
    refine ⟨?_, Or.inl⟩
    rintro (h | ⟨-, rfl⟩)
    · exact h
    · obtain ⟨a, l, h⟩ := List.exists_cons_of_ne_nil hT
      rw [h]
      simp
  constructor
  · intro h N hN
    refine ⟨hN, h.pubZero, fun i hi => ?_, h.copy⟩
    have hr := h.rows i hi
    have hr' : RowOk E c.lookup_table (gateAt c i) (rowAt (circuitBound c) (ownW c) i) (ownPub c i) :=
      ⟨hr.arith, hr.range, hr.logic, hr.fixed, hr.var, fun hq => (hmem _ _).1 (hr.lookup hq)⟩
    by_cases hl : i + 1 = c.n
    · exact hr'.congr_next (hw.lastFree i hl) rfl rfl rfl rfl
    · have e : rowAt N (ownW c) i = rowAt (circuitBound c) (ownW c) i := by
        unfold rowAt
        rw [Nat.mod_eq_of_lt (show i + 1 < N by omega),
          Nat.mod_eq_of_lt (show i + 1 < circuitBound c by omega)]
      rw [e]
      exact hr'
  · intro h
    have h := h _ hb
    exact ⟨h.fits, h.pubZero, fun i hi =>
      have hr := h.rows i hi
      ⟨hr.arith, hr.range, hr.logic, hr.fixed, hr.var, fun hq => (hmem _ _).2 (hr.lookup hq)⟩, h.copy⟩


namespace Plonk

/-- The small circuit with a first value that is in no row of the table and not the asserted constant. -/
theorem exC_own_unsat : ¬ OwnSat E7681 (exC 0 0) := by
  intro h
  have h := (h 8 (by decide +kernel)).rows 5 (by decide +kernel)
  exact absurd h.arith (by unfold ArithOk; decide +kernel)

end Plonk

/-- The hypotheses can be met: at most 250 of 7681 cases. -/
example : ∃ v : Verifier (idealPcs K7681 8),
    Verifier.preprocess pf7681 ⟨none, exC 1 2, [.init "plonk"]⟩ = .ok v ∧
    Odds K7681 250 fun t : K7681 × K7681 × K7681 × K7681 × K7681 × K7681 × K7681 × K7681 × K7681 ×
        K7681 × K7681 × K7681 × K7681 × K7681 =>
      let (zeta, beta, gamma, delta, epsilon, alpha, range, logic, fixed, var, lookup, z, aw, saw) := t
      let ro : Transcript K7681 (idealPcs K7681 8).Comm → K7681 := coins [zeta, beta, gamma, delta,
        epsilon, alpha, range, logic, fixed, var, lookup, z, aw, saw]
      ∃ pr s, Prover.prove pf7681 E7681 ro ⟨none, exC 0 0, [.init "plonk"]⟩ (1, 2, 3, 4) (5, 6, 7, 8)
          = .ok (pr, s) ∧ v.verify pf7681 E7681 ro pr (exC 0 0).public_inputs = .ok () := by
  obtain ⟨-, h2, -, h4⟩ := exC_size
  obtain ⟨v, hv, -⟩ := C105_succeeds pf7681_ok (ideal_complete (F := K7681) 8) (exC_facts 1 2).1
    ((exC_facts 1 2).2 rfl rfl) h4.le (by rw [h4]; decide +kernel) (by rw [h2]; decide +kernel)
    (exC_facts 1 2).1 (SameCircuit.refl _) (tr := [.init "plonk"]) rfl (1, 2, 3, 4) (5, 6, 7, 8)
  refine ⟨v, hv, ?_⟩
  have hb : 8 = circuitBound (exC 0 0) := by decide +kernel
  refine C143_prove pf7681_ok (ideal_sound 8) (exC_facts 0 0).1 (exC_facts 1 2).1
    (by unfold SameCircuit; decide +kernel) hb (fun h => exC_own_unsat ?_) rfl hv _ _
  rw [hb] at h
  exact (C143_own (exC_facts 0 0).1 (by decide +kernel)).1 h

end VO
