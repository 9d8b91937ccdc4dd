import Verif.Props.PlonkSnark
import Verif.Props.PlonkSound
import Verif.Props.PlonkCircuit

/-
C110: the circuit interface of `/repo/plonk-core` (compile, prove, verify).
-/

set_option linter.unusedSectionVars false

namespace VO

open VO.Plonk VO.Spec VO.Spec.Plonk

variable {F : Type} [Field F] [DecidableEq F]

namespace Plonk

theorem trim_len {p : List F} {s : ℕ} (h : (polyOf p).degree < ((s + 1 : ℕ) : WithBot ℕ)) :
    (polyFromVec p).length ≤ s + 1 := by
  have h1 := (trimmed_polyFromVec p).natDegree
  rw [polyOf_polyFromVec] at h1
  rw [Polynomial.degree_lt_iff_coeff_zero] at h
  have h2 : (polyOf p).natDegree ≤ s :=
    Polynomial.natDegree_le_iff_coeff_eq_zero.2 fun N hN => h N hN
  omega

/-- A trimmed scheme works for polynomials of the degree it was trimmed to. -/
def trimmed_complete {P : PCS F} {d : ℕ} (hP : PcsComplete P d) {s d' : ℕ} (h1 : d' ≤ d)
    (h2 : d' ≤ s + 1) : PcsComplete (trimmed P s) d' where
  rep := hP.rep
  commit p h := by
    have := hP.commit p (lt_of_lt_of_le h (by exact_mod_cast h1))
    simp only [trimmed]
    rw [if_pos (trim_len (lt_of_lt_of_le h (by exact_mod_cast h2)))]
    exact this
  msm l h := hP.msm l fun e he => lt_of_lt_of_le (h e he) (by exact_mod_cast h1)
  openAt ps x ξ h := by
    have := hP.openAt ps x ξ fun p hp => lt_of_lt_of_le (h p hp) (by exact_mod_cast h1)
    simp only [trimmed]
    rw [if_pos (by
      simp only [List.all_eq_true, decide_eq_true_eq]
      exact fun p hp => trim_len (lt_of_lt_of_le (h p hp) (by exact_mod_cast h2)))]
    exact this

/-- A trimmed scheme binds as the scheme does. -/
def trimmed_sound {P : PCS F} {d : ℕ} (hS : PcsSound P d) (s : ℕ) : PcsSound (trimmed P s) d where
  ext := hS.ext
  deg := hS.deg
  commit p c h := by
    simp only [trimmed] at h
    split at h
    · exact hS.commit p c h
    · cases h
  msm := hS.msm
  check := hS.check

theorem plonkVerify_retrim {K : PField F} {E : EdCurve F} {P : PCS F} {ro : Transcript F P.Comm → F}
    {s s' s'' : ℕ} (vk : VKey (trimmed P s)) (pr : PlonkProof (trimmed P s')) (pi : List (ℕ × F))
    (tr : Transcript F P.Comm) :
    plonkVerify K E (trimmed P s'') ro (vk.retrim s'') tr pi (pr.retrim s'')
      = plonkVerify K E (trimmed P s) ro vk tr pi (pr.retrim s) := rfl

theorem runGadget_okE {C : Circ F} {r : (F × F × F × F) × (F × F × F × F)} {c : Composer F}
    (h : runGadget C r = .ok c) : Filled C r c := by
  unfold runGadget at h
  obtain ⟨c0, h0, h⟩ := bind_okE h
  refine ⟨c0, liftP_okE h0, ?_⟩
  split at h
  · cases h
  · cases h
  · rename_i hg
    cases h
    exact hg

theorem runGadget_run {C : Circ F} {r : (F × F × F × F) × (F × F × F × F)} {c : Composer F}
    (h : Filled C r c) : runGadget C r = .ok c := by
  obtain ⟨c0, h1, h2⟩ := h
  unfold runGadget
  rw [h1]
  simp only [liftP, ok_bind, h2]

theorem _root_.VO.Spec.Plonk.Filled.reach {R : FieldRep F} {E : EdCurve F} {C : Circ F}
    {r : (F × F × F × F) × (F × F × F × F)} {c : Composer F} (hb : Builds R E C) (h : Filled C r c) :
    Reach R E c := by
  obtain ⟨c0, h1, h2⟩ := h
  exact hb _ _ _ (.new h1) h2

theorem _root_.VO.Spec.Plonk.Filled.uniq {C : Circ F} {r : (F × F × F × F) × (F × F × F × F)}
    {c c' : Composer F} (h : Filled C r c) (h' : Filled C r c') : c = c' := by
  have := (runGadget_run h).symm.trans (runGadget_run h')
  simpa using this

theorem trimOk_inv {m s : ℕ} {u : Unit} (h : trimOk m s = .ok u) : s ≤ m := by
  unfold trimOk at h
  split at h
  · assumption
  · cases h

theorem compile_inv {K : PField F} {P : PCS F} {m : ℕ} {C : Circ F}
    {rp rv : (F × F × F × F) × (F × F × F × F)} {pk : PKey F} {vk : VKey (trimmed P C.size)}
    {pos : List ℕ} (h : circuitCompile K P m C rp rv = .ok (pk, vk, pos)) :
    C.size ≤ m ∧ ∃ cp cv cp' cv' trp trv, Filled C rp cp ∧ Filled C rv cv ∧
      preprocessProver K (trimmed P C.size) cp [.init "CircuitCompilation"] = .ok (cp', pk, trp) ∧
      preprocessVerifier K (trimmed P C.size) cv [.init "CircuitCompilation"] = .ok (cv', vk, trv) ∧
      pos = cv'.intended_pi_pos := by
  unfold circuitCompile at h
  obtain ⟨_, ht, h⟩ := bind_okE h
  obtain ⟨cp, hcp, h⟩ := bind_okE h
  obtain ⟨p, hp, h⟩ := bind_okE h
  obtain ⟨cv, hcv, h⟩ := bind_okE h
  obtain ⟨v, hv, h⟩ := bind_okE h
  unfold Prover.preprocess at hp
  simp only [Option.isSome_none, Bool.false_eq_true, if_false] at hp
  obtain ⟨⟨cp', pk', trp⟩, hp', h1⟩ := bind_okE hp
  simp only [pure, Except.pure, Except.ok.injEq] at h1
  subst h1
  unfold Verifier.preprocess at hv
  obtain ⟨⟨cv', vk', trv⟩, hv', h1⟩ := bind_okE hv
  simp only [pure, Except.pure, Except.ok.injEq] at h1
  subst h1
  simp only [Except.ok.injEq, Prod.mk.injEq] at h
  obtain ⟨rfl, rfl, rfl⟩ := h
  exact ⟨trimOk_inv ht, cp, cv, cp', cv', trp, trv, runGadget_okE hcp, runGadget_okE hcv, hp', hv',
    rfl⟩

theorem circuitProve_inv {K : PField F} {E : EdCurve F} {P : PCS F} {ro : Transcript F P.Comm → F}
    {m : ℕ} {C : Circ F} {pk : PKey F} {label : String}
    {r r' : (F × F × F × F) × (F × F × F × F)} {pr : PlonkProof (trimmed P C.size)}
    {pi : List (ℕ × F)} (h : circuitProve K E P ro m C pk label r r' = .ok (pr, pi)) :
    C.size ≤ m ∧ ∃ c, Filled C r c ∧ pi = c.public_inputs ∧
      proveWithPreprocessed K E (trimmed P C.size) ro c pk [.init label] = .ok pr := by
  unfold circuitProve at h
  obtain ⟨_, ht, h⟩ := bind_okE h
  obtain ⟨c, hc, h⟩ := bind_okE h
  obtain ⟨⟨pr', p'⟩, hpr, h⟩ := bind_okE h
  simp only [pure, Except.pure, Except.ok.injEq, Prod.mk.injEq] at h
  obtain ⟨rfl, rfl⟩ := h
  refine ⟨trimOk_inv ht, c, runGadget_okE hc, rfl, ?_⟩
  unfold Prover.prove at hpr
  simp only [pure, Except.pure, ok_bind] at hpr
  obtain ⟨pr2, h2, hpr⟩ := bind_okE hpr
  obtain ⟨c2, h3, h⟩ := bind_okE hpr
  simp only [Except.ok.injEq, Prod.mk.injEq] at h
  obtain ⟨rfl, -⟩ := h
  exact h2

theorem coins_verify {K : PField F} {E : EdCurve F} {P : PCS F} {tr tr' : Transcript F P.Comm}
    (h : tr.countP isChal = 0) (h' : tr'.countP isChal = 0) (vk : VKey P) (pi : List (ℕ × F))
    (pr : PlonkProof P) (c : Chals F) :
    plonkVerify K E P (coins [c.zeta, c.beta, c.gamma, c.delta, c.epsilon, c.alpha, c.range, c.logic,
      c.fixed, c.var, c.lookup, c.z, c.aw, c.saw]) vk tr pi pr
    = plonkVerify K E P (coins [c.zeta, c.beta, c.gamma, c.delta, c.epsilon, c.alpha, c.range, c.logic,
      c.fixed, c.var, c.lookup, c.z, c.aw, c.saw]) vk tr' pi pr := by
  unfold plonkVerify
  rw [coins_chals h, coins_chals h']

theorem circuitVerify_eq {K : PField F} {E : EdCurve F} {P : PCS F} {ro : Transcript F P.Comm → F}
    {m s s' : ℕ} {vk : VKey (trimmed P s)} (hm : 2 ^ Nat.clog 2 vk.n ≤ m)
    (pr : PlonkProof (trimmed P s')) (pi : List (ℕ × F)) (label : String)
    (r : (F × F × F × F) × (F × F × F × F)) :
    circuitVerify K E P ro m vk pr pi label r
      = plonkVerify K E (trimmed P s) ro vk [.init label] pi (pr.retrim s) := by
  obtain ⟨cn, hcn, -⟩ := newComposer_ok (F := F) r.1 r.2
  unfold circuitVerify
  simp only [hcn, liftP, ok_bind, trimOk, if_pos hm, Verifier.verify]
  exact plonkVerify_retrim vk pr pi _

end Plonk

/-- Completeness of the interface. A circuit is compiled; a circuit of the same size whose gadget makes
the same gates with other values (in particular the same circuit with other witnesses) is used for
proving, and its composer is satisfied. When `gen_proof` returns a proof, it returns with it the public
inputs of the gadget, `verify_proof` accepts both for every hash (with the two conditions of
`C105_complete`), and the verifier gets the same public inputs from the positions `compile` returned
and the values there. -/
theorem C110_complete {R : FieldRep F} {K : PField F} {E : EdCurve F} {P : PCS F} {d m n : ℕ}
    (hK : PFieldOk K) (hP : PcsComplete P d) {C C' : Circ F} (hC' : Builds R E C')
    {rp rv r r' rn : (F × F × F × F) × (F × F × F × F)} {cp cv c : Composer F}
    (hcp : Filled C rp cp) (hcv : Filled C rv cv) (hc : Filled C' r c) (hs : OwnSat E c)
    (hn : n = circuitBound c) (hd : n ≤ d) (hsp : SameCircuit cp c) (hsv : SameCircuit cv c)
    (hsize : C.size = C'.size) (hns : n ≤ C.size)
    {pk : PKey F} {vk : VKey (trimmed P C.size)} {pos : List ℕ}
    (hcomp : circuitCompile K P m C rp rv = .ok (pk, vk, pos)) (ro : Transcript F P.Comm → F)
    {label : String} {pr : PlonkProof (trimmed P C'.size)} {pi : List (ℕ × F)}
    (hpr : circuitProve K E P ro m C' pk label r r' = .ok (pr, pi))
    (hzeta : Contiguous (compressedTable c n
      (verifierChals (P := trimmed P C'.size) ro [.init label] pi pr).zeta))
    (hz : (verifierChals (P := trimmed P C'.size) ro [.init label] pi pr).z ^ n ≠ 1) :
    circuitVerify K E P ro m vk pr pi label rn = .ok () ∧ pi = c.public_inputs ∧
      pos = c.intended_pi_pos ∧
      piFromValPos pos (pos.map fun i => some [piAt c.public_inputs i]) = .ok pi := by
  subst hn
  obtain ⟨g, s⟩ := C
  obtain ⟨g', s'⟩ := C'
  simp only at hsize
  subst hsize
  obtain ⟨hm, cp1, cv1, cp', cv', trp, trv, f1, f2, h1, h2, rfl⟩ := compile_inv hcomp
  obtain ⟨-, c1, f3, rfl, h3⟩ := circuitProve_inv hpr
  obtain rfl := f3.uniq hc
  obtain rfl := f1.uniq hcp
  obtain rfl := f2.uniq hcv
  have hr := f3.reach hC'
  obtain ⟨D, sel, sig, tab, b1, b2, b3, -⟩ := preprocessVerifier_inv hK hsv h2
  have hpos : cv'.intended_pi_pos = c1.intended_pi_pos := by
    have h := hsv
    rw [b3]
    unfold SameCircuit at h
    rw [h]
    rfl
  have hvn : vk.n = circuitBound c1 := by rw [b2.n, b1.eq]
  have hm' : 2 ^ Nat.clog 2 vk.n ≤ m := by
    rw [hvn, circuitBound, Nat.clog_pow _ _ (by norm_num)]
    exact le_trans hns hm
  refine ⟨?_, rfl, hpos, ?_⟩
  · rw [circuitVerify_eq hm']
    exact honest_accepted' hK (trimmed_complete hP (s := s) hd (by
      exact le_trans hns (Nat.le_succ _))) hr hs le_rfl hsp hsv h1 h2 ro _ h3
      hzeta hz
  · rw [hpos]
    exact C109_round_trip hr

/-- How often it works: with large enough parameters, `compile` succeeds, and for all but few values of
each challenge `gen_proof` and then `verify_proof` succeed. -/
theorem C110_succeeds {R : FieldRep F} {K : PField F} {E : EdCurve F} {P : PCS F} {d m n : ℕ}
    (hK : PFieldOk K) (hP : PcsComplete P d) {C C' : Circ F} (hC : Builds R E C) (hC' : Builds R E C')
    {rp rv r r' rn : (F × F × F × F) × (F × F × F × F)} {cp cv c : Composer F}
    (hcp : Filled C rp cp) (hcv : Filled C rv cv) (hc : Filled C' r c) (hs : OwnSat E c)
    (hn : n = circuitBound c) (hd : n ≤ d) (hp : SameCircuit cp c) (hv : SameCircuit cv c)
    (hsize : C.size = C'.size) (hns : n ≤ C.size) (hm : C.size ≤ m)
    (h8 : Nat.clog 2 (8 * n) ≤ K.fft.twoAdicity) (hT : c.lookup_table.Nodup) (label : String) :
    ∃ pk vk, circuitCompile K P m C rp rv = .ok (pk, vk, c.intended_pi_pos) ∧
      Mostly (3 * c.lookup_table.length ^ 2 + 2) fun zeta : F =>
      ∀ beta, Mostly (4 * n + 1) fun gamma : F =>
      Mostly 3 fun delta : F => Mostly (2 * n + 3) fun epsilon : F =>
      ∀ alpha range logic fixed var lookup, Mostly n fun z : F => ∀ aw saw,
        let ro : Transcript F P.Comm → F := coins [zeta, beta, gamma, delta, epsilon, alpha, range,
          logic, fixed, var, lookup, z, aw, saw]
        ∃ pr, circuitProve K E P ro m C' pk label r r' = .ok (pr, c.public_inputs) ∧
          circuitVerify K E P ro m vk pr c.public_inputs label rn = .ok () := by
  subst hn
  obtain ⟨g, s⟩ := C
  obtain ⟨g', s'⟩ := C'
  simp only at hsize hns hm
  subst hsize
  have hr := hc.reach hC'
  have hrp := hcp.reach hC
  have hrv := hcv.reach hC
  have hP' := trimmed_complete hP (s := s) hd (le_trans hns (Nat.le_succ _))
  obtain ⟨D, D8, hD, hD8⟩ := domains_run hK h8
  obtain ⟨⟨cp', pk, trp⟩, h1⟩ := preprocessProver_run hP' (Reach.wf hrp) (hD.same hp.symm) hD8
    (by rw [hD.eq]) [.init "CircuitCompilation"]
  obtain ⟨⟨cv', vk, trv⟩, h2⟩ := preprocessVerifier_run hP' (Reach.wf hrv) (hD.same hv.symm)
    (by rw [hD.eq]) [.init "CircuitCompilation"]
  obtain ⟨D', sel, sig, tab, b1, b2, b3, -⟩ := preprocessVerifier_inv hK hv h2
  have hpos : cv'.intended_pi_pos = c.intended_pi_pos := by
    have h := hv
    rw [b3]
    unfold SameCircuit at h
    rw [h]
    rfl
  have hvn : vk.n = circuitBound c := by rw [b2.n, b1.eq]
  have hm' : 2 ^ Nat.clog 2 vk.n ≤ m := by
    rw [hvn, circuitBound, Nat.clog_pow _ _ (by norm_num)]
    exact le_trans hns hm
  refine ⟨pk, vk, ?_, ?_⟩
  · unfold circuitCompile
    simp only [trimOk, if_pos hm, ok_bind, runGadget_run hcp, runGadget_run hcv, Prover.preprocess,
      Verifier.preprocess, Option.isSome_none, Bool.false_eq_true, if_false, h1, h2, pure, Except.pure,
      hpos]
  · have core := succeeds_core (E := E) hP' hr hs le_rfl hT hp hv hK h1 h2
      (t0 := [.init label]) rfl
    refine core.mono le_rfl fun zeta k1 beta => (k1 beta).mono le_rfl fun gamma k2 => k2.mono le_rfl
      fun delta k3 => k3.mono le_rfl fun epsilon k4 alpha range logic fixed var lookup =>
      (k4 alpha range logic fixed var lookup).mono le_rfl fun z k5 aw saw => ?_
    intro ro
    obtain ⟨pr, q7, q8⟩ := k5 aw saw
    obtain ⟨cn, hcn', -⟩ := newComposer_ok (F := F) r'.1 r'.2
    refine ⟨pr, ?_, ?_⟩
    · unfold circuitProve
      simp only [trimOk, if_pos hm, ok_bind, runGadget_run hc, Prover.prove, pure, Except.pure]
      erw [q7]
      simp only [ok_bind, hcn', liftP]
    · rw [circuitVerify_eq hm']
      exact q8

/-- Soundness of the interface, with the limits of `C106_sound`: a verifier with the key that `compile`
returned for a circuit, and public inputs at positions that `compile` returned, does not accept proofs
whose first messages are wires that do not satisfy the circuit. -/
theorem C110_sound {R : FieldRep F} {K : PField F} {E : EdCurve F} {P : PCS F} {d m n : ℕ}
    (hK : PFieldOk K) (hS : PcsSound P d) {C : Circ F} (hC : Builds R E C)
    {rp rv rn : (F × F × F × F) × (F × F × F × F)} {c : Composer F} (hc : Filled C rv c)
    (hn : n = circuitBound c) {pk : PKey F} {vk : VKey (trimmed P C.size)} {pos : List ℕ}
    (hcomp : circuitCompile K P m C rp rv = .ok (pk, vk, pos)) (label : String)
    {pi : List (ℕ × F)} (hpi : Canonical pi) (hpos : ∀ e ∈ pi, e.1 ∈ pos) (wa wb wc wd : P.Comm)
    (hbad : ¬ ∃ x, Sat E (padRows c.lookup_table n) n c (piAt pi)
      (committedWires hS (K.fft.root (Nat.clog 2 n)) wa wb wc wd) x) :
    Mostly (3 * n) fun zeta : F => ∀ f h1 h2,
    Mostly (4 * n) fun beta : F => Mostly (4 * n) fun gamma : F =>
    Mostly (4 * n + 1) fun delta : F => Mostly (2 * n) fun epsilon : F => ∀ z z2,
    Mostly 2 fun alpha : F => Mostly 7 fun range : F => Mostly 9 fun logic : F =>
    Mostly 7 fun fixed : F => Mostly 5 fun var : F => Mostly 3 fun lookup : F => ∀ t,
    Mostly (10 * max d n) fun zz : F => ∀ ev o1 o2 aw saw,
      HonestSelectors (trimmed_sound hS C.size) vk ev zz →
      circuitVerify K E P (coins [zeta, beta, gamma, delta, epsilon, alpha, range, logic, fixed, var,
        lookup, zz, aw, saw]) m vk (s' := C.size)
        ⟨wa, wb, wc, wd, z, f, h1, h2, z2, t, o1, o2, ev⟩ pi label rn ≠ .ok () := by
  obtain ⟨hm, cp, cv, cp', cv', trp, trv, f1, f2, h1, h2, rfl⟩ := compile_inv hcomp
  obtain rfl := f2.uniq hc
  have hr := f2.reach hC
  obtain ⟨D, sel, sig, tab, b1, b2, b3, -⟩ := preprocessVerifier_inv hK (SameCircuit.refl cv) h2
  have hp' : cv'.intended_pi_pos = cv.intended_pi_pos := by rw [b3]; rfl
  rw [hp'] at hpos
  have key := C106_sound (E := E) hK (trimmed_sound hS C.size) hr hn
    (tr := [.init "CircuitCompilation"]) rfl
    (v := ⟨some vk, cv', trv⟩) (by unfold Verifier.preprocess; rw [h2]; rfl) rfl hpi.1 hpos wa wb wc wd
    hbad
  have htr : trv.countP isChal = 0 := by
    obtain ⟨_, _, _, _, _, _, _, rfl⟩ := preprocessVerifier_inv hK (SameCircuit.refl cv) h2
    exact seed_count _ rfl
  refine key.mono le_rfl fun zeta q1 f h1 h2 => (q1 f h1 h2).mono le_rfl fun beta q2 => q2.mono le_rfl
    fun gamma q3 => q3.mono le_rfl fun delta q4 => q4.mono le_rfl fun epsilon q5 z z2 =>
    (q5 z z2).mono le_rfl fun alpha r1 => r1.mono le_rfl fun range r2 => r2.mono le_rfl
    fun logic r3 => r3.mono le_rfl fun fixed r4 => r4.mono le_rfl fun var r5 => r5.mono le_rfl
    fun lookup r6 t => (r6 t).mono le_rfl fun zz r7 ev o1 o2 aw saw hh hok => ?_
  refine r7 ev o1 o2 aw saw hh ?_
  by_cases hm' : 2 ^ Nat.clog 2 vk.n ≤ m
  · rw [circuitVerify_eq hm'] at hok
    exact (coins_verify (P := trimmed P C.size) htr (tr' := [.init label]) rfl vk pi
      ⟨wa, wb, wc, wd, z, f, h1, h2, z2, t, o1, o2, ev⟩ ⟨zeta, beta, gamma, delta, epsilon, alpha,
      range, logic, fixed, var, lookup, zz, aw, saw⟩).trans hok
  · exfalso
    unfold circuitVerify at hok
    obtain ⟨_, -, hok⟩ := bind_okE hok
    obtain ⟨_, hk, -⟩ := bind_okE hok
    exact hm' (trimOk_inv hk)

namespace Plonk

/-- The small circuit as a value of a type that implements `Circuit`. -/
def exCirc (s k : K7681) : Circ K7681 := ⟨exProg s k >>= fun _ => pure (.ok ()), 8⟩

theorem exCirc_builds (s k : K7681) : Builds R7681 E7681 (exCirc s k) := by
  intro c x c' hr h
  unfold exCirc exProg at h
  obtain ⟨_, _, h, h'⟩ := bindC_ok.1 h
  obtain ⟨_, c1, h1, h⟩ := bindC_ok.1 h
  obtain ⟨_, c2, h2, h⟩ := bindC_ok.1 h
  obtain ⟨_, c3, h3, h⟩ := bindC_ok.1 h
  obtain ⟨_, c4, h4, h⟩ := bindC_ok.1 h
  obtain ⟨_, c5, h5, h⟩ := bindC_ok.1 h
  obtain ⟨_, c6, h6, h⟩ := bindC_ok.1 h
  cases h'
  exact .call (.call (.call (.call (.call (.call (.call hr (.insert_row ..) h1) (.insert_row ..) h2)
    (.add_input _) h3) (.add_input _) h4) (.add_input _) h5) (.lookup_gate ..) h6)
    (.constrain_to_constant ..) h

theorem exCirc_filled (s k : K7681) : Filled (exCirc s k) ((1, 2, 3, 4), (5, 6, 7, 8)) (exC s k) := by
  obtain ⟨c0, h0, -⟩ := newComposer_ok (F := K7681) (1, 2, 3, 4) (5, 6, 7, 8)
  refine ⟨c0, h0, ?_⟩
  have hr := (exC_facts s k).1
  have h4 := hr.four
  unfold exC at h4 ⊢
  rw [h0] at h4 ⊢
  simp only [exCirc]
  cases hp : exProg s k c0 with
  | error e => simp only [hp] at h4; exact absurd h4 (by decide)
  | ok q => exact bindC_ok.2 ⟨_, _, hp, rfl⟩

end Plonk

/-- The hypotheses can be met: the small circuit is compiled with the values `0, 0` and used with the
values `1, 2`. -/
example : PFieldOk pf7681 ∧ Nonempty (PcsComplete (idealPcs K7681 8) 8) ∧
    Builds R7681 E7681 (exCirc 0 0) ∧ Builds R7681 E7681 (exCirc 1 2) ∧
    Filled (exCirc 0 0) ((1, 2, 3, 4), (5, 6, 7, 8)) (exC 0 0) ∧
    Filled (exCirc 1 2) ((1, 2, 3, 4), (5, 6, 7, 8)) (exC 1 2) ∧ OwnSat E7681 (exC 1 2) ∧
    8 = circuitBound (exC 1 2) ∧ SameCircuit (exC 0 0) (exC 1 2) ∧
    (exCirc 0 0).size = (exCirc 1 2).size ∧ 8 ≤ (exCirc 0 0).size ∧ (exCirc 0 0).size ≤ 8 ∧
    Nat.clog 2 (8 * 8) ≤ pf7681.fft.twoAdicity ∧ (exC 1 2).lookup_table.Nodup := by
  obtain ⟨-, h2, -, h4⟩ := exC_size
  refine ⟨pf7681_ok, ⟨?_⟩, exCirc_builds _ _, exCirc_builds _ _, exCirc_filled _ _, exCirc_filled _ _,
    (exC_facts 1 2).2 rfl rfl, h4.symm, exC_same, rfl, le_rfl, le_rfl, ?_, ?_⟩
  · exact ideal_complete 8
  · decide +kernel
  · rw [h2]; decide +kernel

/-- And those of soundness: the circuit cannot be satisfied with public input `1`. -/
example : ∃ pk vk pos, circuitCompile pf7681 (idealPcs K7681 8) 8 (exCirc 0 0)
      ((1, 2, 3, 4), (5, 6, 7, 8)) ((1, 2, 3, 4), (5, 6, 7, 8)) = .ok (pk, vk, pos) ∧
    Canonical [(5, (1 : K7681))] ∧ (∀ e ∈ [(5, (1 : K7681))], e.1 ∈ pos) ∧
    ¬ ∃ w x, Sat E7681 (padRows (exC 0 0).lookup_table 8) 8 (exC 0 0) (piAt [(5, 1)]) w x := by
  obtain ⟨-, h2, -, h4⟩ := exC_size
  obtain ⟨pk, vk, h, -⟩ := C110_succeeds (m := 8) pf7681_ok (ideal_complete (F := K7681) 8)
    (exCirc_builds 0 0) (exCirc_builds 1 2) (r' := ((1, 2, 3, 4), (5, 6, 7, 8)))
    (rn := ((1, 2, 3, 4), (5, 6, 7, 8))) (exCirc_filled 0 0) (exCirc_filled 0 0) (exCirc_filled 1 2)
    ((exC_facts 1 2).2 rfl rfl) h4.symm le_rfl exC_same exC_same rfl le_rfl le_rfl
    (by decide +kernel) (by rw [h2]; decide +kernel) "t"
  exact ⟨pk, vk, _, h, ⟨by simp, by simp⟩, by decide +kernel, exC_unsat⟩

end VO
