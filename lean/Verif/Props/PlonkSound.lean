import Verif.Lemmas.PlonkSound
import Verif.Lemmas.PlonkExample4

/-
C106: soundness of the PLONK verifier of `/repo/plonk-core`, as far as it goes.
-/

set_option linter.unusedSectionVars false

namespace VO

open VO.Plonk VO.Spec VO.Spec.Plonk

variable {F : Type} [Field F] [DecidableEq F]

namespace Plonk

theorem appendEvals_count {C : Type} (tr : Transcript F C) (e : Evals F) :
    (appendEvals tr e).countP isChal = tr.countP isChal := by
  simp only [appendEvals, List.countP_append, List.countP_map, List.countP_cons, List.countP_nil,
    isChal]
  simp [Function.comp_def, isChal]

/-- With challenges from a list, the verifier uses them in order. -/
theorem coins_chals {P : PCS F} {tr : Transcript F P.Comm} (htr : tr.countP isChal = 0)
    (pi : List (ℕ × F)) (pr : PlonkProof P) (c : Chals F) :
    verifierChals (coins [c.zeta, c.beta, c.gamma, c.delta, c.epsilon, c.alpha, c.range, c.logic,
      c.fixed, c.var, c.lookup, c.z, c.aw, c.saw]) tr pi pr = c := by
  simp only [verifierChals, challengeAppend, challenge, coins, List.countP_append, List.countP_cons,
    List.countP_nil, isChal, htr, appendEvals_count, if_true, Bool.false_eq_true, if_false,
    Nat.zero_add, Nat.add_zero, Nat.reduceAdd, Nat.reduceSub, List.getD_cons_zero,
    List.getD_cons_succ]

/-- A preprocessed verifier and its key. -/
theorem verifier_inv {K : PField F} (hK : PFieldOk K) {P : PCS F} {c : Composer F}
    {tr : Transcript F P.Comm} {v : Verifier P}
    (hv : Verifier.preprocess K (P := P) ⟨none, c, tr⟩ = .ok v) :
    ∃ D sel sig tab vk, CDom K c D ∧ PreOk P c D sel sig tab vk ∧ v.key = some vk ∧
      v.tr = seedTranscript vk tr := by
  unfold Verifier.preprocess at hv
  obtain ⟨⟨cv', vk, trv⟩, hv', h⟩ := bind_okE hv
  simp only [pure, Except.pure, Except.ok.injEq] at h
  subst h
  obtain ⟨D, sel, sig, tab, b1, b2, -, rfl⟩ := preprocessVerifier_inv hK (c := c) rfl hv'
  exact ⟨D, sel, sig, tab, vk, b1, b2, rfl, rfl⟩

theorem seed_count {P : PCS F} (vk : VKey P) {tr : Transcript F P.Comm}
    (htr : tr.countP isChal = 0) : (seedTranscript vk tr).countP isChal = 0 := by
  simp [seedTranscript, List.countP_append, List.countP_cons, isChal, htr]

end Plonk

/-- Soundness, for provers that commit to the lookup accumulator before `α` is drawn and send right
values of the four selectors that are not opened. If the wires the prover commits to first do not
satisfy the circuit with the given public inputs, then for all but few values of each challenge
nothing the prover sends afterwards is accepted. `n` is the size of the domain, `d` bounds the
degrees the scheme can commit to. -/
theorem C106_sound {R : FieldRep F} {K : PField F} {E : EdCurve F} {P : PCS F} {d n : ℕ}
    (hK : PFieldOk K) (hS : PcsSound P d) {c : Composer F} (hc : Reach R E c)
    (hn : n = circuitBound c) {tr : Transcript F P.Comm} (htr : tr.countP isChal = 0)
    {v : Verifier P} (hv : Verifier.preprocess K (P := P) ⟨none, c, tr⟩ = .ok v) {vk : VKey P}
    (hvk : v.key = some vk) {pi : List (ℕ × F)} (hpi : pi.Pairwise fun a b => a.1 < b.1)
    (hpos : ∀ e ∈ pi, e.1 ∈ c.intended_pi_pos) (wa wb wc wd : P.Comm)
    (hbad : ¬ ∃ x, Sat E (padRows c.lookup_table n) n c (piAt pi)
      (committedWires hS (K.fft.root (Nat.clog 2 n)) wa wb wc wd) x) :
    Mostly (3 * n) fun zeta : F => ∀ f h1 h2,
    Mostly (4 * n) fun beta : F => Mostly (4 * n) fun gamma : F =>
    Mostly (4 * n + 1) fun delta : F => Mostly (2 * n) fun epsilon : F => ∀ z z2,
    Mostly 2 fun alpha : F => Mostly 7 fun range : F => Mostly 9 fun logic : F =>
    Mostly 7 fun fixed : F => Mostly 5 fun var : F => Mostly 3 fun lookup : F => ∀ t,
    Mostly (10 * max d n) fun zz : F => ∀ ev o1 o2 aw saw, HonestSelectors hS vk ev zz →
      v.verify K E (coins [zeta, beta, gamma, delta, epsilon, alpha, range, logic, fixed, var, lookup,
        zz, aw, saw]) ⟨wa, wb, wc, wd, z, f, h1, h2, z2, t, o1, o2, ev⟩ pi ≠ .ok () := by
  have hw := Reach.wf hc
  obtain ⟨D, sel, sig, tab, vk', hD, hpre, e1, e2⟩ := verifier_inv hK hv
  obtain rfl : vk' = vk := by rw [hvk] at e1; simpa using e1.symm
  obtain ⟨-, hDe⟩ := newDom_inv hD.self
  have homega : K.fft.root (Nat.clog 2 n) = D.omega := by
    rw [hn, ← hD.eq]; exact (congrArg Dom.omega hDe).symm
  rw [homega] at hbad
  rw [← hD.eq] at hn
  subst hn
  obtain ⟨e, he⟩ := hD.pow
  have hfit : ∀ x ∈ pi, x.1 < D.size := fun x hx =>
    lt_of_lt_of_le (hw.int _ (hpos x hx)) hD.n
  obtain ⟨pe, hpe, hpl, hpv⟩ := asEvals_run (pow2_ok he) hpi hfit
  have hsel : ∀ i < D.size, (vk'.sel.map hS.ext).map (Polynomial.eval (D.omega ^ i)) = gateAt c i := by
    intro i hi
    rw [ext_sel hS hpre, hpre.selEq]
    exact selector_rows hD hw hi
  have hpiv : ∀ i < D.size, (polyOf (D.ifft pe)).eval (D.omega ^ i) = piAt pi i := by
    intro i hi
    rw [ifft_eval hD.ok hpl hi, hpv]
    rfl
  have hpub : ∀ i < c.n, i ∉ c.intended_pi_pos → piAt pi i = 0 := by
    intro i _ hi
    exact pubOf_absent fun e he h => hi (h ▸ hpos e he)
  have hwires : committedWires hS D.omega wa wb wc wd
      = polyW D.omega ⟨hS.ext wa, hS.ext wb, hS.ext wc, hS.ext wd⟩ := by
    funext p; cases p <;> rfl
  rw [hwires] at hbad
  refine (rows_mostly hD hw E hsel hpre.sigEq hpiv hpub
    (fun zeta i hi => ext_table hS hD hpre zeta hi) _ hbad).mono le_rfl fun zeta q1 f h1 h2 => ?_
  refine (q1 (hS.ext f) (hS.ext h1) (hS.ext h2)).mono le_rfl fun beta q2 => q2.mono le_rfl
    fun gamma q3 => q3.mono le_rfl fun delta q4 => q4.mono le_rfl fun epsilon q5 z z2 => ?_
  refine (numerator_mostly hD.ok E _ _ _ _ _ _ _ _ _ _ _ _ _ _ _ (q5 (hS.ext z) (hS.ext z2))).mono
    le_rfl fun alpha r1 => r1.mono le_rfl fun range r2 => r2.mono le_rfl fun logic r3 =>
    r3.mono le_rfl fun fixed r4 => r4.mono le_rfl fun var r5 => r5.mono le_rfl fun lookup r6 t => ?_
  rw [← ext_sig hS hpre] at r6
  refine (point_mostly hS hD.ok E vk' wa wb wc wd z z2 f _ h1 h2 hpl ⟨zeta, beta, gamma, delta,
    epsilon, alpha, range, logic, fixed, var, lookup, 0, 0, 0⟩ t r6).mono le_rfl
    fun zz hzz ev o1 o2 aw saw hh hok => ?_
  unfold Verifier.verify at hok
  rw [e1] at hok
  simp only [plonkVerify, hpre.n, hD.self, ok_bind] at hok
  rw [coins_chals (by rw [e2]; exact seed_count _ htr) pi _ ⟨zeta, beta, gamma, delta, epsilon,
    alpha, range, logic, fixed, var, lookup, zz, aw, saw⟩] at hok
  obtain ⟨q, vals, g1, g2, g3⟩ := verify_accept hS hD.ok hpe hpl hzz.1 hok
  refine hzz.2 aw saw (g3 ⟨?_, ?_, ?_, ?_⟩)
  · simpa [hh.arith] using g1.symm
  all_goals
    simp only [customVals] at g2
    obtain ⟨_, -, g2⟩ := bind_okE g2
    obtain ⟨_, -, g2⟩ := bind_okE g2
    obtain ⟨_, -, g2⟩ := bind_okE g2
    simp only [hh.l, hh.r, hh.c, ok_bind, pure, Except.pure, Except.ok.injEq] at g2
    rw [← g2]

/-- In particular, when no wire values satisfy the circuit with the given public inputs. -/
theorem C106_unsatisfiable {R : FieldRep F} {K : PField F} {E : EdCurve F} {P : PCS F} {d n : ℕ}
    (hK : PFieldOk K) (hS : PcsSound P d) {c : Composer F} (hc : Reach R E c)
    (hn : n = circuitBound c) {tr : Transcript F P.Comm} (htr : tr.countP isChal = 0)
    {v : Verifier P} (hv : Verifier.preprocess K (P := P) ⟨none, c, tr⟩ = .ok v) {vk : VKey P}
    (hvk : v.key = some vk) {pi : List (ℕ × F)} (hpi : pi.Pairwise fun a b => a.1 < b.1)
    (hpos : ∀ e ∈ pi, e.1 ∈ c.intended_pi_pos)
    (hbad : ¬ ∃ w x, Sat E (padRows c.lookup_table n) n c (piAt pi) w x) :
    ∀ wa wb wc wd, Mostly (3 * n) fun zeta : F => ∀ f h1 h2,
    Mostly (4 * n) fun beta : F => Mostly (4 * n) fun gamma : F =>
    Mostly (4 * n + 1) fun delta : F => Mostly (2 * n) fun epsilon : F => ∀ z z2,
    Mostly 2 fun alpha : F => Mostly 7 fun range : F => Mostly 9 fun logic : F =>
    Mostly 7 fun fixed : F => Mostly 5 fun var : F => Mostly 3 fun lookup : F => ∀ t,
    Mostly (10 * max d n) fun zz : F => ∀ ev o1 o2 aw saw, HonestSelectors hS vk ev zz →
      v.verify K E (coins [zeta, beta, gamma, delta, epsilon, alpha, range, logic, fixed, var, lookup,
        zz, aw, saw]) ⟨wa, wb, wc, wd, z, f, h1, h2, z2, t, o1, o2, ev⟩ pi ≠ .ok () :=
  fun _ _ _ _ => C106_sound hK hS hc hn htr hv hvk hpi hpos _ _ _ _
    fun ⟨x, hx⟩ => hbad ⟨_, x, hx⟩

namespace Plonk

/-- The verifier of the small circuit. -/
theorem ex_verifier : ∃ (v : Verifier (idealPcs K7681 8)) (vk : VKey (idealPcs K7681 8)),
    Verifier.preprocess pf7681 ⟨none, exC 0 0, [.init "plonk"]⟩ = .ok v ∧ v.key = some vk := by
  have hw := Reach.wf (exC_facts 0 0).1
  have hb : circuitBound (exC 0 0) = 8 := by decide +kernel
  have hD := cdom_new pf7681_ok (newDom_run (K := pf7681) (k := circuitBound (exC 0 0))
    (by rw [hb]; decide +kernel))
  obtain ⟨⟨c1, vk, sel, sig, D1, tab, t⟩, h⟩ := preprocessShared_run
    (ideal_complete (F := K7681) 8) hw hD (by rw [hD.eq, hb]) [.init "plonk"]
  refine ⟨⟨some vk, c1, t⟩, vk, ?_, rfl⟩
  unfold Verifier.preprocess preprocessVerifier
  rw [h]
  rfl

end Plonk

/-- The hypotheses can be met: a circuit that cannot be satisfied with public input `1`. -/
example : PFieldOk pf7681 ∧ Nonempty (PcsSound (idealPcs K7681 8) 8) ∧
    Reach R7681 E7681 (exC 0 0) ∧ 8 = circuitBound (exC 0 0) ∧
    (∃ (v : Verifier (idealPcs K7681 8)) (vk : VKey (idealPcs K7681 8)),
      Verifier.preprocess pf7681 ⟨none, exC 0 0, [.init "plonk"]⟩ = .ok v ∧ v.key = some vk) ∧
    (∀ e ∈ [(5, (1 : K7681))], e.1 ∈ (exC 0 0).intended_pi_pos) ∧
    ¬ ∃ w x, Sat E7681 (padRows (exC 0 0).lookup_table 8) 8 (exC 0 0) (piAt [(5, 1)]) w x :=
  ⟨pf7681_ok, ⟨ideal_sound 8⟩, (exC_facts 0 0).1, by decide +kernel, ex_verifier, by decide +kernel,
    exC_unsat⟩

end VO
