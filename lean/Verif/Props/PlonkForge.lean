import Verif.Lemmas.PlonkForge2
import Verif.Props.PlonkSound

/-
C107, C108: what the PLONK verifier of `/repo/plonk-core` does not bind.
-/

set_option linter.unusedSectionVars false

namespace VO

open VO.Plonk VO.Spec VO.Spec.Plonk Polynomial

variable {F : Type} [Field F] [DecidableEq F]

namespace Plonk

/-- What is needed of a preprocessed verifier to forge. -/
theorem forge_setup {R : FieldRep F} {K : PField F} {E : EdCurve F} {P : PCS F} {d : ℕ}
    (hK : PFieldOk K) (hP : PcsComplete P d) {c : Composer F} (hc : Reach R E c)
    (hd : circuitBound c ≤ d) {tr : Transcript F P.Comm} (htr : tr.countP isChal = 0)
    {v : Verifier P} (hv : Verifier.preprocess K (P := P) ⟨none, c, tr⟩ = .ok v)
    {pi : List (ℕ × F)} (hpi : pi.Pairwise fun a b => a.1 < b.1)
    (hpos : ∀ e ∈ pi, e.1 < circuitBound c) :
    ∃ D sel sig tab vk pe, DomOk D ∧ D.size = circuitBound c ∧ 2 ≤ D.size ∧ v.key = some vk ∧
      KeyPolys hP vk sel sig tab ∧ asEvals pi D.size = .ok pe ∧
      (∀ i < D.size, sel.map (Polynomial.eval (D.omega ^ i)) = gateAt c i) ∧
      D.omega = K.fft.root (Nat.clog 2 (circuitBound c)) ∧
      ∀ (ch : Chals F) pr, v.verify K E (coins [ch.zeta, ch.beta, ch.gamma, ch.delta, ch.epsilon,
        ch.alpha, ch.range, ch.logic, ch.fixed, ch.var, ch.lookup, ch.z, ch.aw, ch.saw]) pr pi
        = verifyWith E P D vk pi pr ch := by
  have hw := Reach.wf hc
  obtain ⟨D, sel, sig, tab, vk, hD, hpre, e1, e2⟩ := verifier_inv hK hv
  obtain ⟨-, hDe⟩ := newDom_inv hD.self
  obtain ⟨e, he⟩ := hD.pow
  obtain ⟨pe, hpe, -, -⟩ := asEvals_run (pow2_ok he) hpi (by rwa [hD.eq])
  refine ⟨D, _, _, _, vk, pe, hD.ok, hD.eq, le_trans (by have := hc.four; omega) hD.n, e1,
    keyPolys_pre hP hw hD (by rw [hD.eq]; exact hd) hpre, hpe, ?_, ?_, fun ch pr => ?_⟩
  · intro i hi
    rw [hpre.selEq]
    exact selector_rows hD hw hi
  · rw [← hD.eq]; exact congrArg Dom.omega hDe
  · unfold Verifier.verify
    rw [e1]
    simp only [plonkVerify, hpre.n, hD.self, ok_bind]
    rw [coins_chals (by rw [e2]; exact seed_count _ htr) pi _ ch]

theorem zeta_mostly : Mostly 2 fun zeta : F => zeta ≠ 0 ∧ zeta ≠ 1 :=
  ⟨{0, 1}, Finset.card_le_two, fun x hx => by simpa using hx⟩

theorem ne_mostly (a : F) : Mostly 1 fun x : F => a ≠ x :=
  ⟨{a}, by simp, fun x hx h => hx (by simp [h])⟩

theorem ne2_mostly (a b : F) : Mostly 2 fun x : F => a ≠ x ∧ b ≠ x :=
  ((ne_mostly a).and (ne_mostly b)).mono (by norm_num) fun _ h => h

theorem ne3_mostly (a b c : F) : Mostly 3 fun x : F => a ≠ x ∧ b ≠ x ∧ c ≠ x :=
  ((ne_mostly a).and (ne2_mostly b c)).mono (by norm_num) fun _ h => h

end Plonk

/-- No challenge depends on the commitment to the lookup accumulator, for any hash. -/
theorem C107_not_hashed {P : PCS F} (ro : Transcript F P.Comm → F) (tr : Transcript F P.Comm)
    (pi : List (ℕ × F)) (pr : PlonkProof P) (z2 : P.Comm) :
    verifierChals ro tr pi { pr with z2 := z2 } = verifierChals ro tr pi pr := rfl

/-- And the evaluation point does not depend on the evaluations. -/
theorem C108_point_before_values {P : PCS F} (ro : Transcript F P.Comm → F) (tr : Transcript F P.Comm)
    (pi : List (ℕ × F)) (pr : PlonkProof P) (ev : Evals F) :
    { verifierChals ro tr pi { pr with ev := ev } with aw := 0, saw := 0 }
      = { verifierChals ro tr pi pr with aw := 0, saw := 0 } := rfl

/-- The commitment to the lookup accumulator is in the proof but in no challenge. A prover that sends
any polynomials whatever, in the order of the protocol, can still choose the accumulator after it has
seen the evaluation point, and for all but few values of the challenges the verifier accepts, for
every circuit and all public inputs; the selector values it sends are right. Compare `C106_sound`,
where the accumulator comes before `α`. -/
theorem C107_late_accumulator {R : FieldRep F} {K : PField F} {E : EdCurve F} {P : PCS F} {d : ℕ}
    (hK : PFieldOk K) (hP : PcsComplete P d) {c : Composer F} (hc : Reach R E c)
    (hd : circuitBound c ≤ d) {tr : Transcript F P.Comm} (htr : tr.countP isChal = 0)
    {v : Verifier P} (hv : Verifier.preprocess K (P := P) ⟨none, c, tr⟩ = .ok v) {vk : VKey P}
    (hvk : v.key = some vk) {pi : List (ℕ × F)} (hpi : pi.Pairwise fun a b => a.1 < b.1)
    (hpos : ∀ e ∈ pi, e.1 < circuitBound c) :
    ∀ wa wb wc wd : F[X], (∀ p ∈ [wa, wb, wc, wd], p.degree < d) →
    Mostly 2 fun zeta : F => ∀ f h1 h2 : F[X], (∀ p ∈ [f, h1, h2], p.degree < d) →
    ∀ beta, Mostly 1 fun gamma : F => Mostly 3 fun delta : F => Mostly 5 fun epsilon : F =>
    ∀ z : F[X], z.degree < d → ∀ alpha range logic fixed var, Mostly 1 fun lookup : F =>
    ∀ t : Fin 8 → F[X], (∀ k, (t k).degree < d) →
    Mostly (4 * d) fun zz : F => ∃ (z2 : F[X]) (ev : Evals F), z2.degree < d ∧
      (∀ hS : PcsSound P d, HonestSelectors hS vk ev zz) ∧ ∀ aw saw, ∃ o1 o2,
      v.verify K E (coins [zeta, beta, gamma, delta, epsilon, alpha, range, logic, fixed, var, lookup,
        zz, aw, saw]) ⟨hP.rep wa, hP.rep wb, hP.rep wc, hP.rep wd, hP.rep z, hP.rep f, hP.rep h1,
        hP.rep h2, hP.rep z2, fun k => hP.rep (t k), o1, o2, ev⟩ pi = .ok () := by
  obtain ⟨D, sel, sig, tab, vk', pe, hD, hDn, hn2, e1, hk, hpe, hrow, hom, hver⟩ :=
    forge_setup hK hP hc hd htr hv hpi hpos
  obtain rfl : vk' = vk := by rw [hvk] at e1; simpa using e1.symm
  rw [← hDn] at hd
  intro wa wb wc wd hw
  refine zeta_mostly.mono le_rfl fun zeta hz f h1 h2 hf beta => ?_
  refine (ne_mostly beta).mono le_rfl fun gamma hg => ?_
  refine (ne3_mostly beta gamma (-1)).mono le_rfl fun delta hdl => ?_
  let T := tabPoly tab zeta
  refine ((ne3_mostly beta gamma delta).and (ne2_mostly (-f.eval D.omega)
    (-((T.eval D.omega + delta * T.eval (D.omega * D.omega)) / (1 + delta))))).mono (by norm_num)
    fun epsilon he z hzd alpha range logic fixed var => ?_
  refine (ne_mostly 0).mono le_rfl fun lookup hs t ht => ?_
  have m1 := z2Coeff_mostly hD hn2 hd (f := f) (T := T) (hf f (by simp))
    (tabPoly_degree hk.tabD zeta) ⟨zeta, beta, gamma, delta, epsilon, alpha, range, logic, fixed, var,
      lookup, 0, 0, 0⟩ hs.symm (Ne.symm hdl.2.2) he.2.1.symm he.2.2.symm
  refine (m1.and ((pow_ne_one_mostly hD.pos).and (ne_mostly 0))).mono (by omega)
    fun zz ⟨hc1, hzn, hz0⟩ => ?_
  let p : FPolys F := ⟨⟨wa, wb, wc, wd⟩, z, 0, f, h1, h2, t⟩
  have hp : p.Lt d := ⟨hw wa (by simp), hw wb (by simp), hw wc (by simp), hw wd (by simp), hzd,
    by rw [degree_zero]; exact WithBot.bot_lt_coe d, hf f (by simp), hf h1 (by simp),
    hf h2 (by simp), ht⟩
  obtain ⟨z2, hz2, hacc⟩ := late_z2 hP E hD hn2 hd hk hpe (ch := ⟨zeta, beta, gamma, delta, epsilon,
    alpha, range, logic, fixed, var, lookup, zz, 0, 0⟩)
    ⟨hg, hdl.1, he.1.1, hdl.2.1, he.1.2.1, he.1.2.2, hz.1, hz.2, hzn⟩ hp hz0.symm hc1
    (sel.arith.eval zz) (sel.l.eval zz) (sel.r.eval zz) (sel.c.eval zz)
  refine ⟨z2, forgedEvals D.omega zeta zz sig tab { p with z2 := 0 } (sel.arith.eval zz)
    (sel.l.eval zz) (sel.r.eval zz) (sel.c.eval zz), hz2, fun hS => ?_, fun aw saw => ?_⟩
  rotate_left
  · obtain ⟨o1, o2, h⟩ := hacc aw saw
    refine ⟨o1, o2, ?_⟩
    rw [hver ⟨zeta, beta, gamma, delta, epsilon, alpha, range, logic, fixed, var, lookup, zz, aw, saw⟩]
    exact h
  · have ee : vk'.sel.map hS.ext = sel := by
      obtain ⟨d1, d2, d3, d4, d5, d6, d7, d8, d9, d10, d11, d12, d13, d14, d15⟩ := hk.selD
      rw [hk.selC]
      simp only [Gate.map, ext_rep hP hS d1, ext_rep hP hS d2, ext_rep hP hS d3, ext_rep hP hS d4,
        ext_rep hP hS d5, ext_rep hP hS d6, ext_rep hP hS d7, ext_rep hP hS d8, ext_rep hP hS d9,
        ext_rep hP hS d10, ext_rep hP hS d11, ext_rep hP hS d12, ext_rep hP hS d13,
        ext_rep hP hS d14, ext_rep hP hS d15]
    have q1 : hS.ext vk'.sel.arith = sel.arith := congrArg Gate.arith ee
    have q2 : hS.ext vk'.sel.l = sel.l := congrArg Gate.l ee
    have q3 : hS.ext vk'.sel.r = sel.r := congrArg Gate.r ee
    have q4 : hS.ext vk'.sel.c = sel.c := congrArg Gate.c ee
    constructor
    · rw [q1]; simp [forgedEvals, customGet, List.find?]
    · rw [q2]; simp [forgedEvals, customGet, List.find?]
    · rw [q3]; simp [forgedEvals, customGet, List.find?]
    · rw [q4]; simp [forgedEvals, customGet, List.find?]

/-- The value of the arithmetic selector at the evaluation point is in the proof, but no opening
checks it. A prover that commits to wires with a row where the arithmetic expression (without its
selector) is not zero, and to anything else, all in the order of the protocol, can choose this one
value at the end, and for all but few values of the challenges the verifier accepts. -/
theorem C108_late_selector {R : FieldRep F} {K : PField F} {E : EdCurve F} {P : PCS F} {d : ℕ}
    (hK : PFieldOk K) (hP : PcsComplete P d) {c : Composer F} (hc : Reach R E c)
    (hd : circuitBound c ≤ d) {tr : Transcript F P.Comm} (htr : tr.countP isChal = 0)
    {v : Verifier P} (hv : Verifier.preprocess K (P := P) ⟨none, c, tr⟩ = .ok v)
    {pi : List (ℕ × F)} (hpi : pi.Pairwise fun a b => a.1 < b.1)
    (hpos : ∀ e ∈ pi, e.1 < circuitBound c) (wa wb wc wd : F[X])
    (hw : ∀ p ∈ [wa, wb, wc, wd], p.degree < d)
    {i : ℕ} (hi : i < circuitBound c) {x : F}
    (hx : x = K.fft.root (Nat.clog 2 (circuitBound c)) ^ i)
    (hne : let g := gateAt c i
      let (a, b, o, e) := (wa.eval x, wb.eval x, wc.eval x, wd.eval x)
      g.m * a * b + g.l * a + g.r * b + g.o * o + g.q4 * e + g.hl * a ^ 5 + g.hr * b ^ 5
        + g.h4 * e ^ 5 + g.c ≠ 0) :
    Mostly 2 fun zeta : F => ∀ f h1 h2 : F[X], (∀ p ∈ [f, h1, h2], p.degree < d) →
    ∀ beta, Mostly 1 fun gamma : F => Mostly 2 fun delta : F => Mostly 3 fun epsilon : F =>
    ∀ z z2 : F[X], z.degree < d → z2.degree < d → ∀ alpha range logic fixed var lookup,
    ∀ t : Fin 8 → F[X], (∀ k, (t k).degree < d) →
    Mostly (7 * d) fun zz : F => ∃ ev : Evals F, ∀ aw saw, ∃ o1 o2,
      v.verify K E (coins [zeta, beta, gamma, delta, epsilon, alpha, range, logic, fixed, var, lookup,
        zz, aw, saw]) ⟨hP.rep wa, hP.rep wb, hP.rep wc, hP.rep wd, hP.rep z, hP.rep f, hP.rep h1,
        hP.rep h2, hP.rep z2, fun k => hP.rep (t k), o1, o2, ev⟩ pi = .ok () := by
  obtain ⟨D, sel, sig, tab, vk, pe, hD, hDn, hn2, e1, hk, hpe, hrow, hom, hver⟩ :=
    forge_setup hK hP hc hd htr hv hpi hpos
  rw [← hom] at hx
  rw [← hDn] at hd hi
  subst hx
  refine zeta_mostly.mono le_rfl fun zeta hz f h1 h2 hf beta => ?_
  refine (ne_mostly beta).mono le_rfl fun gamma hg => ?_
  refine (ne2_mostly beta gamma).mono le_rfl fun delta hdl => ?_
  refine (ne3_mostly beta gamma delta).mono le_rfl
    fun epsilon he z z2 hzd hz2 alpha range logic fixed var lookup t ht => ?_
  have m1 := arithCoeff_mostly (i := i) hD hd hk.selD (hw wa (by simp)) (hw wb (by simp))
    (hw wc (by simp)) (hw wd (by simp)) (by rw [hrow i hi]; exact hne)
  refine (m1.and (pow_ne_one_mostly hD.pos)).mono (by omega) fun zz ⟨hc1, hzn⟩ => ?_
  let p : FPolys F := ⟨⟨wa, wb, wc, wd⟩, z, z2, f, h1, h2, t⟩
  have hp : p.Lt d := ⟨hw wa (by simp), hw wb (by simp), hw wc (by simp), hw wd (by simp), hzd,
    hz2, hf f (by simp), hf h1 (by simp), hf h2 (by simp), ht⟩
  obtain ⟨q, hacc⟩ := late_q hP E hD hk hpe (ch := ⟨zeta, beta, gamma, delta, epsilon,
    alpha, range, logic, fixed, var, lookup, zz, 0, 0⟩)
    ⟨hg, hdl.1, he.1, hdl.2, he.2.1, he.2.2, hz.1, hz.2, hzn⟩ hp hc1
    (sel.l.eval zz) (sel.r.eval zz) (sel.c.eval zz)
  refine ⟨forgedEvals D.omega zeta zz sig tab p q (sel.l.eval zz) (sel.r.eval zz) (sel.c.eval zz),
    fun aw saw => ?_⟩
  obtain ⟨o1, o2, h⟩ := hacc aw saw
  refine ⟨o1, o2, ?_⟩
  rw [hver ⟨zeta, beta, gamma, delta, epsilon, alpha, range, logic, fixed, var, lookup, zz, aw, saw⟩]
  exact h

/-- In particular a prover that commits to the constant `1` for the left wire and to zero for
everything else, fixed in advance and the same for all circuits, is accepted for every circuit and
all public inputs, for all but few values of the challenges. -/
theorem C108_every_statement {R : FieldRep F} {K : PField F} {E : EdCurve F} {P : PCS F} {d : ℕ}
    (hK : PFieldOk K) (hP : PcsComplete P d) {c : Composer F} (hc : Reach R E c)
    (hd : circuitBound c ≤ d) {tr : Transcript F P.Comm} (htr : tr.countP isChal = 0)
    {v : Verifier P} (hv : Verifier.preprocess K (P := P) ⟨none, c, tr⟩ = .ok v)
    {pi : List (ℕ × F)} (hpi : pi.Pairwise fun a b => a.1 < b.1)
    (hpos : ∀ e ∈ pi, e.1 < circuitBound c) :
    let one := hP.rep 1
    let zero := hP.rep 0
    Mostly 2 fun zeta : F => ∀ beta, Mostly 1 fun gamma : F => Mostly 2 fun delta : F =>
    Mostly 3 fun epsilon : F => ∀ alpha range logic fixed var lookup,
    Mostly (7 * d) fun zz : F => ∃ ev : Evals F, ∀ aw saw, ∃ o1 o2,
      v.verify K E (coins [zeta, beta, gamma, delta, epsilon, alpha, range, logic, fixed, var, lookup,
        zz, aw, saw]) ⟨one, zero, zero, zero, zero, zero, zero, zero, zero, fun _ => zero, o1, o2, ev⟩
        pi = .ok () := by
  have hn : 4 ≤ circuitBound c := by
    unfold circuitBound
    exact le_trans hc.four (le_trans (le_max_left _ _) (Nat.le_pow_clog (by norm_num) _))
  have h0 : (0 : F[X]).degree < (d : WithBot ℕ) := by rw [degree_zero]; exact WithBot.bot_lt_coe d
  have h1 : (1 : F[X]).degree < (d : WithBot ℕ) := by
    rw [degree_one]; exact_mod_cast (show 0 < d by omega)
  have key := C108_late_selector hK hP hc hd htr hv hpi hpos 1 0 0 0 (by
    simp only [List.mem_cons, List.not_mem_nil, or_false]
    rintro p (rfl | rfl | rfl | rfl) <;> with_reducible assumption) (i := 0) (by omega) rfl (by
      rw [Reach.row0 hc]
      simp [gateAt, seedComposer])
  refine key.mono le_rfl fun zeta q beta => (q 0 0 0 ?_ beta).mono le_rfl fun gamma q =>
    q.mono le_rfl fun delta q => q.mono le_rfl fun epsilon q alpha range logic fixed var lookup =>
    q 0 0 h0 h0 alpha range logic fixed var lookup (fun _ => 0) fun _ => h0
  simp only [List.mem_cons, List.not_mem_nil, or_false]
  rintro p (rfl | rfl | rfl) <;> with_reducible assumption

/-- The hypotheses of C107 and C108 can be met, by a circuit and public inputs that no wire values
satisfy (with a commitment scheme of degree bound `8`). -/
example : PFieldOk pf7681 ∧ Nonempty (PcsComplete (idealPcs K7681 8) 8) ∧
    Nonempty (PcsSound (idealPcs K7681 8) 8) ∧ Reach R7681 E7681 (exC 0 0) ∧
    circuitBound (exC 0 0) ≤ 8 ∧
    (∃ (v : Verifier (idealPcs K7681 8)) (vk : VKey (idealPcs K7681 8)),
      Verifier.preprocess pf7681 ⟨none, exC 0 0, [.init "plonk"]⟩ = .ok v ∧ v.key = some vk) ∧
    (∀ e ∈ [(5, (1 : K7681))], e.1 < circuitBound (exC 0 0)) ∧
    ¬ ∃ w x, Sat E7681 (padRows (exC 0 0).lookup_table 8) 8 (exC 0 0) (piAt [(5, 1)]) w x :=
  ⟨pf7681_ok, ⟨ideal_complete 8⟩, ⟨ideal_sound 8⟩, (exC_facts 0 0).1, by decide +kernel, ex_verifier,
    by decide +kernel, exC_unsat⟩

/-- So the verifier accepts a false statement. -/
theorem C108_accepts_false : ∃ (v : Verifier (idealPcs K7681 8)) (l : List K7681)
    (pr : PlonkProof (idealPcs K7681 8)),
    Verifier.preprocess pf7681 ⟨none, exC 0 0, [.init "plonk"]⟩ = .ok v ∧
    v.verify pf7681 E7681 (coins l) pr [(5, 1)] = .ok () ∧
    ¬ ∃ w x, Sat E7681 (padRows (exC 0 0).lookup_table 8) 8 (exC 0 0) (piAt [(5, 1)]) w x := by
  have pick : ∀ {k : ℕ} {p : K7681 → Prop}, k < 7681 → Mostly k p → ∃ x, p x := by
    rintro k p hk ⟨bad, b1, b2⟩
    by_contra hc
    push Not at hc
    have : Finset.univ ⊆ bad := fun x _ => by
      by_contra hx
      exact hc x (b2 x hx)
    have := Finset.card_le_card this
    rw [Finset.card_univ, ZMod.card] at this
    omega
  obtain ⟨v, vk, hv, -⟩ := ex_verifier
  have h := C108_every_statement pf7681_ok (ideal_complete (F := K7681) 8) (exC_facts 0 0).1
    (by decide +kernel) (by rfl) hv (pi := [(5, 1)]) (by simp) (by decide +kernel)
  obtain ⟨zeta, h⟩ := pick (by decide) h
  obtain ⟨gamma, h⟩ := pick (by decide) (h 0)
  obtain ⟨delta, h⟩ := pick (by decide) h
  obtain ⟨epsilon, h⟩ := pick (by decide) h
  obtain ⟨z, h⟩ := pick (by decide) (h 0 0 0 0 0 0)
  obtain ⟨ev, h⟩ := h
  obtain ⟨o1, o2, h⟩ := h 0 0
  exact ⟨v, _, _, hv, h, exC_unsat⟩

end VO
