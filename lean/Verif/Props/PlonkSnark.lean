import Verif.Lemmas.PlonkRun4
import Verif.Lemmas.PlonkExample3

/-
C105: completeness of the PLONK prover and verifier of `/repo/plonk-core`.
-/

set_option linter.unusedSectionVars false

namespace VO

open VO.Plonk VO.Spec VO.Spec.Plonk

variable {F : Type} [Field F] [DecidableEq F]

namespace Plonk

theorem _root_.VO.Spec.Plonk.SameCircuit.refl (c : Composer F) : SameCircuit c c := rfl

/-- The honest proof is accepted, whatever the common transcript. -/
theorem honest_accepted' {R : FieldRep F} {K : PField F} {E : EdCurve F} {P : PCS F} {d : ℕ}
    (hK : PFieldOk K) (hP : PcsComplete P d) {c cp cv cp' cv' : Composer F} (hc : Reach R E c)
    (hs : OwnSat E c) (hd : circuitBound c ≤ d) (hcp : SameCircuit cp c) (hcv : SameCircuit cv c)
    {tr tr' trp trv : Transcript F P.Comm} {pk : PKey F} {vk : VKey P}
    (hp : preprocessProver K P cp tr = .ok (cp', pk, trp))
    (hv : preprocessVerifier K P cv tr' = .ok (cv', vk, trv)) (ro : Transcript F P.Comm → F)
    (t : Transcript F P.Comm)
    {pr : PlonkProof P} (hpr : proveWithPreprocessed K E P ro c pk t = .ok pr)
    (hzeta : Contiguous (compressedTable c (circuitBound c)
      (verifierChals ro t c.public_inputs pr).zeta))
    (hz : (verifierChals ro t c.public_inputs pr).z ^ circuitBound c ≠ 1) :
    plonkVerify K E P ro vk t c.public_inputs pr = .ok () := by
  have hw := Reach.wf hc
  obtain ⟨D, D8, vk', a1, a2, a3, a4, -, -⟩ := preprocessProver_inv hK hcp hp
  obtain ⟨D', sel, sig, tab, b1, b2, -, -⟩ := preprocessVerifier_inv hK hcv hv
  obtain rfl := a1.uniq b1
  obtain ⟨-, -, -, rfl⟩ := a4.uniq b2
  rw [← a1.eq] at hd hz hzeta
  have hvk := vkFor_pre hP hw a1 hd a4
  obtain ⟨p1, p2, p3⟩ := prove_run (E := E) hP a1 hd a2 (le_trans (by have := hc.four; omega) a1.n) hw
    hc.sorted hs a3 hvk ro t
  rw [p2 pr hpr] at hzeta
  have z01 := fun h => p1 h
  rw [hpr] at z01
  obtain ⟨r2, q1, q2, q3⟩ := p3 (fun h => by cases z01 (.inl h)) (fun h => by cases z01 (.inr h))
  obtain ⟨r3, -, q4⟩ := q3 (q2 pr hpr)
  obtain ⟨tC, q5, q6⟩ := q4 (by rw [q1.ct]; exact hzeta)
  rw [q5 pr hpr] at hz
  obtain ⟨pr', e, q7⟩ := q6 hz
  have e := e.symm.trans hpr
  simp only [Except.ok.injEq] at e
  subst e
  unfold plonkVerify
  rw [hvk.n, a1.self, ok_bind]
  exact q7

/-- The honest proof is accepted. -/
theorem honest_accepted {R : FieldRep F} {K : PField F} {E : EdCurve F} {P : PCS F} {d : ℕ}
    (hK : PFieldOk K) (hP : PcsComplete P d) {c cp cv cp' cv' : Composer F} (hc : Reach R E c)
    (hs : OwnSat E c) (hd : circuitBound c ≤ d) (hcp : SameCircuit cp c) (hcv : SameCircuit cv c)
    {tr trp trv : Transcript F P.Comm} {pk : PKey F} {vk : VKey P}
    (hp : preprocessProver K P cp tr = .ok (cp', pk, trp))
    (hv : preprocessVerifier K P cv tr = .ok (cv', vk, trv)) (ro : Transcript F P.Comm → F)
    {pr : PlonkProof P} (hpr : proveWithPreprocessed K E P ro c pk trp = .ok pr)
    (hzeta : Contiguous (compressedTable c (circuitBound c)
      (verifierChals ro trv c.public_inputs pr).zeta))
    (hz : (verifierChals ro trv c.public_inputs pr).z ^ circuitBound c ≠ 1) :
    plonkVerify K E P ro vk trv c.public_inputs pr = .ok () := by
  obtain ⟨D, D8, vk', a1, -, -, a4, -, e⟩ := preprocessProver_inv hK hcp hp
  obtain ⟨D', sel, sig, tab, b1, b2, -, e'⟩ := preprocessVerifier_inv hK hcv hv
  obtain rfl := a1.uniq b1
  obtain ⟨-, -, -, e2⟩ := a4.uniq b2
  have : trp = trv := by rw [e, e', e2]
  subst this
  exact honest_accepted' hK hP hc hs hd hcp hcv hp hv ro _ hpr hzeta hz

end Plonk

/-- Completeness. A prover with a satisfied circuit and a verifier with the same circuit, with the
same label and the same key messages: when the prover returns a proof, the verifier accepts it, for
every hash, provided the compressed table has equal rows together and the evaluation point is not in
the domain (see `C105_succeeds` for how often this happens). -/
theorem C105_complete {R : FieldRep F} {K : PField F} {E : EdCurve F} {P : PCS F} {d : ℕ}
    (hK : PFieldOk K) (hP : PcsComplete P d) {c cv : Composer F} (hc : Reach R E c)
    (hs : OwnSat E c) (hd : circuitBound c ≤ d) (hcv : SameCircuit cv c)
    {tr : Transcript F P.Comm} {v : Verifier P}
    (hv : Verifier.preprocess K (P := P) ⟨none, cv, tr⟩ = .ok v) (ro : Transcript F P.Comm → F)
    {r1 r2 : F × F × F × F} {pr : PlonkProof P} {s : Prover P}
    (hpr : Prover.prove K E ro ⟨none, c, tr⟩ r1 r2 = .ok (pr, s))
    (hzeta : Contiguous (compressedTable c (circuitBound c)
      (verifierChals ro v.tr c.public_inputs pr).zeta))
    (hz : (verifierChals ro v.tr c.public_inputs pr).z ^ circuitBound c ≠ 1) :
    v.verify K E ro pr c.public_inputs = .ok () := by
  unfold Verifier.preprocess at hv
  obtain ⟨⟨cv', vk, trv⟩, hv', h⟩ := bind_okE hv
  clear hv
  simp only [pure, Except.pure, Except.ok.injEq] at h
  subst h
  unfold Prover.prove at hpr
  simp only [] at hpr
  obtain ⟨⟨c', pk, tr'⟩, h1, hpr⟩ := bind_okE hpr
  simp only [pure, Except.pure, ok_bind] at hpr
  obtain ⟨pr', h2, hpr⟩ := bind_okE hpr
  obtain ⟨c2, -, h⟩ := bind_okE hpr
  simp only [pure, Except.pure, Except.ok.injEq, Prod.mk.injEq] at h
  obtain ⟨rfl, -⟩ := h
  obtain ⟨D, D8, vk', a1, -, -, -, e, -⟩ := preprocessProver_inv hK (SameCircuit.refl c) h1
  subst e
  rw [prove_pad a1 (Reach.wf hc) hs] at h2
  exact honest_accepted hK hP hc hs hd (SameCircuit.refl c) hcv h1 hv' ro h2 hzeta hz

/-- The same for a prover that was preprocessed before, with any values in place: the proof made
next, with or without filling the composer again with the same circuit and other values, is accepted
too. -/
theorem C105_preprocessed {R : FieldRep F} {K : PField F} {E : EdCurve F} {P : PCS F} {d : ℕ}
    (hK : PFieldOk K) (hP : PcsComplete P d) {c cp cv : Composer F} (hc : Reach R E c)
    (hs : OwnSat E c) (hd : circuitBound c ≤ d) (hcp : SameCircuit cp c) (hcv : SameCircuit cv c)
    {tr : Transcript F P.Comm} {v : Verifier P} {sp : Prover P}
    (hv : Verifier.preprocess K (P := P) ⟨none, cv, tr⟩ = .ok v)
    (hp : Prover.preprocess K (P := P) ⟨none, cp, tr⟩ = .ok sp) (ro : Transcript F P.Comm → F)
    {r1 r2 : F × F × F × F} {pr : PlonkProof P} {s : Prover P}
    (hpr : Prover.prove K E ro { sp with cs := c } r1 r2 = .ok (pr, s) ∨
      cp = c ∧ Prover.prove K E ro sp r1 r2 = .ok (pr, s))
    (hzeta : Contiguous (compressedTable c (circuitBound c)
      (verifierChals ro v.tr c.public_inputs pr).zeta))
    (hz : (verifierChals ro v.tr c.public_inputs pr).z ^ circuitBound c ≠ 1) :
    v.verify K E ro pr c.public_inputs = .ok () ∧ s.key = sp.key ∧ s.tr = sp.tr ∧
      newComposer r1 r2 = .ok s.cs := by
  unfold Verifier.preprocess at hv
  obtain ⟨⟨cv', vk, trv⟩, hv', h⟩ := bind_okE hv
  clear hv
  simp only [pure, Except.pure, Except.ok.injEq] at h
  subst h
  unfold Prover.preprocess at hp
  simp only [Option.isSome_none, Bool.false_eq_true, if_false] at hp
  obtain ⟨⟨cp', pk, trp⟩, hp', h⟩ := bind_okE hp
  clear hp
  simp only [pure, Except.pure, Except.ok.injEq] at h
  subst h
  obtain ⟨D, D8, vk', a1, -, -, -, e, -⟩ := preprocessProver_inv hK hcp hp'
  have key : proveWithPreprocessed K E P ro c pk trp = .ok pr ∧ s.key = some pk ∧ s.tr = trp ∧
      newComposer r1 r2 = .ok s.cs := by
    rcases hpr with hpr | ⟨rfl, hpr⟩
    · unfold Prover.prove at hpr
      simp only [pure, Except.pure, ok_bind] at hpr
      obtain ⟨pr', h2, hpr⟩ := bind_okE hpr
      obtain ⟨c2, h3, h⟩ := bind_okE hpr
      simp only [pure, Except.pure, Except.ok.injEq, Prod.mk.injEq] at h
      obtain ⟨rfl, rfl⟩ := h
      exact ⟨h2, rfl, rfl, liftP_okE h3⟩
    · unfold Prover.prove at hpr
      simp only [pure, Except.pure, ok_bind] at hpr
      obtain ⟨pr', h2, hpr⟩ := bind_okE hpr
      obtain ⟨c2, h3, h⟩ := bind_okE hpr
      simp only [pure, Except.pure, Except.ok.injEq, Prod.mk.injEq] at h
      obtain ⟨rfl, rfl⟩ := h
      rw [e, prove_pad a1 (Reach.wf hc) hs] at h2
      exact ⟨h2, rfl, rfl, liftP_okE h3⟩
  obtain ⟨h2, h3⟩ := key
  exact ⟨honest_accepted hK hP hc hs hd hcp hcv hp' hv' ro h2 hzeta hz, h3⟩


namespace Plonk

theorem coins_run {C : Type} (l : List F) (tr : Transcript F C) (lab : String) (k : ℕ)
    (h : tr.countP isChal = k) : (challengeAppend (coins l) tr lab).1 = l.getD k 0 := by
  simp [challengeAppend, challenge, coins, List.countP_append, isChal, h]

theorem absorb_count {C : Type} (ro : Transcript F C → F) (tr : Transcript F C) (l l' : String) :
    (absorb ro tr l l').countP isChal = tr.countP isChal + 1 := by
  simp [absorb, challengeAppend, challenge, List.countP_append, List.countP_cons, isChal]

theorem _root_.VO.Spec.Plonk.SameCircuit.symm {c c' : Composer F} (h : SameCircuit c c') :
    SameCircuit c' c := by
  unfold SameCircuit at h ⊢
  rw [h]

theorem domains_run {K : PField F} (hK : PFieldOk K) {c : Composer F}
    (h8 : Nat.clog 2 (8 * circuitBound c) ≤ K.fft.twoAdicity) :
    ∃ D D8, CDom K c D ∧ Dom8 K D D8 := by
  have h1 : Nat.clog 2 (circuitBound c) ≤ K.fft.twoAdicity :=
    (Nat.clog_mono_right 2 (by omega)).trans h8
  have hD := cdom_new hK (newDom_run h1)
  refine ⟨_, _, hD, dom8_new hK hD.new (newDom_run ?_)⟩
  rw [hD.eq]
  exact h8

theorem preprocessProver_run {K : PField F} {P : PCS F} {d : ℕ} (hP : PcsComplete P d)
    {c : Composer F} (hw : WF c) {D D8 : Dom F} (hD : CDom K c D) (h8 : Dom8 K D D8)
    (hd : D.size ≤ d) (tr : Transcript F P.Comm) : ∃ r, preprocessProver K P c tr = .ok r := by
  obtain ⟨⟨c1, vk, sel, sig, D1, tab, t⟩, h⟩ := preprocessShared_run hP hw hD hd tr
  have e : D1 = D := by
    unfold preprocessShared at h
    rw [hD.new, ok_bind] at h
    obtain ⟨_, -, h⟩ := bind_okE h
    obtain ⟨_, -, h⟩ := bind_okE h
    simp only [polySameLen_wf hw, Bool.not_true, Bool.false_eq_true, if_false] at h
    obtain ⟨_, -, h⟩ := bind_okE h
    obtain ⟨_, -, h⟩ := bind_okE h
    obtain ⟨_, -, h⟩ := bind_okE h
    simp only [pure, Except.pure, Except.ok.injEq, Prod.mk.injEq] at h
    exact h.2.2.2.2.1.symm
  subst e
  unfold preprocessProver
  have := hD.ok.pos
  have h8s := h8.size
  simp only [h, ok_bind, h8.new, vanishingCoset, assertR, liftP,
    if_pos (show D1.size < D8.size by omega)]
  exact ⟨_, rfl⟩

theorem preprocessVerifier_run {K : PField F} {P : PCS F} {d : ℕ} (hP : PcsComplete P d)
    {c : Composer F} (hw : WF c) {D : Dom F} (hD : CDom K c D)
    (hd : D.size ≤ d) (tr : Transcript F P.Comm) : ∃ r, preprocessVerifier K P c tr = .ok r := by
  obtain ⟨⟨c1, vk, sel, sig, D1, tab, t⟩, h⟩ := preprocessShared_run hP hw hD hd tr
  unfold preprocessVerifier
  rw [h, ok_bind]
  exact ⟨_, rfl⟩

theorem pow_ne_one_mostly {n : ℕ} (hn : 0 < n) : Mostly n fun z : F => z ^ n ≠ 1 := by
  refine mostly_of_poly_ne (Polynomial.X ^ n - Polynomial.C 1) n (Polynomial.X_pow_sub_C_ne_zero hn 1)
    (by rw [Polynomial.natDegree_X_pow_sub_C]) fun x hx h => hx ?_
  simp [h]

/-- For most challenges the prover returns a proof and the verifier accepts it, whatever the common
transcript (without challenges). -/
theorem succeeds_core {R : FieldRep F} {K : PField F} {E : EdCurve F} {P : PCS F} {d : ℕ}
    (hP : PcsComplete P d) {c cp cv cp' cv' : Composer F} (hc : Reach R E c)
    (hs : OwnSat E c) (hd : circuitBound c ≤ d) (hT : c.lookup_table.Nodup)
    (hcp : SameCircuit cp c) (hcv : SameCircuit cv c)
    {tr tr' trp trv : Transcript F P.Comm} {pk : PKey F} {vk : VKey P} (hK : PFieldOk K)
    (hp : preprocessProver K P cp tr = .ok (cp', pk, trp))
    (hv : preprocessVerifier K P cv tr' = .ok (cv', vk, trv))
    {t0 : Transcript F P.Comm} (hcn : t0.countP isChal = 0) :
    Mostly (3 * c.lookup_table.length ^ 2 + 2) fun zeta : F =>
      ∀ beta, Mostly (4 * circuitBound c + 1) fun gamma : F =>
      Mostly 3 fun delta : F => Mostly (2 * circuitBound c + 3) fun epsilon : F =>
      ∀ alpha range logic fixed var lookup, Mostly (circuitBound c) fun z : F => ∀ aw saw,
        let ro : Transcript F P.Comm → F := coins [zeta, beta, gamma, delta, epsilon, alpha, range,
          logic, fixed, var, lookup, z, aw, saw]
        ∃ pr, proveWithPreprocessed K E P ro c pk t0 = .ok pr ∧
          plonkVerify K E P ro vk t0 c.public_inputs pr = .ok () := by
  have hw := Reach.wf hc
  obtain ⟨D, D8, vk', hD, a2, a3, a4, -, -⟩ := preprocessProver_inv hK hcp hp
  obtain ⟨D', sel, sig, tab, b1, b2, -, -⟩ := preprocessVerifier_inv hK hcv hv
  obtain rfl := hD.uniq b1
  obtain ⟨-, -, -, rfl⟩ := a4.uniq b2
  rw [← hD.eq] at hd ⊢
  have hvk := vkFor_pre hP hw hD hd a4
  have hn2 : 2 ≤ D.size := le_trans (by have := hc.four; omega) hD.n
  have m1 : Mostly 2 fun zeta : F => zeta ≠ 0 ∧ zeta ≠ 1 :=
    ⟨{0, 1}, Finset.card_le_two, fun x hx => by simpa using hx⟩
  refine ((contiguous_table hT D.size).and m1).mono le_rfl fun zeta hzeta => ?_
  obtain ⟨hzc, hz0, hz1⟩ := hzeta
  intro beta
  have m2 : Mostly 1 fun gamma : F => beta ≠ gamma :=
    ⟨{beta}, by simp, fun x hx h => hx (by simp [h])⟩
  refine ((sigFactor_mostly pk.sig D.size D.omega beta (ownW c)).and m2).mono le_rfl fun gamma hg => ?_
  have m3 : Mostly 3 fun delta : F => beta ≠ delta ∧ gamma ≠ delta ∧ delta ≠ -1 :=
    ⟨{beta, gamma, -1}, Finset.card_le_three, fun x hx => by
      simp only [Finset.mem_insert, Finset.mem_singleton, not_or] at hx
      exact ⟨fun h => hx.1 h.symm, fun h => hx.2.1 h.symm, hx.2.2⟩⟩
  refine m3.mono le_rfl fun delta hdl => ?_
  have m4 : Mostly 3 fun epsilon : F => beta ≠ epsilon ∧ gamma ≠ epsilon ∧ delta ≠ epsilon :=
    ⟨{beta, gamma, delta}, Finset.card_le_three, fun x hx => by
      simp only [Finset.mem_insert, Finset.mem_singleton, not_or] at hx
      exact ⟨fun h => hx.1 h.symm, fun h => hx.2.1 h.symm, fun h => hx.2.2 h.symm⟩⟩
  let G := grouped (compressedTable c D.size zeta) (queries c D.size zeta)
  refine ((half_mostly D.size hdl.2.2 (fun i => (evens G).getD i 0)
    (fun i => (odds G).getD i 0)).and m4).mono le_rfl fun epsilon he => ?_
  intro alpha range logic fixed var lookup
  refine (pow_ne_one_mostly hD.ok.pos).mono le_rfl fun z hz => ?_
  intro aw saw ro
  obtain ⟨p1, p2, p3⟩ := prove_run (E := E) hP hD hd a2 hn2 hw hc.sorted hs a3 hvk ro t0
  have c1 : (tr1 hP c D t0).countP isChal = 0 := by
    simp [tr1, List.countP_append, List.countP_cons, isChal, hcn]
  have ez : (challengeAppend ro (tr1 hP c D t0) "zeta").1 = zeta :=
    coins_run _ _ _ 0 c1
  rw [ez] at p3
  obtain ⟨r2', q1, q2, q3⟩ := p3 hz0 hz1
  have c2 : (tr2 ro r2' (tr1 hP c D t0)).countP isChal = 1 := by
    simp [tr2, List.countP_append, List.countP_cons, isChal, absorb_count, c1]
  have eb : ch3 ro (tr2 ro r2' (tr1 hP c D t0)) = (beta, gamma, delta, epsilon) := by
    generalize tr2 ro r2' (tr1 hP c D t0) = t at c2
    have k1 := absorb_count ro t "beta" "beta"
    have k2 := absorb_count ro (absorb ro t "beta" "beta") "gamma" "gamma"
    have k3 := absorb_count ro (absorb ro (absorb ro t "beta" "beta") "gamma" "gamma") "delta" "delta"
    have e1 := coins_run [zeta, beta, gamma, delta, epsilon, alpha, range, logic, fixed, var, lookup,
      z, aw, saw] t "beta" 1 c2
    have e2 := coins_run [zeta, beta, gamma, delta, epsilon, alpha, range, logic, fixed, var, lookup,
      z, aw, saw] _ "gamma" 2 (by rw [k1, c2])
    have e3 := coins_run [zeta, beta, gamma, delta, epsilon, alpha, range, logic, fixed, var, lookup,
      z, aw, saw] _ "delta" 3 (by rw [k2, k1, c2])
    have e4 := coins_run [zeta, beta, gamma, delta, epsilon, alpha, range, logic, fixed, var, lookup,
      z, aw, saw] _ "epsilon" 4 (by rw [k3, k2, k1, c2])
    exact Prod.ext e1 (Prod.ext e2 (Prod.ext e3 e4))
  rw [eb] at q3
  obtain ⟨r3, -, q4⟩ := q3 ⟨hg.2, hdl.1, he.2.1, hdl.2.1, he.2.2.1, he.2.2.2, hg.1, by
    rw [q1.h1v, q1.h2v, q1.ct, q1.cf]; exact he.1⟩
  obtain ⟨tC, -, q6⟩ := q4 (by rw [q1.ct]; exact hzc)
  have ezz : (challengeAppend ro (tr4 ro tC (tr3 ro r3 (tr2 ro r2' (tr1 hP c D t0)))) "z").1 = z := by
    refine coins_run _ _ _ 11 ?_
    simp [tr4, tr3, List.countP_append, List.countP_cons, isChal, absorb_count, c2]
  rw [ezz] at q6
  obtain ⟨pr, q7, q8⟩ := q6 hz
  refine ⟨pr, q7, ?_⟩
  unfold plonkVerify
  rw [hvk.n, hD.self, ok_bind]
  exact q8

end Plonk

/-- How often it works. With room for the domain of eight times the size in the field, enough powers
in the commitment key and no row twice in the table, preprocessing succeeds on both sides; and for
all but few values of each challenge (the others may be anything) the prover returns a proof and the
verifier accepts it. `n` is the size of the domain. -/
theorem C105_succeeds {R : FieldRep F} {K : PField F} {E : EdCurve F} {P : PCS F} {d : ℕ}
    (hK : PFieldOk K) (hP : PcsComplete P d) {c cv : Composer F} (hc : Reach R E c)
    (hs : OwnSat E c) (hd : circuitBound c ≤ d)
    (h8 : Nat.clog 2 (8 * circuitBound c) ≤ K.fft.twoAdicity) (hT : c.lookup_table.Nodup)
    (hrv : Reach R E cv) (hcv : SameCircuit cv c) {tr : Transcript F P.Comm} (htr : tr.countP isChal = 0)
    (r1 r2 : F × F × F × F) :
    ∃ v : Verifier P, Verifier.preprocess K (P := P) ⟨none, cv, tr⟩ = .ok v ∧
      Mostly (3 * c.lookup_table.length ^ 2 + 2) fun zeta : F =>
      ∀ beta, Mostly (4 * circuitBound c + 1) fun gamma : F =>
      Mostly 3 fun delta : F => Mostly (2 * circuitBound c + 3) fun epsilon : F =>
      ∀ alpha range logic fixed var lookup, Mostly (circuitBound c) fun z : F => ∀ aw saw,
        let ro : Transcript F P.Comm → F := coins [zeta, beta, gamma, delta, epsilon, alpha, range,
          logic, fixed, var, lookup, z, aw, saw]
        ∃ pr s, Prover.prove K E ro ⟨none, c, tr⟩ r1 r2 = .ok (pr, s) ∧
          v.verify K E ro pr c.public_inputs = .ok () := by
  have hw := Reach.wf hc
  obtain ⟨D, D8, hD, hD8⟩ := domains_run hK h8
  obtain ⟨rp, hp⟩ := preprocessProver_run hP hw hD hD8 (by rw [hD.eq]; exact hd) tr
  obtain ⟨rv, hv⟩ := preprocessVerifier_run hP (Reach.wf hrv) (hD.same hcv.symm)
    (by rw [hD.eq]; exact hd) tr
  obtain ⟨c', pk, trp⟩ := rp
  obtain ⟨cv', vk, trv⟩ := rv
  obtain ⟨D', D8', vk', a1, -, -, a4, e1, e2⟩ := preprocessProver_inv hK (SameCircuit.refl c) hp
  obtain ⟨D'', sel, sig, tab, b1, b2, e3, e4⟩ := preprocessVerifier_inv hK hcv hv
  obtain rfl := a1.uniq b1
  obtain ⟨-, -, -, e5⟩ := a4.uniq b2
  have e6 : trp = trv := by rw [e2, e4, e5]
  subst e6
  refine ⟨⟨some vk, _, trp⟩, by unfold Verifier.preprocess; rw [hv]; rfl, ?_⟩
  have core := succeeds_core (E := E) hP hc hs hd hT (SameCircuit.refl c) hcv hK hp hv (t0 := trp) (by
    rw [e2]
    simp [seedTranscript, List.countP_append, isChal, htr])
  refine core.mono le_rfl fun zeta k1 beta => (k1 beta).mono le_rfl fun gamma k2 => k2.mono le_rfl
    fun delta k3 => k3.mono le_rfl fun epsilon k4 alpha range logic fixed var lookup =>
    (k4 alpha range logic fixed var lookup).mono le_rfl fun z k5 aw saw => ?_
  intro ro
  obtain ⟨pr, q7, q8⟩ := k5 aw saw
  obtain ⟨cn, hcn', -⟩ := newComposer_ok (F := F) r1 r2
  refine ⟨pr, ⟨some pk, cn, trp⟩, ?_, q8⟩
  unfold Prover.prove
  simp only [hp, ok_bind, pure, Except.pure]
  rw [e1, prove_pad a1 hw hs, q7]
  simp only [ok_bind, hcn', liftP]

/-- The hypotheses can be met: a circuit with a table, a lookup and a public input, a verifier with
other values, an ideal commitment scheme and a small field. -/
example : PFieldOk pf7681 ∧ Nonempty (PcsComplete (idealPcs K7681 8) 8) ∧
    Reach R7681 E7681 (exC 1 2) ∧ OwnSat E7681 (exC 1 2) ∧ circuitBound (exC 1 2) ≤ 8 ∧
    Nat.clog 2 (8 * circuitBound (exC 1 2)) ≤ pf7681.fft.twoAdicity ∧
    (exC 1 2).lookup_table.Nodup ∧ Reach R7681 E7681 (exC 0 0) ∧
    SameCircuit (exC 0 0) (exC 1 2) ∧ exC 0 0 ≠ exC 1 2 := by
  obtain ⟨-, h2, -, h4⟩ := exC_size
  refine ⟨pf7681_ok, ⟨ideal_complete 8⟩, (exC_facts 1 2).1, (exC_facts 1 2).2 rfl rfl, by rw [h4],
    ?_, ?_, (exC_facts 0 0).1, exC_same, by decide +kernel⟩
  · rw [h4]; decide +kernel
  · rw [h2]; decide +kernel

/-- So there is an honest run, for instance with these challenges. -/
example : ∃ (v : Verifier (idealPcs K7681 8)) (pr : PlonkProof (idealPcs K7681 8)) (l : List K7681)
    (s : Prover (idealPcs K7681 8)),
    Verifier.preprocess pf7681 ⟨none, exC 0 0, [.init "plonk"]⟩ = .ok v ∧
    Prover.prove pf7681 E7681 (coins l) ⟨none, exC 1 2, [.init "plonk"]⟩ (1, 2, 3, 4) (5, 6, 7, 8)
      = .ok (pr, s) ∧ v.verify pf7681 E7681 (coins l) pr [(5, 2)] = .ok () := by
  obtain ⟨-, h2, h3, h4⟩ := exC_size
  have pick : ∀ {k : ℕ} {p : K7681 → Prop}, k < 7681 → Mostly k p → ∃ x, p x := by
    rintro k p hk ⟨bad, b1, b2⟩
    by_contra hc
    push Not at hc
    have : Finset.univ ⊆ bad := fun x _ => by
      by_contra hx
      exact hc x (b2 x hx)
    have := Finset.card_le_card this
    rw [Finset.card_univ, ZMod.card] at this
    omega
  obtain ⟨v, hv, h⟩ := C105_succeeds pf7681_ok (ideal_complete (F := K7681) 8) (exC_facts 1 2).1
    ((exC_facts 1 2).2 rfl rfl) (by rw [h4]) (by rw [h4]; decide +kernel) (by rw [h2]; decide +kernel)
    (exC_facts 0 0).1 exC_same (tr := [.init "plonk"]) rfl (1, 2, 3, 4) (5, 6, 7, 8)
  rw [h2, h4] at h
  obtain ⟨zeta, h⟩ := pick (by decide) h
  obtain ⟨gamma, h⟩ := pick (by decide) (h 0)
  obtain ⟨delta, h⟩ := pick (by decide) h
  obtain ⟨epsilon, h⟩ := pick (by decide) h
  obtain ⟨z, h⟩ := pick (by decide) (h 0 0 0 0 0 0)
  obtain ⟨pr, s, hp, hw⟩ := h 0 0
  rw [h3] at hw
  exact ⟨v, pr, _, s, hv, hp, hw⟩

end VO
