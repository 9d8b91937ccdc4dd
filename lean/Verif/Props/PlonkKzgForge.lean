import Verif.Props.PlonkKzgCircuit
import Verif.Props.PlonkForge

/-
C150: the conditions of C149 are needed: forgers against the PLONK verifier on KZG commitments.
-/

set_option linter.unusedSectionVars false

namespace VO

open VO.Plonk VO.Spec VO.Spec.Plonk Polynomial

variable {F : Type} [Field F] [DecidableEq F] [Fintype F] {G1 G2 GT : Type} [AddCommGroup G1]
  [Module F G1] [AddCommGroup G2] [Module F G2] [AddCommGroup GT] [Module F GT]

namespace Plonk

/-- Selector values that are right for the ideal key are values of the columns. -/
theorem right_of_honest {K : PField F} {c : Composer F} (hw : WF c) {Dm : Dom F} (hD : CDom K c Dm)
    {d : ℕ} {sel : Gate (List F)} {sig tab : Quad F} {vkI : VKey (idealPcs F d)}
    (hp : PreOk (idealPcs F d) c Dm sel sig tab vkI) {ev : Evals F} {z : F}
    (h : HonestSelectors (ideal_sound d) vkI ev z) : SelectorsRight Dm.size Dm.omega c ev z := by
  have hx := ext_sel (ideal_sound d) hp
  rw [hp.selEq] at hx
  obtain ⟨d1, d2, d3, d4, d5, d6, d7, d8, d9, d10, d11, d12, d13, d14, d15⟩ := selector_degree hD hw
  have hr := fun i (hi : i < Dm.size) => selector_rows hD hw hi
  have x1 := congrArg Gate.arith hx
  have x2 := congrArg Gate.l hx
  have x3 := congrArg Gate.r hx
  have x4 := congrArg Gate.c hx
  simp only [Gate.map] at x1 x2 x3 x4
  obtain ⟨a1, a2, a3, a4⟩ := h
  rw [x1] at a1
  rw [x2] at a2
  rw [x3] at a3
  rw [x4] at a4
  intro x hx
  simp only [List.mem_cons, List.not_mem_nil, or_false] at hx
  rcases hx with rfl | rfl | rfl | rfl
  · exact ⟨_, d10, fun i hi => congrArg Gate.arith (hr i hi), a1⟩
  · exact ⟨_, d2, fun i hi => congrArg Gate.l (hr i hi), a2⟩
  · exact ⟨_, d3, fun i hi => congrArg Gate.r (hr i hi), a3⟩
  · exact ⟨_, d6, fun i hi => congrArg Gate.c (hr i hi), a4⟩

/-- Right values have a quotient. -/
theorem combP_quot {D : ℕ} {l : List (F[X] × F)} (hl : ∀ p ∈ l, p.1.natDegree ≤ D) {x : F}
    (h : ∀ p ∈ l, p.1.eval x = p.2) (ξ : F) :
    ∃ o : F[X], o.natDegree ≤ D ∧ combP ξ l - o * (X - C x) = 0 := by
  have h0 : (combP ξ l).eval x = 0 := by
    rw [combP_eval]
    have : (l.map fun p => p.1.eval x - p.2) = List.replicate l.length 0 := by
      rw [List.eq_replicate_iff]
      refine ⟨by simp, fun b hb => ?_⟩
      obtain ⟨p, hp, rfl⟩ := List.mem_map.1 hb
      rw [h p hp, sub_self]
    rw [this]
    have hz : ∀ n, polyOf (List.replicate n (0 : F)) = 0 := by
      intro n
      induction n with
      | zero => simp [polyOf]
      | succ n ih => rw [List.replicate_succ, polyOf_cons, ih]; simp
    rw [hz]
    simp
  refine ⟨combP ξ l /ₘ (X - C x), ?_, ?_⟩
  · rw [natDegree_divByMonic _ (monic_X_sub_C x)]
    exact (Nat.sub_le _ _).trans (combP_degree ξ hl)
  · have := mul_divByMonic_eq_iff_isRoot.2 h0
    rw [mul_comm, this, sub_self]

/-- Acceptance on ideal commitments gives openings that are accepted on KZG, for every secret. -/
theorem kzg_transfer {K : PField F} {E : EdCurve F} (hK : PFieldOk K) {c : Composer F} (hw : WF c)
    {Dm : Dom F} (hD : CDom K c Dm) (e : G1 →ₗ[F] G2 →ₗ[F] GT) {g : G1} {h : G2} (hg : g ≠ 0)
    (hh : NonDegenerate e h) {D : ℕ} (hd : Dm.size ≤ D + 1) {tr : Transcript F G1}
    (htr : tr.countP isChal = 0) {pi : List (ℕ × F)} {vI : Verifier (idealPcs F (D + 1))}
    (hI : Verifier.preprocess K (P := idealPcs F (D + 1)) ⟨none, c, []⟩ = .ok vI)
    {zeta beta gamma delta epsilon alpha range logic fixed var lookup zz aw saw : F}
    {p : PlonkProof (idealPcs F (D + 1))}
    (hok : vI.verify K E (coins [zeta, beta, gamma, delta, epsilon, alpha, range, logic, fixed, var,
      lookup, zz, aw, saw]) p pi = .ok ()) :
    ∃ o : F[X] × F[X], o.1.natDegree ≤ D ∧ o.2.natDegree ≤ D ∧ ∀ τ,
      ∃ v : Verifier (kzgPcs e g h D τ),
        Verifier.preprocess K (P := kzgPcs e g h D τ) ⟨none, c, tr⟩ = .ok v ∧
        v.verify K E (coins [zeta, beta, gamma, delta, epsilon, alpha, range, logic, fixed, var, lookup,
          zz, aw, saw]) (kzgProof e g h D τ p o.1 o.2) pi = .ok () := by
  obtain ⟨Dm', sel, sig, tab, vkI, hD', hpI, e1, e2⟩ := verifier_inv hK hI
  obtain rfl := hD.uniq hD'
  set ch : Chals F := ⟨zeta, beta, gamma, delta, epsilon, alpha, range, logic, fixed,
    var, lookup, zz, aw, saw⟩ with hch
  unfold Verifier.verify at hok
  rw [e1] at hok
  simp only [plonkVerify, hpI.n, hD.self, ok_bind] at hok
  rw [coins_chals (by rw [e2]; exact seed_count _ (by simp)) pi _ ch, verifyWith_iff] at hok
  obtain ⟨l1, pe, q, v', aN, bN, dN, hpre, k1, k2⟩ := hok
  have k1' := idealCheck_polys.1 k1
  have k2' := idealCheck_polys.1 k2
  have hdeg : ∀ l : List ((idealPcs F (D + 1)).Comm × F), ∀ x ∈ polys l, x.1.natDegree ≤ D := by
    intro l x hx
    obtain ⟨y, -, rfl⟩ := List.mem_map.1 hx
    exact degree_lt_succ.1 (mem_degreeLT.1 (y.1 : BPoly F (D + 1)).2)
  obtain ⟨o1, d1, q1⟩ := combP_quot (hdeg _) k1' aw
  obtain ⟨o2, d2, q2⟩ := combP_quot (hdeg _) k2' saw
  refine ⟨(o1, o2), d1, d2, fun τ => ?_⟩
  obtain ⟨⟨c1, vk, sel1, sig1, D1, tab1, t⟩, hsh⟩ := preprocessShared_run
    (kzg_complete e hg hh D τ) hw hD hd tr
  obtain ⟨v, hv⟩ : ∃ v, Verifier.preprocess K (P := kzgPcs e g h D τ) ⟨none, c, tr⟩ = .ok v := by
    unfold Verifier.preprocess preprocessVerifier
    rw [hsh]
    exact ⟨_, rfl⟩
  refine ⟨v, hv, ?_⟩
  obtain ⟨Dk, selk, sigk, tabk, vkk, hDk, hpk, f1, f2⟩ := verifier_inv hK hv
  obtain rfl := hD.uniq hDk
  have hm := vkMap_pre hw hD hg hh hd hpk hpI
  unfold Verifier.verify
  rw [f1]
  simp only [plonkVerify, hpk.n, hD.self, ok_bind]
  rw [coins_chals (by rw [f2]; exact seed_count _ htr) pi _ ch, verifyWith_iff]
  refine ⟨l1, pe, q, v', aN, bN, dN, hpre, ?_, ?_⟩
  · rw [open1_map hm]
    exact (check_map hg hh).2 (by rw [q1]; simp)
  · rw [open2_map hm]
    exact (check_map hg hh).2 (by rw [q2]; simp)

theorem exists_pick {α β : Type} [Nonempty β] (G : α → β → Prop) :
    ∃ f : α → β, ∀ a, (∃ b, G a b) → G a (f a) :=
  ⟨fun a => Classical.epsilon (G a), fun _ h => Classical.epsilon_spec h⟩

theorem exists_pick2 {α β : Type} (B : β → Prop) (b0 : β) (h0 : B b0) (G : α → β → Prop) :
    ∃ f : α → β, (∀ a, B (f a)) ∧ ∀ a, (∃ b, B b ∧ G a b) → G a (f a) := by
  have : ∀ a, ∃ b, B b ∧ ((∃ b, B b ∧ G a b) → G a b) := by
    intro a
    by_cases h : ∃ b, B b ∧ G a b
    · obtain ⟨b, hb, hG⟩ := h
      exact ⟨b, hb, fun _ => hG⟩
    · exact ⟨b0, h0, fun h' => absurd h' h⟩
  choose f hf using this
  exact ⟨f, fun a => (hf a).1, fun a => (hf a).2⟩

/-- The verifier of the ideal scheme. -/
theorem ideal_verifier {K : PField F} (hK : PFieldOk K) {c : Composer F} (hw : WF c) {D : ℕ}
    (hroom : Nat.clog 2 (circuitBound c) ≤ K.fft.twoAdicity) (hd : circuitBound c ≤ D + 1) :
    ∃ Dm vI vkI sel sig tab, CDom K c Dm ∧ Dm.size = circuitBound c ∧
      Dm.omega = K.fft.root (Nat.clog 2 (circuitBound c)) ∧
      Verifier.preprocess K (P := idealPcs F (D + 1)) ⟨none, c, []⟩ = .ok vI ∧ vI.key = some vkI ∧
      PreOk (idealPcs F (D + 1)) c Dm sel sig tab vkI := by
  have hD := cdom_new hK (newDom_run hroom)
  obtain ⟨-, hDe⟩ := newDom_inv hD.self
  obtain ⟨⟨c1, vkI, sel, sig, D1, tab, t⟩, hsh⟩ := preprocessShared_run
    (ideal_complete (F := F) (D + 1)) hw hD (by rw [hD.eq]; exact hd) []
  obtain ⟨b1', -, hpk, -⟩ := preprocessShared_inv hK hsh
  obtain rfl := hD.uniq b1'
  refine ⟨_, ⟨some vkI, c1, t⟩, vkI, sel, sig, tab, hD, hD.eq, rfl, ?_, rfl, hpk⟩
  unfold Verifier.preprocess preprocessVerifier
  rw [hsh]
  rfl

end Plonk

/-- **C150 (selector).** The verifier does not check the values of four selectors. On KZG commitments there
is, for every circuit and all public inputs, a prover that commits to the constant `1` for the left wire and
to zero for all other polynomials, and is accepted except with probability `(7D + 15) / |F|` over the
challenges, whatever the secret of the key is. -/
theorem C150_selector {R : FieldRep F} {K : PField F} {E : EdCurve F} {n D : ℕ} (hK : PFieldOk K)
    {c : Composer F} (hc : Reach R E c) (hn : n = circuitBound c) (hd : n ≤ D + 1)
    (hroom : Nat.clog 2 n ≤ K.fft.twoAdicity)
    {tr : Transcript F G1} (htr : tr.countP isChal = 0) {pi : List (ℕ × F)}
    (hpi : pi.Pairwise fun a b => a.1 < b.1) (hpos : ∀ e ∈ pi, e.1 < n)
    (e : G1 →ₗ[F] G2 →ₗ[F] GT) {g : G1} {h : G2} (hg : g ≠ 0) (hh : NonDegenerate e h) :
    ∃ (ev : List F → Evals F) (o1 o2 : PolyMove F),
      let s : KzgStrategy F := ⟨1, 0, 0, 0, 0, 0, 0, 0, 0, 0, ev, o1, o2⟩
      s.Bounded D ∧ ∀ τ, Odds F (7 * D + 15)
        fun t : F × F × F × F × F × F × F × F × F × F × F × F × F × F =>
        let (zeta, beta, gamma, delta, epsilon, alpha, range, logic, fixed, var, lookup, zz, aw, saw) := t
        ¬ ∃ v : Verifier (kzgPcs e g h D τ),
          Verifier.preprocess K (P := kzgPcs e g h D τ) ⟨none, c, tr⟩ = .ok v ∧
          v.verify K E (coins [zeta, beta, gamma, delta, epsilon, alpha, range, logic, fixed, var, lookup,
            zz, aw, saw]) (s.proof e g h D τ zeta beta gamma delta epsilon alpha range logic fixed var
            lookup zz aw saw) pi = .ok () := by
  have hw := Reach.wf hc
  rw [hn] at hd hroom hpos
  obtain ⟨Dm, vI, vkI, sel, sig, tab, hD, hs, ho, hI, hvI, hpI⟩ := ideal_verifier hK hw hroom hd
  have key := C108_every_statement (E := E) hK (ideal_complete (F := F) (D + 1)) hc hd
    (tr := []) (by simp) hI hpi hpos
  set one : (idealPcs F (D + 1)).Comm := (ideal_complete (F := F) (D + 1)).rep 1 with hone
  set zero : (idealPcs F (D + 1)).Comm := (ideal_complete (F := F) (D + 1)).rep 0 with hzero
  have : Nonempty (Evals F) := ⟨⟨⟨0, 0, 0, 0⟩, 0, 0, 0, 0, 0, 0, 0, 0, 0, 0, 0, 0, []⟩⟩
  obtain ⟨ev, hev⟩ := exists_pick (fun (l : List F) (ev : Evals F) => ∀ aw saw, ∃ o1 o2,
    vI.verify K E (coins (l ++ [aw, saw]))
      ⟨one, zero, zero, zero, zero, zero, zero, zero, zero, fun _ => zero, o1, o2, ev⟩ pi = .ok ())
  let pI : List F → PlonkProof (idealPcs F (D + 1)) := fun l =>
    ⟨one, zero, zero, zero, zero, zero, zero, zero, zero, fun _ => zero, (), (), ev l⟩
  obtain ⟨o, hob, hoo⟩ := exists_pick2 (fun o : F[X] × F[X] => o.1.natDegree ≤ D ∧ o.2.natDegree ≤ D)
    (0, 0) (by simp) (fun (l : List F) (o : F[X] × F[X]) => ∀ τ, ∃ v : Verifier (kzgPcs e g h D τ),
        Verifier.preprocess K (P := kzgPcs e g h D τ) ⟨none, c, tr⟩ = .ok v ∧
        v.verify K E (coins l) (kzgProof e g h D τ (pI (l.take 12)) o.1 o.2) pi = .ok ())
  refine ⟨ev, fun l => (o l).1, fun l => (o l).2, ?_, fun τ => ?_⟩
  · exact ⟨by simp, by simp, by simp, by simp, fun _ => by simp, fun _ => by simp, fun _ => by simp,
      fun _ => by simp, fun _ => by simp, fun _ _ => by simp, fun l => (hob l).1, fun l => (hob l).2⟩
  · refine Odds.mono (k := 2 + (1 + (2 + (3 + (7 * (D + 1) + 0))))) ?_ (by omega) (fun _ h => h)
    refine key.odds fun zeta k => Odds.skip fun beta => (k beta).odds fun gamma k => k.odds fun delta k =>
      k.odds fun epsilon k => Odds.skip fun alpha => Odds.skip fun range => Odds.skip fun logic =>
      Odds.skip fun fixed => Odds.skip fun var => Odds.skip fun lookup =>
      (k alpha range logic fixed var lookup).odds fun zz k => odds_none ?_
    rintro ⟨aw, saw⟩ hno
    apply hno
    have h1 := hev [zeta, beta, gamma, delta, epsilon, alpha, range, logic, fixed, var, lookup, zz] k aw saw
    obtain ⟨u1, u2, h1⟩ := h1
    have h2 := kzg_transfer hK hw hD e hg hh (by rw [hs]; exact hd) htr hI h1
    obtain ⟨o', b1, b2, h2⟩ := h2
    obtain ⟨v, hv, hok⟩ := hoo [zeta, beta, gamma, delta, epsilon, alpha, range, logic, fixed, var, lookup,
      zz, aw, saw] ⟨o', ⟨b1, b2⟩, h2⟩ τ
    refine ⟨v, hv, ?_⟩
    have e1 : kzgOf e g h D τ one = ((1 : F[X]).eval τ • g : G1) := kzgOf_rep (by simp)
    have e0 : kzgOf e g h D τ zero = ((0 : F[X]).eval τ • g : G1) := kzgOf_rep (by simp)
    unfold kzgProof at hok
    simp only [pI, e1, e0] at hok
    exact hok

/-- **C150 (accumulator).** The commitment to the accumulator of the lookups enters no challenge. On KZG
commitments, for every circuit and all public inputs: whatever all the other polynomials are that a prover
sends, there is an accumulator chosen after the evaluation point, with right values of the selectors, such
that the proof is accepted except with probability `(4D + 16) / |F|` over the challenges, whatever the
secret of the key is. -/
theorem C150_accumulator {R : FieldRep F} {K : PField F} {E : EdCurve F} {n D : ℕ} (hK : PFieldOk K)
    {c : Composer F} (hc : Reach R E c) (hn : n = circuitBound c) (hd : n ≤ D + 1)
    (hroom : Nat.clog 2 n ≤ K.fft.twoAdicity)
    {tr : Transcript F G1} (htr : tr.countP isChal = 0) {pi : List (ℕ × F)}
    (hpi : pi.Pairwise fun a b => a.1 < b.1) (hpos : ∀ e ∈ pi, e.1 < n)
    (e : G1 →ₗ[F] G2 →ₗ[F] GT) {g : G1} {h : G2} (hg : g ≠ 0) (hh : NonDegenerate e h)
    (s0 : KzgStrategy F) (hs0 : s0.Bounded D) :
    ∃ (z2 : PolyMove F) (ev : List F → Evals F) (o1 o2 : PolyMove F), z2.Bounded D ∧
      let s : KzgStrategy F := { s0 with ev := ev, o1 := o1, o2 := o2 }
      s.Bounded D ∧ ∀ τ, Odds F (4 * D + 16)
        fun t : F × F × F × F × F × F × F × F × F × F × F × F × F × F =>
        let (zeta, beta, gamma, delta, epsilon, alpha, range, logic, fixed, var, lookup, zz, aw, saw) := t
        let π := s.lateProof z2 e g h D τ zeta beta gamma delta epsilon alpha range logic fixed var lookup
          zz aw saw
        ¬ (SelectorsRight n (K.fft.root (Nat.clog 2 n)) c π.ev zz ∧
          ∃ v : Verifier (kzgPcs e g h D τ),
          Verifier.preprocess K (P := kzgPcs e g h D τ) ⟨none, c, tr⟩ = .ok v ∧
          v.verify K E (coins [zeta, beta, gamma, delta, epsilon, alpha, range, logic, fixed, var, lookup,
            zz, aw, saw]) π pi = .ok ()) := by
  have hw := Reach.wf hc
  subst hn
  obtain ⟨Dm, vI, vkI, sel, sig, tab, hD, hs, ho, hI, hvI, hpI⟩ := ideal_verifier hK hw hroom hd
  have lt : ∀ {p : F[X]}, p.natDegree ≤ D → p.degree < ((D + 1 : ℕ) : WithBot ℕ) := fun hp =>
    degree_lt_succ.2 hp
  have key := C107_late_accumulator (E := E) hK (ideal_complete (F := F) (D + 1)) hc hd
    (tr := []) (by simp) hI hvI hpi hpos s0.wa s0.wb s0.wc s0.wd (by
      simp only [List.mem_cons, List.not_mem_nil, or_false]
      rintro p (rfl | rfl | rfl | rfl)
      exacts [lt hs0.wa, lt hs0.wb, lt hs0.wc, lt hs0.wd])
  set rep : F[X] → (idealPcs F (D + 1)).Comm := (ideal_complete (F := F) (D + 1)).rep with hrep
  let pr : List F → F[X] → Evals F → PlonkProof (idealPcs F (D + 1)) := fun l z2 ev =>
    ⟨rep s0.wa, rep s0.wb, rep s0.wc, rep s0.wd, rep (s0.z (l.take 5)), rep (s0.f (l.take 1)),
      rep (s0.h1 (l.take 1)), rep (s0.h2 (l.take 1)), rep z2, fun k => rep (s0.t k (l.take 11)), (), (), ev⟩
  obtain ⟨ze, hzb, hze⟩ := exists_pick2 (fun o : F[X] × Evals F => o.1.natDegree ≤ D)
    (0, s0.ev []) (by simp) (fun (l : List F) (o : F[X] × Evals F) =>
      HonestSelectors (ideal_sound (D + 1)) vkI o.2 (l.getD 11 0) ∧
      ∀ aw saw, vI.verify K E (coins (l ++ [aw, saw])) (pr l o.1 o.2) pi = .ok ())
  let pI : List F → PlonkProof (idealPcs F (D + 1)) := fun l => pr l (ze l).1 (ze l).2
  obtain ⟨o, hob, hoo⟩ := exists_pick2 (fun o : F[X] × F[X] => o.1.natDegree ≤ D ∧ o.2.natDegree ≤ D)
    (0, 0) (by simp) (fun (l : List F) (o : F[X] × F[X]) => ∀ τ, ∃ v : Verifier (kzgPcs e g h D τ),
        Verifier.preprocess K (P := kzgPcs e g h D τ) ⟨none, c, tr⟩ = .ok v ∧
        v.verify K E (coins l) (kzgProof e g h D τ (pI (l.take 12)) o.1 o.2) pi = .ok ())
  refine ⟨fun l => (ze l).1, fun l => (ze l).2, fun l => (o l).1, fun l => (o l).2, fun l => hzb l, ?_,
    fun τ => ?_⟩
  · exact ⟨hs0.wa, hs0.wb, hs0.wc, hs0.wd, hs0.f, hs0.h1, hs0.h2, hs0.z, hs0.z2, hs0.t,
      fun l => (hob l).1, fun l => (hob l).2⟩
  · refine Odds.mono (k := 2 + (1 + (3 + (5 + (1 + (4 * (D + 1) + 0)))))) ?_ (by omega) (fun _ h => h)
    refine key.odds fun zeta k => Odds.skip fun beta => (k (s0.f [zeta]) (s0.h1 [zeta]) (s0.h2 [zeta]) (by
      simp only [List.mem_cons, List.not_mem_nil, or_false]
      rintro p (rfl | rfl | rfl)
      exacts [lt (hs0.f _), lt (hs0.h1 _), lt (hs0.h2 _)]) beta).odds fun gamma k => k.odds fun delta k =>
      k.odds fun epsilon k => Odds.skip fun alpha => Odds.skip fun range => Odds.skip fun logic =>
      Odds.skip fun fixed => Odds.skip fun var =>
      (k (s0.z [zeta, beta, gamma, delta, epsilon]) (lt (hs0.z _)) alpha range logic fixed var).odds
      fun lookup k => (k (fun k => s0.t k [zeta, beta, gamma, delta, epsilon, alpha, range, logic, fixed,
        var, lookup]) fun k => lt (hs0.t k _)).odds fun zz k => odds_none ?_
    rintro ⟨aw, saw⟩ hno
    apply hno
    obtain ⟨z2, ev, hz2, hsel, hacc⟩ := k
    obtain ⟨g1, g2⟩ := hze [zeta, beta, gamma, delta, epsilon, alpha, range, logic, fixed, var, lookup, zz]
      ⟨(z2, ev), degree_lt_succ.1 hz2, hsel _, fun aw saw => by
        obtain ⟨u1, u2, h⟩ := hacc aw saw
        exact h⟩
    have hr := right_of_honest hw hD hpI g1
    rw [hs, ho] at hr
    refine ⟨hr, ?_⟩
    have h2 := kzg_transfer hK hw hD e hg hh (by rw [hs]; exact hd) htr hI (g2 aw saw)
    obtain ⟨o', b1, b2, h2⟩ := h2
    obtain ⟨v, hv, hok⟩ := hoo [zeta, beta, gamma, delta, epsilon, alpha, range, logic, fixed, var, lookup,
      zz, aw, saw] ⟨o', ⟨b1, b2⟩, h2⟩ τ
    refine ⟨v, hv, ?_⟩
    have er : ∀ {p : F[X]}, p.natDegree ≤ D → kzgOf e g h D τ (rep p) = (p.eval τ • g : G1) := fun hp =>
      kzgOf_rep hp
    unfold kzgProof at hok
    simp only [pI, pr, er hs0.wa, er hs0.wb, er hs0.wc, er hs0.wd, er (hs0.z _), er (hs0.f _),
      er (hs0.h1 _), er (hs0.h2 _), er (hs0.t _ _), er (hzb _)] at hok
    exact hok

/-- **C150 (circuits).** The same against `verify_proof` with the key that `compile` returned, for every
circuit and all public inputs. -/
theorem C150_circuit {R : FieldRep F} {K : PField F} {E : EdCurve F} {n D : ℕ} (hK : PFieldOk K)
    {C : Circ F} (hC : Builds R E C) {rp rv rn : (F × F × F × F) × (F × F × F × F)} {c : Composer F}
    (hc : Filled C rv c) (hn : n = circuitBound c) (hd : n ≤ D)
    (hroom : Nat.clog 2 n ≤ K.fft.twoAdicity) (label : String)
    {pi : List (ℕ × F)} (hpi : Canonical pi) (hpos : ∀ e ∈ pi, e.1 < n)
    (e : G1 →ₗ[F] G2 →ₗ[F] GT) {g : G1} {h : G2} (hg : g ≠ 0) (hh : NonDegenerate e h) :
    ∃ (ev : List F → Evals F) (o1 o2 : PolyMove F),
      let s : KzgStrategy F := ⟨1, 0, 0, 0, 0, 0, 0, 0, 0, 0, ev, o1, o2⟩
      s.Bounded D ∧ ∀ τ pk vk pos, circuitCompile K (kzgPcs e g h D τ) D C rp rv = .ok (pk, vk, pos) →
        Odds F (7 * D + 15)
        fun t : F × F × F × F × F × F × F × F × F × F × F × F × F × F =>
        let (zeta, beta, gamma, delta, epsilon, alpha, range, logic, fixed, var, lookup, zz, aw, saw) := t
        circuitVerify K E (kzgPcs e g h D τ) (coins [zeta, beta, gamma, delta, epsilon, alpha, range,
          logic, fixed, var, lookup, zz, aw, saw]) D vk ((s.proof e g h D τ zeta beta gamma delta epsilon
          alpha range logic fixed var lookup zz aw saw).trim C.size) pi label rn ≠ .ok () := by
  have hr := hc.reach hC
  obtain ⟨ev, o1, o2, hb, key⟩ := C150_selector (D := D) (E := E) hK hr hn (by omega) hroom (tr := [.init label]) rfl
    hpi.1 hpos e hg hh
  refine ⟨ev, o1, o2, hb, fun τ pk vk pos hcomp => (key τ).mono le_rfl ?_⟩
  rintro ⟨zeta, beta, gamma, delta, epsilon, alpha, range, logic, fixed, var, lookup, zz, aw, saw⟩ hno
    ⟨v, hv, hok⟩
  apply hno
  obtain ⟨-, cp, cv, cp', cv', trp, trv, f1, f2, h1, h2, rfl⟩ := compile_inv hcomp
  obtain rfl := f2.uniq hc
  obtain ⟨Dm, sel, sig, tab, b1, b2, -, -⟩ := preprocessVerifier_inv hK (SameCircuit.refl cv) h2
  obtain ⟨Dk, selk, sigk, tabk, vkk, hDk, hpk, g1, g2⟩ := verifier_inv hK hv
  obtain rfl := b1.uniq hDk
  obtain ⟨-, -, -, rfl⟩ := b2.trim.uniq hpk
  have hm' : 2 ^ Nat.clog 2 vk.n ≤ D := by
    rw [b2.n, b1.eq, circuitBound, Nat.clog_pow _ _ (by norm_num)]
    rw [hn] at hd
    exact hd
  rw [circuitVerify_eq hm']
  refine (plonkVerify_trim (P := kzgPcs e g h D τ) vk _ pi _).trans ?_
  unfold Verifier.verify at hok
  rw [g1] at hok
  exact (coins_verify (P := kzgPcs e g h D τ) (tr := [.init label]) rfl (by rw [g2]; exact seed_count _ rfl) _
    pi _ ⟨zeta, beta, gamma, delta, epsilon, alpha, range, logic, fixed, var, lookup, zz, aw, saw⟩).trans hok

/-- For the example simple_circuit.rs: all public inputs are accepted, except with probability
`(7D + 15) / |F|`. (Compare `C149_simple_circuit`.) -/
theorem C150_simple_circuit {Q : Type} [Field Q] {S : PrimeRep Q} {T : PrimeRep F} {R : FieldRep F}
    {E : EdCurve F} {gen : F × F} {kA kB D : ℕ} {PF : PField F} (hK : PFieldOk PF)
    (h9 : 9 ≤ PF.fft.twoAdicity) (hS : PrimeOk S) (hT : PrimeOk T)
    (hST : S.modulus ≤ T.modulus) (hR : R = T.fieldRep) (h3 : 3 * S.modulus ≤ 2 ^ (R.modBits + 1))
    (hgen : E.check gen = true) (hb : 238 ≤ R.modBits ∧ R.modBits ≤ 256)
    (hA : kA % 2 = 0 ∧ 0 < kA ∧ kA ≤ 64) (hB : kB % 2 = 0 ∧ 0 < kB ∧ kB ≤ 64) (hd : 512 ≤ D)
    (t0 : SimpleValues F Q) (rp rv rn : (F × F × F × F) × (F × F × F × F))
    (label : String) {pi : List (ℕ × F)} (hpi : Canonical pi)
    (hpos : ∀ e ∈ pi, e.1 ∈ simplePos R kA kB)
    (e : G1 →ₗ[F] G2 →ₗ[F] GT) {g : G1} {h : G2} (hg : g ≠ 0) (hh : NonDegenerate e h) :
    ∃ s : KzgStrategy F, s.Bounded D ∧ ∀ τ pk vk pos,
      circuitCompile PF (kzgPcs e g h D τ) D (simpleCirc S T R E gen kA kB t0) rp rv = .ok (pk, vk, pos) →
      Odds F (7 * D + 15)
        fun t : F × F × F × F × F × F × F × F × F × F × F × F × F × F =>
        let (zeta, beta, gamma, delta, epsilon, alpha, range, logic, fixed, var, lookup, zz, aw, saw) := t
        circuitVerify PF E (kzgPcs e g h D τ) (coins [zeta, beta, gamma, delta, epsilon, alpha, range,
          logic, fixed, var, lookup, zz, aw, saw]) D vk ((s.proof e g h D τ zeta beta gamma delta epsilon
          alpha range logic fixed var lookup zz aw saw).trim (2 ^ 9)) pi label rn ≠ .ok () := by
  have hbig : R.modBits ≤ R.bigBits := by rw [hR]; exact hT.repOk.mod_le
  obtain ⟨c, fc, hn, ht', hp'⟩ := C130_runs (R := R) (E := E) (gen := gen) (kA := kA) (kB := kB) hS hT hST hR h3
    (by omega) ⟨hA.1, hA.2.1, by omega⟩ ⟨hB.1, hB.2.1, by omega⟩ hgen t0 rv
  have hbound := Plonk.simple_bound hA.2 hB.2 hb hn ht'
  have hlog : Nat.clog 2 512 = 9 := by
    rw [show (512 : ℕ) = 2 ^ 9 by norm_num, Nat.clog_pow _ _ (by norm_num)]
  obtain ⟨ev, o1, o2, hbd, key⟩ := C150_circuit (R := R) (E := E) (n := 512) hK
    (C := simpleCirc S T R E gen kA kB t0)
    (fun c x c' => (gadget_builds (simple_same (R := R) (E := E) t0 t0)).1 c x c') (rp := rp) (rn := rn) fc
    hbound.symm (by omega) (by rw [hlog]; exact h9) label hpi (fun x hx => by
      have hq := hpos x hx
      simp only [simplePos, rangeRows, List.mem_cons, List.not_mem_nil, or_false] at hq
      omega) e hg hh
  exact ⟨_, hbd, key⟩

/-- For the small circuit over the field with 7681 elements: with public input `1`, which cannot be
satisfied, the forger is rejected in at most 64 of 7681 cases, for every secret. -/
example : ∃ s : KzgStrategy K7681, s.Bounded 7 ∧ ∀ τ, Odds K7681 64
    fun t : K7681 × K7681 × K7681 × K7681 × K7681 × K7681 × K7681 × K7681 × K7681 × K7681 × K7681 ×
      K7681 × K7681 × K7681 =>
    let (zeta, beta, gamma, delta, epsilon, alpha, range, logic, fixed, var, lookup, zz, aw, saw) := t
    let e := LinearMap.mul K7681 K7681
    ¬ ∃ v : Verifier (kzgPcs e 1 1 7 τ),
      Verifier.preprocess pf7681 (P := kzgPcs e 1 1 7 τ) ⟨none, exC 0 0, [.init "plonk"]⟩ = .ok v ∧
      v.verify pf7681 E7681 (coins [zeta, beta, gamma, delta, epsilon, alpha, range, logic, fixed, var,
        lookup, zz, aw, saw]) (s.proof e 1 1 7 τ zeta beta gamma delta epsilon alpha range logic fixed var
        lookup zz aw saw) [(5, 1)] = .ok () := by
  have hnd : NonDegenerate (LinearMap.mul K7681 K7681) (1 : K7681) := by
    intro x hx
    simpa using hx
  obtain ⟨ev, o1, o2, hb, key⟩ := C150_selector (n := 8) (D := 7) pf7681_ok (exC_facts 0 0).1
    (by decide +kernel) (by norm_num) (by decide +kernel) (tr := [.init "plonk"]) (by decide +kernel)
    (pi := [(5, 1)]) (by simp) (by decide +kernel)
    (LinearMap.mul K7681 K7681) (g := (1 : K7681)) (h := (1 : K7681)) one_ne_zero hnd
  exact ⟨_, hb, key⟩

end VO
