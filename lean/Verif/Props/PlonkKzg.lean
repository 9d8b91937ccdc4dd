import Verif.Lemmas.PlonkKzg2
import Verif.Props.SoundError
import Verif.Props.PlonkErr

/-
C149: PLONK on KZG commitments instead of ideal ones.
-/

set_option linter.unusedSectionVars false

namespace VO

open VO.Plonk VO.Spec VO.Spec.Plonk Polynomial

variable {F : Type} [Field F] [DecidableEq F] [Fintype F] {G1 G2 GT : Type} [AddCommGroup G1]
  [Module F G1] [AddCommGroup G2] [Module F G2] [AddCommGroup GT] [Module F GT]

namespace Plonk

theorem odds_none {T : Type} [Fintype T] {k : ℕ} {Q : T → Prop} (h : ∀ t, ¬ Q t) : Odds F k Q := by
  have : {t | Q t} = ∅ := by ext t; simpa using h t
  unfold Odds
  rw [this]
  simp

/-- The last three draws: the challenges of the openings and the secret. -/
theorem kzg_end {K : PField F} {E : EdCurve F} (hK : PFieldOk K) {c : Composer F} (hw : WF c)
    {Dm : Dom F} (hD : CDom K c Dm) (e : G1 →ₗ[F] G2 →ₗ[F] GT) {g : G1} {h : G2} (hg : g ≠ 0)
    (hh : NonDegenerate e h) {D : ℕ} (hd : Dm.size ≤ D + 1) {tr : Transcript F G1}
    (htr : tr.countP isChal = 0) {pi : List (ℕ × F)} {vI : Verifier (idealPcs F (D + 1))}
    {vkI : VKey (idealPcs F (D + 1))}
    (hI : Verifier.preprocess K (P := idealPcs F (D + 1)) ⟨none, c, []⟩ = .ok vI) (hvI : vI.key = some vkI)
    (zeta beta gamma delta epsilon alpha range logic fixed var lookup zz : F)
    (p : PlonkProof (idealPcs F (D + 1))) (o1 o2 : F → F → F[X]) (h1 : ∀ a b, (o1 a b).natDegree ≤ D)
    (h2 : ∀ a b, (o2 a b).natDegree ≤ D)
    (hno : ∀ aw saw, HonestSelectors (ideal_sound (D + 1)) vkI p.ev zz →
      vI.verify K E (coins [zeta, beta, gamma, delta, epsilon, alpha, range, logic, fixed, var, lookup,
        zz, aw, saw]) p pi ≠ .ok ()) :
    Odds F (10 + (D + 1)) fun t : F × F × F =>
      SelectorsRight Dm.size Dm.omega c p.ev zz ∧
      ∃ v : Verifier (kzgPcs e g h D t.2.2),
        Verifier.preprocess K (P := kzgPcs e g h D t.2.2) ⟨none, c, tr⟩ = .ok v ∧
        v.verify K E (coins [zeta, beta, gamma, delta, epsilon, alpha, range, logic, fixed, var, lookup,
          zz, t.1, t.2.1]) (kzgProof e g h D t.2.2 p (o1 t.1 t.2.1) (o2 t.1 t.2.1)) pi = .ok () := by
  by_cases hsel : SelectorsRight Dm.size Dm.omega c p.ev zz
  swap
  · exact odds_none fun t ht => hsel ht.1
  obtain ⟨Dm', sel, sig, tab, vk', hD', hpI, e1, e2⟩ := verifier_inv hK hI
  obtain rfl := hD.uniq hD'
  obtain rfl : vk' = vkI := by rw [hvI] at e1; simpa using e1.symm
  have hon := honest_of_right hw hD hpI hsel
  set ch : F → F → Chals F := fun a b => ⟨zeta, beta, gamma, delta, epsilon, alpha, range, logic, fixed,
    var, lookup, zz, a, b⟩ with hch
  -- the ideal verifier does not accept
  have hno' : ∀ a b, ¬ verifyWith E (idealPcs F (D + 1)) Dm vk' pi p (ch a b) = .ok () := by
    intro a b hc
    apply hno a b hon
    unfold Verifier.verify
    rw [e1]
    simp only [plonkVerify, hpI.n, hD.self, ok_bind]
    rw [coins_chals (by rw [e2]; exact seed_count _ (by simp)) pi _ (ch a b)]
    exact hc
  -- what acceptance on KZG means
  have hacc : ∀ a b τ, (∃ v : Verifier (kzgPcs e g h D τ),
      Verifier.preprocess K (P := kzgPcs e g h D τ) ⟨none, c, tr⟩ = .ok v ∧
      v.verify K E (coins [zeta, beta, gamma, delta, epsilon, alpha, range, logic, fixed, var, lookup,
        zz, a, b]) (kzgProof e g h D τ p (o1 a b) (o2 a b)) pi = .ok ()) →
      ∃ l1 pe q v aN bN dN, VPre Dm (ch 0 0) pi p.ev l1 pe q v aN bN dN ∧
        (combP a (polys (open1 _ E Dm vk' p (ch 0 0) l1 pe q v)) - o1 a b * (X - C zz)).eval τ = 0 ∧
        (combP b (polys (open2 _ vk' p (ch 0 0) aN bN dN)) - o2 a b * (X - C (zz * Dm.omega))).eval τ = 0 := by
    rintro a b τ ⟨v, hv, hok⟩
    obtain ⟨Dk, selk, sigk, tabk, vkk, hDk, hpk, f1, f2⟩ := verifier_inv hK hv
    obtain rfl := hD.uniq hDk
    have hm := vkMap_pre hw hD hg hh hd hpk hpI
    unfold Verifier.verify at hok
    rw [f1] at hok
    simp only [plonkVerify, hpk.n, hD.self, ok_bind] at hok
    rw [coins_chals (by rw [f2]; exact seed_count _ htr) pi _ (ch a b), verifyWith_iff] at hok
    obtain ⟨l1, pe, q, v', aN, bN, dN, hpre, k1, k2⟩ := hok
    rw [open1_map hm] at k1
    rw [open2_map hm] at k2
    exact ⟨l1, pe, q, v', aN, bN, dN, hpre.aw 0 0, (check_map hg hh).1 k1, (check_map hg hh).1 k2⟩
  by_cases hP : ∃ l1 pe q v aN bN dN, VPre Dm (ch 0 0) pi p.ev l1 pe q v aN bN dN
  swap
  · refine odds_none fun t ht => ?_
    obtain ⟨l1, pe, q, v, aN, bN, dN, hp, -⟩ := hacc _ _ _ ht.2
    exact hP ⟨l1, pe, q, v, aN, bN, dN, hp⟩
  obtain ⟨l1, pe, q, v, aN, bN, dN, hp⟩ := hP
  have hdeg : ∀ l : List ((idealPcs F (D + 1)).Comm × F), ∀ x ∈ polys l, x.1.natDegree ≤ D := by
    intro l x hx
    obtain ⟨y, -, rfl⟩ := List.mem_map.1 hx
    exact degree_lt_succ.1 (mem_degreeLT.1 (y.1 : BPoly F (D + 1)).2)
  set L1 := polys (open1 _ E Dm vk' p (ch 0 0) l1 pe q v) with hL1
  set L2 := polys (open2 _ vk' p (ch 0 0) aN bN dN) with hL2
  by_cases hb1 : ∃ x ∈ L1, x.1.eval zz ≠ x.2
  · obtain ⟨bad, hbc, hbad⟩ := comb_bad zz L1 hb1
    refine Odds.step bad (hbc.trans (by simp [hL1, polys, open1])) fun a ha => Odds.skip fun b => ?_
    obtain ⟨bad', hbc', hbad'⟩ := secret_bad (hdeg _) (h1 a b) (hbad a ha)
    refine Odds.last bad' hbc' fun τ hτ ht => ?_
    obtain ⟨l1', pe', q', v', aN', bN', dN', hp', k1, -⟩ := hacc _ _ _ ht.2
    obtain ⟨rfl, rfl, rfl, rfl, rfl, rfl, rfl⟩ := hp.uniq hp'
    exact hbad' τ hτ k1
  by_cases hb2 : ∃ x ∈ L2, x.1.eval (zz * Dm.omega) ≠ x.2
  · obtain ⟨bad, hbc, hbad⟩ := comb_bad (zz * Dm.omega) L2 hb2
    refine Odds.skip fun a => Odds.step bad (hbc.trans (by simp [hL2, polys, open2])) fun b hb => ?_
    obtain ⟨bad', hbc', hbad'⟩ := secret_bad (hdeg _) (h2 a b) (hbad b hb)
    refine Odds.last bad' hbc' fun τ hτ ht => ?_
    obtain ⟨l1', pe', q', v', aN', bN', dN', hp', -, k2⟩ := hacc _ _ _ ht.2
    obtain ⟨rfl, rfl, rfl, rfl, rfl, rfl, rfl⟩ := hp.uniq hp'
    exact hbad' τ hτ k2
  · exfalso
    refine hno' 0 0 (verifyWith_iff.2 ⟨l1, pe, q, v, aN, bN, dN, hp, ?_, ?_⟩)
    · refine idealCheck_polys.2 fun x hx => ?_
      by_contra hc
      exact hb1 ⟨x, hx, hc⟩
    · refine idealCheck_polys.2 fun x hx => ?_
      by_contra hc
      exact hb2 ⟨x, hx, hc⟩

/-- The ideal prover with the polynomials of an algebraic one. -/
noncomputable def idealStrategy (D : ℕ) (s : KzgStrategy F) : PlonkStrategy F (idealPcs F (D + 1)) where
  wa := idealRep (D + 1) s.wa
  wb := idealRep (D + 1) s.wb
  wc := idealRep (D + 1) s.wc
  wd := idealRep (D + 1) s.wd
  f := fun l => idealRep (D + 1) (s.f l)
  h1 := fun l => idealRep (D + 1) (s.h1 l)
  h2 := fun l => idealRep (D + 1) (s.h2 l)
  z := fun l => idealRep (D + 1) (s.z l)
  z2 := fun l => idealRep (D + 1) (s.z2 l)
  t := fun l k => idealRep (D + 1) (s.t k l)
  ev := s.ev
  o1 := fun _ => ()
  o2 := fun _ => ()

theorem kzgOf_rep {e : G1 →ₗ[F] G2 →ₗ[F] GT} {g : G1} {h : G2} {D : ℕ} {τ : F} {p : F[X]}
    (hp : p.natDegree ≤ D) : kzgOf e g h D τ (idealRep (D + 1) p) = (p.eval τ • g : G1) := by
  unfold kzgOf
  have := idealRep_lt (degree_lt_succ.2 hp)
  exact congrArg (fun q : F[X] => q.eval τ • g) this

end Plonk

/-- **C149.** Soundness error of the PLONK verifier on KZG commitments, in the algebraic group model:
the secret `τ` of the commitment key and the fourteen challenges are drawn uniformly; a prover that
commits to polynomials within the key, each chosen after the challenges before it (and `z2` before `α`),
and sends right values of the four selectors that are not opened, is accepted with probability at most
`(17n + 11D + 55) / |F|` when the wires it commits to first do not satisfy the circuit with the given
public inputs. -/
theorem C149_kzg {R : FieldRep F} {K : PField F} {E : EdCurve F} {n D : ℕ} (hK : PFieldOk K)
    {c : Composer F} (hc : Reach R E c) (hn : n = circuitBound c) (hd : n ≤ D + 1)
    {tr : Transcript F G1} (htr : tr.countP isChal = 0) {pi : List (ℕ × F)}
    (hpi : pi.Pairwise fun a b => a.1 < b.1) (hpos : ∀ e ∈ pi, e.1 ∈ c.intended_pi_pos)
    (e : G1 →ₗ[F] G2 →ₗ[F] GT) {g : G1} {h : G2} (hg : g ≠ 0) (hh : NonDegenerate e h)
    (s : KzgStrategy F) (hs : s.Bounded D)
    (hbad : ¬ ∃ x, Sat E (padRows c.lookup_table n) n c (piAt pi)
      (s.wires (K.fft.root (Nat.clog 2 n))) x) :
    Odds F (17 * n + 11 * D + 55)
      fun t : F × F × F × F × F × F × F × F × F × F × F × F × F × F × F =>
      let (zeta, beta, gamma, delta, epsilon, alpha, range, logic, fixed, var, lookup, zz, aw, saw, τ) := t
      let π := s.proof e g h D τ zeta beta gamma delta epsilon alpha range logic fixed var lookup zz aw saw
      SelectorsRight n (K.fft.root (Nat.clog 2 n)) c π.ev zz ∧
      ∃ v : Verifier (kzgPcs e g h D τ),
        Verifier.preprocess K (P := kzgPcs e g h D τ) ⟨none, c, tr⟩ = .ok v ∧
        v.verify K E (coins [zeta, beta, gamma, delta, epsilon, alpha, range, logic, fixed, var, lookup,
          zz, aw, saw]) π pi = .ok () := by
  have hw := Reach.wf hc
  by_cases hroom : ∃ Dm, newDom K (circuitBound c) = .ok Dm
  swap
  · refine odds_none ?_
    rintro ⟨zeta, beta, gamma, delta, epsilon, alpha, range, logic, fixed, var, lookup, zz, aw, saw, τ⟩
      ⟨-, v, hv, -⟩
    obtain ⟨Dm, -, -, -, -, hDm, -⟩ := verifier_inv hK hv
    exact hroom ⟨Dm, hDm.new⟩
  obtain ⟨Dm, hnew⟩ := hroom
  have hD := cdom_new hK hnew
  obtain ⟨-, hDe⟩ := newDom_inv hD.self
  have homega : K.fft.root (Nat.clog 2 n) = Dm.omega := by
    rw [hn, ← hD.eq]; exact (congrArg Dom.omega hDe).symm
  have hnD : n = Dm.size := by rw [hn, hD.eq]
  obtain ⟨⟨c1, vkI, sel, sig, D1, tab, t⟩, hsh⟩ := preprocessShared_run
    (ideal_complete (F := F) (D + 1)) hw hD (by rw [← hnD]; exact hd) []
  have hI : Verifier.preprocess K (P := idealPcs F (D + 1)) ⟨none, c, []⟩ = .ok ⟨some vkI, c1, t⟩ := by
    unfold Verifier.preprocess preprocessVerifier
    rw [hsh]
    rfl
  have lt : ∀ {p : F[X]}, p.natDegree ≤ D → (idealRep (D + 1) p : F[X]) = p := fun hp =>
    idealRep_lt (degree_lt_succ.2 hp)
  set sI := idealStrategy D s with hsI
  have hbadI : ¬ ∃ x, Sat E (padRows c.lookup_table n) n c (piAt pi)
      (committedWires (ideal_sound (D + 1)) (K.fft.root (Nat.clog 2 n)) sI.wa sI.wb sI.wc sI.wd) x := by
    have : committedWires (ideal_sound (D + 1)) (K.fft.root (Nat.clog 2 n)) sI.wa sI.wb sI.wc sI.wd
        = s.wires (K.fft.root (Nat.clog 2 n)) := by
      funext w
      cases w with
      | left i => exact congrArg (eval _) (lt hs.wa)
      | right i => exact congrArg (eval _) (lt hs.wb)
      | output i => exact congrArg (eval _) (lt hs.wc)
      | fourth i => exact congrArg (eval _) (lt hs.wd)
    rw [this]
    exact hbad
  obtain ⟨b1, c1', k1⟩ := C106_sound hK (ideal_sound (D + 1)) hc hn (by simp) hI rfl hpi hpos sI.wa sI.wb
    sI.wc sI.wd hbadI
  refine Odds.mono (Odds.step b1 c1' fun zeta g1 => ?_)
    (k := 3 * n + (4 * n + (4 * n + ((4 * n + 1) + (2 * n + (2 + (7 + (9 + (7 + (5 + (3 +
      (10 * max (D + 1) n + (10 + (D + 1))))))))))))))
    (by rw [max_eq_left hd]; omega) (fun _ h => h)
  obtain ⟨b2, c2, k2⟩ := k1 zeta g1 (sI.f [zeta]) (sI.h1 [zeta]) (sI.h2 [zeta])
  refine Odds.step b2 c2 fun beta g2 => ?_
  obtain ⟨b3, c3, k3⟩ := k2 beta g2
  refine Odds.step b3 c3 fun gamma g3 => ?_
  obtain ⟨b4, c4, k4⟩ := k3 gamma g3
  refine Odds.step b4 c4 fun delta g4 => ?_
  obtain ⟨b5, c5, k5⟩ := k4 delta g4
  refine Odds.step b5 c5 fun epsilon g5 => ?_
  obtain ⟨b6, c6, k6⟩ := k5 epsilon g5 (sI.z [zeta, beta, gamma, delta, epsilon])
    (sI.z2 [zeta, beta, gamma, delta, epsilon])
  refine Odds.step b6 c6 fun alpha g6 => ?_
  obtain ⟨b7, c7, k7⟩ := k6 alpha g6
  refine Odds.step b7 c7 fun range g7 => ?_
  obtain ⟨b8, c8, k8⟩ := k7 range g7
  refine Odds.step b8 c8 fun logic g8 => ?_
  obtain ⟨b9, c9, k9⟩ := k8 logic g8
  refine Odds.step b9 c9 fun fixed g9 => ?_
  obtain ⟨b10, c10, k10⟩ := k9 fixed g9
  refine Odds.step b10 c10 fun var g10 => ?_
  obtain ⟨b11, c11, k11⟩ := k10 var g10
  refine Odds.step b11 c11 fun lookup g11 => ?_
  obtain ⟨b12, c12, k12⟩ := k11 lookup g11
    (sI.t [zeta, beta, gamma, delta, epsilon, alpha, range, logic, fixed, var, lookup])
  refine Odds.step b12 c12 fun zz g12 => ?_
  have hend := kzg_end (E := E) hK hw hD e hg hh (by rw [← hnD]; exact hd) htr (pi := pi) hI rfl zeta beta
    gamma delta epsilon alpha range logic fixed var lookup zz
    (sI.proof zeta beta gamma delta epsilon alpha range logic fixed var lookup zz 0 0)
    (fun a b => s.o1 [zeta, beta, gamma, delta, epsilon, alpha, range, logic, fixed, var, lookup, zz, a, b])
    (fun a b => s.o2 [zeta, beta, gamma, delta, epsilon, alpha, range, logic, fixed, var, lookup, zz, a, b])
    (fun a b => hs.o1 _) (fun a b => hs.o2 _)
    (fun aw saw hon => k12 zz g12 _ _ _ aw saw hon)
  refine hend.mono le_rfl ?_
  rintro ⟨aw, saw, τ⟩ ⟨hsel, v, hv, hok⟩
  rw [homega, hnD] at hsel
  refine ⟨hsel, v, hv, ?_⟩
  have hpr : s.proof e g h D τ zeta beta gamma delta epsilon alpha range logic fixed var lookup zz aw saw
      = kzgProof e g h D τ
        (sI.proof zeta beta gamma delta epsilon alpha range logic fixed var lookup zz 0 0)
        (s.o1 [zeta, beta, gamma, delta, epsilon, alpha, range, logic, fixed, var, lookup, zz, aw, saw])
        (s.o2 [zeta, beta, gamma, delta, epsilon, alpha, range, logic, fixed, var, lookup, zz, aw, saw]) := by
    unfold KzgStrategy.proof kzgProof PlonkStrategy.proof
    simp only [hsI, idealStrategy, kzgOf_rep hs.wa, kzgOf_rep hs.wb, kzgOf_rep hs.wc, kzgOf_rep hs.wd,
      kzgOf_rep (hs.z _), kzgOf_rep (hs.f _), kzgOf_rep (hs.h1 _), kzgOf_rep (hs.h2 _),
      kzgOf_rep (hs.z2 _), kzgOf_rep (hs.t _ _)]
    rfl
  rw [hpr] at hok
  exact hok

/-- **C149 (completeness).** On KZG commitments with any secret `τ`: with room for the domain of eight
times the size in the field, enough powers in the key and no row twice in the lookup table, the verifier
preprocesses the circuit, and if the prover's values satisfy it then the probability, over uniform
challenges, that `prove` does not return a proof or `verify` does not accept it is at most
`(3T² + 7n + 9) / |F|`. -/
theorem C149_complete {R : FieldRep F} {K : PField F} {E : EdCurve F} {n D : ℕ} (hK : PFieldOk K)
    (e : G1 →ₗ[F] G2 →ₗ[F] GT) {g : G1} {h : G2} (hg : g ≠ 0) (hh : NonDegenerate e h) (τ : F)
    {c cv : Composer F} (hc : Reach R E c) (hs : OwnSat E c) (hn : n = circuitBound c) (hd : n ≤ D + 1)
    (h8 : Nat.clog 2 (8 * n) ≤ K.fft.twoAdicity) (hT : c.lookup_table.Nodup) (hrv : Reach R E cv)
    (hcv : SameCircuit cv c) {tr : Transcript F G1} (htr : tr.countP isChal = 0)
    (r1 r2 : F × F × F × F) :
    ∃ v : Verifier (kzgPcs e g h D τ),
      Verifier.preprocess K (P := kzgPcs e g h D τ) ⟨none, cv, tr⟩ = .ok v ∧
      Odds F (3 * c.lookup_table.length ^ 2 + 7 * n + 9)
        fun t : F × F × F × F × F × F × F × F × F × F × F × F × F × F =>
        let (zeta, beta, gamma, delta, epsilon, alpha, range, logic, fixed, var, lookup, z, aw, saw) := t
        let ro : Transcript F (kzgPcs e g h D τ).Comm → F := coins [zeta, beta, gamma, delta, epsilon,
          alpha, range, logic, fixed, var, lookup, z, aw, saw]
        ¬ ∃ pr s, Prover.prove K E (P := kzgPcs e g h D τ) ro ⟨none, c, tr⟩ r1 r2 = .ok (pr, s) ∧
          v.verify K E ro pr c.public_inputs = .ok () :=
  C142_prove hK (kzg_complete e hg hh D τ) hc hs hn hd h8 hT hrv hcv htr r1 r2

/-- C149 for a concrete circuit: over the field with 7681 elements,
with the field itself for the three groups and multiplication for the pairing, a prover is accepted with
public input `1`, which cannot be satisfied, in at most 268 of 7681 cases. -/
example (s : KzgStrategy K7681) (hs : s.Bounded 7) :
    Odds K7681 268
      fun t : K7681 × K7681 × K7681 × K7681 × K7681 × K7681 × K7681 × K7681 × K7681 × K7681 × K7681 ×
        K7681 × K7681 × K7681 × K7681 =>
      let (zeta, beta, gamma, delta, epsilon, alpha, range, logic, fixed, var, lookup, zz, aw, saw, τ) := t
      let e := LinearMap.mul K7681 K7681
      let π := s.proof e 1 1 7 τ zeta beta gamma delta epsilon alpha range logic fixed var lookup zz aw saw
      SelectorsRight 8 (pf7681.fft.root 3) (exC 0 0) π.ev zz ∧
      ∃ v : Verifier (kzgPcs e 1 1 7 τ),
        Verifier.preprocess pf7681 (P := kzgPcs e 1 1 7 τ) ⟨none, exC 0 0, [.init "plonk"]⟩ = .ok v ∧
        v.verify pf7681 E7681 (coins [zeta, beta, gamma, delta, epsilon, alpha, range, logic, fixed, var,
          lookup, zz, aw, saw]) π [(5, 1)] = .ok () := by
  have hnd : NonDegenerate (LinearMap.mul K7681 K7681) (1 : K7681) := by
    intro x hx
    simpa using hx
  have := C149_kzg (n := 8) (D := 7) pf7681_ok (exC_facts 0 0).1 (by decide +kernel) (by norm_num)
    (tr := [.init "plonk"]) (by decide +kernel) (pi := [(5, 1)]) (by simp) (by decide +kernel)
    (LinearMap.mul K7681 K7681) (g := (1 : K7681)) (h := (1 : K7681)) one_ne_zero hnd s hs
    (fun ⟨x, hx⟩ => exC_unsat ⟨_, x, hx⟩)
  exact this

/-- And the honest prover succeeds on it with public input that can be satisfied, for every secret: in all
but at most 77 of 7681 cases. -/
example (τ : K7681) : ∃ v : Verifier (kzgPcs (LinearMap.mul K7681 K7681) (1 : K7681) (1 : K7681) 7 τ),
    Verifier.preprocess pf7681 ⟨none, exC 0 0, [.init "plonk"]⟩ = .ok v ∧
    Odds K7681 77 fun t : K7681 × K7681 × K7681 × K7681 × K7681 × K7681 × K7681 × K7681 × K7681 ×
        K7681 × K7681 × K7681 × K7681 × K7681 =>
      let (zeta, beta, gamma, delta, epsilon, alpha, range, logic, fixed, var, lookup, z, aw, saw) := t
      let P := kzgPcs (LinearMap.mul K7681 K7681) (1 : K7681) (1 : K7681) 7 τ
      let ro : Transcript K7681 P.Comm → K7681 := coins [zeta, beta, gamma, delta, epsilon, alpha, range,
        logic, fixed, var, lookup, z, aw, saw]
      ¬ ∃ pr s, Prover.prove pf7681 E7681 (P := P) ro ⟨none, exC 1 2, [.init "plonk"]⟩ (1, 2, 3, 4)
          (5, 6, 7, 8) = .ok (pr, s) ∧
        v.verify pf7681 E7681 ro pr (exC 1 2).public_inputs = .ok () := by
  have hnd : NonDegenerate (LinearMap.mul K7681 K7681) (1 : K7681) := by
    intro x hx
    simpa using hx
  obtain ⟨-, h2, -, h4⟩ := exC_size
  obtain ⟨v, hv, ho⟩ := C149_complete (n := 8) (D := 7) pf7681_ok (LinearMap.mul K7681 K7681)
    (g := (1 : K7681)) (h := (1 : K7681)) one_ne_zero hnd τ (exC_facts 1 2).1 ((exC_facts 1 2).2 rfl rfl)
    h4.symm (by norm_num) (by decide +kernel) (by rw [h2]; decide +kernel) (exC_facts 0 0).1
    (cv := exC 0 0) exC_same (tr := [.init "plonk"]) (by decide +kernel) (1, 2, 3, 4) (5, 6, 7, 8)
  refine ⟨v, hv, ho.mono ?_ fun _ h => h⟩
  rw [h2]
  decide

end VO
