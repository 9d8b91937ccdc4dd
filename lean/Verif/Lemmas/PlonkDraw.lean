import Verif.Lemmas.OddsDraw
import Verif.Props.PlonkKzgCircuit

/-
`C139_plonk` and `C149_kzg` once more for challenges that are computed, injectively, from something else
drawn uniformly.
-/

set_option linter.unusedSectionVars false

namespace VO

open VO.Plonk VO.Spec VO.Spec.Plonk Polynomial

namespace Plonk

variable {F : Type} [Field F] [DecidableEq F] [Fintype F] {S : Type} [Fintype S]
  {G1 G2 GT : Type} [AddCommGroup G1]
  [Module F G1] [AddCommGroup G2] [Module F G2] [AddCommGroup GT] [Module F GT]

theorem draw_empty {T : Type} [Fintype T] {k : ℕ} {Q : T → Prop} (h : ∀ t, ¬ Q t) : Odds S k Q := by
  have : {t | Q t} = ∅ := by ext t; simpa using h t
  unfold Odds
  rw [this]
  simp

theorem plonk_draw {g : S → F} (hg : g.Injective) {R : FieldRep F} {K : PField F} {E : EdCurve F} {P : PCS F} {d n : ℕ}
    (hK : PFieldOk K) (hS : PcsSound P d) {c : Composer F} (hc : Reach R E c)
    (hn : n = circuitBound c) {tr : Transcript F P.Comm} (htr : tr.countP isChal = 0)
    {v : Verifier P} (hv : Verifier.preprocess K (P := P) ⟨none, c, tr⟩ = .ok v) {vk : VKey P}
    (hvk : v.key = some vk) {pi : List (ℕ × F)} (hpi : pi.Pairwise fun a b => a.1 < b.1)
    (hpos : ∀ e ∈ pi, e.1 ∈ c.intended_pi_pos) (s : PlonkStrategy F P)
    (hbad : ¬ ∃ x, Sat E (padRows c.lookup_table n) n c (piAt pi)
      (committedWires hS (K.fft.root (Nat.clog 2 n)) s.wa s.wb s.wc s.wd) x) :
    Odds S (17 * n + 10 * max d n + 34)
      fun t : S × S × S × S × S × S × S × S × S × S × S × S × S × S =>
      let (zeta, beta, gamma, delta, epsilon, alpha, range, logic, fixed, var, lookup, zz, aw, saw) := t
      let π := s.proof (g zeta) (g beta) (g gamma) (g delta) (g epsilon) (g alpha) (g range) (g logic) (g fixed) (g var) (g lookup) (g zz) (g aw) (g saw)
      HonestSelectors hS vk π.ev (g zz) ∧
      v.verify K E (coins [g zeta, g beta, g gamma, g delta, g epsilon, g alpha, g range, g logic, g fixed, g var, g lookup,
        g zz, g aw, g saw]) π pi = .ok () := by
  obtain ⟨b1, c1, k1⟩ := C106_sound hK hS hc hn htr hv hvk hpi hpos s.wa s.wb s.wc s.wd hbad
  refine Odds.mono (Odds.inj hg b1 c1 fun zeta g1 => ?_)
    (k := 3 * n + (4 * n + (4 * n + ((4 * n + 1) + (2 * n + (2 + (7 + (9 + (7 + (5 + (3 +
      (10 * max d n + 0)))))))))))) (by omega) (fun _ h => h)
  obtain ⟨b2, c2, k2⟩ := k1 (g zeta) g1 (s.f [g zeta]) (s.h1 [g zeta]) (s.h2 [g zeta])
  refine Odds.inj hg b2 c2 fun beta g2 => ?_
  obtain ⟨b3, c3, k3⟩ := k2 (g beta) g2
  refine Odds.inj hg b3 c3 fun gamma g3 => ?_
  obtain ⟨b4, c4, k4⟩ := k3 (g gamma) g3
  refine Odds.inj hg b4 c4 fun delta g4 => ?_
  obtain ⟨b5, c5, k5⟩ := k4 (g delta) g4
  refine Odds.inj hg b5 c5 fun epsilon g5 => ?_
  obtain ⟨b6, c6, k6⟩ := k5 (g epsilon) g5 (s.z [g zeta, g beta, g gamma, g delta, g epsilon])
    (s.z2 [g zeta, g beta, g gamma, g delta, g epsilon])
  refine Odds.inj hg b6 c6 fun alpha g6 => ?_
  obtain ⟨b7, c7, k7⟩ := k6 (g alpha) g6
  refine Odds.inj hg b7 c7 fun range g7 => ?_
  obtain ⟨b8, c8, k8⟩ := k7 (g range) g7
  refine Odds.inj hg b8 c8 fun logic g8 => ?_
  obtain ⟨b9, c9, k9⟩ := k8 (g logic) g8
  refine Odds.inj hg b9 c9 fun fixed g9 => ?_
  obtain ⟨b10, c10, k10⟩ := k9 (g fixed) g9
  refine Odds.inj hg b10 c10 fun var g10 => ?_
  obtain ⟨b11, c11, k11⟩ := k10 (g var) g10
  refine Odds.inj hg b11 c11 fun lookup g11 => ?_
  obtain ⟨b12, c12, k12⟩ := k11 (g lookup) g11
    (s.t [g zeta, g beta, g gamma, g delta, g epsilon, g alpha, g range, g logic, g fixed, g var, g lookup])
  refine Odds.inj hg b12 c12 fun zz g12 => Odds.skip fun aw => Odds.last ∅ (by simp) fun saw _ => ?_
  rintro ⟨hh, hok⟩
  exact k12 (g zz) g12 _ _ _ (g aw) (g saw) hh hok


theorem kzg_end_draw {γ : S → F} (hγ : γ.Injective) (hcard : Fintype.card S ≤ Fintype.card F) {K : PField F} {E : EdCurve F} (hK : PFieldOk K) {c : Composer F} (hw : WF c)
    {Dm : Dom F} (hD : CDom K c Dm) (e : G1 →ₗ[F] G2 →ₗ[F] GT) {g : G1} {h : G2} (hg : g ≠ 0)
    (hh : NonDegenerate e h) {D : ℕ} (hd : Dm.size ≤ D + 1) {tr : Transcript F G1}
    (htr : tr.countP isChal = 0) {pi : List (ℕ × F)} {vI : Verifier (idealPcs F (D + 1))}
    {vkI : VKey (idealPcs F (D + 1))}
    (hI : Verifier.preprocess K (P := idealPcs F (D + 1)) ⟨none, c, []⟩ = .ok vI) (hvI : vI.key = some vkI)
    (zeta beta gamma delta epsilon alpha range logic fixed var lookup zz : F)
    (p : PlonkProof (idealPcs F (D + 1))) (o1 o2 : F → F → F[X]) (h1 : ∀ a b, (o1 a b).natDegree ≤ D)
    (h2 : ∀ a b, (o2 a b).natDegree ≤ D)
    (hno : ∀ aw saw, HonestSelectors (ideal_sound (D + 1)) vkI p.ev zz →
      vI.verify K E (coins [zeta, beta, gamma, delta, epsilon, alpha, range, logic, fixed, var, lookup,
        zz, aw, saw]) p pi ≠ .ok ()) :
    Odds S (10 + (D + 1)) fun t : S × S × F =>
      SelectorsRight Dm.size Dm.omega c p.ev zz ∧
      ∃ v : Verifier (kzgPcs e g h D t.2.2),
        Verifier.preprocess K (P := kzgPcs e g h D t.2.2) ⟨none, c, tr⟩ = .ok v ∧
        v.verify K E (coins [zeta, beta, gamma, delta, epsilon, alpha, range, logic, fixed, var, lookup,
          zz, γ t.1, γ t.2.1]) (kzgProof e g h D t.2.2 p (o1 (γ t.1) (γ t.2.1)) (o2 (γ t.1) (γ t.2.1))) pi = .ok () := by
  by_cases hsel : SelectorsRight Dm.size Dm.omega c p.ev zz
  swap
  · exact draw_empty fun t ht => hsel ht.1
  obtain ⟨Dm', sel, sig, tab, vk', hD', hpI, e1, e2⟩ := verifier_inv hK hI
  obtain rfl := hD.uniq hD'
  obtain rfl : vk' = vkI := by rw [hvI] at e1; simpa using e1.symm
  have hon := honest_of_right hw hD hpI hsel
  set ch : F → F → Chals F := fun a b => ⟨zeta, beta, gamma, delta, epsilon, alpha, range, logic, fixed,
    var, lookup, zz, a, b⟩ with hch
  -- the ideal verifier does not accept
  have hno' : ∀ a b, ¬ verifyWith E (idealPcs F (D + 1)) Dm vk' pi p (ch a b) = .ok () := by
    intro a b hc
    apply hno a b hon
    unfold Verifier.verify
    rw [e1]
    simp only [plonkVerify, hpI.n, hD.self, ok_bind]
    rw [coins_chals (by rw [e2]; exact seed_count _ (by simp)) pi _ (ch a b)]
    exact hc
  -- what acceptance on KZG means
  have hacc : ∀ a b τ, (∃ v : Verifier (kzgPcs e g h D τ),
      Verifier.preprocess K (P := kzgPcs e g h D τ) ⟨none, c, tr⟩ = .ok v ∧
      v.verify K E (coins [zeta, beta, gamma, delta, epsilon, alpha, range, logic, fixed, var, lookup,
        zz, a, b]) (kzgProof e g h D τ p (o1 a b) (o2 a b)) pi = .ok ()) →
      ∃ l1 pe q v aN bN dN, VPre Dm (ch 0 0) pi p.ev l1 pe q v aN bN dN ∧
        (combP a (polys (open1 _ E Dm vk' p (ch 0 0) l1 pe q v)) - o1 a b * (X - C zz)).eval τ = 0 ∧
        (combP b (polys (open2 _ vk' p (ch 0 0) aN bN dN)) - o2 a b * (X - C (zz * Dm.omega))).eval τ = 0 := by
    rintro a b τ ⟨v, hv, hok⟩
    obtain ⟨Dk, selk, sigk, tabk, vkk, hDk, hpk, f1, f2⟩ := verifier_inv hK hv
    obtain rfl := hD.uniq hDk
    have hm := vkMap_pre hw hD hg hh hd hpk hpI
    unfold Verifier.verify at hok
    rw [f1] at hok
    simp only [plonkVerify, hpk.n, hD.self, ok_bind] at hok
    rw [coins_chals (by rw [f2]; exact seed_count _ htr) pi _ (ch a b), verifyWith_iff] at hok
    obtain ⟨l1, pe, q, v', aN, bN, dN, hpre, k1, k2⟩ := hok
    rw [open1_map hm] at k1
    rw [open2_map hm] at k2
    exact ⟨l1, pe, q, v', aN, bN, dN, hpre.aw 0 0, (check_map hg hh).1 k1, (check_map hg hh).1 k2⟩
  by_cases hP : ∃ l1 pe q v aN bN dN, VPre Dm (ch 0 0) pi p.ev l1 pe q v aN bN dN
  swap
  · refine draw_empty fun t ht => ?_
    obtain ⟨l1, pe, q, v, aN, bN, dN, hp, -⟩ := hacc _ _ _ ht.2
    exact hP ⟨l1, pe, q, v, aN, bN, dN, hp⟩
  obtain ⟨l1, pe, q, v, aN, bN, dN, hp⟩ := hP
  have hdeg : ∀ l : List ((idealPcs F (D + 1)).Comm × F), ∀ x ∈ polys l, x.1.natDegree ≤ D := by
    intro l x hx
    obtain ⟨y, -, rfl⟩ := List.mem_map.1 hx
    exact degree_lt_succ.1 (mem_degreeLT.1 (y.1 : BPoly F (D + 1)).2)
  set L1 := polys (open1 _ E Dm vk' p (ch 0 0) l1 pe q v) with hL1
  set L2 := polys (open2 _ vk' p (ch 0 0) aN bN dN) with hL2
  by_cases hb1 : ∃ x ∈ L1, x.1.eval zz ≠ x.2
  · obtain ⟨bad, hbc, hbad⟩ := comb_bad zz L1 hb1
    refine Odds.inj hγ bad (hbc.trans (by simp [hL1, polys, open1])) fun a ha => Odds.skip fun b => ?_
    obtain ⟨bad', hbc', hbad'⟩ := secret_bad (hdeg _) (h1 (γ a) (γ b)) (hbad (γ a) ha)
    refine Odds.last_of_le hcard bad' hbc' fun τ hτ ht => ?_
    obtain ⟨l1', pe', q', v', aN', bN', dN', hp', k1, -⟩ := hacc _ _ _ ht.2
    obtain ⟨rfl, rfl, rfl, rfl, rfl, rfl, rfl⟩ := hp.uniq hp'
    exact hbad' τ hτ k1
  by_cases hb2 : ∃ x ∈ L2, x.1.eval (zz * Dm.omega) ≠ x.2
  · obtain ⟨bad, hbc, hbad⟩ := comb_bad (zz * Dm.omega) L2 hb2
    refine Odds.skip fun a => Odds.inj hγ bad (hbc.trans (by simp [hL2, polys, open2])) fun b hb => ?_
    obtain ⟨bad', hbc', hbad'⟩ := secret_bad (hdeg _) (h2 (γ a) (γ b)) (hbad (γ b) hb)
    refine Odds.last_of_le hcard bad' hbc' fun τ hτ ht => ?_
    obtain ⟨l1', pe', q', v', aN', bN', dN', hp', -, k2⟩ := hacc _ _ _ ht.2
    obtain ⟨rfl, rfl, rfl, rfl, rfl, rfl, rfl⟩ := hp.uniq hp'
    exact hbad' τ hτ k2
  · exfalso
    refine hno' 0 0 (verifyWith_iff.2 ⟨l1, pe, q, v, aN, bN, dN, hp, ?_, ?_⟩)
    · refine idealCheck_polys.2 fun x hx => ?_
      by_contra hc
      exact hb1 ⟨x, hx, hc⟩
    · refine idealCheck_polys.2 fun x hx => ?_
      by_contra hc
      exact hb2 ⟨x, hx, hc⟩


theorem kzg_draw {g : S → F} (hg : g.Injective) (hcard : Fintype.card S ≤ Fintype.card F) {R : FieldRep F} {K : PField F} {E : EdCurve F} {n D : ℕ} (hK : PFieldOk K)
    {c : Composer F} (hc : Reach R E c) (hn : n = circuitBound c) (hd : n ≤ D + 1)
    {tr : Transcript F G1} (htr : tr.countP isChal = 0) {pi : List (ℕ × F)}
    (hpi : pi.Pairwise fun a b => a.1 < b.1) (hpos : ∀ e ∈ pi, e.1 ∈ c.intended_pi_pos)
    (e : G1 →ₗ[F] G2 →ₗ[F] GT) {u : G1} {h : G2} (hu : u ≠ 0) (hh : NonDegenerate e h)
    (s : KzgStrategy F) (hs : s.Bounded D)
    (hbad : ¬ ∃ x, Sat E (padRows c.lookup_table n) n c (piAt pi)
      (s.wires (K.fft.root (Nat.clog 2 n))) x) :
    Odds S (17 * n + 11 * D + 55)
      fun t : S × S × S × S × S × S × S × S × S × S × S × S × S × S × F =>
      let (zeta, beta, gamma, delta, epsilon, alpha, range, logic, fixed, var, lookup, zz, aw, saw, τ) := t
      let π := s.proof e u h D τ (g zeta) (g beta) (g gamma) (g delta) (g epsilon) (g alpha) (g range) (g logic) (g fixed) (g var) (g lookup) (g zz) (g aw) (g saw)
      SelectorsRight n (K.fft.root (Nat.clog 2 n)) c π.ev (g zz) ∧
      ∃ v : Verifier (kzgPcs e u h D τ),
        Verifier.preprocess K (P := kzgPcs e u h D τ) ⟨none, c, tr⟩ = .ok v ∧
        v.verify K E (coins [g zeta, g beta, g gamma, g delta, g epsilon, g alpha, g range, g logic, g fixed, g var, g lookup,
          g zz, g aw, g saw]) π pi = .ok () := by
  have hw := Reach.wf hc
  by_cases hroom : ∃ Dm, newDom K (circuitBound c) = .ok Dm
  swap
  · refine draw_empty ?_
    rintro ⟨zeta, beta, gamma, delta, epsilon, alpha, range, logic, fixed, var, lookup, zz, aw, saw, τ⟩
      ⟨-, v, hv, -⟩
    obtain ⟨Dm, -, -, -, -, hDm, -⟩ := verifier_inv hK hv
    exact hroom ⟨Dm, hDm.new⟩
  obtain ⟨Dm, hnew⟩ := hroom
  have hD := cdom_new hK hnew
  obtain ⟨-, hDe⟩ := newDom_inv hD.self
  have homega : K.fft.root (Nat.clog 2 n) = Dm.omega := by
    rw [hn, ← hD.eq]; exact (congrArg Dom.omega hDe).symm
  have hnD : n = Dm.size := by rw [hn, hD.eq]
  obtain ⟨⟨c1, vkI, sel, sig, D1, tab, t⟩, hsh⟩ := preprocessShared_run
    (ideal_complete (F := F) (D + 1)) hw hD (by rw [← hnD]; exact hd) []
  have hI : Verifier.preprocess K (P := idealPcs F (D + 1)) ⟨none, c, []⟩ = .ok ⟨some vkI, c1, t⟩ := by
    unfold Verifier.preprocess preprocessVerifier
    rw [hsh]
    rfl
  have lt : ∀ {p : F[X]}, p.natDegree ≤ D → (idealRep (D + 1) p : F[X]) = p := fun hp =>
    idealRep_lt (degree_lt_succ.2 hp)
  set sI := idealStrategy D s with hsI
  have hbadI : ¬ ∃ x, Sat E (padRows c.lookup_table n) n c (piAt pi)
      (committedWires (ideal_sound (D + 1)) (K.fft.root (Nat.clog 2 n)) sI.wa sI.wb sI.wc sI.wd) x := by
    have : committedWires (ideal_sound (D + 1)) (K.fft.root (Nat.clog 2 n)) sI.wa sI.wb sI.wc sI.wd
        = s.wires (K.fft.root (Nat.clog 2 n)) := by
      funext w
      cases w with
      | left i => exact congrArg (eval _) (lt hs.wa)
      | right i => exact congrArg (eval _) (lt hs.wb)
      | output i => exact congrArg (eval _) (lt hs.wc)
      | fourth i => exact congrArg (eval _) (lt hs.wd)
    rw [this]
    exact hbad
  obtain ⟨b1, c1', k1⟩ := C106_sound hK (ideal_sound (D + 1)) hc hn (by simp) hI rfl hpi hpos sI.wa sI.wb
    sI.wc sI.wd hbadI
  refine Odds.mono (Odds.inj hg b1 c1' fun zeta g1 => ?_)
    (k := 3 * n + (4 * n + (4 * n + ((4 * n + 1) + (2 * n + (2 + (7 + (9 + (7 + (5 + (3 +
      (10 * max (D + 1) n + (10 + (D + 1))))))))))))))
    (by rw [max_eq_left hd]; omega) (fun _ h => h)
  obtain ⟨b2, c2, k2⟩ := k1 (g zeta) g1 (sI.f [g zeta]) (sI.h1 [g zeta]) (sI.h2 [g zeta])
  refine Odds.inj hg b2 c2 fun beta g2 => ?_
  obtain ⟨b3, c3, k3⟩ := k2 (g beta) g2
  refine Odds.inj hg b3 c3 fun gamma g3 => ?_
  obtain ⟨b4, c4, k4⟩ := k3 (g gamma) g3
  refine Odds.inj hg b4 c4 fun delta g4 => ?_
  obtain ⟨b5, c5, k5⟩ := k4 (g delta) g4
  refine Odds.inj hg b5 c5 fun epsilon g5 => ?_
  obtain ⟨b6, c6, k6⟩ := k5 (g epsilon) g5 (sI.z [g zeta, g beta, g gamma, g delta, g epsilon])
    (sI.z2 [g zeta, g beta, g gamma, g delta, g epsilon])
  refine Odds.inj hg b6 c6 fun alpha g6 => ?_
  obtain ⟨b7, c7, k7⟩ := k6 (g alpha) g6
  refine Odds.inj hg b7 c7 fun range g7 => ?_
  obtain ⟨b8, c8, k8⟩ := k7 (g range) g7
  refine Odds.inj hg b8 c8 fun logic g8 => ?_
  obtain ⟨b9, c9, k9⟩ := k8 (g logic) g8
  refine Odds.inj hg b9 c9 fun fixed g9 => ?_
  obtain ⟨b10, c10, k10⟩ := k9 (g fixed) g9
  refine Odds.inj hg b10 c10 fun var g10 => ?_
  obtain ⟨b11, c11, k11⟩ := k10 (g var) g10
  refine Odds.inj hg b11 c11 fun lookup g11 => ?_
  obtain ⟨b12, c12, k12⟩ := k11 (g lookup) g11
    (sI.t [g zeta, g beta, g gamma, g delta, g epsilon, g alpha, g range, g logic, g fixed, g var, g lookup])
  refine Odds.inj hg b12 c12 fun zz g12 => ?_
  have hend := kzg_end_draw (E := E) hg hcard hK hw hD e hu hh (by rw [← hnD]; exact hd) htr (pi := pi) hI rfl (g zeta) (g beta)
    (g gamma) (g delta) (g epsilon) (g alpha) (g range) (g logic) (g fixed) (g var) (g lookup) (g zz)
    (sI.proof (g zeta) (g beta) (g gamma) (g delta) (g epsilon) (g alpha) (g range) (g logic) (g fixed) (g var) (g lookup) (g zz) 0 0)
    (fun a b => s.o1 [g zeta, g beta, g gamma, g delta, g epsilon, g alpha, g range, g logic, g fixed, g var, g lookup, g zz, a, b])
    (fun a b => s.o2 [g zeta, g beta, g gamma, g delta, g epsilon, g alpha, g range, g logic, g fixed, g var, g lookup, g zz, a, b])
    (fun a b => hs.o1 _) (fun a b => hs.o2 _)
    (fun aw saw hon => k12 (g zz) g12 _ _ _ aw saw hon)
  refine hend.mono le_rfl ?_
  rintro ⟨aw, saw, τ⟩ ⟨hsel, v, hv, hok⟩
  rw [homega, hnD] at hsel
  refine ⟨hsel, v, hv, ?_⟩
  have hpr : s.proof e u h D τ (g zeta) (g beta) (g gamma) (g delta) (g epsilon) (g alpha) (g range) (g logic) (g fixed) (g var) (g lookup) (g zz) (g aw) (g saw)
      = kzgProof e u h D τ
        (sI.proof (g zeta) (g beta) (g gamma) (g delta) (g epsilon) (g alpha) (g range) (g logic) (g fixed) (g var) (g lookup) (g zz) 0 0)
        (s.o1 [g zeta, g beta, g gamma, g delta, g epsilon, g alpha, g range, g logic, g fixed, g var, g lookup, g zz, g aw, g saw])
        (s.o2 [g zeta, g beta, g gamma, g delta, g epsilon, g alpha, g range, g logic, g fixed, g var, g lookup, g zz, g aw, g saw]) := by
    unfold KzgStrategy.proof kzgProof PlonkStrategy.proof
    simp only [hsI, idealStrategy, kzgOf_rep hs.wa, kzgOf_rep hs.wb, kzgOf_rep hs.wc, kzgOf_rep hs.wd,
      kzgOf_rep (hs.z _), kzgOf_rep (hs.f _), kzgOf_rep (hs.h1 _), kzgOf_rep (hs.h2 _),
      kzgOf_rep (hs.z2 _), kzgOf_rep (hs.t _ _)]
    rfl
  rw [hpr] at hok
  exact hok


theorem kzg_circuit_draw {g : S → F} (hg : g.Injective)
    (hcard : Fintype.card S ≤ Fintype.card F) {R : FieldRep F} {K : PField F} {E : EdCurve F} {n D : ℕ} (hK : PFieldOk K)
    {C : Circ F} (hC : Builds R E C) {rp rv rn : (F × F × F × F) × (F × F × F × F)} {c : Composer F}
    (hc : Filled C rv c) (hn : n = circuitBound c) (hd : n ≤ D + 1) (label : String)
    {pi : List (ℕ × F)} (hpi : Canonical pi) (hpos : ∀ e ∈ pi, e.1 ∈ c.intended_pi_pos)
    (e : G1 →ₗ[F] G2 →ₗ[F] GT) {u : G1} {h : G2} (hu : u ≠ 0) (hh : NonDegenerate e h)
    (s : KzgStrategy F) (hs : s.Bounded D)
    (hbad : ¬ ∃ x, Sat E (padRows c.lookup_table n) n c (piAt pi)
      (s.wires (K.fft.root (Nat.clog 2 n))) x) :
    Odds S (17 * n + 11 * D + 55)
      fun t : S × S × S × S × S × S × S × S × S × S × S × S × S × S × F =>
      let (zeta, beta, gamma, delta, epsilon, alpha, range, logic, fixed, var, lookup, zz, aw, saw, τ) := t
      let π := s.proof e u h D τ (g zeta) (g beta) (g gamma) (g delta) (g epsilon) (g alpha) (g range) (g logic) (g fixed) (g var) (g lookup) (g zz) (g aw) (g saw)
      SelectorsRight n (K.fft.root (Nat.clog 2 n)) c π.ev (g zz) ∧
      ∃ pk vk pos, circuitCompile K (kzgPcs e u h D τ) D C rp rv = .ok (pk, vk, pos) ∧
        circuitVerify K E (kzgPcs e u h D τ) (coins [g zeta, g beta, g gamma, g delta, g epsilon, g alpha, g range,
          g logic, g fixed, g var, g lookup, g zz, g aw, g saw]) D vk (π.trim C.size) pi label rn = .ok () := by
  have hr := hc.reach hC
  have hw := Reach.wf hr
  refine (kzg_draw (E := E) hg hcard hK hr hn hd (tr := [.init label]) rfl hpi.1 hpos e hu hh s hs hbad).mono le_rfl ?_
  rintro ⟨zeta, beta, gamma, delta, epsilon, alpha, range, logic, fixed, var, lookup, zz, aw, saw, τ⟩
    ⟨hsel, pk, vk, pos, hcomp, hok⟩
  refine ⟨hsel, ?_⟩
  obtain ⟨-, cp, cv, cp', cv', trp, trv, f1, f2, h1, h2, rfl⟩ := compile_inv hcomp
  obtain rfl := f2.uniq hc
  obtain ⟨Dm, sel, sig, tab, b1, b2, -, -⟩ := preprocessVerifier_inv hK (SameCircuit.refl cv) h2
  obtain ⟨⟨c1, vk1, sel1, sig1, D1, tab1, t1⟩, hsh⟩ := preprocessShared_run
    (kzg_complete e hu hh D τ) hw b1 (by rw [b1.eq, ← hn]; exact hd) [.init label]
  have hv : Verifier.preprocess K (P := kzgPcs e u h D τ) ⟨none, cv, [.init label]⟩
      = .ok ⟨some vk1, c1, t1⟩ := by
    unfold Verifier.preprocess preprocessVerifier
    rw [hsh]
    rfl
  refine ⟨⟨some vk1, c1, t1⟩, hv, ?_⟩
  obtain ⟨b1', -, b2', rfl⟩ := preprocessShared_inv hK hsh
  obtain rfl := b1.uniq b1'
  obtain ⟨-, -, -, rfl⟩ := b2.trim.uniq b2'
  by_cases hm' : 2 ^ Nat.clog 2 vk.n ≤ D
  swap
  · exfalso
    unfold circuitVerify at hok
    obtain ⟨_, -, hok⟩ := bind_okE hok
    obtain ⟨_, hk, -⟩ := bind_okE hok
    exact hm' (trimOk_inv hk)
  rw [circuitVerify_eq hm'] at hok
  have hok' := (plonkVerify_trim (P := kzgPcs e u h D τ) vk _ pi _).symm.trans hok
  exact (coins_verify (P := kzgPcs e u h D τ) (seed_count _ rfl) (tr' := [.init label]) rfl _ pi _
    ⟨g zeta, g beta, g gamma, g delta, g epsilon, g alpha, g range, g logic, g fixed, g var, g lookup, g zz, g aw, g saw⟩).trans hok'

theorem odds_mostly {k n : ℕ} {T : Type} [Fintype T] {g : S → F} (hg : g.Injective) {Q : F → Prop} (h : Mostly n Q)
    {P : S × T → Prop} (hP : ∀ x, Q (g x) → Odds S k fun t => P (x, t)) : Odds S (n + k) P := by
  obtain ⟨bad, hb, h⟩ := h
  exact Odds.inj hg bad hb fun x hx => hP x (h _ hx)

theorem succeeds_draw {g : S → F} (hg : g.Injective) (T n : ℕ) (Ok : F → F → F → F → F → F → F → F → F → F → F → F → F → F → Prop)
    (h : Mostly (3 * T ^ 2 + 2) fun zeta : F =>
      ∀ beta, Mostly (4 * n + 1) fun gamma : F =>
      Mostly 3 fun delta : F => Mostly (2 * n + 3) fun epsilon : F =>
      ∀ alpha range logic fixed var lookup, Mostly n fun z : F => ∀ aw saw,
        Ok zeta beta gamma delta epsilon alpha range logic fixed var lookup z aw saw) :
    Odds S (3 * T ^ 2 + 7 * n + 9)
      fun t : S × S × S × S × S × S × S × S × S × S × S × S × S × S =>
      let (zeta, beta, gamma, delta, epsilon, alpha, range, logic, fixed, var, lookup, z, aw, saw) := t
      ¬ Ok (g zeta) (g beta) (g gamma) (g delta) (g epsilon) (g alpha) (g range) (g logic) (g fixed) (g var)
        (g lookup) (g z) (g aw) (g saw) := by
  refine Odds.mono (k := (3 * T ^ 2 + 2) + ((4 * n + 1) + (3 + ((2 * n + 3) + (n + 0))))) ?_ (by omega)
    (fun _ h => h)
  refine odds_mostly hg h fun zeta h => Odds.skip fun beta => odds_mostly hg (h (g beta)) fun gamma h =>
    odds_mostly hg h fun delta h => odds_mostly hg h fun epsilon h => Odds.skip fun alpha =>
    Odds.skip fun range => Odds.skip fun logic => Odds.skip fun fixed => Odds.skip fun var =>
    Odds.skip fun lookup => odds_mostly hg (h (g alpha) (g range) (g logic) (g fixed) (g var) (g lookup))
    fun z h => ?_
  have : {t : S × S | ¬ Ok (g zeta) (g beta) (g gamma) (g delta) (g epsilon) (g alpha) (g range) (g logic) (g fixed)
      (g var) (g lookup) (g z) (g t.1) (g t.2)}
      = ∅ := by
    ext t
    simpa using h (g t.1) (g t.2)
  unfold Odds
  simp only [] at this ⊢
  rw [this]
  simp


end Plonk

end VO
