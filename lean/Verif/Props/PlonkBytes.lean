import Verif.Lemmas.PlonkDraw
import Verif.Props.PlonkChallenge
import Verif.Props.Fields

/-
Property theorems C158: the error probabilities of PLONK when what is drawn uniformly are the bytes that the
transcript gives for a challenge (`/repo/plonk-core/src/transcript.rs:34-44`), one byte less than the modulus has.
-/

set_option linter.unusedSectionVars false

namespace VO

open VO.Plonk VO.Spec VO.Spec.Plonk Polynomial

/-- The bytes of one challenge. -/
abbrev ChalBytes (p : ℕ) : Type := Fin (challengeSize p) → UInt8

theorem chalBytes_card (p : ℕ) : Fintype.card (ChalBytes p) = 256 ^ challengeSize p := by
  rw [Fintype.card_fun, Fintype.card_fin, ← Nat.card_eq_fintype_card (α := UInt8)]
  congr 1
  rw [Nat.card_congr (byteEquiv)]
  simp

theorem chal_injective {p : ℕ} {ch : ChalBytes p → ZMod p} (hp8 : Nat.size p % 8 ≠ 0)
    (hch : ∀ d, challengeScalar p (List.ofFn d) = .ok (ch d)) : ch.Injective := by
  intro d d' h
  obtain ⟨a, e, v⟩ := C155_never_panics p hp8 d
  obtain ⟨a', e', v'⟩ := C155_never_panics p hp8 d'
  obtain rfl := Except.ok.inj ((hch d).symm.trans e)
  obtain rfl := Except.ok.inj ((hch d').symm.trans e')
  rw [h, v', ← digestEquiv_val, ← digestEquiv_val] at v
  exact (digestEquiv _).injective (Fin.ext v.symm)

theorem chal_card {p : ℕ} [Fact p.Prime] (hp8 : Nat.size p % 8 ≠ 0) :
    Fintype.card (ChalBytes p) ≤ Fintype.card (ZMod p) := by
  rw [chalBytes_card, ZMod.card]
  exact buffer_le hp8

section
variable {p : ℕ} [Fact p.Prime]
variable {G1 G2 GT : Type} [AddCommGroup G1] [Module (ZMod p) G1] [AddCommGroup G2] [Module (ZMod p) G2]
  [AddCommGroup GT] [Module (ZMod p) GT]

/-- **C158.** Soundness error of PLONK, for any commitment scheme that binds, with the bytes of the challenges
uniform: the bound of C139 with `256^size` in place of the order of the field. -/
theorem C158_plonk (hp8 : Nat.size p % 8 ≠ 0) {ch : ChalBytes p → ZMod p}
    (hch : ∀ d, challengeScalar p (List.ofFn d) = .ok (ch d))
    {R : FieldRep (ZMod p)} {K : PField (ZMod p)} {E : EdCurve (ZMod p)} {P : PCS (ZMod p)} {d n : ℕ}
    (hK : PFieldOk K) (hS : PcsSound P d) {c : Composer (ZMod p)} (hc : Reach R E c)
    (hn : n = circuitBound c) {tr : Transcript (ZMod p) P.Comm} (htr : tr.countP isChal = 0)
    {v : Verifier P} (hv : Verifier.preprocess K (P := P) ⟨none, c, tr⟩ = .ok v) {vk : VKey P}
    (hvk : v.key = some vk) {pi : List (ℕ × ZMod p)} (hpi : pi.Pairwise fun a b => a.1 < b.1)
    (hpos : ∀ e ∈ pi, e.1 ∈ c.intended_pi_pos) (s : PlonkStrategy (ZMod p) P)
    (hbad : ¬ ∃ x, Sat E (padRows c.lookup_table n) n c (piAt pi)
      (committedWires hS (K.fft.root (Nat.clog 2 n)) s.wa s.wb s.wc s.wd) x) :
    let S := ChalBytes p
    Odds S (17 * n + 10 * max d n + 34) fun t : S × S × S × S × S × S × S × S × S × S × S × S × S × S =>
      let (zeta, beta, gamma, delta, epsilon, alpha, range, logic, fixed, var, lookup, zz, aw, saw) := t
      let π := s.proof (ch zeta) (ch beta) (ch gamma) (ch delta) (ch epsilon) (ch alpha) (ch range) (ch logic)
        (ch fixed) (ch var) (ch lookup) (ch zz) (ch aw) (ch saw)
      HonestSelectors hS vk π.ev (ch zz) ∧
      v.verify K E (coins [ch zeta, ch beta, ch gamma, ch delta, ch epsilon, ch alpha, ch range, ch logic,
        ch fixed, ch var, ch lookup, ch zz, ch aw, ch saw]) π pi = .ok () :=
  plonk_draw (chal_injective hp8 hch) hK hS hc hn htr hv hvk hpi hpos s hbad

/-- **C158.** The same for KZG commitments whose secret `τ` is uniform in the field (C149). -/
theorem C158_kzg (hp8 : Nat.size p % 8 ≠ 0) {ch : ChalBytes p → ZMod p}
    (hch : ∀ d, challengeScalar p (List.ofFn d) = .ok (ch d))
    {R : FieldRep (ZMod p)} {K : PField (ZMod p)} {E : EdCurve (ZMod p)} {n D : ℕ} (hK : PFieldOk K)
    {c : Composer (ZMod p)} (hc : Reach R E c) (hn : n = circuitBound c) (hd : n ≤ D + 1)
    {tr : Transcript (ZMod p) G1} (htr : tr.countP isChal = 0) {pi : List (ℕ × ZMod p)}
    (hpi : pi.Pairwise fun a b => a.1 < b.1) (hpos : ∀ e ∈ pi, e.1 ∈ c.intended_pi_pos)
    (e : G1 →ₗ[ZMod p] G2 →ₗ[ZMod p] GT) {g : G1} {h : G2} (hg : g ≠ 0) (hh : NonDegenerate e h)
    (s : KzgStrategy (ZMod p)) (hs : s.Bounded D)
    (hbad : ¬ ∃ x, Sat E (padRows c.lookup_table n) n c (piAt pi)
      (s.wires (K.fft.root (Nat.clog 2 n))) x) :
    let S := ChalBytes p
    Odds S (17 * n + 11 * D + 55)
      fun t : S × S × S × S × S × S × S × S × S × S × S × S × S × S × ZMod p =>
      let (zeta, beta, gamma, delta, epsilon, alpha, range, logic, fixed, var, lookup, zz, aw, saw, τ) := t
      let π := s.proof e g h D τ (ch zeta) (ch beta) (ch gamma) (ch delta) (ch epsilon) (ch alpha) (ch range)
        (ch logic) (ch fixed) (ch var) (ch lookup) (ch zz) (ch aw) (ch saw)
      SelectorsRight n (K.fft.root (Nat.clog 2 n)) c π.ev (ch zz) ∧
      ∃ v : Verifier (kzgPcs e g h D τ),
        Verifier.preprocess K (P := kzgPcs e g h D τ) ⟨none, c, tr⟩ = .ok v ∧
        v.verify K E (coins [ch zeta, ch beta, ch gamma, ch delta, ch epsilon, ch alpha, ch range, ch logic,
          ch fixed, ch var, ch lookup, ch zz, ch aw, ch saw]) π pi = .ok () :=
  kzg_draw (chal_injective hp8 hch) (chal_card hp8) hK hc hn hd htr hpi hpos e hg hh s hs hbad

/-- **C158.** Completeness error with the bytes uniform: the bound of C142 with `256^size` in place of the order
of the field. -/
theorem C158_complete (hp8 : Nat.size p % 8 ≠ 0) {ch : ChalBytes p → ZMod p}
    (hch : ∀ d, challengeScalar p (List.ofFn d) = .ok (ch d))
    {R : FieldRep (ZMod p)} {K : PField (ZMod p)} {E : EdCurve (ZMod p)} {P : PCS (ZMod p)} {d n : ℕ}
    (hK : PFieldOk K) (hP : PcsComplete P d) {c cv : Composer (ZMod p)} (hc : Reach R E c)
    (hs : OwnSat E c) (hn : n = circuitBound c) (hd : n ≤ d)
    (h8 : Nat.clog 2 (8 * n) ≤ K.fft.twoAdicity) (hT : c.lookup_table.Nodup)
    (hrv : Reach R E cv) (hcv : SameCircuit cv c) {tr : Transcript (ZMod p) P.Comm}
    (htr : tr.countP isChal = 0) (r1 r2 : ZMod p × ZMod p × ZMod p × ZMod p) :
    let S := ChalBytes p
    ∃ v : Verifier P, Verifier.preprocess K (P := P) ⟨none, cv, tr⟩ = .ok v ∧
      Odds S (3 * c.lookup_table.length ^ 2 + 7 * n + 9)
        fun t : S × S × S × S × S × S × S × S × S × S × S × S × S × S =>
        let (zeta, beta, gamma, delta, epsilon, alpha, range, logic, fixed, var, lookup, z, aw, saw) := t
        let ro : Transcript (ZMod p) P.Comm → ZMod p := coins [ch zeta, ch beta, ch gamma, ch delta, ch epsilon,
          ch alpha, ch range, ch logic, ch fixed, ch var, ch lookup, ch z, ch aw, ch saw]
        ¬ ∃ pr s, Prover.prove K E ro ⟨none, c, tr⟩ r1 r2 = .ok (pr, s) ∧
          v.verify K E ro pr c.public_inputs = .ok () := by
  subst hn
  obtain ⟨v, hv, h⟩ := C105_succeeds hK hP hc hs hd h8 hT hrv hcv htr r1 r2
  exact ⟨v, hv, succeeds_draw (chal_injective hp8 hch) _ _ _ h⟩

end

/-! ## BLS12-381 and BLS12-377 -/

theorem size381 : Nat.size r381 = 255 := (modBits_of r381 4).symm.trans C126_plonk_field.2.2.2.2.2.2.1

theorem size377 : Nat.size r377 = 253 := (modBits_of r377 4).symm.trans C126_plonk_field.2.2.2.2.2.2.2

/-- In both fields a challenge has 31 bytes, so there are `2^248` of them. -/
theorem C158_sizes : challengeSize r381 = 31 ∧ challengeSize r377 = 31 ∧
    Fintype.card (ChalBytes r381) = 2 ^ 248 ∧ Fintype.card (ChalBytes r377) = 2 ^ 248 := by
  have h1 : challengeSize r381 = 31 := by unfold challengeSize; rw [size381]
  have h2 : challengeSize r377 = 31 := by unfold challengeSize; rw [size377]
  refine ⟨h1, h2, ?_, ?_⟩
  · rw [chalBytes_card, h1]; norm_num
  · rw [chalBytes_card, h2]; norm_num

section
variable {G1 G2 GT : Type} [AddCommGroup G1] [Module Fr381 G1] [AddCommGroup G2] [Module Fr381 G2]
  [AddCommGroup GT] [Module Fr381 GT]

/-- **C158.** The `Circuit` interface over BLS12-381, without assumptions on the field: universal parameters of
degree `D` with a uniform secret, a circuit compiled with them, and `verify_proof` with challenges of 31 uniform
bytes. A prover as in C149 whose first wires do not satisfy the circuit is accepted with probability at most
`(17n + 11D + 55) / 2^248`. -/
theorem C158_bls {R : FieldRep Fr381} {E : EdCurve Fr381} {n D : ℕ}
    {ch : ChalBytes r381 → Fr381} (hch : ∀ d, challengeScalar r381 (List.ofFn d) = .ok (ch d))
    {C : Circ Fr381} (hC : Plonk.Builds R E C)
    {rp rv rn : (Fr381 × Fr381 × Fr381 × Fr381) × (Fr381 × Fr381 × Fr381 × Fr381)} {c : Composer Fr381}
    (hc : Filled C rv c) (hn : n = circuitBound c) (hd : n ≤ D + 1) (label : String)
    {pi : List (ℕ × Fr381)} (hpi : Canonical pi) (hpos : ∀ e ∈ pi, e.1 ∈ c.intended_pi_pos)
    (e : G1 →ₗ[Fr381] G2 →ₗ[Fr381] GT) {g : G1} {h : G2} (hg : g ≠ 0) (hh : NonDegenerate e h)
    (s : KzgStrategy Fr381) (hs : s.Bounded D)
    (hbad : ¬ ∃ x, Sat E (padRows c.lookup_table n) n c (piAt pi)
      (s.wires ((fftOf r381 7 32).root (Nat.clog 2 n))) x) :
    let S := ChalBytes r381
    let T := S × S × S × S × S × S × S × S × S × S × S × S × S × S × Fr381
    let K := pfieldOf r381 7 32
    (({t : T |
      let (zeta, beta, gamma, delta, epsilon, alpha, range, logic, fixed, var, lookup, zz, aw, saw, τ) := t
      let π := s.proof e g h D τ (ch zeta) (ch beta) (ch gamma) (ch delta) (ch epsilon) (ch alpha) (ch range)
        (ch logic) (ch fixed) (ch var) (ch lookup) (ch zz) (ch aw) (ch saw)
      SelectorsRight n ((fftOf r381 7 32).root (Nat.clog 2 n)) c π.ev (ch zz) ∧
      ∃ pk vk pos, circuitCompile K (kzgPcs e g h D τ) D C rp rv = .ok (pk, vk, pos) ∧
        circuitVerify K E (kzgPcs e g h D τ) (coins [ch zeta, ch beta, ch gamma, ch delta, ch epsilon, ch alpha,
          ch range, ch logic, ch fixed, ch var, ch lookup, ch zz, ch aw, ch saw]) D vk (π.trim C.size) pi label rn
          = .ok ()}.ncard : ℕ) : ℚ) / Fintype.card T ≤ ((17 * n + 11 * D + 55 : ℕ) : ℚ) / 2 ^ 248 := by
  have hp8 : Nat.size r381 % 8 ≠ 0 := by rw [size381]; norm_num
  have := kzg_circuit_draw (E := E) (chal_injective hp8 hch) (chal_card hp8) C126_plonk_field.1 hC hc hn hd label
    (rp := rp) (rn := rn) hpi hpos e hg hh s hs hbad
  rw [odds_iff_div, C158_sizes.2.2.1] at this
  exact_mod_cast this

end

/-! ### A circuit that only accepts the public input 0 -/

namespace Plonk

/-- It asserts that the zero variable plus a public input is zero. -/
def exPub : Circ Fr381 :=
  ⟨zeroVar >>= fun z => constrainToConstant z 0 (some 0) >>= fun _ => pure (.ok ()), 8⟩

theorem exPub_builds (R : FieldRep Fr381) (E : EdCurve Fr381) : Builds R E exPub := by
  intro c x c' hr h
  unfold exPub at h
  obtain ⟨z, c1, hz, h⟩ := bindC_ok.1 h
  obtain ⟨rfl, rfl⟩ := zeroVar_ok.1 hz
  obtain ⟨_, c2, h2, h⟩ := bindC_ok.1 h
  cases h
  exact .call hr (.constrain_to_constant ..) h2

theorem exPub_filled (R : FieldRep Fr381) (E : EdCurve Fr381) :
    ∃ c, Filled exPub ((1, 2, 3, 4), (5, 6, 7, 8)) c ∧ circuitBound c = 8 ∧ 4 ∈ c.intended_pi_pos ∧
      ∀ T N w v, ¬ Sat E T N c (piAt [(4, 1)]) w v := by
  obtain ⟨c0, h0, hr0, -, hn, -⟩ := C85_new (R := R) (E := E) (F := Fr381) (1, 2, 3, 4) (5, 6, 7, 8)
  have ht : c0.lookup_table = [] := by
    have : (match newComposer (F := Fr381) (1, 2, 3, 4) (5, 6, 7, 8) with
      | .ok c => c.lookup_table | _ => [(0, 0, 0, 0)]) = [] := by decide +kernel
    rw [h0] at this
    exact this
  have hw := Reach.wf hr0
  obtain ⟨c1, h1⟩ := constrainToConstant_run hw (0 : Fr381) (some 0) (a := c0.zero_var) hw.zero
  obtain ⟨P, -⟩ := constrainToConstant_fwd hw h1
  have hr1 : Reach R E c1 := .call hr0 (.constrain_to_constant _ _ _) h1
  refine ⟨c1, ⟨c0, h0, ?_⟩, ?_, ?_, ?_⟩
  · exact bindC_ok.2 ⟨_, _, zeroVar_ok.2 ⟨rfl, rfl⟩, bindC_ok.2 ⟨_, _, h1, rfl⟩⟩
  · unfold circuitBound
    rw [P.n, P.table, ht, hn]
    decide
  · rw [← hn]
    exact P.int.2 rfl
  · intro T N w v hs
    have e1 := (C87_constrain_to_constant hr0 h1).2.1 _ _ _ _ _ _ hs
    have e2 : v c0.zero_var = 0 := hw.zeroSound E T N _ w v (P.ext.sat hs)
    rw [e2, hn] at e1
    have : (1 : Fr381) = 0 := by
      have e3 : piAt [(4, (1 : Fr381))] 4 = 1 := by simp [piAt]
      rw [e3] at e1
      linear_combination e1
    exact one_ne_zero this

end Plonk

/-- With parameters of degree 7 over BLS12-381, a prover is accepted with public input 1 with probability at most
`268 / 2^248`. -/
example (s : KzgStrategy Fr381) (hs : s.Bounded 7) (R : FieldRep Fr381) (E : EdCurve Fr381)
    (ch : ChalBytes r381 → Fr381) (hch : ∀ d, challengeScalar r381 (List.ofFn d) = .ok (ch d)) :
    let S := ChalBytes r381
    let T := S × S × S × S × S × S × S × S × S × S × S × S × S × S × Fr381
    let K := pfieldOf r381 7 32
    let e := LinearMap.mul Fr381 Fr381
    let r := (((1, 2, 3, 4), (5, 6, 7, 8)) : (Fr381 × Fr381 × Fr381 × Fr381) × (Fr381 × Fr381 × Fr381 × Fr381))
    ∃ c, Filled exPub r c ∧ circuitBound c = 8 ∧
    (({t : T |
      let (zeta, beta, gamma, delta, epsilon, alpha, range, logic, fixed, var, lookup, zz, aw, saw, τ) := t
      let π := s.proof e 1 1 7 τ (ch zeta) (ch beta) (ch gamma) (ch delta) (ch epsilon) (ch alpha) (ch range)
        (ch logic) (ch fixed) (ch var) (ch lookup) (ch zz) (ch aw) (ch saw)
      SelectorsRight 8 ((fftOf r381 7 32).root (Nat.clog 2 8)) c π.ev (ch zz) ∧
      ∃ pk vk pos, circuitCompile K (kzgPcs e 1 1 7 τ) 7 exPub r r = .ok (pk, vk, pos) ∧
        circuitVerify K E (kzgPcs e 1 1 7 τ) (coins [ch zeta, ch beta, ch gamma, ch delta, ch epsilon, ch alpha,
          ch range, ch logic, ch fixed, ch var, ch lookup, ch zz, ch aw, ch saw]) 7 vk (π.trim 8) [(4, 1)] "t" r
          = .ok ()}.ncard : ℕ) : ℚ) / Fintype.card T ≤ ((17 * 8 + 11 * 7 + 55 : ℕ) : ℚ) / 2 ^ 248 := by
  have hnd : NonDegenerate (LinearMap.mul Fr381 Fr381) (1 : Fr381) := by
    intro x hx
    simpa using hx
  obtain ⟨c, hf, hb, hp, hu⟩ := exPub_filled R E
  refine ⟨c, hf, hb, ?_⟩
  exact C158_bls (n := 8) (D := 7) hch (exPub_builds R E) hf hb.symm (by norm_num) "t" (pi := [(4, 1)])
    ⟨by simp, by simp⟩ (by simpa using hp) (LinearMap.mul Fr381 Fr381) (g := (1 : Fr381)) (h := (1 : Fr381))
    one_ne_zero hnd s hs (fun ⟨x, hx⟩ => hu _ _ _ _ hx)

/-- The function `ch` exists. -/
example : ∃ ch : ChalBytes r381 → Fr381, ∀ d, challengeScalar r381 (List.ofFn d) = .ok (ch d) := by
  have h := C155_never_panics r381 (by rw [size381]; norm_num)
  exact ⟨fun d => (h d).choose, fun d => (h d).choose_spec.1⟩

end VO
