import Verif.Props.PlonkKzg
import Verif.Props.PlonkExamples

/-
C149 for the `Circuit` interface: `compile`, `gen_proof` and `verify_proof` on KZG commitments.
-/

set_option linter.unusedSectionVars false

namespace VO

open VO.Plonk VO.Spec VO.Spec.Plonk Polynomial

variable {F : Type} [Field F] [DecidableEq F]

namespace Plonk

theorem trimmed_commit {P : PCS F} {s : ℕ} {p : List F} {c : P.Comm}
    (h : (trimmed P s).commit p = .ok c) : P.commit p = .ok c := by
  simp only [trimmed] at h
  split at h
  · exact h
  · cases h

theorem commitQuad_trim {P : PCS F} {s : ℕ} {q : Quad F} {c : WitVals P.Comm}
    (h : commitQuad (trimmed P s) q = .ok c) : commitQuad P q = .ok c := by
  obtain ⟨h1, h2, h3, h4⟩ := commitQuad_inv h
  unfold commitQuad
  rw [trimmed_commit h1, trimmed_commit h2, trimmed_commit h3, trimmed_commit h4]
  rfl

theorem commitGate_trim {P : PCS F} {s : ℕ} {g : Gate (List F)} {c : Gate P.Comm}
    (h : commitGate (trimmed P s) g = .ok c) : commitGate P g = .ok c := by
  obtain ⟨h1, h2, h3, h4, h5, h6, h7, h8, h9, h10, h11, h12, h13, h14, h15⟩ := commitGate_inv h
  unfold commitGate
  rw [trimmed_commit h1, trimmed_commit h2, trimmed_commit h3, trimmed_commit h4, trimmed_commit h5,
    trimmed_commit h6, trimmed_commit h7, trimmed_commit h8, trimmed_commit h9, trimmed_commit h10,
    trimmed_commit h11, trimmed_commit h12, trimmed_commit h13, trimmed_commit h14, trimmed_commit h15]
  rfl

/-- Trimming does not change what is committed to. -/
theorem PreOk.trim {P : PCS F} {s : ℕ} {c : Composer F} {D : Dom F} {sel : Gate (List F)} {sig tab : Quad F}
    {vk : VKey (trimmed P s)} (h : PreOk (trimmed P s) c D sel sig tab vk) :
    PreOk P c D sel sig tab ⟨vk.n, vk.sel, vk.sig, vk.tab⟩ :=
  ⟨h.n, h.selEq, h.sigEq, h.tabEq, commitGate_trim h.selC, commitQuad_trim h.sigC, commitQuad_trim h.tabC⟩

theorem plonkVerify_trim {K : PField F} {E : EdCurve F} {P : PCS F} {ro : Transcript F P.Comm → F}
    {s : ℕ} (vk : VKey (trimmed P s)) (pr : PlonkProof (trimmed P s)) (pi : List (ℕ × F))
    (tr : Transcript F P.Comm) :
    plonkVerify K E (trimmed P s) ro vk tr pi pr
      = plonkVerify K E P ro ⟨vk.n, vk.sel, vk.sig, vk.tab⟩ tr pi
        ⟨pr.a, pr.b, pr.c, pr.d, pr.z, pr.f, pr.h1, pr.h2, pr.z2, pr.t, pr.aw, pr.saw, pr.ev⟩ := rfl

end Plonk

variable [Fintype F] {G1 G2 GT : Type} [AddCommGroup G1]
  [Module F G1] [AddCommGroup G2] [Module F G2] [AddCommGroup GT] [Module F GT]

/-- **C149 (circuits).** Soundness error of the `Circuit` interface on KZG commitments, in the algebraic
group model: universal parameters of degree `D` with a uniform secret `τ`, a circuit compiled with them,
and `verify_proof` with uniform challenges. A prover as in `C149_kzg` is accepted with probability at most
`(17n + 11D + 55) / |F|` when the wires it commits to first do not satisfy the circuit with the given
public inputs. -/
theorem C149_circuit {R : FieldRep F} {K : PField F} {E : EdCurve F} {n D : ℕ} (hK : PFieldOk K)
    {C : Circ F} (hC : Builds R E C) {rp rv rn : (F × F × F × F) × (F × F × F × F)} {c : Composer F}
    (hc : Filled C rv c) (hn : n = circuitBound c) (hd : n ≤ D + 1) (label : String)
    {pi : List (ℕ × F)} (hpi : Canonical pi) (hpos : ∀ e ∈ pi, e.1 ∈ c.intended_pi_pos)
    (e : G1 →ₗ[F] G2 →ₗ[F] GT) {g : G1} {h : G2} (hg : g ≠ 0) (hh : NonDegenerate e h)
    (s : KzgStrategy F) (hs : s.Bounded D)
    (hbad : ¬ ∃ x, Sat E (padRows c.lookup_table n) n c (piAt pi)
      (s.wires (K.fft.root (Nat.clog 2 n))) x) :
    Odds F (17 * n + 11 * D + 55)
      fun t : F × F × F × F × F × F × F × F × F × F × F × F × F × F × F =>
      let (zeta, beta, gamma, delta, epsilon, alpha, range, logic, fixed, var, lookup, zz, aw, saw, τ) := t
      let π := s.proof e g h D τ zeta beta gamma delta epsilon alpha range logic fixed var lookup zz aw saw
      SelectorsRight n (K.fft.root (Nat.clog 2 n)) c π.ev zz ∧
      ∃ pk vk pos, circuitCompile K (kzgPcs e g h D τ) D C rp rv = .ok (pk, vk, pos) ∧
        circuitVerify K E (kzgPcs e g h D τ) (coins [zeta, beta, gamma, delta, epsilon, alpha, range,
          logic, fixed, var, lookup, zz, aw, saw]) D vk (π.trim C.size) pi label rn = .ok () := by
  have hr := hc.reach hC
  have hw := Reach.wf hr
  refine (C149_kzg (E := E) hK hr hn hd (tr := [.init label]) rfl hpi.1 hpos e hg hh s hs hbad).mono le_rfl ?_
  rintro ⟨zeta, beta, gamma, delta, epsilon, alpha, range, logic, fixed, var, lookup, zz, aw, saw, τ⟩
    ⟨hsel, pk, vk, pos, hcomp, hok⟩
  refine ⟨hsel, ?_⟩
  obtain ⟨-, cp, cv, cp', cv', trp, trv, f1, f2, h1, h2, rfl⟩ := compile_inv hcomp
  obtain rfl := f2.uniq hc
  obtain ⟨Dm, sel, sig, tab, b1, b2, -, -⟩ := preprocessVerifier_inv hK (SameCircuit.refl cv) h2
  obtain ⟨⟨c1, vk1, sel1, sig1, D1, tab1, t1⟩, hsh⟩ := preprocessShared_run
    (kzg_complete e hg hh D τ) hw b1 (by rw [b1.eq, ← hn]; exact hd) [.init label]
  have hv : Verifier.preprocess K (P := kzgPcs e g h D τ) ⟨none, cv, [.init label]⟩
      = .ok ⟨some vk1, c1, t1⟩ := by
    unfold Verifier.preprocess preprocessVerifier
    rw [hsh]
    rfl
  refine ⟨⟨some vk1, c1, t1⟩, hv, ?_⟩
  obtain ⟨b1', -, b2', rfl⟩ := preprocessShared_inv hK hsh
  obtain rfl := b1.uniq b1'
  obtain ⟨-, -, -, rfl⟩ := b2.trim.uniq b2'
  by_cases hm' : 2 ^ Nat.clog 2 vk.n ≤ D
  swap
  · exfalso
    unfold circuitVerify at hok
    obtain ⟨_, -, hok⟩ := bind_okE hok
    obtain ⟨_, hk, -⟩ := bind_okE hok
    exact hm' (trimOk_inv hk)
  rw [circuitVerify_eq hm'] at hok
  have hok' := (plonkVerify_trim (P := kzgPcs e g h D τ) vk _ pi _).symm.trans hok
  exact (coins_verify (P := kzgPcs e g h D τ) (seed_count _ rfl) (tr' := [.init label]) rfl _ pi _
    ⟨zeta, beta, gamma, delta, epsilon, alpha, range, logic, fixed, var, lookup, zz, aw, saw⟩).trans hok'

/-- **C149 (circuits, completeness).** On KZG commitments with universal parameters of degree `D` and any
secret: `compile` succeeds, and the probability over uniform challenges that `gen_proof` with satisfying
values does not return a proof that `verify_proof` accepts is at most `(3T² + 7n + 9) / |F|`. -/
theorem C149_circuit_complete {R : FieldRep F} {K : PField F} {E : EdCurve F} {n D : ℕ} (hK : PFieldOk K)
    (e : G1 →ₗ[F] G2 →ₗ[F] GT) {g : G1} {h : G2} (hg : g ≠ 0) (hh : NonDegenerate e h) (τ : F)
    {C C' : Circ F} (hsame : SameGadget R E C.gadget C'.gadget)
    {rp rv r r' rn : (F × F × F × F) × (F × F × F × F)} {cp cv c : Composer F}
    (hcp : Filled C rp cp) (hcv : Filled C rv cv) (hc : Filled C' r c) (hs : OwnSat E c)
    (hn : n = circuitBound c) (hsize : C.size = C'.size) (hns : n ≤ C.size) (hm : C.size ≤ D)
    (h8 : Nat.clog 2 (8 * n) ≤ K.fft.twoAdicity) (hT : c.lookup_table.Nodup) (label : String) :
    ∃ pk vk, circuitCompile K (kzgPcs e g h D τ) D C rp rv = .ok (pk, vk, c.intended_pi_pos) ∧
      Odds F (3 * c.lookup_table.length ^ 2 + 7 * n + 9)
        fun t : F × F × F × F × F × F × F × F × F × F × F × F × F × F =>
        let (zeta, beta, gamma, delta, epsilon, alpha, range, logic, fixed, var, lookup, z, aw, saw) := t
        let ro : Transcript F (kzgPcs e g h D τ).Comm → F := coins [zeta, beta, gamma, delta, epsilon,
          alpha, range, logic, fixed, var, lookup, z, aw, saw]
        ¬ ∃ pr, circuitProve K E (kzgPcs e g h D τ) ro D C' pk label r r' = .ok (pr, c.public_inputs) ∧
          circuitVerify K E (kzgPcs e g h D τ) ro D vk pr c.public_inputs label rn = .ok () :=
  C142_circuit hK (kzg_complete e hg hh D τ) hsame hcp hcv hc hs hn (by omega) hsize hns hm h8 hT label

/-- **C149 (the example).** The circuit of simple_circuit.rs on KZG commitments: with public inputs that no
numbers below the bounds and no multiple of the generator make, every algebraic prover that commits to any
wires is accepted with probability at most `(11D + 8759) / |F|` over the secret and the challenges. -/
theorem C149_simple_circuit {Q : Type} [Field Q] {S : PrimeRep Q} {T : PrimeRep F} {R : FieldRep F}
    {E : EdCurve F} {gen : F × F} {kA kB D : ℕ} {PF : PField F} (hK : PFieldOk PF)
    (hE : EdComplete E) (hS : PrimeOk S) (hT : PrimeOk T)
    (hST : S.modulus ≤ T.modulus) (hR : R = T.fieldRep) (h3 : 3 * S.modulus ≤ 2 ^ (R.modBits + 1))
    (hgen : E.check gen = true) (hb : 238 ≤ R.modBits ∧ R.modBits ≤ 256)
    (hA : kA % 2 = 0 ∧ 0 < kA ∧ kA ≤ 64) (hB : kB % 2 = 0 ∧ 0 < kB ∧ kB ≤ 64) (hd : 511 ≤ D)
    (t0 : SimpleValues F Q) (rp rv rn : (F × F × F × F) × (F × F × F × F))
    (label : String) {pi : List (ℕ × F)} (hpi : Canonical pi)
    (hpos : ∀ e ∈ pi, e.1 ∈ simplePos R kA kB)
    (e : G1 →ₗ[F] G2 →ₗ[F] GT) {g : G1} {h : G2} (hg : g ≠ 0) (hh : NonDegenerate e h)
    (s : KzgStrategy F) (hs : s.Bounded D)
    (hbad : ¬ ∃ (A B : ℕ) (k : ℤ), A < 2 ^ kA ∧ B < 2 ^ kB ∧ |k| < 2 ^ R.modBits ∧
      (simplePos R kA kB).map (fun i => -piAt pi i)
        = [(A : F) + B, (A : F) * B, (edMulZ E k gen).1, (edMulZ E k gen).2]) :
    ∃ c, Filled (simpleCirc S T R E gen kA kB t0) rv c ∧ Odds F (11 * D + 8759)
      fun t : F × F × F × F × F × F × F × F × F × F × F × F × F × F × F =>
      let (zeta, beta, gamma, delta, epsilon, alpha, range, logic, fixed, var, lookup, zz, aw, saw, τ) := t
      let π := s.proof e g h D τ zeta beta gamma delta epsilon alpha range logic fixed var lookup zz aw saw
      SelectorsRight 512 (PF.fft.root 9) c π.ev zz ∧
      ∃ pk vk pos, circuitCompile PF (kzgPcs e g h D τ) D (simpleCirc S T R E gen kA kB t0) rp rv
          = .ok (pk, vk, pos) ∧
        circuitVerify PF E (kzgPcs e g h D τ) (coins [zeta, beta, gamma, delta, epsilon, alpha, range,
          logic, fixed, var, lookup, zz, aw, saw]) D vk (π.trim (2 ^ 9)) pi label rn = .ok () := by
  have hbig : R.modBits ≤ R.bigBits := by rw [hR]; exact hT.repOk.mod_le
  obtain ⟨c, fc, hn, ht', hp'⟩ := C130_runs (R := R) (E := E) (gen := gen) (kA := kA) (kB := kB) hS hT hST hR h3
    (by omega) ⟨hA.1, hA.2.1, by omega⟩ ⟨hB.1, hB.2.1, by omega⟩ hgen t0 rv
  have hbound := Plonk.simple_bound hA.2 hB.2 hb hn ht'
  have hlog : Nat.clog 2 512 = 9 := by
    rw [show (512 : ℕ) = 2 ^ 9 by norm_num, Nat.clog_pow _ _ (by norm_num)]
  have key := C149_circuit (R := R) (E := E) (n := 512) hK (C := simpleCirc S T R E gen kA kB t0)
    (fun c x c' => (gadget_builds (simple_same (R := R) (E := E) t0 t0)).1 c x c') (rp := rp) (rn := rn) fc
    hbound.symm (by omega) label hpi (by rw [hp']; exact hpos) e hg hh s hs
    (fun ⟨x, hx⟩ => hbad (C130_sound hE fc hx))
  rw [hlog] at key
  exact ⟨c, fc, key.mono (by omega) fun _ h => h⟩

/-- For the small circuit over the field with 7681 elements, compiled with parameters of degree 8: a prover
is accepted with public input `1`, which cannot be satisfied, in at most 279 of 7681 cases. -/
example (s : KzgStrategy K7681) (hs : s.Bounded 8) :
    Odds K7681 279
      fun t : K7681 × K7681 × K7681 × K7681 × K7681 × K7681 × K7681 × K7681 × K7681 × K7681 × K7681 ×
        K7681 × K7681 × K7681 × K7681 =>
      let (zeta, beta, gamma, delta, epsilon, alpha, range, logic, fixed, var, lookup, zz, aw, saw, τ) := t
      let e := LinearMap.mul K7681 K7681
      let π := s.proof e 1 1 8 τ zeta beta gamma delta epsilon alpha range logic fixed var lookup zz aw saw
      SelectorsRight 8 (pf7681.fft.root 3) (exC 0 0) π.ev zz ∧
      ∃ pk vk pos, circuitCompile pf7681 (kzgPcs e 1 1 8 τ) 8 (exCirc 0 0) ((1, 2, 3, 4), (5, 6, 7, 8))
          ((1, 2, 3, 4), (5, 6, 7, 8)) = .ok (pk, vk, pos) ∧
        circuitVerify pf7681 E7681 (kzgPcs e 1 1 8 τ) (coins [zeta, beta, gamma, delta, epsilon, alpha,
          range, logic, fixed, var, lookup, zz, aw, saw]) 8 vk (π.trim 8) [(5, 1)] "t"
          ((1, 2, 3, 4), (5, 6, 7, 8)) = .ok () := by
  have hnd : NonDegenerate (LinearMap.mul K7681 K7681) (1 : K7681) := by
    intro x hx
    simpa using hx
  have := C149_circuit (n := 8) (D := 8) pf7681_ok (exCirc_builds 0 0) (rp := ((1, 2, 3, 4), (5, 6, 7, 8)))
    (rn := ((1, 2, 3, 4), (5, 6, 7, 8))) (exCirc_filled 0 0) (by decide +kernel) (by norm_num) "t"
    (pi := [(5, 1)]) ⟨by simp, by simp⟩ (by decide +kernel)
    (LinearMap.mul K7681 K7681) (g := (1 : K7681)) (h := (1 : K7681)) one_ne_zero hnd s hs
    (fun ⟨x, hx⟩ => exC_unsat ⟨_, x, hx⟩)
  exact this

end VO
