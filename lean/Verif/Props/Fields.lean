import Verif.Lemmas.Fields
import Verif.Props.PlonkUtil
import Verif.Props.PlonkCompile
import Verif.Props.CircuitSnark

/-
C126: the scalar fields the repository is used with meet the assumptions the other theorems make on
the field.
-/

set_option linter.unusedSectionVars false

namespace VO

open Plonk Spec Spec.Plonk

/-- The two moduli are prime. -/
theorem C126_prime : r381.Prime ∧ r377.Prime := ⟨fact381.out, fact377.out⟩

/-- The roots of unity of the two fields are primitive for every domain size up to the two-adicity, and
each is the square of the next. -/
theorem C126_roots :
    (∀ e ≤ 32, IsPrimitiveRoot ((fftOf r381 7 32).root e) (2 ^ e)) ∧
    (∀ e < 32, (fftOf r381 7 32).root (e + 1) ^ 2 = (fftOf r381 7 32).root e) ∧
    (∀ e ≤ 47, IsPrimitiveRoot ((fftOf r377 22 47).root e) (2 ^ e)) ∧
    (∀ e < 47, (fftOf r377 22 47).root (e + 1) ^ 2 = (fftOf r377 22 47).root e) :=
  ⟨cert381.pfieldOk.root, cert381.pfieldOk.step, cert377.pfieldOk.root, cert377.pfieldOk.step⟩

/-- `generator_of!` generates the whole multiplicative group: its powers are distinct below the
modulus minus one, so for every vector that fits in memory. -/
theorem C126_generator :
    orderOf (7 : Fr381) = r381 - 1 ∧ orderOf (22 : Fr377) = r377 - 1 ∧
    (∀ i < 2 ^ 64, ∀ j < 2 ^ 64, (7 : Fr381) ^ i = 7 ^ j → i = j) ∧
    (∀ i < 2 ^ 64, ∀ j < 2 ^ 64, (22 : Fr377) ^ i = 22 ^ j → i = j) := by
  refine ⟨cert381.generator.eq_orderOf.symm, cert377.generator.eq_orderOf.symm, ?_, ?_⟩
  · intro i hi j hj h
    have : 2 ^ 64 < r381 - 1 := by decide +kernel
    exact cert381.gamma_inj i (by omega) j (by omega) h
  · intro i hi j hj h
    have : 2 ^ 64 < r377 - 1 := by decide +kernel
    exact cert377.gamma_inj i (by omega) j (by omega) h

theorem coset_inj {F : Type} [Field F] {omega : F} {e : ℕ} (hw : IsPrimitiveRoot omega (2 ^ e))
    {k k' : F} (h0 : k ≠ 0) (hk : k ≠ k' → k ^ 2 ^ e ≠ k' ^ 2 ^ e) {i j : ℕ} (hi : i < 2 ^ e)
    (hj : j < 2 ^ e) (h : k * omega ^ i = k' * omega ^ j) : k = k' ∧ i = j := by
  have h1 : ∀ l, (omega ^ l) ^ 2 ^ e = 1 := fun l => by
    rw [← pow_mul, mul_comm, pow_mul, hw.pow_eq_one, one_pow]
  have h2 := congrArg (· ^ 2 ^ e) h
  simp only [mul_pow, h1, mul_one] at h2
  have hkk : k = k' := by
    by_contra hc
    exact hk hc h2
  subst hkk
  exact ⟨rfl, hw.pow_inj hi hj (mul_left_cancel₀ h0 h)⟩

/-- The constants of the permutation argument give four disjoint cosets of every domain: the labels
`k * ωⁱ` of the wires are pairwise different, for both fields and every domain size. -/
theorem C126_cosets :
    (∀ e ≤ 32, ∀ k ∈ ([1, 7, 13, 17] : List Fr381), ∀ k' ∈ ([1, 7, 13, 17] : List Fr381),
      ∀ i < 2 ^ e, ∀ j < 2 ^ e,
      k * (fftOf r381 7 32).root e ^ i = k' * (fftOf r381 7 32).root e ^ j → k = k' ∧ i = j) ∧
    (∀ e ≤ 47, ∀ k ∈ ([1, 7, 13, 17] : List Fr377), ∀ k' ∈ ([1, 7, 13, 17] : List Fr377),
      ∀ i < 2 ^ e, ∀ j < 2 ^ e,
      k * (fftOf r377 22 47).root e ^ i = k' * (fftOf r377 22 47).root e ^ j → k = k' ∧ i = j) := by
  have key : ∀ {F : Type} [Field F] [DecidableEq F] {K : PField F} (h : PFieldOk K),
      ∀ e ≤ K.fft.twoAdicity,
      ∀ k ∈ ([1, 7, 13, 17] : List F), ∀ k' ∈ ([1, 7, 13, 17] : List F), ∀ i < 2 ^ e, ∀ j < 2 ^ e,
      k * K.fft.root e ^ i = k' * K.fft.root e ^ j → k = k' ∧ i = j := by
    intro F _ _ K h e he k hk k' hk' i hi j hj hh
    obtain ⟨n1, n2, n3⟩ := h.nz
    have q1 := h.k1 e he
    have q2 := h.k2 e he
    have q3 := h.k3 e he
    have q12 := h.k12 e he
    have q13 := h.k13 e he
    have q23 := h.k23 e he
    refine coset_inj (h.root e he) ?_ ?_ hi hj hh
    · simp only [List.mem_cons, List.not_mem_nil, or_false] at hk
      rcases hk with rfl | rfl | rfl | rfl
      · exact one_ne_zero
      · exact n1
      · exact n2
      · exact n3
    · intro hne
      simp only [List.mem_cons, List.not_mem_nil, or_false] at hk hk'
      rcases hk with rfl | rfl | rfl | rfl <;> rcases hk' with rfl | rfl | rfl | rfl <;>
        first
        | exact absurd rfl hne
        | (rw [one_pow]; first | exact q1.symm | exact q2.symm | exact q3.symm)
        | (rw [one_pow]; first | exact q1 | exact q2 | exact q3)
        | exact q12
        | exact q12.symm
        | exact q13
        | exact q13.symm
        | exact q23
        | exact q23.symm
  exact ⟨key cert381.pfieldOk, key cert377.pfieldOk⟩

theorem primeOk_of {p limbs : ℕ} [Fact p.Prime] (h : p < 2 ^ (64 * limbs)) : PrimeOk (primeRepOf p limbs) where
  cast x := ZMod.natCast_zmod_val x
  lt x := ZMod.val_lt x
  own m hm := ZMod.val_cast_of_lt hm
  fits := h

theorem modBits_of (p limbs : ℕ) : (primeRepOf p limbs).fieldRep.modBits = Nat.size p := rfl

/-- Everything the PLONK theorems assume of the field holds for the two fields: roots, coset generator
and constants, and the representation by integers in four limbs. -/
theorem C126_plonk_field :
    PFieldOk (pfieldOf r381 7 32) ∧ RepOk (primeRepOf r381 4).fieldRep ∧ (2 : Fr381) ≠ 0 ∧
    PFieldOk (pfieldOf r377 22 47) ∧ RepOk (primeRepOf r377 4).fieldRep ∧ (2 : Fr377) ≠ 0 ∧
    (primeRepOf r381 4).fieldRep.modBits = 255 ∧ (primeRepOf r377 4).fieldRep.modBits = 253 := by
  have two : ∀ p : ℕ, 2 < p → (2 : ZMod p) ≠ 0 := fun p hp => by
    have := natCast_ne_zero_of_lt (p := p) (k := 2) (by norm_num) hp
    simpa using this
  refine ⟨cert381.pfieldOk, (primeOk_of (by decide +kernel)).repOk, two _ (by decide +kernel),
    cert377.pfieldOk, (primeOk_of (by decide +kernel)).repOk, two _ (by decide +kernel), ?_, ?_⟩
  · have h1 : r381 < 2 ^ 255 := by decide +kernel
    have h2 : 2 ^ 254 ≤ r381 := by decide +kernel
    have h3 : Nat.size r381 = 255 := by
      have a1 := Nat.size_le.2 h1
      have a2 := Nat.lt_size.2 h2
      omega
    rw [modBits_of, h3]
  · have h1 : r377 < 2 ^ 253 := by decide +kernel
    have h2 : 2 ^ 252 ≤ r377 := by decide +kernel
    have h3 : Nat.size r377 = 253 := by
      have a1 := Nat.size_le.2 h1
      have a2 := Nat.lt_size.2 h2
      omega
    rw [modBits_of, h3]

/-- Completeness of the PLONK interface over the scalar field of BLS12-381, without assumptions on the
field: every satisfied circuit of at most `2 ^ 29` rows is compiled, proved and accepted, for all but a
few values of each challenge. -/
theorem C126_plonk_complete {R : FieldRep Fr381} {E : EdCurve Fr381} {P : PCS Fr381} {d m n : ℕ}
    (hP : PcsComplete P d) {C C' : Circ Fr381} (hC : Plonk.Builds R E C) (hC' : Plonk.Builds R E C')
    {rp rv r r' rn : (Fr381 × Fr381 × Fr381 × Fr381) × (Fr381 × Fr381 × Fr381 × Fr381)}
    {cp cv c : Composer Fr381}
    (hcp : Filled C rp cp) (hcv : Filled C rv cv) (hc : Filled C' r c) (hs : OwnSat E c)
    (hn : n = circuitBound c) (hd : n ≤ d) (hp : SameCircuit cp c) (hv : SameCircuit cv c)
    (hsize : C.size = C'.size) (hns : n ≤ C.size) (hm : C.size ≤ m)
    (h8 : n ≤ 2 ^ 29) (hT : c.lookup_table.Nodup) (label : String) :
    ∃ pk vk, circuitCompile (pfieldOf r381 7 32) P m C rp rv = .ok (pk, vk, c.intended_pi_pos) ∧
      Mostly (3 * c.lookup_table.length ^ 2 + 2) fun zeta : Fr381 =>
      ∀ beta, Mostly (4 * n + 1) fun gamma : Fr381 =>
      Mostly 3 fun delta : Fr381 => Mostly (2 * n + 3) fun epsilon : Fr381 =>
      ∀ alpha range logic fixed var lookup, Mostly n fun z : Fr381 => ∀ aw saw,
        let ro : Transcript Fr381 P.Comm → Fr381 := coins [zeta, beta, gamma, delta, epsilon, alpha,
          range, logic, fixed, var, lookup, z, aw, saw]
        ∃ pr, circuitProve (pfieldOf r381 7 32) E P ro m C' pk label r r' = .ok (pr, c.public_inputs) ∧
          circuitVerify (pfieldOf r381 7 32) E P ro m vk pr c.public_inputs label rn = .ok () :=
  C110_succeeds cert381.pfieldOk hP hC hC' hcp hcv hc hs hn hd hp hv hsize hns hm
    (by
      show Nat.clog 2 (8 * n) ≤ 32
      refine Nat.clog_le_of_le_pow ?_
      calc 8 * n ≤ 8 * 2 ^ 29 := Nat.mul_le_mul_left _ h8
        _ = 2 ^ 32 := by norm_num) hT label

/-- The voproof SNARKs over the scalar field of BLS12-381: the assumptions on the FFT and on the
generator hold, whatever the hash, the pairing and the randomness. -/
theorem C126_env {G1 G2 GT : Type} [AddCommGroup G1] [Module Fr381 G1] [AddCommGroup G2]
    [Module Fr381 G2] [AddCommGroup GT] [Module Fr381 GT] (env : Env Fr381 G1 G2 GT)
    (hfft : env.fft = fftOf r381 7 32) (hg : env.gamma = 7) :
    FftOk env.fft ∧ env.gamma ≠ 0 ∧
      ∀ i < 2 ^ 64, ∀ j < 2 ^ 64, env.gamma ^ i = env.gamma ^ j → i = j := by
  rw [hfft, hg]
  exact ⟨cert381.pfieldOk.root, cert381.pfieldOk.nz.1, C126_generator.2.2.1⟩

section Circuits
variable {G1 G2 GT : Type} [AddCommGroup G1] [Module Fr381 G1] [AddCommGroup G2] [Module Fr381 G2]
  [AddCommGroup GT] [Module Fr381 GT] [DecidableEq G1] [DecidableEq GT]

/-- Soundness of circuits through the POV SNARK over the scalar field of BLS12-381, without assumptions
on the generator. -/
theorem C126_circuit_sound (l : List (Call Fr381)) (c : Circuit Fr381) (hb : Builds Circuit.new l c)
    (hl : ∀ x ∈ l, HighLevel x) (p : POV Fr381) (hp : POV.ofCircuit c = .ok p)
    (hne : c.constGates ≠ []) (hpub : (publicVars l).Nodup) (hforest : Forest (asserted l)) (D : ℕ)
    (hD : 6 * gateCount c - c.mulGates.length ≤ D) (hsize : 3 * gateCount c ≤ 2 ^ 64)
    (vals : List Fr381) (hvals : vals.length = (publicVars l).length)
    (hfalse : ¬ CircuitTrue l c vals) (W : Polynomial Fr381) (dW : W.natDegree ≤ D) :
    PovRejects G1 G2 GT p (gateCount c) D 7 (claim c vals) W :=
  C121_sound l c hb hl p hp hne hpub hforest D hD 7
    (fun i hi j hj => C126_generator.2.2.1 i (by omega) j (by omega)) vals hvals hfalse W dW

/-- Completeness of the same. -/
theorem C126_circuit_complete (env : Env Fr381 G1 G2 GT) (hf : env.fft = fftOf r381 7 32)
    (hg : env.gamma = 7) (β : Fr381) (g : G1)
    (h : G2) (D : ℕ) (pp : UniversalParams G1 G2) (hs : kzgSetup D β g h = .ok pp)
    (l : List (Call Fr381)) (c : Circuit Fr381) (hb : Builds Circuit.new l c)
    (hl : ∀ x ∈ l, HighLevel x)
    (p : POV Fr381) (hp : POV.ofCircuit c = .ok p) (hne : c.constGates ≠ [])
    (hpub : (publicVars l).Nodup) (hD : 6 * gateCount c - c.mulGates.length ≤ D)
    (hsize : 6 * gateCount c + 2 ≤ 2 ^ 32)
    (input : List Fr381) (c' : Circuit Fr381) (hev : c.evaluate input = .ok c')
    (heq : ∀ q ∈ asserted l, valueOf c' q.1 = valueOf c' q.2) :
    ∃ vals w pk vk, c'.getInstance = .ok (claim c vals) ∧ c'.getWitness = .ok w ∧
      (publicVars l).map (valueOf c') = vals.map some ∧
      p.satisfy (claim c vals) w = .ok true ∧
      povIndex env.gamma pp p = .ok (pk, vk) ∧
      (∀ π, povProve env pk (claim c vals) w = .ok π →
        povVerify env vk (claim c vals) π = .ok ()) ∧
      PovCompletes env β g D p (gateCount c) (claim c vals) w pk vk :=
  C121_complete env (C126_env env hf hg).1 (C126_env env hf hg).2.1 β g h D pp hs l c hb hl p hp hne hpub
    hD (by rw [hf]; exact hsize) input c' hev heq

end Circuits

/-- Concrete values: the root of the largest domain is the constant of the arkworks sources, and the
representation of `-1` has 255 bits. -/
example : (fftOf r381 7 32).root 32
    = ((10238227357739495823651030575849232062558860180284477541189508159991286009131 : ℕ) : Fr381) ∧
    (primeRepOf r381 4).toNat (-1) = r381 - 1 := by
  refine ⟨?_, ?_⟩
  · show (((7 : ℕ) : ZMod r381) ^ ((r381 - 1) / 2 ^ 32)) ^ 2 ^ (32 - 32) = _
    rw [Nat.sub_self, pow_zero, pow_one]
    exact zmod_pow_eq 7 ((r381 - 1) / 2 ^ 32) _ 255 (by decide +kernel) (by decide +kernel)
  · show ZMod.val (-1 : ZMod r381) = _
    have : (-1 : ZMod r381) = ((r381 - 1 : ℕ) : ZMod r381) := by
      rw [Nat.cast_sub (by decide +kernel)]
      simp
    rw [this]
    exact ZMod.val_cast_of_lt (by decide +kernel)

end VO
