import Verif.Lemmas.SnarkDraw
import Verif.Props.HashToField
import Verif.Props.Fields

/-
Property theorems C159: the soundness errors of the verifiers of `/repo/voproof/src/snarks` when what is drawn
uniformly are the digests that `hash_to_field` (`/repo/voproof/src/tools/mod.rs`) reduces to challenges.  The
trapdoor of the commitment key and the randomizer of `batch_check` are uniform in the field.
-/

set_option linter.unusedSectionVars false

namespace VO
open Spec

/-- The digests of a hash function with `len` bytes. -/
abbrev Digest (len : ℕ) : Type := Fin len → UInt8

theorem digests_card (len : ℕ) : Fintype.card (Fin len → UInt8) = 256 ^ len := by
  rw [Fintype.card_fun, Fintype.card_fin, ← Nat.card_eq_fintype_card (α := UInt8)]
  congr 1
  rw [Nat.card_congr byteEquiv]
  simp

theorem digest_fibre (len p : ℕ) [Fact p.Prime] (a : ZMod p) :
    {d : Fin len → UInt8 | fromLeBytesModOrder p (List.ofFn d) = a}.ncard ≤ 256 ^ len / p + 1 := by
  have h := C154_digests len p (Fact.out (p := p.Prime)).pos a
  rw [← Set.ncard_coe_finset, Finset.coe_filter] at h
  simp only [Finset.mem_univ, true_and] at h
  rw [h]
  split <;> omega

theorem digest_card (len p : ℕ) [Fact p.Prime] :
    Fintype.card (Fin len → UInt8) ≤ (256 ^ len / p + 1) * Fintype.card (ZMod p) := by
  rw [digests_card, ZMod.card]
  exact (Nat.lt_div_mul_add (Fact.out (p := p.Prime)).pos).le.trans (by rw [Nat.add_mul, one_mul])

variable {p : ℕ} [Fact p.Prime]
variable {G1 G2 GT : Type}
  [AddCommGroup G1] [Module (ZMod p) G1] [DecidableEq G1] [AddCommGroup G2] [Module (ZMod p) G2]
  [DecidableEq G2] [AddCommGroup GT] [Module (ZMod p) GT] [DecidableEq GT]

/-- **C159.** Soundness error of `verify` for POV (C135). -/
theorem C159_pov (len : ℕ) (cs : POV (ZMod p)) (c D : ℕ) (hc : c = cs.nmul + cs.nadd + cs.consts.length)
    (hne : cs.consts ≠ []) (hD : 6 * c - cs.nmul ≤ D) (γ : ZMod p)
    (hγ : ∀ i < 3 * c, ∀ j < 3 * c, γ ^ i = γ ^ j → i = j)
    (hforest : Forest cs.wires) (hwr : ∀ p ∈ cs.wires, p.1 < 3 * c ∧ p.2 < 3 * c)
    (ins : POVInstance (ZMod p)) (hlen : ins.idx.length = ins.vals.length) (hnd : ins.idx.Nodup)
    (hir : ∀ i ∈ ins.idx, i < 3 * c) (s : PovStrategy (ZMod p)) (hs : s.Bounded D)
    (hbad : cs.satisfy ins (povRead c s.W) ≠ .ok true) :
    let ch := fun d : Digest len => fromLeBytesModOrder p (List.ofFn d)
    Odds (Digest len) ((256 ^ len / p + 1) * (4 * D + 15 * c - 2 * cs.nmul + 6))
      fun t : Digest len × Digest len × Digest len × Digest len ×
         Digest len × Digest len × Digest len × ZMod p × ZMod p =>
      let (ζ, ζ1, α, ω, z, ξ, ξ2, β, r) := t
      PovAccepts G1 G2 GT cs c D γ ins s (ch ζ) (ch ζ1) (ch α) (ch ω) (ch z) (ch ξ) (ch ξ2) β r :=
  have hcl : 0 < cs.consts.length := List.length_pos_of_ne_nil hne
  Odds.mono (pov_draw (digest_fibre len p) (digest_card len p) cs c D γ ins s hs (C54_sound cs c D hc hne hD γ hγ hforest hwr
    ins hlen hnd hir s.W hs.W hbad)) (Nat.mul_le_mul_left _ (by omega)) (fun _ h => h)

/-- **C159.** For prover-efficient POV and what it enforces (C135). -/
theorem C159_pov_pe (len : ℕ) (cs : POV (ZMod p)) (c D : ℕ) (hc : c = cs.nmul + cs.nadd + cs.consts.length)
    (hne : cs.consts ≠ []) (hD : 4 * c + cs.nmul ≤ D) (γ : ZMod p)
    (hγ : ∀ i < 3 * c, ∀ j < 3 * c, γ ^ i = γ ^ j → i = j)
    (hforest : Forest cs.wires) (hwr : ∀ p ∈ cs.wires, p.1 < 3 * c ∧ p.2 < 3 * c)
    (ins : POVInstance (ZMod p)) (hlen : ins.idx.length = ins.vals.length) (hnd : ins.idx.Nodup)
    (hir : ∀ i ∈ ins.idx, i < 3 * c) (s : PovPeStrategy (ZMod p)) (hs : s.Bounded D)
    (hbad : ¬ PovPeEnforced cs ins
      (povRead c (pePoly c cs.nadd cs.nmul s.U s.V (polyOf cs.consts)))) :
    let ch := fun d : Digest len => fromLeBytesModOrder p (List.ofFn d)
    Odds (Digest len) ((256 ^ len / p + 1) * (4 * D + 11 * c + 2 * cs.nmul + 5))
      fun t : Digest len × Digest len × Digest len × Digest len ×
         Digest len × Digest len × Digest len × ZMod p × ZMod p =>
      let (ζ, ζ1, α, ω, z, ξ, ξ2, β, r) := t
      PovPeAccepts G1 G2 GT cs c D γ ins s (ch ζ) (ch ζ1) (ch α) (ch ω) (ch z) (ch ξ) (ch ξ2) β r :=
  have hcl : 0 < cs.consts.length := List.length_pos_of_ne_nil hne
  Odds.mono (povPe_draw (digest_fibre len p) (digest_card len p) cs c D γ ins s hs (C71_enforced cs c D hc hne hD γ hγ hforest hwr ins hlen hnd
    hir s.U s.V hs.U hs.V hbad)) (Nat.mul_le_mul_left _ (by omega)) (fun _ h => h)

/-- **C159.** Soundness error of `verify` for R1CS (C136). -/
theorem C159_r1cs (len : ℕ) (cs : R1CS (ZMod p)) (hl : R1csLens cs) (H K S ℓ D : ℕ) (hH : H = cs.nrows)
    (hK : K = cs.ncols) (hS : S = (stacked cs).length) (hin : ℓ = cs.inputSize) (h1 : 1 ≤ H)
    (h3 : 3 * H ≤ S) (hℓ : ℓ + 1 ≤ K) (ra : InRange cs.a H K) (rb : InRange cs.b H K)
    (rc : InRange cs.c H K) (hD : 2 * (K + S) - H ≤ D) (γ : ZMod p)
    (hγ : ∀ i < max (3 * H) K, ∀ j < max (3 * H) K, γ ^ i = γ ^ j → i = j)
    (x : List (ZMod p)) (s : R1csStrategy (ZMod p)) (hs : s.Bounded D)
    (hbad : cs.satisfy (fitTo ℓ x) (r1csRead H K ℓ s.A) ≠ .ok true) :
    let ch := fun d : Digest len => fromLeBytesModOrder p (List.ofFn d)
    Odds (Digest len) ((256 ^ len / p + 1) * (4 * D + 3 * H + 4 * K + 3 * S + x.length + 10))
      fun t : Digest len × Digest len × Digest len × Digest len ×
         Digest len × Digest len × Digest len × Digest len × ZMod p × ZMod p =>
      let (μ, ν, β, α, ω, z, ξ, ξ2, τ, r) := t
      R1csAccepts G1 G2 GT cs D γ x s (ch μ) (ch ν) (ch β) (ch α) (ch ω) (ch z) (ch ξ) (ch ξ2) τ r :=
  Odds.mono (r1cs_draw (digest_fibre len p) (digest_card len p) cs H K S ℓ D hH hK hS hin γ x s hs (C58_sound cs hl H K S ℓ D hH hK hS hin h1 h3
    hℓ ra rb rc hD γ hγ x s.A hs.A hbad))
    (Nat.mul_le_mul_left _ (by omega)) (fun _ h => h)

/-- **C159.** For prover-efficient R1CS (C136). -/
theorem C159_r1cs_pe (len : ℕ) (cs : R1CS (ZMod p)) (hl : R1csLens cs) (H K S ℓ D : ℕ) (hH : H = cs.nrows)
    (hK : K = cs.ncols) (hS : S = (stackedPe cs).length) (hin : ℓ = cs.inputSize) (h1 : 1 ≤ H)
    (h3 : 3 * H ≤ S) (hKS : K ≤ S) (hℓ : ℓ + 1 ≤ K) (ra : InRange cs.a H K) (rb : InRange cs.b H K)
    (rc : InRange cs.c H K) (hD : 2 * H + S ≤ D) (γ : ZMod p)
    (hγ : ∀ i < max (3 * H) K, ∀ j < max (3 * H) K, γ ^ i = γ ^ j → i = j)
    (x : List (ZMod p)) (s : R1csPeStrategy (ZMod p)) (hs : s.Bounded D)
    (hbad : cs.satisfy (fitTo ℓ x) (r1csPeRead K ℓ x s.W) ≠ .ok true) :
    let ch := fun d : Digest len => fromLeBytesModOrder p (List.ofFn d)
    Odds (Digest len) ((256 ^ len / p + 1) * (4 * D + 3 * H + K + 3 * S + x.length + 13))
      fun t : Digest len × Digest len × Digest len × Digest len ×
         Digest len × Digest len × Digest len × Digest len × ZMod p × ZMod p =>
      let (μ, ν, β, α, ω, z, ξ, ξ2, τ, r) := t
      R1csPeAccepts G1 G2 GT cs D γ x s (ch μ) (ch ν) (ch β) (ch α) (ch ω) (ch z) (ch ξ) (ch ξ2) τ r :=
  Odds.mono (r1csPe_draw (digest_fibre len p) (digest_card len p) cs H K S ℓ D hH hK hS hin γ x s hs (C77_sound cs hl H K S ℓ D hH hK hS hin h1 h3
    hKS hℓ ra rb rc hD γ hγ x s.Y s.W hs.Y hs.W hbad))
    (Nat.mul_le_mul_left _ (by omega)) (fun _ h => h)

/-- **C159.** Soundness error of `verify` for HPR (C137). -/
theorem C159_hpr (len : ℕ) (cs : HPR (ZMod p)) (hl : HprLens cs)
    (hBC : cs.b.rows.length + cs.c.rows.length = 2 * cs.a.rows.length) (H K S D : ℕ)
    (hH : H = cs.nrows) (hK : K = cs.ncols) (hS : S = (joined cs).length) (h1 : 1 ≤ H)
    (h3 : H ≤ S) (hk1 : 1 ≤ K) (ra : InRange cs.a H K) (rb : InRange cs.b H K)
    (rc : InRange cs.c H K) (rd : ∀ p ∈ cs.drows.zip cs.dvals, p.1 < H)
    (hD : 5 * K + 2 * S + 2 ≤ D) (γ : ZMod p)
    (hγ : ∀ i < max H (3 * K + 1), ∀ j < max H (3 * K + 1), γ ^ i = γ ^ j → i = j)
    (x : List (ZMod p)) (hx : x.length ≤ H) (s : R1csStrategy (ZMod p)) (hs : s.Bounded D)
    (hbad : cs.satisfy x (hprRead K 0 s.A) (hprRead K 1 s.A) (hprRead K 2 s.A) ≠ .ok true) :
    let ch := fun d : Digest len => fromLeBytesModOrder p (List.ofFn d)
    Odds (Digest len) ((256 ^ len / p + 1) * (4 * D + H + 10 * K + 3 * S + 13))
      fun t : Digest len × Digest len × Digest len × Digest len ×
         Digest len × Digest len × Digest len × Digest len × ZMod p × ZMod p =>
      let (μ, ν, β, α, ω, z, ξ, ξ2, τ, r) := t
      HprAccepts G1 G2 GT cs D γ x s (ch μ) (ch ν) (ch β) (ch α) (ch ω) (ch z) (ch ξ) (ch ξ2) τ r :=
  hpr_draw (digest_fibre len p) (digest_card len p) cs hl hBC H K S D hH hK hS h1 h3 hk1 ra rb rc rd hD γ hγ x hx s hs hbad

/-- **C159.** Soundness error of `verify` of `fibonacci.rs` (C138). -/
theorem C159_fibonacci (len : ℕ) (n D : ℕ) (hn : 2 ≤ n) (hD : n + 2 ≤ D) (x : FibInstance (ZMod p))
    (P : Polynomial (ZMod p)) (dP : P.natDegree ≤ D) (s : FibStrategy (ZMod p)) (hs : s.Bounded D)
    (hbad : ¬ FibHolds n P.coeff x.a x.b x.c s.W.coeff) :
    let ch := fun d : Digest len => fromLeBytesModOrder p (List.ofFn d)
    Odds (Digest len) ((256 ^ len / p + 1) * (4 * D + n + 11))
      fun t : Digest len × Digest len × Digest len × Digest len ×
         Digest len × ZMod p × ZMod p =>
      let (α, ω, z, ξ, ξ2, β, r) := t
      FibAccepts G1 G2 GT n D P x s (ch α) (ch ω) (ch z) (ch ξ) (ch ξ2) β r :=
  fibonacci_draw (digest_fibre len p) (digest_card len p) n D hn hD x P dP s hs hbad

/-- **C159.** Soundness error of `verify` of `range_check.rs` (C138). -/
theorem C159_range_check (len : ℕ) (cs : RangeCheck) (hN : 1 ≤ cs.lookupSize) (hNB : cs.lookupSize ≤ cs.range)
    (D : ℕ) (hD : cs.range ≤ D) (hchar : ∀ k : ℕ, 1 ≤ k → k ≤ cs.lookupSize → (k : ZMod p) ≠ 0)
    (s : RcStrategy (ZMod p)) (hs : s.Bounded D)
    (hbad : ¬ InRangeHolds cs.lookupSize cs.range s.W.coeff) :
    let ch := fun d : Digest len => fromLeBytesModOrder p (List.ofFn d)
    Odds (Digest len) ((256 ^ len / p + 1) * (4 * D + cs.lookupSize + 3 * cs.range + 8))
      fun t : Digest len × Digest len × Digest len × Digest len ×
         Digest len × Digest len × ZMod p × ZMod p =>
      let (β, α, ω, z, ξ, ξ2, τ, r) := t
      RcAccepts G1 G2 GT cs D s (ch β) (ch α) (ch ω) (ch z) (ch ξ) (ch ξ2) τ r :=
  rangeCheck_draw (digest_fibre len p) (digest_card len p) cs hN hNB D hD hchar s hs hbad

/-! ## BLS12-381 and a hash function of 32 bytes -/

theorem q381 : 256 ^ 32 / r381 + 1 = 3 := by decide +kernel

section Bls
variable {G1 G2 GT : Type}
  [AddCommGroup G1] [Module Fr381 G1] [DecidableEq G1] [AddCommGroup G2] [Module Fr381 G2]
  [DecidableEq G2] [AddCommGroup GT] [Module Fr381 GT] [DecidableEq GT]

/-- **C159.** Circuits through the POV SNARK over BLS12-381: if no input makes the circuit evaluate with the
asserted equalities and the claimed public values, then every algebraic prover makes `verify` accept with
probability at most `3(4D + 15N + 9) / 2^256`, `N` the number of gates, when the digests that become challenges are
uniform. -/
theorem C159_bls (l : List (Call Fr381)) (c : Circuit Fr381) (hb : Builds Circuit.new l c)
    (hl : ∀ x ∈ l, HighLevel x) (cs : POV Fr381) (hp : POV.ofCircuit c = .ok cs) (hne : c.constGates ≠ [])
    (hpub : (publicVars l).Nodup) (hforest : Forest (asserted l)) (D : ℕ)
    (hD : 6 * gateCount c - c.mulGates.length ≤ D) (hsize : 3 * gateCount c ≤ 2 ^ 64)
    (vals : List Fr381) (hvals : vals.length = (publicVars l).length) (hfalse : ¬ CircuitTrue l c vals)
    (s : PovStrategy Fr381) (hs : s.Bounded D) :
    let ch := fun d : Digest 32 => fromLeBytesModOrder r381 (List.ofFn d)
    let T := Digest 32 × Digest 32 × Digest 32 × Digest 32 × Digest 32 × Digest 32 × Digest 32 × Fr381 × Fr381
    (({t : T |
      let (ζ, ζ1, α, ω, z, ξ, ξ2, β, r) := t
      PovAccepts G1 G2 GT cs (gateCount c) D 7 (claim c vals) s (ch ζ) (ch ζ1) (ch α) (ch ω) (ch z) (ch ξ)
        (ch ξ2) β r}.ncard : ℕ) : ℚ) / Fintype.card T
      ≤ ((3 * (4 * D + 15 * gateCount c + 9) : ℕ) : ℚ) / 2 ^ 256 := by
  have h := Odds.mono (k' := 3 * (4 * D + 15 * gateCount c + 9))
    (pov_draw (digest_fibre 32 r381) (digest_card 32 r381) cs _ D 7 _ s hs
    (C126_circuit_sound (G1 := G1) (G2 := G2) (GT := GT) l c hb hl cs hp hne hpub hforest D hD hsize vals hvals
      hfalse s.W hs.W)) (by rw [q381]; exact Nat.mul_le_mul_left _ (by omega)) (fun _ h => h)
  have e : (256 : ℕ) ^ 32 = 2 ^ 256 := by norm_num
  rw [odds_iff_div, digests_card, e] at h
  exact_mod_cast h

end Bls

/-- C159 for a concrete false witness over BLS12-381: `3 * 117` of `2^256`. -/
example (s : PovStrategy Fr381) (hs : s.Bounded 17)
    (hW : s.W = polyOf [2, 1, 0, 5, 2, 0, 10, 4, 5, 77]) :
    let ch := fun d : Digest 32 => fromLeBytesModOrder r381 (List.ofFn d)
    Odds (Digest 32) (3 * 117) fun t : Digest 32 × Digest 32 × Digest 32 × Digest 32 × Digest 32 × Digest 32 ×
        Digest 32 × Fr381 × Fr381 =>
      let (ζ, ζ1, α, ω, z, ξ, ξ2, β, r) := t
      PovAccepts Fr381 Fr381 Fr381 ⟨[5], [(0, 4), (3, 8)], 1, 1⟩ 3 17 7 ⟨[6], [10]⟩ s (ch ζ) (ch ζ1) (ch α)
        (ch ω) (ch z) (ch ξ) (ch ξ2) β r := by
  refine Odds.mono (C159_pov (p := r381) 32 ⟨[5], [(0, 4), (3, 8)], 1, 1⟩ 3 17 rfl (by simp) (by decide) 7
    (fun i hi j hj => C126_generator.2.2.1 i (by omega) j (by omega)) forest_example (by decide) ⟨[6], [10]⟩ rfl
    (by decide) (by decide) s hs ?_) (by rw [q381]; decide) (fun _ h => h)
  have : povRead 3 s.W = ⟨[2, 1, 0], [5, 2, 0], [10, 4, 5]⟩ := by
    rw [hW]; simp [povRead, List.range_succ, coeff_polyOf]
  rw [this]
  decide +kernel

end VO
