import Verif.Spec.Strategies
import Verif.Lemmas.Odds
import Verif.Props.PlonkSound
import Verif.Props.ArkPov
import Verif.Props.ArkSnark
import Verif.Props.CircuitPe
import Verif.Props.Examples

/-
C135-C138: the soundness error of the verifiers of `/repo/voproof/src/snarks`.  The round-by-round
statements C38, C54, C58, C62, C66, C71, C73 and C77 are put together: against every algebraic prover,
with all challenges, the trapdoor and the randomizer of `batch_check` drawn uniformly, the probability
that `verify` accepts is at most an explicit number over the size of the field.
-/

set_option linter.unusedSectionVars false

namespace VO
open Spec

variable {F : Type} [Field F] [DecidableEq F] [Fintype F]
variable {G1 G2 GT : Type}
  [AddCommGroup G1] [Module F G1] [DecidableEq G1] [AddCommGroup G2] [Module F G2] [DecidableEq G2]
  [AddCommGroup GT] [Module F GT] [DecidableEq GT]

/-- `PovRejects`, counted. -/
theorem pov_odds (cs : POV F) (c D : ℕ) (γ : F) (ins : POVInstance F) (s : PovStrategy F)
    (hs : s.Bounded D) (h : PovRejects G1 G2 GT cs c D γ ins s.W) :
    Odds F (3 * c - 1 + (3 * c - 1 + (5 + ((D + 3 * c - cs.nmul + 1) +
      ((2 * D + 6 * c - cs.nmul - 1) + (1 + ((D + 1) + 1)))))))
      fun t : F × F × F × F × F × F × F × F × F =>
      let (ζ, ζ1, α, ω, z, ξ, ξ2, β, r) := t
      PovAccepts G1 G2 GT cs c D γ ins s ζ ζ1 α ω z ξ ξ2 β r := by
  obtain ⟨bζ, c1, k1⟩ := h
  refine Odds.step bζ c1 fun ζ h1 => ?_
  obtain ⟨bζ1, c2, k2⟩ := k1 ζ h1
  refine Odds.step bζ1 c2 fun ζ1 h2 => ?_
  obtain ⟨bα, c3, k3⟩ := k2 ζ1 h2 (s.R [ζ, ζ1]) (hs.R _)
  refine Odds.step bα c3 fun α h3 => ?_
  obtain ⟨bω, c4, k4⟩ := k3 α h3 (s.P1 [ζ, ζ1, α]) (hs.P1 _)
  refine Odds.step bω c4 fun ω h4 => ?_
  obtain ⟨bz, c5, k5⟩ := k4 ω h4 (s.H1 [ζ, ζ1, α, ω]) (s.H2 [ζ, ζ1, α, ω]) (hs.H1 _) (hs.H2 _)
  refine Odds.step bz c5 fun z h5 => ?_
  obtain ⟨bξ, c6, k6⟩ := k5 z h5 (s.y [ζ, ζ1, α, ω, z]) (s.y2 [ζ, ζ1, α, ω, z])
  refine Odds.step bξ c6 fun ξ h6 => Odds.skip fun ξ2 => ?_
  obtain ⟨bβ, c7, k7⟩ := k6 ξ h6 ξ2 (s.Q1 [ζ, ζ1, α, ω, z, ξ, ξ2]) (s.Q2 [ζ, ζ1, α, ω, z, ξ, ξ2])
    (hs.Q1 _) (hs.Q2 _)
  refine Odds.step bβ c7 fun β h7 => ?_
  obtain ⟨r0, k8⟩ := k7 β h7
  refine Odds.last {r0} (by simp) fun r hr => ?_
  rintro ⟨env, g, h, rfl, e2, e3, e4, pp, e5, pk, vk, e6, a1, a2, a3, a4, a5, a6, a7, a8⟩
  exact k8 env g h (by simpa using hr) e2 e3 e4 pp e5 pk vk e6 a1 a2 a3 a4 a5 a6 a7 a8

/-- **C135.** Soundness error of `verify` for POV.  If `satisfy` does not accept the witness that can be
read off the polynomial `W` the prover commits to first, the prover makes `verify` accept for at most
`4D + 15c - 2cm + 6` out of `|F|` choices of challenges, trapdoor and randomizer. -/
theorem C135_pov (cs : POV F) (c D : ℕ) (hc : c = cs.nmul + cs.nadd + cs.consts.length)
    (hne : cs.consts ≠ []) (hD : 6 * c - cs.nmul ≤ D) (γ : F)
    (hγ : ∀ i < 3 * c, ∀ j < 3 * c, γ ^ i = γ ^ j → i = j)
    (hforest : Forest cs.wires) (hwr : ∀ p ∈ cs.wires, p.1 < 3 * c ∧ p.2 < 3 * c)
    (ins : POVInstance F) (hlen : ins.idx.length = ins.vals.length) (hnd : ins.idx.Nodup)
    (hir : ∀ i ∈ ins.idx, i < 3 * c) (s : PovStrategy F) (hs : s.Bounded D)
    (hbad : cs.satisfy ins (povRead c s.W) ≠ .ok true) :
    Odds F (4 * D + 15 * c - 2 * cs.nmul + 6) fun t : F × F × F × F × F × F × F × F × F =>
      let (ζ, ζ1, α, ω, z, ξ, ξ2, β, r) := t
      PovAccepts G1 G2 GT cs c D γ ins s ζ ζ1 α ω z ξ ξ2 β r :=
  have hcl : 0 < cs.consts.length := List.length_pos_of_ne_nil hne
  Odds.mono (pov_odds cs c D γ ins s hs (C54_sound cs c D hc hne hD γ hγ hforest hwr
    ins hlen hnd hir s.W hs.W hbad)) (by omega) (fun _ h => h)

/-- `PovPeRejects`, counted. -/
theorem povPe_odds (cs : POV F) (c D : ℕ) (γ : F) (ins : POVInstance F) (s : PovPeStrategy F)
    (hs : s.Bounded D) (h : PovPeRejects G1 G2 GT cs c D γ ins s.U s.V) :
    Odds F (3 * c - 1 + (3 * c - 1 + (4 + ((D + c + cs.nmul + 1) +
      ((2 * D + 4 * c + cs.nmul - 1) + (1 + ((D + 1) + 1)))))))
      fun t : F × F × F × F × F × F × F × F × F =>
      let (ζ, ζ1, α, ω, z, ξ, ξ2, β, r) := t
      PovPeAccepts G1 G2 GT cs c D γ ins s ζ ζ1 α ω z ξ ξ2 β r := by
  obtain ⟨bζ, c1, k1⟩ := h
  refine Odds.step bζ c1 fun ζ h1 => ?_
  obtain ⟨bζ1, c2, k2⟩ := k1 ζ h1
  refine Odds.step bζ1 c2 fun ζ1 h2 => ?_
  obtain ⟨bα, c3, k3⟩ := k2 ζ1 h2 (s.R [ζ, ζ1]) (hs.R _)
  refine Odds.step bα c3 fun α h3 => ?_
  obtain ⟨bω, c4, k4⟩ := k3 α h3 (s.P1 [ζ, ζ1, α]) (hs.P1 _)
  refine Odds.step bω c4 fun ω h4 => ?_
  obtain ⟨bz, c5, k5⟩ := k4 ω h4 (s.H1 [ζ, ζ1, α, ω]) (s.H2 [ζ, ζ1, α, ω]) (hs.H1 _) (hs.H2 _)
  refine Odds.step bz c5 fun z h5 => ?_
  obtain ⟨bξ, c6, k6⟩ := k5 z h5 (s.y [ζ, ζ1, α, ω, z]) (s.y2 [ζ, ζ1, α, ω, z])
  refine Odds.step bξ c6 fun ξ h6 => Odds.skip fun ξ2 => ?_
  obtain ⟨bβ, c7, k7⟩ := k6 ξ h6 ξ2 (s.Q1 [ζ, ζ1, α, ω, z, ξ, ξ2]) (s.Q2 [ζ, ζ1, α, ω, z, ξ, ξ2])
    (hs.Q1 _) (hs.Q2 _)
  refine Odds.step bβ c7 fun β h7 => ?_
  obtain ⟨r0, k8⟩ := k7 β h7
  refine Odds.last {r0} (by simp) fun r hr => ?_
  rintro ⟨env, g, h, rfl, e2, e3, e4, pp, e5, pk, vk, e6, a1, a2, a3, a4, a5, a6, a7, a8⟩
  exact k8 env g h (by simpa using hr) e2 e3 e4 pp e5 pk vk e6 a1 a2 a3 a4 a5 a6 a7 a8

/-- **C135 (prover-efficient POV).** Soundness error of the prover-efficient verifier, for what it
enforces (C71): if the assignment read off the committed `U`, `V` and the constants violates it, the
prover makes `verify` accept for at most `4D + 11c + 2cm + 5` out of `|F|` choices. -/
theorem C135_pov_pe (cs : POV F) (c D : ℕ) (hc : c = cs.nmul + cs.nadd + cs.consts.length)
    (hne : cs.consts ≠ []) (hD : 4 * c + cs.nmul ≤ D) (γ : F)
    (hγ : ∀ i < 3 * c, ∀ j < 3 * c, γ ^ i = γ ^ j → i = j)
    (hforest : Forest cs.wires) (hwr : ∀ p ∈ cs.wires, p.1 < 3 * c ∧ p.2 < 3 * c)
    (ins : POVInstance F) (hlen : ins.idx.length = ins.vals.length) (hnd : ins.idx.Nodup)
    (hir : ∀ i ∈ ins.idx, i < 3 * c) (s : PovPeStrategy F) (hs : s.Bounded D)
    (hbad : ¬ PovPeEnforced cs ins
      (povRead c (pePoly c cs.nadd cs.nmul s.U s.V (polyOf cs.consts)))) :
    Odds F (4 * D + 11 * c + 2 * cs.nmul + 5) fun t : F × F × F × F × F × F × F × F × F =>
      let (ζ, ζ1, α, ω, z, ξ, ξ2, β, r) := t
      PovPeAccepts G1 G2 GT cs c D γ ins s ζ ζ1 α ω z ξ ξ2 β r :=
  have hcl : 0 < cs.consts.length := List.length_pos_of_ne_nil hne
  Odds.mono (povPe_odds cs c D γ ins s hs (C71_enforced cs c D hc hne hD γ hγ hforest hwr ins hlen hnd
    hir s.U s.V hs.U hs.V hbad)) (by omega) (fun _ h => h)

/-- **C135 (prover-efficient POV, padded).** The same for full satisfaction, when the committed
polynomials have the zero coefficients that the honest prover's have (C73). -/
theorem C135_pov_pe_padded (cs : POV F) (c D : ℕ) (hc : c = cs.nmul + cs.nadd + cs.consts.length)
    (hne : cs.consts ≠ []) (hD : 4 * c + cs.nmul ≤ D) (γ : F)
    (hγ : ∀ i < 3 * c, ∀ j < 3 * c, γ ^ i = γ ^ j → i = j)
    (hforest : Forest cs.wires) (hwr : ∀ p ∈ cs.wires, p.1 < 3 * c ∧ p.2 < 3 * c)
    (ins : POVInstance F) (hlen : ins.idx.length = ins.vals.length) (hnd : ins.idx.Nodup)
    (hir : ∀ i ∈ ins.idx, i < 3 * c)
    (hpub : ∀ i ∈ ins.idx, 2 * c + cs.nadd + cs.nmul ≤ i →
      cs.consts.getD (i - (2 * c + cs.nadd + cs.nmul)) 0 = 0)
    (s : PovPeStrategy F) (hs : s.Bounded D)
    (hU : ∀ j, c + cs.nmul ≤ j → j < 3 * c → s.U.coeff j = 0)
    (hV : ∀ j, c + cs.nadd ≤ j → j < 2 * c - cs.nmul → s.V.coeff j = 0)
    (hbad : cs.satisfy ins (povRead c (pePoly c cs.nadd cs.nmul s.U s.V (polyOf cs.consts)))
      ≠ .ok true) :
    Odds F (4 * D + 11 * c + 2 * cs.nmul + 5) fun t : F × F × F × F × F × F × F × F × F =>
      let (ζ, ζ1, α, ω, z, ξ, ξ2, β, r) := t
      PovPeAccepts G1 G2 GT cs c D γ ins s ζ ζ1 α ω z ξ ξ2 β r :=
  have hcl : 0 < cs.consts.length := List.length_pos_of_ne_nil hne
  Odds.mono (povPe_odds cs c D γ ins s hs (C73_sound_if_padded cs c D hc hne hD γ hγ hforest hwr ins
    hlen hnd hir hpub s.U s.V hs.U hs.V hU hV hbad)) (by omega) (fun _ h => h)

/-- `R1csRejects`, counted. -/
theorem r1cs_odds (cs : R1CS F) (H K S ℓ D : ℕ) (hH : H = cs.nrows) (hK : K = cs.ncols)
    (hS : S = (stacked cs).length) (hin : ℓ = cs.inputSize) (γ : F) (x : List F) (s : R1csStrategy F)
    (hs : s.Bounded D) (h : R1csRejects G1 G2 GT cs H K S ℓ D γ x s.A) :
    Odds F (3 * H - 1 + (K - 1 + (1 + (8 + ((D + K + S) +
      ((2 * D + 2 * (K + S) + x.length) + (1 + ((D + 1) + 1))))))))
      fun t : F × F × F × F × F × F × F × F × F × F =>
      let (μ, ν, β, α, ω, z, ξ, ξ2, τ, r) := t
      R1csAccepts G1 G2 GT cs D γ x s μ ν β α ω z ξ ξ2 τ r := by
  subst hH hK hS hin
  obtain ⟨b1, c1, k1⟩ := h
  refine Odds.step b1 c1 fun μ g1 => ?_
  obtain ⟨b2, c2, k2⟩ := k1 μ g1 (s.P [μ]) (hs.P _)
  refine Odds.step b2 c2 fun ν g2 => ?_
  obtain ⟨b3, c3, k3⟩ := k2 ν g2 (s.Q [μ, ν]) (hs.Q _)
  refine Odds.step b3 c3 fun β g3 => ?_
  obtain ⟨b4, c4, k4⟩ := k3 β g3 (s.R [μ, ν, β]) (hs.R _)
  refine Odds.step b4 c4 fun α g4 => ?_
  obtain ⟨b5, c5, k5⟩ := k4 α g4 (s.T [μ, ν, β, α]) (hs.T _)
  refine Odds.step b5 c5 fun ω g5 => ?_
  obtain ⟨b6, c6, k6⟩ := k5 ω g5 (s.H1 [μ, ν, β, α, ω]) (s.H2 [μ, ν, β, α, ω]) (hs.H1 _) (hs.H2 _)
  refine Odds.step b6 c6 fun z g6 => ?_
  obtain ⟨b7, c7, k7⟩ := k6 z g6 (s.y [μ, ν, β, α, ω, z]) (s.y1 [μ, ν, β, α, ω, z])
  refine Odds.step b7 c7 fun ξ g7 => Odds.skip fun ξ2 => ?_
  obtain ⟨b8, c8, k8⟩ := k7 ξ g7 ξ2 (s.Q1 [μ, ν, β, α, ω, z, ξ, ξ2])
    (s.Q2 [μ, ν, β, α, ω, z, ξ, ξ2]) (hs.Q1 _) (hs.Q2 _)
  refine Odds.step b8 c8 fun τ g8 => ?_
  obtain ⟨r0, k9⟩ := k8 τ g8
  refine Odds.last {r0} (by simp) fun r hr => ?_
  rintro ⟨env, g, h, rfl, e2, e3, e4, pp, e5, pk, vk, e6, a1, a2, a3, a4, a5, a6, a7, a8, a9⟩
  exact k9 env g h (by simpa using hr) e2 e3 e4 pp e5 pk vk e6 a1 a2 a3 a4 a5 a6 a7 a8 a9

/-- **C136.** Soundness error of `verify` for R1CS. -/
theorem C136_r1cs (cs : R1CS F) (hl : R1csLens cs) (H K S ℓ D : ℕ) (hH : H = cs.nrows)
    (hK : K = cs.ncols) (hS : S = (stacked cs).length) (hin : ℓ = cs.inputSize) (h1 : 1 ≤ H)
    (h3 : 3 * H ≤ S) (hℓ : ℓ + 1 ≤ K) (ra : InRange cs.a H K) (rb : InRange cs.b H K)
    (rc : InRange cs.c H K) (hD : 2 * (K + S) - H ≤ D) (γ : F)
    (hγ : ∀ i < max (3 * H) K, ∀ j < max (3 * H) K, γ ^ i = γ ^ j → i = j)
    (x : List F) (s : R1csStrategy F) (hs : s.Bounded D)
    (hbad : cs.satisfy (fitTo ℓ x) (r1csRead H K ℓ s.A) ≠ .ok true) :
    Odds F (4 * D + 3 * H + 4 * K + 3 * S + x.length + 10)
      fun t : F × F × F × F × F × F × F × F × F × F =>
      let (μ, ν, β, α, ω, z, ξ, ξ2, τ, r) := t
      R1csAccepts G1 G2 GT cs D γ x s μ ν β α ω z ξ ξ2 τ r :=
  Odds.mono (r1cs_odds cs H K S ℓ D hH hK hS hin γ x s hs (C58_sound cs hl H K S ℓ D hH hK hS hin h1 h3
    hℓ ra rb rc hD γ hγ x s.A hs.A hbad))
    (by omega) (fun _ h => h)

/-- `R1csPeRejects`, counted. -/
theorem r1csPe_odds (cs : R1CS F) (H K S ℓ D : ℕ) (hH : H = cs.nrows) (hK : K = cs.ncols)
    (hS : S = (stackedPe cs).length) (hin : ℓ = cs.inputSize) (γ : F) (x : List F) (s : R1csPeStrategy F)
    (hs : s.Bounded D) (h : R1csPeRejects G1 G2 GT cs H K S ℓ D γ x s.Y s.W) :
    Odds F (3 * H - 1 + (K - 1 + (1 + (10 + ((D + S) +
      ((2 * D + 2 * S + x.length) + (2 + ((D + 1) + 1))))))))
      fun t : F × F × F × F × F × F × F × F × F × F =>
      let (μ, ν, β, α, ω, z, ξ, ξ2, τ, r) := t
      R1csPeAccepts G1 G2 GT cs D γ x s μ ν β α ω z ξ ξ2 τ r := by
  subst hH hK hS hin
  obtain ⟨b1, c1, k1⟩ := h
  refine Odds.step b1 c1 fun μ g1 => ?_
  obtain ⟨b2, c2, k2⟩ := k1 μ g1 (s.P [μ]) (s.C [μ]) (hs.P _) (hs.C _)
  refine Odds.step b2 c2 fun ν g2 => ?_
  obtain ⟨b3, c3, k3⟩ := k2 ν g2 (s.Q [μ, ν]) (s.U [μ, ν]) (hs.Q _) (hs.U _)
  refine Odds.step b3 c3 fun β g3 => ?_
  obtain ⟨b4, c4, k4⟩ := k3 β g3 (s.R [μ, ν, β]) (hs.R _)
  refine Odds.step b4 c4 fun α g4 => ?_
  obtain ⟨b5, c5, k5⟩ := k4 α g4 (s.T [μ, ν, β, α]) (hs.T _)
  refine Odds.step b5 c5 fun ω g5 => ?_
  obtain ⟨b6, c6, k6⟩ := k5 ω g5 (s.H1 [μ, ν, β, α, ω]) (s.H2 [μ, ν, β, α, ω]) (hs.H1 _) (hs.H2 _)
  refine Odds.step b6 c6 fun z g6 => ?_
  obtain ⟨b7, c7, k7⟩ := k6 z g6 (s.y [μ, ν, β, α, ω, z]) (s.y1 [μ, ν, β, α, ω, z])
    (s.y2 [μ, ν, β, α, ω, z])
  refine Odds.step b7 c7 fun ξ g7 => Odds.skip fun ξ2 => ?_
  obtain ⟨b8, c8, k8⟩ := k7 ξ g7 ξ2 (s.Q1 [μ, ν, β, α, ω, z, ξ, ξ2])
    (s.Q2 [μ, ν, β, α, ω, z, ξ, ξ2]) (hs.Q1 _) (hs.Q2 _)
  refine Odds.step b8 c8 fun τ g8 => ?_
  obtain ⟨r0, k9⟩ := k8 τ g8
  refine Odds.last {r0} (by simp) fun r hr => ?_
  rintro ⟨env, g, h, rfl, e2, e3, e4, pp, e5, pk, vk, e6, a1, a2, a3, a4, a5, a6, a7, a8, a9⟩
  exact k9 env g h (by simpa using hr) e2 e3 e4 pp e5 pk vk e6 a1 a2 a3 a4 a5 a6 a7 a8 a9

/-- **C136 (prover-efficient).** Soundness error of `verify` for prover-efficient R1CS. -/
theorem C136_r1cs_pe (cs : R1CS F) (hl : R1csLens cs) (H K S ℓ D : ℕ) (hH : H = cs.nrows)
    (hK : K = cs.ncols) (hS : S = (stackedPe cs).length) (hin : ℓ = cs.inputSize) (h1 : 1 ≤ H)
    (h3 : 3 * H ≤ S) (hKS : K ≤ S) (hℓ : ℓ + 1 ≤ K) (ra : InRange cs.a H K) (rb : InRange cs.b H K)
    (rc : InRange cs.c H K) (hD : 2 * H + S ≤ D) (γ : F)
    (hγ : ∀ i < max (3 * H) K, ∀ j < max (3 * H) K, γ ^ i = γ ^ j → i = j)
    (x : List F) (s : R1csPeStrategy F) (hs : s.Bounded D)
    (hbad : cs.satisfy (fitTo ℓ x) (r1csPeRead K ℓ x s.W) ≠ .ok true) :
    Odds F (4 * D + 3 * H + K + 3 * S + x.length + 13)
      fun t : F × F × F × F × F × F × F × F × F × F =>
      let (μ, ν, β, α, ω, z, ξ, ξ2, τ, r) := t
      R1csPeAccepts G1 G2 GT cs D γ x s μ ν β α ω z ξ ξ2 τ r :=
  Odds.mono (r1csPe_odds cs H K S ℓ D hH hK hS hin γ x s hs (C77_sound cs hl H K S ℓ D hH hK hS hin h1 h3
    hKS hℓ ra rb rc hD γ hγ x s.Y s.W hs.Y hs.W hbad))
    (by omega) (fun _ h => h)

/-- **C137.** Soundness error of `verify` for HPR. -/
theorem C137_hpr (cs : HPR F) (hl : HprLens cs)
    (hBC : cs.b.rows.length + cs.c.rows.length = 2 * cs.a.rows.length) (H K S D : ℕ)
    (hH : H = cs.nrows) (hK : K = cs.ncols) (hS : S = (joined cs).length) (h1 : 1 ≤ H)
    (h3 : H ≤ S) (hk1 : 1 ≤ K) (ra : InRange cs.a H K) (rb : InRange cs.b H K)
    (rc : InRange cs.c H K) (rd : ∀ p ∈ cs.drows.zip cs.dvals, p.1 < H)
    (hD : 5 * K + 2 * S + 2 ≤ D) (γ : F)
    (hγ : ∀ i < max H (3 * K + 1), ∀ j < max H (3 * K + 1), γ ^ i = γ ^ j → i = j)
    (x : List F) (hx : x.length ≤ H) (s : R1csStrategy F) (hs : s.Bounded D)
    (hbad : cs.satisfy x (hprRead K 0 s.A) (hprRead K 1 s.A) (hprRead K 2 s.A) ≠ .ok true) :
    Odds F (4 * D + H + 10 * K + 3 * S + 13) fun t : F × F × F × F × F × F × F × F × F × F =>
      let (μ, ν, β, α, ω, z, ξ, ξ2, τ, r) := t
      HprAccepts G1 G2 GT cs D γ x s μ ν β α ω z ξ ξ2 τ r := by
  obtain ⟨b1, c1, k1⟩ := C62_sound (G1 := G1) (G2 := G2) (GT := GT) cs hl hBC H K S D hH hK hS h1 h3
    hk1 ra rb rc rd hD γ hγ x hx s.A hs.A hbad
  subst hH hK hS
  refine Odds.mono (Odds.step b1 c1 fun μ g1 => ?_)
    (k := cs.nrows - 1 + (3 * cs.ncols + (1 + (7 + ((D + 2 * cs.ncols + (joined cs).length + 1) +
      ((2 * D + 5 * cs.ncols + 2 * (joined cs).length + 2) + (1 + ((D + 1) + 1))))))))
    (by omega) (fun _ h => h)
  obtain ⟨b2, c2, k2⟩ := k1 μ g1 (s.P [μ]) (hs.P _)
  refine Odds.step b2 c2 fun ν g2 => ?_
  obtain ⟨b3, c3, k3⟩ := k2 ν g2 (s.Q [μ, ν]) (hs.Q _)
  refine Odds.step b3 c3 fun β g3 => ?_
  obtain ⟨b4, c4, k4⟩ := k3 β g3 (s.R [μ, ν, β]) (hs.R _)
  refine Odds.step b4 c4 fun α g4 => ?_
  obtain ⟨b5, c5, k5⟩ := k4 α g4 (s.T [μ, ν, β, α]) (hs.T _)
  refine Odds.step b5 c5 fun ω g5 => ?_
  obtain ⟨b6, c6, k6⟩ := k5 ω g5 (s.H1 [μ, ν, β, α, ω]) (s.H2 [μ, ν, β, α, ω]) (hs.H1 _) (hs.H2 _)
  refine Odds.step b6 c6 fun z g6 => ?_
  obtain ⟨b7, c7, k7⟩ := k6 z g6 (s.y [μ, ν, β, α, ω, z]) (s.y1 [μ, ν, β, α, ω, z])
  refine Odds.step b7 c7 fun ξ g7 => Odds.skip fun ξ2 => ?_
  obtain ⟨b8, c8, k8⟩ := k7 ξ g7 ξ2 (s.Q1 [μ, ν, β, α, ω, z, ξ, ξ2])
    (s.Q2 [μ, ν, β, α, ω, z, ξ, ξ2]) (hs.Q1 _) (hs.Q2 _)
  refine Odds.step b8 c8 fun τ g8 => ?_
  obtain ⟨r0, k9⟩ := k8 τ g8
  refine Odds.last {r0} (by simp) fun r hr => ?_
  rintro ⟨env, g, h, rfl, e2, e3, e4, pp, e5, pk, vk, e6, a1, a2, a3, a4, a5, a6, a7, a8, a9⟩
  exact k9 env g h (by simpa using hr) e2 e3 e4 pp e5 pk vk e6 a1 a2 a3 a4 a5 a6 a7 a8 a9

/-- **C138.** Soundness error of `verify` of `fibonacci.rs`. -/
theorem C138_fibonacci (n D : ℕ) (hn : 2 ≤ n) (hD : n + 2 ≤ D) (x : FibInstance F)
    (P : Polynomial F) (dP : P.natDegree ≤ D) (s : FibStrategy F) (hs : s.Bounded D)
    (hbad : ¬ FibHolds n P.coeff x.a x.b x.c s.W.coeff) :
    Odds F (4 * D + n + 11) fun t : F × F × F × F × F × F × F =>
      let (α, ω, z, ξ, ξ2, β, r) := t
      FibAccepts G1 G2 GT n D P x s α ω z ξ ξ2 β r := by
  obtain ⟨b1, c1, k1⟩ := C38_sound (G1 := G1) (G2 := G2) (GT := GT) n D hn hD x P s.W s.R dP hs.W hs.R
    hbad
  refine Odds.mono (Odds.step b1 c1 fun α g1 => ?_)
    (k := 4 + ((D + 2) + ((2 * D + n + 1) + (2 + ((D + 1) + 1))))) (by omega) (fun _ h => h)
  obtain ⟨b2, c2, k2⟩ := k1 α g1 (s.P1 [α]) (hs.P1 _)
  refine Odds.step b2 c2 fun ω g2 => ?_
  obtain ⟨b3, c3, k3⟩ := k2 ω g2 (s.H1 [α, ω]) (s.H2 [α, ω]) (hs.H1 _) (hs.H2 _)
  refine Odds.step b3 c3 fun z g3 => ?_
  obtain ⟨b4, c4, k4⟩ := k3 z g3 (s.y [α, ω, z]) (s.y1 [α, ω, z]) (s.y2 [α, ω, z])
  refine Odds.step b4 c4 fun ξ g4 => Odds.skip fun ξ2 => ?_
  obtain ⟨b5, c5, k5⟩ := k4 ξ g4 ξ2 (s.Q1 [α, ω, z, ξ, ξ2]) (s.Q2 [α, ω, z, ξ, ξ2])
    (hs.Q1 _) (hs.Q2 _)
  refine Odds.step b5 c5 fun β g5 => ?_
  obtain ⟨r0, k6⟩ := k5 β g5
  refine Odds.last {r0} (by simp) fun r hr => ?_
  rintro ⟨env, g, h, rfl, e3, e4, kvk, e5, a1, a2, a3, a4, a5, a6⟩
  exact k6 env g h (by simpa using hr) e3 e4 kvk e5 a1 a2 a3 a4 a5 a6

/-- **C138 (range check).** Soundness error of `verify` of `range_check.rs`. -/
theorem C138_range_check (cs : RangeCheck) (hN : 1 ≤ cs.lookupSize) (hNB : cs.lookupSize ≤ cs.range)
    (D : ℕ) (hD : cs.range ≤ D) (hchar : ∀ k : ℕ, 1 ≤ k → k ≤ cs.lookupSize → (k : F) ≠ 0)
    (s : RcStrategy F) (hs : s.Bounded D)
    (hbad : ¬ InRangeHolds cs.lookupSize cs.range s.W.coeff) :
    Odds F (4 * D + cs.lookupSize + 3 * cs.range + 8) fun t : F × F × F × F × F × F × F × F =>
      let (β, α, ω, z, ξ, ξ2, τ, r) := t
      RcAccepts G1 G2 GT cs D s β α ω z ξ ξ2 τ r := by
  obtain ⟨b0, c0, k0⟩ := C66_sound (G1 := G1) (G2 := G2) (GT := GT) cs hN hNB D hD hchar s.W s.M hs.W
    hs.M hbad
  refine Odds.mono (Odds.step b0 c0 fun β g0 => ?_)
    (k := (cs.lookupSize + 2 * cs.range - 1) + (3 + ((D + 1) + ((2 * D + cs.range + 1) +
      (2 + ((D + 1) + 1)))))) (by omega) (fun _ h => h)
  obtain ⟨b1, c1, k1⟩ := k0 β g0 (s.R [β]) (s.S [β]) (s.A [β]) (hs.R _) (hs.S _) (hs.A _)
  refine Odds.step b1 c1 fun α g1 => ?_
  obtain ⟨b2, c2, k2⟩ := k1 α g1 (s.P1 [β, α]) (hs.P1 _)
  refine Odds.step b2 c2 fun ω g2 => ?_
  obtain ⟨b3, c3, k3⟩ := k2 ω g2 (s.H1 [β, α, ω]) (s.H2 [β, α, ω]) (hs.H1 _) (hs.H2 _)
  refine Odds.step b3 c3 fun z g3 => ?_
  obtain ⟨b4, c4, k4⟩ := k3 z g3 (s.y [β, α, ω, z]) (s.y1 [β, α, ω, z]) (s.y2 [β, α, ω, z])
  refine Odds.step b4 c4 fun ξ g4 => Odds.skip fun ξ2 => ?_
  obtain ⟨b5, c5, k5⟩ := k4 ξ g4 ξ2 (s.Q1 [β, α, ω, z, ξ, ξ2]) (s.Q2 [β, α, ω, z, ξ, ξ2])
    (hs.Q1 _) (hs.Q2 _)
  refine Odds.step b5 c5 fun τ g5 => ?_
  obtain ⟨r0, k6⟩ := k5 τ g5
  refine Odds.last {r0} (by simp) fun r hr => ?_
  rintro ⟨env, g, h, rfl, e3, e4, pp, e5, pk, vk, e6, a1, a2, a3, a4, a5, a6, a7⟩
  exact k6 env g h (by simpa using hr) e3 e4 pp e5 pk vk e6 a1 a2 a3 a4 a5 a6 a7

/-! ## PLONK -/

namespace Spec
open VO.Plonk VO.Spec.Plonk

/-- A prover against the PLONK verifier that commits to the lookup accumulator `z2` before `α` is drawn
(the verifier hashes it only afterwards, C107). Each commitment, evaluation and opening proof is a
function of the challenges drawn so far. -/
structure PlonkStrategy (F : Type) (P : PCS F) where
  wa : P.Comm
  wb : P.Comm
  wc : P.Comm
  wd : P.Comm
  f : List F → P.Comm
  h1 : List F → P.Comm
  h2 : List F → P.Comm
  z : List F → P.Comm
  z2 : List F → P.Comm
  t : List F → Fin 8 → P.Comm
  ev : List F → Evals F
  o1 : List F → P.OProof
  o2 : List F → P.OProof

/-- The proof that the prover `s` sends when these challenges are drawn. -/
def PlonkStrategy.proof {F : Type} {P : PCS F} (s : PlonkStrategy F P)
    (zeta beta gamma delta epsilon alpha range logic fixed var lookup zz aw saw : F) : PlonkProof P :=
  let l1 := [zeta]
  let l2 := l1 ++ [beta, gamma, delta, epsilon]
  let l3 := l2 ++ [alpha, range, logic, fixed, var, lookup]
  let l4 := l3 ++ [zz]
  let l5 := l4 ++ [aw, saw]
  ⟨s.wa, s.wb, s.wc, s.wd, s.z l2, s.f l1, s.h1 l1, s.h2 l1, s.z2 l2, s.t l3, s.o1 l5, s.o2 l5, s.ev l4⟩

end Spec

open VO.Plonk VO.Spec.Plonk in
/-- **C139.** Soundness error of the PLONK verifier, against provers that commit to the lookup
accumulator before `α` and send right values of the four selectors that are not opened: if the wires
committed to first do not satisfy the circuit with the given public inputs, the proof is accepted for
at most `17n + 10 max(d, n) + 34` out of `|F|` choices of the challenges. -/
theorem C139_plonk {R : FieldRep F} {K : PField F} {E : EdCurve F} {P : PCS F} {d n : ℕ}
    (hK : PFieldOk K) (hS : PcsSound P d) {c : Composer F} (hc : Reach R E c)
    (hn : n = circuitBound c) {tr : Transcript F P.Comm} (htr : tr.countP isChal = 0)
    {v : Verifier P} (hv : Verifier.preprocess K (P := P) ⟨none, c, tr⟩ = .ok v) {vk : VKey P}
    (hvk : v.key = some vk) {pi : List (ℕ × F)} (hpi : pi.Pairwise fun a b => a.1 < b.1)
    (hpos : ∀ e ∈ pi, e.1 ∈ c.intended_pi_pos) (s : PlonkStrategy F P)
    (hbad : ¬ ∃ x, Sat E (padRows c.lookup_table n) n c (piAt pi)
      (committedWires hS (K.fft.root (Nat.clog 2 n)) s.wa s.wb s.wc s.wd) x) :
    Odds F (17 * n + 10 * max d n + 34)
      fun t : F × F × F × F × F × F × F × F × F × F × F × F × F × F =>
      let (zeta, beta, gamma, delta, epsilon, alpha, range, logic, fixed, var, lookup, zz, aw, saw) := t
      let π := s.proof zeta beta gamma delta epsilon alpha range logic fixed var lookup zz aw saw
      HonestSelectors hS vk π.ev zz ∧
      v.verify K E (coins [zeta, beta, gamma, delta, epsilon, alpha, range, logic, fixed, var, lookup,
        zz, aw, saw]) π pi = .ok () := by
  obtain ⟨b1, c1, k1⟩ := C106_sound hK hS hc hn htr hv hvk hpi hpos s.wa s.wb s.wc s.wd hbad
  refine Odds.mono (Odds.step b1 c1 fun zeta g1 => ?_)
    (k := 3 * n + (4 * n + (4 * n + ((4 * n + 1) + (2 * n + (2 + (7 + (9 + (7 + (5 + (3 +
      (10 * max d n + 0)))))))))))) (by omega) (fun _ h => h)
  obtain ⟨b2, c2, k2⟩ := k1 zeta g1 (s.f [zeta]) (s.h1 [zeta]) (s.h2 [zeta])
  refine Odds.step b2 c2 fun beta g2 => ?_
  obtain ⟨b3, c3, k3⟩ := k2 beta g2
  refine Odds.step b3 c3 fun gamma g3 => ?_
  obtain ⟨b4, c4, k4⟩ := k3 gamma g3
  refine Odds.step b4 c4 fun delta g4 => ?_
  obtain ⟨b5, c5, k5⟩ := k4 delta g4
  refine Odds.step b5 c5 fun epsilon g5 => ?_
  obtain ⟨b6, c6, k6⟩ := k5 epsilon g5 (s.z [zeta, beta, gamma, delta, epsilon])
    (s.z2 [zeta, beta, gamma, delta, epsilon])
  refine Odds.step b6 c6 fun alpha g6 => ?_
  obtain ⟨b7, c7, k7⟩ := k6 alpha g6
  refine Odds.step b7 c7 fun range g7 => ?_
  obtain ⟨b8, c8, k8⟩ := k7 range g7
  refine Odds.step b8 c8 fun logic g8 => ?_
  obtain ⟨b9, c9, k9⟩ := k8 logic g8
  refine Odds.step b9 c9 fun fixed g9 => ?_
  obtain ⟨b10, c10, k10⟩ := k9 fixed g9
  refine Odds.step b10 c10 fun var g10 => ?_
  obtain ⟨b11, c11, k11⟩ := k10 var g10
  refine Odds.step b11 c11 fun lookup g11 => ?_
  obtain ⟨b12, c12, k12⟩ := k11 lookup g11
    (s.t [zeta, beta, gamma, delta, epsilon, alpha, range, logic, fixed, var, lookup])
  refine Odds.step b12 c12 fun zz g12 => Odds.skip fun aw => Odds.last ∅ (by simp) fun saw _ => ?_
  rintro ⟨hh, hok⟩
  exact k12 zz g12 _ _ _ aw saw hh hok

/-! ## Circuits and constraint systems -/

/-- **C140.** Soundness error for circuits: if no input makes the circuit evaluate with the asserted
equalities and the claimed public values, then every algebraic prover makes `verify` accept for at most
`4D + 15N + 9` out of `|F|` choices (`N` the number of gates). -/
theorem C140_circuit (l : List (Call F)) (c : Circuit F) (hb : Builds Circuit.new l c)
    (hl : ∀ x ∈ l, HighLevel x) (p : POV F) (hp : POV.ofCircuit c = .ok p) (hne : c.constGates ≠ [])
    (hpub : (publicVars l).Nodup) (hforest : Forest (asserted l)) (D : ℕ)
    (hD : 6 * gateCount c - c.mulGates.length ≤ D) (γ : F)
    (hγ : ∀ i < 3 * gateCount c, ∀ j < 3 * gateCount c, γ ^ i = γ ^ j → i = j)
    (vals : List F) (hvals : vals.length = (publicVars l).length) (hfalse : ¬ CircuitTrue l c vals)
    (s : PovStrategy F) (hs : s.Bounded D) :
    Odds F (4 * D + 15 * gateCount c + 9) fun t : F × F × F × F × F × F × F × F × F =>
      let (ζ, ζ1, α, ω, z, ξ, ξ2, β, r) := t
      PovAccepts G1 G2 GT p (gateCount c) D γ (claim c vals) s ζ ζ1 α ω z ξ ξ2 β r :=
  Odds.mono (pov_odds p _ D γ _ s hs (C121_sound l c hb hl p hp hne hpub hforest D hD γ hγ vals hvals
    hfalse s.W hs.W)) (by omega) (fun _ h => h)

/-- **C140 (prover-efficient).** The same for the prover-efficient system and what it enforces of a
circuit (C132). -/
theorem C140_circuit_pe (l : List (Call F)) (c : Circuit F) (hb : Builds Circuit.new l c)
    (hl : ∀ x ∈ l, HighLevel x) (p : POV F) (hp : POV.ofCircuit c = .ok p) (hne : c.constGates ≠ [])
    (hpub : (publicVars l).Nodup) (hforest : Forest (asserted l)) (D : ℕ)
    (hD : 4 * gateCount c + c.mulGates.length ≤ D) (γ : F)
    (hγ : ∀ i < 3 * gateCount c, ∀ j < 3 * gateCount c, γ ^ i = γ ^ j → i = j)
    (vals : List F) (hvals : vals.length = (publicVars l).length) (hfalse : ¬ PeCircuitTrue l c vals)
    (s : PovPeStrategy F) (hs : s.Bounded D) :
    Odds F (4 * D + 11 * gateCount c + 2 * c.mulGates.length + 8)
      fun t : F × F × F × F × F × F × F × F × F =>
      let (ζ, ζ1, α, ω, z, ξ, ξ2, β, r) := t
      PovPeAccepts G1 G2 GT p (gateCount c) D γ (claim c vals) s ζ ζ1 α ω z ξ ξ2 β r :=
  have hm : p.nmul = c.mulGates.length := by
    obtain ⟨q1, q2, -⟩ := (C34_system l c hb).2.1 p hp
    omega
  Odds.mono (povPe_odds p _ D γ _ s hs (C132_enforced l c hb hl p hp hne hpub hforest D hD γ hγ vals
    hvals hfalse s.U s.V hs.U hs.V)) (by omega) (fun _ h => h)

/-- **C140 (arkworks).** If no witness satisfies an arkworks constraint system together with the public
inputs `x`, then every algebraic prover makes the R1CS verifier accept for at most
`4D + 3H + 4K + 3S + |x| + 10` out of `|F|` choices (`H` constraints, `K` variables, `S` terms). -/
theorem C140_ark (m : ArkMatrices F) (hm : ArkWf m) (H K S ℓ D : ℕ) (hH : H = m.numConstraints)
    (hK : K = m.numInstanceVariables + m.numWitnessVariables) (hS : S = arkTerms m)
    (hℓ : ℓ + 1 = m.numInstanceVariables) (h1 : 1 ≤ H) (h3 : 3 * H ≤ S) (hD : 2 * (K + S) - H ≤ D) (γ : F)
    (hγ : ∀ i < max (3 * H) K, ∀ j < max (3 * H) K, γ ^ i = γ ^ j → i = j)
    (x : List F) (hx : x.length = ℓ) (hfalse : ¬ ∃ w, ArkHolds m x w)
    (r : R1CS F) (hr : R1CS.ofArk m = .ok r) (s : R1csStrategy F) (hs : s.Bounded D) :
    Odds F (4 * D + 3 * H + 4 * K + 3 * S + x.length + 10)
      fun t : F × F × F × F × F × F × F × F × F × F =>
      let (μ, ν, β, α, ω, z, ξ, ξ2, τ, ρ) := t
      R1csAccepts G1 G2 GT r D γ x s μ ν β α ω z ξ ξ2 τ ρ := by
  obtain ⟨r', hr', hl, e1, e2, e3, e4, -, -, -, -⟩ := ofArk_facts m hm
  obtain rfl := Except.ok.inj (hr.symm.trans hr')
  obtain ⟨-, -, -, -, f4⟩ := stacked_facts r hl
  exact Odds.mono (r1cs_odds r H K S ℓ D (by omega) (by omega) (by rw [f4]; omega) (by omega) γ x s hs
    (C131_sound m hm H K S ℓ D hH hK hS hℓ h1 h3 hD γ hγ x hx hfalse r hr s.A hs.A)) (by omega)
    (fun _ h => h)

/-- **C140 (arkworks, prover-efficient).** -/
theorem C140_ark_pe (m : ArkMatrices F) (hm : ArkWf m) (H K S ℓ D : ℕ)
    (hH : H = m.numConstraints) (hK : K = m.numInstanceVariables + m.numWitnessVariables)
    (hS : S = arkTerms m) (hℓ : ℓ + 1 = m.numInstanceVariables) (h1 : 1 ≤ H) (h3 : 3 * H ≤ S) (hKS : K ≤ S)
    (hD : 2 * H + S ≤ D) (γ : F)
    (hγ : ∀ i < max (3 * H) K, ∀ j < max (3 * H) K, γ ^ i = γ ^ j → i = j)
    (x : List F) (hx : x.length = ℓ) (hfalse : ¬ ∃ w, ArkHolds m x w)
    (r : R1CS F) (hr : R1CS.ofArk m = .ok r) (s : R1csPeStrategy F) (hs : s.Bounded D) :
    Odds F (4 * D + 3 * H + K + 3 * S + x.length + 13)
      fun t : F × F × F × F × F × F × F × F × F × F =>
      let (μ, ν, β, α, ω, z, ξ, ξ2, τ, ρ) := t
      R1csPeAccepts G1 G2 GT r D γ x s μ ν β α ω z ξ ξ2 τ ρ := by
  obtain ⟨r', hr', hl, e1, e2, e3, e4, -, -, -, -⟩ := ofArk_facts m hm
  obtain rfl := Except.ok.inj (hr.symm.trans hr')
  obtain ⟨-, -, -, -, f4⟩ := stackedPe_facts r hl
  exact Odds.mono (r1csPe_odds r H K S ℓ D (by omega) (by omega) (by rw [f4]; omega) (by omega) γ x s hs
    (C131_prover_efficient_sound m hm H K S ℓ D hH hK hS hℓ h1 h3 hKS hD γ hγ x hx hfalse r hr s.Y s.W
      hs.Y hs.W)) (by omega) (fun _ h => h)

/-- **C140 (arkworks to POV).** The translation of an arkworks constraint system to a POV system, when
the translated circuit has no repeated equality (C134). -/
theorem C140_ark_pov (perm : Order F) (hperm : ∀ l, (perm l).Perm l) (m : ArkMatrices F) (hm : ArkWf m)
    (r : R1CS F) (hr : R1CS.ofArk m = .ok r) (circ : Circuit F) (hc : Circuit.ofR1CS perm r = .ok circ)
    (hnd : circ.assertEquals.Nodup) (x : List F) (hx : x.length + 1 = m.numInstanceVariables)
    (p : POV F) (ins : POVInstance F) (hpair : povPairFromR1cs perm r x = .ok (p, ins)) (D : ℕ)
    (hD : 6 * gateCount circ - circ.mulGates.length ≤ D) (γ : F)
    (hγ : ∀ i < 3 * gateCount circ, ∀ j < 3 * gateCount circ, γ ^ i = γ ^ j → i = j)
    (hfalse : ¬ ∃ w, ArkHolds m x w) (s : PovStrategy F) (hs : s.Bounded D) :
    Odds F (4 * D + 15 * gateCount circ + 9) fun t : F × F × F × F × F × F × F × F × F =>
      let (ζ, ζ1, α, ω, z, ξ, ξ2, β, r) := t
      PovAccepts G1 G2 GT p (gateCount circ) D γ ins s ζ ζ1 α ω z ξ ξ2 β r :=
  Odds.mono (pov_odds p _ D γ _ s hs (C134_sound perm hperm m hm r hr circ hc hnd x hx p ins hpair D hD
    γ hγ hfalse s.W hs.W)) (by omega) (fun _ h => h)

/-! ## Examples -/

/-- The strategy that ignores the challenges and commits to constants. -/
noncomputable def constPov (π : PovProof K97 K97) : PovStrategy K97 :=
  ⟨.C π.cmW, fun _ => .C π.cmR, fun _ => .C π.cmT1, fun _ => .C π.cmH1, fun _ => .C π.cmH2,
    fun _ => π.y, fun _ => π.y2, fun _ => .C π.capW, fun _ => .C π.capW1⟩

/-- The event that is counted does occur: an accepted proof of a true statement. -/
example : ∃ (s : PovStrategy K97) (ζ ζ1 α ω z ξ ξ2 : K97), s.Bounded 30 ∧
    PovAccepts K97 K97 K97 ⟨[5], [(0, 4), (3, 8)], 1, 1⟩ 3 30 5 ⟨[6], [10]⟩ s ζ ζ1 α ω z ξ ξ2 33 23 := by
  have hrun : povRun97 ⟨[5], [(0, 4), (3, 8)], 1, 1⟩ ⟨[6], [10]⟩ ⟨[2, 1, 0], [5, 2, 0], [10, 3, 5]⟩
    = .ok () := by decide +kernel
  unfold povRun97 at hrun
  obtain ⟨pp, h1, hrun⟩ := VO.Plonk.bind_okE hrun
  obtain ⟨⟨pk, vk⟩, h2, hrun⟩ := VO.Plonk.bind_okE hrun
  obtain ⟨π, h3, hrun⟩ := VO.Plonk.bind_okE hrun
  have hc : ∀ v : K97, (Polynomial.C v).eval (33 : K97) • (1 : K97) = v := by intro v; simp
  have hd : ∀ v : K97, (Polynomial.C v).natDegree ≤ 30 := by intro v; simp
  refine ⟨constPov π, _, _, _, _, _, _, _, ⟨hd _, fun _ => hd _, fun _ => hd _, fun _ => hd _,
    fun _ => hd _, fun _ => hd _, fun _ => hd _⟩, env97, 1, 1, rfl, rfl, by decide, ?_, pp, h1, pk, vk, h2,
    rfl, rfl, rfl, rfl, rfl, rfl, rfl, ?_⟩
  · exact nonDegenerate97
  · simp only [constPov, hc]
    exact hrun

/-- The wires of the example form a forest. -/
theorem forest_example : Forest [(0, 4), (3, 8)] := by
  intro k hk h
  have key : ∀ (ps : List (ℕ × ℕ)) (f : ℕ → ℕ), (∀ p ∈ ps, f p.1 = f p.2) →
      ∀ a b, Linked ps a b → f a = f b := by
    intro ps f hf a b hab
    induction hab with
    | rel a b hab => exact hf _ hab
    | refl a => rfl
    | symm a b _ ih => exact ih.symm
    | trans a b c _ _ h1 h2 => exact h1.trans h2
  have hk : k < 2 := hk
  interval_cases k
  · have := key _ id (by simp) _ _ h
    simp at this
  · have := key _ (fun i => if i = 4 then 0 else i) (by simp) _ _ h
    simp at this

/-- C135 for a concrete false witness over the field with 7681 elements: at most 117 out of 7681
choices. -/
example (s : PovStrategy Plonk.K7681) (hs : s.Bounded 17)
    (hW : s.W = polyOf [2, 1, 0, 5, 2, 0, 10, 4, 5, 77]) :
    Odds Plonk.K7681 117 fun t : Plonk.K7681 × Plonk.K7681 × Plonk.K7681 × Plonk.K7681 × Plonk.K7681 × Plonk.K7681 × Plonk.K7681 × Plonk.K7681 × Plonk.K7681 =>
      let (ζ, ζ1, α, ω, z, ξ, ξ2, β, r) := t
      PovAccepts Plonk.K7681 Plonk.K7681 Plonk.K7681 ⟨[5], [(0, 4), (3, 8)], 1, 1⟩ 3 17 13 ⟨[6], [10]⟩ s
        ζ ζ1 α ω z ξ ξ2 β r := by
  refine Odds.mono (C135_pov (F := Plonk.K7681) ⟨[5], [(0, 4), (3, 8)], 1, 1⟩ 3 17 rfl (by simp) (by decide) 13
    (by decide +kernel) forest_example (by decide) ⟨[6], [10]⟩ rfl (by decide) (by decide) s hs ?_)
    (by decide) (fun _ h => h)
  have : povRead 3 s.W = ⟨[2, 1, 0], [5, 2, 0], [10, 4, 5]⟩ := by
    rw [hW]; simp [povRead, List.range_succ, coeff_polyOf]
  rw [this]
  decide +kernel

open VO.Plonk VO.Spec.Plonk in
/-- C139 for a circuit that cannot be satisfied with public input `1`: at most 250 out of 7681 choices,
for every prover. -/
example : ∃ (v : Verifier (idealPcs K7681 8)) (vk : VKey (idealPcs K7681 8)),
    Verifier.preprocess pf7681 ⟨none, exC 0 0, [.init "plonk"]⟩ = .ok v ∧ v.key = some vk ∧
    ∀ s : PlonkStrategy K7681 (idealPcs K7681 8), Odds K7681 250
      fun t : K7681 × K7681 × K7681 × K7681 × K7681 × K7681 × K7681 × K7681 × K7681 × K7681 × K7681 ×
        K7681 × K7681 × K7681 =>
      let (zeta, beta, gamma, delta, epsilon, alpha, range, logic, fixed, var, lookup, zz, aw, saw) := t
      let π := s.proof zeta beta gamma delta epsilon alpha range logic fixed var lookup zz aw saw
      HonestSelectors (ideal_sound 8) vk π.ev zz ∧
      v.verify pf7681 E7681 (coins [zeta, beta, gamma, delta, epsilon, alpha, range, logic, fixed, var,
        lookup, zz, aw, saw]) π [(5, 1)] = .ok () := by
  obtain ⟨v, vk, h1, h2⟩ := ex_verifier
  refine ⟨v, vk, h1, h2, fun s => ?_⟩
  exact C139_plonk (n := 8) pf7681_ok (ideal_sound 8) (exC_facts 0 0).1 (by decide +kernel)
    (by decide +kernel) h1 h2 (by simp) (by decide +kernel) s (fun ⟨x, hx⟩ => exC_unsat ⟨_, x, hx⟩)

end VO
