import Verif.Lemmas.OddsDraw
import Verif.Props.SoundError

/-
The counted soundness errors of `Props/SoundError` once more for challenges that are computed from something
else drawn uniformly, such that no challenge comes from more than `q` draws.
-/

set_option linter.unusedSectionVars false

namespace VO
open Spec

variable {F : Type} [Field F] [DecidableEq F] [Fintype F] {Bs : Type} [Fintype Bs]
variable {G1 G2 GT : Type}
  [AddCommGroup G1] [Module F G1] [DecidableEq G1] [AddCommGroup G2] [Module F G2] [DecidableEq G2]
  [AddCommGroup GT] [Module F GT] [DecidableEq GT]

theorem pov_draw {q : ℕ} {ch : Bs → F} (hch : ∀ a, {b | ch b = a}.ncard ≤ q)
    (hq : Fintype.card Bs ≤ q * Fintype.card F) (cs : POV F) (c D : ℕ) (γ : F) (ins : POVInstance F) (s : PovStrategy F)
    (hs : s.Bounded D) (h : PovRejects G1 G2 GT cs c D γ ins s.W) :
    Odds Bs (q * (3 * c - 1 + (3 * c - 1 + (5 + ((D + 3 * c - cs.nmul + 1) +
      ((2 * D + 6 * c - cs.nmul - 1) + (1 + ((D + 1) + 1))))))))
      fun t : Bs × Bs × Bs × Bs × Bs × Bs × Bs × F × F =>
      let (ζ, ζ1, α, ω, z, ξ, ξ2, β, r) := t
      PovAccepts G1 G2 GT cs c D γ ins s (ch ζ) (ch ζ1) (ch α) (ch ω) (ch z) (ch ξ) (ch ξ2) β r := by
  obtain ⟨bζ, c1, k1⟩ := h
  refine Odds.draw_mul hch bζ c1 fun ζ h1 => ?_
  obtain ⟨bζ1, c2, k2⟩ := k1 (ch ζ) h1
  refine Odds.draw_mul hch bζ1 c2 fun ζ1 h2 => ?_
  obtain ⟨bα, c3, k3⟩ := k2 (ch ζ1) h2 (s.R [ch ζ, ch ζ1]) (hs.R _)
  refine Odds.draw_mul hch bα c3 fun α h3 => ?_
  obtain ⟨bω, c4, k4⟩ := k3 (ch α) h3 (s.P1 [ch ζ, ch ζ1, ch α]) (hs.P1 _)
  refine Odds.draw_mul hch bω c4 fun ω h4 => ?_
  obtain ⟨bz, c5, k5⟩ := k4 (ch ω) h4 (s.H1 [ch ζ, ch ζ1, ch α, ch ω]) (s.H2 [ch ζ, ch ζ1, ch α, ch ω]) (hs.H1 _) (hs.H2 _)
  refine Odds.draw_mul hch bz c5 fun z h5 => ?_
  obtain ⟨bξ, c6, k6⟩ := k5 (ch z) h5 (s.y [ch ζ, ch ζ1, ch α, ch ω, ch z]) (s.y2 [ch ζ, ch ζ1, ch α, ch ω, ch z])
  refine Odds.draw_mul hch bξ c6 fun ξ h6 => Odds.skip fun ξ2 => ?_
  obtain ⟨bβ, c7, k7⟩ := k6 (ch ξ) h6 (ch ξ2) (s.Q1 [ch ζ, ch ζ1, ch α, ch ω, ch z, ch ξ, ch ξ2]) (s.Q2 [ch ζ, ch ζ1, ch α, ch ω, ch z, ch ξ, ch ξ2])
    (hs.Q1 _) (hs.Q2 _)
  refine Odds.uniform_mul hq bβ c7 fun β h7 => ?_
  obtain ⟨r0, k8⟩ := k7 β h7
  refine Odds.last_mul hq {r0} (by simp) fun r hr => ?_
  rintro ⟨env, g, h, rfl, e2, e3, e4, pp, e5, pk, vk, e6, a1, a2, a3, a4, a5, a6, a7, a8⟩
  exact k8 env g h (by simpa using hr) e2 e3 e4 pp e5 pk vk e6 a1 a2 a3 a4 a5 a6 a7 a8

theorem povPe_draw {q : ℕ} {ch : Bs → F} (hch : ∀ a, {b | ch b = a}.ncard ≤ q)
    (hq : Fintype.card Bs ≤ q * Fintype.card F) (cs : POV F) (c D : ℕ) (γ : F) (ins : POVInstance F) (s : PovPeStrategy F)
    (hs : s.Bounded D) (h : PovPeRejects G1 G2 GT cs c D γ ins s.U s.V) :
    Odds Bs (q * (3 * c - 1 + (3 * c - 1 + (4 + ((D + c + cs.nmul + 1) +
      ((2 * D + 4 * c + cs.nmul - 1) + (1 + ((D + 1) + 1))))))))
      fun t : Bs × Bs × Bs × Bs × Bs × Bs × Bs × F × F =>
      let (ζ, ζ1, α, ω, z, ξ, ξ2, β, r) := t
      PovPeAccepts G1 G2 GT cs c D γ ins s (ch ζ) (ch ζ1) (ch α) (ch ω) (ch z) (ch ξ) (ch ξ2) β r := by
  obtain ⟨bζ, c1, k1⟩ := h
  refine Odds.draw_mul hch bζ c1 fun ζ h1 => ?_
  obtain ⟨bζ1, c2, k2⟩ := k1 (ch ζ) h1
  refine Odds.draw_mul hch bζ1 c2 fun ζ1 h2 => ?_
  obtain ⟨bα, c3, k3⟩ := k2 (ch ζ1) h2 (s.R [ch ζ, ch ζ1]) (hs.R _)
  refine Odds.draw_mul hch bα c3 fun α h3 => ?_
  obtain ⟨bω, c4, k4⟩ := k3 (ch α) h3 (s.P1 [ch ζ, ch ζ1, ch α]) (hs.P1 _)
  refine Odds.draw_mul hch bω c4 fun ω h4 => ?_
  obtain ⟨bz, c5, k5⟩ := k4 (ch ω) h4 (s.H1 [ch ζ, ch ζ1, ch α, ch ω]) (s.H2 [ch ζ, ch ζ1, ch α, ch ω]) (hs.H1 _) (hs.H2 _)
  refine Odds.draw_mul hch bz c5 fun z h5 => ?_
  obtain ⟨bξ, c6, k6⟩ := k5 (ch z) h5 (s.y [ch ζ, ch ζ1, ch α, ch ω, ch z]) (s.y2 [ch ζ, ch ζ1, ch α, ch ω, ch z])
  refine Odds.draw_mul hch bξ c6 fun ξ h6 => Odds.skip fun ξ2 => ?_
  obtain ⟨bβ, c7, k7⟩ := k6 (ch ξ) h6 (ch ξ2) (s.Q1 [ch ζ, ch ζ1, ch α, ch ω, ch z, ch ξ, ch ξ2]) (s.Q2 [ch ζ, ch ζ1, ch α, ch ω, ch z, ch ξ, ch ξ2])
    (hs.Q1 _) (hs.Q2 _)
  refine Odds.uniform_mul hq bβ c7 fun β h7 => ?_
  obtain ⟨r0, k8⟩ := k7 β h7
  refine Odds.last_mul hq {r0} (by simp) fun r hr => ?_
  rintro ⟨env, g, h, rfl, e2, e3, e4, pp, e5, pk, vk, e6, a1, a2, a3, a4, a5, a6, a7, a8⟩
  exact k8 env g h (by simpa using hr) e2 e3 e4 pp e5 pk vk e6 a1 a2 a3 a4 a5 a6 a7 a8

theorem r1cs_draw {q : ℕ} {ch : Bs → F} (hch : ∀ a, {b | ch b = a}.ncard ≤ q)
    (hq : Fintype.card Bs ≤ q * Fintype.card F) (cs : R1CS F) (H K S ℓ D : ℕ) (hH : H = cs.nrows) (hK : K = cs.ncols)
    (hS : S = (stacked cs).length) (hin : ℓ = cs.inputSize) (γ : F) (x : List F) (s : R1csStrategy F)
    (hs : s.Bounded D) (h : R1csRejects G1 G2 GT cs H K S ℓ D γ x s.A) :
    Odds Bs (q * (3 * H - 1 + (K - 1 + (1 + (8 + ((D + K + S) +
      ((2 * D + 2 * (K + S) + x.length) + (1 + ((D + 1) + 1)))))))))
      fun t : Bs × Bs × Bs × Bs × Bs × Bs × Bs × Bs × F × F =>
      let (μ, ν, β, α, ω, z, ξ, ξ2, τ, r) := t
      R1csAccepts G1 G2 GT cs D γ x s (ch μ) (ch ν) (ch β) (ch α) (ch ω) (ch z) (ch ξ) (ch ξ2) τ r := by
  subst hH hK hS hin
  obtain ⟨b1, c1, k1⟩ := h
  refine Odds.draw_mul hch b1 c1 fun μ g1 => ?_
  obtain ⟨b2, c2, k2⟩ := k1 (ch μ) g1 (s.P [ch μ]) (hs.P _)
  refine Odds.draw_mul hch b2 c2 fun ν g2 => ?_
  obtain ⟨b3, c3, k3⟩ := k2 (ch ν) g2 (s.Q [ch μ, ch ν]) (hs.Q _)
  refine Odds.draw_mul hch b3 c3 fun β g3 => ?_
  obtain ⟨b4, c4, k4⟩ := k3 (ch β) g3 (s.R [ch μ, ch ν, ch β]) (hs.R _)
  refine Odds.draw_mul hch b4 c4 fun α g4 => ?_
  obtain ⟨b5, c5, k5⟩ := k4 (ch α) g4 (s.T [ch μ, ch ν, ch β, ch α]) (hs.T _)
  refine Odds.draw_mul hch b5 c5 fun ω g5 => ?_
  obtain ⟨b6, c6, k6⟩ := k5 (ch ω) g5 (s.H1 [ch μ, ch ν, ch β, ch α, ch ω]) (s.H2 [ch μ, ch ν, ch β, ch α, ch ω]) (hs.H1 _) (hs.H2 _)
  refine Odds.draw_mul hch b6 c6 fun z g6 => ?_
  obtain ⟨b7, c7, k7⟩ := k6 (ch z) g6 (s.y [ch μ, ch ν, ch β, ch α, ch ω, ch z]) (s.y1 [ch μ, ch ν, ch β, ch α, ch ω, ch z])
  refine Odds.draw_mul hch b7 c7 fun ξ g7 => Odds.skip fun ξ2 => ?_
  obtain ⟨b8, c8, k8⟩ := k7 (ch ξ) g7 (ch ξ2) (s.Q1 [ch μ, ch ν, ch β, ch α, ch ω, ch z, ch ξ, ch ξ2])
    (s.Q2 [ch μ, ch ν, ch β, ch α, ch ω, ch z, ch ξ, ch ξ2]) (hs.Q1 _) (hs.Q2 _)
  refine Odds.uniform_mul hq b8 c8 fun τ g8 => ?_
  obtain ⟨r0, k9⟩ := k8 τ g8
  refine Odds.last_mul hq {r0} (by simp) fun r hr => ?_
  rintro ⟨env, g, h, rfl, e2, e3, e4, pp, e5, pk, vk, e6, a1, a2, a3, a4, a5, a6, a7, a8, a9⟩
  exact k9 env g h (by simpa using hr) e2 e3 e4 pp e5 pk vk e6 a1 a2 a3 a4 a5 a6 a7 a8 a9

theorem r1csPe_draw {q : ℕ} {ch : Bs → F} (hch : ∀ a, {b | ch b = a}.ncard ≤ q)
    (hq : Fintype.card Bs ≤ q * Fintype.card F) (cs : R1CS F) (H K S ℓ D : ℕ) (hH : H = cs.nrows) (hK : K = cs.ncols)
    (hS : S = (stackedPe cs).length) (hin : ℓ = cs.inputSize) (γ : F) (x : List F) (s : R1csPeStrategy F)
    (hs : s.Bounded D) (h : R1csPeRejects G1 G2 GT cs H K S ℓ D γ x s.Y s.W) :
    Odds Bs (q * (3 * H - 1 + (K - 1 + (1 + (10 + ((D + S) +
      ((2 * D + 2 * S + x.length) + (2 + ((D + 1) + 1)))))))))
      fun t : Bs × Bs × Bs × Bs × Bs × Bs × Bs × Bs × F × F =>
      let (μ, ν, β, α, ω, z, ξ, ξ2, τ, r) := t
      R1csPeAccepts G1 G2 GT cs D γ x s (ch μ) (ch ν) (ch β) (ch α) (ch ω) (ch z) (ch ξ) (ch ξ2) τ r := by
  subst hH hK hS hin
  obtain ⟨b1, c1, k1⟩ := h
  refine Odds.draw_mul hch b1 c1 fun μ g1 => ?_
  obtain ⟨b2, c2, k2⟩ := k1 (ch μ) g1 (s.P [ch μ]) (s.C [ch μ]) (hs.P _) (hs.C _)
  refine Odds.draw_mul hch b2 c2 fun ν g2 => ?_
  obtain ⟨b3, c3, k3⟩ := k2 (ch ν) g2 (s.Q [ch μ, ch ν]) (s.U [ch μ, ch ν]) (hs.Q _) (hs.U _)
  refine Odds.draw_mul hch b3 c3 fun β g3 => ?_
  obtain ⟨b4, c4, k4⟩ := k3 (ch β) g3 (s.R [ch μ, ch ν, ch β]) (hs.R _)
  refine Odds.draw_mul hch b4 c4 fun α g4 => ?_
  obtain ⟨b5, c5, k5⟩ := k4 (ch α) g4 (s.T [ch μ, ch ν, ch β, ch α]) (hs.T _)
  refine Odds.draw_mul hch b5 c5 fun ω g5 => ?_
  obtain ⟨b6, c6, k6⟩ := k5 (ch ω) g5 (s.H1 [ch μ, ch ν, ch β, ch α, ch ω]) (s.H2 [ch μ, ch ν, ch β, ch α, ch ω]) (hs.H1 _) (hs.H2 _)
  refine Odds.draw_mul hch b6 c6 fun z g6 => ?_
  obtain ⟨b7, c7, k7⟩ := k6 (ch z) g6 (s.y [ch μ, ch ν, ch β, ch α, ch ω, ch z]) (s.y1 [ch μ, ch ν, ch β, ch α, ch ω, ch z])
    (s.y2 [ch μ, ch ν, ch β, ch α, ch ω, ch z])
  refine Odds.draw_mul hch b7 c7 fun ξ g7 => Odds.skip fun ξ2 => ?_
  obtain ⟨b8, c8, k8⟩ := k7 (ch ξ) g7 (ch ξ2) (s.Q1 [ch μ, ch ν, ch β, ch α, ch ω, ch z, ch ξ, ch ξ2])
    (s.Q2 [ch μ, ch ν, ch β, ch α, ch ω, ch z, ch ξ, ch ξ2]) (hs.Q1 _) (hs.Q2 _)
  refine Odds.uniform_mul hq b8 c8 fun τ g8 => ?_
  obtain ⟨r0, k9⟩ := k8 τ g8
  refine Odds.last_mul hq {r0} (by simp) fun r hr => ?_
  rintro ⟨env, g, h, rfl, e2, e3, e4, pp, e5, pk, vk, e6, a1, a2, a3, a4, a5, a6, a7, a8, a9⟩
  exact k9 env g h (by simpa using hr) e2 e3 e4 pp e5 pk vk e6 a1 a2 a3 a4 a5 a6 a7 a8 a9

theorem hpr_draw {q : ℕ} {ch : Bs → F} (hch : ∀ a, {b | ch b = a}.ncard ≤ q)
    (hq : Fintype.card Bs ≤ q * Fintype.card F) (cs : HPR F) (hl : HprLens cs)
    (hBC : cs.b.rows.length + cs.c.rows.length = 2 * cs.a.rows.length) (H K S D : ℕ)
    (hH : H = cs.nrows) (hK : K = cs.ncols) (hS : S = (joined cs).length) (h1 : 1 ≤ H)
    (h3 : H ≤ S) (hk1 : 1 ≤ K) (ra : InRange cs.a H K) (rb : InRange cs.b H K)
    (rc : InRange cs.c H K) (rd : ∀ p ∈ cs.drows.zip cs.dvals, p.1 < H)
    (hD : 5 * K + 2 * S + 2 ≤ D) (γ : F)
    (hγ : ∀ i < max H (3 * K + 1), ∀ j < max H (3 * K + 1), γ ^ i = γ ^ j → i = j)
    (x : List F) (hx : x.length ≤ H) (s : R1csStrategy F) (hs : s.Bounded D)
    (hbad : cs.satisfy x (hprRead K 0 s.A) (hprRead K 1 s.A) (hprRead K 2 s.A) ≠ .ok true) :
    Odds Bs (q * (4 * D + H + 10 * K + 3 * S + 13)) fun t : Bs × Bs × Bs × Bs × Bs × Bs × Bs × Bs × F × F =>
      let (μ, ν, β, α, ω, z, ξ, ξ2, τ, r) := t
      HprAccepts G1 G2 GT cs D γ x s (ch μ) (ch ν) (ch β) (ch α) (ch ω) (ch z) (ch ξ) (ch ξ2) τ r := by
  obtain ⟨b1, c1, k1⟩ := C62_sound (G1 := G1) (G2 := G2) (GT := GT) cs hl hBC H K S D hH hK hS h1 h3
    hk1 ra rb rc rd hD γ hγ x hx s.A hs.A hbad
  subst hH hK hS
  refine Odds.mono (Odds.draw_mul hch b1 c1 fun μ g1 => ?_)
    (k := q * (cs.nrows - 1 + (3 * cs.ncols + (1 + (7 + ((D + 2 * cs.ncols + (joined cs).length + 1) +
      ((2 * D + 5 * cs.ncols + 2 * (joined cs).length + 2) + (1 + ((D + 1) + 1))))))))) (Nat.mul_le_mul_left q (by omega)) (fun _ h => h)
  obtain ⟨b2, c2, k2⟩ := k1 (ch μ) g1 (s.P [ch μ]) (hs.P _)
  refine Odds.draw_mul hch b2 c2 fun ν g2 => ?_
  obtain ⟨b3, c3, k3⟩ := k2 (ch ν) g2 (s.Q [ch μ, ch ν]) (hs.Q _)
  refine Odds.draw_mul hch b3 c3 fun β g3 => ?_
  obtain ⟨b4, c4, k4⟩ := k3 (ch β) g3 (s.R [ch μ, ch ν, ch β]) (hs.R _)
  refine Odds.draw_mul hch b4 c4 fun α g4 => ?_
  obtain ⟨b5, c5, k5⟩ := k4 (ch α) g4 (s.T [ch μ, ch ν, ch β, ch α]) (hs.T _)
  refine Odds.draw_mul hch b5 c5 fun ω g5 => ?_
  obtain ⟨b6, c6, k6⟩ := k5 (ch ω) g5 (s.H1 [ch μ, ch ν, ch β, ch α, ch ω]) (s.H2 [ch μ, ch ν, ch β, ch α, ch ω]) (hs.H1 _) (hs.H2 _)
  refine Odds.draw_mul hch b6 c6 fun z g6 => ?_
  obtain ⟨b7, c7, k7⟩ := k6 (ch z) g6 (s.y [ch μ, ch ν, ch β, ch α, ch ω, ch z]) (s.y1 [ch μ, ch ν, ch β, ch α, ch ω, ch z])
  refine Odds.draw_mul hch b7 c7 fun ξ g7 => Odds.skip fun ξ2 => ?_
  obtain ⟨b8, c8, k8⟩ := k7 (ch ξ) g7 (ch ξ2) (s.Q1 [ch μ, ch ν, ch β, ch α, ch ω, ch z, ch ξ, ch ξ2])
    (s.Q2 [ch μ, ch ν, ch β, ch α, ch ω, ch z, ch ξ, ch ξ2]) (hs.Q1 _) (hs.Q2 _)
  refine Odds.uniform_mul hq b8 c8 fun τ g8 => ?_
  obtain ⟨r0, k9⟩ := k8 τ g8
  refine Odds.last_mul hq {r0} (by simp) fun r hr => ?_
  rintro ⟨env, g, h, rfl, e2, e3, e4, pp, e5, pk, vk, e6, a1, a2, a3, a4, a5, a6, a7, a8, a9⟩
  exact k9 env g h (by simpa using hr) e2 e3 e4 pp e5 pk vk e6 a1 a2 a3 a4 a5 a6 a7 a8 a9

theorem fibonacci_draw {q : ℕ} {ch : Bs → F} (hch : ∀ a, {b | ch b = a}.ncard ≤ q)
    (hq : Fintype.card Bs ≤ q * Fintype.card F) (n D : ℕ) (hn : 2 ≤ n) (hD : n + 2 ≤ D) (x : FibInstance F)
    (P : Polynomial F) (dP : P.natDegree ≤ D) (s : FibStrategy F) (hs : s.Bounded D)
    (hbad : ¬ FibHolds n P.coeff x.a x.b x.c s.W.coeff) :
    Odds Bs (q * (4 * D + n + 11)) fun t : Bs × Bs × Bs × Bs × Bs × F × F =>
      let (α, ω, z, ξ, ξ2, β, r) := t
      FibAccepts G1 G2 GT n D P x s (ch α) (ch ω) (ch z) (ch ξ) (ch ξ2) β r := by
  obtain ⟨b1, c1, k1⟩ := C38_sound (G1 := G1) (G2 := G2) (GT := GT) n D hn hD x P s.W s.R dP hs.W hs.R
    hbad
  refine Odds.mono (Odds.draw_mul hch b1 c1 fun α g1 => ?_)
    (k := q * (4 + ((D + 2) + ((2 * D + n + 1) + (2 + ((D + 1) + 1)))))) (Nat.mul_le_mul_left q (by omega)) (fun _ h => h)
  obtain ⟨b2, c2, k2⟩ := k1 (ch α) g1 (s.P1 [ch α]) (hs.P1 _)
  refine Odds.draw_mul hch b2 c2 fun ω g2 => ?_
  obtain ⟨b3, c3, k3⟩ := k2 (ch ω) g2 (s.H1 [ch α, ch ω]) (s.H2 [ch α, ch ω]) (hs.H1 _) (hs.H2 _)
  refine Odds.draw_mul hch b3 c3 fun z g3 => ?_
  obtain ⟨b4, c4, k4⟩ := k3 (ch z) g3 (s.y [ch α, ch ω, ch z]) (s.y1 [ch α, ch ω, ch z]) (s.y2 [ch α, ch ω, ch z])
  refine Odds.draw_mul hch b4 c4 fun ξ g4 => Odds.skip fun ξ2 => ?_
  obtain ⟨b5, c5, k5⟩ := k4 (ch ξ) g4 (ch ξ2) (s.Q1 [ch α, ch ω, ch z, ch ξ, ch ξ2]) (s.Q2 [ch α, ch ω, ch z, ch ξ, ch ξ2])
    (hs.Q1 _) (hs.Q2 _)
  refine Odds.uniform_mul hq b5 c5 fun β g5 => ?_
  obtain ⟨r0, k6⟩ := k5 β g5
  refine Odds.last_mul hq {r0} (by simp) fun r hr => ?_
  rintro ⟨env, g, h, rfl, e3, e4, kvk, e5, a1, a2, a3, a4, a5, a6⟩
  exact k6 env g h (by simpa using hr) e3 e4 kvk e5 a1 a2 a3 a4 a5 a6

theorem rangeCheck_draw {q : ℕ} {ch : Bs → F} (hch : ∀ a, {b | ch b = a}.ncard ≤ q)
    (hq : Fintype.card Bs ≤ q * Fintype.card F) (cs : RangeCheck) (hN : 1 ≤ cs.lookupSize) (hNB : cs.lookupSize ≤ cs.range)
    (D : ℕ) (hD : cs.range ≤ D) (hchar : ∀ k : ℕ, 1 ≤ k → k ≤ cs.lookupSize → (k : F) ≠ 0)
    (s : RcStrategy F) (hs : s.Bounded D)
    (hbad : ¬ InRangeHolds cs.lookupSize cs.range s.W.coeff) :
    Odds Bs (q * (4 * D + cs.lookupSize + 3 * cs.range + 8)) fun t : Bs × Bs × Bs × Bs × Bs × Bs × F × F =>
      let (β, α, ω, z, ξ, ξ2, τ, r) := t
      RcAccepts G1 G2 GT cs D s (ch β) (ch α) (ch ω) (ch z) (ch ξ) (ch ξ2) τ r := by
  obtain ⟨b0, c0, k0⟩ := C66_sound (G1 := G1) (G2 := G2) (GT := GT) cs hN hNB D hD hchar s.W s.M hs.W
    hs.M hbad
  refine Odds.mono (Odds.draw_mul hch b0 c0 fun β g0 => ?_)
    (k := q * ((cs.lookupSize + 2 * cs.range - 1) + (3 + ((D + 1) + ((2 * D + cs.range + 1) +
      (2 + ((D + 1) + 1))))))) (Nat.mul_le_mul_left q (by omega)) (fun _ h => h)
  obtain ⟨b1, c1, k1⟩ := k0 (ch β) g0 (s.R [ch β]) (s.S [ch β]) (s.A [ch β]) (hs.R _) (hs.S _) (hs.A _)
  refine Odds.draw_mul hch b1 c1 fun α g1 => ?_
  obtain ⟨b2, c2, k2⟩ := k1 (ch α) g1 (s.P1 [ch β, ch α]) (hs.P1 _)
  refine Odds.draw_mul hch b2 c2 fun ω g2 => ?_
  obtain ⟨b3, c3, k3⟩ := k2 (ch ω) g2 (s.H1 [ch β, ch α, ch ω]) (s.H2 [ch β, ch α, ch ω]) (hs.H1 _) (hs.H2 _)
  refine Odds.draw_mul hch b3 c3 fun z g3 => ?_
  obtain ⟨b4, c4, k4⟩ := k3 (ch z) g3 (s.y [ch β, ch α, ch ω, ch z]) (s.y1 [ch β, ch α, ch ω, ch z]) (s.y2 [ch β, ch α, ch ω, ch z])
  refine Odds.draw_mul hch b4 c4 fun ξ g4 => Odds.skip fun ξ2 => ?_
  obtain ⟨b5, c5, k5⟩ := k4 (ch ξ) g4 (ch ξ2) (s.Q1 [ch β, ch α, ch ω, ch z, ch ξ, ch ξ2]) (s.Q2 [ch β, ch α, ch ω, ch z, ch ξ, ch ξ2])
    (hs.Q1 _) (hs.Q2 _)
  refine Odds.uniform_mul hq b5 c5 fun τ g5 => ?_
  obtain ⟨r0, k6⟩ := k5 τ g5
  refine Odds.last_mul hq {r0} (by simp) fun r hr => ?_
  rintro ⟨env, g, h, rfl, e3, e4, pp, e5, pk, vk, e6, a1, a2, a3, a4, a5, a6, a7⟩
  exact k6 env g h (by simpa using hr) e3 e4 pp e5 pk vk e6 a1 a2 a3 a4 a5 a6 a7

end VO
