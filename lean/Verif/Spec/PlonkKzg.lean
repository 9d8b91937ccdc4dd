import Mathlib.Algebra.Polynomial.Div
import Mathlib.LinearAlgebra.BilinearMap
import Verif.Spec.PlonkSnark
import Verif.Spec.Odds
import Verif.Spec.Kzg
import Verif.Model.PlonkCircuit

/-
The commitment scheme the code is used with (`KZG10` in `/repo/plonk-core/src/commitment.rs:24`,
SonicKZG10 of ark-poly-commit without hiding), and provers against the PLONK verifier that runs on it.
The library is not part of the repository: this is its specification.
-/

namespace VO.Spec.Plonk

open VO.Plonk VO.Spec Polynomial

section
variable {F : Type} [Field F] [DecidableEq F] {G1 G2 GT : Type} [AddCommGroup G1] [Module F G1]
  [AddCommGroup G2] [Module F G2] [AddCommGroup GT] [Module F GT]

open Classical in
/-- KZG commitments with secret `τ`, generators `g` and `h`, and powers of `τ` up to `D`. The commitment
to `p` is `p(τ) g`, larger polynomials are refused. Polynomials are opened together, combined with the
powers of `ξ`: the proof commits to the quotient by `X - x`, and the check is the pairing equation
`e(∑ ξ^i (c_i - v_i g), h) = e(π, τ h - x h)`. -/
noncomputable def kzgPcs (e : G1 →ₗ[F] G2 →ₗ[F] GT) (g : G1) (h : G2) (D : ℕ) (τ : F) : PCS F where
  Comm := G1
  OProof := G1
  commit p := if (polyOf p).natDegree ≤ D then .ok ((polyOf p).eval τ • g) else .error .pcError
  msm cs ss := ((ss.zip cs).map fun x => x.1 • x.2).sum
  openAt ps x ξ :=
    if ∀ p ∈ ps, (polyOf p).natDegree ≤ D then
      .ok ((((ps.mapIdx fun i p => C (ξ ^ i) * polyOf p).sum /ₘ (X - C x)).eval τ) • g)
    else .error .pcError
  check cs x vs π ξ := .ok (decide
    (e ((cs.zip vs).mapIdx fun i c => ξ ^ i • (c.1 - c.2 • g)).sum h = e π (τ • h - x • h)))

end

section
variable {F : Type} [Field F] [DecidableEq F]

/-- A prover in the algebraic group model: all it sends are values and commitments to polynomials of
its choice (combinations of the powers of `τ` it was given). Each move may depend on all challenges
drawn before it; the commitments `z2` are sent before `α`. -/
structure KzgStrategy (F : Type) [Field F] where
  wa : F[X]
  wb : F[X]
  wc : F[X]
  wd : F[X]
  f : PolyMove F
  h1 : PolyMove F
  h2 : PolyMove F
  z : PolyMove F
  z2 : PolyMove F
  t : Fin 8 → PolyMove F
  ev : List F → Evals F
  o1 : PolyMove F
  o2 : PolyMove F

/-- All polynomials are within the powers of the key. -/
structure KzgStrategy.Bounded (D : ℕ) (s : KzgStrategy F) : Prop where
  wa : s.wa.natDegree ≤ D
  wb : s.wb.natDegree ≤ D
  wc : s.wc.natDegree ≤ D
  wd : s.wd.natDegree ≤ D
  f : s.f.Bounded D
  h1 : s.h1.Bounded D
  h2 : s.h2.Bounded D
  z : s.z.Bounded D
  z2 : s.z2.Bounded D
  t : ∀ k, (s.t k).Bounded D
  o1 : s.o1.Bounded D
  o2 : s.o2.Bounded D

/-- The wire values the prover commits to first, on the domain generated by `omega`. -/
noncomputable def KzgStrategy.wires (s : KzgStrategy F) (omega : F) : WireData → F
  | .left i => s.wa.eval (omega ^ i)
  | .right i => s.wb.eval (omega ^ i)
  | .output i => s.wc.eval (omega ^ i)
  | .fourth i => s.wd.eval (omega ^ i)

variable {G1 G2 GT : Type} [AddCommGroup G1] [Module F G1]
  [AddCommGroup G2] [Module F G2] [AddCommGroup GT] [Module F GT]

/-- The proof that the prover `s` sends when these challenges are drawn. -/
noncomputable def KzgStrategy.proof (s : KzgStrategy F) (e : G1 →ₗ[F] G2 →ₗ[F] GT) (g : G1) (h : G2)
    (D : ℕ) (τ : F)
    (zeta beta gamma delta epsilon alpha range logic fixed var lookup zz aw saw : F) :
    PlonkProof (kzgPcs e g h D τ) :=
  let l1 := [zeta]
  let l2 := l1 ++ [beta, gamma, delta, epsilon]
  let l3 := l2 ++ [alpha, range, logic, fixed, var, lookup]
  let l4 := l3 ++ [zz]
  let l5 := l4 ++ [aw, saw]
  let cm : F[X] → G1 := fun p => p.eval τ • g
  ⟨cm s.wa, cm s.wb, cm s.wc, cm s.wd, cm (s.z l2), cm (s.f l1), cm (s.h1 l1), cm (s.h2 l1),
    cm (s.z2 l2), fun k => cm (s.t k l3), cm (s.o1 l5), cm (s.o2 l5), s.ev l4⟩

/-- The same proof, with an accumulator of the lookups that is chosen only after the evaluation point. -/
noncomputable def KzgStrategy.lateProof (s : KzgStrategy F) (z2 : PolyMove F) (e : G1 →ₗ[F] G2 →ₗ[F] GT)
    (g : G1) (h : G2) (D : ℕ) (τ : F)
    (zeta beta gamma delta epsilon alpha range logic fixed var lookup zz aw saw : F) :
    PlonkProof (kzgPcs e g h D τ) :=
  { s.proof e g h D τ zeta beta gamma delta epsilon alpha range logic fixed var lookup zz aw saw with
    z2 := ((z2 [zeta, beta, gamma, delta, epsilon, alpha, range, logic, fixed, var, lookup,
      zz]).eval τ • g : G1) }

/-- A proof for the untrimmed scheme, as a proof for the trimmed one (the types do not differ in the
code). -/
def _root_.VO.Plonk.PlonkProof.trim {P : PCS F} (p : PlonkProof P) (s : ℕ) : PlonkProof (trimmed P s) :=
  ⟨p.a, p.b, p.c, p.d, p.z, p.f, p.h1, p.h2, p.z2, p.t, p.aw, p.saw, p.ev⟩

/-- The four selector evaluations the verifier uses but does not check are right: each is the value at
`z` of the polynomial of degree below `n` that has the entries of the column on the domain. -/
def SelectorsRight (n : ℕ) (omega : F) (c : Composer F) (e : Evals F) (z : F) : Prop :=
  ∀ x ∈ [("q_arith_eval", c.q_arith), ("q_l_eval", c.q_l), ("q_r_eval", c.q_r), ("q_c_eval", c.q_c)],
    ∃ p : F[X], p.degree < n ∧ (∀ i < n, p.eval (omega ^ i) = x.2.getD i 0) ∧
      customGet e.custom x.1 = .ok (p.eval z)

end

end VO.Spec.Plonk
