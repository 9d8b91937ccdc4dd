import Verif.Spec.Odds
import Verif.Props.PovSound
import Verif.Props.PovPeSound
import Verif.Props.R1csSnarkSound
import Verif.Props.R1csPeSound
import Verif.Props.HprSnarkSound
import Verif.Props.FibonacciSound
import Verif.Props.RangeCheckSound

/-
Algebraic provers as strategies: each group element of the proof is a commitment to a polynomial that
the prover chooses as a function of the challenges drawn so far; each field element of the proof is a
function of them as well.  The trapdoor of the setup and the randomizer of `batch_check` are drawn
too and are never shown to the strategy.

`...Accepts s t` says that there are an environment (hash function, pairing, randomizer), generators
and keys for the trapdoor in `t` such that the hash answers the transcripts of this run with the
challenges in `t` and `verify` returns Ok.
-/

set_option linter.unusedSectionVars false

namespace VO
open Spec

variable {F : Type} [Field F] [DecidableEq F]
variable (G1 G2 GT : Type)
  [AddCommGroup G1] [Module F G1] [DecidableEq G1] [AddCommGroup G2] [Module F G2]
  [AddCommGroup GT] [Module F GT] [DecidableEq GT]

namespace Spec

/-- A prover against the POV verifier (the proof of `snarks/voproof_pov.rs`). -/
structure PovStrategy (F : Type) [Field F] where
  W : Polynomial F
  R : PolyMove F
  P1 : PolyMove F
  H1 : PolyMove F
  H2 : PolyMove F
  y : List F → F
  y2 : List F → F
  Q1 : PolyMove F
  Q2 : PolyMove F

/-- The prover commits only to polynomials of degree at most `D`. -/
structure PovStrategy.Bounded (D : ℕ) (s : PovStrategy F) : Prop where
  W : s.W.natDegree ≤ D
  R : s.R.Bounded D
  P1 : s.P1.Bounded D
  H1 : s.H1.Bounded D
  H2 : s.H2.Bounded D
  Q1 : s.Q1.Bounded D
  Q2 : s.Q2.Bounded D

/-- The prover `s` makes the POV verifier accept, for the given challenges, trapdoor `β` and
randomizer `r`. -/
def PovAccepts (cs : POV F) (c D : ℕ) (γ : F) (ins : POVInstance F) (s : PovStrategy F)
    (ζ ζ1 α ω z ξ ξ2 β r : F) : Prop :=
  let W := s.W
  let R := s.R [ζ, ζ1]
  let P1 := s.P1 [ζ, ζ1, α]
  let H1 := s.H1 [ζ, ζ1, α, ω]
  let H2 := s.H2 [ζ, ζ1, α, ω]
  let y := s.y [ζ, ζ1, α, ω, z]
  let y2 := s.y2 [ζ, ζ1, α, ω, z]
  let Q1 := s.Q1 [ζ, ζ1, α, ω, z, ξ, ξ2]
  let Q2 := s.Q2 [ζ, ζ1, α, ω, z, ξ, ξ2]
  ∃ (env : Env F G1 G2 GT) (g : G1) (h : G2), env.rngU128 = r ∧ env.gamma = γ ∧ g ≠ 0 ∧
    NonDegenerate env.e h ∧
  ∃ (pp : UniversalParams G1 G2), kzgSetup D β g h = .ok pp ∧
  ∃ pk vk, povIndex γ pp cs = .ok (pk, vk) ∧
    let S := permPoly (3 * c) γ (cs.wires.map (fun p => Equiv.swap p.1 p.2)).prod
    let K := polyOf cs.consts
    let cm := fun p : Polynomial F => p.eval β • g
    let it := fun p : Polynomial F => (Item.cm (cm p) : Item F G1)
    let pre := fun (first : F) (l : List (Item F G1)) =>
      [.fld first, .nats ins.idx, .flds ins.vals, it S, it K] ++ l
    let G := povGPoly c cs.nadd cs.nmul (D + 1) γ ζ ζ1 α ω z y ((selPoly ins.idx).eval (ω / z)) y2
      ((instPoly ins.idx ins.vals).eval z) W S K P1 H1 H2
    env.hash (pre 1 [it W]) = ζ ∧
    env.hash (pre 2 [it W]) = ζ1 ∧
    env.hash (pre 1 [it W, it R]) = α ∧
    env.hash (pre 1 [it W, it R, it P1]) = ω ∧
    env.hash (pre 1 [it W, it R, it P1, it H1, it H2]) = z ∧
    env.hash (pre 1 [it W, it R, it P1, it H1, it H2, it G, .fld (ω / z), .fld y, .fld y2,
      .fld z]) = ξ ∧
    env.hash (pre 2 [it W, it R, it P1, it H1, it H2, it G, .fld (ω / z), .fld y, .fld y2,
      .fld z]) = ξ2 ∧
    povVerify env vk ins ⟨cm W, cm R, cm P1, cm H1, cm H2, y, y2, cm Q1, cm Q2⟩ = .ok ()

/-- A prover against the POV verifier of `snarks/voproof_pov_prover_efficient.rs`. -/
structure PovPeStrategy (F : Type) [Field F] where
  U : Polynomial F
  V : Polynomial F
  R : PolyMove F
  P1 : PolyMove F
  H1 : PolyMove F
  H2 : PolyMove F
  y : List F → F
  y2 : List F → F
  Q1 : PolyMove F
  Q2 : PolyMove F

/-- The prover commits only to polynomials of degree at most `D`. -/
structure PovPeStrategy.Bounded (D : ℕ) (s : PovPeStrategy F) : Prop where
  U : s.U.natDegree ≤ D
  V : s.V.natDegree ≤ D
  R : s.R.Bounded D
  P1 : s.P1.Bounded D
  H1 : s.H1.Bounded D
  H2 : s.H2.Bounded D
  Q1 : s.Q1.Bounded D
  Q2 : s.Q2.Bounded D

/-- The prover `s` makes the verifier of `voproof_pov_prover_efficient.rs` accept. -/
def PovPeAccepts (cs : POV F) (c D : ℕ) (γ : F) (ins : POVInstance F) (s : PovPeStrategy F)
    (ζ ζ1 α ω z ξ ξ2 β r : F) : Prop :=
  let U := s.U
  let V := s.V
  let R := s.R [ζ, ζ1]
  let P1 := s.P1 [ζ, ζ1, α]
  let H1 := s.H1 [ζ, ζ1, α, ω]
  let H2 := s.H2 [ζ, ζ1, α, ω]
  let y := s.y [ζ, ζ1, α, ω, z]
  let y2 := s.y2 [ζ, ζ1, α, ω, z]
  let Q1 := s.Q1 [ζ, ζ1, α, ω, z, ξ, ξ2]
  let Q2 := s.Q2 [ζ, ζ1, α, ω, z, ξ, ξ2]
  ∃ (env : Env F G1 G2 GT) (g : G1) (h : G2), env.rngU128 = r ∧ env.gamma = γ ∧ g ≠ 0 ∧
    NonDegenerate env.e h ∧
  ∃ (pp : UniversalParams G1 G2), kzgSetup D β g h = .ok pp ∧
  ∃ pk vk, povPeIndex γ pp cs = .ok (pk, vk) ∧
    let S := permPoly (3 * c) γ (cs.wires.map (fun p => Equiv.swap p.1 p.2)).prod
    let K := polyOf cs.consts
    let cm := fun p : Polynomial F => p.eval β • g
    let it := fun p : Polynomial F => (Item.cm (cm p) : Item F G1)
    let pre := fun (first : F) (l : List (Item F G1)) =>
      [.fld first, .nats ins.idx, .flds ins.vals, it S, it K] ++ l
    let G := povPeGPoly c cs.nadd cs.nmul (D + 1) γ ζ ζ1 α ω z y ((selPoly ins.idx).eval (ω / z)) y2
      ((instPoly ins.idx ins.vals).eval z) U V S K P1 H1 H2
    env.hash (pre 1 [it U, it V]) = ζ ∧
    env.hash (pre 2 [it U, it V]) = ζ1 ∧
    env.hash (pre 1 [it U, it V, it R]) = α ∧
    env.hash (pre 1 [it U, it V, it R, it P1]) = ω ∧
    env.hash (pre 1 [it U, it V, it R, it P1, it H1, it H2]) = z ∧
    env.hash (pre 1 [it U, it V, it R, it P1, it H1, it H2, it G, .fld (ω / z), .fld y, .fld y2,
      .fld z]) = ξ ∧
    env.hash (pre 2 [it U, it V, it R, it P1, it H1, it H2, it G, .fld (ω / z), .fld y, .fld y2,
      .fld z]) = ξ2 ∧
    povPeVerify env vk ins ⟨cm U, cm V, cm R, cm P1, cm H1, cm H2, y, y2, cm Q1, cm Q2⟩ = .ok ()

/-- A prover against the R1CS verifier (`snarks/voproof_r1cs.rs`), or against the HPR verifier
(`snarks/voproof_hpr.rs`): the messages of both have the same shape. -/
structure R1csStrategy (F : Type) [Field F] where
  A : Polynomial F
  P : PolyMove F
  Q : PolyMove F
  R : PolyMove F
  T : PolyMove F
  H1 : PolyMove F
  H2 : PolyMove F
  y : List F → F
  y1 : List F → F
  Q1 : PolyMove F
  Q2 : PolyMove F

/-- The prover commits only to polynomials of degree at most `D`. -/
structure R1csStrategy.Bounded (D : ℕ) (s : R1csStrategy F) : Prop where
  A : s.A.natDegree ≤ D
  P : s.P.Bounded D
  Q : s.Q.Bounded D
  R : s.R.Bounded D
  T : s.T.Bounded D
  H1 : s.H1.Bounded D
  H2 : s.H2.Bounded D
  Q1 : s.Q1.Bounded D
  Q2 : s.Q2.Bounded D

/-- The prover `s` makes the verifier of `voproof_r1cs.rs` accept. -/
def R1csAccepts (cs : R1CS F) (D : ℕ) (γ : F) (x : List F) (s : R1csStrategy F)
    (μ ν β α ω z ξ ξ2 τ r : F) : Prop :=
  let A := s.A
  let P := s.P [μ]
  let Q := s.Q [μ, ν]
  let R := s.R [μ, ν, β]
  let T := s.T [μ, ν, β, α]
  let H1 := s.H1 [μ, ν, β, α, ω]
  let H2 := s.H2 [μ, ν, β, α, ω]
  let y := s.y [μ, ν, β, α, ω, z]
  let y1 := s.y1 [μ, ν, β, α, ω, z]
  let Q1 := s.Q1 [μ, ν, β, α, ω, z, ξ, ξ2]
  let Q2 := s.Q2 [μ, ν, β, α, ω, z, ξ, ξ2]
  ∃ (env : Env F G1 G2 GT) (g : G1) (h : G2), env.rngU128 = r ∧ env.gamma = γ ∧ g ≠ 0 ∧
    NonDegenerate env.e h ∧
  ∃ (pp : UniversalParams G1 G2), kzgSetup D τ g h = .ok pp ∧
  ∃ pk vk, r1csIndex γ pp cs = .ok (pk, vk) ∧
    let l := stacked cs
    let cm := fun p : Polynomial F => p.eval τ • g
    let it := fun p : Polynomial F => (Item.cm (cm p) : Item F G1)
    let pre := fun (first : F) (items : List (Item F G1)) =>
      [.fld first, .flds x, it (rowPoly γ l), it (colPoly γ l), it (valPoly l),
        it (rowColPoly γ l)] ++ items
    let G := r1csGPoly cs.nrows cs.ncols l.length cs.inputSize (D + 1) γ μ ν β α ω z y y1
      ((polyOf x).eval z) (rowPoly γ l) (colPoly γ l) (valPoly l) (rowColPoly γ l) A P Q R T H1 H2
    env.hash (pre 1 [it A]) = μ ∧
    env.hash (pre 1 [it A, it P]) = ν ∧
    env.hash (pre 1 [it A, it P, it Q]) = β ∧
    env.hash (pre 1 [it A, it P, it Q, it R]) = α ∧
    env.hash (pre 1 [it A, it P, it Q, it R, it T]) = ω ∧
    env.hash (pre 1 [it A, it P, it Q, it R, it T, it H1, it H2]) = z ∧
    env.hash (pre 1 [it A, it P, it Q, it R, it T, it H1, it H2, it G, .fld (ω / z), .fld y,
      .fld y1, .fld z]) = ξ ∧
    env.hash (pre 2 [it A, it P, it Q, it R, it T, it H1, it H2, it G, .fld (ω / z), .fld y,
      .fld y1, .fld z]) = ξ2 ∧
    r1csVerify env vk x ⟨cm A, cm P, cm Q, cm R, cm T, cm H1, cm H2, y, y1, cm Q1, cm Q2⟩ = .ok ()

/-- The prover `s` makes the verifier of `voproof_hpr.rs` accept. -/
def HprAccepts (cs : HPR F) (D : ℕ) (γ : F) (x : List F) (s : R1csStrategy F)
    (μ ν β α ω z ξ ξ2 τ r : F) : Prop :=
  let W := s.A
  let P := s.P [μ]
  let Q := s.Q [μ, ν]
  let R := s.R [μ, ν, β]
  let T := s.T [μ, ν, β, α]
  let H1 := s.H1 [μ, ν, β, α, ω]
  let H2 := s.H2 [μ, ν, β, α, ω]
  let y := s.y [μ, ν, β, α, ω, z]
  let y1 := s.y1 [μ, ν, β, α, ω, z]
  let Q1 := s.Q1 [μ, ν, β, α, ω, z, ξ, ξ2]
  let Q2 := s.Q2 [μ, ν, β, α, ω, z, ξ, ξ2]
  ∃ (env : Env F G1 G2 GT) (g : G1) (h : G2), env.rngU128 = r ∧ env.gamma = γ ∧ g ≠ 0 ∧
    NonDegenerate env.e h ∧
  ∃ (pp : UniversalParams G1 G2), kzgSetup D τ g h = .ok pp ∧
  ∃ pk vk, hprIndex γ pp cs = .ok (pk, vk) ∧
    let l := joined cs
    let cm := fun p : Polynomial F => p.eval τ • g
    let it := fun p : Polynomial F => (Item.cm (cm p) : Item F G1)
    let pre := fun (first : F) (items : List (Item F G1)) =>
      [.fld first, .flds x, it (rowPoly γ l), it (colPoly γ l), it (valPoly l),
        it (rowColPoly γ l)] ++ items
    let G := hprGPoly cs.nrows cs.ncols l.length (D + 1) γ μ ν β α ω z y y1
      ((polyOf x).eval (ω / z)) (rowPoly γ l) (colPoly γ l) (valPoly l) (rowColPoly γ l)
      W P Q R T H1 H2
    env.hash (pre 1 [it W]) = μ ∧
    env.hash (pre 1 [it W, it P]) = ν ∧
    env.hash (pre 1 [it W, it P, it Q]) = β ∧
    env.hash (pre 1 [it W, it P, it Q, it R]) = α ∧
    env.hash (pre 1 [it W, it P, it Q, it R, it T]) = ω ∧
    env.hash (pre 1 [it W, it P, it Q, it R, it T, it H1, it H2]) = z ∧
    env.hash (pre 1 [it W, it P, it Q, it R, it T, it H1, it H2, it G, .fld (ω / z), .fld y,
      .fld y1, .fld z]) = ξ ∧
    env.hash (pre 2 [it W, it P, it Q, it R, it T, it H1, it H2, it G, .fld (ω / z), .fld y,
      .fld y1, .fld z]) = ξ2 ∧
    hprVerify env vk x ⟨cm W, cm P, cm Q, cm R, cm T, cm H1, cm H2, y, y1, cm Q1, cm Q2⟩ = .ok ()

/-- A prover against the verifier of `snarks/voproof_r1cs_prover_efficient.rs`. -/
structure R1csPeStrategy (F : Type) [Field F] where
  Y : Polynomial F
  W : Polynomial F
  P : PolyMove F
  C : PolyMove F
  Q : PolyMove F
  U : PolyMove F
  R : PolyMove F
  T : PolyMove F
  H1 : PolyMove F
  H2 : PolyMove F
  y : List F → F
  y1 : List F → F
  y2 : List F → F
  Q1 : PolyMove F
  Q2 : PolyMove F

/-- The prover commits only to polynomials of degree at most `D`. -/
structure R1csPeStrategy.Bounded (D : ℕ) (s : R1csPeStrategy F) : Prop where
  Y : s.Y.natDegree ≤ D
  W : s.W.natDegree ≤ D
  P : s.P.Bounded D
  C : s.C.Bounded D
  Q : s.Q.Bounded D
  U : s.U.Bounded D
  R : s.R.Bounded D
  T : s.T.Bounded D
  H1 : s.H1.Bounded D
  H2 : s.H2.Bounded D
  Q1 : s.Q1.Bounded D
  Q2 : s.Q2.Bounded D

/-- The prover `s` makes the verifier of `voproof_r1cs_prover_efficient.rs` accept. -/
def R1csPeAccepts (cs : R1CS F) (D : ℕ) (γ : F) (x : List F) (s : R1csPeStrategy F)
    (μ ν β α ω z ξ ξ2 τ r : F) : Prop :=
  let Y := s.Y
  let W := s.W
  let P := s.P [μ]
  let Cc := s.C [μ]
  let Q := s.Q [μ, ν]
  let U := s.U [μ, ν]
  let R := s.R [μ, ν, β]
  let T := s.T [μ, ν, β, α]
  let H1 := s.H1 [μ, ν, β, α, ω]
  let H2 := s.H2 [μ, ν, β, α, ω]
  let y := s.y [μ, ν, β, α, ω, z]
  let y1 := s.y1 [μ, ν, β, α, ω, z]
  let y2 := s.y2 [μ, ν, β, α, ω, z]
  let Q1 := s.Q1 [μ, ν, β, α, ω, z, ξ, ξ2]
  let Q2 := s.Q2 [μ, ν, β, α, ω, z, ξ, ξ2]
  ∃ (env : Env F G1 G2 GT) (g : G1) (h : G2), env.rngU128 = r ∧ env.gamma = γ ∧ g ≠ 0 ∧
    NonDegenerate env.e h ∧
  ∃ (pp : UniversalParams G1 G2), kzgSetup D τ g h = .ok pp ∧
  ∃ pk vk, r1csPeIndex γ pp cs = .ok (pk, vk) ∧
    let l := stackedPe cs
    let cm := fun p : Polynomial F => p.eval τ • g
    let it := fun p : Polynomial F => (Item.cm (cm p) : Item F G1)
    let pre := fun (first : F) (items : List (Item F G1)) =>
      [.fld first, .flds x, it (rowPoly γ l), it (colPoly γ l), it (valPoly l),
        it (rowColPoly γ l)] ++ items
    let G := r1csPeGPoly cs.nrows cs.ncols l.length cs.inputSize (D + 1) γ μ ν β α ω z y y1 y2
      ((polyOf x).eval z) (rowPoly γ l) (colPoly γ l) (valPoly l) (rowColPoly γ l)
      Y W P Cc Q R T H1 H2
    env.hash (pre 1 [it Y, it W]) = μ ∧
    env.hash (pre 1 [it Y, it W, it P, it Cc]) = ν ∧
    env.hash (pre 1 [it Y, it W, it P, it Cc, it Q, it U]) = β ∧
    env.hash (pre 1 [it Y, it W, it P, it Cc, it Q, it U, it R]) = α ∧
    env.hash (pre 1 [it Y, it W, it P, it Cc, it Q, it U, it R, it T]) = ω ∧
    env.hash (pre 1 [it Y, it W, it P, it Cc, it Q, it U, it R, it T, it H1, it H2]) = z ∧
    env.hash (pre 1 [it Y, it W, it P, it Cc, it Q, it U, it R, it T, it H1, it H2, it G,
      .fld (ω / z), .fld y, .fld y1, .fld y2, .fld z]) = ξ ∧
    env.hash (pre 2 [it Y, it W, it P, it Cc, it Q, it U, it R, it T, it H1, it H2, it G,
      .fld (ω / z), .fld y, .fld y1, .fld y2, .fld z]) = ξ2 ∧
    r1csPeVerify env vk x ⟨cm Y, cm W, cm P, cm Cc, cm Q, cm U, cm R, cm T, cm H1, cm H2, y, y1, y2,
        cm Q1, cm Q2⟩ = .ok ()

/-- A prover against the verifier of `snarks/fibonacci.rs`. -/
structure FibStrategy (F : Type) [Field F] where
  W : Polynomial F
  R : Polynomial F
  P1 : PolyMove F
  H1 : PolyMove F
  H2 : PolyMove F
  y : List F → F
  y1 : List F → F
  y2 : List F → F
  Q1 : PolyMove F
  Q2 : PolyMove F

/-- The prover commits only to polynomials of degree at most `D`. -/
structure FibStrategy.Bounded (D : ℕ) (s : FibStrategy F) : Prop where
  W : s.W.natDegree ≤ D
  R : s.R.natDegree ≤ D
  P1 : s.P1.Bounded D
  H1 : s.H1.Bounded D
  H2 : s.H2.Bounded D
  Q1 : s.Q1.Bounded D
  Q2 : s.Q2.Bounded D

/-- The prover `s` makes the verifier of `fibonacci.rs` accept; `P` is the polynomial committed to in
the key. -/
def FibAccepts (n D : ℕ) (P : Polynomial F) (x : FibInstance F) (s : FibStrategy F)
    (α ω z ξ ξ2 β r : F) : Prop :=
  let W := s.W
  let R := s.R
  let P1 := s.P1 [α]
  let H1 := s.H1 [α, ω]
  let H2 := s.H2 [α, ω]
  let y := s.y [α, ω, z]
  let y1 := s.y1 [α, ω, z]
  let y2 := s.y2 [α, ω, z]
  let Q1 := s.Q1 [α, ω, z, ξ, ξ2]
  let Q2 := s.Q2 [α, ω, z, ξ, ξ2]
  ∃ (env : Env F G1 G2 GT) (g : G1) (h : G2), env.rngU128 = r ∧ g ≠ 0 ∧ NonDegenerate env.e h ∧
  ∃ kvk : VerifierKey G1 G2, HonestVk β g h kvk ∧
    let cm := fun p : Polynomial F => p.eval β • g
    let it := fun p : Polynomial F => (Item.cm (cm p) : Item F G1)
    let G := fibGPoly n (D + 1) x.a x.b x.c α ω z y y1 y2 P P1 H1 H2
    env.hash [.fld 1, it P, it W, it R] = α ∧
    env.hash [.fld 1, it P, it W, it R, it P1] = ω ∧
    env.hash [.fld 1, it P, it W, it R, it P1, it H1, it H2] = z ∧
    env.hash [.fld 1, it P, it W, it R, it P1, it H1, it H2, it G, .fld (ω / z), .fld y, .fld y1,
      .fld y2, .fld z] = ξ ∧
    env.hash [.fld 2, it P, it W, it R, it P1, it H1, it H2, it G, .fld (ω / z), .fld y, .fld y1,
      .fld y2, .fld z] = ξ2 ∧
    fibVerify env ⟨cm P, kvk, n, D + 1⟩ x
        ⟨cm W, cm R, cm P1, cm H1, cm H2, y, y1, y2, cm Q1, cm Q2⟩ = .ok ()

/-- A prover against the verifier of `snarks/range_check.rs`. -/
structure RcStrategy (F : Type) [Field F] where
  W : Polynomial F
  M : Polynomial F
  R : PolyMove F
  S : PolyMove F
  A : PolyMove F
  P1 : PolyMove F
  H1 : PolyMove F
  H2 : PolyMove F
  y : List F → F
  y1 : List F → F
  y2 : List F → F
  Q1 : PolyMove F
  Q2 : PolyMove F

/-- The prover commits only to polynomials of degree at most `D`. -/
structure RcStrategy.Bounded (D : ℕ) (s : RcStrategy F) : Prop where
  W : s.W.natDegree ≤ D
  M : s.M.natDegree ≤ D
  R : s.R.Bounded D
  S : s.S.Bounded D
  A : s.A.Bounded D
  P1 : s.P1.Bounded D
  H1 : s.H1.Bounded D
  H2 : s.H2.Bounded D
  Q1 : s.Q1.Bounded D
  Q2 : s.Q2.Bounded D

/-- The prover `s` makes the verifier of `range_check.rs` accept. -/
def RcAccepts (cs : RangeCheck) (D : ℕ) (s : RcStrategy F) (β α ω z ξ ξ2 τ r : F) : Prop :=
  let W := s.W
  let M := s.M
  let R := s.R [β]
  let S := s.S [β]
  let A := s.A [β]
  let P1 := s.P1 [β, α]
  let H1 := s.H1 [β, α, ω]
  let H2 := s.H2 [β, α, ω]
  let y := s.y [β, α, ω, z]
  let y1 := s.y1 [β, α, ω, z]
  let y2 := s.y2 [β, α, ω, z]
  let Q1 := s.Q1 [β, α, ω, z, ξ, ξ2]
  let Q2 := s.Q2 [β, α, ω, z, ξ, ξ2]
  ∃ (env : Env F G1 G2 GT) (g : G1) (h : G2), env.rngU128 = r ∧ g ≠ 0 ∧ NonDegenerate env.e h ∧
  ∃ pp : UniversalParams G1 G2, kzgSetup D τ g h = .ok pp ∧
  ∃ pk vk, rcIndex (F := F) pp cs = .ok (pk, vk) ∧
    let cm := fun p : Polynomial F => p.eval τ • g
    let it := fun p : Polynomial F => (Item.cm (cm p) : Item F G1)
    let P : Polynomial F := tablePoly cs.range
    let G := rcGPoly cs.lookupSize cs.range cs.range (D + 1) α β ω z y y1 y2 W P A P1 H1 H2
    env.hash [.fld 1, it P, it W, it M] = β ∧
    env.hash [.fld 1, it P, it W, it M, it R, it S, it A] = α ∧
    env.hash [.fld 1, it P, it W, it M, it R, it S, it A, it P1] = ω ∧
    env.hash [.fld 1, it P, it W, it M, it R, it S, it A, it P1, it H1, it H2] = z ∧
    env.hash [.fld 1, it P, it W, it M, it R, it S, it A, it P1, it H1, it H2, it G, .fld (ω / z),
      .fld y, .fld y1, .fld y2, .fld z] = ξ ∧
    env.hash [.fld 2, it P, it W, it M, it R, it S, it A, it P1, it H1, it H2, it G, .fld (ω / z),
      .fld y, .fld y1, .fld y2, .fld z] = ξ2 ∧
    rcVerify env vk
        ⟨cm W, cm M, cm R, cm S, cm A, cm P1, cm H1, cm H2, y, y1, y2, cm Q1, cm Q2⟩ = .ok ()

end Spec
end VO
