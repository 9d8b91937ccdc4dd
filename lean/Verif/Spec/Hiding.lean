import Verif.Model.Snark
import Verif.Spec.Kzg

/-
Specification for C83 and C84: what an observer of a proof can compute about the witness.
-/

namespace VO.Spec

variable {F G1 : Type} [Field F] [DecidableEq F] [AddCommGroup G1] [Module F G1] [DecidableEq G1]

/-- `u` followed by zeros up to length `n`. -/
def padTo (n : ℕ) (u : List F) : List F := u ++ List.replicate (n - u.length) 0

/-- The value `u_0 + u_1 a + u_2 a² + …`. -/
def valueAt (u : List F) (a : F) : F := ((List.range u.length).map (fun i => u.getD i 0 * a ^ i)).sum

/-- The test anybody can run on a guess `u` for a hidden vector, from public data only: the key
`powers`, the length `n`, the published commitment `cm`, the point `a` and the published value `y` at
`a`.  The one blinding entry is the solution of a linear equation, and then the commitment of the
guess can be recomputed and compared. -/
def confirmsGuess (powers : List G1) (n : ℕ) (cm : G1) (a y : F) (u : List F) : Bool :=
  let δ := (y - valueAt (padTo n u) a) / a ^ n
  decide (commitVector powers (padTo n u ++ [δ]) (n + 1) = .ok cm)

/-- The polynomial whose roots are the trapdoors at which the test confuses the guess `u` with the
hidden vector `v`. -/
noncomputable def confusion (n : ℕ) (a : F) (v u : List F) : Polynomial F :=
  Polynomial.C (a ^ n) * (polyOf (padTo n u) - polyOf (padTo n v))
    - Polynomial.C ((polyOf (padTo n u) - polyOf (padTo n v)).eval a) * Polynomial.X ^ n

/-- The conclusion of C84 for a hidden vector `v` of length at most `n`, a published commitment and a
published value at `a`: the test `confirmsGuess` accepts `v`, and accepts no vector that differs from
`v` (up to trailing zeros), unless the trapdoor is a root of a known non-zero polynomial of degree at
most `n`. -/
def GuessesConfirmed (powers : List G1) (τ : F) (n : ℕ) (cm : G1) (a y : F) (v : List F) : Prop :=
  confirmsGuess powers n cm a y v = true ∧
  ∀ u : List F, u.length ≤ n → confirmsGuess powers n cm a y u = true →
    padTo n u = padTo n v ∨ ((confusion n a v u).eval τ = 0 ∧ confusion n a v u ≠ 0 ∧
      (confusion n a v u).natDegree ≤ n)

end VO.Spec
