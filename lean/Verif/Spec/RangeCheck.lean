import Verif.Spec.Hadamard

/-
Independent specification of the statement proved by the range-check SNARK
`/repo/voproof/src/snarks/range_check.rs`, and of the polynomial pairs its argument is about.
-/

namespace VO.Spec
open Polynomial

variable {F : Type} [Field F]

/-- The first `N` entries of `w` all occur among the first `B` entries of the table `t`. -/
def LookupHolds (N B : ℕ) (w t : ℕ → F) : Prop := ∀ j, j < N → ∃ i, i < B ∧ w j = t i

/-- The first `N` entries of `w` are (the images in the field of) integers in `[0, B)`. -/
def InRangeHolds (N B : ℕ) (w : ℕ → F) : Prop := ∀ j, j < N → ∃ i : ℕ, i < B ∧ w j = (i : F)

/-- The pairs of polynomials of the argument without the blinding pair: `W` the looked-up vector,
`P` the table, `M` the multiplicities, `R` and `S` the inverses, `A` the running sums;
`n = max N B`. -/
noncomputable def rcBase (N B n : ℕ) (α β : F) (W P M R S A : F[X]) : List (F[X] × F[X]) :=
  [ (R, W + C β * geomPoly 1 N),
    (-geomPoly 1 N, geomPoly 1 N),
    (C α * S, P + C β * geomPoly 1 B),
    (-(C α * M), geomPoly 1 B),
    (C (α ^ 2) * R, geomPoly 1 N),
    (-(C (α ^ 2) * S), geomPoly 1 B),
    (-(C (α ^ 2) * geomPoly 1 n), A - X * A),
    (C (α ^ 3) * X ^ (n - 1), A) ]

/-- All pairs of polynomials of the argument. -/
noncomputable def rcPolys (N B n : ℕ) (α β : F) (W P M R S A P1 : F[X]) : List (F[X] × F[X]) :=
  rcBase N B n α β W P M R S A ++ [blindPair n 1 P1]

/-- The polynomial with coefficients `f 0, …, f (n-1)` and one blinding coefficient. -/
noncomputable def blindVec (n : ℕ) (f : ℕ → F) (δ : F) : F[X] :=
  ∑ i ∈ Finset.range n, C (f i) * X ^ i + C δ * X ^ n

/-- How often `a` occurs among the first `N` entries of `w`. -/
noncomputable def occurrences [DecidableEq F] (N : ℕ) (w : ℕ → F) (a : F) : ℕ :=
  ((Finset.range N).filter (fun j => w j = a)).card

/-- The polynomial with the coefficients `0, 1, …, B - 1`. -/
noncomputable def tablePoly (B : ℕ) : F[X] := ∑ i ∈ Finset.range B, C (i : F) * X ^ i

/-- The multiplicities of the table entries `t 0, …, t (B-1)` in `w 0, …, w (N-1)`. -/
noncomputable def multOf [DecidableEq F] (N B : ℕ) (w t : ℕ → F) (i : ℕ) : F :=
  if i < B then (occurrences N w (t i) : F) else 0

/-- The inverses `1/(w j + β)` for `j < N`. -/
noncomputable def invOf (N : ℕ) (β : F) (w : ℕ → F) (j : ℕ) : F := if j < N then (w j + β)⁻¹ else 0

/-- The sums of the first `i + 1` differences `invOf N β w k - m k / (t k + β)`. -/
noncomputable def runSum (N B : ℕ) (β : F) (w t m : ℕ → F) (i : ℕ) : F :=
  ∑ k ∈ Finset.range (i + 1), (invOf N β w k - invOf B β t k * m k)

/-- The combination of the final check (`y`, `y1`, `y2` are the claimed values of `R`, `S`, `M` at
`ω/z`): all public right factors are replaced by their value at `z`.  It is applied to polynomials
and to commitments, with `u` standing for the constant 1. -/
noncomputable def rcComb {V : Type} [AddCommGroup V] [Module F V] (N B n D : ℕ)
    (α β ω z y y1 y2 : F) (u w p a p1 h1 h2 : V) : V :=
  (y * β * (geomPoly 1 N).eval z
      - (geomPoly 1 N).eval (ω / z) * (geomPoly 1 N).eval z
      + α * y1 * β * (geomPoly 1 B).eval z
      - α * y2 * (geomPoly 1 B).eval z
      + α ^ 2 * y * (geomPoly 1 N).eval z
      - α ^ 2 * y1 * (geomPoly 1 B).eval z) • u
    + y • w + (α * y1) • p
    + (α ^ 3 * (ω / z) ^ (n - 1) - α ^ 2 * (geomPoly 1 n).eval (ω / z) * (1 - z)) • a
    - ((ω / z) ^ n * z ^ (n - 1)) • p1
    - (z ^ D)⁻¹ • h1 - z • h2

/-- The polynomial whose value at `z` the verifier requires to be zero. -/
noncomputable def rcGPoly (N B n D : ℕ) (α β ω z y y1 y2 : F) (W P A P1 H1 H2 : F[X]) : F[X] :=
  rcComb N B n D α β ω z y y1 y2 1 W P A P1 H1 H2

end VO.Spec
