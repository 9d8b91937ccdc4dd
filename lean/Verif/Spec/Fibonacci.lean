import Verif.Spec.Hadamard

/-
Independent specification of the generalized Fibonacci relation proved by the SNARK
`/repo/voproof/src/snarks/fibonacci.rs`, and of the polynomial pairs its argument is about.
-/

namespace VO.Spec
open Polynomial

variable {F : Type} [Field F]

/-- `w` satisfies the recurrence of size `n` with coefficients `t`, start `a`, `b` and result `c`
(entries are counted from 0): `w₀ = a + b t₀`, `w₁ = b + w₀ t₁`, `wᵢ₊₂ = wᵢ + wᵢ₊₁ tᵢ₊₂`,
`w_{n-1} = c`. -/
def FibHolds (n : ℕ) (t : ℕ → F) (a b c : F) (w : ℕ → F) : Prop :=
  w 0 = a + b * t 0 ∧ w 1 = b + w 0 * t 1 ∧
    (∀ i, i + 2 < n → w (i + 2) = w i + w (i + 1) * t (i + 2)) ∧ w (n - 1) = c

/-- The pairs of polynomials of the argument for the witness polynomial `W`, the coefficient
polynomial `P`, the product polynomial `R` and the blinding polynomial `P1`. -/
noncomputable def fibPolys (n : ℕ) (a b c α : F) (W P R P1 : F[X]) : List (F[X] × F[X]) :=
  [ (W - C b * P - C a, 1),
    (C α * R, geomPoly 1 n),
    (-(C α * (X * W)), P),
    (C (α ^ 2) * (W - R - C b * X), X),
    (C (α ^ 3) * (W - C c * X ^ (n - 1)), X ^ (n - 1)),
    (C (α ^ 4) * (W - R - X ^ 2 * W), geomPoly 1 n - 1 - X),
    (-(X ^ n * geomPoly 1 3), X ^ (n - 1) * P1) ]

/-- The witness polynomial: `n` witness entries and one blinding coefficient. -/
noncomputable def fibWPoly (w : List F) (δ : F) : F[X] := polyOf (w ++ [δ])

/-- The product polynomial: `w_{i-1} t_i` for `i < n` (0 for `i = 0`) and one blinding
coefficient. -/
noncomputable def fibRPoly (n : ℕ) (t w : ℕ → F) (δ : F) : F[X] :=
  ∑ i ∈ Finset.range n, C (if i = 0 then 0 else w (i - 1) * t i) * X ^ i + C δ * X ^ n

/-- The combination of the final check: the sum of the claimed left values (`y`, `y1`, `y2` for `W`,
`P`, `R` at `ω/z`) times the right factors, where all public right factors are replaced by their
value at `z`, minus `z^{-D} H1 + z H2`.  It is applied to polynomials and to commitments, with `u`
standing for the constant 1. -/
noncomputable def fibComb {M : Type} [AddCommGroup M] [Module F M] (n D : ℕ)
    (a b c α ω z y y1 y2 : F) (u p p1 h1 h2 : M) : M :=
  ((y - b * y1 - a)
      + α * y2 * (geomPoly 1 n).eval z
      + α ^ 2 * (y - y2 - b * (ω / z)) * z
      + α ^ 3 * (y - c * (ω / z) ^ (n - 1)) * z ^ (n - 1)
      + α ^ 4 * (y - y2 - (ω / z) ^ 2 * y) * ((geomPoly 1 n).eval z - 1 - z)) • u
    - (α * (ω / z) * y) • p
    - ((ω / z) ^ n * (geomPoly 1 3).eval (ω / z) * z ^ (n - 1)) • p1
    - (z ^ D)⁻¹ • h1 - z • h2

/-- The polynomial whose value at `z` the verifier requires to be zero. -/
noncomputable def fibGPoly (n D : ℕ) (a b c α ω z y y1 y2 : F) (P P1 H1 H2 : F[X]) : F[X] :=
  fibComb n D a b c α ω z y y1 y2 1 P P1 H1 H2

end VO.Spec
