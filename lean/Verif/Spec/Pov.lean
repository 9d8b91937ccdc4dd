import Verif.Spec.Hadamard
import Verif.Spec.Cs

/-
Independent specification of the argument of the POV SNARK
`/repo/voproof/src/snarks/voproof_pov.rs`.  `c`, `ca`, `cm` are the numbers of gates, addition
gates and multiplication gates; positions are counted from 0 in the vector of all left inputs,
right inputs and outputs (length `3c`).
-/

namespace VO.Spec
open Polynomial

variable {F : Type} [Field F]

/-- The instance as a selector polynomial: `Σ X^i` over the public positions. -/
noncomputable def selPoly (idx : List ℕ) : F[X] := (idx.map (fun i => (X ^ i : F[X]))).sum

/-- The instance as a value polynomial: `Σ v X^i` over the public positions. -/
noncomputable def instPoly (idx : List ℕ) (vals : List F) : F[X] :=
  ((idx.zip vals).map (fun p => C p.2 * X ^ p.1)).sum

/-- The pairs of polynomials of the argument, without blinding, for the witness polynomial `W`, the
permutation polynomial `S`, the constants `K`, the instance polynomials `I`, `V` and the
grand-product polynomial `R`: multiplication gates (two pairs), addition gates, constant gates,
instance, the recurrence of the grand product (two pairs) and its last value. -/
noncomputable def povBase (c ca cm : ℕ) (γ ζ ζ1 α : F) (W S K I V R : F[X]) : List (F[X] × F[X]) :=
  [ (X ^ (3 * c - cm) * W, X ^ (2 * c - cm) * W),
    (-(X ^ (3 * c - cm) * geomPoly 1 cm), X ^ (c - cm) * W),
    (C α * (X ^ (2 * c + cm) * geomPoly 1 ca), X ^ (2 * c) * W + X ^ c * W - W),
    (C (α ^ 2) * (X ^ (2 * c + ca + cm) * geomPoly 1 (c - ca - cm)),
      W - X ^ (2 * c + ca + cm) * K),
    (C (α ^ 3) * I, W - V),
    (C (α ^ 4) * (1 + X * R), W + C ζ * geomPoly γ (3 * c) + C ζ1 * geomPoly 1 (3 * c)),
    (-(C (α ^ 4) * R), W + C ζ1 * geomPoly 1 (3 * c) + C ζ * S),
    (C (α ^ 5) * (R - X ^ (3 * c - 1)), X ^ (3 * c - 1)) ]

/-- The pairs with the blinding pair. -/
noncomputable def povPolys (c ca cm : ℕ) (γ ζ ζ1 α : F) (W S K I V R P1 : F[X]) :
    List (F[X] × F[X]) :=
  povBase c ca cm γ ζ ζ1 α W S K I V R ++ [blindPair (3 * c) (3 * c - cm + 1) P1]

/-- The permutation as a polynomial: coefficient `i < n` is `γ^{σ(i)}`. -/
noncomputable def permPoly (n : ℕ) (γ : F) (σ : ℕ → ℕ) : F[X] :=
  ∑ i ∈ Finset.range n, C (γ ^ σ i) * X ^ i

/-- The honest grand-product polynomial: coefficient `i < n` is
`Π_{j ≤ i} (w_j + ζ γ^j + ζ1) / (w_j + ζ s_j + ζ1)`, and one blinding coefficient. -/
noncomputable def grandPoly (n : ℕ) (γ ζ ζ1 : F) (w s : ℕ → F) (δ : F) : F[X] :=
  ∑ i ∈ Finset.range n,
      C (∏ j ∈ Finset.range (i + 1), (w j + ζ * γ ^ j + ζ1) / (w j + ζ * s j + ζ1)) * X ^ i
    + C δ * X ^ n

/-- The witness that can be read off the coefficients of a committed polynomial. -/
noncomputable def povRead (c : ℕ) (W : F[X]) : POVWitness F :=
  ⟨(List.range c).map W.coeff, (List.range c).map (fun i => W.coeff (c + i)),
    (List.range c).map (fun i => W.coeff (2 * c + i))⟩

/-- The combination of the final check for claimed values `y`, `y2` of `W`, `R` at `ω/z`, the value
`y1` of the selector polynomial at `ω/z` and the value `v` of the instance polynomial at `z`, minus
`z^{-D} H1 + z H2`; public right factors are replaced by their value at `z`.  It is applied to
polynomials and to commitments, with `u` standing for the constant 1. -/
noncomputable def povComb {M : Type} [AddCommGroup M] [Module F M] (c ca cm D : ℕ)
    (γ ζ ζ1 α ω z y y1 y2 v : F) (u w s k p1 h1 h2 : M) : M :=
  let x := ω / z
  (x ^ (3 * c - cm) * y * z ^ (2 * c - cm)) • w
    - (x ^ (3 * c - cm) * (geomPoly 1 cm).eval x * z ^ (c - cm)) • w
    + (α * (x ^ (2 * c + cm) * (geomPoly 1 ca).eval x) * (z ^ (2 * c) + z ^ c - 1)) • w
    + (α ^ 2 * (x ^ (2 * c + ca + cm) * (geomPoly 1 (c - ca - cm)).eval x))
        • (w - z ^ (2 * c + ca + cm) • k)
    + (α ^ 3 * y1) • (w - v • u)
    + (α ^ 4 * (1 + x * y2))
        • (w + (ζ * (geomPoly γ (3 * c)).eval z + ζ1 * (geomPoly 1 (3 * c)).eval z) • u)
    - (α ^ 4 * y2) • (w + (ζ1 * (geomPoly 1 (3 * c)).eval z) • u + ζ • s)
    + (α ^ 5 * (y2 - x ^ (3 * c - 1)) * z ^ (3 * c - 1)) • u
    - (x ^ (3 * c) * (geomPoly 1 (3 * c - cm + 1)).eval x * z ^ (3 * c - 1)) • p1
    - (z ^ D)⁻¹ • h1 - z • h2

/-- The polynomial whose value at `z` the verifier requires to be zero. -/
noncomputable def povGPoly (c ca cm D : ℕ) (γ ζ ζ1 α ω z y y1 y2 v : F) (W S K P1 H1 H2 : F[X]) :
    F[X] :=
  povComb c ca cm D γ ζ ζ1 α ω z y y1 y2 v 1 W S K P1 H1 H2

end VO.Spec
