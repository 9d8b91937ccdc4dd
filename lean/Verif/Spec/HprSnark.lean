import Verif.Spec.R1csSnark

/-
Independent specification of the argument of the HPR SNARK
`/repo/voproof/src/snarks/voproof_hpr.rs`.  `H` and `K` are the numbers of rows and columns and `S`
the number of listed entries of the three matrices and of the constant vector.
-/

namespace VO.Spec
open Polynomial

variable {F : Type} [Field F]

/-- The listed entries of the matrix `(d | A | B | C)` with `3K + 1` columns: those of `A` in the
columns `1, …, K`, of `B` in the next `K` columns, of `C` in the last `K` and the constants in the
column `0`. -/
def joined (r : HPR F) : List ((ℕ × ℕ) × F) :=
  (triples r.a).map (fun e => ((e.1.1, 1 + e.1.2), e.2))
    ++ (triples r.b).map (fun e => ((e.1.1, r.ncols + 1 + e.1.2), e.2))
    ++ (triples r.c).map (fun e => ((e.1.1, 2 * r.ncols + 1 + e.1.2), e.2))
    ++ (r.drows.zip r.dvals).map (fun p => ((p.1, 0), p.2))

/-- The vector `(x, 1, w1, w2, w3)` as a polynomial, for instance polynomial `V` (of degree below
`H`) and witness polynomial `W`. -/
noncomputable def hprAsg (H : ℕ) (V W : F[X]) : F[X] := V + X ^ H + X ^ (H + 1) * W

/-- The pairs of polynomials of the argument, without blinding, for the witness polynomial `W`, the
polynomials `P` and `Q` of the two sums of inverses, the polynomial `R` of the partial sums, the
index polynomials `Pu`, `Pw`, `Pv`, `Py` and the instance polynomial `V`. -/
noncomputable def hprBase (H K S : ℕ) (γ μ ν β α : F) (Pu Pw Pv Py V W P Q R : F[X]) :
    List (F[X] × F[X]) :=
  [ (C μ * geomPoly 1 H - geomPoly γ H, P),
    (-geomPoly 1 H, geomPoly 1 H),
    (C α * (C ν * geomPoly 1 (3 * K + 1) - geomPoly γ (3 * K + 1)), Q),
    (-(C α * geomPoly 1 (3 * K + 1)), geomPoly 1 (3 * K + 1)),
    (C (α ^ 2) * (X ^ (H + (3 * K + 1)) * geomPoly 1 (S - H)), P),
    (C (α ^ 4) * Q, X ^ (3 * K + 1) * (Py - C μ * Pw - C ν * Pu + C (μ * ν) * geomPoly 1 S)),
    (-(C (α ^ 4) * (X ^ (3 * K + 1) * geomPoly 1 S)), X ^ (3 * K + 1) * geomPoly 1 S),
    (C (α ^ 5) * (X ^ (2 * K + 1 + S) * W), X ^ (K + 1 + S) * W),
    (-(C (α ^ 5) * (X ^ (2 * K + 1 + S) * geomPoly 1 K)), X ^ (1 + S) * W),
    (C (α ^ 6) * hprAsg H V W, P),
    (-(C (α ^ 6 * β) * (X ^ H * Q)), P),
    (-(C (α ^ 6 * β) * Q), X ^ (3 * K + 1) * Pv),
    (-(C (α ^ 6) * geomPoly 1 (3 * K + 1 + S)), R - X * R),
    (C (α ^ 7) * X ^ (3 * K + S), R) ]

/-- The pairs with the blinding pair. -/
noncomputable def hprPolys (H K S : ℕ) (γ μ ν β α : F) (Pu Pw Pv Py V W P Q R T : F[X]) :
    List (F[X] × F[X]) :=
  hprBase H K S γ μ ν β α Pu Pw Pv Py V W P Q R
    ++ [blindPair (3 * K + 1 + S) (2 * K + S + 2) T]

/-- The combination of the final check for claimed values `y`, `y1` of `Q`, `W` at `ω/z` and the
value `v` of the instance polynomial at `ω/z`, minus `z^{-D} H1 + z H2`; public right factors are
replaced by their value at `z`.  It is applied to polynomials and to commitments, with `o` standing
for the constant 1. -/
noncomputable def hprComb {M : Type} [AddCommGroup M] [Module F M] (H K S D : ℕ)
    (γ μ ν β α ω z y y1 v : F) (o pu pw pv py a p q r t h1 h2 : M) : M :=
  let x := ω / z
  (μ * (geomPoly 1 H).eval x - (geomPoly γ H).eval x) • p
    - ((geomPoly 1 H).eval x * (geomPoly 1 H).eval z) • o
    + (α * (ν * (geomPoly 1 (3 * K + 1)).eval x - (geomPoly γ (3 * K + 1)).eval x)) • q
    - (α * (geomPoly 1 (3 * K + 1)).eval x * (geomPoly 1 (3 * K + 1)).eval z) • o
    + (α ^ 2 * (x ^ (H + (3 * K + 1)) * (geomPoly 1 (S - H)).eval x)) • p
    + (α ^ 4 * y * z ^ (3 * K + 1))
        • (py - μ • pw - ν • pu + (μ * ν * (geomPoly 1 S).eval z) • o)
    - (α ^ 4 * (x ^ (3 * K + 1) * (geomPoly 1 S).eval x)
        * (z ^ (3 * K + 1) * (geomPoly 1 S).eval z)) • o
    + (α ^ 5 * (x ^ (2 * K + 1 + S) * y1) * z ^ (K + 1 + S)) • a
    - (α ^ 5 * (x ^ (2 * K + 1 + S) * (geomPoly 1 K).eval x) * z ^ (1 + S)) • a
    + (α ^ 6 * (v + x ^ H + x ^ (H + 1) * y1)) • p
    - (α ^ 6 * β * (x ^ H * y)) • p
    - (α ^ 6 * β * y * z ^ (3 * K + 1)) • pv
    - (α ^ 6 * (geomPoly 1 (3 * K + 1 + S)).eval x) • (r - z • r)
    + (α ^ 7 * x ^ (3 * K + S)) • r
    - (x ^ (3 * K + 1 + S) * (geomPoly 1 (2 * K + S + 2)).eval x * z ^ (3 * K + S)) • t
    - (z ^ D)⁻¹ • h1 - z • h2

/-- The polynomial whose value at `z` the verifier requires to be zero. -/
noncomputable def hprGPoly (H K S D : ℕ) (γ μ ν β α ω z y y1 v : F)
    (Pu Pw Pv Py W P Q R T H1 H2 : F[X]) : F[X] :=
  hprComb H K S D γ μ ν β α ω z y y1 v 1 Pu Pw Pv Py W P Q R T H1 H2

/-- The honest witness polynomial, blinded by `δ` at the index `3K + 1 + S`. -/
noncomputable def hprWitPoly (K S : ℕ) (w1 w2 w3 : List F) (δ : F) : F[X] :=
  polyOf (w1 ++ w2 ++ w3) + C δ * X ^ (3 * K + 1 + S)

/-- The `j`-th of the three parts of the witness that can be read off the coefficients of a
committed witness polynomial. -/
noncomputable def hprRead (K j : ℕ) (W : F[X]) : List F :=
  (List.range K).map (fun i => W.coeff (j * K + i))

end VO.Spec
