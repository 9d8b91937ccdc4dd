import Verif.Spec.R1csSnark

/-
Independent specification of the argument of the prover-efficient R1CS SNARK
`/repo/voproof/src/snarks/voproof_r1cs_prover_efficient.rs`.  `H`, `K`, `S`, `ℓ` are the numbers of
rows, columns, listed matrix entries and public inputs.
-/

namespace VO.Spec
open Polynomial

variable {F : Type} [Field F]

/-- The entries of the three matrices stacked into one with `3H` rows: those of `A` in the rows
`0, …, H-1`, of `C` in the next `H` rows and of `B` in the last `H`. -/
def stackedPe (r : R1CS F) : List ((ℕ × ℕ) × F) :=
  triples r.a ++ (triples r.c).map (fun e => ((r.nrows + e.1.1, e.1.2), e.2))
    ++ (triples r.b).map (fun e => ((2 * r.nrows + e.1.1, e.1.2), e.2))

/-- The polynomial `1 + X V + X^{ℓ+1} W` of the vector `(1, x, w)`. -/
noncomputable def fullPoly (ℓ : ℕ) (V W : F[X]) : F[X] := 1 + X * V + X ^ (ℓ + 1) * W

/-- The pairs of polynomials of the argument, without blinding: `Y` holds the products with the
matrices, `W` the witness, `P` and `Q` the inverses for rows and columns, `Cc` the row vector of
inverses times the matrix, `U` the inverses for the listed entries, `R` the partial sums, `Pu`,
`Pw`, `Pv`, `Py` the index and `V` the instance. -/
noncomputable def r1csPeBase (H K S ℓ : ℕ) (γ μ ν β α : F) (Pu Pw Pv Py V Y W P Cc Q U R : F[X]) :
    List (F[X] × F[X]) :=
  [ (C μ * geomPoly 1 (3 * H) - geomPoly γ (3 * H), P),
    (-geomPoly 1 (3 * H), geomPoly 1 (3 * H)),
    (C α * (C ν * geomPoly 1 K - geomPoly γ K), Q),
    (-(C α * geomPoly 1 K), geomPoly 1 K),
    (C (α ^ 2) * (X ^ (3 * H) * geomPoly 1 (S - 3 * H)), P),
    (C (α ^ 3) * (X ^ K * geomPoly 1 (S - K)), Q),
    (C (α ^ 4) * (X ^ K * geomPoly 1 (S - K)), Cc),
    (C (α ^ 6) * U, Py - C μ * Pw - C ν * Pu + C (μ * ν) * geomPoly 1 S),
    (-(C (α ^ 6) * geomPoly 1 S), geomPoly 1 S),
    (C (α ^ 7) * (X ^ (3 * H) * geomPoly 1 (S - 3 * H)), Y),
    (C (α ^ 8) * (X ^ (2 * H) * Y), Y),
    (-(C (α ^ 8) * (X ^ (2 * H) * geomPoly 1 H)), X ^ H * Y),
    (C (α ^ 9) * Cc, fullPoly ℓ V W),
    (-(C (α ^ 9) * Y), P),
    (C (α ^ 9 * β) * Cc, Q),
    (-(C (α ^ 9 * β) * U), Pv),
    (-(C (α ^ 9) * geomPoly 1 S), R - X * R),
    (C (α ^ 10) * X ^ (S - 1), R) ]

/-- The pairs with the blinding pair. -/
noncomputable def r1csPePolys (H K S ℓ : ℕ) (γ μ ν β α : F)
    (Pu Pw Pv Py V Y W P Cc Q U R T : F[X]) : List (F[X] × F[X]) :=
  r1csPeBase H K S ℓ γ μ ν β α Pu Pw Pv Py V Y W P Cc Q U R ++ [blindPair S (2 * H + 1) T]

/-- The combination of the final check for claimed values `y`, `y1`, `y2` of `U`, `Y`, `Cc` at `ω/z`
and the value `v` of the instance polynomial at `z`, minus `z^{-D} H1 + z H2`; public right factors
are replaced by their value at `z`.  It is applied to polynomials and to commitments, with `o`
standing for the constant 1. -/
noncomputable def r1csPeComb {M : Type} [AddCommGroup M] [Module F M] (H K S ℓ D : ℕ)
    (γ μ ν β α ω z y y1 y2 v : F) (o pu pw pv py yy w p c q r t h1 h2 : M) : M :=
  let x := ω / z
  (μ * (geomPoly 1 (3 * H)).eval x - (geomPoly γ (3 * H)).eval x) • p
    - ((geomPoly 1 (3 * H)).eval x * (geomPoly 1 (3 * H)).eval z) • o
    + (α * (ν * (geomPoly 1 K).eval x - (geomPoly γ K).eval x)) • q
    - (α * (geomPoly 1 K).eval x * (geomPoly 1 K).eval z) • o
    + (α ^ 2 * (x ^ (3 * H) * (geomPoly 1 (S - 3 * H)).eval x)) • p
    + (α ^ 3 * (x ^ K * (geomPoly 1 (S - K)).eval x)) • q
    + (α ^ 4 * (x ^ K * (geomPoly 1 (S - K)).eval x)) • c
    + (α ^ 6 * y) • (py - μ • pw - ν • pu + (μ * ν * (geomPoly 1 S).eval z) • o)
    - (α ^ 6 * (geomPoly 1 S).eval x * (geomPoly 1 S).eval z) • o
    + (α ^ 7 * (x ^ (3 * H) * (geomPoly 1 (S - 3 * H)).eval x)) • yy
    + (α ^ 8 * (x ^ (2 * H) * y1)) • yy
    - (α ^ 8 * (x ^ (2 * H) * (geomPoly 1 H).eval x) * z ^ H) • yy
    + (α ^ 9 * y2) • ((1 + z * v) • o + z ^ (ℓ + 1) • w)
    - (α ^ 9 * y1) • p
    + (α ^ 9 * β * y2) • q
    - (α ^ 9 * β * y) • pv
    - (α ^ 9 * (geomPoly 1 S).eval x) • (r - z • r)
    + (α ^ 10 * x ^ (S - 1)) • r
    - (x ^ S * (geomPoly 1 (2 * H + 1)).eval x * z ^ (S - 1)) • t
    - (z ^ D)⁻¹ • h1 - z • h2

/-- The polynomial whose value at `z` the verifier requires to be zero. -/
noncomputable def r1csPeGPoly (H K S ℓ D : ℕ) (γ μ ν β α ω z y y1 y2 v : F)
    (Pu Pw Pv Py Y W P Cc Q R T H1 H2 : F[X]) : F[X] :=
  r1csPeComb H K S ℓ D γ μ ν β α ω z y y1 y2 v 1 Pu Pw Pv Py Y W P Cc Q R T H1 H2

/-- The products of the three matrices, in the order `A`, `C`, `B`, with `(1, x, w)`. -/
def prodVec (r : R1CS F) (x w : List F) : List F :=
  (List.range r.nrows).map (mulVec r.a r.ncols (1 :: (x ++ w)))
    ++ (List.range r.nrows).map (mulVec r.c r.ncols (1 :: (x ++ w)))
    ++ (List.range r.nrows).map (mulVec r.b r.ncols (1 :: (x ++ w)))

/-- The polynomial of a list blinded by `δ` at the index `S`. -/
noncomputable def padPoly (S : ℕ) (v : List F) (δ : F) : F[X] := polyOf v + C δ * X ^ S

/-- The polynomial of the vector `(1/(μ - γ^i))_i` of length `n`. -/
noncomputable def invPoly (n : ℕ) (γ μ : F) : F[X] :=
  ∑ i ∈ Finset.range n, C ((μ - γ ^ i)⁻¹) * X ^ i

/-- The polynomial of the row vector `(1/(μ - γ^i))_i` times a matrix with `K` columns. -/
noncomputable def colPolySum (K : ℕ) (γ μ : F) (l : List ((ℕ × ℕ) × F)) : F[X] :=
  ∑ k ∈ Finset.range K, C (colSum γ μ l k) * X ^ k

/-- The polynomial of the values `1/((μ - γ^row)(ν - γ^col))` of the listed entries. -/
noncomputable def entryInvPoly (γ μ ν : F) (l : List ((ℕ × ℕ) × F)) : F[X] :=
  polyOf (l.map (fun e => ((μ - γ ^ e.1.1) * (ν - γ ^ e.1.2))⁻¹))

/-- The `i`-th term of the sum that the argument shows to be zero. -/
noncomputable def peTerm (ℓ : ℕ) (β : F) (Pv V Y W P Cc Q U : F[X]) (i : ℕ) : F :=
  Cc.coeff i * (fullPoly ℓ V W).coeff i - Y.coeff i * P.coeff i
    + β * (Cc.coeff i * Q.coeff i - U.coeff i * Pv.coeff i)

/-- The witness that can be read off the coefficients of a committed `W`, for an instance `x` of any
length: entries of `x` beyond the `ℓ` public inputs are added to the witness. -/
noncomputable def r1csPeRead (K ℓ : ℕ) (x : List F) (W : F[X]) : List F :=
  (List.range (K - 1 - ℓ)).map (fun i => x.getD (ℓ + i) 0 + W.coeff i)

end VO.Spec
