import Verif.Spec.Hadamard
import Verif.Spec.Cs

/-
Independent specification of the argument of the R1CS SNARK
`/repo/voproof/src/snarks/voproof_r1cs.rs`.  `H`, `K`, `S`, `ℓ` are the numbers of rows, columns,
listed matrix entries and public inputs.
-/

namespace VO.Spec
open Polynomial

variable {F : Type} [Field F]

/-- The entries of the three matrices stacked into one with `3H` rows: those of `A` in the rows
`0, …, H-1`, of `B` in the next `H` rows and of `C` in the last `H`. -/
def stacked (r : R1CS F) : List ((ℕ × ℕ) × F) :=
  triples r.a ++ (triples r.b).map (fun e => ((r.nrows + e.1.1, e.1.2), e.2))
    ++ (triples r.c).map (fun e => ((2 * r.nrows + e.1.1, e.1.2), e.2))

/-- The index polynomials: coefficient `j` belongs to the `j`-th listed entry of the stacked
matrix; rows and columns are encoded as powers of `γ`. -/
noncomputable def rowPoly (γ : F) (l : List ((ℕ × ℕ) × F)) : F[X] :=
  polyOf (l.map (fun e => γ ^ e.1.1))
/-- The columns. -/
noncomputable def colPoly (γ : F) (l : List ((ℕ × ℕ) × F)) : F[X] :=
  polyOf (l.map (fun e => γ ^ e.1.2))
/-- The values. -/
noncomputable def valPoly (l : List ((ℕ × ℕ) × F)) : F[X] := polyOf (l.map Prod.snd)
/-- The entrywise product of rows and columns. -/
noncomputable def rowColPoly (γ : F) (l : List ((ℕ × ℕ) × F)) : F[X] :=
  polyOf (l.map (fun e => γ ^ e.1.1 * γ ^ e.1.2))

/-- The pairs of polynomials of the argument, without blinding, for the assignment polynomial `A`
(the products with the three matrices, then `(1, x, w)`), the polynomials `P` and `Q` of the two
sums of inverses, the polynomial `R` of the partial sums, the index polynomials `Pu`, `Pw`, `Pv`,
`Py` and the instance polynomial `V`. -/
noncomputable def r1csBase (H K S ℓ : ℕ) (γ μ ν β α : F) (Pu Pw Pv Py V A P Q R : F[X]) :
    List (F[X] × F[X]) :=
  [ (C μ * geomPoly 1 (3 * H) - geomPoly γ (3 * H), P),
    (-geomPoly 1 (3 * H), geomPoly 1 (3 * H)),
    (C α * (C ν * geomPoly 1 K - geomPoly γ K), Q),
    (-(C α * geomPoly 1 K), geomPoly 1 K),
    (C (α ^ 2) * (X ^ (3 * H + K) * geomPoly 1 (S - 3 * H)), P),
    (C (α ^ 4) * Q, X ^ K * (Py - C μ * Pw - C ν * Pu + C (μ * ν) * geomPoly 1 S)),
    (-(C (α ^ 4) * (X ^ K * geomPoly 1 S)), X ^ K * geomPoly 1 S),
    (C (α ^ 5) * (X ^ (K + S - H) * A), X ^ (K + S - 2 * H) * A),
    (-(C (α ^ 5) * (X ^ (K + S - H) * geomPoly 1 H)), X ^ (K + S - 3 * H) * A),
    (C (α ^ 6) * (X ^ (3 * H) * geomPoly 1 (ℓ + 1)), A - X ^ (3 * H) - X ^ (3 * H + 1) * V),
    (C (α ^ 7) * A, P),
    (-(C (α ^ 7 * β) * (X ^ (3 * H) * Q)), P),
    (-(C (α ^ 7 * β) * Q), X ^ K * Pv),
    (-(C (α ^ 7) * geomPoly 1 (K + S)), R - X * R),
    (C (α ^ 8) * X ^ (K + S - 1), R) ]

/-- The pairs with the blinding pair. -/
noncomputable def r1csPolys (H K S ℓ : ℕ) (γ μ ν β α : F) (Pu Pw Pv Py V A P Q R T : F[X]) :
    List (F[X] × F[X]) :=
  r1csBase H K S ℓ γ μ ν β α Pu Pw Pv Py V A P Q R ++ [blindPair (K + S) (K + S - H + 1) T]

/-- The combination of the final check for claimed values `y`, `y1` of `Q`, `A` at `ω/z` and the
value `v` of the instance polynomial at `z`, minus `z^{-D} H1 + z H2`; public right factors are
replaced by their value at `z`.  It is applied to polynomials and to commitments, with `o` standing
for the constant 1. -/
noncomputable def r1csComb {M : Type} [AddCommGroup M] [Module F M] (H K S ℓ D : ℕ)
    (γ μ ν β α ω z y y1 v : F) (o pu pw pv py a p q r t h1 h2 : M) : M :=
  let x := ω / z
  (μ * (geomPoly 1 (3 * H)).eval x - (geomPoly γ (3 * H)).eval x) • p
    - ((geomPoly 1 (3 * H)).eval x * (geomPoly 1 (3 * H)).eval z) • o
    + (α * (ν * (geomPoly 1 K).eval x - (geomPoly γ K).eval x)) • q
    - (α * (geomPoly 1 K).eval x * (geomPoly 1 K).eval z) • o
    + (α ^ 2 * (x ^ (3 * H + K) * (geomPoly 1 (S - 3 * H)).eval x)) • p
    + (α ^ 4 * y * z ^ K) • (py - μ • pw - ν • pu + (μ * ν * (geomPoly 1 S).eval z) • o)
    - (α ^ 4 * (x ^ K * (geomPoly 1 S).eval x) * (z ^ K * (geomPoly 1 S).eval z)) • o
    + (α ^ 5 * (x ^ (K + S - H) * y1) * z ^ (K + S - 2 * H)) • a
    - (α ^ 5 * (x ^ (K + S - H) * (geomPoly 1 H).eval x) * z ^ (K + S - 3 * H)) • a
    + (α ^ 6 * (x ^ (3 * H) * (geomPoly 1 (ℓ + 1)).eval x))
        • (a - (z ^ (3 * H) + z ^ (3 * H + 1) * v) • o)
    + (α ^ 7 * y1) • p
    - (α ^ 7 * β * (x ^ (3 * H) * y)) • p
    - (α ^ 7 * β * y * z ^ K) • pv
    - (α ^ 7 * (geomPoly 1 (K + S)).eval x) • (r - z • r)
    + (α ^ 8 * x ^ (K + S - 1)) • r
    - (x ^ (K + S) * (geomPoly 1 (K + S - H + 1)).eval x * z ^ (K + S - 1)) • t
    - (z ^ D)⁻¹ • h1 - z • h2

/-- The polynomial whose value at `z` the verifier requires to be zero. -/
noncomputable def r1csGPoly (H K S ℓ D : ℕ) (γ μ ν β α ω z y y1 v : F)
    (Pu Pw Pv Py A P Q R T H1 H2 : F[X]) : F[X] :=
  r1csComb H K S ℓ D γ μ ν β α ω z y y1 v 1 Pu Pw Pv Py A P Q R T H1 H2

/-- The honest assignment vector: the products of the three matrices with `(1, x, w)`, followed by
`(1, x, w)` itself. -/
def r1csVec (r : R1CS F) (x w : List F) : List F :=
  (List.range r.nrows).map (mulVec r.a r.ncols (1 :: (x ++ w)))
    ++ (List.range r.nrows).map (mulVec r.b r.ncols (1 :: (x ++ w)))
    ++ (List.range r.nrows).map (mulVec r.c r.ncols (1 :: (x ++ w))) ++ (1 :: (x ++ w))

/-- The honest assignment polynomial, blinded by `δ` at the index `K + S`. -/
noncomputable def asgPoly (r : R1CS F) (S : ℕ) (x w : List F) (δ : F) : F[X] :=
  polyOf (r1csVec r x w) + C δ * X ^ (r.ncols + S)

/-- The entry for column `k` of the row vector `(1/(μ - γ^i))_i` times the matrix with the entries
`l`. -/
noncomputable def colSum (γ μ : F) (l : List ((ℕ × ℕ) × F)) (k : ℕ) : F :=
  ((l.filter (fun e => e.1.2 = k)).map (fun e => e.2 * (μ - γ ^ e.1.1)⁻¹)).sum

/-- The honest `P` for a matrix with `n` rows and `K` columns: the vector `(1/(μ - γ^i))_i` of length
`n` and the negated column sums. -/
noncomputable def sPoly (n K : ℕ) (γ μ : F) (l : List ((ℕ × ℕ) × F)) : F[X] :=
  ∑ i ∈ Finset.range n, C ((μ - γ ^ i)⁻¹) * X ^ i
    - ∑ k ∈ Finset.range K, C (colSum γ μ l k) * X ^ (n + k)

/-- The honest `Q`: the vector `(1/(ν - γ^k))_k` of length `K`, and `1/((μ - γ^row)(ν - γ^col))` for
every listed entry. -/
noncomputable def hPoly (K : ℕ) (γ μ ν : F) (l : List ((ℕ × ℕ) × F)) : F[X] :=
  ∑ k ∈ Finset.range K, C ((ν - γ ^ k)⁻¹) * X ^ k
    + X ^ K * polyOf (l.map (fun e => ((μ - γ ^ e.1.1) * (ν - γ ^ e.1.2))⁻¹))

/-- The `i`-th term of the sum that the argument shows to be zero, for a matrix with `n` rows and `K`
columns. -/
noncomputable def linTerm (n K : ℕ) (β : F) (Pv A P Q : F[X]) (i : ℕ) : F :=
  A.coeff i * P.coeff i
    - β * ((X ^ n * Q).coeff i * P.coeff i + Q.coeff i * (X ^ K * Pv).coeff i)

/-- The honest `R`: the partial sums of the first `N` terms, blinded by `δ`. -/
noncomputable def partialPoly (N : ℕ) (f : ℕ → F) (δ : F) : F[X] :=
  ∑ i ∈ Finset.range N, C (∑ j ∈ Finset.range (i + 1), f j) * X ^ i + C δ * X ^ N

/-- The witness that can be read off the coefficients of a committed assignment polynomial: it
follows the `3H` products, the constant one and the `ℓ` public inputs. -/
noncomputable def r1csRead (H K ℓ : ℕ) (A : F[X]) : List F :=
  (List.range (K - 1 - ℓ)).map (fun i => A.coeff (3 * H + 1 + ℓ + i))

/-- An instance cut or padded with zeros to `ℓ` entries. -/
def fitTo (ℓ : ℕ) (x : List F) : List F := (List.range ℓ).map (fun i => x.getD i 0)

end VO.Spec
