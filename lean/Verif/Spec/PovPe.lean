import Verif.Spec.Pov

/-
Independent specification of the argument of the prover-efficient POV SNARK
`/repo/voproof/src/snarks/voproof_pov_prover_efficient.rs`.  `c`, `ca`, `cm` are the numbers of
gates, addition gates and multiplication gates.
-/

namespace VO.Spec
open Polynomial

variable {F : Type} [Field F]

/-- The vector of all left inputs, right inputs and outputs encoded by the two committed polynomials
`U`, `V` and the constants `K`. -/
noncomputable def pePoly (c ca cm : ℕ) (U V K : F[X]) : F[X] :=
  U + X ^ (c + cm) * V + X ^ (2 * c + ca + cm) * K

/-- The pairs of polynomials of the argument, without blinding: multiplication gates (two pairs),
addition gates, instance, the recurrence of the grand product (two pairs) and its last value. -/
noncomputable def povPeBase (c ca cm : ℕ) (γ ζ ζ1 α : F) (U V S K I N R : F[X]) :
    List (F[X] × F[X]) :=
  [ (X ^ c * U, U),
    (-(X ^ c * geomPoly 1 cm), X ^ cm * V),
    (C α * (X ^ c * geomPoly 1 ca), X ^ (c - cm) * U + X ^ c * V - V),
    (C (α ^ 2) * I, U + X ^ (c + cm) * V - N),
    (C (α ^ 3) * (1 + X * R),
      pePoly c ca cm U V K + C ζ * geomPoly γ (3 * c) + C ζ1 * geomPoly 1 (3 * c)),
    (-(C (α ^ 3) * R), pePoly c ca cm U V K + C ζ1 * geomPoly 1 (3 * c) + C ζ * S),
    (C (α ^ 4) * (R - X ^ (3 * c - 1)), X ^ (3 * c - 1)) ]

/-- The pairs with the blinding pair. -/
noncomputable def povPePolys (c ca cm : ℕ) (γ ζ ζ1 α : F) (U V S K I N R P1 : F[X]) :
    List (F[X] × F[X]) :=
  povPeBase c ca cm γ ζ ζ1 α U V S K I N R ++ [blindPair (3 * c) (c + cm + 1) P1]

/-- The combination of the final check for claimed values `y`, `y2` of `U`, `R` at `ω/z`, the value
`y1` of the selector polynomial at `ω/z` and the value `t` of the instance polynomial at `z`, minus
`z^{-D} H1 + z H2`; public right factors are replaced by their value at `z`.  It is applied to
polynomials and to commitments, with `e` standing for the constant 1. -/
noncomputable def povPeComb {M : Type} [AddCommGroup M] [Module F M] (c ca cm D : ℕ)
    (γ ζ ζ1 α ω z y y1 y2 t : F) (e u v s k p1 h1 h2 : M) : M :=
  let x := ω / z
  (x ^ c * y) • u
    - (x ^ c * (geomPoly 1 cm).eval x * z ^ cm) • v
    + (α * (x ^ c * (geomPoly 1 ca).eval x)) • (z ^ (c - cm) • u + z ^ c • v - v)
    + (α ^ 2 * y1) • (u + z ^ (c + cm) • v - t • e)
    + (α ^ 3 * (1 + x * y2))
        • (u + z ^ (c + cm) • v + z ^ (2 * c + ca + cm) • k
          + (ζ * (geomPoly γ (3 * c)).eval z + ζ1 * (geomPoly 1 (3 * c)).eval z) • e)
    - (α ^ 3 * y2)
        • (u + z ^ (c + cm) • v + z ^ (2 * c + ca + cm) • k
          + (ζ1 * (geomPoly 1 (3 * c)).eval z) • e + ζ • s)
    + (α ^ 4 * (y2 - x ^ (3 * c - 1)) * z ^ (3 * c - 1)) • e
    - (x ^ (3 * c) * (geomPoly 1 (c + cm + 1)).eval x * z ^ (3 * c - 1)) • p1
    - (z ^ D)⁻¹ • h1 - z • h2

/-- The polynomial whose value at `z` the verifier requires to be zero. -/
noncomputable def povPeGPoly (c ca cm D : ℕ) (γ ζ ζ1 α ω z y y1 y2 t : F)
    (U V S K P1 H1 H2 : F[X]) : F[X] :=
  povPeComb c ca cm D γ ζ ζ1 α ω z y y1 y2 t 1 U V S K P1 H1 H2

/-- The honest vector `u` with its blinding value: all left inputs and the right inputs of the
multiplication gates. -/
def peU (c cm : ℕ) (w : POVWitness F) (δ : F) : List F :=
  w.w0 ++ w.w1.take cm ++ List.replicate (2 * c - cm) 0 ++ [δ]

/-- The honest vector `v` with its blinding value: the other right inputs, then the outputs of the
multiplication and addition gates. -/
def peV (c ca cm : ℕ) (w : POVWitness F) (δ : F) : List F :=
  w.w1.drop cm ++ w.w2.take (ca + cm) ++ List.replicate (2 * c - ca) 0 ++ [δ]

/-- What an accepted proof shows about an assignment: each multiplication gate whose right input is
not zero, the copy constraints, and, at each public position, the claimed value plus the constant of
that position (nothing about addition gates and constant gates). -/
def PovPeEnforced (cs : POV F) (ins : POVInstance F) (w : POVWitness F) : Prop :=
  (∀ i, i < cs.nmul → w.w1.getD i 0 ≠ 0 → w.w2.getD i 0 = w.w0.getD i 0 * w.w1.getD i 0) ∧
  WiringHolds cs w ∧
  ∀ q ∈ ins.idx.zip ins.vals, (povVec w)[q.1]? = some (q.2 +
    if 2 * cs.getSize.n + cs.nadd + cs.nmul ≤ q.1 then
      cs.consts.getD (q.1 - (2 * cs.getSize.n + cs.nadd + cs.nmul)) 0 else 0)

end VO.Spec
