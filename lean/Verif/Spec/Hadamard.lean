import Verif.Spec.Laurent
import Verif.Spec.Poly

/-
Independent specification of the reduction used by every SNARK of the crate: a sum of Hadamard
products of coefficient vectors, and the Laurent polynomial whose constant coefficient it is.
-/

namespace VO.Spec
open LaurentPolynomial

variable {F : Type} [Field F]

/-- Entry `i` of `Σ_j A_j ∘ B_j`, the sum of the entrywise products of coefficient vectors. -/
def hadamardEntry (l : List (Polynomial F × Polynomial F)) (i : ℕ) : F :=
  (l.map (fun p => p.1.coeff i * p.2.coeff i)).sum

/-- `Σ_j A_j(ω T⁻¹) · B_j(T)`. -/
noncomputable def hadamardLaurent (ω : F) (l : List (Polynomial F × Polynomial F)) : F[T;T⁻¹] :=
  (l.map (fun p => omegaInv ω p.1 * Polynomial.toLaurent p.2)).sum

/-- `Σ_j A_j(ω/z) · B_j(z)`, the value the verifier checks at its challenge `z`. -/
noncomputable def hadamardAt (ω z : F) (l : List (Polynomial F × Polynomial F)) : F :=
  (l.map (fun p => p.1.eval (ω / z) * p.2.eval z)).sum

/-- The pair added for blinding: it subtracts the entries of `T1` from index 1 on from the entries
`N, …, N + m - 1`; the coefficient 0 of `T1` has no effect. -/
noncomputable def blindPair (N m : ℕ) (T1 : Polynomial F) : Polynomial F × Polynomial F :=
  (-(Polynomial.X ^ N * geomPoly 1 m), Polynomial.X ^ (N - 1) * T1)

/-- The polynomial the honest provers use in `blindPair`: a random constant and the entries
`N, …, N + m - 1` of the sum of entrywise products, where the blinding of the other vectors shows. -/
noncomputable def blindPoly (N m : ℕ) (δ : F) (l : List (Polynomial F × Polynomial F)) :
    Polynomial F :=
  Polynomial.C δ
    + ∑ j ∈ Finset.range m, Polynomial.C (hadamardEntry l (N + j)) * Polynomial.X ^ (j + 1)

end VO.Spec
