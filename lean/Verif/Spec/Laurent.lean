import Mathlib.Algebra.Polynomial.Laurent
import Mathlib.Algebra.Field.Basic

/-
Independent specification: substituting `ω/T` into a polynomial, and evaluating Laurent
polynomials at a non-zero point.
-/

namespace VO.Spec
open LaurentPolynomial

variable {F : Type} [Field F]

/-- `p ↦ p(ω · T⁻¹)`, a ring homomorphism from polynomials to Laurent polynomials. -/
noncomputable def omegaInv (ω : F) : Polynomial F →+* F[T;T⁻¹] :=
  Polynomial.eval₂RingHom C (C ω * T (-1))

/-- Evaluation of a Laurent polynomial at a non-zero point. -/
noncomputable def evL (z : Fˣ) : F[T;T⁻¹] →+* F := LaurentPolynomial.eval₂ (RingHom.id F) z

end VO.Spec
