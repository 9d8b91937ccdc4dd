import Verif.Lemmas.Hadamard
import Verif.Lemmas.Blind
import Mathlib.Data.List.GetD

/-
The last blinding value shows in the coefficient `-1` of the Hadamard polynomial, which is the top
coefficient of the first quotient.  So the honest prover's last polynomial is constant for at most one
blinding value.
-/

set_option linter.unusedSectionVars false

namespace VO
open Spec
open Polynomial

variable {F : Type} [Field F] [DecidableEq F]

theorem lcoeff_neg_one_mul (ω : F) (A B : F[X]) (d : ℕ) (hd : A.degree < d) :
    (omegaInv ω A * toLaurent B).coeff (-1)
      = ∑ i ∈ Finset.range d, ω ^ i * (A.coeff i * (X * B).coeff i) := by
  rw [← lcoeff_zero_mul ω A (X * B) d hd, map_mul, toLaurent_X]
  have : omegaInv ω A * (LaurentPolynomial.T 1 * toLaurent B)
      = LaurentPolynomial.T 1 * (omegaInv ω A * toLaurent B) := by ring
  rw [this, lcoeff_T_mul]
  rfl

/-- The blinding value shows in the coefficient `-1`. -/
theorem lcoeff_blind (ω δ : F) (l : List (F[X] × F[X])) (N m : ℕ) (hN : 1 ≤ N) (hm : 1 ≤ m) (Q : F[X]) :
    (hadamardLaurent ω (l ++ [blindPair N m (C δ + Q)])).coeff (-1)
      = (hadamardLaurent ω (l ++ [blindPair N m Q])).coeff (-1) - δ * ω ^ N := by
  rw [hadamardLaurent_append, hadamardLaurent_append, lcoeff_add, lcoeff_add, hadamardLaurent_cons,
    hadamardLaurent_cons, hadamardLaurent_nil, add_zero, add_zero]
  simp only [blindPair]
  set A : F[X] := -(X ^ N * geomPoly 1 m) with hA
  have hd : A.degree < ((A.natDegree + N + 1 : ℕ) : WithBot ℕ) :=
    degree_le_natDegree.trans_lt (by exact_mod_cast (by omega))
  rw [lcoeff_neg_one_mul ω A _ _ hd, lcoeff_neg_one_mul ω A _ _ hd]
  have hx : ∀ R : F[X], X * (X ^ (N - 1) * R) = X ^ N * R := by
    intro R
    rw [← mul_assoc, ← pow_succ']
    congr 2
    omega
  have hAN : A.coeff N = -1 := by
    rw [hA, coeff_neg, coeff_X_pow_mul']
    simp only [le_refl, if_true, Nat.sub_self]
    unfold geomPoly
    rw [finsetSum_coeff, Finset.sum_eq_single 0]
    · simp
    · intro i _ hi
      simp [coeff_X_pow, hi.symm]
    · intro h
      simp at h
      omega
  have hs : ∑ i ∈ Finset.range (A.natDegree + N + 1), ω ^ i * (A.coeff i * (X ^ N * (C δ + Q)).coeff i)
      = ∑ i ∈ Finset.range (A.natDegree + N + 1), ω ^ i * (A.coeff i * (X ^ N * Q).coeff i)
        + ∑ i ∈ Finset.range (A.natDegree + N + 1), ω ^ i * (A.coeff i * (X ^ N * C δ).coeff i) := by
    rw [← Finset.sum_add_distrib]
    refine Finset.sum_congr rfl fun i _ => ?_
    rw [mul_add, coeff_add]
    ring
  have h1 : ∑ i ∈ Finset.range (A.natDegree + N + 1), ω ^ i * (A.coeff i * (X ^ N * C δ).coeff i)
      = ω ^ N * (A.coeff N * (X ^ N * C δ).coeff N) := by
    refine Finset.sum_eq_single N (fun i _ hi => ?_) (fun h => ?_)
    · have : (X ^ N * C δ : F[X]).coeff i = 0 := by
        rw [mul_comm, coeff_C_mul, coeff_X_pow, if_neg hi, mul_zero]
      rw [this]
      ring
    · simp at h
  have h2 : (X ^ N * C δ : F[X]).coeff N = δ := by
    rw [coeff_X_pow_mul']
    simp
  rw [hx, hx, hs, h1, hAN, h2]
  ring

/-- The first part of the split has the coefficient `-1` at its end. -/
theorem split_top {M : ℕ} (hM : 1 ≤ M) {L : LaurentPolynomial F} {H1 H2 : F[X]}
    (h : L = LaurentPolynomial.T (-(M : ℤ)) * toLaurent H1 + LaurentPolynomial.T 1 * toLaurent H2) :
    H1.coeff (M - 1) = L.coeff (-1) := by
  rw [h, lcoeff_add, lcoeff_T_mul, lcoeff_T_mul, lcoeff_toLaurent, lcoeff_toLaurent]
  unfold zc
  rw [if_pos (by omega), if_neg (by omega), add_zero]
  congr 1
  omega

/-- A polynomial with a non-zero coefficient above the first is not constant. -/
theorem natDegree_ne_zero_of_coeff {p : F[X]} {k : ℕ} (hk : k ≠ 0) (h : p.coeff k ≠ 0) :
    p.natDegree ≠ 0 := fun h0 => h (coeff_eq_zero_of_natDegree_lt (by omega))

/-- The shifted first quotient has the coefficient `-1` at the index `D`. -/
theorem shifted_top {M D : ℕ} (hM : 1 ≤ M) (hD : M ≤ D + 1) {L : LaurentPolynomial F} {H1 H2 : F[X]}
    (h : L = LaurentPolynomial.T (-(M : ℤ)) * toLaurent H1 + LaurentPolynomial.T 1 * toLaurent H2) :
    (X ^ (D + 1 - M) * H1).coeff D = L.coeff (-1) := by
  rw [coeff_X_pow_mul', if_pos (by omega), ← split_top hM h]
  congr 1
  omega

/-- All but one blinding value make the coefficient `-1` non-zero. -/
theorem blind_one (ω : F) (hω : ω ≠ 0) (l : List (F[X] × F[X])) (N m : ℕ) (hN : 1 ≤ N) (hm : 1 ≤ m)
    (Q : F[X]) : ∃ b : F, ∀ δ, δ ≠ b →
      (hadamardLaurent ω (l ++ [blindPair N m (C δ + Q)])).coeff (-1) ≠ 0 := by
  refine ⟨(hadamardLaurent ω (l ++ [blindPair N m Q])).coeff (-1) / ω ^ N, fun δ hδ h0 => hδ ?_⟩
  rw [lcoeff_blind ω δ l N m hN hm, sub_eq_zero] at h0
  rw [h0, mul_div_cancel_right₀ _ (pow_ne_zero _ hω)]

theorem blind_poly_one (ω : F) (hω : ω ≠ 0) (l : List (F[X] × F[X])) (N m : ℕ) (hN : 1 ≤ N)
    (hm : 1 ≤ m) : ∃ b : F, ∀ δ, δ ≠ b →
      (hadamardLaurent ω (l ++ [blindPair N m (blindPoly N m δ l)])).coeff (-1) ≠ 0 :=
  blind_one ω hω l N m hN hm _

theorem coeff_zero_of_degree_lt {p : F[X]} {n k : ℕ} (h : p.degree < (n : WithBot ℕ)) (hk : n ≤ k) :
    p.coeff k = 0 :=
  coeff_eq_zero_of_degree_lt (h.trans_le (by exact_mod_cast hk))

theorem coeff_sum_blind (f : ℕ → F) (n : ℕ) (δ : F) :
    (∑ i ∈ Finset.range n, C (f i) * X ^ i + C δ * X ^ n).coeff n = δ := by
  rw [coeff_add, finsetSum_coeff, coeff_C_mul_X_pow, if_pos rfl, Finset.sum_eq_zero, zero_add]
  intro i hi
  rw [coeff_C_mul_X_pow, if_neg (Finset.mem_range.1 hi).ne']

theorem coeff_polyOf_blind (v : List F) (n : ℕ) (hn : v.length ≤ n) (δ : F) :
    (polyOf v + C δ * X ^ n).coeff n = δ := by
  rw [coeff_add, coeff_C_mul_X_pow, if_pos rfl, coeff_zero_of_degree_lt (degree_polyOf_lt v) hn, zero_add]

theorem coeff_polyOf_last (v : List F) (n : ℕ) (hn : v.length = n) (δ : F) :
    (polyOf (v ++ [δ])).coeff n = δ := by
  rw [coeff_polyOf, List.getD_append_right _ _ _ _ (by omega), hn, Nat.sub_self]
  rfl

theorem coeff_blindPoly_high (N m k : ℕ) (δ : F) (l : List (F[X] × F[X])) (hk : m + 1 ≤ k) :
    (blindPoly N m δ l).coeff k = 0 := by
  obtain ⟨j, rfl⟩ : ∃ j, k = j + 1 := ⟨k - 1, by omega⟩
  rw [coeff_blindPoly_succ, if_neg (by omega)]

end VO
