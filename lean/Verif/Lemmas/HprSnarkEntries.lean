import Verif.Lemmas.R1csSnarkEntries
import Verif.Spec.HprSnark

set_option linter.unusedSectionVars false

namespace VO
open Spec
open Polynomial (X)

variable {F : Type} [Field F] [DecidableEq F]

/-- Entries below `3K + 1 + S` of the sum of Hadamard products, for arbitrary polynomials. -/
theorem hpr_entry_lt (H K S : ℕ) (hS : H ≤ S)
    (γ μ ν β α : F) (Pu Pw Pv Py V W P Q R : Polynomial F) (i : ℕ) (hi : i < 3 * K + 1 + S) :
    hadamardEntry (hprBase H K S γ μ ν β α Pu Pw Pv Py V W P Q R) i =
      (if i < H then (μ - γ ^ i) * P.coeff i - 1 else 0)
      + α * (if i < 3 * K + 1 then (ν - γ ^ i) * Q.coeff i - 1 else 0)
      + α ^ 2 * (if H + (3 * K + 1) ≤ i then P.coeff i else 0)
      + α ^ 4 * (if 3 * K + 1 ≤ i then Q.coeff i * (Py.coeff (i - (3 * K + 1))
          - μ * Pw.coeff (i - (3 * K + 1))
          - ν * Pu.coeff (i - (3 * K + 1)) + μ * ν) - 1 else 0)
      + α ^ 5 * (if 2 * K + 1 + S ≤ i then W.coeff (i - (2 * K + 1 + S))
          * W.coeff (i - (K + 1 + S)) - W.coeff (i - (1 + S)) else 0)
      + α ^ 6 * (linTerm H (3 * K + 1) β Pv (hprAsg H V W) P Q i
          - (R.coeff i - if i = 0 then 0 else R.coeff (i - 1)))
      + α ^ 7 * (if i = 3 * K + S then R.coeff i else 0) := by
  have hX : (X * R).coeff i = if i = 0 then 0 else R.coeff (i - 1) := by
    cases i with
    | zero => simp
    | succ k => simp
  have hxn : (X ^ (3 * K + S) : Polynomial F).coeff i = if i = 3 * K + S then 1 else 0 :=
    Polynomial.coeff_X_pow _ _
  have hgN : (geomPoly (1 : F) (3 * K + 1 + S)).coeff i = 1 := by
    rw [coeff_geomPoly, if_pos hi, one_pow]
  simp only [hadamardEntry, hprBase, List.map_cons, List.map_nil, List.sum_cons, List.sum_nil,
    Polynomial.coeff_sub, Polynomial.coeff_add, Polynomial.coeff_C_mul, Polynomial.coeff_neg, hxn,
    hX, hgN]
  simp only [coeff_X_pow_geom]
  simp only [coeff_geomPoly, one_pow]
  simp only [linTerm]
  have e1 : (μ * (if i < H then 1 else 0) - (if i < H then γ ^ i else 0)) * P.coeff i
      + -(if i < H then (1 : F) else 0) * (if i < H then 1 else 0)
      = (if i < H then (μ - γ ^ i) * P.coeff i - 1 else 0) := by split_ifs <;> ring
  have e2 : (ν * (if i < 3 * K + 1 then 1 else 0) - (if i < 3 * K + 1 then γ ^ i else 0))
        * Q.coeff i + -(if i < 3 * K + 1 then (1 : F) else 0) * (if i < 3 * K + 1 then 1 else 0)
      = (if i < 3 * K + 1 then (ν - γ ^ i) * Q.coeff i - 1 else 0) := by split_ifs <;> ring
  have e3 : (if H + (3 * K + 1) ≤ i ∧ i < H + (3 * K + 1) + (S - H) then (1 : F) else 0) * P.coeff i
      = (if H + (3 * K + 1) ≤ i then P.coeff i else 0) := by
    by_cases h : H + (3 * K + 1) ≤ i
    · rw [if_pos (by omega), if_pos h, one_mul]
    · rw [if_neg (by omega), if_neg h, zero_mul]
  have e4 : Q.coeff i * (X ^ (3 * K + 1) * (Py - Polynomial.C μ * Pw - Polynomial.C ν * Pu
        + Polynomial.C (μ * ν) * geomPoly 1 S)).coeff i
      + -(if 3 * K + 1 ≤ i ∧ i < 3 * K + 1 + S then (1 : F) else 0)
        * (if 3 * K + 1 ≤ i ∧ i < 3 * K + 1 + S then 1 else 0)
      = (if 3 * K + 1 ≤ i then Q.coeff i * (Py.coeff (i - (3 * K + 1))
          - μ * Pw.coeff (i - (3 * K + 1))
          - ν * Pu.coeff (i - (3 * K + 1)) + μ * ν) - 1 else 0) := by
    by_cases h : 3 * K + 1 ≤ i
    · rw [if_pos (by omega), if_pos h, coeff_X_pow_le _ _ _ h]
      simp only [Polynomial.coeff_sub, Polynomial.coeff_add, Polynomial.coeff_C_mul, coeff_geomPoly]
      rw [if_pos (by omega), one_pow]; ring
    · rw [if_neg (by omega), if_neg h, Polynomial.coeff_X_pow_mul', if_neg h]; ring
  have e5 : (X ^ (2 * K + 1 + S) * W).coeff i * (X ^ (K + 1 + S) * W).coeff i
      + -(if 2 * K + 1 + S ≤ i ∧ i < 2 * K + 1 + S + K then (1 : F) else 0)
        * (X ^ (1 + S) * W).coeff i
      = (if 2 * K + 1 + S ≤ i then W.coeff (i - (2 * K + 1 + S))
          * W.coeff (i - (K + 1 + S)) - W.coeff (i - (1 + S)) else 0) := by
    by_cases h : 2 * K + 1 + S ≤ i
    · rw [if_pos (by omega), if_pos h, coeff_X_pow_le _ _ _ h, coeff_X_pow_le _ _ _ (by omega),
        coeff_X_pow_le _ _ _ (by omega)]
      ring
    · rw [if_neg (by omega), if_neg h, Polynomial.coeff_X_pow_mul', if_neg h]; ring
  have e8 : (if i = 3 * K + S then (1 : F) else 0) * R.coeff i
      = if i = 3 * K + S then R.coeff i else 0 := by split_ifs <;> ring
  rw [← e1, ← e2, ← e3, ← e4, ← e5, ← e8]
  ring

/-- All entries below `3K + 1 + S` vanish as soon as the equations hold. -/
theorem hpr_entry_zero (H K S : ℕ) (hS : H ≤ S)
    (γ μ ν β α : F) (Pu Pw Pv Py V W P Q R : Polynomial F)
    (q1 : ∀ i, i < H → (μ - γ ^ i) * P.coeff i = 1)
    (q2 : ∀ i, i < 3 * K + 1 → (ν - γ ^ i) * Q.coeff i = 1)
    (q3 : ∀ i, H + (3 * K + 1) ≤ i → i < 3 * K + 1 + S → P.coeff i = 0)
    (q4 : ∀ j, j < S → Q.coeff (3 * K + 1 + j)
      * (Py.coeff j - μ * Pw.coeff j - ν * Pu.coeff j + μ * ν) = 1)
    (q5 : ∀ j, j < K → W.coeff j * W.coeff (K + j) = W.coeff (2 * K + j))
    (q7 : ∀ i, i < 3 * K + 1 + S → R.coeff i
      = ∑ j ∈ Finset.range (i + 1), linTerm H (3 * K + 1) β Pv (hprAsg H V W) P Q j)
    (q8 : ∑ j ∈ Finset.range (3 * K + 1 + S), linTerm H (3 * K + 1) β Pv (hprAsg H V W) P Q j = 0)
    (i : ℕ) (hi : i < 3 * K + 1 + S) :
    hadamardEntry (hprBase H K S γ μ ν β α Pu Pw Pv Py V W P Q R) i = 0 := by
  rw [hpr_entry_lt H K S hS γ μ ν β α Pu Pw Pv Py V W P Q R i hi]
  have e1 : (if i < H then (μ - γ ^ i) * P.coeff i - 1 else 0) = 0 := by
    split_ifs with h
    · rw [q1 i h, sub_self]
    · rfl
  have e2 : (if i < 3 * K + 1 then (ν - γ ^ i) * Q.coeff i - 1 else 0) = 0 := by
    split_ifs with h
    · rw [q2 i h, sub_self]
    · rfl
  have e3 : (if H + (3 * K + 1) ≤ i then P.coeff i else 0) = 0 := by
    split_ifs with h
    · exact q3 i h hi
    · rfl
  have e4 : (if 3 * K + 1 ≤ i then Q.coeff i * (Py.coeff (i - (3 * K + 1))
          - μ * Pw.coeff (i - (3 * K + 1))
          - ν * Pu.coeff (i - (3 * K + 1)) + μ * ν) - 1 else 0) = 0 := by
    split_ifs with h
    · have := q4 (i - (3 * K + 1)) (by omega)
      rw [show 3 * K + 1 + (i - (3 * K + 1)) = i by omega] at this
      rw [this, sub_self]
    · rfl
  have e5 : (if 2 * K + 1 + S ≤ i then W.coeff (i - (2 * K + 1 + S))
          * W.coeff (i - (K + 1 + S)) - W.coeff (i - (1 + S)) else 0) = 0 := by
    split_ifs with h
    · have := q5 (i - (2 * K + 1 + S)) (by omega)
      rw [show K + (i - (2 * K + 1 + S)) = i - (K + 1 + S) by omega,
        show 2 * K + (i - (2 * K + 1 + S)) = i - (1 + S) by omega] at this
      rw [this, sub_self]
    · rfl
  have e7 : linTerm H (3 * K + 1) β Pv (hprAsg H V W) P Q i
      - (R.coeff i - if i = 0 then 0 else R.coeff (i - 1)) = 0 := by
    rw [q7 i hi, Finset.sum_range_succ]
    split_ifs with h
    · subst h; simp
    · rw [q7 (i - 1) (by omega), show i - 1 + 1 = i by omega]; ring
  have e8 : (if i = 3 * K + S then R.coeff i else 0) = 0 := by
    split_ifs with h
    · rw [q7 i hi, show i + 1 = 3 * K + 1 + S by omega, q8]
    · rfl
  rw [e1, e2, e3, e4, e5, e7, e8]; ring

end VO
