import Verif.Lemmas.R1csSnarkRun

set_option linter.unusedSectionVars false

namespace VO
open Spec
open Polynomial (X)

variable {F : Type} [Field F] [DecidableEq F]

theorem coeff_X_pow_le (p : Polynomial F) (n i : ℕ) (h : n ≤ i) :
    (X ^ n * p).coeff i = p.coeff (i - n) := by
  rw [Polynomial.coeff_X_pow_mul', if_pos h]

/-- Entries below `K + S` of the sum of Hadamard products, for arbitrary polynomials. -/
theorem r1cs_entry_lt (H K S ℓ : ℕ) (hH : 1 ≤ H) (hS : 3 * H ≤ S) (hℓ : ℓ + 1 ≤ K)
    (γ μ ν β α : F) (Pu Pw Pv Py V A P Q R : Polynomial F) (i : ℕ) (hi : i < K + S) :
    hadamardEntry (r1csBase H K S ℓ γ μ ν β α Pu Pw Pv Py V A P Q R) i =
      (if i < 3 * H then (μ - γ ^ i) * P.coeff i - 1 else 0)
      + α * (if i < K then (ν - γ ^ i) * Q.coeff i - 1 else 0)
      + α ^ 2 * (if 3 * H + K ≤ i then P.coeff i else 0)
      + α ^ 4 * (if K ≤ i then Q.coeff i * (Py.coeff (i - K) - μ * Pw.coeff (i - K)
          - ν * Pu.coeff (i - K) + μ * ν) - 1 else 0)
      + α ^ 5 * (if K + S - H ≤ i then A.coeff (i - (K + S - H)) * A.coeff (i - (K + S - 2 * H))
          - A.coeff (i - (K + S - 3 * H)) else 0)
      + α ^ 6 * (if 3 * H ≤ i ∧ i < 3 * H + (ℓ + 1) then A.coeff i
          - (if i = 3 * H then 1 else V.coeff (i - (3 * H + 1))) else 0)
      + α ^ 7 * (linTerm (3 * H) K β Pv A P Q i - (R.coeff i - if i = 0 then 0 else R.coeff (i - 1)))
      + α ^ 8 * (if i = K + S - 1 then R.coeff i else 0) := by
  have hX : (X * R).coeff i = if i = 0 then 0 else R.coeff (i - 1) := by
    cases i with
    | zero => simp
    | succ k => simp
  have hxn : (X ^ (K + S - 1) : Polynomial F).coeff i = if i = K + S - 1 then 1 else 0 :=
    Polynomial.coeff_X_pow _ _
  have hx3 : (X ^ (3 * H) : Polynomial F).coeff i = if i = 3 * H then 1 else 0 :=
    Polynomial.coeff_X_pow _ _
  have hgN : (geomPoly (1 : F) (K + S)).coeff i = 1 := by rw [coeff_geomPoly, if_pos hi, one_pow]
  simp only [hadamardEntry, r1csBase, List.map_cons, List.map_nil, List.sum_cons, List.sum_nil,
    Polynomial.coeff_sub, Polynomial.coeff_add, Polynomial.coeff_C_mul, Polynomial.coeff_neg, hxn,
    hx3, hX, hgN]
  simp only [coeff_X_pow_geom]
  simp only [coeff_geomPoly, one_pow]
  simp only [linTerm]
  have e1 : (μ * (if i < 3 * H then 1 else 0) - (if i < 3 * H then γ ^ i else 0)) * P.coeff i
      + -(if i < 3 * H then (1 : F) else 0) * (if i < 3 * H then 1 else 0)
      = (if i < 3 * H then (μ - γ ^ i) * P.coeff i - 1 else 0) := by split_ifs <;> ring
  have e2 : (ν * (if i < K then 1 else 0) - (if i < K then γ ^ i else 0)) * Q.coeff i
      + -(if i < K then (1 : F) else 0) * (if i < K then 1 else 0)
      = (if i < K then (ν - γ ^ i) * Q.coeff i - 1 else 0) := by split_ifs <;> ring
  have e3 : (if 3 * H + K ≤ i ∧ i < 3 * H + K + (S - 3 * H) then (1 : F) else 0) * P.coeff i
      = (if 3 * H + K ≤ i then P.coeff i else 0) := by
    by_cases h : 3 * H + K ≤ i
    · rw [if_pos (by omega), if_pos h, one_mul]
    · rw [if_neg (by omega), if_neg h, zero_mul]
  have e4 : Q.coeff i * (X ^ K * (Py - Polynomial.C μ * Pw - Polynomial.C ν * Pu
        + Polynomial.C (μ * ν) * geomPoly 1 S)).coeff i
      + -(if K ≤ i ∧ i < K + S then (1 : F) else 0) * (if K ≤ i ∧ i < K + S then 1 else 0)
      = (if K ≤ i then Q.coeff i * (Py.coeff (i - K) - μ * Pw.coeff (i - K)
          - ν * Pu.coeff (i - K) + μ * ν) - 1 else 0) := by
    by_cases h : K ≤ i
    · rw [if_pos (by omega), if_pos h, coeff_X_pow_le _ _ _ h]
      simp only [Polynomial.coeff_sub, Polynomial.coeff_add, Polynomial.coeff_C_mul, coeff_geomPoly]
      rw [if_pos (by omega), one_pow]; ring
    · rw [if_neg (by omega), if_neg h, Polynomial.coeff_X_pow_mul', if_neg h]; ring
  have e5 : (X ^ (K + S - H) * A).coeff i * (X ^ (K + S - 2 * H) * A).coeff i
      + -(if K + S - H ≤ i ∧ i < K + S - H + H then (1 : F) else 0)
        * (X ^ (K + S - 3 * H) * A).coeff i
      = (if K + S - H ≤ i then A.coeff (i - (K + S - H)) * A.coeff (i - (K + S - 2 * H))
          - A.coeff (i - (K + S - 3 * H)) else 0) := by
    by_cases h : K + S - H ≤ i
    · rw [if_pos (by omega), if_pos h, coeff_X_pow_le _ _ _ h, coeff_X_pow_le _ _ _ (by omega),
        coeff_X_pow_le _ _ _ (by omega)]
      ring
    · rw [if_neg (by omega), if_neg h, Polynomial.coeff_X_pow_mul', if_neg h]; ring
  have e6 : (if 3 * H ≤ i ∧ i < 3 * H + (ℓ + 1) then (1 : F) else 0)
        * (A.coeff i - (if i = 3 * H then 1 else 0) - (X ^ (3 * H + 1) * V).coeff i)
      = (if 3 * H ≤ i ∧ i < 3 * H + (ℓ + 1) then A.coeff i
          - (if i = 3 * H then 1 else V.coeff (i - (3 * H + 1))) else 0) := by
    by_cases h : 3 * H ≤ i ∧ i < 3 * H + (ℓ + 1)
    · rw [if_pos h, if_pos h, Polynomial.coeff_X_pow_mul']
      by_cases h2 : i = 3 * H
      · rw [if_pos h2, if_pos h2, if_neg (by omega)]; ring
      · rw [if_neg h2, if_neg h2, if_pos (by omega)]; ring
    · rw [if_neg h, if_neg h]; ring
  have e8 : (if i = K + S - 1 then (1 : F) else 0) * R.coeff i
      = if i = K + S - 1 then R.coeff i else 0 := by split_ifs <;> ring
  rw [← e1, ← e2, ← e3, ← e4, ← e5, ← e6, ← e8]
  ring

/-- All entries below `K + S` vanish as soon as the equations hold. -/
theorem r1cs_entry_zero (H K S ℓ : ℕ) (hH : 1 ≤ H) (hS : 3 * H ≤ S) (hℓ : ℓ + 1 ≤ K)
    (γ μ ν β α : F) (Pu Pw Pv Py V A P Q R : Polynomial F)
    (q1 : ∀ i, i < 3 * H → (μ - γ ^ i) * P.coeff i = 1)
    (q2 : ∀ i, i < K → (ν - γ ^ i) * Q.coeff i = 1)
    (q3 : ∀ i, 3 * H + K ≤ i → i < K + S → P.coeff i = 0)
    (q4 : ∀ j, j < S → Q.coeff (K + j) * (Py.coeff j - μ * Pw.coeff j - ν * Pu.coeff j + μ * ν) = 1)
    (q5 : ∀ j, j < H → A.coeff j * A.coeff (H + j) = A.coeff (2 * H + j))
    (q6 : A.coeff (3 * H) = 1) (q6' : ∀ j, j < ℓ → A.coeff (3 * H + 1 + j) = V.coeff j)
    (q7 : ∀ i, i < K + S → R.coeff i = ∑ j ∈ Finset.range (i + 1), linTerm (3 * H) K β Pv A P Q j)
    (q8 : ∑ j ∈ Finset.range (K + S), linTerm (3 * H) K β Pv A P Q j = 0)
    (i : ℕ) (hi : i < K + S) :
    hadamardEntry (r1csBase H K S ℓ γ μ ν β α Pu Pw Pv Py V A P Q R) i = 0 := by
  rw [r1cs_entry_lt H K S ℓ hH hS hℓ γ μ ν β α Pu Pw Pv Py V A P Q R i hi]
  have e1 : (if i < 3 * H then (μ - γ ^ i) * P.coeff i - 1 else 0) = 0 := by
    split_ifs with h
    · rw [q1 i h, sub_self]
    · rfl
  have e2 : (if i < K then (ν - γ ^ i) * Q.coeff i - 1 else 0) = 0 := by
    split_ifs with h
    · rw [q2 i h, sub_self]
    · rfl
  have e3 : (if 3 * H + K ≤ i then P.coeff i else 0) = 0 := by
    split_ifs with h
    · exact q3 i h hi
    · rfl
  have e4 : (if K ≤ i then Q.coeff i * (Py.coeff (i - K) - μ * Pw.coeff (i - K)
          - ν * Pu.coeff (i - K) + μ * ν) - 1 else 0) = 0 := by
    split_ifs with h
    · have := q4 (i - K) (by omega)
      rw [show K + (i - K) = i by omega] at this
      rw [this, sub_self]
    · rfl
  have e5 : (if K + S - H ≤ i then A.coeff (i - (K + S - H)) * A.coeff (i - (K + S - 2 * H))
          - A.coeff (i - (K + S - 3 * H)) else 0) = 0 := by
    split_ifs with h
    · have := q5 (i - (K + S - H)) (by omega)
      rw [show H + (i - (K + S - H)) = i - (K + S - 2 * H) by omega,
        show 2 * H + (i - (K + S - H)) = i - (K + S - 3 * H) by omega] at this
      rw [this, sub_self]
    · rfl
  have e6 : (if 3 * H ≤ i ∧ i < 3 * H + (ℓ + 1) then A.coeff i
          - (if i = 3 * H then 1 else V.coeff (i - (3 * H + 1))) else 0) = 0 := by
    split_ifs with h h2
    · rw [h2, q6, sub_self]
    · have := q6' (i - (3 * H + 1)) (by omega)
      rw [show 3 * H + 1 + (i - (3 * H + 1)) = i by omega] at this
      rw [this, sub_self]
    · rfl
  have e7 : linTerm (3 * H) K β Pv A P Q i - (R.coeff i - if i = 0 then 0 else R.coeff (i - 1)) = 0 := by
    rw [q7 i hi, Finset.sum_range_succ]
    split_ifs with h
    · subst h; simp
    · rw [q7 (i - 1) (by omega), show i - 1 + 1 = i by omega]; ring
  have e8 : (if i = K + S - 1 then R.coeff i else 0) = 0 := by
    split_ifs with h
    · rw [q7 i hi, show i + 1 = K + S by omega, q8]
    · rfl
  rw [e1, e2, e3, e4, e5, e6, e7, e8]; ring

/-- The sum of the argument in terms of the coefficients of `P` and `Q`. -/
theorem linTerm_sum (n K S : ℕ) (hS : n ≤ S) (γ μ ν β : F) (l : List ((ℕ × ℕ) × F))
    (hl : l.length = S) (hr : ∀ e ∈ l, e.1.1 < n ∧ e.1.2 < K) (A P Q : Polynomial F)
    (q1 : ∀ i, i < n → P.coeff i = (μ - γ ^ i)⁻¹)
    (q2 : ∀ i, i < K → Q.coeff i = (ν - γ ^ i)⁻¹)
    (q3 : ∀ i, n + K ≤ i → i < K + S → P.coeff i = 0)
    (q4 : ∀ j, j < S → Q.coeff (K + j)
      = (l.map (fun e => ((μ - γ ^ e.1.1) * (ν - γ ^ e.1.2))⁻¹)).getD j 0) :
    ∑ j ∈ Finset.range (K + S), linTerm n K β (valPoly l) A P Q j
      = (∑ i ∈ Finset.range n, A.coeff i * (μ - γ ^ i)⁻¹
          + ∑ k ∈ Finset.range K, A.coeff (n + k) * P.coeff (n + k))
        - β * ∑ k ∈ Finset.range K, (P.coeff (n + k) + colSum γ μ l k) * (ν - γ ^ k)⁻¹ := by
  have t1 : ∑ j ∈ Finset.range (K + S), A.coeff j * P.coeff j
      = ∑ i ∈ Finset.range n, A.coeff i * (μ - γ ^ i)⁻¹
          + ∑ k ∈ Finset.range K, A.coeff (n + k) * P.coeff (n + k) := by
    rw [show K + S = n + (K + (S - n)) by omega, Finset.sum_range_add, Finset.sum_range_add]
    rw [Finset.sum_eq_zero (s := Finset.range (S - n)), add_zero]
    · congr 1
      apply Finset.sum_congr rfl
      intro i hi
      rw [q1 i (Finset.mem_range.mp hi)]
    · intro j hj
      have := Finset.mem_range.mp hj
      rw [q3 _ (by omega) (by omega), mul_zero]
  have t2 : ∑ j ∈ Finset.range (K + S), (X ^ n * Q).coeff j * P.coeff j
      = ∑ k ∈ Finset.range K, P.coeff (n + k) * (ν - γ ^ k)⁻¹ := by
    rw [show K + S = n + (K + (S - n)) by omega, Finset.sum_range_add, Finset.sum_range_add,
      Finset.sum_eq_zero (s := Finset.range (S - n)),
      Finset.sum_eq_zero (s := Finset.range n), add_zero, zero_add]
    · apply Finset.sum_congr rfl
      intro k hk
      rw [coeff_X_pow_le _ _ _ (by omega), Nat.add_sub_cancel_left, q2 k (Finset.mem_range.mp hk)]
      ring
    · intro j hj
      have := Finset.mem_range.mp hj
      rw [Polynomial.coeff_X_pow_mul', if_neg (by omega), zero_mul]
    · intro j hj
      have := Finset.mem_range.mp hj
      rw [q3 _ (by omega) (by omega), mul_zero]
  have t3 : ∑ j ∈ Finset.range (K + S), Q.coeff j * (X ^ K * valPoly l).coeff j
      = ∑ k ∈ Finset.range K, colSum γ μ l k * (ν - γ ^ k)⁻¹ := by
    rw [Finset.sum_range_add, Finset.sum_eq_zero, zero_add]
    · rw [colSum_inv γ μ ν l K (fun e he => (hr e he).2), sum_range_map]
      simp only [List.length_map, hl]
      apply Finset.sum_congr rfl
      intro j hj
      have hj := Finset.mem_range.mp hj
      rw [q4 j hj, coeff_X_pow_le _ _ _ (by omega), Nat.add_sub_cancel_left, valPoly, coeff_polyOf]
      rw [List.getD_eq_getElem _ _ (by simpa [hl] using hj),
        List.getD_eq_getElem _ _ (by simpa [hl] using hj),
        List.getD_eq_getElem _ _ (by simpa [hl] using hj)]
      simp only [List.getElem_map]
      rw [mul_comm]
    · intro j hj
      have := Finset.mem_range.mp hj
      rw [Polynomial.coeff_X_pow_mul', if_neg (by omega), mul_zero]
  simp only [linTerm, Finset.sum_sub_distrib, ← Finset.mul_sum, Finset.sum_add_distrib, t1, t2, t3,
    add_mul]

end VO
