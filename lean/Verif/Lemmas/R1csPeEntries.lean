import Verif.Lemmas.R1csPeRun

set_option linter.unusedSectionVars false

namespace VO
open Spec
open Polynomial (X)

variable {F : Type} [Field F] [DecidableEq F]

/-- Entries below `S` of the sum of Hadamard products, for arbitrary polynomials. -/
theorem r1csPe_entry_lt (H K S ℓ : ℕ) (hS : 3 * H ≤ S) (hK : K ≤ S)
    (γ μ ν β α : F) (Pu Pw Pv Py V Y W P Cc Q U R : Polynomial F) (i : ℕ) (hi : i < S) :
    hadamardEntry (r1csPeBase H K S ℓ γ μ ν β α Pu Pw Pv Py V Y W P Cc Q U R) i =
      (if i < 3 * H then (μ - γ ^ i) * P.coeff i - 1 else 0)
      + α * (if i < K then (ν - γ ^ i) * Q.coeff i - 1 else 0)
      + α ^ 2 * (if 3 * H ≤ i then P.coeff i else 0)
      + α ^ 3 * (if K ≤ i then Q.coeff i else 0)
      + α ^ 4 * (if K ≤ i then Cc.coeff i else 0)
      + α ^ 6 * (U.coeff i * (Py.coeff i - μ * Pw.coeff i - ν * Pu.coeff i + μ * ν) - 1)
      + α ^ 7 * (if 3 * H ≤ i then Y.coeff i else 0)
      + α ^ 8 * ((if 2 * H ≤ i then Y.coeff (i - 2 * H) * Y.coeff i else 0)
          - (if 2 * H ≤ i ∧ i < 3 * H then Y.coeff (i - H) else 0))
      + α ^ 9 * (peTerm ℓ β Pv V Y W P Cc Q U i
          - (R.coeff i - if i = 0 then 0 else R.coeff (i - 1)))
      + α ^ 10 * (if i = S - 1 then R.coeff i else 0) := by
  have hX : (X * R).coeff i = if i = 0 then 0 else R.coeff (i - 1) := by
    cases i with
    | zero => simp
    | succ k => simp
  have hxn : (X ^ (S - 1) : Polynomial F).coeff i = if i = S - 1 then 1 else 0 :=
    Polynomial.coeff_X_pow _ _
  have hgN : (geomPoly (1 : F) S).coeff i = 1 := by rw [coeff_geomPoly, if_pos hi, one_pow]
  simp only [hadamardEntry, r1csPeBase, List.map_cons, List.map_nil, List.sum_cons, List.sum_nil,
    Polynomial.coeff_sub, Polynomial.coeff_add, Polynomial.coeff_C_mul, Polynomial.coeff_neg, hxn,
    hX, hgN]
  simp only [coeff_X_pow_geom]
  simp only [coeff_geomPoly, one_pow]
  simp only [peTerm]
  have e1 : (μ * (if i < 3 * H then 1 else 0) - (if i < 3 * H then γ ^ i else 0)) * P.coeff i
      + -(if i < 3 * H then (1 : F) else 0) * (if i < 3 * H then 1 else 0)
      = (if i < 3 * H then (μ - γ ^ i) * P.coeff i - 1 else 0) := by split_ifs <;> ring
  have e2 : (ν * (if i < K then 1 else 0) - (if i < K then γ ^ i else 0)) * Q.coeff i
      + -(if i < K then (1 : F) else 0) * (if i < K then 1 else 0)
      = (if i < K then (ν - γ ^ i) * Q.coeff i - 1 else 0) := by split_ifs <;> ring
  have tail : ∀ (n : ℕ), n ≤ S → ∀ p : Polynomial F,
      (if n ≤ i ∧ i < n + (S - n) then (1 : F) else 0) * p.coeff i
        = (if n ≤ i then p.coeff i else 0) := by
    intro n hn p
    by_cases h : n ≤ i
    · rw [if_pos (by omega), if_pos h, one_mul]
    · rw [if_neg (by omega), if_neg h, zero_mul]
  have e5 : (X ^ (2 * H) * Y).coeff i * Y.coeff i
      + -(if 2 * H ≤ i ∧ i < 2 * H + H then (1 : F) else 0) * (X ^ H * Y).coeff i
      = (if 2 * H ≤ i then Y.coeff (i - 2 * H) * Y.coeff i else 0)
          - (if 2 * H ≤ i ∧ i < 3 * H then Y.coeff (i - H) else 0) := by
    by_cases h : 2 * H ≤ i
    · rw [if_pos h, coeff_X_pow_le _ _ _ h, coeff_X_pow_le _ _ _ (by omega : H ≤ i)]
      by_cases h2 : i < 3 * H
      · rw [if_pos (by omega), if_pos (by omega)]; ring
      · rw [if_neg (by omega), if_neg (by omega)]; ring
    · rw [if_neg h, if_neg (by omega), if_neg (by omega), Polynomial.coeff_X_pow_mul', if_neg h]
      ring
  have e8 : (if i = S - 1 then (1 : F) else 0) * R.coeff i
      = if i = S - 1 then R.coeff i else 0 := by split_ifs <;> ring
  rw [← e1, ← e2, ← e5, ← e8, ← tail (3 * H) hS P, ← tail K hK Q, ← tail K hK Cc,
    ← tail (3 * H) hS Y]
  ring

/-- The equations of the argument other than the sum. -/
structure R1csPeEqs (H K S : ℕ) (γ μ ν : F) (l : List ((ℕ × ℕ) × F)) (Y P Cc Q U : Polynomial F) :
    Prop where
  p : ∀ i, i < 3 * H → (μ - γ ^ i) * P.coeff i = 1
  q : ∀ i, i < K → (ν - γ ^ i) * Q.coeff i = 1
  p0 : ∀ i, 3 * H ≤ i → i < S → P.coeff i = 0
  q0 : ∀ i, K ≤ i → i < S → Q.coeff i = 0
  c0 : ∀ i, K ≤ i → i < S → Cc.coeff i = 0
  u : ∀ i, i < S → U.coeff i * ((rowColPoly γ l).coeff i - μ * (colPoly γ l).coeff i
    - ν * (rowPoly γ l).coeff i + μ * ν) = 1
  y0 : ∀ i, 3 * H ≤ i → i < S → Y.coeff i = 0
  y : ∀ j, j < H → Y.coeff j * Y.coeff (2 * H + j) = Y.coeff (H + j)

/-- All entries below `S` vanish as soon as the equations hold. -/
theorem r1csPe_entry_zero (H K S ℓ : ℕ) (hS : 3 * H ≤ S) (hK : K ≤ S)
    (γ μ ν β α : F) (l : List ((ℕ × ℕ) × F)) (V Y W P Cc Q U R : Polynomial F)
    (he : R1csPeEqs H K S γ μ ν l Y P Cc Q U)
    (q7 : ∀ i, i < S → R.coeff i
      = ∑ j ∈ Finset.range (i + 1), peTerm ℓ β (valPoly l) V Y W P Cc Q U j)
    (q8 : ∑ j ∈ Finset.range S, peTerm ℓ β (valPoly l) V Y W P Cc Q U j = 0)
    (i : ℕ) (hi : i < S) :
    hadamardEntry (r1csPeBase H K S ℓ γ μ ν β α (rowPoly γ l) (colPoly γ l) (valPoly l)
      (rowColPoly γ l) V Y W P Cc Q U R) i = 0 := by
  rw [r1csPe_entry_lt H K S ℓ hS hK _ _ _ _ _ _ _ _ _ _ _ _ _ _ _ _ _ i hi]
  have e1 : (if i < 3 * H then (μ - γ ^ i) * P.coeff i - 1 else 0) = 0 := by
    split_ifs with h
    · rw [he.p i h, sub_self]
    · rfl
  have e2 : (if i < K then (ν - γ ^ i) * Q.coeff i - 1 else 0) = 0 := by
    split_ifs with h
    · rw [he.q i h, sub_self]
    · rfl
  have tail : ∀ (n : ℕ) (p : Polynomial F), (∀ i, n ≤ i → i < S → p.coeff i = 0) →
      (if n ≤ i then p.coeff i else 0) = 0 := by
    intro n p h
    split_ifs with h1
    · exact h i h1 hi
    · rfl
  have e5 : (if 2 * H ≤ i then Y.coeff (i - 2 * H) * Y.coeff i else 0)
          - (if 2 * H ≤ i ∧ i < 3 * H then Y.coeff (i - H) else 0) = 0 := by
    by_cases h : 2 * H ≤ i
    · rw [if_pos h]
      by_cases h2 : i < 3 * H
      · have := he.y (i - 2 * H) (by omega)
        rw [show 2 * H + (i - 2 * H) = i by omega, show H + (i - 2 * H) = i - H by omega] at this
        rw [if_pos ⟨h, h2⟩, this, sub_self]
      · rw [he.y0 i (by omega) hi, mul_zero, if_neg (by omega), sub_zero]
    · rw [if_neg h, if_neg (by omega), sub_zero]
  have e7 : peTerm ℓ β (valPoly l) V Y W P Cc Q U i
      - (R.coeff i - if i = 0 then 0 else R.coeff (i - 1)) = 0 := by
    rw [q7 i hi, Finset.sum_range_succ]
    split_ifs with h
    · subst h; simp
    · rw [q7 (i - 1) (by omega), show i - 1 + 1 = i by omega]; ring
  have e8 : (if i = S - 1 then R.coeff i else 0) = 0 := by
    split_ifs with h
    · rw [q7 i hi, show i + 1 = S by omega, q8]
    · rfl
  rw [e1, e2, tail _ _ he.p0, tail _ _ he.q0, tail _ _ he.c0, tail _ _ he.y0, he.u i hi, e5, e7, e8]
  ring

/-- The sum of the argument in terms of the coefficients of `Y`, `Cc` and the assignment. -/
theorem peTerm_sum (H K S ℓ : ℕ) (hS : 3 * H ≤ S) (hK : K ≤ S) (γ μ ν β : F)
    (l : List ((ℕ × ℕ) × F)) (hl : l.length = S) (hr : ∀ e ∈ l, e.1.1 < 3 * H ∧ e.1.2 < K)
    (V Y W P Cc Q U : Polynomial F) (he : R1csPeEqs H K S γ μ ν l Y P Cc Q U) :
    ∑ j ∈ Finset.range S, peTerm ℓ β (valPoly l) V Y W P Cc Q U j
      = (∑ k ∈ Finset.range K, Cc.coeff k * (fullPoly ℓ V W).coeff k
          - ∑ i ∈ Finset.range (3 * H), Y.coeff i * (μ - γ ^ i)⁻¹)
        + β * ∑ k ∈ Finset.range K, (Cc.coeff k - colSum γ μ l k) * (ν - γ ^ k)⁻¹ := by
  have cut : ∀ (n : ℕ), n ≤ S → ∀ f : ℕ → F, (∀ i, n ≤ i → i < S → f i = 0) →
      ∑ j ∈ Finset.range S, f j = ∑ j ∈ Finset.range n, f j := by
    intro n hn f hf
    rw [show S = n + (S - n) by omega, Finset.sum_range_add,
      Finset.sum_eq_zero (s := Finset.range (S - n)), add_zero]
    intro j hj
    have := Finset.mem_range.mp hj
    exact hf _ (by omega) (by omega)
  have t1 : ∑ j ∈ Finset.range S, Cc.coeff j * (fullPoly ℓ V W).coeff j
      = ∑ k ∈ Finset.range K, Cc.coeff k * (fullPoly ℓ V W).coeff k :=
    cut K hK _ (fun i h1 h2 => by rw [he.c0 i h1 h2, zero_mul])
  have t2 : ∑ j ∈ Finset.range S, Y.coeff j * P.coeff j
      = ∑ i ∈ Finset.range (3 * H), Y.coeff i * (μ - γ ^ i)⁻¹ := by
    rw [cut (3 * H) hS _ (fun i h1 h2 => by rw [he.y0 i h1 h2, zero_mul])]
    apply Finset.sum_congr rfl
    intro i hi
    rw [(inv_eq_of_mul_eq_one_right (he.p i (Finset.mem_range.mp hi))).symm]
  have t3 : ∑ j ∈ Finset.range S, Cc.coeff j * Q.coeff j
      = ∑ k ∈ Finset.range K, Cc.coeff k * (ν - γ ^ k)⁻¹ := by
    rw [cut K hK _ (fun i h1 h2 => by rw [he.c0 i h1 h2, zero_mul])]
    apply Finset.sum_congr rfl
    intro i hi
    rw [(inv_eq_of_mul_eq_one_right (he.q i (Finset.mem_range.mp hi))).symm]
  have t4 : ∑ j ∈ Finset.range S, U.coeff j * (valPoly l).coeff j
      = ∑ k ∈ Finset.range K, colSum γ μ l k * (ν - γ ^ k)⁻¹ := by
    rw [colSum_inv γ μ ν l K (fun e he => (hr e he).2), sum_range_map]
    simp only [List.length_map, hl]
    apply Finset.sum_congr rfl
    intro j hj
    have hj := Finset.mem_range.mp hj
    have h := he.u j hj
    rw [rowColPoly, colPoly, rowPoly, coeff_polyOf, coeff_polyOf, coeff_polyOf,
      List.getD_eq_getElem _ _ (by simpa [hl] using hj),
      List.getD_eq_getElem _ _ (by simpa [hl] using hj),
      List.getD_eq_getElem _ _ (by simpa [hl] using hj)] at h
    rw [valPoly, coeff_polyOf]
    rw [List.getD_eq_getElem _ _ (by simpa [hl] using hj),
      List.getD_eq_getElem _ _ (by simpa [hl] using hj)]
    simp only [List.getElem_map] at h ⊢
    rw [mul_comm]
    congr 1
    symm
    apply inv_eq_of_mul_eq_one_right
    rw [← h]; ring
  simp only [peTerm, Finset.sum_sub_distrib, ← Finset.mul_sum, Finset.sum_add_distrib, t1, t2, t3,
    t4, sub_mul]

end VO
