import Verif.Lemmas.HadamardChecks
import Verif.Lemmas.Snark
import Verif.Lemmas.Degree

set_option linter.unusedSectionVars false

namespace VO
open Spec
open Polynomial (X toLaurent)
open LaurentPolynomial

variable {F : Type} [Field F] [DecidableEq F]

theorem hadamardEntry_append (l m : List (Polynomial F × Polynomial F)) (i : ℕ) :
    hadamardEntry (l ++ m) i = hadamardEntry l i + hadamardEntry m i := by
  simp [hadamardEntry]

theorem hadamardLaurent_append (ω : F) (l m : List (Polynomial F × Polynomial F)) :
    hadamardLaurent ω (l ++ m) = hadamardLaurent ω l + hadamardLaurent ω m := by
  simp [hadamardLaurent]

theorem hadamardAt_append (ω z : F) (l m : List (Polynomial F × Polynomial F)) :
    hadamardAt ω z (l ++ m) = hadamardAt ω z l + hadamardAt ω z m := by
  simp [hadamardAt]

theorem coeff_X_pow_geom (N m i : ℕ) :
    (X ^ N * geomPoly (1 : F) m).coeff i = if N ≤ i ∧ i < N + m then 1 else 0 := by
  rw [Polynomial.coeff_X_pow_mul']
  by_cases h : N ≤ i
  · rw [if_pos h, coeff_geomPoly]
    by_cases h2 : i < N + m
    · rw [if_pos (by omega), if_pos ⟨h, h2⟩, one_pow]
    · rw [if_neg (by omega), if_neg (by tauto)]
  · rw [if_neg h, if_neg (by tauto)]

/-- Entries of the blinding pair. -/
theorem entry_blindPair (N m : ℕ) (hN : 1 ≤ N) (P1 : Polynomial F) (i : ℕ) :
    hadamardEntry [blindPair N m P1] i
      = if N ≤ i ∧ i < N + m then - P1.coeff (i - N + 1) else 0 := by
  simp only [hadamardEntry, blindPair, List.map_cons, List.map_nil, List.sum_cons, List.sum_nil,
    Polynomial.coeff_neg, coeff_X_pow_geom, add_zero]
  split_ifs with h
  · rw [Polynomial.coeff_X_pow_mul', if_pos (by omega), show i - (N - 1) = i - N + 1 by omega]; ring
  · ring

theorem coeff_blindPoly_zero (N m : ℕ) (δ : F) (l : List (Polynomial F × Polynomial F)) :
    (blindPoly N m δ l).coeff 0 = δ := by
  rw [blindPoly, Polynomial.coeff_add, Polynomial.coeff_C_zero, Polynomial.finsetSum_coeff]
  simp only [Polynomial.coeff_C_mul_X_pow]
  rw [Finset.sum_eq_zero (fun j _ => if_neg (by omega)), add_zero]

theorem coeff_blindPoly_succ (N m : ℕ) (δ : F) (l : List (Polynomial F × Polynomial F)) (j : ℕ) :
    (blindPoly N m δ l).coeff (j + 1) = if j < m then hadamardEntry l (N + j) else 0 := by
  rw [blindPoly, Polynomial.coeff_add, Polynomial.coeff_C_succ, Polynomial.finsetSum_coeff, zero_add]
  simp only [Polynomial.coeff_C_mul_X_pow, add_left_inj]
  rw [Finset.sum_ite_eq]
  simp

theorem degree_blindPoly (N m d : ℕ) (δ : F) (l : List (Polynomial F × Polynomial F))
    (h : ∀ j, d ≤ j → hadamardEntry l (N + j) = 0) :
    (blindPoly N m δ l).degree < ((d + 1 : ℕ) : WithBot ℕ) := by
  rw [Polynomial.degree_lt_iff_coeff_zero]
  intro k hk
  obtain ⟨j, rfl⟩ : ∃ j, k = j + 1 := ⟨k - 1, by omega⟩
  rw [coeff_blindPoly_succ]
  split_ifs
  · exact h j (by omega)
  · rfl

/-- With the honest blinding polynomial all entries vanish as soon as the entries before `N` do and
nothing reaches beyond `N + m`. -/
theorem entries_blind_zero (N m : ℕ) (hN : 1 ≤ N) (δ : F) (l : List (Polynomial F × Polynomial F))
    (h1 : ∀ i, i < N → hadamardEntry l i = 0) (h2 : ∀ i, N + m ≤ i → hadamardEntry l i = 0) (i : ℕ) :
    hadamardEntry (l ++ [blindPair N m (blindPoly N m δ l)]) i = 0 := by
  rw [hadamardEntry_append, entry_blindPair N m hN]
  split_ifs with h
  · rw [coeff_blindPoly_succ, if_pos (by omega), show N + (i - N) = i by omega]; ring
  · by_cases hi : i < N
    · rw [h1 i hi, add_zero]
    · rw [h2 i (by omega), add_zero]

theorem entries_blind_lt (N m : ℕ) (hN : 1 ≤ N) (P1 : Polynomial F)
    (l : List (Polynomial F × Polynomial F)) (i : ℕ) (hi : i < N) :
    hadamardEntry (l ++ [blindPair N m P1]) i = hadamardEntry l i := by
  rw [hadamardEntry_append, entry_blindPair N m hN, if_neg (by omega), add_zero]

/-- The vector `t_vec_1` of the provers. -/
theorem polyOf_blind (N m L : ℕ) (hmL : m ≤ L) (δ : F) (l : List (Polynomial F × Polynomial F))
    (f : ℤ → F) (h : ∀ j : ℕ, f ((j : ℤ) + 1) = hadamardEntry l (N + j))
    (h0 : ∀ j, m ≤ j → hadamardEntry l (N + j) = 0) :
    polyOf ([δ] ++ expressionVector L f) = blindPoly N m δ l := by
  ext k
  rw [List.singleton_append, polyOf_cons]
  cases k with
  | zero => rw [coeff_blindPoly_zero]; simp
  | succ j =>
    rw [coeff_blindPoly_succ, Polynomial.coeff_add, Polynomial.coeff_C_succ, zero_add,
      Polynomial.coeff_X_mul, coeff_polyOf, getD_expressionVector]
    by_cases hj : j < m
    · rw [if_pos (by omega), if_pos hj, h]
    · rw [if_neg hj]
      split_ifs
      · rw [h, h0 j (by omega)]
      · rfl

/-- Reversal of a shifted range: `ω^{s+n-1} T^{-(s+n-1)} (1 + ω⁻¹T + …)`. -/
theorem omegaInv_geom (ω : F) (hω : ω ≠ 0) (s n : ℕ) :
    C (ω ^ ((s : ℤ) + n - 1)) * (T (-((s : ℤ) + n - 1)) * toLaurent (geomPoly ω⁻¹ n))
      = omegaInv ω (X ^ s * geomPoly 1 n) := by
  induction n with
  | zero => simp [geomPoly]
  | succ n ih =>
    have hg : ∀ a : F, geomPoly a (n + 1) = 1 + Polynomial.C a * (X * geomPoly a n) := by
      intro a
      ext k
      rw [coeff_geomPoly, Polynomial.coeff_add, Polynomial.coeff_C_mul]
      cases k with
      | zero => simp
      | succ k =>
        rw [Polynomial.coeff_X_mul, coeff_geomPoly, Polynomial.coeff_one]
        by_cases hk : k < n
        · simp [hk, pow_succ']
        · simp [hk]
    have hg' : geomPoly (1 : F) (n + 1) = geomPoly 1 n + X ^ n := by
      simp [geomPoly, Finset.sum_range_succ]
    have e1 : (ω : F) ^ ((s : ℤ) + (n + 1 : ℕ) - 1) = ω ^ ((s : ℤ) + n - 1) * ω := by
      rw [← zpow_add_one₀ hω]; congr 1; push_cast; ring
    have e2 : (T (-((s : ℤ) + (n + 1 : ℕ) - 1)) : F[T;T⁻¹]) = T (-((s : ℤ) + n - 1)) * T (-1) := by
      rw [← T_add]; congr 1; push_cast; ring
    have e3 : (C ω⁻¹ : F[T;T⁻¹]) * C ω = 1 := by rw [← map_mul, inv_mul_cancel₀ hω, map_one]
    have e4 : (T (-1) : F[T;T⁻¹]) * T 1 = 1 := by rw [← T_add]; simp
    have hX : (toLaurent (X : Polynomial F)) = T 1 := Polynomial.toLaurent_X
    have e5 : (C (ω ^ ((s : ℤ) + n - 1)) * (C ω) : F[T;T⁻¹]) * (T (-((s : ℤ) + n - 1)) * T (-1))
        = omegaInv ω (X ^ (s + n)) := by
      rw [omegaInv_X_pow, ← map_mul, ← zpow_add_one₀ hω, ← T_add, ← zpow_natCast]
      congr 2
      · congr 1; push_cast; ring
      · push_cast; ring
    rw [hg, hg', mul_add, map_add (omegaInv ω), ← ih, ← pow_add, ← e5, e1, e2]
    simp only [map_add, map_one, map_mul, Polynomial.toLaurent_C, hX]
    linear_combination (C (ω ^ ((s : ℤ) + n - 1)) * T (-((s : ℤ) + n - 1))
      * toLaurent (geomPoly ω⁻¹ n)) * (e3 * (T (-1) * T 1) + e4)

/-- A product with a shifted range on the left, computed with `vector_power_mul!` and `1/ω`. -/
theorem lrep_left_geom (v : List F) (ω : F) (s n : ℕ) (hs1 : 1 ≤ s) (hsn : 2 ≤ s + n) (k m : ℤ)
    (hm : m = k - (s + n) + 2) (e : ℤ) (he : e = s + n - 1) (n' : ℤ) (hn' : n' = n) :
    LRep (fun i => power ω e * vectorIndex (vectorPowerMul v (power ω (-1)) n') (minusI64 i m))
      (omegaInv ω (X ^ s * geomPoly 1 n) * (T k * toLaurent (polyOf v))) := by
  subst hn'
  have hp : power ω e = ω ^ (s + n - 1) := by
    have := power_natCast (a := ω) (n := s + n - 1) (Or.inl (by omega))
    rw [← this]; congr 1; omega
  by_cases hω : ω = 0
  · subst hω
    rw [hp, zero_pow (by omega)]
    intro i
    beta_reduce
    rw [zero_mul]
    by_cases hs : s = 0
    · subst hs

      omega
    · rw [map_mul, omegaInv_X_pow, zero_pow hs]
      simp
  · have hpi : power ω (-1) = ω⁻¹ := by rw [power_eq_zpow hω]; simp
    rw [hpi, hp]
    refine ((lrep_powerMul v ω⁻¹ n (Or.inr (inv_ne_zero hω)) m).cmul (ω ^ (s + n - 1))).congr ?_
    rw [← omegaInv_geom ω hω]
    have e1 : (ω : F) ^ ((s : ℤ) + n - 1) = ω ^ (s + n - 1) := by
      rw [← zpow_natCast]; congr 1; omega
    have e2 : (T (m - 1) : F[T;T⁻¹]) = T (-((s : ℤ) + n - 1)) * T k := by
      rw [← T_add]; congr 1; rw [hm]; ring
    rw [e1, e2]; ring

end VO
