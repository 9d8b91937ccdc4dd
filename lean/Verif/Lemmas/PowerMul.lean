import Mathlib.Tactic.LinearCombination
import Verif.Lemmas.Poly

set_option linter.unusedSectionVars false

namespace VO
open Polynomial Spec

variable {F : Type} [Field F] [DecidableEq F]

theorem power_eq_zpow {a : F} (ha : a ≠ 0) (e : ℤ) : power a e = a ^ e := by
  unfold power
  by_cases h1 : a = 1
  · subst h1; simp
  · rw [if_neg (by tauto)]
    split_ifs with h
    · obtain ⟨n, hn⟩ := Int.eq_ofNat_of_zero_le (a := -e) (by omega)
      have he : e = -(n : ℤ) := by omega
      rw [hn, he, zpow_neg, zpow_natCast, inv_pow]; rfl
    · obtain ⟨n, hn⟩ := Int.eq_ofNat_of_zero_le (a := e) (by omega)
      rw [hn, zpow_natCast]; rfl

theorem power_zero_left (e : ℤ) : power (0 : F) e = 0 := by simp [power]

theorem power_one_left (e : ℤ) : power (1 : F) e = 1 := by simp [power]

theorem power_natCast {a : F} {n : ℕ} (h : 1 ≤ n ∨ a ≠ 0) : power a (n : ℤ) = a ^ n := by
  by_cases ha : a = 0
  · subst ha
    rcases h with h | h
    · rw [power_zero_left, zero_pow (by omega)]
    · exact absurd rfl h
  · rw [power_eq_zpow ha, zpow_natCast]

theorem geomPoly_succ (a : F) (n : ℕ) : geomPoly a (n + 1) = geomPoly a n + C (a ^ n) * X ^ n := by
  rw [geomPoly, Finset.sum_range_succ]; rfl

theorem geomPoly_mul (a : F) (n : ℕ) :
    (1 - C a * X) * geomPoly a n = 1 - C (a ^ n) * X ^ n := by
  induction n with
  | zero => simp [geomPoly]
  | succ n ih =>
    rw [geomPoly_succ, mul_add, ih]
    simp only [pow_succ, C_mul]
    ring

theorem coeff_geomPoly (a : F) (n i : ℕ) : (geomPoly a n).coeff i = if i < n then a ^ i else 0 := by
  simp only [geomPoly, finsetSum_coeff, coeff_C_mul, coeff_X_pow]
  rw [Finset.sum_congr rfl (g := fun j => if i = j then a ^ j else 0)]
  · rw [Finset.sum_ite_eq]; simp
  · intro j _; split_ifs <;> simp

theorem degree_geomPoly_lt (a : F) (n : ℕ) : (geomPoly a n).degree < n := by
  rw [degree_lt_iff_coeff_zero]
  intro m hm
  rw [coeff_geomPoly, if_neg (by omega)]

/-- coefficient at an integer index, zero at negative ones -/
noncomputable def zc (p : F[X]) (i : ℤ) : F := if 0 ≤ i then p.coeff i.toNat else 0

theorem vectorIndex_zc (v : List F) (i : ℤ) : vectorIndex v i = zc (polyOf v) (i - 1) := by
  rw [vectorIndex_eq, zc]
  by_cases h : 1 ≤ i
  · rw [if_pos h, if_pos (by omega)]
  · rw [if_neg h, if_neg (by omega)]

theorem zc_natCast (p : F[X]) (i : ℕ) : zc p (i : ℤ) = p.coeff i := by simp [zc]

theorem zc_neg (p : F[X]) {i : ℤ} (h : i < 0) : zc p i = 0 := by
  rw [zc, if_neg (by omega)]

theorem zc_X_pow_mul (p : F[X]) (n : ℕ) (i : ℤ) : zc (X ^ n * p) i = zc p (i - n) := by
  unfold zc
  by_cases h : 0 ≤ i
  · rw [if_pos h, coeff_X_pow_mul']
    by_cases h2 : (n : ℤ) ≤ i
    · rw [if_pos (by omega), if_pos (by omega)]; congr 1; omega
    · rw [if_neg (by omega), if_neg (by omega)]
  · rw [if_neg h, if_neg (by omega)]

theorem zc_add (p q : F[X]) (i : ℤ) : zc (p + q) i = zc p i + zc q i := by
  unfold zc; split_ifs <;> simp

theorem zc_sub (p q : F[X]) (i : ℤ) : zc (p - q) i = zc p i - zc q i := by
  unfold zc; split_ifs <;> simp

theorem zc_C_mul (c : F) (p : F[X]) (i : ℤ) : zc (C c * p) i = c * zc p i := by
  unfold zc; split_ifs <;> simp

theorem zc_zero (i : ℤ) : zc (0 : F[X]) i = 0 := by unfold zc; simp

/-- The recurrence satisfied by the coefficients of `p * geomPoly a n`. -/
theorem mul_geom_rec (p : F[X]) (a : F) (n : ℕ) (i : ℤ) :
    zc (p * geomPoly a n) i
      = zc (p * geomPoly a n) (i - 1) * a + zc p i - zc p (i - n) * a ^ n := by
  have h : p * geomPoly a n
      = C a * (X ^ 1 * (p * geomPoly a n)) + p - C (a ^ n) * (X ^ n * p) := by
    linear_combination p * geomPoly_mul a n
  conv_lhs => rw [h]
  rw [zc_sub, zc_add, zc_C_mul, zc_C_mul, zc_X_pow_mul, zc_X_pow_mul]
  push_cast; ring

theorem vectorPowerMulGo_spec (v : List F) (a : F) (n : ℕ) (steps : ℕ) (i : ℤ) (hi : 1 ≤ i) :
    vectorPowerMulGo v a (a ^ n) n steps i (zc (polyOf v * geomPoly a n) (i - 2))
      = (List.range steps).map (fun (k : ℕ) => zc (polyOf v * geomPoly a n) (i - 1 + k)) := by
  induction steps generalizing i with
  | zero => rfl
  | succ s ih =>
    have hacc : zc (polyOf v * geomPoly a n) (i - 2) * a + vectorIndex v i
        - vectorIndex v (i - n) * a ^ n = zc (polyOf v * geomPoly a n) (i - 1) := by
      rw [mul_geom_rec (polyOf v) a n (i - 1), vectorIndex_zc, vectorIndex_zc]
      have e1 : i - 1 - 1 = i - 2 := by ring
      have e2 : i - (n : ℤ) - 1 = i - 1 - n := by ring
      rw [e1, e2]
    rw [vectorPowerMulGo]
    simp only [hacc]
    have := ih (i + 1) (by omega)
    have e3 : i + 1 - 2 = i - 1 := by ring
    rw [e3] at this
    rw [this, List.range_succ_eq_map, List.map_cons, List.map_map]
    congr 1
    · simp
    · apply List.map_congr_left
      intro k _
      simp only [Function.comp]
      congr 1
      push_cast; ring

/-- `vector_power_mul!` computes the product with a power vector. -/
theorem polyOf_vectorPowerMul (v : List F) (a : F) (n : ℕ) (h : 1 ≤ n ∨ a ≠ 0) :
    polyOf (vectorPowerMul v a n) = polyOf v * geomPoly a n := by
  unfold vectorPowerMul
  rw [power_natCast h]
  have h0 : zc (polyOf v * geomPoly a n) (1 - 2) = 0 := zc_neg _ (by norm_num)
  have := vectorPowerMulGo_spec v a n ((n : ℤ).toNat + v.length - 1) 1 le_rfl
  rw [h0] at this
  rw [this]
  ext i
  rw [coeff_polyOf]
  simp only [Int.toNat_natCast]
  by_cases hi : i < n + v.length - 1
  · rw [List.getD_eq_getElem _ _ (by simpa using hi)]
    simp [zc]
  · rw [List.getD_eq_default _ _ (by simpa using hi), coeff_mul]
    symm
    apply Finset.sum_eq_zero
    intro x hx
    rw [Finset.mem_antidiagonal] at hx
    rw [coeff_polyOf, coeff_geomPoly]
    by_cases h1 : v.length ≤ x.1
    · rw [List.getD_eq_default _ _ h1, zero_mul]
    · rw [if_neg (by omega), mul_zero]

theorem length_vectorPowerMulGo (v : List F) (a b : F) (n : ℤ) (s : ℕ) (i : ℤ) (acc : F) :
    (vectorPowerMulGo v a b n s i acc).length = s := by
  induction s generalizing i acc with
  | zero => rfl
  | succ s ih => simp [vectorPowerMulGo, ih]

theorem length_vectorPowerMul (v : List F) (a : F) (n : ℕ) :
    (vectorPowerMul v a n).length = n + v.length - 1 := by
  simp [vectorPowerMul, length_vectorPowerMulGo]

theorem polyOf_powers (a : F) (n : ℕ) :
    polyOf ((List.range n).map (fun i => a ^ i)) = geomPoly a n := by
  ext i
  rw [coeff_polyOf, coeff_geomPoly]
  split_ifs with h
  · rw [List.getD_eq_getElem _ _ (by simpa using h)]; simp
  · rw [List.getD_eq_default _ _ (by simpa using h)]

/-- `power_power_mul!`: invariant of the scan. -/
theorem powerPowerMulGo_spec (a : F) (n : ℕ) (b : F) (m : ℕ) (steps i : ℕ)
    (hi : 1 ≤ i) (hs : i + steps ≤ n + m) :
    powerPowerMulGo a (a ^ n) n b m steps i (zc (geomPoly b m * geomPoly a n) ((i : ℤ) - 2))
        (if i ≤ m then b ^ (i - 1) else 0) (if i ≤ n then 0 else b ^ (i - 1 - n))
      = (List.range steps).map
          (fun (k : ℕ) => zc (geomPoly b m * geomPoly a n) ((i : ℤ) - 1 + k)) := by
  induction steps generalizing i with
  | zero => rfl
  | succ s ih =>
    have hacc : zc (geomPoly b m * geomPoly a n) ((i : ℤ) - 2) * a
        + (if i ≤ m then b ^ (i - 1) else 0)
        - (if i ≤ n then 0 else b ^ (i - 1 - n)) * a ^ n
          = zc (geomPoly b m * geomPoly a n) ((i : ℤ) - 1) := by
      rw [mul_geom_rec (geomPoly b m) a n ((i : ℤ) - 1)]
      have e1 : (i : ℤ) - 1 - 1 = i - 2 := by ring
      have e2 : zc (geomPoly b m) ((i : ℤ) - 1) = if i ≤ m then b ^ (i - 1) else 0 := by
        have : (i : ℤ) - 1 = ((i - 1 : ℕ) : ℤ) := by omega
        rw [this, zc_natCast, coeff_geomPoly]
        by_cases h : i ≤ m
        · rw [if_pos (by omega), if_pos h]
        · rw [if_neg (by omega), if_neg h]
      have e3 : zc (geomPoly b m) ((i : ℤ) - 1 - n) = if i ≤ n then 0 else b ^ (i - 1 - n) := by
        by_cases h : i ≤ n
        · rw [if_pos h, zc_neg _ (by omega)]
        · have : (i : ℤ) - 1 - n = ((i - 1 - n : ℕ) : ℤ) := by omega
          rw [this, zc_natCast, coeff_geomPoly, if_neg h, if_pos (by omega)]
      rw [e1, e2, e3]
    have hbeta : (if m ≤ i then 0 else (if i ≤ m then b ^ (i - 1) else 0) * b)
        = if i + 1 ≤ m then b ^ (i + 1 - 1) else 0 := by
      by_cases h : m ≤ i
      · rw [if_pos h, if_neg (by omega)]
      · rw [if_neg h, if_pos (by omega), if_pos (by omega), ← pow_succ]
        congr 1; omega
    have hlate : (if i < n then 0 else if i = n then 1
          else (if i ≤ n then 0 else b ^ (i - 1 - n)) * b)
        = if i + 1 ≤ n then 0 else b ^ (i + 1 - 1 - n) := by
      by_cases h : i < n
      · rw [if_pos h, if_pos (by omega)]
      · rw [if_neg h]
        by_cases h2 : i = n
        · rw [if_pos h2]; simp [h2]
        · rw [if_neg h2, if_neg (by omega), if_neg (by omega), ← pow_succ]; congr 1; omega
    rw [powerPowerMulGo]
    simp only [hacc, hbeta, hlate]
    have := ih (i + 1) (by omega) (by omega)
    have e3 : ((i + 1 : ℕ) : ℤ) - 2 = i - 1 := by push_cast; ring
    rw [e3] at this
    rw [this, List.range_succ_eq_map, List.map_cons, List.map_map]
    congr 1
    · simp
    · apply List.map_congr_left
      intro k _
      simp only [Function.comp]
      congr 1
      push_cast; ring

theorem polyOf_powerPowerMul (a : F) (n : ℕ) (b : F) (m : ℕ) (hn : 1 ≤ n) (hm : 1 ≤ m) :
    polyOf (powerPowerMul a n b m) = geomPoly a n * geomPoly b m := by
  unfold powerPowerMul
  rw [power_natCast (Or.inl hn)]
  have h0 : zc (geomPoly b m * geomPoly a n) (((1 : ℕ) : ℤ) - 2) = 0 := zc_neg _ (by norm_num)
  have := powerPowerMulGo_spec a n b m (n + m - 1) 1 le_rfl (by omega)
  rw [h0, if_pos hm, if_pos hn] at this
  simp only [Nat.sub_self, pow_zero] at this
  rw [this, mul_comm]
  ext i
  rw [coeff_polyOf]
  by_cases hi : i < n + m - 1
  · rw [List.getD_eq_getElem _ _ (by simpa using hi)]
    simp [zc]
  · rw [List.getD_eq_default _ _ (by simpa using hi), coeff_mul]
    symm
    apply Finset.sum_eq_zero
    intro x hx
    rw [Finset.mem_antidiagonal] at hx
    rw [coeff_geomPoly, coeff_geomPoly]
    by_cases h1 : n ≤ x.1
    · rw [if_neg (by omega), zero_mul]
    · rw [if_neg (c := x.2 < m) (by omega), mul_zero]

theorem length_powerPowerMulGo (a c : F) (n : ℕ) (b : F) (m s i : ℕ) (x y z : F) :
    (powerPowerMulGo a c n b m s i x y z).length = s := by
  induction s generalizing i x y z with
  | zero => rfl
  | succ s ih => simp [powerPowerMulGo, ih]

theorem length_powerPowerMul (a : F) (n : ℕ) (b : F) (m : ℕ) :
    (powerPowerMul a n b m).length = n + m - 1 := by
  simp [powerPowerMul, length_powerPowerMulGo]

end VO
