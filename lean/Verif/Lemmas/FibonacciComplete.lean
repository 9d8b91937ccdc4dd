import Verif.Lemmas.Fibonacci

set_option linter.unusedSectionVars false

namespace VO
open Spec
open Polynomial (X toLaurent)
open LaurentPolynomial (T)

variable {F G1 G2 GT : Type} [Field F] [DecidableEq F]
  [AddCommGroup G1] [Module F G1] [DecidableEq G1] [AddCommGroup G2] [Module F G2]
  [AddCommGroup GT] [Module F GT] [DecidableEq GT]

theorem eval_geomPoly_one (n : ℕ) (z : F) (hz : z ≠ 1) :
    (geomPoly (1 : F) n).eval z = (1 - z ^ n) / (1 - z) := by
  have h := congrArg (Polynomial.eval z) (geomPoly_mul (1 : F) n)
  have h1 : (1 : F) - z ≠ 0 := sub_ne_zero.mpr (Ne.symm hz)
  rw [eq_div_iff h1]
  rw [mul_comm]
  simpa using h

theorem eval_geomPoly_three (x : F) : (geomPoly (1 : F) 3).eval x = 1 + x + x ^ 2 := by
  simp [geomPoly, Finset.sum_range_succ]

/-- The coefficients of the final combination. -/
noncomputable def fibK (n D : ℕ) (a b c α ω z y y1 y2 : F) : F × F × F × F × F :=
  ((y - b * y1 - a)
      + α * y2 * (geomPoly 1 n).eval z
      + α ^ 2 * (y - y2 - b * (ω / z)) * z
      + α ^ 3 * (y - c * (ω / z) ^ (n - 1)) * z ^ (n - 1)
      + α ^ 4 * (y - y2 - (ω / z) ^ 2 * y) * ((geomPoly 1 n).eval z - 1 - z),
    -(α * (ω / z) * y),
    -((ω / z) ^ n * (geomPoly 1 3).eval (ω / z) * z ^ (n - 1)),
    -(z ^ D)⁻¹, -z)

theorem fibCoeffs_ok (n D : ℕ) (hn : 2 ≤ n) (x : FibInstance F) (α ω z y y1 y2 : F) (hz : z ≠ 0)
    (hz1 : z ≠ 1) (hzo : z ≠ ω) :
    fibCoeffs n D x α ω z y y1 y2 = .ok (fibK n D x.a x.b x.c α ω z y y1 y2) := by
  have h1 : (1 : F) - z ≠ 0 := sub_ne_zero.mpr (Ne.symm hz1)
  have h2 : ω - z ≠ 0 := sub_ne_zero.mpr (Ne.symm hzo)
  have h2' : ω - 1 * z ≠ 0 := by rwa [one_mul]
  have h3 : power z 2 * (1 - z) ≠ 0 := by rw [power_two]; exact mul_ne_zero (pow_ne_zero _ hz) h1
  unfold fibCoeffs
  simp only [divR_ok hz, divR_ok h3, divR_ok h2', bind, Except.bind, pure, Except.pure]
  have pn : power z (n : ℤ) = z ^ n := power_natCast (Or.inr hz)
  have po : power (ω / z) (n : ℤ) = (ω / z) ^ n := power_natCast (Or.inl (by omega))
  have pn3 : power z ((n : ℤ) - 3) = z ^ n / z ^ 3 := by
    rw [power_eq_zpow hz, zpow_sub₀ hz]; norm_cast
  have pD : power z (-(D : ℤ)) = (z ^ D)⁻¹ := by
    rw [power_eq_zpow hz, zpow_neg, zpow_natCast]
  rw [pn, po, pn3, pD, power_two, power_two, power_two, power_two, power_three, power_three,
    power_three, power_four, power_pred _ hn, power_pred _ hn]
  rw [fibK, eval_geomPoly_one n z hz1, eval_geomPoly_three]
  congr 1
  refine Prod.ext ?_ (Prod.ext ?_ (Prod.ext ?_ (Prod.ext ?_ ?_)))
  · dsimp only
    field_simp
    ring
  · dsimp only; field_simp
  · dsimp only
    have h4 : z ^ n = z ^ (n - 1) * z := by rw [← pow_succ]; congr 1; omega
    rw [h4]
    have h5 : z ^ (n - 1) ≠ 0 := pow_ne_zero _ hz
    generalize (ω / z) ^ n = u
    rw [div_eq_iff h2']
    field_simp
    ring
  · rfl
  · rfl

theorem fibCoeffs_bad (n D : ℕ) (x : FibInstance F) (α ω z y y1 y2 : F)
    (h : z = 0 ∨ z = 1 ∨ z = ω) :
    fibCoeffs n D x α ω z y y1 y2 = .error .panic := by
  unfold fibCoeffs
  by_cases hz : z = 0
  · subst hz; rw [divR_zero]; rfl
  by_cases h1 : z = 1
  · subst h1; simp only [divR_ok (one_ne_zero : (1 : F) ≠ 0), sub_self, mul_zero, divR_zero, bind, Except.bind]
  · have h2 : z = ω := by tauto
    subst h2
    have h3 : (1 : F) - z ≠ 0 := sub_ne_zero.mpr (Ne.symm h1)
    have h4 : power z 2 * (1 - z) ≠ 0 := by rw [power_two]; exact mul_ne_zero (pow_ne_zero _ hz) h3
    simp only [divR_ok hz, divR_ok h4, one_mul, sub_self, divR_zero, bind, Except.bind]

theorem fibGPoly_eq (n D : ℕ) (a b c α ω z y y1 y2 : F) (P P1 H1 H2 : Polynomial F) :
    fibGPoly n D a b c α ω z y y1 y2 P P1 H1 H2 =
      Polynomial.C (fibK n D a b c α ω z y y1 y2).1
      + Polynomial.C (fibK n D a b c α ω z y y1 y2).2.1 * P
      + Polynomial.C (fibK n D a b c α ω z y y1 y2).2.2.1 * P1
      + Polynomial.C (fibK n D a b c α ω z y y1 y2).2.2.2.1 * H1
      + Polynomial.C (fibK n D a b c α ω z y y1 y2).2.2.2.2 * H2 := by
  simp only [fibGPoly, fibComb, fibK, Polynomial.smul_eq_C_mul, map_neg]
  ring

theorem fibComb_eq (n D : ℕ) (a b c α ω z y y1 y2 : F) (g cT cT1 cH1 cH2 : G1) :
    commitmentLinearCombination (fibK n D a b c α ω z y y1 y2).1 g
      [(cT, (fibK n D a b c α ω z y y1 y2).2.1), (cT1, (fibK n D a b c α ω z y y1 y2).2.2.1),
       (cH1, (fibK n D a b c α ω z y y1 y2).2.2.2.1), (cH2, (fibK n D a b c α ω z y y1 y2).2.2.2.2)]
      = fibComb n D a b c α ω z y y1 y2 g cT cT1 cH1 cH2 := by
  rw [clc_eq]
  simp only [List.map_cons, List.map_nil, List.sum_cons, List.sum_nil, fibComb, fibK, neg_smul]
  abel

/-- The value of the final polynomial at `z` when the claimed values are right. -/
theorem fibG_eval (n D : ℕ) (a b c α ω z : F) (W P R P1 H1 H2 : Polynomial F) :
    (fibGPoly n D a b c α ω z (W.eval (ω / z)) (P.eval (ω / z)) (R.eval (ω / z)) P P1 H1 H2).eval z
      = hadamardAt ω z (fibPolys n a b c α W P R P1) - ((z ^ D)⁻¹ * H1.eval z + z * H2.eval z) := by
  rw [fibGPoly_eq]
  simp only [fibK, hadamardAt, fibPolys, List.map_cons, List.map_nil, List.sum_cons,
    List.sum_nil, Polynomial.eval_sub, Polynomial.eval_add, Polynomial.eval_mul, Polynomial.eval_C,
    Polynomial.eval_neg, Polynomial.eval_pow, Polynomial.eval_X, Polynomial.eval_one]
  ring

theorem fibK_eval (n D : ℕ) (a b c α ω z y y1 y2 β : F) (P P1 H1 H2 : Polynomial F) (g : G1) :
    (fibGPoly n D a b c α ω z y y1 y2 P P1 H1 H2).eval β • g =
      commitmentLinearCombination (fibK n D a b c α ω z y y1 y2).1 g
        [(P.eval β • g, (fibK n D a b c α ω z y y1 y2).2.1),
         (P1.eval β • g, (fibK n D a b c α ω z y y1 y2).2.2.1),
         (H1.eval β • g, (fibK n D a b c α ω z y y1 y2).2.2.2.1),
         (H2.eval β • g, (fibK n D a b c α ω z y y1 y2).2.2.2.2)] := by
  rw [clc_eq]
  simp only [List.map_cons, List.map_nil, List.sum_cons, List.sum_nil, smul_smul, ← add_smul,
    add_zero]
  congr 1
  rw [fibGPoly_eq]
  simp only [Polynomial.eval_add, Polynomial.eval_mul, Polynomial.eval_C]
  ring

/-! ### Honest entries -/

theorem coeff_X_pow_mul_lt (k i : ℕ) (p : Polynomial F) (h : i < k) : (X ^ k * p).coeff i = 0 := by
  rw [Polynomial.coeff_X_pow_mul', if_neg (by omega)]

/-- Entries below `n` of the sum of Hadamard products, for arbitrary polynomials. -/
theorem fib_entry_lt (n : ℕ) (hn : 2 ≤ n) (a b c α : F) (W P R P1 : Polynomial F) (i : ℕ)
    (hi : i < n) :
    hadamardEntry (fibPolys n a b c α W P R P1) i =
      (if i = 0 then W.coeff 0 - b * P.coeff 0 - a else 0)
      + α * (R.coeff i - (if i = 0 then 0 else W.coeff (i - 1) * P.coeff i))
      + α ^ 2 * (if i = 1 then W.coeff 1 - R.coeff 1 - b else 0)
      + α ^ 3 * (if i = n - 1 then W.coeff (n - 1) - c else 0)
      + α ^ 4 * (if 2 ≤ i then W.coeff i - R.coeff i - W.coeff (i - 2) else 0) := by
  have hX : ∀ p : Polynomial F, (X * p).coeff i = if i = 0 then 0 else p.coeff (i - 1) := by
    intro p
    cases i with
    | zero => simp
    | succ k => simp
  have hX2 : (X ^ 2 * W).coeff i = if 2 ≤ i then W.coeff (i - 2) else 0 :=
    Polynomial.coeff_X_pow_mul' _ _ _
  have hg : (geomPoly (1 : F) n).coeff i = 1 := by rw [coeff_geomPoly, if_pos hi, one_pow]
  have h1 : (1 : Polynomial F).coeff i = if i = 0 then 1 else 0 := by
    rw [Polynomial.coeff_one]
  have hx : (X : Polynomial F).coeff i = if i = 1 then 1 else 0 := by
    rw [Polynomial.coeff_X]; simp only [eq_comm]
  have hxn : (X ^ (n - 1) : Polynomial F).coeff i = if i = n - 1 then 1 else 0 := by
    rw [Polynomial.coeff_X_pow]
  simp only [hadamardEntry, fibPolys, List.map_cons, List.map_nil, List.sum_cons, List.sum_nil,
    Polynomial.coeff_sub, Polynomial.coeff_C_mul, Polynomial.coeff_neg, hX, hX2, hg, h1, hx, hxn,
    coeff_X_pow_mul_lt n i _ hi, Polynomial.coeff_C]
  by_cases h0 : i = 0
  · subst h0
    have : ¬ (0 = n - 1) := by omega
    simp [this]
  · by_cases hi1 : i = 1
    · subst hi1
      by_cases hn2 : 1 = n - 1
      · rw [← hn2]; simp; ring
      · simp [hn2]; ring
    · have h2 : 2 ≤ i := by omega
      by_cases hin : i = n - 1
      · rw [← hin]
        simp only [if_neg h0, if_neg hi1, if_pos h2, if_true]; ring
      · simp only [if_neg h0, if_neg hi1, if_pos h2, if_neg hin]; ring

theorem fib_entry_ge (n : ℕ) (hn : 2 ≤ n) (a b c α δ : F) (W P R : Polynomial F)
    (hP : P.degree < n) (i : ℕ) (hi : n ≤ i) :
    hadamardEntry (fibPolys n a b c α W P R (Polynomial.C δ)) i = 0 := by
  have hg : (geomPoly (1 : F) n).coeff i = 0 := by rw [coeff_geomPoly, if_neg (by omega)]
  have hp : P.coeff i = 0 := by
    apply Polynomial.coeff_eq_zero_of_degree_lt
    exact lt_of_lt_of_le hP (by exact_mod_cast hi)
  have h1 : (1 : Polynomial F).coeff i = 0 := by
    rw [Polynomial.coeff_one, if_neg (by omega)]
  have hx : (X : Polynomial F).coeff i = 0 := by
    rw [Polynomial.coeff_X, if_neg (by omega)]
  have hxn : (X ^ (n - 1) : Polynomial F).coeff i = 0 := by
    rw [Polynomial.coeff_X_pow, if_neg (by omega)]
  have hxc : (X ^ (n - 1) * Polynomial.C δ).coeff i = 0 := by
    rw [Polynomial.coeff_X_pow_mul', if_pos (by omega), Polynomial.coeff_C, if_neg (by omega)]
  simp only [hadamardEntry, fibPolys, List.map_cons, List.map_nil, List.sum_cons, List.sum_nil,
    Polynomial.coeff_sub, hg, h1, hx, hxn, hxc, hp]
  ring

theorem fib_entries_zero (n : ℕ) (hn : 2 ≤ n) (a b c α δ : F) (W P R : Polynomial F)
    (hP : P.degree < n) (hfib : FibHolds n P.coeff a b c W.coeff)
    (hR : ∀ i, i < n → R.coeff i = if i = 0 then 0 else W.coeff (i - 1) * P.coeff i) (i : ℕ) :
    hadamardEntry (fibPolys n a b c α W P R (Polynomial.C δ)) i = 0 := by
  obtain ⟨h0, h1, h2, h3⟩ := hfib
  by_cases hi : i < n
  · rw [fib_entry_lt n hn _ _ _ _ _ _ _ _ _ hi, hR i hi]
    have e0 : W.coeff 0 - b * P.coeff 0 - a = 0 := by rw [h0]; ring
    have e1 : W.coeff 1 - R.coeff 1 - b = 0 := by
      rw [hR 1 (by omega), if_neg (by omega), h1]; ring
    have e2 : 2 ≤ i → W.coeff i - (if i = 0 then 0 else W.coeff (i - 1) * P.coeff i)
        - W.coeff (i - 2) = 0 := by
      intro hi2
      have := h2 (i - 2) (by omega)
      rw [show i - 2 + 2 = i by omega, show i - 2 + 1 = i - 1 by omega] at this
      rw [if_neg (by omega), this]; ring
    rw [e0, e1, h3]
    by_cases hi2 : 2 ≤ i
    · rw [e2 hi2]; simp
    · simp [hi2]
  · exact fib_entry_ge n hn _ _ _ _ _ _ _ _ hP i (by omega)

end VO
