import Mathlib.Tactic.FieldSimp
import Verif.Spec.Laurent
import Verif.Lemmas.Poly
import Verif.Lemmas.PowerMul
import Verif.Lemmas.Fft

set_option linter.unusedSectionVars false

namespace VO
open Spec
open Polynomial (X toLaurent)
open LaurentPolynomial

variable {F : Type} [Field F] [DecidableEq F]

theorem lcoeff_add (P Q : F[T;T⁻¹]) (i : ℤ) : (P + Q).coeff i = P.coeff i + Q.coeff i := by simp
theorem lcoeff_sub (P Q : F[T;T⁻¹]) (i : ℤ) : (P - Q).coeff i = P.coeff i - Q.coeff i := by simp
theorem lcoeff_neg (P : F[T;T⁻¹]) (i : ℤ) : (-P).coeff i = - P.coeff i := by simp

theorem lcoeff_C_mul (c : F) (P : F[T;T⁻¹]) (i : ℤ) : (C c * P).coeff i = c * P.coeff i := by
  rw [← smul_eq_C_mul]; simp

theorem lcoeff_T_mul (n : ℤ) (P : F[T;T⁻¹]) (i : ℤ) : (T n * P).coeff i = P.coeff (i - n) := by
  induction P using LaurentPolynomial.induction_on' with
  | add p q hp hq => rw [mul_add, lcoeff_add, lcoeff_add, hp, hq]
  | C_mul_T m a =>
    rw [← mul_assoc, mul_comm (T n) (C a), mul_assoc, ← T_add, lcoeff_C_mul, lcoeff_C_mul, T_apply,
      T_apply]
    congr 1
    by_cases h : n + m = i
    · rw [if_pos h, if_pos (by omega)]
    · rw [if_neg h, if_neg (by omega)]

theorem lcoeff_toLaurent (p : Polynomial F) (i : ℤ) : (toLaurent p).coeff i = zc p i := by
  induction p using Polynomial.induction_on' with
  | add p q hp hq => rw [map_add, lcoeff_add, hp, hq, zc_add]
  | monomial n a =>
    rw [← Polynomial.C_mul_X_pow_eq_monomial, Polynomial.toLaurent_C_mul_X_pow, lcoeff_C_mul,
      T_apply, zc_C_mul, ← mul_one (X ^ n), zc_X_pow_mul]
    congr 1
    unfold zc
    by_cases h : (n : ℤ) = i
    · rw [if_pos h, if_pos (by omega)]
      have : (i - n).toNat = 0 := by omega
      rw [this]; simp
    · rw [if_neg h]
      split_ifs with h2
      · rw [Polynomial.coeff_one, if_neg (by omega)]
      · rfl

theorem vectorIndex_lcoeff (v : List F) (i : ℤ) :
    vectorIndex v i = (toLaurent (polyOf v)).coeff (i - 1) := by
  rw [vectorIndex_zc, lcoeff_toLaurent]

@[simp] theorem omegaInv_C (ω a : F) : omegaInv ω (Polynomial.C a) = C a := by simp [omegaInv]
@[simp] theorem omegaInv_X (ω : F) : omegaInv ω X = C ω * T (-1) := by simp [omegaInv]

theorem omegaInv_X_pow (ω : F) (n : ℕ) : omegaInv ω (X ^ n) = C (ω ^ n) * T (-(n : ℤ)) := by
  rw [map_pow, omegaInv_X, mul_pow, ← map_pow, T_pow]; simp

theorem zipIdx_map_mul_pow (l : List F) (ω : F) :
    (l.zipIdx 1).map (fun p => p.1 * ω ^ p.2)
      = (l.zipIdx.map (fun p => p.1 * ω ^ p.2)).map (ω * ·) := by
  rw [List.zipIdx_succ, List.map_map, List.map_map]
  apply List.map_congr_left
  intro p _
  simp only [Function.comp, pow_succ]; ring

theorem vectorReverseOmega_cons (a : F) (l : List F) (ω : F) :
    vectorReverseOmega (a :: l) ω = (vectorReverseOmega l ω).map (ω * ·) ++ [a] := by
  rw [vectorReverseOmega_eq, vectorReverseOmega_eq, List.zipIdx_cons, List.map_cons,
    List.reverse_cons, Nat.zero_add, zipIdx_map_mul_pow, ← List.map_reverse]
  simp

/-- The reversed vector with weights `ω^i` has the polynomial `T^{|v|-1} f_v(ω/T)`. -/
theorem toLaurent_vectorReverseOmega (v : List F) (ω : F) :
    toLaurent (polyOf (vectorReverseOmega v ω)) = T ((v.length : ℤ) - 1) * omegaInv ω (polyOf v) := by
  induction v with
  | nil => simp [vectorReverseOmega]
  | cons a l ih =>
    rw [vectorReverseOmega_cons, polyOf_append, polyOf_map_mul, polyOf_cons, polyOf_cons]
    simp only [List.length_map, length_vectorReverseOmega, polyOf_nil, mul_zero, add_zero, map_add,
      map_mul, Polynomial.toLaurent_C, Polynomial.toLaurent_X_pow, ih, omegaInv_C, omegaInv_X,
      List.length_cons, Nat.cast_add, Nat.cast_one, add_sub_cancel_right]
    have : (T ((l.length : ℤ) - 1) : F[T;T⁻¹]) = T (l.length : ℤ) * T (-1) := by
      rw [← T_add]; rfl
    rw [this]; ring

theorem vectorIndex_rev (v : List F) (ω : F) (i : ℤ) :
    vectorIndex (vectorReverseOmega v ω) i = (omegaInv ω (polyOf v)).coeff (i - v.length) := by
  rw [vectorIndex_lcoeff, toLaurent_vectorReverseOmega, lcoeff_T_mul]
  congr 1; ring

theorem vectorIndex_polyMul (u v : List F) (ω : F) (i : ℤ) :
    vectorIndex (vectorPolyMulNoDict u v ω) i
      = (omegaInv ω (polyOf u) * toLaurent (polyOf v)).coeff (i - u.length) := by
  rw [vectorIndex_lcoeff, polyOf_vectorPolyMulNoDict, map_mul, toLaurent_vectorReverseOmega,
    mul_assoc, lcoeff_T_mul]
  congr 1; ring

theorem vectorIndex_powerMul (v : List F) (a : F) (n : ℕ) (h : 1 ≤ n ∨ a ≠ 0) (i : ℤ) :
    vectorIndex (vectorPowerMul v a n) i
      = (toLaurent (polyOf v) * toLaurent (geomPoly a n)).coeff (i - 1) := by
  rw [vectorIndex_lcoeff, polyOf_vectorPowerMul v a n h, map_mul]

theorem vectorIndex_rev_powerMul (v : List F) (ω a : F) (n : ℕ) (h : 1 ≤ n ∨ a ≠ 0) (i : ℤ) :
    vectorIndex (vectorPowerMul (vectorReverseOmega v ω) a n) i
      = (omegaInv ω (polyOf v) * toLaurent (geomPoly a n)).coeff (i - v.length) := by
  rw [vectorIndex_powerMul _ _ _ h, toLaurent_vectorReverseOmega, mul_assoc, lcoeff_T_mul]
  congr 1; ring

theorem delta_lcoeff (i j : ℤ) : (delta i j : F) = (T j : F[T;T⁻¹]).coeff i := by
  rw [T_apply, delta]
  by_cases h : i = j
  · rw [if_pos h, if_pos h.symm]
  · rw [if_neg h, if_neg (fun hc => h hc.symm)]

theorem rangeIndex_lcoeff (n : ℕ) (i : ℤ) :
    (rangeIndex 1 n i : F) = (toLaurent (geomPoly (1 : F) n)).coeff (i - 1) := by
  rw [lcoeff_toLaurent, rangeIndex, zc]
  by_cases h : 1 ≤ i
  · rw [if_pos (by omega : 0 ≤ i - 1), coeff_geomPoly]
    by_cases h2 : i ≤ n
    · rw [if_pos ⟨h, h2⟩, if_pos (by omega)]; simp
    · rw [if_neg (by omega), if_neg (by omega)]
  · rw [if_neg (by omega), if_neg (by omega)]

theorem powerVectorIndex_lcoeff (a : F) (ha : a ≠ 0) (n : ℕ) (i : ℤ) :
    powerVectorIndex a n i = (toLaurent (geomPoly a n)).coeff (i - 1) := by
  rw [lcoeff_toLaurent, powerVectorIndex, zc]
  by_cases h : 1 ≤ i
  · rw [if_pos (by omega : 0 ≤ i - 1), coeff_geomPoly]
    by_cases h2 : i ≤ n
    · rw [if_pos ⟨h, h2⟩, if_pos (by omega), power_eq_zpow ha]
      obtain ⟨k, hk⟩ := Int.eq_ofNat_of_zero_le (a := i - 1) (by omega)
      rw [hk, zpow_natCast]; rfl
    · rw [if_neg (by omega), if_neg (by omega)]
  · rw [if_neg (by omega), if_neg (by omega)]

/-! ### Evaluation -/

theorem evL_toLaurent (z : Fˣ) (p : Polynomial F) : evL z (toLaurent p) = p.eval (z : F) := by
  rw [evL, eval₂_toLaurent]; rfl

theorem evL_C (z : Fˣ) (a : F) : evL z (C a) = a := by simp [evL]

theorem evL_T (z : Fˣ) (n : ℤ) : evL z (T n) = (z : F) ^ n := by
  rw [evL, eval₂_T]; simp

theorem evL_omegaInv (z : Fˣ) (ω : F) (p : Polynomial F) :
    evL z (omegaInv ω p) = p.eval (ω / z) := by
  induction p using Polynomial.induction_on' with
  | add p q hp hq => rw [map_add, map_add, hp, hq, Polynomial.eval_add]
  | monomial n a =>
    rw [← Polynomial.C_mul_X_pow_eq_monomial, map_mul, omegaInv_X_pow, omegaInv_C, map_mul,
      map_mul, evL_C, evL_C, evL_T]
    simp [div_eq_mul_inv, mul_pow]

/-! ### Support -/

theorem omegaInv_coeff_zero (ω : F) (p : Polynomial F) (d : ℕ) (hp : p.degree < d) (i : ℤ)
    (h : 0 < i ∨ i ≤ -(d : ℤ)) : (omegaInv ω p).coeff i = 0 := by
  have hsum : p = ∑ k ∈ Finset.range d, Polynomial.C (p.coeff k) * X ^ k := by
    ext k
    rw [Polynomial.finsetSum_coeff]
    simp only [Polynomial.coeff_C_mul, Polynomial.coeff_X_pow, mul_ite, mul_one, mul_zero]
    rw [Finset.sum_ite_eq]
    split_ifs with hk
    · rfl
    · apply Polynomial.coeff_eq_zero_of_degree_lt
      apply lt_of_lt_of_le hp
      simpa using hk
  rw [hsum, map_sum]
  have : ∀ (s : Finset ℕ) (f : ℕ → F[T;T⁻¹]), (∑ k ∈ s, f k).coeff i = ∑ k ∈ s, (f k).coeff i := by
    intro s f
    induction s using Finset.cons_induction with
    | empty => simp
    | cons a s ha ih => rw [Finset.sum_cons, Finset.sum_cons, lcoeff_add, ih]
  rw [this]
  apply Finset.sum_eq_zero
  intro k hk
  rw [map_mul, omegaInv_X_pow, omegaInv_C, lcoeff_C_mul, lcoeff_C_mul, T_apply, if_neg]
  · simp
  · have := Finset.mem_range.1 hk; omega

/-- All coefficients outside `[lo, hi]` vanish. -/
def SuppIn (P : F[T;T⁻¹]) (lo hi : ℤ) : Prop := ∀ i, i < lo ∨ hi < i → P.coeff i = 0

theorem SuppIn.mono {P : F[T;T⁻¹]} {lo hi lo' hi' : ℤ} (h : SuppIn P lo hi) (h1 : lo' ≤ lo)
    (h2 : hi ≤ hi') : SuppIn P lo' hi' := fun i hi => h i (by omega)

theorem SuppIn.add {P Q : F[T;T⁻¹]} {lo hi : ℤ} (hP : SuppIn P lo hi) (hQ : SuppIn Q lo hi) :
    SuppIn (P + Q) lo hi := fun i h => by rw [lcoeff_add, hP i h, hQ i h, add_zero]

theorem SuppIn.sub {P Q : F[T;T⁻¹]} {lo hi : ℤ} (hP : SuppIn P lo hi) (hQ : SuppIn Q lo hi) :
    SuppIn (P - Q) lo hi := fun i h => by rw [lcoeff_sub, hP i h, hQ i h, sub_zero]

theorem SuppIn.neg {P : F[T;T⁻¹]} {lo hi : ℤ} (hP : SuppIn P lo hi) : SuppIn (-P) lo hi :=
  fun i h => by rw [lcoeff_neg, hP i h, neg_zero]

theorem SuppIn.C_mul {P : F[T;T⁻¹]} {lo hi : ℤ} (hP : SuppIn P lo hi) (c : F) :
    SuppIn (C c * P) lo hi := fun i h => by rw [lcoeff_C_mul, hP i h, mul_zero]

theorem SuppIn.T_mul {P : F[T;T⁻¹]} {lo hi : ℤ} (hP : SuppIn P lo hi) (n : ℤ) :
    SuppIn (T n * P) (lo + n) (hi + n) := fun i h => by
  rw [lcoeff_T_mul]; exact hP _ (by omega)

theorem suppIn_T (n : ℤ) : SuppIn (T n : F[T;T⁻¹]) n n := fun i h => by
  rw [T_apply, if_neg (by omega)]

theorem suppIn_C (c : F) : SuppIn (C c : F[T;T⁻¹]) 0 0 := fun i h => by
  rw [C_apply, if_neg (by omega)]

theorem suppIn_toLaurent (p : Polynomial F) (d : ℕ) (h : p.degree < d) :
    SuppIn (toLaurent p) 0 (d - 1) := fun i hi => by
  rw [lcoeff_toLaurent, zc]
  split_ifs with h0
  · apply Polynomial.coeff_eq_zero_of_degree_lt
    apply lt_of_lt_of_le h
    have : d ≤ i.toNat := by omega
    exact_mod_cast this
  · rfl

theorem suppIn_omegaInv (ω : F) (p : Polynomial F) (d : ℕ) (h : p.degree < d) :
    SuppIn (omegaInv ω p) (1 - d) 0 := fun i hi =>
  omegaInv_coeff_zero ω p d h i (by omega)

/-- Reconstruction of a Laurent polynomial from its coefficients. -/
theorem SuppIn.eq_sum {P : F[T;T⁻¹]} {lo hi : ℤ} (hP : SuppIn P lo hi) :
    P = T lo * toLaurent (polyOf ((List.range (hi - lo + 1).toNat).map
      (fun (k : ℕ) => P.coeff (lo + k)))) := by
  apply LaurentPolynomial.ext
  intro i
  rw [lcoeff_T_mul, lcoeff_toLaurent, zc]
  split_ifs with h
  · rw [coeff_polyOf]
    by_cases h2 : i ≤ hi
    · rw [List.getD_eq_getElem _ _ (by simp; omega)]
      simp only [List.getElem_map, List.getElem_range]
      congr 1; omega
    · rw [List.getD_eq_default _ _ (by simp; omega)]
      exact hP i (by omega)
  · exact hP i (by omega)

theorem SuppIn.mul {P Q : F[T;T⁻¹]} {lo hi lo' hi' : ℤ} (hP : SuppIn P lo hi)
    (hQ : SuppIn Q lo' hi') : SuppIn (P * Q) (lo + lo') (hi + hi') := by
  by_cases h1 : lo ≤ hi
  · by_cases h2 : lo' ≤ hi'
    · rw [hP.eq_sum, hQ.eq_sum]
      set u := (List.range (hi - lo + 1).toNat).map (fun (k : ℕ) => P.coeff (lo + k)) with hu
      set v := (List.range (hi' - lo' + 1).toNat).map (fun (k : ℕ) => Q.coeff (lo' + k)) with hv
      have e : T lo * toLaurent (polyOf u) * (T lo' * toLaurent (polyOf v))
          = T (lo + lo') * toLaurent (polyOf u * polyOf v) := by
        rw [T_add, map_mul]; ring
      rw [e]
      have hd : (polyOf u * polyOf v).degree < ((u.length + v.length - 1 : ℕ) : WithBot ℕ) := by
        rw [Polynomial.degree_lt_iff_coeff_zero]
        intro m hm
        rw [Polynomial.coeff_mul]
        apply Finset.sum_eq_zero
        intro x hx
        rw [Finset.mem_antidiagonal] at hx
        rw [coeff_polyOf, coeff_polyOf]
        by_cases hc : u.length ≤ x.1
        · rw [List.getD_eq_default _ _ hc, zero_mul]
        · rw [List.getD_eq_default _ _ (by omega : v.length ≤ x.2), mul_zero]
      have := (suppIn_toLaurent _ _ hd).T_mul (lo + lo')
      apply this.mono
      · omega
      · have h3 : u.length = (hi - lo + 1).toNat := by simp [hu]
        have h4 : v.length = (hi' - lo' + 1).toNat := by simp [hv]
        omega
    · have : Q = 0 := by
        apply LaurentPolynomial.ext; intro i; rw [hQ i (by omega)]; simp
      rw [this]; intro i _; simp
  · have : P = 0 := by
      apply LaurentPolynomial.ext; intro i; rw [hP i (by omega)]; simp
    rw [this]; intro i _; simp

/-- Splitting a Laurent polynomial supported in `[-M, M]` with zero constant coefficient into
two coefficient vectors of length `M`. -/
theorem SuppIn.split {P : F[T;T⁻¹]} {M : ℕ} (hP : SuppIn P (-M) M) (h0 : P.coeff 0 = 0)
    (h1 h2 : List F) (l1 : h1.length = M) (l2 : h2.length = M)
    (c1 : ∀ i, i < M → h1.getD i 0 = P.coeff ((i : ℤ) - M))
    (c2 : ∀ i, i < M → h2.getD i 0 = P.coeff ((i : ℤ) + 1)) :
    P = T (-(M : ℤ)) * toLaurent (polyOf h1) + T 1 * toLaurent (polyOf h2) := by
  apply LaurentPolynomial.ext
  intro i
  rw [lcoeff_add, lcoeff_T_mul, lcoeff_T_mul, lcoeff_toLaurent, lcoeff_toLaurent, zc, zc,
    coeff_polyOf, coeff_polyOf]
  by_cases hi1 : i < -(M : ℤ)
  · rw [if_neg (by omega), if_neg (by omega), hP i (by omega)]; simp
  · by_cases hi2 : i < 0
    · rw [if_pos (by omega), if_neg (by omega), c1 _ (by omega), add_zero]
      congr 1; omega
    · by_cases hi3 : i = 0
      · subst hi3
        rw [if_pos (by omega), if_neg (by omega), h0, List.getD_eq_default _ _ (by omega), add_zero]
      · rw [if_pos (by omega), if_pos (by omega), List.getD_eq_default _ _ (by omega), zero_add]
        by_cases hi4 : i ≤ M
        · rw [c2 _ (by omega)]; congr 1; omega
        · rw [List.getD_eq_default _ _ (by omega), hP i (by omega)]

end VO
