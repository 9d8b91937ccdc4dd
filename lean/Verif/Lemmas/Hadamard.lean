import Verif.Spec.Hadamard
import Verif.Lemmas.Laurent
import Verif.Lemmas.Vectors
import Verif.Model.Snark

set_option linter.unusedSectionVars false

namespace VO
open Spec
open Polynomial (X toLaurent)
open LaurentPolynomial

variable {F : Type} [Field F] [DecidableEq F]

/-! ### Functions of an index given by polynomials -/

/-- `f i` is the coefficient `i - 1` of `p`, for every integer `i`. -/
def Rep (f : ℤ → F) (p : Polynomial F) : Prop := ∀ i, f i = zc p (i - 1)

/-- `f i` is the coefficient `i - 1` of the Laurent polynomial `P`. -/
def LRep (f : ℤ → F) (P : F[T;T⁻¹]) : Prop := ∀ i, f i = P.coeff (i - 1)

theorem zc_neg' (p : Polynomial F) (i : ℤ) : zc (-p) i = - zc p i := by
  unfold zc; split_ifs <;> simp

theorem Rep.add {f g : ℤ → F} {p q : Polynomial F} (hf : Rep f p) (hg : Rep g q) :
    Rep (fun i => f i + g i) (p + q) := fun i => by
  beta_reduce
  rw [hf i, hg i, zc_add]

theorem Rep.sub {f g : ℤ → F} {p q : Polynomial F} (hf : Rep f p) (hg : Rep g q) :
    Rep (fun i => f i - g i) (p - q) := fun i => by
  beta_reduce
  rw [hf i, hg i, zc_sub]

theorem Rep.neg {f : ℤ → F} {p : Polynomial F} (hf : Rep f p) :
    Rep (fun i => - f i) (-p) := fun i => by
  beta_reduce
  rw [hf i, zc_neg']

theorem Rep.cmul {f : ℤ → F} {p : Polynomial F} (hf : Rep f p) (c : F) :
    Rep (fun i => c * f i) (Polynomial.C c * p) := fun i => by
  beta_reduce
  rw [hf i, zc_C_mul]

theorem Rep.congr {f : ℤ → F} {p q : Polynomial F} (hf : Rep f p) (h : p = q) : Rep f q := h ▸ hf

theorem Rep.congrf {f g : ℤ → F} {p : Polynomial F} (hf : Rep f p) (h : ∀ i, g i = f i) :
    Rep g p := fun i => by
  beta_reduce
  rw [h, hf i]

theorem rep_zero : Rep (fun _ => (0 : F)) 0 := fun i => by
  beta_reduce
  rw [zc_zero]

/-- Right shift by `k` of a function given by a polynomial. -/
theorem Rep.shift {f : ℤ → F} {p : Polynomial F} (hf : Rep f p) (k : ℕ) :
    Rep (fun i => f (i - k)) (X ^ k * p) := fun i => by
  beta_reduce
  rw [hf, zc_X_pow_mul]; congr 1; ring

/-- Shift with the macro `minus_i64!(i, m)`, `m = k + 1`. -/
theorem Rep.minus {f : ℤ → F} {p : Polynomial F} (hf : Rep f p) {m : ℤ} (k : ℕ)
    (hk : m = k + 1) : Rep (fun i => f (minusI64 i m)) (X ^ k * p) := fun i => by
  beta_reduce
  rw [hf, zc_X_pow_mul]; congr 1; rw [minusI64, hk]; ring

theorem rep_vec (v : List F) : Rep (fun i => vectorIndex v i) (polyOf v) := fun i =>
  vectorIndex_zc v i

theorem rep_delta {m : ℤ} (k : ℕ) (hk : m = k + 1) : Rep (fun i => (delta i m : F)) (X ^ k) := by
  intro i
  beta_reduce
  have := zc_X_pow_mul (1 : Polynomial F) k (i - 1)
  rw [mul_one] at this
  rw [this, delta, zc, hk]
  by_cases h : i = k + 1
  · rw [if_pos h, if_pos (by omega), show (i - 1 - k).toNat = 0 by omega]; simp
  · rw [if_neg h]
    split_ifs with h2
    · rw [Polynomial.coeff_one, if_neg (by omega)]
    · rfl

theorem rep_range (n : ℕ) : Rep (fun i => (rangeIndex 1 n i : F)) (geomPoly 1 n) := fun i => by
  beta_reduce
  rw [rangeIndex_lcoeff, lcoeff_toLaurent]

theorem rep_powers (a : F) (ha : a ≠ 0) (n : ℕ) :
    Rep (fun i => powerVectorIndex a n i) (geomPoly a n) := fun i => by
  beta_reduce
  rw [powerVectorIndex_lcoeff a ha, lcoeff_toLaurent]

theorem Rep.lrep {f : ℤ → F} {p : Polynomial F} (hf : Rep f p) : LRep f (toLaurent p) :=
  fun i => by
  beta_reduce; rw [hf i, lcoeff_toLaurent]

theorem LRep.add {f g : ℤ → F} {P Q : F[T;T⁻¹]} (hf : LRep f P) (hg : LRep g Q) :
    LRep (fun i => f i + g i) (P + Q) := fun i => by
  beta_reduce
  rw [hf i, hg i, lcoeff_add]

theorem LRep.sub {f g : ℤ → F} {P Q : F[T;T⁻¹]} (hf : LRep f P) (hg : LRep g Q) :
    LRep (fun i => f i - g i) (P - Q) := fun i => by
  beta_reduce
  rw [hf i, hg i, lcoeff_sub]

theorem LRep.neg {f : ℤ → F} {P : F[T;T⁻¹]} (hf : LRep f P) :
    LRep (fun i => - f i) (-P) := fun i => by
  beta_reduce
  rw [hf i, lcoeff_neg]

theorem LRep.cmul {f : ℤ → F} {P : F[T;T⁻¹]} (hf : LRep f P) (c : F) :
    LRep (fun i => c * f i) (C c * P) := fun i => by
  beta_reduce
  rw [hf i, lcoeff_C_mul]

theorem LRep.mulc {f : ℤ → F} {P : F[T;T⁻¹]} (hf : LRep f P) (c : F) :
    LRep (fun i => f i * c) (C c * P) := fun i => by
  beta_reduce
  rw [hf i, lcoeff_C_mul, mul_comm]

theorem LRep.congr {f : ℤ → F} {P Q : F[T;T⁻¹]} (hf : LRep f P) (h : P = Q) : LRep f Q := h ▸ hf

/-- Shift with `minus_i64!(i, m)`. -/
theorem LRep.minus {f : ℤ → F} {P : F[T;T⁻¹]} (hf : LRep f P) (m : ℤ) :
    LRep (fun i => f (minusI64 i m)) (T (m - 1) * P) := fun i => by
  beta_reduce
  rw [hf, lcoeff_T_mul]; congr 1; rw [minusI64]; ring

theorem lrep_delta (m : ℤ) : LRep (fun i => (delta i m : F)) (T (m - 1)) := fun i => by
  beta_reduce
  rw [delta_lcoeff, T_apply, T_apply]
  by_cases h : m = i
  · rw [if_pos h, if_pos (by omega)]
  · rw [if_neg h, if_neg (by omega)]

/-- A vector reversed with powers of `ω`, read at `minus_i64!(i, m - (|v| - 1))`. -/
theorem lrep_rev (v : List F) (ω : F) (m m' : ℤ) (hm : m' = m - shiftMinusOne v) :
    LRep (fun i => vectorIndex (vectorReverseOmega v ω) (minusI64 i m'))
      (T (m - 1) * omegaInv ω (polyOf v)) := fun i => by
  beta_reduce
  rw [vectorIndex_rev, lcoeff_T_mul]; congr 1; rw [hm, minusI64, shiftMinusOne]; ring

theorem lrep_polyMul (u v : List F) (ω : F) (m m' : ℤ) (hm : m' = m - shiftMinusOne u) :
    LRep (fun i => vectorIndex (vectorPolyMulNoDict u v ω) (minusI64 i m'))
      (T (m - 1) * (omegaInv ω (polyOf u) * toLaurent (polyOf v))) := fun i => by
  beta_reduce
  rw [vectorIndex_polyMul, lcoeff_T_mul]; congr 1; rw [hm, minusI64, shiftMinusOne]; ring

theorem lrep_rev_powerMul (v : List F) (ω a : F) (n : ℕ) (h : 1 ≤ n ∨ a ≠ 0) (m m' : ℤ)
    (hm : m' = m - shiftMinusOne v) :
    LRep (fun i => vectorIndex (vectorPowerMul (vectorReverseOmega v ω) a n) (minusI64 i m'))
      (T (m - 1) * (omegaInv ω (polyOf v) * toLaurent (geomPoly a n))) := fun i => by
  beta_reduce
  rw [vectorIndex_rev_powerMul _ _ _ _ h, lcoeff_T_mul]
  congr 1; rw [hm, minusI64, shiftMinusOne]; ring

theorem lrep_powerMul (v : List F) (a : F) (n : ℕ) (h : 1 ≤ n ∨ a ≠ 0) (m : ℤ) :
    LRep (fun i => vectorIndex (vectorPowerMul v a n) (minusI64 i m))
      (T (m - 1) * (toLaurent (polyOf v) * toLaurent (geomPoly a n))) := fun i => by
  beta_reduce
  rw [vectorIndex_powerMul _ _ _ h, lcoeff_T_mul]
  congr 1; rw [minusI64]; ring

/-! ### Vectors of expressions -/

theorem polyOf_expressionVector {f : ℤ → F} {p : Polynomial F} (hf : Rep f p) (N : ℕ)
    (hd : p.degree < N) : polyOf (expressionVector N f) = p := by
  ext k
  rw [coeff_polyOf, getD_expressionVector]
  split_ifs with h
  · rw [hf, add_sub_cancel_right, zc_natCast]
  · symm
    apply Polynomial.coeff_eq_zero_of_degree_lt
    apply lt_of_lt_of_le hd
    have : N ≤ k := by omega
    exact_mod_cast this

theorem evalVectorExpression_polyOf (z : F) (n : ℕ) (f : ℤ → F) :
    evalVectorExpression z n f = (polyOf (expressionVector n f)).eval z := by
  rw [evalVectorExpression_eq, eval_polyOf, length_expressionVector]
  simp only [Int.toNat_natCast]
  apply Finset.sum_congr rfl
  intro i hi
  rw [getD_expressionVector, if_pos (by have := Finset.mem_range.mp hi; omega)]

theorem Rep.eval {f : ℤ → F} {p : Polynomial F} (hf : Rep f p) (N : ℕ) (hd : p.degree < N)
    (z : F) : evalVectorExpression z N f = p.eval z := by
  rw [evalVectorExpression_polyOf, polyOf_expressionVector hf N hd]

theorem length_addExpression (u : List F) (f : ℤ → F) :
    (addExpressionVectorToVector u f).length = u.length := by
  simp [addExpressionVectorToVector]

theorem getD_addExpression (u : List F) (f : ℤ → F) (k : ℕ) (hk : k < u.length) :
    (addExpressionVectorToVector u f).getD k 0 = u.getD k 0 + f ((k : ℤ) + 1) := by
  rw [List.getD_eq_getElem _ _ (by rwa [length_addExpression]), List.getD_eq_getElem _ _ hk]
  simp [addExpressionVectorToVector]

theorem polyOf_addExpression (u : List F) {f : ℤ → F} {p : Polynomial F} (hf : Rep f p)
    (hd : p.degree < u.length) :
    polyOf (addExpressionVectorToVector u f) = polyOf u + p := by
  ext k
  rw [Polynomial.coeff_add, coeff_polyOf, coeff_polyOf]
  by_cases hk : k < u.length
  · rw [getD_addExpression _ _ _ hk, hf, add_sub_cancel_right, zc_natCast]
  · rw [List.getD_eq_default _ _ (by rw [length_addExpression]; omega),
      List.getD_eq_default _ _ (by omega), zero_add]
    symm
    apply Polynomial.coeff_eq_zero_of_degree_lt
    apply lt_of_lt_of_le hd
    have : u.length ≤ k := by omega
    exact_mod_cast this

/-! ### The Hadamard Laurent polynomial -/

theorem hadamardLaurent_nil (ω : F) : hadamardLaurent ω [] = 0 := rfl

theorem hadamardLaurent_cons (ω : F) (p : Polynomial F × Polynomial F)
    (l : List (Polynomial F × Polynomial F)) :
    hadamardLaurent ω (p :: l) = omegaInv ω p.1 * toLaurent p.2 + hadamardLaurent ω l := by
  simp [hadamardLaurent]

theorem lcoeff_zero_mul (ω : F) (A B : Polynomial F) (d : ℕ) (hd : A.degree < d) :
    (omegaInv ω A * toLaurent B).coeff 0
      = ∑ i ∈ Finset.range d, ω ^ i * (A.coeff i * B.coeff i) := by
  have hsum : A = ∑ k ∈ Finset.range d, Polynomial.C (A.coeff k) * X ^ k := by
    ext k
    rw [Polynomial.finsetSum_coeff]
    simp only [Polynomial.coeff_C_mul, Polynomial.coeff_X_pow, mul_ite, mul_one, mul_zero]
    rw [Finset.sum_ite_eq]
    split_ifs with hk
    · rfl
    · apply Polynomial.coeff_eq_zero_of_degree_lt
      apply lt_of_lt_of_le hd
      simpa using hk
  have hs : ∀ (s : Finset ℕ) (f : ℕ → F[T;T⁻¹]), (∑ k ∈ s, f k).coeff 0 = ∑ k ∈ s, (f k).coeff 0 := by
    intro s f
    induction s using Finset.cons_induction with
    | empty => simp
    | cons a s ha ih => rw [Finset.sum_cons, Finset.sum_cons, lcoeff_add, ih]
  conv_lhs => rw [hsum, map_sum, Finset.sum_mul, hs]
  apply Finset.sum_congr rfl
  intro k _
  rw [map_mul, omegaInv_X_pow, omegaInv_C, mul_assoc, mul_assoc, lcoeff_C_mul, lcoeff_C_mul,
    lcoeff_T_mul, zero_sub, neg_neg, lcoeff_toLaurent, zc_natCast]
  ring

theorem lcoeff_zero_hadamard (ω : F) (l : List (Polynomial F × Polynomial F)) (d : ℕ)
    (hd : ∀ p ∈ l, p.1.degree < d) :
    (hadamardLaurent ω l).coeff 0 = ∑ i ∈ Finset.range d, ω ^ i * hadamardEntry l i := by
  induction l with
  | nil => simp [hadamardLaurent_nil, hadamardEntry]
  | cons p l ih =>
    rw [hadamardLaurent_cons, lcoeff_add, ih (fun q hq => hd q (by simp [hq])),
      lcoeff_zero_mul _ _ _ d (hd p (by simp)), ← Finset.sum_add_distrib]
    apply Finset.sum_congr rfl
    intro i _
    simp only [hadamardEntry, List.map_cons, List.sum_cons]
    ring

theorem suppIn_hadamard (ω : F) (l : List (Polynomial F × Polynomial F)) (M : ℕ)
    (hA : ∀ p ∈ l, p.1.degree < ((M + 1 : ℕ) : WithBot ℕ))
    (hB : ∀ p ∈ l, p.2.degree < ((M + 1 : ℕ) : WithBot ℕ)) :
    SuppIn (hadamardLaurent ω l) (-M) M := by
  induction l with
  | nil => intro i _; rw [hadamardLaurent_nil]; simp
  | cons p l ih =>
    rw [hadamardLaurent_cons]
    apply SuppIn.add
    · have h1 := suppIn_omegaInv ω p.1 (M + 1) (hA p (by simp))
      have h2 := suppIn_toLaurent p.2 (M + 1) (hB p (by simp))
      refine (h1.mul h2).mono ?_ ?_ <;> push_cast <;> omega
    · exact ih (fun q hq => hA q (by simp [hq])) (fun q hq => hB q (by simp [hq]))

theorem evL_hadamard (z : Fˣ) (ω : F) (l : List (Polynomial F × Polynomial F)) :
    evL z (hadamardLaurent ω l) = hadamardAt ω z l := by
  induction l with
  | nil => simp [hadamardLaurent_nil, hadamardAt]
  | cons p l ih =>
    rw [hadamardLaurent_cons, map_add, map_mul, evL_omegaInv, evL_toLaurent, ih]
    simp [hadamardAt]

/-- The `h` vectors of the prover: with a zero constant coefficient the Laurent polynomial splits
into the two committed polynomials. -/
theorem hadamard_split (ω : F) (l : List (Polynomial F × Polynomial F)) (M : ℕ)
    (hA : ∀ p ∈ l, p.1.degree < ((M + 1 : ℕ) : WithBot ℕ))
    (hB : ∀ p ∈ l, p.2.degree < ((M + 1 : ℕ) : WithBot ℕ))
    (h0 : (hadamardLaurent ω l).coeff 0 = 0) (f : ℤ → F) (hf : LRep f (hadamardLaurent ω l)) :
    hadamardLaurent ω l
      = T (-(M : ℤ)) * toLaurent (polyOf (expressionVector M (fun i => f (i - M))))
        + T 1 * toLaurent (polyOf (expressionVector M (fun i => f (i + 1)))) := by
  apply (suppIn_hadamard ω l M hA hB).split h0
  · rw [length_expressionVector]; simp
  · rw [length_expressionVector]; simp
  · intro i hi
    rw [getD_expressionVector, if_pos (by exact_mod_cast hi), hf]; congr 1; ring
  · intro i hi
    rw [getD_expressionVector, if_pos (by exact_mod_cast hi), hf]; congr 1; ring

/-- Uniqueness of the split: the two polynomials are determined by the Laurent polynomial. -/
theorem split_unique (M : ℕ) (p q p' q' : Polynomial F) (hp : p.degree < M) (hp' : p'.degree < M)
    (h : (T (-(M : ℤ)) * toLaurent p + T 1 * toLaurent q : F[T;T⁻¹])
      = T (-(M : ℤ)) * toLaurent p' + T 1 * toLaurent q') : p = p' ∧ q = q' := by
  have hc : ∀ i : ℤ, zc p (i + M) + zc q (i - 1) = zc p' (i + M) + zc q' (i - 1) := by
    intro i
    have := congrArg (fun P : F[T;T⁻¹] => P.coeff i) h
    simp only [lcoeff_add, lcoeff_T_mul, lcoeff_toLaurent, sub_neg_eq_add] at this
    exact this
  have hz : ∀ (r : Polynomial F), r.degree < M → ∀ i : ℤ, M ≤ i → zc r i = 0 := by
    intro r hr i hi
    unfold zc
    split_ifs
    · apply Polynomial.coeff_eq_zero_of_degree_lt
      apply lt_of_lt_of_le hr
      have : M ≤ i.toNat := by omega
      exact_mod_cast this
    · rfl
  constructor
  · ext k
    by_cases hk : k < M
    · have := hc ((k : ℤ) - M)
      rw [zc_neg q (by omega), zc_neg q' (by omega), sub_add_cancel, zc_natCast, zc_natCast,
        add_zero, add_zero] at this
      exact this
    · rw [← zc_natCast, ← zc_natCast, hz p hp k (by omega), hz p' hp' k (by omega)]
  · ext k
    have := hc ((k : ℤ) + 1)
    rw [hz p hp _ (by omega), hz p' hp' _ (by omega), zero_add, zero_add, add_sub_cancel_right,
      zc_natCast, zc_natCast] at this
    exact this

end VO
