import Mathlib.Algebra.Order.Ring.Rat
import Mathlib.Tactic.NormNum
import Verif.Lemmas.Vectors

/-
Property theorems C09, C10, C12-C15: vector helpers of `/repo/voproof/src/tools/mod.rs`.
-/

set_option linter.unusedSectionVars false

namespace VO
open Spec

variable {F : Type} [Field F] [DecidableEq F]

/-! ## C09 -/

/-- **C09.** `accumulate_vector_plus` has `n` entries, the `k`-th (from 0) is the initial value
plus the first `k+1` terms. -/
theorem C09_plus (init : F) (n : ℕ) (f : ℤ → F) :
    (accumulateVectorPlus init n f).length = n ∧
      ∀ k, k < n → (accumulateVectorPlus init n f).getD k 0
        = init + ∑ i ∈ Finset.range (k + 1), f ((i : ℤ) + 1) := by
  refine ⟨by rw [accumulateVectorPlus, length_scanAcc, length_expressionVector]; simp, ?_⟩
  intro k hk
  rw [accumulateVectorPlus, getD_scanAcc _ _ _ _ (by rw [length_expressionVector]; simpa using hk),
    take_expressionVector _ _ _ (by omega), foldl_add_eq, sum_map_range]

/-- **C09.** `accumulate_vector_mul` has `n` entries, the `k`-th (from 0) is the initial value
times the first `k+1` terms. -/
theorem C09_mul (init : F) (n : ℕ) (f : ℤ → F) :
    (accumulateVectorMul init n f).length = n ∧
      ∀ k, k < n → (accumulateVectorMul init n f).getD k 0
        = init * ∏ i ∈ Finset.range (k + 1), f ((i : ℤ) + 1) := by
  refine ⟨by rw [accumulateVectorMul, length_scanAcc, length_expressionVector]; simp, ?_⟩
  intro k hk
  rw [accumulateVectorMul, getD_scanAcc _ _ _ _ (by rw [length_expressionVector]; simpa using hk),
    take_expressionVector _ _ _ (by omega), foldl_mul_eq, prod_map_range]

example : accumulateVectorPlus (10 : ℚ) 3 (fun i => i) = [11, 13, 16] := by decide +kernel
example : accumulateVectorMul (10 : ℚ) 3 (fun i => i) = [10, 20, 60] := by decide +kernel

/-! ## C10 -/

/-- **C10.** With distinct indices in range, the dense vector has `n` entries: the listed values at
the listed indices, zero elsewhere. -/
theorem C10_dense (indices : List ℕ) (vals : List F) (n : ℕ) (hl : indices.length = vals.length)
    (hd : indices.Nodup) (hr : ∀ i ∈ indices, i < n) :
    ∃ l, sparseVector indices vals n = .ok l ∧ l.length = n ∧
      (∀ p ∈ indices.zip vals, l.getD p.1 0 = p.2) ∧ (∀ i, i ∉ indices → l.getD i 0 = 0) := by
  have hm : (indices.zip vals).map Prod.fst = indices := List.map_fst_zip (by omega)
  have hz : ∀ p ∈ indices.zip vals, p.1 ∈ indices := fun p hp =>
    hm ▸ List.mem_map.mpr ⟨p, hp, rfl⟩
  obtain ⟨l, h1, h2, h3, h4⟩ := sparseVector_fold (indices.zip vals) (List.replicate n 0)
    (fun p hp => by simpa using hr _ (hz p hp)) (by rw [hm]; exact hd)
  refine ⟨l, h1, by simpa using h2, h3, ?_⟩
  intro i hi
  rw [h4 i (fun p hp hc => hi (hc ▸ hz p hp))]
  by_cases h : i < n
  · rw [List.getD_eq_getElem _ _ (by simpa using h)]; simp
  · rw [List.getD_eq_default _ _ (by simpa using h)]

/-- **C10.** With distinct indices in range and `z ≠ 0`, evaluating the dense vector as a polynomial
gives the direct sparse evaluation the verifiers use. -/
theorem C10_agree (indices : List ℕ) (vals : List F) (n : ℕ) (hl : indices.length = vals.length)
    (hd : indices.Nodup) (hr : ∀ i ∈ indices, i < n) (z : F) (hz : z ≠ 0) :
    ∃ l, sparseVector indices vals n = .ok l ∧
      (polyOf l).eval z = evalSparseVector z indices vals := by
  have hm : (indices.zip vals).map Prod.fst = indices := List.map_fst_zip (by omega)
  obtain ⟨l, h1, h2, h3, h4⟩ := C10_dense indices vals n hl hd hr
  refine ⟨l, h1, ?_⟩
  rw [eval_polyOf, h2, sum_of_pairs (indices.zip vals) n (fun i => l.getD i 0) z]
  · rw [evalSparseVector]
    congr 1
    apply List.map_congr_left
    intro p _
    rw [power_natCast (Or.inr hz)]
  · intro p hp; exact hr _ (hm ▸ List.mem_map.mpr ⟨p, hp, rfl⟩)
  · rw [hm]; exact hd
  · exact h3
  · intro i hi
    apply h4
    intro hc
    rw [← hm] at hc
    obtain ⟨p, hp, hpi⟩ := List.mem_map.mp hc
    exact hi p hp hpi

example : (∃ l, sparseVector [2, 0] [5, (7 : ℚ)] 4 = .ok l ∧ l = [7, 0, 5, 0]) ∧
    evalSparseVector 3 [2, 0] [5, (7 : ℚ)] = 52 := by
  refine ⟨⟨_, rfl, ?_⟩, ?_⟩ <;> decide +kernel

/-- **C10.** Building the dense vector aborts exactly when a used index is out of range. -/
theorem C10_abort (indices : List ℕ) (vals : List F) (n : ℕ) :
    sparseVector indices vals n = .error .panic ↔ ∃ p ∈ indices.zip vals, n ≤ p.1 := by
  constructor
  · intro h
    by_contra hc
    push Not at hc
    obtain ⟨l, h1, -⟩ := sparseVector_ok_any (indices.zip vals) (List.replicate n (0 : F))
      (fun p hp => by simpa using hc p hp)
    have h' : sparseVector indices vals n = .ok l := h1
    rw [h'] at h; cases h
  · rintro ⟨p, hp, hn⟩
    exact sparseVector_panic (indices.zip vals) _ ⟨p, hp, by simpa using hn⟩

/-- **C10, deviation.** If an index is listed twice (first with a non-zero value), the dense vector
the prover builds and the sparse evaluation the verifier computes differ at every non-zero point. -/
theorem C10_duplicate_differs (i n : ℕ) (hi : i < n) (a b z : F) (ha : a ≠ 0) (hz : z ≠ 0) :
    ∃ l, sparseVector [i, i] [a, b] n = .ok l ∧
      (polyOf l).eval z ≠ evalSparseVector z [i, i] [a, b] := by
  refine ⟨(List.replicate n 0).set i b, ?_, ?_⟩
  · simp [sparseVector, hi]
  · have : (polyOf ((List.replicate n 0).set i b)).eval z = b * z ^ i := by
      rw [eval_polyOf]
      rw [Finset.sum_eq_single i]
      · rw [List.getD_eq_getElem _ _ (by simpa using hi)]; simp
      · intro j _ hj
        have : ((List.replicate n (0 : F)).set i b).getD j 0 = 0 := by
          simp [List.getD_eq_getElem?_getD, List.getElem?_set_ne (Ne.symm hj),
            List.getElem?_replicate]
          split_ifs <;> rfl
        rw [this, zero_mul]
      · intro h; simp at h; omega
    rw [this]
    simp only [evalSparseVector, List.zip_cons_cons, List.zip_nil_left, List.map_cons,
      List.map_nil, List.sum_cons, List.sum_nil, add_zero, power_natCast (Or.inr hz)]
    intro h
    have h2 : z ^ i * a = 0 := by linear_combination -h
    rcases mul_eq_zero.mp h2 with h3 | h3
    · exact pow_ne_zero _ hz h3
    · exact ha h3

/-! ## C12 -/

/-- **C12.** `evaluate_short` returns the polynomial value at every non-zero point. -/
theorem C12_short (x : F) (hx : x ≠ 0) (coeffs : List F) :
    evaluateShort x coeffs = (polyOf coeffs).eval x := by
  unfold evaluateShort
  have := eval_polyOf_zipIdx coeffs x 0
  rw [pow_zero, one_mul] at this
  rw [← this]
  have hg : ∀ (l : List (F × ℕ)) (y : F), l.foldl (fun y ci => y + ci.1 * power x ci.2) y
      = y + (l.map (fun p => p.1 * x ^ p.2)).sum := by
    intro l
    induction l with
    | nil => simp
    | cons p l ih =>
      intro y
      rw [List.foldl_cons, ih, List.map_cons, List.sum_cons, power_natCast (Or.inr hx)]; ring
  rw [hg, zero_add]

/-- **C12, deviation.** At the point 0 `evaluate_short` returns 0 whatever the constant term is. -/
theorem C12_short_zero (coeffs : List F) : evaluateShort (0 : F) coeffs = 0 := by
  unfold evaluateShort
  have : ∀ (l : List (F × ℕ)) (y : F), l.foldl (fun y ci => y + ci.1 * power 0 ci.2) y = y := by
    intro l
    induction l with
    | nil => intro y; rfl
    | cons p l ih => intro y; rw [List.foldl_cons, ih, power_zero_left]; ring
  exact this _ _

/-- **C12.** `evaluate_sparse` returns `Σ c_j x^{i_j}` at every non-zero point. -/
theorem C12_sparse (x : F) (hx : x ≠ 0) (coeffs : List F) (indices : List ℕ) :
    evaluateSparse x coeffs indices = ((coeffs.zip indices).map (fun p => p.1 * x ^ p.2)).sum := by
  unfold evaluateSparse
  have hg : ∀ (l : List (F × ℕ)) (y : F), l.foldl (fun y ci => y + ci.1 * power x ci.2) y
      = y + (l.map (fun p => p.1 * x ^ p.2)).sum := by
    intro l
    induction l with
    | nil => simp
    | cons p l ih =>
      intro y
      rw [List.foldl_cons, ih, List.map_cons, List.sum_cons, power_natCast (Or.inr hx)]; ring
  rw [hg, zero_add]

/-- **C12, deviation.** At the point 0 `evaluate_sparse` returns 0. -/
theorem C12_sparse_zero (coeffs : List F) (indices : List ℕ) :
    evaluateSparse (0 : F) coeffs indices = 0 := by
  unfold evaluateSparse
  have : ∀ (l : List (F × ℕ)) (y : F), l.foldl (fun y ci => y + ci.1 * power 0 ci.2) y = y := by
    intro l
    induction l with
    | nil => intro y; rfl
    | cons p l ih => intro y; rw [List.foldl_cons, ih, power_zero_left]; ring
  exact this _ _

/-- **C12.** `eval_vector_as_poly` returns the polynomial value at every point, 0 included. -/
theorem C12_vector (v : List F) (z : F) : evalVectorAsPoly v z = (polyOf v).eval z := by
  unfold evalVectorAsPoly
  rw [evalVectorExpression_eq, eval_polyOf]
  apply Finset.sum_congr rfl
  intro i hi
  rw [vectorIndex, if_pos (by have := Finset.mem_range.mp hi; omega)]
  simp

example : evaluateShort (2 : ℚ) [1, 2, 3] = 17 ∧ evaluateShort (0 : ℚ) [1, 2, 3] = 0 ∧
    evalVectorAsPoly ([1, 2, 3] : List ℚ) 0 = 1 := by decide +kernel

/-! ## C13 -/

/-- **C13.** Draining the iterator yields exactly the `stop - start` entries `start..stop` of the
shifted power vector, however many further items are requested. -/
theorem C13_power_iter (start stop : ℕ) (α : F) (hα : α ≠ 0) (length shifted : ℕ)
    (hs : start < stop) :
    ∃ it, powerIter start stop α length shifted = .ok it ∧
      ∀ fuel, stop - start ≤ fuel →
        it.collect fuel
          = (List.range (stop - start)).map (fun k => shiftedPower α length shifted (start + k)) := by
  refine ⟨_, if_neg (by omega), ?_⟩
  intro fuel hf
  exact powerIter_collect α hα start stop length shifted fuel start none hs hs.le hf (Or.inl rfl)

/-- **C13.** It aborts iff the range is empty. -/
theorem C13_abort (start stop : ℕ) (α : F) (length shifted : ℕ) :
    powerIter start stop α length shifted = .error .panic ↔ stop ≤ start := by
  unfold powerIter
  by_cases h : stop ≤ start <;> simp [h]

example : ∃ it, powerIter 1 7 (2 : ℚ) 3 2 = .ok it ∧ it.collect 10 = [0, 1, 2, 4, 0, 0] := by
  refine ⟨_, rfl, ?_⟩; decide +kernel

/-! ## C14 -/

/-- **C14.** Entry `i` of the inverse vector is the inverse of the expression, 0 where the
expression is 0. -/
theorem C14_expression_inverse (n : ℤ) (f : ℤ → F) (i : ℤ) (h1 : 1 ≤ i) (h2 : i ≤ n) :
    (f i ≠ 0 → vectorIndex (expressionVectorInverse n f) i * f i = 1) ∧
    (f i = 0 → vectorIndex (expressionVectorInverse n f) i = 0) := by
  have hget : vectorIndex (expressionVectorInverse n f) i = if f i = 0 then 0 else (f i)⁻¹ := by
    have hlen : (expressionVectorInverse n f).length = n.toNat := by
      simp [expressionVectorInverse, batchInversion, length_expressionVector]
    rw [vectorIndex, if_pos (by rw [hlen]; omega),
      List.getD_eq_getElem _ _ (by rw [hlen]; omega)]
    have : ((i.toNat - 1 : ℕ) : ℤ) + 1 = i := by omega
    simp [expressionVectorInverse, batchInversion, expressionVector, this]
  rw [hget]
  constructor
  · intro h; rw [if_neg h, inv_mul_cancel₀ h]
  · intro h; rw [if_pos h]

/-- **C14.** Entry `i` of the two-sided inverse vector is `1 / ((μ - u_i)(ν - w_i))`, 0 where this
product is 0. -/
theorem C14_uwinverse (μ ν : F) (u w : List F) (i : ℕ) (hu : i < u.length) (hw : i < w.length) :
    ((μ - u.getD i 0) * (ν - w.getD i 0) ≠ 0 →
      (uwinverseVector μ u ν w).getD i 0 * ((μ - u.getD i 0) * (ν - w.getD i 0)) = 1) ∧
    ((μ - u.getD i 0) * (ν - w.getD i 0) = 0 → (uwinverseVector μ u ν w).getD i 0 = 0) := by
  have hget : (uwinverseVector μ u ν w).getD i 0
      = if (μ - u.getD i 0) * (ν - w.getD i 0) = 0 then 0
        else ((μ - u.getD i 0) * (ν - w.getD i 0))⁻¹ := by
    rw [List.getD_eq_getElem _ _ (by simp [uwinverseVector, batchInversion, hu, hw]),
      List.getD_eq_getElem _ _ hu, List.getD_eq_getElem _ _ hw]
    simp [uwinverseVector, batchInversion]
  rw [hget]
  constructor
  · intro h; rw [if_neg h, inv_mul_cancel₀ h]
  · intro h; rw [if_pos h]

example : expressionVectorInverse 3 (fun i => (i : ℚ) - 2) = [-1, 0, 1] := by decide +kernel

/-! ## C15 -/

/-- **C15.** Zero padding keeps the vector, extends it with zeros to exactly `n` entries, and aborts
iff the vector is longer than `n`. -/
theorem C15_zero_pad (u : List F) (n : ℤ) :
    ((u.length : ℤ) ≤ n → ∃ v, zeroPad u n = .ok v ∧ (v.length : ℤ) = n ∧ v.take u.length = u ∧
      ∀ i, u.length ≤ i → v.getD i 0 = 0) ∧
    (n < u.length → zeroPad u n = .error .panic) := by
  constructor
  · intro h
    refine ⟨_, if_neg (by omega), ?_, ?_, ?_⟩
    · simp only [List.length_append, List.length_replicate]; omega
    · simp
    · intro i hi
      rw [List.getD_append_right _ _ _ _ hi, List.getD_eq_getElem?_getD, List.getElem?_replicate]
      split_ifs <;> rfl
  · intro h; rw [zeroPad, if_pos h]

/-- **C15.** `zero_pad_and_concat` puts the second vector right after the padding. -/
theorem C15_zero_pad_and_concat (u v : List F) (n : ℤ) (h : (u.length : ℤ) ≤ n) :
    ∃ p, zeroPad u n = .ok p ∧ zeroPadAndConcat u n v = .ok (p ++ v) := by
  refine ⟨_, if_neg (by omega), ?_⟩
  rw [zeroPadAndConcat, if_neg (by omega)]

/-- **C15.** `vector_index` is the 1-based entry inside the vector and 0 at every other integer. -/
theorem C15_vector_index (v : List F) (i : ℤ) :
    (∀ k (hk : k < v.length), i = (k : ℤ) + 1 → vectorIndex v i = v[k]) ∧
    (i < 1 ∨ (v.length : ℤ) < i → vectorIndex v i = 0) := by
  constructor
  · rintro k hk rfl
    rw [vectorIndex, if_pos (by omega), show ((k : ℤ) + 1 - 1).toNat = k by omega,
      List.getD_eq_getElem _ _ hk]
  · intro h; rw [vectorIndex, if_neg (by omega)]

example : zeroPad ([1, 2] : List ℚ) 4 = .ok [1, 2, 0, 0] ∧
    vectorIndex ([5, 6] : List ℚ) (-3) = 0 ∧ vectorIndex ([5, 6] : List ℚ) 2 = 6 := by
  decide +kernel

/-! ## C53 -/

/-- **C53.** `define_concat_subvec` returns the entries `a[ai..aj]` followed by `b[bi..bj]`, and
aborts iff a range is reversed. -/
theorem C53_concat_subvec (a b : List F) (ai aj bi bj : ℕ) :
    (ai ≤ aj → aj ≤ a.length → bi ≤ bj → bj ≤ b.length →
      ∃ r, concatSubvec a ai aj b bi bj = .ok r ∧ r.length = (aj - ai) + (bj - bi) ∧
        (∀ k, k < aj - ai → r.getD k 0 = a.getD (ai + k) 0) ∧
        (∀ k, k < bj - bi → r.getD (aj - ai + k) 0 = b.getD (bi + k) 0)) ∧
    (aj < ai ∨ bj < bi → concatSubvec a ai aj b bi bj = .error .panic) := by
  constructor
  · intro h1 h2 h3 h4
    have l1 : ((a.drop ai).take (aj - ai)).length = aj - ai := by simp; omega
    have l2 : ((b.drop bi).take (bj - bi)).length = bj - bi := by simp; omega
    refine ⟨_, by rw [concatSubvec, if_neg (by omega)], by rw [List.length_append, l1, l2], ?_, ?_⟩
    · intro k hk
      rw [List.getD_append _ _ _ _ (by omega), List.getD_eq_getElem _ _ (by omega),
        List.getD_eq_getElem _ _ (by omega), List.getElem_take, List.getElem_drop]
    · intro k hk
      rw [List.getD_append_right _ _ _ _ (by omega), l1, Nat.add_sub_cancel_left,
        List.getD_eq_getElem _ _ (by omega), List.getD_eq_getElem _ _ (by omega),
        List.getElem_take, List.getElem_drop]
  · intro h; rw [concatSubvec, if_pos h]

/-- **C53.** `define_hadamard_vector` multiplies entrywise, up to the shorter length. -/
theorem C53_hadamard_vector (u v : List F) :
    (hadamardVector u v).length = min u.length v.length ∧
    ∀ k, k < u.length → k < v.length → (hadamardVector u v).getD k 0 = u.getD k 0 * v.getD k 0 := by
  refine ⟨by simp [hadamardVector], ?_⟩
  intro k h1 h2
  rw [hadamardVector, List.getD_eq_getElem _ _ (by simp; omega), List.getD_eq_getElem _ _ h1,
    List.getD_eq_getElem _ _ h2]
  simp

/-- **C53.** `define_concat_neg_vector` appends the negated second vector. -/
theorem C53_concat_neg_vector (u v : List F) :
    (concatNegVector u v).length = u.length + v.length ∧
    (∀ k, k < u.length → (concatNegVector u v).getD k 0 = u.getD k 0) ∧
    (∀ k, k < v.length → (concatNegVector u v).getD (u.length + k) 0 = - v.getD k 0) := by
  refine ⟨by simp [concatNegVector], ?_, ?_⟩
  · intro k hk
    rw [concatNegVector, List.getD_append _ _ _ _ hk]
  · intro k hk
    rw [concatNegVector, List.getD_append_right _ _ _ _ (by omega), Nat.add_sub_cancel_left,
      List.getD_eq_getElem _ _ (by simpa using hk), List.getD_eq_getElem _ _ hk]
    simp

example : concatSubvec ([1, 2, 3, 4] : List ℚ) 1 3 [5, 6, 7] 0 2 = .ok [2, 3, 5, 6] ∧
    concatSubvec ([1, 2] : List ℚ) 1 0 [5] 0 1 = .error .panic ∧
    hadamardVector ([2, 3] : List ℚ) [5, 7] = [10, 21] ∧
    concatNegVector ([2] : List ℚ) [5, 7] = [2, -5, -7] := by decide +kernel

end VO
