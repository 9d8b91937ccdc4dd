import Mathlib.Data.Nat.Size
import Mathlib.Data.List.GetD
import Mathlib.Tactic.LinearCombination
import Mathlib.Algebra.Polynomial.Roots
import Verif.Model.PlonkUtil
import Verif.Props.CommitArith
import Verif.Props.PlonkCurve
import Verif.Model.PlonkWidgets

/-
C124: the combination of evaluations, commitments and polynomials by powers of a challenge.
C125: conversion of scalars between the embedded curve's scalar field and its base field.
-/

set_option linter.unusedSectionVars false

namespace VO

open Polynomial Spec VO.Plonk VO.Spec.Plonk

section Combination
variable {F G1 : Type} [Field F] [DecidableEq F] [AddCommGroup G1] [Module F G1]

theorem length_powersFrom (c p : F) (k : ℕ) : (powersFrom c p k).length = k := by
  induction k generalizing p with
  | zero => rfl
  | succ k ih => simp [powersFrom, ih]

/-- The values combined by the powers of a challenge. -/
theorem zip_powers_sum (c p : F) (l : List F) :
    (List.zipWith (fun eval power => eval * power) l (powersFrom c p l.length)).sum
      = ∑ i ∈ Finset.range l.length, p * c ^ i * l.getD i 0 := by
  induction l generalizing p with
  | nil => rfl
  | cons a l ih =>
    simp only [List.length_cons, powersFrom, List.zipWith_cons_cons, List.sum_cons, ih,
      Finset.sum_range_succ']
    simp only [List.getD_cons_succ, List.getD_cons_zero, pow_zero, mul_one]
    rw [add_comm, mul_comm a p]
    congr 1
    exact Finset.sum_congr rfl fun i _ => by rw [pow_succ]; ring

theorem msm_powersFrom (c p : F) (l : List G1) :
    msm l (powersFrom c p l.length)
      = ∑ i ∈ Finset.range l.length, (p * c ^ i) • l.getD i 0 := by
  induction l generalizing p with
  | nil => rfl
  | cons a l ih =>
    simp only [List.length_cons, powersFrom, msm_cons, ih, Finset.sum_range_succ']
    simp only [List.getD_cons_succ, List.getD_cons_zero, pow_zero, mul_one]
    rw [add_comm]
    congr 1
    exact Finset.sum_congr rfl fun i _ => by rw [pow_succ]; congr 1; ring

theorem aggregate_from (c p : F) (l : List (List F)) (acc : List F) :
    polyOf ((List.zipWith (fun c poly => polyScale poly c) (powersFrom c p l.length) l).foldl polyAdd
      acc) = polyOf acc + ∑ i ∈ Finset.range l.length, C (p * c ^ i) * polyOf (l.getD i []) := by
  induction l generalizing p acc with
  | nil => simp [powersFrom]
  | cons a l ih =>
    simp only [List.length_cons, powersFrom, List.zipWith_cons_cons, List.foldl_cons, ih,
      Finset.sum_range_succ']
    simp only [List.getD_cons_succ, List.getD_cons_zero, pow_zero, mul_one]
    rw [VO.polyOf_polyAdd, VO.polyOf_polyScale, add_assoc, add_comm (∑ i ∈ _, _), mul_comm (polyOf a)]
    congr 2
    exact Finset.sum_congr rfl fun i _ => by rw [pow_succ]; congr 2; ring

/-- `linear_combination` panics exactly when the two lists have different lengths, and otherwise returns
`(Σ cⁱ Cᵢ, Σ cⁱ eᵢ)`. -/
theorem C124_linear_combination (evals : List F) (comms : List G1) (c : F) :
    Plonk.linearCombination evals comms c = if evals.length = comms.length then
      .ok (∑ i ∈ Finset.range comms.length, c ^ i • comms.getD i 0,
        ∑ i ∈ Finset.range evals.length, c ^ i * evals.getD i 0)
      else .error .panic := by
  unfold Plonk.linearCombination assertR powersOf
  by_cases h : evals.length = comms.length
  · simp only [h, if_true]
    have h1 := zip_powers_sum c 1 evals
    have h2 := msm_powersFrom c 1 comms
    simp only [one_mul] at h1 h2
    rw [h] at h1
    rw [h1, h2]
    rfl
  · simp only [h, if_false]
    rfl

/-- `aggregate_polynomials` returns `Σ cⁱ pᵢ`, the zero polynomial for no polynomials. -/
theorem C124_aggregate (ps : List (List F)) (c : F) :
    polyOf (aggregatePolynomials ps c)
      = ∑ i ∈ Finset.range ps.length, C (c ^ i) * polyOf (ps.getD i []) := by
  have := aggregate_from c 1 ps []
  simpa [aggregatePolynomials, powersOf, polyOf] using this

/-- `lc` of `util.rs` gives the same combination; it panics for the challenges `0` and `1` and for no
values, where `linear_combination` does not. -/
theorem C124_lc (values : List F) (c : F) :
    lc values c = if c ≠ 0 ∧ c ≠ 1 ∧ values ≠ [] then
      .ok (∑ i ∈ Finset.range values.length, c ^ i * values.getD i 0) else .error .panic := by
  have key : ∀ (l : List F) (k : F), l.reverse.foldl (fun acc v => acc * c + v) k
      = (∑ i ∈ Finset.range l.length, c ^ i * l.getD i 0) + c ^ l.length * k := by
    intro l k
    rw [List.foldl_reverse]
    induction l with
    | nil => simp
    | cons a l ih =>
      simp only [List.foldr_cons, ih, List.length_cons, Finset.sum_range_succ', List.getD_cons_succ,
        List.getD_cons_zero, pow_zero, one_mul, add_mul, Finset.sum_mul]
      have : ∀ i ∈ Finset.range l.length, c ^ i * l.getD i 0 * c = c ^ (i + 1) * l.getD i 0 :=
        fun i _ => by rw [pow_succ]; ring
      rw [Finset.sum_congr rfl this]
      ring
  unfold lc assertR
  by_cases h0 : c = 0
  · simp [h0]; rfl
  by_cases h1 : c = 1
  · simp [h1]; rfl
  simp only [ne_eq, h0, h1, not_false_eq_true, if_true, true_and]
  show (match values.reverse with | [] => _ | k :: rest => _) = _
  rcases List.eq_nil_or_concat values with rfl | ⟨l, k, rfl⟩
  · simp
  · simp only [List.concat_eq_append, List.reverse_append, List.reverse_cons, List.reverse_nil,
      List.nil_append, List.singleton_append, key]
    simp only [List.append_eq_nil_iff, List.cons_ne_self, and_false, not_false_eq_true, if_true,
      List.length_append, List.length_singleton, Finset.sum_range_succ]
    congr 2
    · refine Finset.sum_congr rfl fun i hi => ?_
      rw [List.getD_append _ _ _ _ (Finset.mem_range.1 hi)]
    · rw [List.getD_append_right _ _ _ _ (le_refl _)]
      simp

theorem polyFromVec_idem (v : List F) : polyFromVec (polyFromVec v) = polyFromVec v := by
  unfold polyFromVec
  rw [List.reverse_reverse]
  congr 1
  have : ∀ l : List F, (l.dropWhile (fun a => a = 0)).dropWhile (fun a => a = 0)
      = l.dropWhile (fun a => a = 0) := by
    intro l
    induction l with
    | nil => rfl
    | cons a l ih =>
      by_cases h : a = 0
      · simp [List.dropWhile_cons, h, ih]
      · simp [List.dropWhile_cons, h]
  exact this _

theorem foldl_polyAdd_norm (l : List (List F)) (acc : List F) (h : polyFromVec acc = acc) :
    polyFromVec (l.foldl polyAdd acc) = l.foldl polyAdd acc := by
  induction l generalizing acc with
  | nil => exact h
  | cons a l ih =>
    refine ih _ ?_
    unfold polyAdd
    exact polyFromVec_idem _

theorem getD_map_zero {α β : Type} (f : α → β) (l : List α) (a : α) (b : β) {i : ℕ}
    (h : i < l.length) : (l.map f).getD i b = f (l.getD i a) := by
  rw [List.getD_eq_getElem _ _ (by simpa using h), List.getD_eq_getElem _ _ h, List.getElem_map]

/-- Batching is complete: from the commitments of polynomials and their values at a point,
`linear_combination` computes the commitment and the value of the aggregated polynomial. -/
theorem C124_batch_complete (β : F) (g : G1) (D : ℕ) (ps : List (List F)) (c z : F)
    (hfit : ∀ p ∈ ps, (polyOf p).natDegree ≤ D) :
    ∃ cms cm, ps.mapM (fun p => kzgCommit (srs β g D) (polyFromVec p)) = .ok cms ∧
      kzgCommit (srs β g D) (aggregatePolynomials ps c) = .ok cm ∧
      Plonk.linearCombination (ps.map (fun p => (polyOf p).eval z)) cms c
        = .ok (cm, (polyOf (aggregatePolynomials ps c)).eval z) := by
  have hnorm : polyFromVec (aggregatePolynomials ps c) = aggregatePolynomials ps c :=
    foldl_polyAdd_norm _ _ rfl
  have hdeg : (polyOf (aggregatePolynomials ps c)).natDegree ≤ D := by
    rw [C124_aggregate]
    refine natDegree_sum_le_of_forall_le _ _ fun i hi => ?_
    refine (natDegree_C_mul_le _ _).trans (hfit _ ?_)
    rw [List.getD_eq_getElem _ _ (Finset.mem_range.1 hi)]
    exact List.getElem_mem _
  refine ⟨_, (polyOf (aggregatePolynomials ps c)).eval β • g, commitAll β g D ps hfit, ?_, ?_⟩
  · have := (C18_commit β g D _).1 hdeg
    rwa [hnorm] at this
  · rw [C124_linear_combination, if_pos (by simp)]
    simp only [List.length_map]
    congr 2
    · rw [C124_aggregate, eval_finsetSum, Finset.sum_smul]
      refine Finset.sum_congr rfl fun i hi => ?_
      rw [getD_map_zero _ _ [] _ (Finset.mem_range.1 hi), eval_mul, eval_C, mul_smul]
    · rw [C124_aggregate, eval_finsetSum]
      refine Finset.sum_congr rfl fun i hi => ?_
      rw [getD_map_zero _ _ [] _ (Finset.mem_range.1 hi), eval_mul, eval_C]

/-- Batching is sound: if some claimed value is wrong, then all but fewer than `n` challenges combine
the claimed values to something other than the value of the aggregated polynomial. -/
theorem C124_batch_sound (ps : List (List F)) (evals : List F) (z : F) (h : evals.length = ps.length)
    (hbad : evals ≠ ps.map (fun p => (polyOf p).eval z)) (comms : List G1)
    (hl : comms.length = ps.length) (S : Finset F)
    (hS : ∀ c ∈ S, ∃ cm, Plonk.linearCombination evals comms c
      = .ok (cm, (polyOf (aggregatePolynomials ps c)).eval z)) :
    S.card < ps.length := by
  set P : F[X] := ∑ i ∈ Finset.range ps.length,
    C (evals.getD i 0 - (polyOf (ps.getD i [])).eval z) * X ^ i with hP
  have hcoef : ∀ j < ps.length, P.coeff j = evals.getD j 0 - (polyOf (ps.getD j [])).eval z := by
    intro j hj
    rw [hP, finsetSum_coeff]
    simp only [coeff_C_mul, coeff_X_pow]
    rw [Finset.sum_eq_single j]
    · simp
    · intro b _ hb; simp [Ne.symm hb]
    · intro hb; exact absurd (Finset.mem_range.2 hj) hb
  have hP0 : P ≠ 0 := by
    intro h0
    refine hbad (List.ext_getElem (by simpa using h) fun j h1 h2 => ?_)
    have hj : j < ps.length := by omega
    have := hcoef j hj
    rw [h0, coeff_zero, List.getD_eq_getElem _ _ h1, List.getD_eq_getElem _ _ hj] at this
    rw [List.getElem_map]
    linear_combination -this
  have hpos : 0 < ps.length := by
    rcases Nat.eq_zero_or_pos ps.length with h0 | h0
    · rw [h0] at hP
      exact absurd (by simpa using hP) hP0
    · exact h0
  have hdeg : P.natDegree < ps.length := by
    have : P.natDegree ≤ ps.length - 1 := by
      refine natDegree_sum_le_of_forall_le _ _ fun i hi => ?_
      refine (natDegree_C_mul_X_pow_le _ _).trans ?_
      have := Finset.mem_range.1 hi
      omega
    omega
  refine lt_of_le_of_lt ?_ hdeg
  refine (Finset.card_le_card (t := P.roots.toFinset) fun c hc => ?_).trans
    ((Multiset.toFinset_card_le _).trans (card_roots' P))
  rw [Multiset.mem_toFinset, mem_roots hP0, IsRoot.def]
  obtain ⟨cm, h1⟩ := hS c hc
  rw [C124_linear_combination, if_pos (h.trans hl.symm)] at h1
  have h2 := (Prod.mk.inj (Except.ok.inj h1)).2
  rw [C124_aggregate, eval_finsetSum, h] at h2
  rw [hP, eval_finsetSum]
  simp only [eval_mul, eval_C, eval_pow, eval_X] at h2 ⊢
  rw [← sub_eq_zero, ← Finset.sum_sub_distrib] at h2
  refine Eq.trans ?_ h2
  exact Finset.sum_congr rfl fun i _ => by ring

/-- Three polynomials over a concrete field, combined by the challenge 5; and a wrong value, which only
the challenge 0 lets through. -/
example : ∃ cm, Plonk.linearCombination (F := K97) (G1 := K97) [3, 4, 5] [10, 20, 30] 5 = .ok (cm, 51) ∧
    Plonk.linearCombination (F := K97) (G1 := K97) [3, 4] [10] 5 = .error .panic := by
  refine ⟨84, ?_⟩
  decide +kernel

end Combination

section Embedded

/-- A prime field of `modulus` elements and its representation by integers, with a modulus that fits in
the limbs. -/
structure _root_.VO.Spec.Plonk.PrimeOk {K : Type} [Field K] (S : PrimeRep K) : Prop where
  cast : ∀ x, ((S.toNat x : ℕ) : K) = x
  lt : ∀ x, S.toNat x < S.modulus
  own : ∀ m < S.modulus, S.toNat ((m : ℕ) : K) = m
  fits : S.modulus < 2 ^ (64 * S.limbs)

theorem fromBitsLe_testBit (n x : ℕ) :
    fromBitsLe ((List.range n).map (fun i => x.testBit i)) = x % 2 ^ n := by
  induction n generalizing x with
  | zero => simp [fromBitsLe, Nat.mod_one]
  | succ n ih =>
    rw [List.range_succ_eq_map, List.map_cons, List.map_map, fromBitsLe]
    have : ((fun i => x.testBit i) ∘ Nat.succ) = (fun i => (x / 2).testBit i) := by
      funext i
      simp [Nat.testBit_succ]
    rw [this, ih, Nat.testBit_zero, pow_succ, mul_comm (2 ^ n) 2, Nat.mod_mul]
    rcases Nat.mod_two_eq_zero_or_one x with h | h <;> simp [h]

theorem ofBytesLe_limb (n x : ℕ) :
    ofBytesLe ((List.range n).map (fun i => x / 256 ^ i % 256)) = x % 256 ^ n := by
  induction n generalizing x with
  | zero => simp [ofBytesLe, Nat.mod_one]
  | succ n ih =>
    rw [List.range_succ_eq_map, List.map_cons, List.map_map, ofBytesLe]
    have : ((fun i => x / 256 ^ i % 256) ∘ Nat.succ) = (fun i => (x / 256) / 256 ^ i % 256) := by
      funext i
      simp [pow_succ, Nat.div_div_eq_div_mul, mul_comm]
    rw [this, ih, pow_succ, mul_comm (256 ^ n) 256, Nat.mod_mul]
    simp

theorem limbsOfBits_limbBits (a b x : ℕ) (ha : x < 2 ^ (64 * a)) (hb : x < 2 ^ (64 * b)) :
    limbsOfBits a (limbBits b x) = x := by
  unfold limbsOfBits limbBits
  rw [← List.map_take, List.take_range, fromBitsLe_testBit]
  refine Nat.mod_eq_of_lt ?_
  rcases le_total (64 * a) (64 * b) with h | h
  · rw [min_eq_left h]; exact ha
  · rw [min_eq_right h]; exact hb

variable {K L : Type} [Field K] [Field L] {S : PrimeRep K} {T : PrimeRep L}

theorem convert_run (hS : PrimeOk S) (hT : PrimeOk T) (x : K) :
    convertScalar S T x = if S.toNat x < T.modulus then .ok ((S.toNat x : ℕ) : L) else .error .panic := by
  have hx : S.toNat x < 2 ^ (64 * S.limbs) := (hS.lt x).trans hS.fits
  have hbytes : ofBytesLe (limbBytes S.limbs (S.toNat x)) = S.toNat x := by
    unfold limbBytes
    rw [ofBytesLe_limb, Nat.mod_eq_of_lt]
    have : (256 : ℕ) ^ (8 * S.limbs) = 2 ^ (64 * S.limbs) := by
      rw [show (256 : ℕ) = 2 ^ 8 from rfl, ← pow_mul]
      congr 1
      ring
    rw [this]
    exact hx
  unfold convertScalar assertR numBitsOf
  simp only [hbytes]
  by_cases hb : (S.toNat x).size ≤ T.modulus.size
  · have h1 : S.toNat x < 2 ^ (64 * T.limbs) := by
      refine Nat.size_le.1 (hb.trans (Nat.size_le.2 hT.fits))
    rw [if_pos hb, limbsOfBits_limbBits _ _ _ h1 hx]
    split <;> rfl
  · have hlt : T.modulus < S.toNat x := by
      by_contra hc
      exact hb (Nat.size_le_size (not_lt.1 hc))
    rw [if_neg hb, limbsOfBits_limbBits _ _ _ (hlt.trans hx) hT.fits]
    split <;> rfl

/-- The conversion from the embedded curve's scalar field returns exactly when the integer of the scalar
is below the other modulus, and then keeps the integer; otherwise it panics. It never returns a reduced
value. -/
theorem C125_from_embedded (hS : PrimeOk S) (hT : PrimeOk T) (x : K) :
    (∃ y, fromEmbeddedCurveScalar S T x = .ok y ∧ T.toNat y = S.toNat x ∧ S.toNat x < T.modulus) ∨
      (fromEmbeddedCurveScalar S T x = .error .panic ∧ T.modulus ≤ S.toNat x) := by
  unfold fromEmbeddedCurveScalar
  rw [convert_run hS hT]
  split
  · next h => exact .inl ⟨_, rfl, hT.own _ h, h⟩
  · next h => exact .inr ⟨rfl, not_lt.1 h⟩

/-- The same for the conversion in the other direction. -/
theorem C125_to_embedded (hS : PrimeOk S) (hT : PrimeOk T) (y : L) :
    (∃ x, toEmbeddedCurveScalar S T y = .ok x ∧ S.toNat x = T.toNat y ∧ T.toNat y < S.modulus) ∨
      (toEmbeddedCurveScalar S T y = .error .panic ∧ S.modulus ≤ T.toNat y) := by
  unfold toEmbeddedCurveScalar
  rw [convert_run hT hS]
  split
  · next h => exact .inl ⟨_, rfl, hS.own _ h, h⟩
  · next h => exact .inr ⟨rfl, not_lt.1 h⟩

/-- A converted scalar converts back to itself, in both orders. -/
theorem C125_round_trip (hS : PrimeOk S) (hT : PrimeOk T) (x : K) (y : L) :
    fromEmbeddedCurveScalar S T x = .ok y ↔ toEmbeddedCurveScalar S T y = .ok x := by
  unfold toEmbeddedCurveScalar fromEmbeddedCurveScalar
  rw [convert_run hT hS, convert_run hS hT]
  constructor
  · intro h
    split at h
    · next h' =>
      have := Except.ok.inj h
      subst this
      rw [hT.own _ h', if_pos (hS.lt x), hS.cast]
    · cases h
  · intro h
    split at h
    · next h' =>
      have := Except.ok.inj h
      subst this
      rw [hS.own _ h', if_pos (hT.lt y), hT.cast]
    · cases h

/-- When the embedded curve has fewer points than the base field has elements, every embedded scalar
converts. -/
theorem C125_total (hS : PrimeOk S) (hT : PrimeOk T) (h : S.modulus ≤ T.modulus) (x : K) :
    ∃ y, fromEmbeddedCurveScalar S T x = .ok y ∧ T.toNat y = S.toNat x := by
  rcases C125_from_embedded hS hT x with ⟨y, h1, h2, -⟩ | ⟨-, h1⟩
  · exact ⟨y, h1, h2⟩
  · exact absurd (lt_of_lt_of_le (hS.lt x) h) (not_lt.2 h1)

/-! With the multiplication gadgets: a scalar of the embedded curve's field, converted and put into the
circuit, multiplies points by that scalar. -/

/-- The representation the composer uses of the base field. -/
def _root_.VO.Plonk.PrimeRep.fieldRep (T : PrimeRep L) : FieldRep L :=
  ⟨T.toNat, 64 * T.limbs, T.modulus.size⟩

theorem _root_.VO.Spec.Plonk.PrimeOk.repOk (hT : PrimeOk T) : RepOk T.fieldRep where
  cast := hT.cast
  lt x := (hT.lt x).trans (Nat.lt_size_self _)
  mod_le := Nat.size_le.2 hT.fits
  own m hm := by
    refine hT.own m (lt_of_lt_of_le hm ?_)
    by_contra hc
    have h1 := Nat.size_le.2 (not_le.1 hc)
    have h2 : 0 < T.modulus.size := by
      refine Nat.size_pos.2 ?_
      exact lt_of_le_of_lt (Nat.zero_le _) (hT.lt 0)
    show False
    change T.modulus.size ≤ T.modulus.size - 1 at h1
    omega

/-- `variable_base_scalar_mul` by a converted scalar `x` of the embedded curve's field: the gadget runs,
is satisfied, and its result is `x • g`. -/
theorem C125_variable_base [DecidableEq L] {E : EdCurve L} (hS : PrimeOk S) (hT : PrimeOk T)
    {G : Type} [AddCommGroup G] [Module K G] {pt : G → L × L} (hG : CurveGroup E G pt)
    (hchk : ∀ g, E.check (pt g) = true) {c : Composer L} (h : Reach T.fieldRep E c)
    (hs : OwnSat E c) {x : K} {y : L} (hxy : fromEmbeddedCurveScalar S T x = .ok y) {v : Var}
    {p : Point} (hv : v < c.variables.length) (hvy : ownV c v = y) (hpx : p.x < c.variables.length)
    (hpy : p.y < c.variables.length) {g : G} (hp : ptV (ownV c) p = pt g) :
    ∃ r c', variableBaseScalarMul T.fieldRep E v p c = .ok (r, c') ∧ OwnSat E c' ∧
      ptV (ownV c') r = pt (x • g) := by
  obtain ⟨r, c', h1, h2, h3⟩ := C97_own hG hchk hT.repOk h hs hv hpx hpy hp
  refine ⟨r, c', h1, h2, ?_⟩
  rw [h3, hvy]
  show pt (T.toNat y • g) = _
  rcases C125_from_embedded hS hT x with ⟨y', e1, e2, -⟩ | ⟨e1, -⟩
  · rw [hxy] at e1
    rw [Except.ok.inj e1, e2, ← Nat.cast_smul_eq_nsmul K, hS.cast]
  · rw [hxy] at e1; cases e1

/-- The same for `fixed_base_scalar_mul`, when it runs. -/
theorem C125_fixed_base [DecidableEq L] {E : EdCurve L} (hS : PrimeOk S) (hT : PrimeOk T)
    {G : Type} [AddCommGroup G] [Module K G] {pt : G → L × L} (hG : CurveGroup E G pt)
    {c c' : Composer L} (h : Reach T.fieldRep E c) {x : K} {y : L}
    (hxy : fromEmbeddedCurveScalar S T x = .ok y) {v : Var} (hvy : ownV c v = y) {r : Point} {g : G}
    (h1 : fixedBaseScalarMul T.fieldRep E v (pt g) c = .ok (r, c')) :
    ptV (ownV c') r = pt (x • g) := by
  rw [(C98_own hG hT.repOk h h1).1, hvy]
  show pt (T.toNat y • g) = _
  rcases C125_from_embedded hS hT x with ⟨y', e1, e2, -⟩ | ⟨e1, -⟩
  · rw [hxy] at e1
    rw [Except.ok.inj e1, e2, ← Nat.cast_smul_eq_nsmul K, hS.cast]
  · rw [hxy] at e1; cases e1

/-- The integers below a prime as a representation of its field. -/
def zmodRep (p limbs : ℕ) : PrimeRep (ZMod p) := ⟨ZMod.val, p, limbs⟩

theorem zmodOk (p limbs : ℕ) [Fact p.Prime] (h : p < 2 ^ (64 * limbs)) : PrimeOk (zmodRep p limbs) where
  cast x := ZMod.natCast_zmod_val x
  lt x := ZMod.val_lt x
  own m hm := ZMod.val_cast_of_lt hm
  fits := h

instance : Fact (Nat.Prime 13) := ⟨by norm_num⟩

/-- The hypotheses are met: the field of 13 elements is the scalar field of the curve over the field of
97 elements of the earlier examples. The other direction panics at 50. -/
example : (∃ y, fromEmbeddedCurveScalar (zmodRep 13 1) (zmodRep 97 4) 7 = .ok y ∧ y = 7) ∧
    toEmbeddedCurveScalar (zmodRep 13 1) (zmodRep 97 4) 50 = .error .panic ∧
    ∃ (c c' : Composer K97) (v : Var) (p r : Point), Reach (zmodRep 97 4).fieldRep E97 c ∧
      OwnSat E97 c' ∧ variableBaseScalarMul (zmodRep 97 4).fieldRep E97 v p c = .ok (r, c') ∧
      ptV (ownV c') r = pt97 ((7 : ZMod 13) • 2) := by
  have h13 := zmodOk 13 1 (by norm_num)
  have h97 := zmodOk 97 4 (by norm_num)
  have e1 : fromEmbeddedCurveScalar (zmodRep 13 1) (zmodRep 97 4) 7 = .ok 7 := by
    unfold fromEmbeddedCurveScalar
    rw [convert_run h13 h97]
    decide
  refine ⟨⟨7, e1, rfl⟩, ?_, ?_⟩
  · unfold toEmbeddedCurveScalar
    rw [convert_run h97 h13]
    decide
  · obtain ⟨c, p, q, s, h, hs, p1, p2, q1, q2, hx, vp, vq, vx⟩ :=
      points (zmodRep 97 4).fieldRep E97 (pt97 2) (pt97 5) 7
    obtain ⟨r, c', h1, h2, h3⟩ := C125_variable_base (G := ZMod 13) h13 h97 curveGroup97 check97 h hs e1
      hx vx p1 p2 vp
    exact ⟨c, c', s, p, r, h, h2, h1, h3⟩

end Embedded

end VO
