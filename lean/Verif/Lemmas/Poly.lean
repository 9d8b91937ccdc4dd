import Mathlib.Algebra.Polynomial.Eval.Degree
import Mathlib.Algebra.Polynomial.Degree.Lemmas
import Mathlib.Data.List.GetD
import Mathlib.Data.List.TakeWhile
import Mathlib.Tactic.Ring
import Mathlib.Tactic.Linarith
import Verif.Model.Tools
import Verif.Spec.Poly

set_option linter.unusedSectionVars false

namespace VO
open Polynomial Spec

section semiring
variable {F : Type} [CommRing F]

@[simp] theorem polyOf_nil : polyOf ([] : List F) = 0 := by simp [polyOf]

theorem coeff_polyOf (v : List F) (i : ℕ) : (polyOf v).coeff i = v.getD i 0 := by
  simp only [polyOf, finsetSum_coeff, coeff_C_mul, coeff_X_pow]
  rw [Finset.sum_congr rfl (g := fun j => if i = j then v.getD j 0 else 0)]
  · rw [Finset.sum_ite_eq]
    split_ifs with h
    · rfl
    · rw [List.getD_eq_default]; simpa using h
  · intro j _; split_ifs <;> simp

theorem polyOf_cons (a : F) (l : List F) : polyOf (a :: l) = C a + X * polyOf l := by
  ext i
  cases i with
  | zero => simp [coeff_polyOf]
  | succ i => simp [coeff_polyOf, coeff_X_mul]

theorem polyOf_append (l m : List F) : polyOf (l ++ m) = polyOf l + X ^ l.length * polyOf m := by
  induction l with
  | nil => simp
  | cons a l ih => simp only [List.cons_append, polyOf_cons, ih, List.length_cons]; ring

@[simp] theorem polyOf_replicate_zero (n : ℕ) : polyOf (List.replicate n (0 : F)) = 0 := by
  induction n with
  | zero => simp
  | succ n ih => simp [List.replicate_succ, polyOf_cons, ih]

theorem polyOf_map_mul (a : F) (l : List F) : polyOf (l.map (a * ·)) = C a * polyOf l := by
  induction l with
  | nil => simp
  | cons b l ih => simp only [List.map_cons, polyOf_cons, ih, C_mul]; ring

theorem polyOf_map_mul_right (a : F) (l : List F) : polyOf (l.map (· * a)) = polyOf l * C a := by
  induction l with
  | nil => simp
  | cons b l ih => simp only [List.map_cons, polyOf_cons, ih, C_mul]; ring

theorem polyOf_ext_length {u v : List F} (hl : u.length = v.length) (h : polyOf u = polyOf v) :
    u = v := by
  apply List.ext_getElem hl
  intro i h1 h2
  have := congrArg (fun p => p.coeff i) h
  simp only [coeff_polyOf] at this
  rwa [List.getD_eq_getElem _ _ h1, List.getD_eq_getElem _ _ h2] at this

theorem degree_polyOf_lt (v : List F) : (polyOf v).degree < v.length := by
  rw [degree_lt_iff_coeff_zero]
  intro m hm
  rw [coeff_polyOf, List.getD_eq_default _ _ hm]

theorem natDegree_polyOf_lt (v : List F) (hv : v ≠ []) : (polyOf v).natDegree < v.length := by
  have hpos : 0 < v.length := List.length_pos_of_ne_nil hv
  have : (polyOf v).natDegree ≤ v.length - 1 := by
    rw [natDegree_le_iff_coeff_eq_zero]
    intro N hN
    rw [coeff_polyOf, List.getD_eq_default]; omega
  omega

theorem polyOf_map_neg (l : List F) : polyOf (l.map (fun a => -a)) = - polyOf l := by
  induction l with
  | nil => simp
  | cons b l ih => simp only [List.map_cons, polyOf_cons, ih, C_neg]; ring

end semiring

section field
variable {F : Type} [Field F] [DecidableEq F]

theorem polyEval_eq (p : List F) (z : F) : polyEval p z = (polyOf p).eval z := by
  induction p with
  | nil => simp [polyEval]
  | cons a l ih =>
    have : polyEval (a :: l) z = a + z * polyEval l z := rfl
    rw [this, ih, polyOf_cons]; simp

theorem polyOf_addLists (p q : List F) : polyOf (addLists p q) = polyOf p + polyOf q := by
  induction p generalizing q with
  | nil => simp [addLists]
  | cons a l ih =>
    cases q with
    | nil => simp [addLists]
    | cons b m => simp only [addLists, polyOf_cons, ih, C_add]; ring

theorem length_addLists (p q : List F) : (addLists p q).length = max p.length q.length := by
  induction p generalizing q with
  | nil => simp [addLists]
  | cons a l ih =>
    cases q with
    | nil => simp [addLists]
    | cons b m => simp only [addLists, List.length_cons, ih]; omega

theorem polyOf_mulLists (p q : List F) : polyOf (mulLists p q) = polyOf p * polyOf q := by
  induction p with
  | nil => simp [mulLists]
  | cons a l ih =>
    simp only [mulLists, polyOf_addLists, polyOf_cons, ih, polyOf_map_mul, C_0]; ring

theorem polyFromVec_append_zeros (v : List F) :
    ∃ k, v = polyFromVec v ++ List.replicate k 0 := by
  unfold polyFromVec
  have h := List.takeWhile_append_dropWhile (p := fun a : F => decide (a = 0)) (l := v.reverse)
  refine ⟨(v.reverse.takeWhile (fun a => decide (a = 0))).length, ?_⟩
  have hz : v.reverse.takeWhile (fun a => decide (a = 0))
      = List.replicate (v.reverse.takeWhile (fun a => decide (a = 0))).length 0 := by
    rw [List.eq_replicate_iff]
    refine ⟨rfl, fun b hb => ?_⟩
    have := List.mem_takeWhile_imp hb
    simpa using this
  have h2 := congrArg List.reverse h
  rw [List.reverse_append, List.reverse_reverse] at h2
  conv_lhs => rw [← h2]
  congr 1
  rw [hz, List.reverse_replicate]; simp

theorem polyOf_polyFromVec (v : List F) : polyOf (polyFromVec v) = polyOf v := by
  obtain ⟨k, hk⟩ := polyFromVec_append_zeros v
  conv_rhs => rw [hk]
  rw [polyOf_append]; simp

theorem length_polyFromVec_le (v : List F) : (polyFromVec v).length ≤ v.length := by
  obtain ⟨k, hk⟩ := polyFromVec_append_zeros v
  conv_rhs => rw [hk]
  simp

/-- A coefficient list is trimmed when its last entry is not zero. -/
def Trimmed (p : List F) : Prop := ∀ h : p ≠ [], p.getLast h ≠ 0

theorem trimmed_polyFromVec (v : List F) : Trimmed (polyFromVec v) := by
  intro h
  unfold polyFromVec at h ⊢
  rw [List.getLast_reverse]
  have h' : v.reverse.dropWhile (fun a => decide (a = 0)) ≠ [] := by
    intro hc; apply h; rw [hc]; rfl
  have := List.head_dropWhile_not (fun a : F => decide (a = 0)) (l := v.reverse) h'
  simpa using this

theorem Trimmed.natDegree {p : List F} (hp : Trimmed p) : (polyOf p).natDegree = p.length - 1 := by
  by_cases h : p = []
  · subst h; simp
  · apply le_antisymm
    · have := natDegree_polyOf_lt p h; omega
    · apply le_natDegree_of_ne_zero
      rw [coeff_polyOf]
      have hl := hp h
      rw [List.getLast_eq_getElem] at hl
      rw [List.getD_eq_getElem]
      exact hl

theorem Trimmed.eq_nil_iff {p : List F} (hp : Trimmed p) : p = [] ↔ polyOf p = 0 := by
  constructor
  · rintro rfl; simp
  · intro h
    by_contra hne
    have hl := hp hne
    rw [List.getLast_eq_getElem] at hl
    apply hl
    have := congrArg (fun q => q.coeff (p.length - 1)) h
    simp only [coeff_polyOf, coeff_zero] at this
    rwa [List.getD_eq_getElem] at this

theorem Trimmed.ext {p q : List F} (hp : Trimmed p) (hq : Trimmed q) (h : polyOf p = polyOf q) :
    p = q := by
  by_cases h0 : p = []
  · subst h0
    rw [polyOf_nil] at h
    exact (hq.eq_nil_iff.2 h.symm).symm
  · have h1 : q ≠ [] := fun hc => h0 (hp.eq_nil_iff.2 (by rw [h, hc, polyOf_nil]))
    apply polyOf_ext_length _ h
    have a := hp.natDegree
    have b := hq.natDegree
    rw [h] at a
    have := List.length_pos_of_ne_nil h0
    have := List.length_pos_of_ne_nil h1
    omega

theorem polyDegree_polyFromVec (v : List F) :
    polyDegree (polyFromVec v) = (polyOf v).natDegree := by
  rw [← polyOf_polyFromVec v, (trimmed_polyFromVec v).natDegree]; rfl

theorem polyFromVec_eq_iff {u v : List F} : polyFromVec u = polyFromVec v ↔ polyOf u = polyOf v := by
  constructor
  · intro h; rw [← polyOf_polyFromVec u, h, polyOf_polyFromVec]
  · intro h
    apply (trimmed_polyFromVec u).ext (trimmed_polyFromVec v)
    rw [polyOf_polyFromVec, polyOf_polyFromVec, h]

theorem Trimmed.polyFromVec_eq {p : List F} (hp : Trimmed p) : polyFromVec p = p :=
  (trimmed_polyFromVec p).ext hp (polyOf_polyFromVec p)

/-! ### vector_index and friends -/

theorem vectorIndex_eq (v : List F) (i : ℤ) :
    vectorIndex v i = if 1 ≤ i then (polyOf v).coeff (i - 1).toNat else 0 := by
  unfold vectorIndex
  rw [coeff_polyOf]
  by_cases h1 : 1 ≤ i
  · by_cases h2 : i ≤ v.length
    · simp [h1, h2]
    · rw [if_neg (by tauto), if_pos h1, List.getD_eq_default]; omega
  · simp [h1]

theorem length_expressionVector (n : ℤ) (f : ℤ → F) : (expressionVector n f).length = n.toNat := by
  simp [expressionVector]

theorem getD_expressionVector (n : ℤ) (f : ℤ → F) (i : ℕ) :
    (expressionVector n f).getD i 0 = if (i : ℤ) < n then f (i + 1) else 0 := by
  split_ifs with h
  · rw [List.getD_eq_getElem]
    · simp [expressionVector]
    · rw [length_expressionVector]; omega
  · rw [List.getD_eq_default]; rw [length_expressionVector]; omega

theorem vectorIndex_expressionVector (n : ℤ) (f : ℤ → F) (i : ℤ) :
    vectorIndex (expressionVector n f) i = if 1 ≤ i ∧ i ≤ n then f i else 0 := by
  unfold vectorIndex
  rw [length_expressionVector, getD_expressionVector]
  by_cases h1 : 1 ≤ i
  · by_cases h2 : i ≤ n
    · rw [if_pos ⟨h1, by omega⟩, if_pos (by omega), if_pos ⟨h1, h2⟩]
      congr 1; omega
    · rw [if_neg (by omega), if_neg (by omega)]
  · rw [if_neg (by tauto), if_neg (by tauto)]

/-! ### Reversal with powers of omega -/

theorem vectorReverseOmega_fold (v : List F) (omega : F) (acc : List F) (c : F) :
    (v.foldl (fun (s : List F × F) c => (s.1 ++ [c * s.2], s.2 * omega)) (acc, c)).1
      = acc ++ v.zipIdx.map (fun p => p.1 * (c * omega ^ p.2)) := by
  induction v generalizing acc c with
  | nil => simp
  | cons a l ih =>
    simp only [List.foldl_cons, ih, List.zipIdx_cons, List.map_cons, List.append_assoc,
      List.singleton_append]
    congr 2
    · simp
    · rw [List.zipIdx_succ, List.map_map]
      apply List.map_congr_left
      intro p _
      simp only [Function.comp, pow_succ]; ring

theorem vectorReverseOmega_eq (v : List F) (omega : F) :
    vectorReverseOmega v omega = (v.zipIdx.map (fun p => p.1 * omega ^ p.2)).reverse := by
  unfold vectorReverseOmega
  rw [vectorReverseOmega_fold]; simp

@[simp] theorem length_vectorReverseOmega (v : List F) (omega : F) :
    (vectorReverseOmega v omega).length = v.length := by
  rw [vectorReverseOmega_eq]; simp

theorem getD_vectorReverseOmega (v : List F) (omega : F) (i : ℕ) (h : i < v.length) :
    (vectorReverseOmega v omega).getD i 0
      = v.getD (v.length - 1 - i) 0 * omega ^ (v.length - 1 - i) := by
  rw [vectorReverseOmega_eq, List.getD_eq_getElem _ _ (by simpa using h)]
  rw [List.getElem_reverse]
  simp only [List.getElem_map, List.getElem_zipIdx, List.length_map, List.length_zipIdx, Nat.zero_add]
  rw [List.getD_eq_getElem _ _ (by omega)]

end field
end VO
