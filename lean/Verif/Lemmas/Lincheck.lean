import Verif.Lemmas.R1csSnarkComplete
import Verif.Lemmas.MatrixConcat
import Verif.Lemmas.Matrix

set_option linter.unusedSectionVars false

/-
Sums over the listed entries of a sparse matrix, shared by the R1CS and HPR arguments.
-/

namespace VO
open Spec
open Polynomial (X)

variable {F : Type} [Field F] [DecidableEq F]

/-- The sum over all listed entries of value times a function of the position. -/
def wsum (l : List ((ℕ × ℕ) × F)) (p : ℕ → ℕ → F) : F := (l.map (fun e => e.2 * p e.1.1 e.1.2)).sum

theorem wsum_cols (l : List ((ℕ × ℕ) × F)) (K : ℕ) (hr : ∀ e ∈ l, e.1.2 < K) (p : ℕ → ℕ → F) :
    ∑ k ∈ Finset.range K, ((l.filter (fun e => e.1.2 = k)).map (fun e => e.2 * p e.1.1 e.1.2)).sum
      = wsum l p := by
  induction l with
  | nil => simp [wsum]
  | cons e l ih =>
    have ih := ih (fun e he => hr e (List.mem_cons_of_mem _ he))
    have hk : ∀ k, (((e :: l).filter (fun e => e.1.2 = k)).map (fun e => e.2 * p e.1.1 e.1.2)).sum
        = (if k = e.1.2 then e.2 * p e.1.1 e.1.2 else 0)
          + ((l.filter (fun e => e.1.2 = k)).map (fun e => e.2 * p e.1.1 e.1.2)).sum := by
      intro k
      by_cases h : e.1.2 = k
      · rw [List.filter_cons_of_pos (by simpa using h), if_pos h.symm]; simp
      · rw [List.filter_cons_of_neg (by simpa using h), if_neg (fun h' => h h'.symm)]; simp
    simp only [hk, Finset.sum_add_distrib, ih, Finset.sum_ite_eq']
    rw [if_pos (Finset.mem_range.mpr (hr e (by simp)))]
    simp [wsum]

theorem wsum_rows (l : List ((ℕ × ℕ) × F)) (H : ℕ) (hr : ∀ e ∈ l, e.1.1 < H) (p : ℕ → ℕ → F) :
    ∑ k ∈ Finset.range H, ((l.filter (fun e => e.1.1 = k)).map (fun e => e.2 * p e.1.1 e.1.2)).sum
      = wsum l p := by
  induction l with
  | nil => simp [wsum]
  | cons e l ih =>
    have ih := ih (fun e he => hr e (List.mem_cons_of_mem _ he))
    have hk : ∀ k, (((e :: l).filter (fun e => e.1.1 = k)).map (fun e => e.2 * p e.1.1 e.1.2)).sum
        = (if k = e.1.1 then e.2 * p e.1.1 e.1.2 else 0)
          + ((l.filter (fun e => e.1.1 = k)).map (fun e => e.2 * p e.1.1 e.1.2)).sum := by
      intro k
      by_cases h : e.1.1 = k
      · rw [List.filter_cons_of_pos (by simpa using h), if_pos h.symm]; simp
      · rw [List.filter_cons_of_neg (by simpa using h), if_neg (fun h' => h h'.symm)]; simp
    simp only [hk, Finset.sum_add_distrib, ih, Finset.sum_ite_eq']
    rw [if_pos (Finset.mem_range.mpr (hr e (by simp)))]
    simp [wsum]

/-- The value of a matrix row on a vector, over the listed entries. -/
theorem rowVal_eq (l : List ((ℕ × ℕ) × F)) (K : ℕ) (hr : ∀ e ∈ l, e.1.2 < K) (z : ℕ → F) (i : ℕ) :
    ∑ j ∈ Finset.range K, entryOf l i j * z j
      = ((l.filter (fun e => e.1.1 = i)).map (fun e => e.2 * z e.1.2)).sum := by
  induction l with
  | nil => simp [entryOf]
  | cons e l ih =>
    have ih := ih (fun e he => hr e (List.mem_cons_of_mem _ he))
    have hk : ∀ j, entryOf (e :: l) i j = (if e.1.1 = i then if j = e.1.2 then e.2 else 0 else 0)
        + entryOf l i j := by
      intro j
      unfold entryOf
      by_cases h1 : e.1.1 = i
      · by_cases h2 : e.1.2 = j
        · rw [List.filter_cons_of_pos (by simp [h1, h2]), if_pos h1, if_pos h2.symm]; simp
        · rw [List.filter_cons_of_neg (by simp [h2]), if_pos h1, if_neg (fun h => h2 h.symm)]; simp
      · rw [List.filter_cons_of_neg (by simp [h1]), if_neg h1]; simp
    simp only [hk, add_mul, Finset.sum_add_distrib, ih]
    by_cases h1 : e.1.1 = i
    · simp only [if_pos h1, ite_mul, zero_mul, Finset.sum_ite_eq']
      rw [if_pos (Finset.mem_range.mpr (hr e (by simp))), List.filter_cons_of_pos (by simpa using h1)]
      simp
    · simp only [if_neg h1, zero_mul, Finset.sum_const_zero, zero_add]
      rw [List.filter_cons_of_neg (by simpa using h1)]

theorem colVal_eq (l : List ((ℕ × ℕ) × F)) (H : ℕ) (hr : ∀ e ∈ l, e.1.1 < H) (f : ℕ → F) (k : ℕ) :
    ∑ i ∈ Finset.range H, f i * entryOf l i k
      = ((l.filter (fun e => e.1.2 = k)).map (fun e => e.2 * f e.1.1)).sum := by
  induction l with
  | nil => simp [entryOf]
  | cons e l ih =>
    have ih := ih (fun e he => hr e (List.mem_cons_of_mem _ he))
    have hk : ∀ j, entryOf (e :: l) j k = (if e.1.2 = k then if j = e.1.1 then e.2 else 0 else 0)
        + entryOf l j k := by
      intro j
      unfold entryOf
      by_cases h1 : e.1.2 = k
      · by_cases h2 : e.1.1 = j
        · rw [List.filter_cons_of_pos (by simp [h1, h2]), if_pos h1, if_pos h2.symm]; simp
        · rw [List.filter_cons_of_neg (by simp [h2]), if_pos h1, if_neg (fun h => h2 h.symm)]; simp
      · rw [List.filter_cons_of_neg (by simp [h1]), if_neg h1]; simp
    simp only [hk, mul_add, Finset.sum_add_distrib, ih]
    by_cases h1 : e.1.2 = k
    · simp only [if_pos h1, mul_ite, mul_zero, Finset.sum_ite_eq']
      rw [if_pos (Finset.mem_range.mpr (hr e (by simp))), List.filter_cons_of_pos (by simpa using h1)]
      simp [mul_comm]
    · simp only [if_neg h1, mul_zero, Finset.sum_const_zero, zero_add]
      rw [List.filter_cons_of_neg (by simpa using h1)]

/-- `Σ_k z_k · colSum_k = Σ_i (M z)_i / (μ - γ^i)`. -/
theorem colSum_dot (γ μ : F) (l : List ((ℕ × ℕ) × F)) (H K : ℕ)
    (hr : ∀ e ∈ l, e.1.1 < H ∧ e.1.2 < K) (z : ℕ → F) :
    ∑ k ∈ Finset.range K, z k * colSum γ μ l k
      = ∑ i ∈ Finset.range H, (∑ j ∈ Finset.range K, entryOf l i j * z j) * (μ - γ ^ i)⁻¹ := by
  have h1 := wsum_cols l K (fun e he => (hr e he).2) (fun i k => (μ - γ ^ i)⁻¹ * z k)
  have h2 := wsum_rows l H (fun e he => (hr e he).1) (fun i k => (μ - γ ^ i)⁻¹ * z k)
  rw [← h2] at h1
  convert h1 using 1
  · apply Finset.sum_congr rfl
    intro k _
    rw [colSum, mul_comm, ← List.sum_map_mul_right]
    congr 1
    apply List.map_congr_left
    intro e he
    have : e.1.2 = k := by simpa using (List.mem_filter.mp he).2
    subst this; ring
  · apply Finset.sum_congr rfl
    intro i _
    rw [rowVal_eq l K (fun e he => (hr e he).2), ← List.sum_map_mul_right]
    congr 1
    apply List.map_congr_left
    intro e he
    have : e.1.1 = i := by simpa using (List.mem_filter.mp he).2
    subst this; ring

/-- `Σ_k colSum_k / (ν - γ^k) = Σ_e v_e / ((μ - γ^row)(ν - γ^col))`. -/
theorem colSum_inv (γ μ ν : F) (l : List ((ℕ × ℕ) × F)) (K : ℕ) (hr : ∀ e ∈ l, e.1.2 < K) :
    ∑ k ∈ Finset.range K, colSum γ μ l k * (ν - γ ^ k)⁻¹
      = (l.map (fun e => e.2 * ((μ - γ ^ e.1.1) * (ν - γ ^ e.1.2))⁻¹)).sum := by
  have h1 := wsum_cols l K hr (fun i k => ((μ - γ ^ i) * (ν - γ ^ k))⁻¹)
  rw [wsum] at h1
  rw [← h1]
  apply Finset.sum_congr rfl
  intro k _
  rw [colSum, ← List.sum_map_mul_right]
  congr 1
  apply List.map_congr_left
  intro e he
  have : e.1.2 = k := by simpa using (List.mem_filter.mp he).2
  subst this
  rw [mul_inv]; ring

theorem sum_range_map (l : List F) : l.sum = ∑ i ∈ Finset.range l.length, l.getD i 0 := by
  induction l with
  | nil => simp
  | cons a l ih =>
    rw [List.sum_cons, List.length_cons, Finset.sum_range_succ', ih, add_comm]
    simp

end VO
