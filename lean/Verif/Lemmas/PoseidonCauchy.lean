import Mathlib.Algebra.Polynomial.Roots
import Mathlib.Algebra.Polynomial.BigOperators
import Mathlib.Tactic.LinearCombination
import Mathlib.Tactic.FieldSimp
import Verif.Lemmas.PoseidonMds

/-
The Cauchy matrix of `generate_mds`, `/repo/plonk-hashing/src/poseidon/mds.rs`.
-/

set_option linter.unusedSectionVars false

namespace VO.Poseidon

open VO.Spec.Poseidon Matrix Polynomial

variable {F : Type} [Field F] [DecidableEq F]

/-- A Cauchy matrix is regular. -/
theorem cauchy_det {k : ℕ} (x y : Fin k → F) (hx : Function.Injective x) (hy : Function.Injective y)
    (h : ∀ i j, x i + y j ≠ 0) : (Matrix.of fun i j => (x i + y j)⁻¹).det ≠ 0 := by
  intro hd
  obtain ⟨c, hc, hz⟩ := Matrix.exists_mulVec_eq_zero_iff.2 hd
  let p : F[X] := ∑ j, C (c j) * ∏ l ∈ Finset.univ.erase j, (X + C (y l))
  have hk : 0 < k := by
    rcases Nat.eq_zero_or_pos k with rfl | h
    · exact absurd (Subsingleton.elim c 0) hc
    · exact h
  have hdeg : p.natDegree < Fintype.card (Fin k) := by
    rw [Fintype.card_fin]
    have : p.natDegree ≤ k - 1 := by
      refine natDegree_sum_le_of_forall_le _ _ fun j _ => ?_
      refine (natDegree_C_mul_le _ _).trans ?_
      refine (natDegree_prod_le _ _).trans ?_
      refine (Finset.sum_le_card_nsmul _ _ 1 fun l _ => ?_).trans ?_
      · simp
      · simp [Finset.card_erase_of_mem]
    omega
  have hev : ∀ i, p.eval (x i) = 0 := by
    intro i
    have hi := congrFun hz i
    simp only [Matrix.mulVec, dotProduct, Matrix.of_apply, Pi.zero_apply] at hi
    have : p.eval (x i) = (∏ l, (x i + y l)) * ∑ j, (x i + y j)⁻¹ * c j := by
      simp only [p, eval_finsetSum, eval_mul, eval_C, eval_prod, eval_add, eval_X]
      rw [Finset.mul_sum]
      refine Finset.sum_congr rfl fun j _ => ?_
      rw [← Finset.mul_prod_erase Finset.univ _ (Finset.mem_univ j)]
      have := h i j
      field_simp
    rw [this, hi, mul_zero]
  have hp : p = 0 := eq_zero_of_natDegree_lt_card_of_eval_eq_zero p hx hev hdeg
  apply hc
  funext j
  have h0 : p.eval (-y j) = 0 := by rw [hp, eval_zero]
  simp only [p, eval_finsetSum, eval_mul, eval_C, eval_prod, eval_add, eval_X] at h0
  rw [Finset.sum_eq_single j] at h0
  · rcases mul_eq_zero.1 h0 with h1 | h1
    · exact h1
    · obtain ⟨l, hl, h2⟩ := Finset.prod_eq_zero_iff.1 h1
      have : y l = y j := by linear_combination h2
      exact absurd (hy this) (Finset.ne_of_mem_erase hl)
  · intro b _ hb
    rw [Finset.prod_eq_zero (i := j) (Finset.mem_erase.2 ⟨hb.symm, Finset.mem_univ _⟩) (by ring), mul_zero]
  · intro h
    exact absurd (Finset.mem_univ _) h

/-- The matrix of `generate_mds`. -/
def cauchyM (F : Type) [Field F] (t : ℕ) : Matrix (Fin t) (Fin t) F :=
  fun i j => ((i.1 + j.1 + t : ℕ) : F)⁻¹

theorem noWrap_inj {t : ℕ} (h : NoWrap F t) : Function.Injective fun i : Fin t => ((i.1 : ℕ) : F) := by
  have key : ∀ a b : ℕ, a < b → b < t → ((a : ℕ) : F) = ((b : ℕ) : F) → False := by
    intro a b hab hbt he
    have h0 : ((b - a : ℕ) : F) = 0 := by
      rw [Nat.cast_sub hab.le, he, sub_self]
    let d := b - a
    have hd : 0 < d := Nat.sub_pos_of_lt hab
    have hm : (((t + d - 1) / d * d : ℕ) : F) = 0 := by
      rw [Nat.cast_mul]
      show _ * ((b - a : ℕ) : F) = 0
      rw [h0, mul_zero]
    have h1 := Nat.div_add_mod (t + d - 1) d
    have h2 := Nat.mod_lt (t + d - 1) hd
    rw [Nat.mul_comm] at h1
    refine h _ ?_ ?_ hm
    · omega
    · have : d < t := by omega
      omega
  intro a b hab
  simp only at hab
  rcases Nat.lt_trichotomy a.1 b.1 with hl | he | hl
  · exact (key _ _ hl b.2 hab).elim
  · exact Fin.ext he
  · exact (key _ _ hl a.2 hab.symm).elim

theorem cauchyM_mds {t : ℕ} (h : NoWrap F t) : IsMds (cauchyM F t) := by
  intro k r c hr hc
  have hinj := noWrap_inj h
  have := cauchy_det (fun i => (((r i).1 : ℕ) : F)) (fun j => (((c j).1 : ℕ) : F) + (t : F))
    (fun a b hab => hr (hinj hab)) (fun a b hab => hc (hinj (by simpa using hab))) (by
      intro i j
      have := h ((r i).1 + (c j).1 + t) (by omega) (by omega)
      push_cast at this
      rwa [add_assoc] at this)
  convert this using 2
  ext i j
  simp only [Matrix.submatrix_apply, cauchyM, Matrix.of_apply]
  push_cast
  rw [add_assoc]

theorem cauchyM_symm (t : ℕ) : (cauchyM F t).IsSymm := by
  ext i j
  simp only [Matrix.transpose_apply, cauchyM, Nat.add_comm i.1 j.1]

theorem isMds_det {n : ℕ} {M : Matrix (Fin n) (Fin n) F} (h : IsMds M) : M.det ≠ 0 := by
  have := h n id id Function.injective_id Function.injective_id
  simpa using this

theorem isMds_hat {n : ℕ} {M : Matrix (Fin (n + 1)) (Fin (n + 1)) F} (h : IsMds M) : (hat M).det ≠ 0 :=
  h n Fin.succ Fin.succ (Fin.succ_injective n) (Fin.succ_injective n)

theorem isInvertible_rows {n : ℕ} (hn : 0 < n) (A : Matrix (Fin n) (Fin n) F) :
    isInvertible (rows A) = .ok (decide (A.det ≠ 0)) := by
  unfold isInvertible
  rw [isSquare_rows, ok_bind]
  simp only [if_true]
  rw [invert_rows hn, ok_bind]
  by_cases h : A.det = 0 <;> simp [h, pure, Except.pure]

theorem mapM_fail {α β : Type} (f : α → Res β) : ∀ (l : List α) (x : α), x ∈ l → f x = .error .panic →
    (∀ y ∈ l, f y = .error .panic ∨ ∃ z, f y = .ok z) → l.mapM f = .error .panic
  | [], _, h, _, _ => by cases h
  | y :: l, x, hm, hx, hall => by
    rw [List.mapM_cons]
    rcases hall y (by simp) with h | ⟨z, hz⟩
    · rw [h]; rfl
    · have : x ∈ l := by
        rcases List.mem_cons.1 hm with rfl | h
        · rw [hx] at hz; cases hz
        · exact h
      rw [hz, ok_bind, mapM_fail f l x this hx fun y hy => hall y (by simp [hy])]
      rfl

theorem generateMds_run {t : ℕ} (ht : 0 < t) (h : NoWrap F t) :
    generateMds t = .ok (rows (cauchyM F t)) := by
  unfold generateMds
  rw [mapM_ok _ (fun x : ℕ => (List.range t).map fun y : ℕ => ((x : F) + ((t + y : ℕ) : F))⁻¹)]
  · have e : ((List.range t).map fun x : ℕ => (List.range t).map fun y : ℕ =>
        ((x : F) + ((t + y : ℕ) : F))⁻¹) = rows (cauchyM F t) := by
      unfold rows
      rw [map_range_ofFn]
      refine congrArg _ (funext fun i => ?_)
      rw [map_range_ofFn]
      refine congrArg _ (funext fun j => ?_)
      unfold cauchyM
      push_cast
      rw [add_comm (t : F), add_assoc]
    rw [e, ok_bind, isInvertible_rows ht, ok_bind, transpose_rows le_rfl]
    have h1 := isMds_det (cauchyM_mds h)
    have h2 : (fun j i : Fin t => cauchyM F t i (Fin.castLE le_rfl j)) = cauchyM F t := cauchyM_symm t
    rw [h2]
    simp [assertR, h1, ok_bind, pure, Except.pure]
  · intro x hx
    rw [List.mem_range] at hx
    refine mapM_ok _ _ _ fun y hy => ?_
    rw [List.mem_range] at hy
    rw [if_neg]
    have := h (x + (t + y)) (by omega) (by omega)
    push_cast at this ⊢
    exact this

theorem generateMds_fail {t : ℕ} (h : ¬ NoWrap F t) : generateMds t = (.error .panic : Res (Mat F)) := by
  unfold NoWrap at h
  push Not at h
  obtain ⟨k, h1, h2, h3⟩ := h
  have hf : ∀ x : ℕ, ((List.range t).mapM fun (y : ℕ) =>
      if ((x : F) + ((t + y : ℕ) : F)) = 0 then (.error .panic : Res F)
      else .ok ((x : F) + ((t + y : ℕ) : F))⁻¹) = .error .panic ∨
      ∃ z, ((List.range t).mapM fun (y : ℕ) =>
      if ((x : F) + ((t + y : ℕ) : F)) = 0 then (.error .panic : Res F)
      else .ok ((x : F) + ((t + y : ℕ) : F))⁻¹) = .ok z := by
    intro x
    by_cases hz : ∃ y ∈ List.range t, ((x : F) + ((t + y : ℕ) : F)) = 0
    · obtain ⟨y, hy, h0⟩ := hz
      left
      refine mapM_fail _ _ y hy (if_pos h0) fun y _ => ?_
      by_cases h0 : ((x : F) + ((t + y : ℕ) : F)) = 0
      · exact Or.inl (if_pos h0)
      · exact Or.inr ⟨_, if_neg h0⟩
    · push Not at hz
      right
      exact ⟨_, mapM_ok _ (fun y : ℕ => ((x : F) + ((t + y : ℕ) : F))⁻¹) _ fun y hy => if_neg (hz y hy)⟩
  unfold generateMds
  rw [mapM_fail _ _ (k - t - min (k - t) (t - 1)) (by rw [List.mem_range]; omega) ?_ fun x _ => hf x]
  · rfl
  · refine mapM_fail _ _ (min (k - t) (t - 1)) (by rw [List.mem_range]; omega) (if_pos ?_) fun y _ => ?_
    · rw [← Nat.cast_add, show k - t - min (k - t) (t - 1) + (t + min (k - t) (t - 1)) = k by omega]
      exact h3
    · by_cases h0 : (((k - t - min (k - t) (t - 1) : ℕ) : F) + ((t + y : ℕ) : F)) = 0
      · exact Or.inl (if_pos h0)
      · exact Or.inr ⟨_, if_neg h0⟩

end VO.Poseidon
