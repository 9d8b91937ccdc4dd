import Mathlib.LinearAlgebra.Matrix.Symmetric
import Verif.Model.PoseidonMds
import Verif.Lemmas.PoseidonMat

/-
`/repo/plonk-hashing/src/poseidon/mds.rs` on rows of Mathlib matrices.
-/

set_option linter.unusedSectionVars false

namespace VO.Poseidon

open VO.Spec.Poseidon Matrix

variable {F : Type} [Field F] [DecidableEq F]

section block

variable {n : ℕ}

@[simp] theorem block_zero_zero (a : F) (v w : Fin n → F) (H) : block a v w H 0 0 = a := rfl
@[simp] theorem block_zero_succ (a : F) (v w : Fin n → F) (H) (j : Fin n) :
    block a v w H 0 j.succ = v j := rfl
@[simp] theorem block_succ_zero (a : F) (v w : Fin n → F) (H) (i : Fin n) :
    block a v w H i.succ 0 = w i := rfl
@[simp] theorem block_succ_succ (a : F) (v w : Fin n → F) (H) (i j : Fin n) :
    block a v w H i.succ j.succ = H i j := rfl

theorem eq_block (M : Matrix (Fin (n + 1)) (Fin (n + 1)) F) :
    M = block (M 0 0) (fun j => M 0 j.succ) (fun i => M i.succ 0) (hat M) := by
  ext i j
  refine Fin.cases ?_ (fun i => ?_) i <;> refine Fin.cases ?_ (fun j => ?_) j <;> rfl

@[simp] theorem hat_block (a : F) (v w : Fin n → F) (H) : hat (block a v w H) = H := rfl

theorem block_mul (a a' : F) (v w v' w' : Fin n → F) (H H' : Matrix (Fin n) (Fin n) F) :
    block a v w H * block a' v' w' H' =
      block (a * a' + v ⬝ᵥ w') (a • v' + v ᵥ* H') (a' • w + H *ᵥ w') (vecMulVec w v' + H * H') := by
  ext i j
  rw [Matrix.mul_apply, Fin.sum_univ_succ]
  refine Fin.cases ?_ (fun i => ?_) i <;> refine Fin.cases ?_ (fun j => ?_) j
  · simp [dotProduct]
  · simp [Matrix.vecMul, dotProduct]
  · simp [Matrix.mulVec, dotProduct, mul_comm]
  · simp [Matrix.mul_apply, vecMulVec_apply]

/-- A row vector against a block diagonal matrix. -/
theorem vecMul_diag (x : Fin (n + 1) → F) (H : Matrix (Fin n) (Fin n) F) :
    x ᵥ* block 1 0 0 H = Fin.cons (x 0) ((fun i => x i.succ) ᵥ* H) := by
  funext j
  refine Fin.cases ?_ (fun j => ?_) j
  · simp [Matrix.vecMul, dotProduct, Fin.sum_univ_succ]
  · simp [Matrix.vecMul, dotProduct, Fin.sum_univ_succ]

theorem det_diag (H : Matrix (Fin n) (Fin n) F) : (block 1 0 0 H).det = H.det := by
  rw [Matrix.det_succ_row_zero, Fin.sum_univ_succ]
  simp only [block_zero_zero, block_zero_succ, Pi.zero_apply, mul_zero, zero_mul,
    Finset.sum_const_zero, add_zero, Fin.val_zero, pow_zero, one_mul]
  congr 1

end block

theorem makePrimeRows_run {n : ℕ} : ∀ (k i : ℕ) (M : Fin k → Fin (n + 1) → F), 0 < i →
    makePrimeRows i (List.ofFn fun a => List.ofFn (M a))
      = .ok (List.ofFn fun a => List.ofFn (Fin.cons 0 (fun j : Fin n => M a j.succ) : Fin (n + 1) → F))
  | 0, i, M, _ => by simp [makePrimeRows]
  | k + 1, i, M, hi => by
    obtain ⟨i, rfl⟩ : ∃ i', i = i' + 1 := ⟨i - 1, by omega⟩
    rw [List.ofFn_succ, List.ofFn_succ (f := M 0)]
    simp only [makePrimeRows]
    rw [makePrimeRows_run k (i + 1 + 1) (fun a => M a.succ) (by omega)]
    simp only [ok_bind]
    conv_rhs => rw [List.ofFn_succ, List.ofFn_succ]
    rfl

theorem makePrime_rows {n : ℕ} (M : Matrix (Fin (n + 1)) (Fin (n + 1)) F) :
    makePrime (rows M) = .ok (rows (block 1 0 0 (hat M))) := by
  unfold makePrime rows
  rw [List.ofFn_succ, List.ofFn_succ (f := M 0)]
  simp only [makePrimeRows]
  rw [makePrimeRows_run n 1 (fun a => M a.succ) (by omega)]
  simp only [ok_bind]
  conv_rhs => rw [List.ofFn_succ, List.ofFn_succ]
  rw [map_ofFn']
  refine congrArg _ (congrArg₂ _ rfl ?_)
  refine congrArg _ (funext fun a => congrArg _ (funext fun j => ?_))
  refine Fin.cases ?_ (fun j => ?_) j <;> rfl

theorem makeVW_rows {n : ℕ} (M : Matrix (Fin (n + 1)) (Fin (n + 1)) F) :
    makeVW (rows M) = .ok (List.ofFn fun j : Fin n => M 0 j.succ, List.ofFn fun i : Fin n => M i.succ 0) := by
  unfold makeVW
  rw [getR_rows M (Nat.succ_pos n)]
  simp only [ok_bind]
  rw [getR_ofFn _ (Nat.succ_pos n), ok_bind]
  have : (rows M).drop 1 = List.ofFn fun i : Fin n => List.ofFn (M i.succ) := by
    unfold rows
    rw [List.ofFn_succ]
    rfl
  rw [this, mapM_ok _ (fun l : List F => l.getD 0 0), ok_bind, map_ofFn']
  · rw [List.ofFn_succ]
    simp only [List.drop_succ_cons, List.drop_zero]
    refine congrArg _ (congrArg₂ _ rfl ?_)
    congr 1
    funext i
    exact getD_ofFn _ _ (Nat.succ_pos n)
  · intro l hl
    simp only [List.mem_ofFn] at hl
    obtain ⟨i, rfl⟩ := hl
    rw [getD_ofFn _ _ (Nat.succ_pos n)]
    exact getR_ofFn _ (Nat.succ_pos n)

theorem set_zero_ofFn {n : ℕ} (x : F) (k : Fin n) :
    ((List.ofFn fun _ : Fin (n + 1) => (0 : F)).set 0 x).set (k + 1) 1
      = List.ofFn (Fin.cons x (fun j : Fin n => if k = j then 1 else 0) : Fin (n + 1) → F) := by
  conv_rhs => rw [List.ofFn_succ]
  rw [List.ofFn_succ]
  simp only [List.set_cons_zero, List.set_cons_succ, Fin.cons_zero, Fin.cons_succ]
  refine congrArg₂ _ rfl ?_
  apply List.ext_getElem (by simp)
  intro i h1 h2
  rw [List.getElem_set]
  simp [Fin.ext_iff]

theorem makeDoublePrimeRows_run {n : ℕ} (v : List F) (wHat : Fin n → F) :
    ∀ (k i : ℕ) (h : i + k = n) (M : Fin k → Fin (n + 1) → F),
    makeDoublePrimeRows v (List.ofFn wHat) (i + 1) (List.ofFn fun a => List.ofFn (M a))
      = .ok (List.ofFn fun a : Fin k => List.ofFn (Fin.cons (wHat ⟨i + a, by omega⟩)
          (fun j : Fin n => if (⟨i + a, by omega⟩ : Fin n) = j then 1 else 0) : Fin (n + 1) → F))
  | 0, i, _, M => by simp [makeDoublePrimeRows]
  | k + 1, i, h, M => by
    rw [List.ofFn_succ]
    simp only [makeDoublePrimeRows]
    rw [getR_ofFn _ (show i < n by omega)]
    simp only [ok_bind, List.length_ofFn, assertR]
    rw [if_pos ⟨Nat.succ_pos n, by omega⟩]
    simp only [ok_bind, map_ofFn']
    have := set_zero_ofFn (wHat ⟨i, by omega⟩) (⟨i, by omega⟩ : Fin n)
    simp only at this
    rw [this, makeDoublePrimeRows_run v wHat k (i + 1) (by omega) (fun a => M a.succ), ok_bind]
    conv_rhs => rw [List.ofFn_succ]
    simp only [Fin.val_zero, add_zero, Fin.val_succ]
    simp only [add_assoc, add_comm 1]
    rfl

theorem makeDoublePrime_rows {n : ℕ} (M : Matrix (Fin (n + 1)) (Fin (n + 1)) F)
    (H : Matrix (Fin n) (Fin n) F) :
    makeDoublePrime (rows M) (rows H)
      = .ok (rows (block (M 0 0) (fun j => M 0 j.succ) ((fun i : Fin n => M i.succ 0) ᵥ* H) 1)) := by
  unfold makeDoublePrime
  rw [makeVW_rows, ok_bind]
  simp only
  rw [mulRowVec_rows, ok_bind]
  unfold rows
  rw [List.ofFn_succ]
  simp only [makeDoublePrimeRows]
  rw [getR_ofFn _ (Nat.succ_pos n), ok_bind, ok_bind,
    makeDoublePrimeRows_run _ _ n 0 (by omega) (fun a => M a.succ), ok_bind]
  conv_rhs => rw [List.ofFn_succ, List.ofFn_succ]
  refine congrArg _ (congrArg₂ _ rfl ?_)
  congr 1
  funext a
  congr 1
  funext j
  refine Fin.cases ?_ (fun j => ?_) j
  · simp
  · simp [Matrix.one_apply]

/-- `derive_mds_matrices` of a matrix of size at least 2. -/
theorem deriveMds_rows {n : ℕ} (hn : 0 < n) (M : Matrix (Fin (n + 1)) (Fin (n + 1)) F) :
    deriveMds (rows M) = if M.det = 0 ∨ (hat M).det = 0 then .error .panic else
      .ok ⟨rows M, rows M⁻¹, rows (hat M), rows (hat M)⁻¹, rows (block 1 0 0 (hat M)),
        rows (block (M 0 0) (fun j => M 0 j.succ) ((fun i : Fin n => M i.succ 0) ᵥ* (hat M)⁻¹) 1)⟩ := by
  unfold deriveMds
  rw [invert_rows (Nat.succ_pos n), ok_bind]
  by_cases h1 : M.det = 0
  · rw [if_pos h1, if_pos (Or.inl h1)]
    rfl
  · rw [if_neg h1]
    have hm := minor_rows M 0 0
    simp only [Fin.val_zero, Fin.succAbove_zero] at hm
    simp only [unwrapR, ok_bind, hm]
    rw [show M.submatrix Fin.succ Fin.succ = hat M from rfl, invert_rows hn, ok_bind]
    by_cases h2 : (hat M).det = 0
    · rw [if_pos h2, if_pos (Or.inr h2)]
      rfl
    · rw [if_neg h2, if_neg (by tauto)]
      simp only [ok_bind, makePrime_rows, makeDoublePrime_rows]
      rfl

/-- `derive_mds_matrices` of a matrix of size 1 panics: the minor is empty. -/
theorem deriveMds_one (M : Matrix (Fin 1) (Fin 1) F) : deriveMds (rows M) = .error .panic := by
  unfold deriveMds
  rw [invert_rows Nat.one_pos, ok_bind]
  by_cases h1 : M.det = 0
  · rw [if_pos h1]; rfl
  · rw [if_neg h1]
    have hm := minor_rows M 0 0
    simp only [Fin.val_zero, Fin.succAbove_zero] at hm
    simp only [unwrapR, ok_bind, hm]
    rfl

/-- The product of the two factors. -/
theorem prime_mul {n : ℕ} (M : Matrix (Fin (n + 1)) (Fin (n + 1)) F) (w : Fin n → F) :
    block 1 0 0 (hat M) * block (M 0 0) (fun j => M 0 j.succ) w 1
      = block (M 0 0) (fun j => M 0 j.succ) (hat M *ᵥ w) (hat M) := by
  rw [block_mul]
  simp

/-- `M' · M'' = M` for a symmetric minor. -/
theorem prime_mul_double {n : ℕ} (M : Matrix (Fin (n + 1)) (Fin (n + 1)) F)
    (hd : (hat M).det ≠ 0) (hs : (hat M).IsSymm) :
    block 1 0 0 (hat M) * block (M 0 0) (fun j => M 0 j.succ)
      ((fun i : Fin n => M i.succ 0) ᵥ* (hat M)⁻¹) 1 = M := by
  rw [prime_mul]
  have hs' : (hat M)⁻¹ᵀ = (hat M)⁻¹ := by rw [Matrix.transpose_nonsing_inv, hs.eq]
  rw [← hs', Matrix.vecMul_transpose, Matrix.mulVec_mulVec,
    Matrix.mul_nonsing_inv _ (isUnit_iff_ne_zero.2 hd), Matrix.one_mulVec]
  exact (eq_block M).symm

/-- A sparse matrix and its compact form. -/
theorem sparseNew_rows {n : ℕ} (M : Matrix (Fin (n + 1)) (Fin (n + 1)) F) :
    sparseNew (rows M) = if hat M = 1 then
      .ok ⟨List.ofFn fun i => M i 0, List.ofFn fun j : Fin n => M 0 j.succ⟩ else .error .panic := by
  unfold sparseNew
  rw [isSparse_rows, ok_bind]
  by_cases h : hat M = 1
  · have h' : M.submatrix Fin.succ Fin.succ = 1 := h
    rw [if_pos h]
    simp only [h', decide_true, assertR, if_true, ok_bind]
    rw [mapM_ok _ (fun l : List F => l.getD 0 0), ok_bind, getR_rows M (Nat.succ_pos n), ok_bind,
      getR_ofFn _ (Nat.succ_pos n), ok_bind]
    · unfold rows
      rw [map_ofFn']
      refine congrArg _ (congrArg₂ _ ?_ ?_)
      · refine congrArg _ (funext fun i => ?_)
        exact getD_ofFn _ _ (Nat.succ_pos n)
      · rw [List.ofFn_succ]
        rfl
    · intro l hl
      simp only [rows, List.mem_ofFn] at hl
      obtain ⟨i, rfl⟩ := hl
      rw [getD_ofFn _ _ (Nat.succ_pos n)]
      exact getR_ofFn _ (Nat.succ_pos n)
  · have h' : ¬ M.submatrix Fin.succ Fin.succ = 1 := h
    rw [if_neg h]
    simp only [h', decide_false, assertR, Bool.false_eq_true, if_false]
    rfl

/-- The matrix of a compact form. -/
theorem toMatrix_rows {n : ℕ} (a : F) (v w : Fin n → F) :
    (Sparse.mk (List.ofFn (Fin.cons a w : Fin (n + 1) → F)) (List.ofFn v)).toMatrix
      = .ok (rows (block a v w 1)) := by
  unfold Sparse.toMatrix
  simp only [List.length_ofFn]
  have : ((List.range (n + 1)).map fun j => (((identity (n + 1) : Mat F).getD j []).set 0
      ((List.ofFn (Fin.cons a w : Fin (n + 1) → F)).getD j 0))) = rows (block a 0 w 1) := by
    rw [map_range_ofFn]
    unfold rows
    refine congrArg _ (funext fun j => ?_)
    rw [getD_ofFn _ _ j.2, identity_rows]
    unfold rows
    rw [getD_ofFn _ _ j.2]
    simp only [Fin.eta]
    conv_lhs => rw [List.ofFn_succ]
    conv_rhs => rw [List.ofFn_succ]
    rw [List.set_cons_zero]
    refine congrArg₂ _ ?_ ?_
    · refine Fin.cases ?_ (fun j => ?_) j <;> rfl
    · refine congrArg _ (funext fun i => ?_)
      refine Fin.cases ?_ (fun j => ?_) j
      · rfl
      · show (1 : Matrix (Fin (n + 1)) (Fin (n + 1)) F) j.succ i.succ = _
        simp [Matrix.one_apply]
  rw [this]
  unfold rows
  rw [List.ofFn_succ]
  simp only [List.length_ofFn, le_refl, if_true]
  conv_rhs => rw [List.ofFn_succ]
  refine congrArg _ (congrArg₂ _ ?_ ?_)
  · conv_rhs => rw [List.ofFn_succ]
    rw [List.ofFn_succ]
    simp
  · rfl

/-- The `k`-th matrix of the fold of `factor_to_sparse_matrixes`. -/
def currM {n : ℕ} (M : Matrix (Fin (n + 1)) (Fin (n + 1)) F) (k : ℕ) :
    Matrix (Fin (n + 1)) (Fin (n + 1)) F := M * block 1 0 0 (hat M ^ k)

/-- The sparse factor of the `k`-th matrix. -/
noncomputable def sparseM {n : ℕ} (M : Matrix (Fin (n + 1)) (Fin (n + 1)) F) (k : ℕ) :
    Matrix (Fin (n + 1)) (Fin (n + 1)) F :=
  block (currM M k 0 0) (fun j => currM M k 0 j.succ)
    ((fun i : Fin n => currM M k i.succ 0) ᵥ* (hat M ^ (k + 1))⁻¹) 1

theorem hat_currM {n : ℕ} (M : Matrix (Fin (n + 1)) (Fin (n + 1)) F) (k : ℕ) :
    hat (currM M k) = hat M ^ (k + 1) := by
  unfold currM
  conv_lhs => rw [eq_block M, block_mul, hat_block]
  rw [hat_block, pow_succ']
  have : vecMulVec (fun i : Fin n => M i.succ 0) (0 : Fin n → F) = 0 := by
    ext i j
    simp [vecMulVec_apply]
  rw [this, zero_add]

theorem currM_zero {n : ℕ} (M : Matrix (Fin (n + 1)) (Fin (n + 1)) F) : currM M 0 = M := by
  unfold currM
  rw [pow_zero]
  have : (block 1 0 0 1 : Matrix (Fin (n + 1)) (Fin (n + 1)) F) = 1 := by
    rw [eq_block (1 : Matrix (Fin (n + 1)) (Fin (n + 1)) F)]
    ext i j
    refine Fin.cases ?_ (fun i => ?_) i <;> refine Fin.cases ?_ (fun j => ?_) j <;>
      simp [hat, Matrix.one_apply, Fin.succ_ne_zero, (Fin.succ_ne_zero _).symm]
  rw [this, mul_one]

theorem isSymm_pow {n : ℕ} {H : Matrix (Fin n) (Fin n) F} (h : H.IsSymm) (k : ℕ) : (H ^ k).IsSymm := by
  unfold Matrix.IsSymm
  rw [Matrix.transpose_pow, h.eq]

/-- The diagonal part of the `k`-th matrix against its sparse factor. -/
theorem diag_mul_sparse {n : ℕ} (M : Matrix (Fin (n + 1)) (Fin (n + 1)) F)
    (hd : (hat M).det ≠ 0) (hs : (hat M).IsSymm) (k : ℕ) :
    block 1 0 0 (hat M ^ (k + 1)) * sparseM M k = currM M k := by
  have := prime_mul_double (currM M k) (by rw [hat_currM, Matrix.det_pow]; exact pow_ne_zero _ hd)
    (by rw [hat_currM]; exact isSymm_pow hs _)
  rwa [hat_currM] at this

theorem det_currM {n : ℕ} (M : Matrix (Fin (n + 1)) (Fin (n + 1)) F) (h1 : M.det ≠ 0)
    (hd : (hat M).det ≠ 0) (k : ℕ) : (currM M k).det ≠ 0 := by
  unfold currM
  rw [Matrix.det_mul, det_diag, Matrix.det_pow]
  exact mul_ne_zero h1 (pow_ne_zero _ hd)

theorem factorLoop_run {n : ℕ} (hn : 0 < n) (M : Matrix (Fin (n + 1)) (Fin (n + 1)) F) (h1 : M.det ≠ 0)
    (hd : (hat M).det ≠ 0) : ∀ (k i : ℕ) (acc : List (Mat F)),
    factorLoop (rows M) k (rows (currM M i)) acc
      = .ok (rows (currM M (i + k)), acc ++ (List.range k).map fun a => rows (sparseM M (i + a)))
  | 0, i, acc => by simp [factorLoop]
  | k + 1, i, acc => by
    unfold factorLoop
    have hder := deriveMds_rows hn (currM M i)
    rw [if_neg (by
      rw [hat_currM, Matrix.det_pow]
      exact not_or.2 ⟨det_currM M h1 hd i, pow_ne_zero _ hd⟩), hat_currM] at hder
    rw [hder]
    simp only [ok_bind, matmul_sq, unwrapR]
    refine (factorLoop_run hn M h1 hd k (i + 1) (acc ++ [rows (sparseM M i)])).trans ?_
    rw [List.range_succ_eq_map]
    have e : ∀ a, i + 1 + a = i + (a + 1) := fun a => by omega
    have e2 : i + 1 + k = i + (k + 1) := by omega
    simp only [List.map_cons, List.map_map, Nat.add_zero, e, List.append_assoc,
      List.cons_append, List.nil_append]
    rfl

theorem factorToSparse_rows {n : ℕ} (hn : 0 < n) (M : Matrix (Fin (n + 1)) (Fin (n + 1)) F)
    (h1 : M.det ≠ 0) (hd : (hat M).det ≠ 0) (k : ℕ) :
    ∃ l : List (Sparse F), factorToSparse (rows M) k = .ok (rows (currM M k), l) ∧ l.length = k ∧
      ∀ (i : ℕ) (s : Sparse F), l[i]? = some s → s.toMatrix = .ok (rows (sparseM M (k - 1 - i))) ∧
        s = ⟨List.ofFn fun a => sparseM M (k - 1 - i) a 0,
          List.ofFn fun j : Fin n => sparseM M (k - 1 - i) 0 j.succ⟩ := by
  let g : Mat F → Sparse F := fun A => ⟨A.map fun r => r.getD 0 0, (A.getD 0 []).drop 1⟩
  have hg : ∀ a, sparseNew (rows (sparseM M a)) = .ok (g (rows (sparseM M a))) ∧
      (g (rows (sparseM M a))).toMatrix = .ok (rows (sparseM M a)) ∧
      g (rows (sparseM M a)) = ⟨List.ofFn fun i => sparseM M a i 0,
        List.ofFn fun j : Fin n => sparseM M a 0 j.succ⟩ := by
    intro a
    have e : g (rows (sparseM M a)) = ⟨List.ofFn fun i => sparseM M a i 0,
        List.ofFn fun j : Fin n => sparseM M a 0 j.succ⟩ := by
      simp only [g]
      unfold rows
      rw [map_ofFn', getD_ofFn _ _ (Nat.succ_pos n)]
      refine congrArg₂ _ (congrArg _ (funext fun i => getD_ofFn _ _ (Nat.succ_pos n))) ?_
      rw [List.ofFn_succ]
      rfl
    refine ⟨?_, ?_, e⟩
    · rw [sparseNew_rows, if_pos (by unfold sparseM; rw [hat_block]), e]
    · rw [e]
      have := toMatrix_rows (sparseM M a 0 0) (fun j : Fin n => sparseM M a 0 j.succ)
        (fun i : Fin n => sparseM M a i.succ 0)
      have e2 : (Fin.cons (sparseM M a 0 0) (fun i : Fin n => sparseM M a i.succ 0) : Fin (n + 1) → F)
          = fun i => sparseM M a i 0 := by
        funext i
        refine Fin.cases ?_ (fun i => ?_) i <;> rfl
      rw [e2] at this
      rw [this]
      refine congrArg _ (congrArg _ ?_)
      unfold sparseM
      rfl
  refine ⟨((List.range k).map fun a => rows (sparseM M a)).reverse.map g, ?_, by simp, ?_⟩
  · unfold factorToSparse
    have := factorLoop_run hn M h1 hd k 0 []
    rw [currM_zero] at this
    rw [this, ok_bind]
    simp only [Nat.zero_add, List.nil_append]
    rw [mapM_ok _ g, ok_bind]
    · rfl
    · intro A hA
      rw [List.mem_reverse] at hA
      obtain ⟨a, -, rfl⟩ := List.mem_map.1 hA
      exact (hg a).1
  · intro i s hs
    have hi : i < k := by
      have := (List.getElem?_eq_some_iff.1 hs).1
      simpa using this
    rw [List.getElem?_map, List.getElem?_reverse (by simpa using hi)] at hs
    simp only [List.length_map, List.length_range, List.getElem?_map] at hs
    rw [List.getElem?_range (by omega)] at hs
    simp only [Option.map_some, Option.some.injEq] at hs
    rw [← hs]
    exact (hg _).2

end VO.Poseidon
