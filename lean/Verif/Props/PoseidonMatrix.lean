import Verif.Lemmas.PoseidonCauchy
import Verif.Lemmas.PoseidonOpt
import Verif.Lemmas.SnarkExample

/-
C111-C114: the matrices of the Poseidon crate, `/repo/plonk-hashing/src/poseidon/matrix.rs`, `mds.rs` and
`preprocessing.rs`. A matrix of the code is a list of rows; `IsMat n k A` says that it has `n` rows of `k`
entries, `mat n k A` is then the matrix of Mathlib with these entries.
-/

set_option linter.unusedSectionVars false

namespace VO

open VO.Poseidon VO.Spec.Poseidon Matrix

variable {F : Type} [Field F] [DecidableEq F]

/-! ### C111 -/

/-- `invert` returns the inverse of a regular matrix. -/
theorem C111_invert {n : ℕ} (hn : 0 < n) {A : Mat F} (hA : IsMat n n A) (h : (mat n n A).det ≠ 0) :
    ∃ B, invert A = .ok (some B) ∧ IsMat n n B ∧ mat n n A * mat n n B = 1 ∧
      mat n n B * mat n n A = 1 := by
  have := invert_rows hn (mat n n A)
  rw [rows_mat hA, if_neg h] at this
  refine ⟨_, this, isMat_rows _, ?_, ?_⟩
  · rw [mat_rows, Matrix.mul_nonsing_inv _ (isUnit_iff_ne_zero.2 h)]
  · rw [mat_rows, Matrix.nonsing_inv_mul _ (isUnit_iff_ne_zero.2 h)]

/-- `invert` returns `None` for a singular matrix. -/
theorem C111_singular {n : ℕ} (hn : 0 < n) {A : Mat F} (hA : IsMat n n A) (h : (mat n n A).det = 0) :
    invert A = .ok none := by
  have := invert_rows hn (mat n n A)
  rwa [rows_mat hA, if_pos h] at this

theorem isSquare_isMat {A : Mat F} (h : isSquare A = .ok true) : IsMat A.length A.length A := by
  cases A with
  | nil => exact ⟨rfl, fun r hr => by cases hr⟩
  | cons r rs =>
    unfold isSquare numColumns at h
    by_cases hc : ((r :: rs).all fun x => decide (x.length = r.length)) = true
    · simp only [if_pos hc, ok_bind, pure, Except.pure, Except.ok.injEq, beq_iff_eq] at h
      refine ⟨rfl, fun x hx => ?_⟩
      simp only [List.all_eq_true, decide_eq_true_eq] at hc
      rw [hc x hx, h]
    · simp only [if_neg hc] at h
      cases h

/-- `invert` panics on everything but a square matrix with at least one row. -/
theorem C111_shape {A : Mat F} {r : Option (Mat F)} (h : invert A = .ok r) :
    ∃ n, 0 < n ∧ IsMat n n A := by
  by_cases hs : isSquare A = .ok true
  · refine ⟨A.length, ?_, isSquare_isMat hs⟩
    cases A with
    | nil => cases h
    | cons _ _ => simp
  · exfalso
    unfold invert at h
    cases hc : numColumns A with
    | error e => rw [hc] at h; cases h
    | ok c =>
      have hb : isSquare A = .ok false := by
        unfold isSquare at hs ⊢
        rw [hc, ok_bind] at hs ⊢
        cases hq : (A.length == c) with
        | true => rw [hq] at hs; exact absurd rfl hs
        | false => rfl
      rw [hc, ok_bind] at h
      unfold upperTriangular at h
      rw [hb] at h
      cases h

/-- `is_invertible` is the test of the determinant. -/
theorem C111_is_invertible {n : ℕ} (hn : 0 < n) {A : Mat F} (hA : IsMat n n A) :
    isInvertible A = .ok (decide ((mat n n A).det ≠ 0)) := by
  have := isInvertible_rows hn (mat n n A)
  rwa [rows_mat hA] at this

/-- `is_invertible` of a rectangular matrix is false. -/
theorem C111_is_invertible_rect {n k : ℕ} (hn : 0 < n) (hnk : n ≠ k) {A : Mat F} (hA : IsMat n k A) :
    isInvertible A = .ok false := by
  have := numColumns_rows hn (mat n k A)
  rw [rows_mat hA] at this
  unfold isInvertible isSquare
  rw [this, ok_bind]
  have h : (A.length == k) = false := by rw [hA.1]; simpa using hnk
  simp only [h, pure, Except.pure, ok_bind, Bool.false_eq_true, if_false]

/-- A regular matrix, a singular one, one that needs an exchange of rows, and the empty one. -/
example : invert ([[2, 1, 0], [1, 0, 3], [0, 5, 1]] : Mat K97)
      = .ok (some [[13, 72, 75], [72, 50, 44], [28, 41, 72]]) ∧
    invert ([[2, 1, 0], [4, 2, 0], [0, 5, 1]] : Mat K97) = .ok none ∧
    invert ([[0, 1, 0], [4, 2, 0], [0, 5, 1]] : Mat K97)
      = .ok (some [[48, 73, 0], [1, 0, 0], [92, 0, 1]]) ∧
    invert ([] : Mat K97) = .error .panic := by decide +kernel

/-! ### C112 -/

/-- `matmul` of square matrices. -/
theorem C112_matmul {n : ℕ} {A B : Mat F} (hA : IsMat n n A) (hB : IsMat n n B) :
    ∃ C, matmul A B = .ok (some C) ∧ IsMat n n C ∧ mat n n C = mat n n A * mat n n B := by
  have := matmul_sq (mat n n A) (mat n n B)
  rw [rows_mat hA, rows_mat hB] at this
  exact ⟨_, this, isMat_rows _, mat_rows _⟩

/-- `matmul` of rectangular matrices: it asks for as many rows on the left as columns on the right,
instead of as many columns on the left as rows on the right. It returns `None` for other shapes, panics
when the left factor is wider than high, and returns the first columns of the product when it is higher
than wide. -/
theorem C112_matmul_rect {n k m : ℕ} (hk : 0 < k) {A B : Mat F} (hA : IsMat n k A) (hB : IsMat k m B) :
    (n ≠ m → matmul A B = .ok none) ∧
    (n = m → n < k → matmul A B = .error .panic) ∧
    ((hm : n = m) → (h : k ≤ m) → ∃ C, matmul A B = .ok (some C) ∧ IsMat n k C ∧
      ∀ i j, mat n k C i j = (mat n k A * mat k m B) i (Fin.castLE h j)) := by
  have hc := numColumns_rows hk (mat k m B)
  rw [rows_mat hB] at hc
  refine ⟨fun h => ?_, fun h1 h2 => ?_, fun h1 h2 => ?_⟩
  · unfold matmul
    rw [hc, ok_bind, hA.1, if_pos h]
    rfl
  · have := transpose_fail (by omega) (mat k m B)
    rw [rows_mat hB] at this
    unfold matmul
    rw [hc, ok_bind, hA.1, if_neg (by simpa using h1), this]
    rfl
  · subst h1
    have := matmul_rows h2 (mat n k A) (mat k n B) hk
    rw [rows_mat hA, rows_mat hB] at this
    exact ⟨_, this, isMat_rows _, fun i j => congrFun (congrFun (mat_rows _) i) j⟩

/-- `transpose` of a square matrix. -/
theorem C112_transpose {n : ℕ} {A : Mat F} (hA : IsMat n n A) :
    ∃ C, transpose A = .ok C ∧ IsMat n n C ∧ mat n n C = (mat n n A)ᵀ := by
  have := transpose_rows le_rfl (mat n n A)
  rw [rows_mat hA] at this
  exact ⟨_, this, isMat_rows _, mat_rows _⟩

/-- `transpose` of a matrix wider than high loses the columns beyond the number of rows; of a matrix
higher than wide it panics. -/
theorem C112_transpose_rect {n k : ℕ} {A : Mat F} (hA : IsMat n k A) :
    ((h : n ≤ k) → ∃ C, transpose A = .ok C ∧ IsMat n n C ∧
      ∀ i j, mat n n C i j = mat n k A j (Fin.castLE h i)) ∧
    (k < n → transpose A = .error .panic) := by
  refine ⟨fun h => ?_, fun h => ?_⟩
  · have := transpose_rows h (mat n k A)
    rw [rows_mat hA] at this
    exact ⟨_, this, isMat_rows _, fun i j => congrFun (congrFun (mat_rows _) i) j⟩
  · have := transpose_fail h (mat n k A)
    rwa [rows_mat hA] at this

/-- `left_apply` multiplies a column vector from the left, `right_apply` a row vector from the right. -/
theorem C112_apply {n : ℕ} {A : Mat F} (hA : IsMat n n A) {v : List F} (hv : v.length = n) :
    (∃ r, mulColVec A v = .ok r ∧ r.length = n ∧ vec n r = mat n n A *ᵥ vec n v) ∧
    (∃ r, mulRowVec A v = .ok r ∧ r.length = n ∧ vec n r = vec n v ᵥ* mat n n A) := by
  have h1 := mulColVec_rows (mat n n A) (vec n v)
  have h2 := mulRowVec_rows (mat n n A) (vec n v)
  rw [rows_mat hA, ofFn_vec hv] at h1 h2
  exact ⟨⟨_, h1, by simp, vec_ofFn _⟩, ⟨_, h2, by simp, vec_ofFn _⟩⟩

/-- Both panic unless the matrix is square and of the size of the vector. -/
theorem C112_apply_shape {A : Mat F} {v r : List F} (h : mulColVec A v = .ok r ∨ mulRowVec A v = .ok r) :
    IsMat v.length v.length A := by
  have key : ∀ f : Res (List F), (do
      assertR ((← isSquare A) = true)
      assertR (A.length = v.length)
      f) = .ok r → IsMat v.length v.length A := by
    intro f hf
    cases hs : isSquare A with
    | error e => rw [hs] at hf; cases hf
    | ok b =>
      rw [hs, ok_bind] at hf
      cases b with
      | false => cases hf
      | true =>
        by_cases hl : A.length = v.length
        · rw [← hl]; exact isSquare_isMat hs
        · simp only [assertR, if_true, ok_bind, if_neg hl] at hf
          cases hf
  rcases h with h | h <;> exact key _ h

/-- `minor` removes one row and one column, and panics when there is none to remove. -/
theorem C112_minor {n : ℕ} {A : Mat F} (hA : IsMat (n + 1) (n + 1) A) (i j : Fin (n + 1)) :
    ∃ C, minor A i j = .ok C ∧ IsMat n n C ∧
      mat n n C = (mat (n + 1) (n + 1) A).submatrix i.succAbove j.succAbove := by
  have := minor_rows (mat (n + 1) (n + 1) A) i j
  rw [rows_mat hA] at this
  exact ⟨_, this, isMat_rows _, mat_rows _⟩

/-- `identity`, `is_identity` and `is_sparse`. -/
theorem C112_identity (n : ℕ) : IsMat n n (identity n : Mat F) ∧ mat n n (identity n : Mat F) = 1 := by
  rw [identity_rows]
  exact ⟨isMat_rows _, mat_rows _⟩

theorem C112_is_identity {n : ℕ} {A : Mat F} (hA : IsMat n n A) :
    isIdentity A = .ok (decide (mat n n A = 1)) := by
  have := isIdentity_rows (mat n n A)
  rwa [rows_mat hA] at this

theorem C112_is_sparse {n : ℕ} {A : Mat F} (hA : IsMat (n + 1) (n + 1) A) :
    isSparse A = .ok (decide (hat (mat (n + 1) (n + 1) A) = 1)) := by
  have := isSparse_rows (mat (n + 1) (n + 1) A)
  rwa [rows_mat hA] at this

/-- A product of a `3 × 2` and a `2 × 3` matrix has two columns only; the product of a `2 × 3` and a
`3 × 2` matrix panics; a `1 × 2` times a `2 × 3` is refused. -/
example : matmul ([[1, 2], [3, 4], [5, 6]] : Mat K97) [[1, 2, 3], [4, 5, 6]]
      = .ok (some [[9, 12], [19, 26], [29, 40]]) ∧
    matmul ([[1, 2, 3], [4, 5, 6]] : Mat K97) [[1, 2], [3, 4], [5, 6]] = .error .panic ∧
    matmul ([[1, 2]] : Mat K97) [[1, 2, 3], [4, 5, 6]] = .ok none ∧
    matmul ([[1, 2], [3, 4]] : Mat K97) [[5, 6], [7, 8]] = .ok (some [[19, 22], [43, 50]]) := by
  decide +kernel

/-! ### C113 -/

/-- `generate_mds` succeeds exactly when none of the sums `i + j + t` vanishes in the field; its matrix
has the entries `1 / (i + j + t)`, is symmetric, and all its square submatrices are regular. -/
theorem C113_generate {t : ℕ} (ht : 0 < t) :
    (NoWrap F t → ∃ A : Mat F, generateMds t = .ok A ∧ IsMat t t A ∧
      (∀ i j, mat t t A i j * ((i.1 + j.1 + t : ℕ) : F) = 1) ∧
      (mat t t A).IsSymm ∧ IsMds (mat t t A)) ∧
    (¬ NoWrap F t → generateMds t = (.error .panic : Res (Mat F))) := by
  refine ⟨fun h => ⟨_, generateMds_run ht h, isMat_rows _, ?_, ?_, ?_⟩, generateMds_fail⟩
  · intro i j
    rw [mat_rows]
    unfold cauchyM
    exact inv_mul_cancel₀ (h _ (by omega) (by omega))
  · rw [mat_rows]; exact cauchyM_symm t
  · rw [mat_rows]; exact cauchyM_mds h

/-- The matrices of `derive_mds_matrices`, for any matrix it accepts: the inverses are inverses, `m_hat`
is the minor, `m_prime` is block diagonal, `m_double_prime` is sparse, and their product is `m` in all
entries but the lower part of the first column. -/
theorem C113_derive {n : ℕ} (hn : 0 < n) {A : Mat F} (hA : IsMat (n + 1) (n + 1) A) {d : Mds F}
    (h : deriveMds A = .ok d) :
    d.m = A ∧ mat (n + 1) (n + 1) d.mInv * mat (n + 1) (n + 1) A = 1 ∧
    mat n n d.mHat = hat (mat (n + 1) (n + 1) A) ∧ mat n n d.mHatInv * mat n n d.mHat = 1 ∧
    mat (n + 1) (n + 1) d.mPrime = block 1 0 0 (hat (mat (n + 1) (n + 1) A)) ∧
    hat (mat (n + 1) (n + 1) d.mDoublePrime) = 1 ∧
    (∀ i j, (i = 0 ∨ j ≠ 0) → (mat (n + 1) (n + 1) d.mPrime * mat (n + 1) (n + 1) d.mDoublePrime) i j
      = mat (n + 1) (n + 1) A i j) ∧
    ((hat (mat (n + 1) (n + 1) A)).IsSymm →
      mat (n + 1) (n + 1) d.mPrime * mat (n + 1) (n + 1) d.mDoublePrime = mat (n + 1) (n + 1) A) := by
  have hr := deriveMds_rows hn (mat (n + 1) (n + 1) A)
  rw [rows_mat hA] at hr
  rw [hr] at h
  split_ifs at h with hc
  rw [not_or] at hc
  simp only [Except.ok.injEq] at h
  subst h
  simp only [mat_rows]
  refine ⟨trivial, Matrix.nonsing_inv_mul _ (isUnit_iff_ne_zero.2 hc.1), trivial,
    Matrix.nonsing_inv_mul _ (isUnit_iff_ne_zero.2 hc.2), trivial, hat_block _ _ _ _, ?_, ?_⟩
  · intro i j
    rw [prime_mul]
    conv_rhs => rw [eq_block (mat (n + 1) (n + 1) A)]
    refine Fin.cases ?_ (fun i => ?_) i <;> refine Fin.cases ?_ (fun j => ?_) j
    · intro _; rfl
    · intro _; rfl
    · rintro (h | h)
      · exact absurd h (Fin.succ_ne_zero _)
      · exact absurd rfl h
    · intro _; rfl
  · exact prime_mul_double _ hc.2

/-- It panics exactly for a singular matrix, a singular minor or a matrix of size 1. -/
theorem C113_derive_panics {n : ℕ} {A : Mat F} (hA : IsMat (n + 1) (n + 1) A) :
    (∃ d, deriveMds A = .ok d) ↔ 0 < n ∧ (mat (n + 1) (n + 1) A).det ≠ 0 ∧
      (hat (mat (n + 1) (n + 1) A)).det ≠ 0 := by
  rcases Nat.eq_zero_or_pos n with rfl | hn
  · have := deriveMds_one (mat 1 1 A)
    rw [rows_mat hA] at this
    rw [this]
    simp
  · have hr := deriveMds_rows hn (mat (n + 1) (n + 1) A)
    rw [rows_mat hA] at hr
    rw [hr]
    constructor
    · rintro ⟨d, h⟩
      split_ifs at h with hc
      rw [not_or] at hc
      exact ⟨hn, hc⟩
    · rintro ⟨-, h1, h2⟩
      rw [if_neg (by tauto)]
      exact ⟨_, rfl⟩

/-- `MdsMatrices::new` succeeds for every width from 2 on that does not wrap, and its factors multiply to
the matrix. -/
theorem C113_new {n : ℕ} (hn : 0 < n) (h : NoWrap F (n + 1)) :
    ∃ d : Mds F, mdsNew (n + 1) = .ok d ∧ generateMds (n + 1) = .ok d.m ∧
      mat (n + 1) (n + 1) d.mPrime * mat (n + 1) (n + 1) d.mDoublePrime = mat (n + 1) (n + 1) d.m := by
  have hm := cauchyM_mds h
  obtain ⟨d, hd⟩ := (C113_derive_panics (isMat_rows (cauchyM F (n + 1)))).2
    ⟨hn, by rw [mat_rows]; exact isMds_det hm, by rw [mat_rows]; exact isMds_hat hm⟩
  obtain ⟨e, -, -, -, -, -, -, hp⟩ := C113_derive hn (isMat_rows _) hd
  have hg := generateMds_run (Nat.succ_pos n) h
  refine ⟨d, ?_, ?_, ?_⟩
  · unfold mdsNew
    rw [hg, ok_bind, hd]
  · rw [hg, e]
  · rw [e]
    refine hp ?_
    rw [mat_rows]
    have := cauchyM_symm (F := F) (n + 1)
    exact this.submatrix _

theorem sparseApply_of {n : ℕ} (M : Matrix (Fin (n + 1)) (Fin (n + 1)) F) (h : hat M = 1)
    (x : Fin (n + 1) → F) :
    sparseApply (fun i => M i 0) (fun j : Fin n => M 0 j.succ) x = x ᵥ* M := by
  have hb := eq_block M
  rw [h] at hb
  have e : (fun i => M i 0) = (Fin.cons (M 0 0) (fun i : Fin n => M i.succ 0) : Fin (n + 1) → F) := by
    funext i
    refine Fin.cases ?_ (fun i => ?_) i <;> rfl
  conv_rhs => rw [hb]
  rw [sparseApply_block, e]

theorem hat_sparseM {n : ℕ} (M : Matrix (Fin (n + 1)) (Fin (n + 1)) F) (k : ℕ) :
    hat (sparseM M k) = 1 := by
  unfold sparseM
  rw [hat_block]

/-- `SparseMatrix::new` accepts the sparse matrices and `to_matrix` gives them back. -/
theorem C113_sparse {n : ℕ} {A : Mat F} (hA : IsMat (n + 1) (n + 1) A) :
    (hat (mat (n + 1) (n + 1) A) = 1 → ∃ s, sparseNew A = .ok s ∧ s.toMatrix = .ok A ∧
      ∀ x, sparseApply (vec (n + 1) s.wHat) (vec n s.vRest) x = x ᵥ* mat (n + 1) (n + 1) A) ∧
    (hat (mat (n + 1) (n + 1) A) ≠ 1 → sparseNew A = .error .panic) := by
  have hr := sparseNew_rows (mat (n + 1) (n + 1) A)
  rw [rows_mat hA] at hr
  rw [hr]
  refine ⟨fun h => ?_, fun h => by rw [if_neg h]⟩
  rw [if_pos h]
  generalize hM : mat (n + 1) (n + 1) A = M at *
  have hb := eq_block M
  rw [h] at hb
  have e : (fun i => M i 0) = (Fin.cons (M 0 0) (fun i : Fin n => M i.succ 0) : Fin (n + 1) → F) := by
    funext i
    refine Fin.cases ?_ (fun i => ?_) i <;> rfl
  refine ⟨_, rfl, ?_, fun x => ?_⟩
  · rw [e, toMatrix_rows, ← hb, ← hM, rows_mat hA]
  · simp only [vec_ofFn]
    exact sparseApply_of M h x

/-- The field with 97 elements does not wrap for width 3, and wraps for width 49. -/
theorem noWrap97 : NoWrap K97 3 := by
  intro k h1 h2
  have : k < 8 := by omega
  interval_cases k <;> decide

example : ¬ NoWrap K97 49 := fun h => h 97 (by omega) (by omega) (by decide)

/-- The matrices of width 3 over this field. -/
example : (mdsNew 3 : Res (Mds K97)) = .ok ⟨[[65, 73, 39], [73, 39, 81], [39, 81, 14]],
    [[9, 70, 48], [70, 67, 34], [48, 34, 23]], [[39, 81], [81, 14]], [[83, 81], [81, 58]],
    [[1, 0, 0], [0, 39, 81], [0, 81, 14]], [[65, 73, 39], [3, 1, 0], [27, 0, 1]]⟩ := by
  decide +kernel

/-- Without a symmetric minor the factors do not multiply to the matrix. -/
example : ∃ d : Mds K97, deriveMds [[1, 2, 3], [4, 5, 6], [7, 1, 2]] = .ok d ∧
    matmul d.mPrime d.mDoublePrime = .ok (some [[1, 2, 3], [42, 5, 6], [30, 1, 2]]) := by
  refine ⟨⟨[[1, 2, 3], [4, 5, 6], [7, 1, 2]], [[46, 37, 14], [3, 24, 69], [80, 4, 14]], [[5, 6], [1, 2]],
    [[49, 47], [24, 74]], [[1, 0, 0], [0, 5, 6], [0, 1, 2]], [[1, 2, 3], [73, 1, 0], [27, 0, 1]]⟩, ?_, ?_⟩
  · decide +kernel
  · decide +kernel

/-! ### C114 -/

/-- The compressed constants and the sparse matrices: the optimised schedule with them gives the
permutation with the original constants and matrix, for every matrix with a symmetric minor that
`derive_mds_matrices` accepts, all even numbers of full rounds, all numbers of partial rounds and all
constants. -/
theorem C114_optimised {n : ℕ} (hn : 0 < n) {A : Mat F} (hA : IsMat (n + 1) (n + 1) A)
    (hs : (hat (mat (n + 1) (n + 1) A)).IsSymm) {mds : Mds F} (hm : deriveMds A = .ok mds)
    (half P : ℕ) (hh : 0 < half) (rc : List F) (hl : (2 * half + P) * (n + 1) ≤ rc.length) :
    ∃ (comp : List F) (pre : Mat F) (sparse : List (Sparse F)),
      compressRoundConstants (n + 1) (2 * half) P rc mds = .ok comp ∧
      factorToSparse A P = .ok (pre, sparse) ∧
      comp.length = 2 * half * (n + 1) + P ∧ IsMat (n + 1) (n + 1) pre ∧ sparse.length = P ∧
      ∀ x, optimised (mat (n + 1) (n + 1) A) (mat (n + 1) (n + 1) pre)
        (slice (n + 1) comp 0)
        (fun r => slice (n + 1) comp ((n + 1) + r * (n + 1)))
        (slice (n + 1) comp (half * (n + 1)))
        (fun r => comp.getD (half * (n + 1) + (n + 1) + r) 0)
        (fun r => vec (n + 1) (sparse.getD r ⟨[], []⟩).wHat)
        (fun r => vec n (sparse.getD r ⟨[], []⟩).vRest)
        (fun r => slice (n + 1) comp (half * (n + 1) + (n + 1) + P + r * (n + 1)))
        half P x
      = permutation (mat (n + 1) (n + 1) A) (fun r => slice (n + 1) rc (r * (n + 1))) half P x := by
  have hr := deriveMds_rows hn (mat (n + 1) (n + 1) A)
  rw [rows_mat hA] at hr
  rw [hr] at hm
  generalize hM : mat (n + 1) (n + 1) A = M at *
  split_ifs at hm with hc
  rw [not_or] at hc
  simp only [Except.ok.injEq] at hm
  have hAM : A = rows M := by rw [← hM, rows_mat hA]
  obtain ⟨comp, c1, c2, c3, c4, c5, c6, c7⟩ := compress_run M mds (by rw [← hm]) half P hh rc hl
  obtain ⟨sp, f1, f2, f3⟩ := factorToSparse_rows hn M hc.1 hc.2 P
  refine ⟨comp, rows (currM M P), sp, c1, by rw [hAM]; exact f1, c2, isMat_rows _, f2, fun x => ?_⟩
  rw [mat_rows, c3]
  refine optimised_eq M (fun r => slice (n + 1) rc (r * (n + 1))) hc.1 hc.2 hs half P hh _ _ _ _ _ _
    c4 c5 c6 ?_ c7 x
  intro r hr x
  have hri : r < sp.length := by omega
  have hg : sp.getD r ⟨[], []⟩ = sp[r] := by simp [List.getD_eq_getElem?_getD, hri]
  rw [hg]
  rw [(f3 r _ (List.getElem?_eq_getElem hri)).2]
  simp only [vec_ofFn]
  rw [sparseApply_of _ (hat_sparseM M _)]

/-- The same for the matrices of `MdsMatrices::new`. -/
theorem C114_generated {n : ℕ} (hn : 0 < n) (hw : NoWrap F (n + 1)) (half P : ℕ) (hh : 0 < half)
    (rc : List F) (hl : (2 * half + P) * (n + 1) ≤ rc.length) :
    ∃ (mds : Mds F) (comp : List F) (pre : Mat F) (sparse : List (Sparse F)),
      mdsNew (n + 1) = .ok mds ∧
      compressRoundConstants (n + 1) (2 * half) P rc mds = .ok comp ∧
      factorToSparse mds.m P = .ok (pre, sparse) ∧
      ∀ x, optimised (mat (n + 1) (n + 1) mds.m) (mat (n + 1) (n + 1) pre)
        (slice (n + 1) comp 0)
        (fun r => slice (n + 1) comp ((n + 1) + r * (n + 1)))
        (slice (n + 1) comp (half * (n + 1)))
        (fun r => comp.getD (half * (n + 1) + (n + 1) + r) 0)
        (fun r => vec (n + 1) (sparse.getD r ⟨[], []⟩).wHat)
        (fun r => vec n (sparse.getD r ⟨[], []⟩).vRest)
        (fun r => slice (n + 1) comp (half * (n + 1) + (n + 1) + P + r * (n + 1)))
        half P x
      = permutation (mat (n + 1) (n + 1) mds.m) (fun r => slice (n + 1) rc (r * (n + 1))) half P x := by
  obtain ⟨d, h1, h2, -⟩ := C113_new hn hw
  have hg := generateMds_run (Nat.succ_pos n) hw
  have e : d.m = rows (cauchyM F (n + 1)) := by
    rw [hg] at h2
    exact (Except.ok.inj h2).symm
  have hd : deriveMds d.m = .ok d := by
    unfold mdsNew at h1
    rw [h2, ok_bind] at h1
    exact h1
  obtain ⟨comp, pre, sp, c1, c2, -, -, -, c3⟩ := C114_optimised hn (A := d.m) (by rw [e]; exact isMat_rows _)
    (by rw [e, mat_rows]; exact (cauchyM_symm (F := F) (n + 1)).submatrix _) hd half P hh rc hl
  exact ⟨d, comp, pre, sp, h1, c1, c2, c3⟩

/-- A schedule of two full and three partial rounds of width 3 over the field with 97 elements. -/
example : ∃ (mds : Mds K97) (comp : List K97), mdsNew 3 = .ok mds ∧
    compressRoundConstants 3 2 3 ((List.range 15).map fun i : ℕ => ((i * i + 1 : ℕ) : K97)) mds = .ok comp ∧
    comp.length = 9 := by
  obtain ⟨mds, -, -, -, h1, -, -, -⟩ := C114_generated (by omega : 0 < 2) noWrap97 1 3 (by omega)
    ((List.range 15).map fun i : ℕ => ((i * i + 1 : ℕ) : K97)) (by simp)
  have hd := h1
  unfold mdsNew at hd
  rw [generateMds_run (by omega) noWrap97, ok_bind] at hd
  obtain ⟨comp, -, -, c1, -, c2, -⟩ := C114_optimised (by omega : 0 < 2)
    (isMat_rows (cauchyM K97 3)) (by rw [mat_rows]; exact (cauchyM_symm 3).submatrix _) hd 1 3 (by omega)
    ((List.range 15).map fun i : ℕ => ((i * i + 1 : ℕ) : K97)) (by simp)
  exact ⟨mds, comp, h1, c1, c2⟩

end VO
