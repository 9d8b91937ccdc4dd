import Mathlib.Data.List.OfFn
import Mathlib.Algebra.BigOperators.Fin
import Verif.Lemmas.PoseidonInv

/-
The matrix operations of `/repo/plonk-hashing/src/poseidon/matrix.rs` on rows of Mathlib matrices.
-/

set_option linter.unusedSectionVars false

namespace VO.Poseidon

open VO.Spec.Poseidon Matrix

variable {F : Type} [Field F] [DecidableEq F]

/-- The list of rows of a matrix. -/
def rows {n k : ℕ} (M : Matrix (Fin n) (Fin k) F) : Mat F := List.ofFn fun i => List.ofFn (M i)

theorem isMat_rows {n k : ℕ} (M : Matrix (Fin n) (Fin k) F) : IsMat n k (rows M) := by
  refine ⟨by simp [rows], ?_⟩
  intro r hr
  simp only [rows, List.mem_ofFn] at hr
  obtain ⟨i, rfl⟩ := hr
  simp

theorem vec_ofFn {n : ℕ} (v : Fin n → F) : vec n (List.ofFn v) = v := by
  funext i
  simp [vec, List.getD_eq_getElem?_getD]

theorem ofFn_vec {n : ℕ} {v : List F} (h : v.length = n) : List.ofFn (vec n v) = v := by
  subst h
  apply List.ext_getElem (by simp)
  intro i h1 h2
  simp [vec, List.getD_eq_getElem?_getD, h2]

theorem mat_rows {n k : ℕ} (M : Matrix (Fin n) (Fin k) F) : mat n k (rows M) = M := by
  ext i j
  simp [mat, rows, List.getD_eq_getElem?_getD]

theorem rows_mat {n k : ℕ} {A : Mat F} (h : IsMat n k A) : rows (mat n k A) = A := by
  obtain ⟨h1, h2⟩ := h
  subst h1
  apply List.ext_getElem (by simp [rows])
  intro i h3 h4
  have h5 : (A.getD i []) = A[i] := by simp [List.getD_eq_getElem?_getD, h4]
  simp only [rows, List.getElem_ofFn]
  refine Eq.trans ?_ (ofFn_vec (h2 _ (List.getElem_mem h4)))
  congr 1
  funext j
  simp only [mat, vec, h5]

theorem rows_inj {n k : ℕ} {M N : Matrix (Fin n) (Fin k) F} (h : rows M = rows N) : M = N := by
  rw [← mat_rows M, h, mat_rows]

theorem length_rows {n k : ℕ} (M : Matrix (Fin n) (Fin k) F) : (rows M).length = n := by simp [rows]

theorem foldl_add_eq (l : List F) (a : F) : l.foldl (· + ·) a = a + l.sum := by
  induction l generalizing a with
  | nil => simp
  | cons x xs ih => simp [ih, add_assoc]

theorem zipWith_ofFn {α β γ : Type} {n : ℕ} (f : α → β → γ) (a : Fin n → α) (b : Fin n → β) :
    List.zipWith f (List.ofFn a) (List.ofFn b) = List.ofFn fun i => f (a i) (b i) := by
  apply List.ext_getElem (by simp)
  intro i h1 h2
  simp

theorem innerProduct_ofFn {n : ℕ} (a b : Fin n → F) :
    innerProduct (List.ofFn a) (List.ofFn b) = a ⬝ᵥ b := by
  unfold innerProduct
  rw [foldl_add_eq, zipWith_ofFn, List.sum_ofFn, zero_add]
  rfl

theorem numColumns_rows {n k : ℕ} (hn : 0 < n) (M : Matrix (Fin n) (Fin k) F) :
    numColumns (rows M) = .ok k := by
  obtain ⟨h1, h2⟩ := isMat_rows M
  cases hA : rows M with
  | nil => rw [hA] at h1; simp at h1; omega
  | cons r rs =>
    rw [hA] at h2
    have hr := h2 r (by simp)
    have : ((r :: rs).all fun x => decide (x.length = r.length)) = true := by
      simp only [List.all_eq_true, decide_eq_true_eq]
      intro x hx
      rw [h2 x hx, hr]
    exact (if_pos this).trans (by rw [hr])

theorem isSquare_rows {n : ℕ} (M : Matrix (Fin n) (Fin n) F) : isSquare (rows M) = .ok true := by
  rcases Nat.eq_zero_or_pos n with rfl | hn
  · rfl
  · unfold isSquare
    rw [numColumns_rows hn, ok_bind, length_rows]
    simp [pure, Except.pure]

theorem mapM_ok {α β : Type} (f : α → Res β) (g : α → β) : ∀ (l : List α), (∀ x ∈ l, f x = .ok (g x)) →
    l.mapM f = .ok (l.map g)
  | [], _ => rfl
  | x :: xs, h => by
    rw [List.mapM_cons, h x (by simp), ok_bind, mapM_ok f g xs fun y hy => h y (by simp [hy])]
    rfl

theorem map_range_ofFn {α : Type} (n : ℕ) (f : ℕ → α) : (List.range n).map f = List.ofFn fun i : Fin n => f i := by
  apply List.ext_getElem (by simp)
  intro i h1 h2
  simp

theorem map_ofFn' {α β : Type} {n : ℕ} (f : α → β) (a : Fin n → α) :
    (List.ofFn a).map f = List.ofFn fun i => f (a i) := by
  apply List.ext_getElem (by simp)
  intro i h1 h2
  simp

theorem getD_ofFn {α : Type} {n : ℕ} (a : Fin n → α) (d : α) {i : ℕ} (h : i < n) :
    (List.ofFn a).getD i d = a ⟨i, h⟩ := by
  simp [List.getD_eq_getElem?_getD, h]

theorem getR_ofFn {α : Type} {n : ℕ} (a : Fin n → α) {i : ℕ} (h : i < n) :
    getR (List.ofFn a) i = .ok (a ⟨i, h⟩) := by
  simp [getR, h]

theorem getR_rows {n k : ℕ} (M : Matrix (Fin n) (Fin k) F) {i : ℕ} (h : i < n) :
    getR (rows M) i = .ok (List.ofFn (M ⟨i, h⟩)) := getR_ofFn _ h

/-- `transpose` of a matrix with at least as many columns as rows: the rows are cut. -/
theorem transpose_rows {k m : ℕ} (h : k ≤ m) (M : Matrix (Fin k) (Fin m) F) :
    transpose (rows M) = .ok (rows fun j i : Fin k => M i (Fin.castLE h j)) := by
  unfold transpose
  rw [length_rows, mapM_ok _ (fun j : ℕ => (List.range k).map fun i : ℕ =>
    if hi : i < k then if hj : j < k then M ⟨i, hi⟩ ⟨j, by omega⟩ else 0 else 0)]
  · simp only [map_range_ofFn, rows]
    congr 1
    congr 1
    funext j
    congr 1
    funext i
    simp [Fin.castLE]
  · intro j hj
    rw [List.mem_range] at hj
    refine mapM_ok _ _ _ ?_
    intro i hi
    rw [List.mem_range] at hi
    rw [getR_rows _ hi, ok_bind, getR_ofFn _ (by omega)]
    simp [hi, hj]

theorem transpose_fail {k m : ℕ} (h : m < k) (M : Matrix (Fin k) (Fin m) F) :
    transpose (rows M) = .error .panic := by
  unfold transpose
  rw [length_rows]
  have key : ∀ (l : List ℕ), (∃ j ∈ l, m ≤ j) →
      (l.mapM fun j => (List.range k).mapM fun i => do
        let r ← getR (rows M) i
        getR r j) = .error .panic := by
    intro l
    induction l with
    | nil => rintro ⟨j, hj, -⟩; cases hj
    | cons x xs ih =>
      rintro ⟨j, hj, hm⟩
      obtain ⟨k', rfl⟩ : ∃ k', k = k' + 1 := ⟨k - 1, by omega⟩
      by_cases hx : m ≤ x
      · rw [List.mapM_cons]
        have : ((List.range (k' + 1)).mapM fun i => do
            let r ← getR (rows M) i
            getR r x) = (.error .panic : Res (List F)) := by
          rw [List.range_succ_eq_map, List.mapM_cons, getR_rows _ (by omega), ok_bind]
          have : getR (List.ofFn (M ⟨0, by omega⟩)) x = .error .panic := by
            unfold getR
            rw [List.getElem?_eq_none (by simpa using hx)]
          rw [this]
          rfl
        rw [this]
        rfl
      · rw [List.mapM_cons, mapM_ok _ (fun i : ℕ =>
          if hi : i < k' + 1 then M ⟨i, hi⟩ ⟨x, by omega⟩ else 0), ok_bind, ih]
        · rfl
        · rcases List.mem_cons.1 hj with rfl | hj
          · omega
          · exact ⟨j, hj, hm⟩
        · intro i hi
          rw [List.mem_range] at hi
          rw [getR_rows _ hi, ok_bind, getR_ofFn _ (by omega)]
          simp [hi]
  exact key _ ⟨m, by simpa using h, le_rfl⟩

/-- `matmul` of a `n × k` with a `k × n` matrix gives the first `k` columns of the product. -/
theorem matmul_rows {n k : ℕ} (h : k ≤ n) (A : Matrix (Fin n) (Fin k) F)
    (B : Matrix (Fin k) (Fin n) F) (hk : 0 < k) :
    matmul (rows A) (rows B) = .ok (some (rows fun i (j : Fin k) => (A * B) i (Fin.castLE h j))) := by
  unfold matmul
  rw [numColumns_rows hk, ok_bind, length_rows]
  simp only [ne_eq, not_true_eq_false, if_false]
  rw [transpose_rows h, ok_bind]
  unfold rows
  simp only [map_ofFn', innerProduct_ofFn]
  rfl

theorem matmul_sq {n : ℕ} (A B : Matrix (Fin n) (Fin n) F) :
    matmul (rows A) (rows B) = .ok (some (rows (A * B))) := by
  rcases Nat.eq_zero_or_pos n with rfl | hn
  · rfl
  · rw [matmul_rows le_rfl A B hn]
    rfl

theorem mulColVec_rows {n : ℕ} (A : Matrix (Fin n) (Fin n) F) (v : Fin n → F) :
    mulColVec (rows A) (List.ofFn v) = .ok (List.ofFn (A *ᵥ v)) := by
  unfold mulColVec
  rw [isSquare_rows]
  simp only [ok_bind, assertR, if_true, length_rows, List.length_ofFn]
  unfold rows
  simp only [map_ofFn', innerProduct_ofFn]
  rfl

theorem mulRowVec_rows {n : ℕ} (A : Matrix (Fin n) (Fin n) F) (v : Fin n → F) :
    mulRowVec (rows A) (List.ofFn v) = .ok (List.ofFn (v ᵥ* A)) := by
  unfold mulRowVec
  rw [isSquare_rows]
  simp only [ok_bind, assertR, if_true, length_rows, List.length_ofFn]
  unfold rows
  rw [map_range_ofFn]
  simp only [map_ofFn']
  refine congrArg _ (congrArg _ ?_)
  funext j
  have : (List.ofFn fun i : Fin n => (List.ofFn (A i)).getD j.1 0) = List.ofFn fun i => A i j := by
    congr 1
    funext i
    exact getD_ofFn _ _ j.2
  rw [this, innerProduct_ofFn, dotProduct_comm]
  rfl

theorem identity_rows (n : ℕ) : (identity n : Mat F) = rows (1 : Matrix (Fin n) (Fin n) F) := by
  unfold identity rows
  rw [map_range_ofFn]
  congr 1
  funext i
  rw [map_range_ofFn]
  congr 1
  funext j
  simp [Matrix.one_apply, Fin.ext_iff]

theorem isIdentity_rows {n : ℕ} (A : Matrix (Fin n) (Fin n) F) :
    isIdentity (rows A) = .ok (decide (A = 1)) := by
  unfold isIdentity
  rw [isSquare_rows]
  simp only [ok_bind, Bool.not_true, Bool.false_eq_true, if_false, length_rows, pure, Except.pure]
  congr 1
  rw [Bool.eq_iff_iff]
  simp only [List.all_eq_true, List.mem_range, decide_eq_true_eq]
  have hget : ∀ (i : Fin n) (j : Fin n), ((rows A).getD i []).getD j 0 = A i j := fun i j =>
    congrFun (congrFun (mat_rows A) i) j
  constructor
  · intro h
    ext i j
    rw [← hget, h i i.2 j j.2]
    simp [kroneckerDelta, Matrix.one_apply, Fin.ext_iff]
  · rintro rfl i hi j hj
    have := hget ⟨i, hi⟩ ⟨j, hj⟩
    simp only at this
    rw [this]
    simp [kroneckerDelta, Matrix.one_apply, Fin.ext_iff]

theorem eraseIdx_ofFn {α : Type} {n : ℕ} (a : Fin (n + 1) → α) (j : Fin (n + 1)) :
    (List.ofFn a).eraseIdx j = List.ofFn fun i => a (j.succAbove i) := by
  have hl : ((List.ofFn a).eraseIdx j).length = n := by
    rw [List.length_eraseIdx_of_lt (by rw [List.length_ofFn]; exact j.2)]
    simp
  apply List.ext_getElem (by rw [hl, List.length_ofFn])
  intro i h1 h2
  rw [List.getElem_eraseIdx]
  simp only [List.getElem_ofFn]
  simp only [List.length_ofFn] at h2
  split_ifs with hc
  · congr 1
    rw [Fin.succAbove_of_castSucc_lt _ _ (by simpa [Fin.lt_def] using hc)]
    rfl
  · congr 1
    rw [Fin.succAbove_of_le_castSucc _ _ (by simp [Fin.le_def]; omega)]
    rfl

theorem minorRows_run {n : ℕ} (j : ℕ) (i : ℕ) : ∀ (l : Mat F) (ii : ℕ), (∀ r ∈ l, r.length = n) → j < n →
    minorRows j i ii l = .ok (((if ii ≤ i then l.eraseIdx (i - ii) else l)).map fun r => r.eraseIdx j)
  | [], ii, _, _ => by simp [minorRows]
  | r :: l, ii, h, hj => by
    have hl : ∀ r ∈ l, r.length = n := fun x hx => h x (by simp [hx])
    have ih := minorRows_run j i l (ii + 1) hl hj
    unfold minorRows
    by_cases h1 : ii = i
    · subst h1
      rw [if_pos rfl, ih]
      simp
    · rw [if_neg h1, if_pos (by rw [h r (by simp)]; exact hj), ih, ok_bind]
      by_cases h2 : ii ≤ i
      · rw [if_pos (by omega), if_pos h2]
        obtain ⟨d, hd⟩ : ∃ d, i - ii = d + 1 := ⟨i - ii - 1, by omega⟩
        rw [hd, show i - (ii + 1) = d by omega]
        rfl
      · rw [if_neg (by omega), if_neg h2]
        rfl

theorem minor_rows {n : ℕ} (A : Matrix (Fin (n + 1)) (Fin (n + 1)) F) (i j : Fin (n + 1)) :
    minor (rows A) i j = .ok (rows (A.submatrix i.succAbove j.succAbove)) := by
  unfold minor
  rw [isSquare_rows]
  have e : ((if 0 ≤ i.1 then (rows A).eraseIdx (i.1 - 0) else rows A)).map (fun r => r.eraseIdx j)
      = rows (A.submatrix i.succAbove j.succAbove) := by
    rw [if_pos (Nat.zero_le _), Nat.sub_zero]
    unfold rows
    rw [eraseIdx_ofFn, map_ofFn']
    simp only [eraseIdx_ofFn]
    rfl
  simp only [ok_bind, assertR, if_true, length_rows, Nat.zero_lt_succ]
  rw [minorRows_run (n := n + 1) j.1 i.1 _ 0 (isMat_rows A).2 j.2, e, ok_bind, isSquare_rows]
  simp only [ok_bind, if_true]
  rfl

theorem isSparse_rows {n : ℕ} (A : Matrix (Fin (n + 1)) (Fin (n + 1)) F) :
    isSparse (rows A) = .ok (decide (A.submatrix Fin.succ Fin.succ = 1)) := by
  unfold isSparse
  rw [isSquare_rows]
  simp only [ok_bind, if_true]
  have := minor_rows A 0 0
  simp only [Fin.val_zero, Fin.succAbove_zero] at this
  rw [this, ok_bind, isIdentity_rows]

theorem invert_rows {n : ℕ} (hn : 0 < n) (A : Matrix (Fin n) (Fin n) F) :
    invert (rows A) = .ok (if A.det = 0 then none else some (rows A⁻¹)) := by
  rcases invert_run hn (isMat_rows A) with ⟨h1, h2⟩ | ⟨B, h1, h2, h3⟩
  · rw [mat_rows] at h2
    rw [h1, if_pos h2]
  · rw [mat_rows] at h3
    have : A.det ≠ 0 := by
      intro h
      have := congrArg Matrix.det h3
      rw [Matrix.det_mul, h, mul_zero, Matrix.det_one] at this
      exact zero_ne_one this
    rw [h1, if_neg this, Matrix.inv_eq_left_inv h3, rows_mat h2]

end VO.Poseidon
