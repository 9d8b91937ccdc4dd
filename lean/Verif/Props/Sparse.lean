import Verif.Lemmas.MatrixConcat

/-
Property theorems C03, C04, C16: sparse matrices
(`/repo/voproof/src/tools/mod.rs:90-107, 342-401, 992-998`).
-/

set_option linter.unusedSectionVars false

namespace VO
open Spec

variable {F : Type} [Field F] [DecidableEq F]

/-! ## C03 -/

/-- **C03.** On inputs of matching size, `sparse_mvp` returns the matrix-vector product. -/
theorem C03_product (h k : ℕ) (m : SparseMat F) (right : List F) (hh : 0 < h) (hk : 0 < k)
    (hl : right.length = k) (hr : InRange m h k) :
    ∃ res, sparseMvp h k m right = .ok res ∧ res.length = h ∧
      ∀ i, i < h → res.getD i 0 = mulVec m k right i :=
  sparseMvp_ok h k m right hh hk hl hr

/-- **C03.** It aborts exactly when a dimension is not positive, the vector has the wrong length
or an index is out of range. -/
theorem C03_abort (h k : ℤ) (m : SparseMat F) (right : List F) :
    sparseMvp h k m right = .error .panic ↔
      ¬ (0 < h ∧ 0 < k ∧ (right.length : ℤ) = k ∧ InRange m h.toNat k.toNat) := by
  constructor
  · rintro hp ⟨h1, h2, h3, h4⟩
    obtain ⟨res, hres, -⟩ := sparseMvp_ok h.toNat k.toNat m right (by omega) (by omega)
      (by omega) h4
    rw [Int.toNat_of_nonneg h1.le, Int.toNat_of_nonneg h2.le, hp] at hres
    cases hres
  · exact sparseMvp_panic h k m right

/-- The matrix `[[1, 2], [0, 3]]` with the entry `(0, 1)` given in two parts. -/
example : InRange (F := ℚ) ⟨[0, 0, 1, 0], [0, 1, 1, 1], [1, 1, 3, 1]⟩ 2 2 := by
  simp [InRange, triples]

/-! ## C04 -/

/-- **C04.** The left product macro returns the row-vector product `uᵀ M`. -/
theorem C04_left_product (h k : ℕ) (m : SparseMat F) (u : List F) (hh : 0 < h) (hk : 0 < k)
    (hl : u.length = h) (hr : InRange m h k) :
    ∃ res, leftSparseMvp m u h k = .ok res ∧ res.length = k ∧
      ∀ j, j < k → res.getD j 0 = vecMul m h u j := by
  obtain ⟨res, h1, h2, h3⟩ := sparseMvp_ok k h ⟨m.cols, m.rows, m.vals⟩ u hk hh hl (inRange_swap hr)
  refine ⟨res, h1, h2, fun j hj => ?_⟩
  rw [h3 j hj, mulVec, vecMul]
  apply Finset.sum_congr rfl
  intro i _
  rw [entry_swap, mul_comm]

/-- **C04.** `⟨u, M v⟩ = ⟨uᵀ M, v⟩` for the vectors the two macros return. -/
theorem C04_adjoint (h k : ℕ) (m : SparseMat F) (u v : List F) (hh : 0 < h) (hk : 0 < k)
    (hu : u.length = h) (hv : v.length = k) (hr : InRange m h k) :
    ∃ mv um, sparseMvp h k m v = .ok mv ∧ leftSparseMvp m u h k = .ok um ∧
      inner h u mv = inner k um v := by
  obtain ⟨mv, a1, a2, a3⟩ := C03_product h k m v hh hk hv hr
  obtain ⟨um, b1, b2, b3⟩ := C04_left_product h k m u hh hk hu hr
  refine ⟨mv, um, a1, b1, ?_⟩
  unfold inner
  rw [Finset.sum_congr rfl (g := fun i => ∑ j ∈ Finset.range k,
      u.getD i 0 * (entry m i j * v.getD j 0))]
  · rw [Finset.sum_comm]
    apply Finset.sum_congr rfl
    intro j hj
    rw [b3 j (Finset.mem_range.mp hj), vecMul, Finset.sum_mul]
    apply Finset.sum_congr rfl
    intro i _
    ring
  · intro i hi
    rw [a3 i (Finset.mem_range.mp hi), mulVec, Finset.mul_sum]

example : (0 < 2) ∧ InRange (F := ℚ) ⟨[0, 1, 2], [1, 0, 1], [5, 7, -1]⟩ 3 2 := by
  simp [InRange, triples]

/-! ## C16 -/

/-- **C16.** Entry `(i, j)` of the vertical concatenation of three `h × k` matrices is the
entry of `A`, `B` or `C` in the row block `i` falls into. -/
theorem C16_vertical (h k : ℕ) (a b c : SparseMat F) (sa : SameLengths a) (sb : SameLengths b)
    (ra : InRange a h k) (rb : InRange b h k) (x : List F) (i : ℕ) (hi : i < h) :
    mulVec (concatMatrixVertically h a b c) k x i = mulVec a k x i ∧
    mulVec (concatMatrixVertically h a b c) k x (h + i) = mulVec b k x i ∧
    mulVec (concatMatrixVertically h a b c) k x (2 * h + i) = mulVec c k x i := by
  have key : ∀ i j, entry (concatMatrixVertically h a b c) i j
      = entry a i j + (if h ≤ i then entry b (i - h) j else 0)
        + (if h * 2 ≤ i then entry c (i - h * 2) j else 0) := by
    intro i j
    have e1 := entry_shift b h 0 i j
    have e2 := entry_shift c (h * 2) 0 i j
    simp only [Nat.add_zero, List.map_id', Nat.zero_le, and_true, Nat.sub_zero] at e1 e2
    rw [← e1, ← e2, ← entry_append a ⟨b.rows.map (· + h), b.cols, b.vals⟩ sa,
      ← entry_append ⟨a.rows ++ b.rows.map (· + h), a.cols ++ b.cols, a.vals ++ b.vals⟩
        ⟨c.rows.map (· + h * 2), c.cols, c.vals⟩]
    · rfl
    · refine ⟨?_, ?_⟩ <;> simp [sa.1, sa.2, sb.1, sb.2]
  refine ⟨?_, ?_, ?_⟩ <;> unfold mulVec <;> apply Finset.sum_congr rfl <;> intro j _ <;> rw [key]
  · rw [if_neg (by omega), if_neg (by omega)]; ring
  · rw [if_pos (by omega), if_neg (by omega), entry_out a ra (by omega), Nat.add_sub_cancel_left]
    ring
  · rw [if_pos (by omega), if_pos (by omega), entry_out a ra (by omega),
      entry_out b rb (by omega), show 2 * h + i - h * 2 = i by omega]
    ring

/-- **C16.** The horizontal concatenation of three `h × k` matrices and the sparse vector `d`,
applied to `(1, u, v, w)`, is `A u + B v + C w + d`. -/
theorem C16_horizontal (h k : ℕ) (a b c : SparseMat F) (drows : List ℕ) (dvals : List F)
    (sa : SameLengths a) (sb : SameLengths b) (sc : SameLengths c)
    (sd : drows.length = dvals.length)
    (ra : InRange a h k) (rb : InRange b h k) (rc : InRange c h k)
    (u v w : List F) (hu : u.length = k) (hv : v.length = k) (hw : w.length = k) (i : ℕ) :
    mulVec (concatMatrixHorizontally k a b c drows dvals) (3 * k + 1) (1 :: (u ++ v ++ w)) i
      = mulVec a k u i + mulVec b k v i + mulVec c k w i
        + (((drows.zip dvals).filter (fun p => p.1 = i)).map Prod.snd).sum := by
  set d : SparseMat F := ⟨drows, List.replicate dvals.length 0, dvals⟩ with hd
  have key : ∀ i j, entry (concatMatrixHorizontally k a b c drows dvals) i j
      = (if 1 ≤ j then entry a i (j - 1) else 0) + (if k + 1 ≤ j then entry b i (j - (k + 1)) else 0)
        + (if k * 2 + 1 ≤ j then entry c i (j - (k * 2 + 1)) else 0) + entry d i j := by
    intro i j
    have e0 := entry_shift a 0 1 i j
    have e1 := entry_shift b 0 (k + 1) i j
    have e2 := entry_shift c 0 (k * 2 + 1) i j
    simp only [Nat.add_zero, List.map_id', Nat.zero_le, true_and, Nat.sub_zero] at e0 e1 e2
    rw [← e0, ← e1, ← e2, ← entry_append, ← entry_append, ← entry_append]
    · rfl
    all_goals refine ⟨?_, ?_⟩ <;> simp [sa.1, sa.2, sb.1, sb.2, sc.1, sc.2]
  have hdz : ∀ j, entry d i j
      = if j = 0 then (((drows.zip dvals).filter (fun p => p.1 = i)).map Prod.snd).sum else 0 := by
    intro j
    simp only [entry, triples, hd]
    clear hd key
    clear d
    induction drows generalizing dvals with
    | nil => simp
    | cons r drows ih =>
      cases dvals with
      | nil => simp at sd
      | cons x dvals =>
        have := ih dvals (by simpa using sd)
        simp only [List.length_cons, List.replicate_succ, List.zip_cons_cons, List.filter_cons]
        by_cases hj : j = 0
        · simp only [hj, if_true] at this ⊢
          by_cases hr : r = i
          · simp only [hr, and_self, decide_true, if_true, List.map_cons, List.sum_cons]
            simpa using this
          · simp only [hr, false_and, decide_false]
            simpa using this
        · simp only [hj, if_false] at this ⊢
          have h0 : ¬ (0 = j) := fun h => hj h.symm
          simpa [h0] using this
  unfold mulVec
  simp only [key, add_mul, Finset.sum_add_distrib]
  have ga : ∀ j, j < k → (1 :: (u ++ v ++ w)).getD (1 + j) 0 = u.getD j 0 := by
    intro j hj
    rw [Nat.add_comm, List.getD_cons_succ, List.append_assoc, List.getD_append _ _ _ _ (by omega)]
  have gb : ∀ j, j < k → (1 :: (u ++ v ++ w)).getD (k + 1 + j) 0 = v.getD j 0 := by
    intro j hj
    rw [show k + 1 + j = (k + j) + 1 by ring, List.getD_cons_succ,
      List.getD_append _ _ _ _ (by simp; omega), List.getD_append_right _ _ _ _ (by omega), hu,
      Nat.add_sub_cancel_left]
  have gc : ∀ j, j < k → (1 :: (u ++ v ++ w)).getD (k * 2 + 1 + j) 0 = w.getD j 0 := by
    intro j hj
    rw [show k * 2 + 1 + j = (k + k + j) + 1 by ring, List.getD_cons_succ,
      List.getD_append_right _ _ _ _ (by simp; omega), List.length_append, hu, hv,
      Nat.add_sub_cancel_left]
  congr 1
  · congr 1
    · congr 1
      · rw [sum_range_window (3 * k + 1) 1 k (by omega)]
        · apply Finset.sum_congr rfl
          intro j hj
          rw [if_pos (by omega), ga j (Finset.mem_range.mp hj), Nat.add_sub_cancel_left]
        · intro j hj
          split_ifs with h1
          · rw [entry_out a ra (by omega), zero_mul]
          · rw [zero_mul]
      · rw [sum_range_window (3 * k + 1) (k + 1) k (by omega)]
        · apply Finset.sum_congr rfl
          intro j hj
          rw [if_pos (by omega), gb j (Finset.mem_range.mp hj), Nat.add_sub_cancel_left]
        · intro j hj
          split_ifs with h1
          · rw [entry_out b rb (by omega), zero_mul]
          · rw [zero_mul]
    · rw [sum_range_window (3 * k + 1) (k * 2 + 1) k (by omega)]
      · apply Finset.sum_congr rfl
        intro j hj
        rw [if_pos (by omega), gc j (Finset.mem_range.mp hj), Nat.add_sub_cancel_left]
      · intro j hj
        split_ifs with h1
        · rw [entry_out c rc (by omega), zero_mul]
        · rw [zero_mul]
  · simp only [hdz, ite_mul, zero_mul]
    rw [Finset.sum_ite_eq' (Finset.range (3 * k + 1)) 0]
    simp

example : SameLengths (F := ℚ) ⟨[0, 1], [1, 0], [3, 4]⟩ ∧
    InRange (F := ℚ) ⟨[0, 1], [1, 0], [3, 4]⟩ 2 2 := by
  simp [SameLengths, InRange, triples]

end VO
