import Mathlib.LinearAlgebra.Matrix.ToLinearEquiv
import Mathlib.Data.List.GetD
import Verif.Spec.Poseidon

/-
Gaussian elimination of `/repo/plonk-hashing/src/poseidon/matrix.rs`.
-/

set_option linter.unusedSectionVars false

namespace VO.Poseidon

open VO.Spec.Poseidon Matrix

variable {F : Type} [Field F] [DecidableEq F]

theorem ok_bind {ε α β : Type} (a : α) (f : α → Except ε β) : (Except.ok a >>= f) = f a := rfl

theorem getR_of {α : Type} {l : List α} {i : ℕ} {x : α} (h : l[i]? = some x) : getR l i = .ok x := by
  simp [getR, h]

theorem getR_getD {l : List F} {i : ℕ} (h : i < l.length) : getR l i = .ok (l.getD i 0) := by
  simp [getR, h, List.getD_eq_getElem]

theorem vec_vecSub {n : ℕ} {a b : List F} (ha : a.length = n) (hb : b.length = n) :
    vec n (vecSub a b) = vec n a - vec n b := by
  funext i
  have h1 : i.1 < a.length := by omega
  have h2 : i.1 < b.length := by omega
  simp [vec, vecSub, List.getD_eq_getElem?_getD, List.getElem?_zipWith, h1, h2]

theorem vec_vecAdd {n : ℕ} {a b : List F} (ha : a.length = n) (hb : b.length = n) :
    vec n (vecAdd a b) = vec n a + vec n b := by
  funext i
  have h1 : i.1 < a.length := by omega
  have h2 : i.1 < b.length := by omega
  simp [vec, vecAdd, List.getD_eq_getElem?_getD, List.getElem?_zipWith, h1, h2]

theorem vec_scalar {n : ℕ} (s : F) {a : List F} (ha : a.length = n) :
    vec n (scalarVecMul s a) = s • vec n a := by
  funext i
  have h1 : i.1 < a.length := by omega
  simp [vec, scalarVecMul, List.getD_eq_getElem?_getD, h1]

theorem length_vecSub {n : ℕ} {a b : List F} (ha : a.length = n) (hb : b.length = n) :
    (vecSub a b).length = n := by simp [vecSub, ha, hb]

theorem length_vecAdd {n : ℕ} {a b : List F} (ha : a.length = n) (hb : b.length = n) :
    (vecAdd a b).length = n := by simp [vecAdd, ha, hb]

theorem length_scalar {n : ℕ} (s : F) {a : List F} (ha : a.length = n) :
    (scalarVecMul s a).length = n := by simp [scalarVecMul, ha]

/-- The elimination of one row and its shadow. -/
def el (column : ℕ) (pivot sp : List F) (x : List F × List F) : List F × List F :=
  if x.1.getD column 0 = 0 then x else
    (vecSub x.1 (scalarVecMul (x.1.getD column 0 * (pivot.getD column 0)⁻¹) pivot),
     vecSub x.2 (scalarVecMul (x.1.getD column 0 * (pivot.getD column 0)⁻¹) sp))

/-- The elimination of all rows but one. -/
def elP (column pi : ℕ) (pivot sp : List F) : ℕ → List (List F × List F) → List (List F × List F)
  | _, [] => []
  | i, x :: xs => (if i = pi then x else el column pivot sp x) :: elP column pi pivot sp (i + 1) xs

/-- The rows after elimination. -/
def elR (column pi : ℕ) (pivot sp : List F) : ℕ → List (List F × List F) → List (List F)
  | _, [] => []
  | i, x :: xs =>
    if i = pi then elR column pi pivot sp (i + 1) xs
    else (el column pivot sp x).1 :: elR column pi pivot sp (i + 1) xs

theorem elimRows_run (column pi : ℕ) (pivot sp : List F) :
    ∀ (l2 : List (List F × List F)) (S1 : List (List F)),
      (∀ x ∈ l2, column < x.1.length) → (S1 ++ l2.map (·.2))[pi]? = some sp →
      elimRows pivot (pivot.getD column 0)⁻¹ column pi (l2.map (·.1)) S1.length (S1 ++ l2.map (·.2))
        = .ok (elR column pi pivot sp S1.length l2,
            S1 ++ (elP column pi pivot sp S1.length l2).map (·.2)) := by
  intro l2
  induction l2 with
  | nil => intro S1 _ _; simp [elimRows, elR, elP]
  | cons x xs ih =>
    intro S1 hl hp
    have hxs : ∀ y ∈ xs, column < y.1.length := fun y hy => hl y (by simp [hy])
    have hx := hl x (by simp)
    simp only [List.map_cons, elimRows, elR, elP]
    by_cases hi : S1.length = pi
    · simp only [if_pos hi]
      have := ih (S1 ++ [x.2]) hxs (by simpa using hp)
      simp only [List.length_append, List.length_cons, List.length_nil, Nat.zero_add,
        List.append_assoc, List.cons_append, List.nil_append] at this
      rw [this]
    · simp only [if_neg hi, getR_getD hx]
      by_cases hz : x.1.getD column 0 = 0
      · have := ih (S1 ++ [x.2]) hxs (by simpa using hp)
        simp only [List.length_append, List.length_cons, List.length_nil, Nat.zero_add,
          List.append_assoc, List.cons_append, List.nil_append] at this
        simp only [ok_bind, if_pos hz, el, this]
        rfl
      · have h1 : getR (S1 ++ x.2 :: List.map (·.2) xs) pi = .ok sp := getR_of (by simpa using hp)
        have h2 : getR (S1 ++ x.2 :: List.map (·.2) xs) S1.length = .ok x.2 := getR_of (by simp)
        simp only [ok_bind, if_neg hz, h1, h2]
        rw [List.set_append_right _ _ le_rfl]
        simp only [Nat.sub_self, List.set_cons_zero]
        have := ih (S1 ++ [vecSub x.2 (scalarVecMul (x.1.getD column 0 * (pivot.getD column 0)⁻¹) sp)])
          hxs (by
            rw [← hp]
            simp only [List.append_assoc, List.cons_append, List.nil_append, List.map_cons]
            rw [List.getElem?_append, List.getElem?_append]
            split
            · rfl
            · have : pi - S1.length ≠ 0 := by omega
              obtain ⟨k, hk⟩ := Nat.exists_eq_succ_of_ne_zero this
              rw [hk]; rfl)
        simp only [List.length_append, List.length_cons, List.length_nil, Nat.zero_add,
          List.append_assoc, List.cons_append, List.nil_append] at this
        rw [this]
        simp only [ok_bind, el, if_neg hz]
        rfl

theorem elR_after (column pi : ℕ) (pivot sp : List F) : ∀ (l : List (List F × List F)) (i : ℕ), pi < i →
    elR column pi pivot sp i l = (l.map (el column pivot sp)).map (·.1) ∧
      elP column pi pivot sp i l = l.map (el column pivot sp)
  | [], _, _ => ⟨rfl, rfl⟩
  | x :: xs, i, h => by
    obtain ⟨h1, h2⟩ := elR_after column pi pivot sp xs (i + 1) (by omega)
    simp [elR, elP, show i ≠ pi by omega, h1, h2]

theorem elR_erase (column : ℕ) (pivot sp : List F) : ∀ (l : List (List F × List F)) (i k : ℕ),
    k < l.length →
    elR column (i + k) pivot sp i l = ((l.eraseIdx k).map (el column pivot sp)).map (·.1) ∧
      (elP column (i + k) pivot sp i l).eraseIdx k = (l.eraseIdx k).map (el column pivot sp) ∧
      (elP column (i + k) pivot sp i l)[k]? = l[k]?
  | [], _, _, h => by simp at h
  | x :: xs, i, 0, _ => by
    obtain ⟨h1, h2⟩ := elR_after column i pivot sp xs (i + 1) (by omega)
    simp [elR, elP, h1, h2]
  | x :: xs, i, k + 1, h => by
    obtain ⟨h1, h2, h3⟩ := elR_erase column pivot sp xs (i + 1) k (by simpa using h)
    have e : i + 1 + k = i + (k + 1) := by omega
    rw [e] at h1 h2 h3
    simp [elR, elP, h1, h2, h3]

theorem isPivotRow_run {row : List F} {column : ℕ} (h : column < row.length) :
    isPivotRow row column = .ok (decide (row.getD column 0 ≠ 0) &&
      (List.range column).all fun j => decide (row.getD j 0 = 0)) := by
  simp only [isPivotRow, getR_getD h, ok_bind]
  rfl

theorem findPivot_run {column : ℕ} : ∀ (m : Mat F) (i : ℕ), (∀ r ∈ m, column < r.length) →
    (∀ r ∈ m, ∀ j < column, r.getD j 0 = 0) →
    (findPivot column m i = .ok none ∧ ∀ r ∈ m, r.getD column 0 = 0) ∨
    ∃ k r, findPivot column m i = .ok (some (i + k)) ∧ m[k]? = some r ∧ r.getD column 0 ≠ 0
  | [], i, _, _ => .inl ⟨rfl, by simp⟩
  | r :: rs, i, hl, hz => by
    have hall : ((List.range column).all fun j => decide (r.getD j 0 = 0)) = true := by
      simp only [List.all_eq_true, List.mem_range, decide_eq_true_eq]
      exact hz r (by simp)
    simp only [findPivot, isPivotRow_run (hl r (by simp)), hall, Bool.and_true, ok_bind]
    by_cases h0 : r.getD column 0 = 0
    · simp only [h0, ne_eq, not_true_eq_false, decide_false, Bool.false_eq_true, if_false]
      rcases findPivot_run rs (i + 1) (fun x hx => hl x (by simp [hx]))
        (fun x hx => hz x (by simp [hx])) with ⟨h1, h2⟩ | ⟨k, x, h1, h2, h3⟩
      · exact .inl ⟨h1, List.forall_mem_cons.2 ⟨h0, h2⟩⟩
      · exact .inr ⟨k + 1, x, by rw [h1]; congr 2; omega, by simpa using h2, h3⟩
    · exact .inr ⟨0, r, by simp only [ne_eq, h0, not_false_eq_true, decide_true, if_true]; rfl, rfl, h0⟩

/-- What `eliminate` does to rows that vanish before the column. -/
theorem eliminate_run {column : ℕ} (l : List (List F × List F))
    (hl : ∀ x ∈ l, column < x.1.length) (hz : ∀ x ∈ l, ∀ j < column, x.1.getD j 0 = 0) :
    (eliminate (l.map (·.1)) column (l.map (·.2)) = .ok none ∧ ∀ x ∈ l, x.1.getD column 0 = 0) ∨
    ∃ k p, l[k]? = some p ∧ p.1.getD column 0 ≠ 0 ∧
      eliminate (l.map (·.1)) column (l.map (·.2)) =
        .ok (some ((p :: (l.eraseIdx k).map (el column p.1 p.2)).map (·.1),
          (p :: (l.eraseIdx k).map (el column p.1 p.2)).map (·.2))) := by
  rcases findPivot_run (l.map (·.1)) 0 (by simpa using fun a b h => hl (a, b) h)
    (by simpa using fun a b h => hz (a, b) h) with ⟨h1, h2⟩ | ⟨k, r, h1, h2, h3⟩
  · refine .inl ⟨?_, fun x hx => h2 x.1 (List.mem_map_of_mem hx)⟩
    simp only [eliminate, h1, ok_bind]
    rfl
  · rw [List.getElem?_map, Option.map_eq_some_iff] at h2
    obtain ⟨p, hp, rfl⟩ := h2
    have hk : k < l.length := by
      by_contra hc
      rw [List.getElem?_eq_none (by omega)] at hp
      cases hp
    refine .inr ⟨k, p, hp, h3, ?_⟩
    rw [Nat.zero_add] at h1
    have e := elimRows_run column k p.1 p.2 l [] hl (by simp [hp])
    simp only [List.nil_append, List.length_nil] at e
    obtain ⟨e1, e2, e3⟩ := elR_erase column p.1 p.2 l 0 k hk
    rw [Nat.zero_add] at e1 e2 e3
    have g1 : getR (l.map (·.1)) k = .ok p.1 := getR_of (by simp [hp])
    have g2 : getR p.1 column = .ok (p.1.getD column 0) :=
      getR_getD (hl p (List.mem_of_getElem? hp))
    have g3 : getR ((elP column k p.1 p.2 0 l).map (·.2)) k = .ok p.2 :=
      getR_of (by rw [List.getElem?_map, e3, hp]; rfl)
    simp only [eliminate, h1, ok_bind, g1, g2, e, g3, e1, List.map_cons]
    rw [List.eraseIdx_map, e2]
    rfl

/-- A row of the original matrix' row space together with its coefficients. -/
def Tied {n : ℕ} (A : Matrix (Fin n) (Fin n) F) (x : List F × List F) : Prop :=
  x.1.length = n ∧ x.2.length = n ∧ vec n x.2 ᵥ* A = vec n x.1

theorem Tied.el {n : ℕ} {A : Matrix (Fin n) (Fin n) F} {p x : List F × List F} (hp : Tied A p)
    (hx : Tied A x) (column : ℕ) : Tied A (el column p.1 p.2 x) := by
  unfold Poseidon.el
  split
  · exact hx
  · obtain ⟨p1, p2, p3⟩ := hp
    obtain ⟨x1, x2, x3⟩ := hx
    refine ⟨length_vecSub x1 (length_scalar _ p1), length_vecSub x2 (length_scalar _ p2), ?_⟩
    rw [vec_vecSub x2 (length_scalar _ p2), vec_scalar _ p2, vec_vecSub x1 (length_scalar _ p1),
      vec_scalar _ p1, Matrix.sub_vecMul, Matrix.smul_vecMul, p3, x3]

/-- The elimination makes the column zero. -/
theorem el_zero {n column : ℕ} (hc : column < n) {p x : List F × List F} (hp : p.1.length = n)
    (hx : x.1.length = n) (h0 : p.1.getD column 0 ≠ 0) :
    (el column p.1 p.2 x).1.getD column 0 = 0 := by
  unfold el
  split
  · assumption
  · have := congrFun (vec_vecSub hx (length_scalar (x.1.getD column 0 * (p.1.getD column 0)⁻¹) hp))
      ⟨column, hc⟩
    rw [vec_scalar _ hp] at this
    simp only [vec, Pi.sub_apply, Pi.smul_apply, smul_eq_mul] at this
    rw [this, mul_assoc, inv_mul_cancel₀ h0]
    ring

/-- The elimination keeps zeros. -/
theorem el_keep {n column j : ℕ} (hj : j < n) {p x : List F × List F} (hp : p.1.length = n)
    (hx : x.1.length = n) (h0 : p.1.getD j 0 = 0) (h1 : x.1.getD j 0 = 0) :
    (el column p.1 p.2 x).1.getD j 0 = 0 := by
  unfold el
  split
  · assumption
  · have := congrFun (vec_vecSub hx (length_scalar (x.1.getD column 0 * (p.1.getD column 0)⁻¹) hp))
      ⟨j, hj⟩
    rw [vec_scalar _ hp] at this
    simp only [vec, Pi.sub_apply, Pi.smul_apply, smul_eq_mul] at this
    rw [this, h0, h1]
    ring

/-- What the pivot and the eliminated row kill, the row kills. -/
theorem el_kill {n column : ℕ} {p x : List F × List F} (hp : p.1.length = n)
    (hx : x.1.length = n) {v : Fin n → F} (h0 : vec n p.1 ⬝ᵥ v = 0)
    (h1 : vec n (el column p.1 p.2 x).1 ⬝ᵥ v = 0) : vec n x.1 ⬝ᵥ v = 0 := by
  unfold el at h1
  split at h1
  · exact h1
  · simp only at h1
    rw [vec_vecSub hx (length_scalar _ hp), vec_scalar _ hp, sub_dotProduct, smul_dotProduct, h0,
      smul_zero, sub_zero] at h1
    exact h1

/-- A vector that all rows kill, not zero from the column on. -/
def Killed (n column : ℕ) (l : List (List F × List F)) : Prop :=
  ∃ v : Fin n → F, (∃ j : Fin n, column ≤ j ∧ v j ≠ 0) ∧ ∀ x ∈ l, vec n x.1 ⬝ᵥ v = 0

theorem killed_of_zero {n column : ℕ} (hc : column < n) {l : List (List F × List F)}
    (h : ∀ x ∈ l, x.1.getD column 0 = 0) : Killed n column l := by
  refine ⟨Pi.single ⟨column, hc⟩ 1, ⟨⟨column, hc⟩, le_rfl, by simp⟩, fun x hx => ?_⟩
  rw [dotProduct_single]
  simp [vec]
  simpa using h x hx

theorem killed_step {n column : ℕ} (hc : column < n) {p : List F × List F}
    {l : List (List F × List F)} (h0 : p.1.getD column 0 ≠ 0)
    (hz : ∀ x ∈ l, x.1.getD column 0 = 0) (h : Killed n (column + 1) l) :
    Killed n column (p :: l) := by
  obtain ⟨v, ⟨j, hj, hv⟩, hk⟩ := h
  let c := -(vec n p.1 ⬝ᵥ v) / p.1.getD column 0
  refine ⟨v + Pi.single ⟨column, hc⟩ c, ⟨j, by omega, ?_⟩, ?_⟩
  · have : j ≠ ⟨column, hc⟩ := fun h => by subst h; simp at hj
    simp [this, hv]
  · rw [List.forall_mem_cons]
    constructor
    · rw [dotProduct_add, dotProduct_single]
      simp only [vec, c]
      field_simp
      ring
    · intro x hx
      rw [dotProduct_add, dotProduct_single, hk x hx]
      simp only [vec, hz x hx]
      ring

theorem mem_of_erase {α : Type} {l : List α} {k : ℕ} {p x : α} (hp : l[k]? = some p) (hx : x ∈ l) :
    x = p ∨ x ∈ l.eraseIdx k := by
  obtain ⟨i, hi⟩ := List.getElem?_of_mem hx
  by_cases h : i = k
  · left
    subst h
    rw [hp] at hi
    simpa using hi.symm
  · right
    exact List.mem_eraseIdx_iff_getElem?.2 ⟨i, h, hi⟩

/-- The loop of `upper_triangular`. -/
theorem utLoop_run {n : ℕ} (A : Matrix (Fin n) (Fin n) F) : ∀ (k column : ℕ) (l : List (List F × List F)),
    column + l.length = n → 0 < l.length → l.length ≤ k → (∀ x ∈ l, Tied A x) →
    (∀ x ∈ l, ∀ j < column, x.1.getD j 0 = 0) →
    (utLoop k column (l.map (·.1)) (l.map (·.2)) = .ok none ∧ Killed n column l) ∨
    ∃ l' : List (List F × List F), utLoop k column (l.map (·.1)) (l.map (·.2)) = .ok (some (l'.map (·.1), l'.map (·.2))) ∧
      l'.length = l.length ∧ (∀ x ∈ l', Tied A x) ∧
      (∀ t x, l'[t]? = some x → (∀ j < column + t, x.1.getD j 0 = 0) ∧
        (t + 1 < l.length → x.1.getD (column + t) 0 ≠ 0) ∧
        (t + 1 = l.length → x.1.getD (column + t) 0 = 0 → Killed n column l))
  | 0, column, l, h1, h2, h3, _, _ => by omega
  | k + 1, column, l, h1, h2, h3, h4, h5 => by
    have hc : column < n := by omega
    by_cases hl : 1 < l.length
    · have hlen : ∀ x ∈ l, column < x.1.length := fun x hx => by rw [(h4 x hx).1]; exact hc
      simp only [utLoop, List.length_map, if_pos hl]
      rcases eliminate_run l hlen h5 with ⟨e1, e2⟩ | ⟨i, p, e1, e2, e3⟩
      · left
        simp only [e1, ok_bind]
        exact ⟨rfl, killed_of_zero hc e2⟩
      · have hi : i < l.length := by
          by_contra hcc
          rw [List.getElem?_eq_none (by omega)] at e1
          cases e1
        have hpm : p ∈ l := List.mem_of_getElem? e1
        have hsub : ∀ x ∈ l.eraseIdx i, x ∈ l := fun x hx => List.mem_of_mem_eraseIdx hx
        set l2 := (l.eraseIdx i).map (el column p.1 p.2) with hl2
        have hl2len : l2.length = l.length - 1 := by
          rw [hl2, List.length_map, List.length_eraseIdx, if_pos hi]
        have q0 : ∀ x ∈ l2, x.1.getD column 0 = 0 := by
          intro x hx
          obtain ⟨y, hy, rfl⟩ := List.mem_map.1 hx
          exact el_zero hc (h4 p hpm).1 (h4 y (hsub y hy)).1 e2
        have q1 : ∀ x ∈ l2, Tied A x := by
          intro x hx
          obtain ⟨y, hy, rfl⟩ := List.mem_map.1 hx
          exact (h4 p hpm).el (h4 y (hsub y hy)) column
        have q2 : ∀ x ∈ l2, ∀ j < column + 1, x.1.getD j 0 = 0 := by
          intro x hx j hj
          by_cases hjc : j = column
          · rw [hjc]; exact q0 x hx
          · obtain ⟨y, hy, rfl⟩ := List.mem_map.1 hx
            exact el_keep (by omega) (h4 p hpm).1 (h4 y (hsub y hy)).1 (h5 p hpm j (by omega))
              (h5 y (hsub y hy) j (by omega))
        have kill : Killed n (column + 1) l2 → Killed n column l := by
          intro h
          obtain ⟨v, hv, hk⟩ := killed_step hc e2 q0 h
          refine ⟨v, hv, fun x hx => ?_⟩
          have kp := hk p (by simp)
          rcases mem_of_erase e1 hx with rfl | hx
          · exact kp
          · exact el_kill (h4 p hpm).1 (h4 x (hsub x hx)).1 kp
              (hk _ (List.mem_cons_of_mem _ (List.mem_map_of_mem hx)))
        have g1 : getR ((p :: l2).map (·.1)) 0 = .ok p.1 := rfl
        have g2 : getR ((p :: l2).map (·.2)) 0 = .ok p.2 := rfl
        have g3 : ((p :: l2).map (·.1)).drop 1 = l2.map (·.1) := rfl
        have g4 : ((p :: l2).map (·.2)).drop 1 = l2.map (·.2) := rfl
        simp only [e3, ok_bind, g1, g2, g3, g4, assertR, List.length_map, if_pos hl2len]
        rcases utLoop_run A k (column + 1) l2 (by omega) (by omega) (by omega) q1 q2 with
          ⟨r1, r2⟩ | ⟨l', r1, r2, r3, r4⟩
        · left
          simp only [r1, ok_bind]
          exact ⟨rfl, kill r2⟩
        · right
          refine ⟨p :: l', ?_, ?_, ?_, ?_⟩
          · simp only [r1, ok_bind]
            rfl
          · rw [List.length_cons, r2, hl2len]; omega
          · exact List.forall_mem_cons.2 ⟨h4 p hpm, r3⟩
          · intro t x hx
            cases t with
            | zero =>
              simp only [List.getElem?_cons_zero, Option.some.injEq] at hx
              subst hx
              exact ⟨fun j hj => h5 p hpm j hj, fun _ => e2, fun h => by omega⟩
            | succ t =>
              rw [List.getElem?_cons_succ] at hx
              obtain ⟨s1, s2, s3⟩ := r4 t x hx
              have e : column + (t + 1) = column + 1 + t := by omega
              rw [e]
              exact ⟨s1, fun h => s2 (by omega), fun h h' => kill (s3 (by omega) h')⟩
    · have hl1 : l.length = 1 := by omega
      obtain ⟨x, rfl⟩ := List.length_eq_one_iff.1 hl1
      right
      refine ⟨[x], ?_, rfl, h4, ?_⟩
      · simp [utLoop, getR, ok_bind]
      · intro t y hy
        cases t with
        | succ t => simp at hy
        | zero =>
          simp only [List.getElem?_cons_zero, Option.some.injEq] at hy
          subst hy
          refine ⟨fun j hj => h5 x (by simp) j hj, fun h => by simp at h, fun _ h => ?_⟩
          exact killed_of_zero hc (by simpa using h)

theorem Tied.comb {n : ℕ} {A : Matrix (Fin n) (Fin n) F} {p x : List F × List F} (hp : Tied A p)
    (hx : Tied A x) (f : F) : Tied A (vecSub x.1 (scalarVecMul f p.1), vecSub x.2 (scalarVecMul f p.2)) := by
  obtain ⟨p1, p2, p3⟩ := hp
  obtain ⟨x1, x2, x3⟩ := hx
  refine ⟨length_vecSub x1 (length_scalar _ p1), length_vecSub x2 (length_scalar _ p2), ?_⟩
  rw [vec_vecSub x2 (length_scalar _ p2), vec_scalar _ p2, vec_vecSub x1 (length_scalar _ p1),
    vec_scalar _ p1, Matrix.sub_vecMul, Matrix.smul_vecMul, p3, x3]

theorem Tied.scale {n : ℕ} {A : Matrix (Fin n) (Fin n) F} {x : List F × List F}
    (hx : Tied A x) (f : F) : Tied A (scalarVecMul f x.1, scalarVecMul f x.2) := by
  obtain ⟨x1, x2, x3⟩ := hx
  refine ⟨length_scalar _ x1, length_scalar _ x2, ?_⟩
  rw [vec_scalar _ x2, vec_scalar _ x1, Matrix.smul_vecMul, x3]

theorem getD_comb {n j : ℕ} (hj : j < n) {a b : List F} (ha : a.length = n) (hb : b.length = n) (f : F) :
    (vecSub a (scalarVecMul f b)).getD j 0 = a.getD j 0 - f * b.getD j 0 := by
  have := congrFun (vec_vecSub ha (length_scalar f hb)) ⟨j, hj⟩
  rw [vec_scalar _ hb] at this
  simpa only [vec, Pi.sub_apply, Pi.smul_apply, smul_eq_mul] using this

theorem getD_scale {n j : ℕ} (hj : j < n) {a : List F} (ha : a.length = n) (f : F) :
    (scalarVecMul f a).getD j 0 = f * a.getD j 0 := by
  have := congrFun (vec_scalar f ha) ⟨j, hj⟩
  simpa only [vec, Pi.smul_apply, smul_eq_mul] using this

/-- The rows found so far, last first, are those of the identity. -/
def Done {n : ℕ} (A : Matrix (Fin n) (Fin n) F) (acc : List (List F × List F)) : Prop :=
  ∀ j x, acc[j]? = some x → Tied A x ∧ ∀ c < n, x.1.getD c 0 = if c = n - j - 1 then 1 else 0

theorem reduceFold_run {n i : ℕ} {A : Matrix (Fin n) (Fin n) F} {acc : List (List F × List F)}
    (hi : i < n) (hacc : acc.length = i) (hD : Done A acc) {p : List F × List F} (hp : Tied A p)
    (h0 : ∀ j < n - i - 1, p.1.getD j 0 = 0) (h1 : p.1.getD (n - i - 1) 0 = 1) : ∀ k ≤ i,
    ∃ q, (List.range k).foldlM (fun (p : List F × List F) j => (do
      let val ← getR p.1 (n - j - 1)
      let r ← getR (acc.map (·.1)) j
      let s ← getR (acc.map (·.2)) j
      return (vecSub p.1 (scalarVecMul val r), vecSub p.2 (scalarVecMul val s)) :
        Res (List F × List F))) p = .ok q ∧ Tied A q ∧ (∀ j < n - i - 1, q.1.getD j 0 = 0) ∧
      q.1.getD (n - i - 1) 0 = 1 ∧ ∀ j < n, n - k ≤ j → q.1.getD j 0 = 0 := by
  intro k
  induction k with
  | zero => exact fun _ => ⟨p, rfl, hp, h0, h1, fun j hj hj' => by omega⟩
  | succ k ih =>
    intro hk
    obtain ⟨q, e, q1, q2, q3, q4⟩ := ih (by omega)
    have hka : k < acc.length := by omega
    obtain ⟨d1, d2⟩ := hD k acc[k] (List.getElem?_eq_getElem hka)
    rw [List.range_succ, List.foldlM_append, e, ok_bind]
    have g1 : getR q.1 (n - k - 1) = .ok (q.1.getD (n - k - 1) 0) := getR_getD (by rw [q1.1]; omega)
    have g2 : getR (acc.map (·.1)) k = .ok acc[k].1 := getR_of (by simp [hka])
    have g3 : getR (acc.map (·.2)) k = .ok acc[k].2 := getR_of (by simp [hka])
    refine ⟨_, by simp only [List.foldlM_cons, List.foldlM_nil, g1, g2, g3, ok_bind]; rfl,
      d1.comb q1 _, fun j hj => ?_, ?_, fun j hj hj' => ?_⟩
    · simp only
      rw [getD_comb (by omega) q1.1 d1.1, q2 j hj, d2 j (by omega), if_neg (by omega)]
      ring
    · simp only
      rw [getD_comb (by omega) q1.1 d1.1, q3, d2 _ (by omega), if_neg (by omega)]
      ring
    · simp only
      rw [getD_comb hj q1.1 d1.1, d2 j hj]
      by_cases hjk : j = n - k - 1
      · rw [if_pos hjk, hjk]; ring
      · rw [if_neg hjk, q4 j hj (by omega)]; ring

/-- Upper triangular rows. -/
def Tri {n : ℕ} (A : Matrix (Fin n) (Fin n) F) (l : List (List F × List F)) : Prop :=
  l.length = n ∧ ∀ t x, l[t]? = some x → Tied A x ∧ (∀ j < t, x.1.getD j 0 = 0)

theorem reduceStep_run {n i : ℕ} {A : Matrix (Fin n) (Fin n) F} {l acc : List (List F × List F)}
    (hT : Tri A l) (hi : i < n) (hacc : acc.length = i) (hD : Done A acc) {x : List F × List F}
    (hx : l[n - i - 1]? = some x) :
    (x.1.getD (n - i - 1) 0 = 0 ∧
      reduceStep (l.map (·.1)) (l.map (·.2)) i (acc.map (·.1)) (acc.map (·.2)) = .ok none) ∨
    (x.1.getD (n - i - 1) 0 ≠ 0 ∧ ∃ q,
      reduceStep (l.map (·.1)) (l.map (·.2)) i (acc.map (·.1)) (acc.map (·.2))
        = .ok (some ((acc ++ [q]).map (·.1), (acc ++ [q]).map (·.2))) ∧ Done A (acc ++ [q])) := by
  obtain ⟨t1, t2⟩ := hT.2 _ _ hx
  have g1 : getR (l.map (·.1)) (n - i - 1) = .ok x.1 := getR_of (by simp [hx])
  have g2 : getR (l.map (·.2)) (n - i - 1) = .ok x.2 := getR_of (by simp [hx])
  have g3 : getR x.1 (n - i - 1) = .ok (x.1.getD (n - i - 1) 0) := getR_getD (by rw [t1.1]; omega)
  simp only [reduceStep, List.length_map, hT.1, g1, g2, g3, ok_bind]
  by_cases h0 : x.1.getD (n - i - 1) 0 = 0
  · left
    exact ⟨h0, by rw [if_pos h0]; rfl⟩
  · right
    refine ⟨h0, ?_⟩
    obtain ⟨q, e, q1, q2, q3, q4⟩ := reduceFold_run hi hacc hD (p := (scalarVecMul
      (x.1.getD (n - i - 1) 0)⁻¹ x.1, scalarVecMul (x.1.getD (n - i - 1) 0)⁻¹ x.2))
      (t1.scale _) (fun j hj => by
        simp only
        rw [getD_scale (by omega) t1.1, t2 j hj, mul_zero]) (by
        simp only
        rw [getD_scale (by omega) t1.1, inv_mul_cancel₀ h0]) i le_rfl
    refine ⟨q, ?_, ?_⟩
    · rw [if_neg h0, e, ok_bind]
      simp
      rfl
    · intro j y hy
      rcases lt_or_ge j acc.length with hj | hj
      · rw [List.getElem?_append_left hj] at hy
        exact hD j y hy
      · rw [List.getElem?_append_right hj] at hy
        have hj0 : j - acc.length = 0 := by
          by_contra hc
          rw [List.getElem?_eq_none (by simp; omega)] at hy
          cases hy
        rw [hj0] at hy
        simp only [List.getElem?_cons_zero, Option.some.injEq] at hy
        subst hy
        have : j = i := by omega
        subst this
        refine ⟨q1, fun c hc => ?_⟩
        by_cases h1 : c = n - j - 1
        · rw [if_pos h1, h1, q3]
        · rw [if_neg h1]
          rcases lt_or_gt_of_ne h1 with h | h
          · exact q2 c h
          · exact q4 c hc (by omega)

theorem reduceLoop_run {n : ℕ} {A : Matrix (Fin n) (Fin n) F} {l : List (List F × List F)}
    (hT : Tri A l) (hd : ∀ t (x : List F × List F), l[t]? = some x → x.1.getD t 0 ≠ 0) :
    ∀ (k i : ℕ) (acc : List (List F × List F)), i + k = n → acc.length = i → Done A acc →
    ∃ acc' : List (List F × List F), reduceLoop (l.map (·.1)) (l.map (·.2)) k i (acc.map (·.1))
        (acc.map (·.2)) = .ok (some (acc'.map (·.1), acc'.map (·.2))) ∧ acc'.length = n ∧ Done A acc'
  | 0, i, acc, h1, h2, h3 => ⟨acc, rfl, by omega, h3⟩
  | k + 1, i, acc, h1, h2, h3 => by
    have hi : n - i - 1 < l.length := by rw [hT.1]; omega
    rcases reduceStep_run hT (by omega) h2 h3 (List.getElem?_eq_getElem hi) with ⟨e, -⟩ | ⟨-, q, e, d⟩
    · exact absurd e (hd _ _ (List.getElem?_eq_getElem hi))
    · obtain ⟨acc', r1, r2, r3⟩ := reduceLoop_run hT hd k (i + 1) (acc ++ [q]) (by omega)
        (by simp [h2]) d
      exact ⟨acc', by simp only [reduceLoop, e, ok_bind]; exact r1, r2, r3⟩

theorem vec_row {n : ℕ} {A : Mat F} (i : Fin n) : (fun j => mat n n A i j) = vec n (A.getD i []) := rfl

theorem isSquare_run {n : ℕ} (hn : 0 < n) {A : Mat F} (hA : IsMat n n A) : isSquare A = .ok true ∧
    numColumns A = .ok n := by
  obtain ⟨h1, h2⟩ := hA
  cases A with
  | nil => simp at h1; omega
  | cons r rs =>
    have hr := h2 r (by simp)
    have : ((r :: rs).all fun x => decide (x.length = r.length)) = true := by
      simp only [List.all_eq_true, decide_eq_true_eq]
      intro x hx
      rw [h2 x hx, hr]
    have hc : numColumns (r :: rs) = .ok n := by
      exact (if_pos this).trans (by rw [hr])
    refine ⟨?_, hc⟩
    unfold isSquare
    rw [hc, ok_bind, h1]
    simp [pure, Except.pure]

theorem getD_map_range {α : Type} (f : ℕ → α) (d : α) {n i : ℕ} (h : i < n) :
    ((List.range n).map f).getD i d = f i := by
  simp [List.getD_eq_getElem?_getD, h]

theorem vec_identity (n : ℕ) (i : Fin n) :
    vec n (((identity n : Mat F)).getD i []) = Pi.single i 1 := by
  funext j
  unfold vec identity
  rw [getD_map_range _ _ i.2, getD_map_range _ _ j.2, Pi.single_apply]
  simp only [Fin.ext_iff]
  by_cases h : i.1 = j.1
  · rw [if_pos h, if_pos h.symm]
  · rw [if_neg h, if_neg (Ne.symm h)]

/-- `invert` of a square matrix. -/
theorem invert_run {n : ℕ} (hn : 0 < n) {A : Mat F} (hA : IsMat n n A) :
    (invert A = .ok none ∧ (mat n n A).det = 0) ∨
    ∃ B, invert A = .ok (some B) ∧ IsMat n n B ∧ mat n n B * mat n n A = 1 := by
  obtain ⟨s1, s2⟩ := isSquare_run hn hA
  have hid : (identity n : Mat F).length = n := by simp [identity]
  let l := A.zip (identity n : Mat F)
  have hl : l.length = n := by simp [l, hid, hA.1]
  have m1 : l.map (·.1) = A := List.map_fst_zip (by rw [hid, hA.1])
  have m2 : l.map (·.2) = identity n := List.map_snd_zip (by rw [hid, hA.1])
  have hget : ∀ (i : ℕ) (x : List F × List F), l[i]? = some x → i < n ∧ x.1 = A.getD i [] ∧
      x.2 = (identity n : Mat F).getD i [] := by
    intro i x hx
    have hi : i < l.length := by
      by_contra hc
      rw [List.getElem?_eq_none (by omega)] at hx
      cases hx
    refine ⟨by omega, ?_, ?_⟩
    · rw [← m1, List.getD_eq_getElem?_getD, List.getElem?_map, hx]; rfl
    · rw [← m2, List.getD_eq_getElem?_getD, List.getElem?_map, hx]; rfl
  have htied : ∀ x ∈ l, Tied (mat n n A) x := by
    intro x hx
    obtain ⟨i, hi⟩ := List.getElem?_of_mem hx
    obtain ⟨h1, h2, h3⟩ := hget i x hi
    refine ⟨?_, ?_, ?_⟩
    · exact hA.2 x.1 (by rw [← m1]; exact List.mem_map_of_mem hx)
    · rw [h3]
      unfold identity
      rw [getD_map_range _ _ h1]
      simp
    · rw [h3, vec_identity n ⟨i, h1⟩, Matrix.single_one_vecMul, h2]
      rfl
  have hkill : Killed n 0 l → (mat n n A).det = 0 := by
    rintro ⟨v, ⟨j, -, hv⟩, hk⟩
    refine Matrix.exists_mulVec_eq_zero_iff.1 ⟨v, fun h => hv (by rw [h]; rfl), ?_⟩
    funext i
    have hi : i.1 < l.length := by omega
    have := hk _ (List.getElem_mem hi)
    rw [(hget i.1 _ (List.getElem?_eq_getElem hi)).2.1] at this
    exact this
  have hut : upperTriangular A (identity n) = utLoop (n + 1) 0 (l.map (·.1)) (l.map (·.2)) := by
    unfold upperTriangular
    simp only [s1, ok_bind, assertR, if_true, hA.1, m1, m2]
  rcases utLoop_run (mat n n A) (n + 1) 0 l (by omega) (by omega) (by omega) htied
    (fun x _ j hj => by omega) with ⟨r1, r2⟩ | ⟨l', r1, r2, r3, r4⟩
  · left
    refine ⟨?_, hkill r2⟩
    unfold invert
    simp only [s2, ok_bind, hut, r1]
    rfl
  · have hl' : l'.length = n := by omega
    have hT : Tri (mat n n A) l' := ⟨hl', fun t x hx => ⟨r3 x (List.mem_of_getElem? hx), by
      have := (r4 t x hx).1
      rwa [Nat.zero_add] at this⟩⟩
    have hlast : n - 0 - 1 < l'.length := by omega
    by_cases h0 : (l'[n - 0 - 1]).1.getD (n - 0 - 1) 0 = 0
    · left
      have hx := List.getElem?_eq_getElem hlast
      refine ⟨?_, hkill ((r4 _ _ hx).2.2 (by omega) (by rw [Nat.zero_add]; exact h0))⟩
      rcases reduceStep_run hT hn (acc := []) rfl (fun j x hx => by simp at hx) hx with
        ⟨-, e⟩ | ⟨e, -⟩
      · obtain ⟨m, rfl⟩ : ∃ m, n = m + 1 := ⟨n - 1, by omega⟩
        have : reduceLoop (l'.map (·.1)) (l'.map (·.2)) (m + 1) 0 [] [] = .ok none := by
          simp only [reduceLoop]
          simp only [List.map_nil] at e
          rw [e]
          rfl
        unfold invert reduceToIdentity
        simp only [s2, ok_bind, hut, r1, List.length_map, hl', this]
        rfl
      · exact absurd h0 e
    · right
      have hd : ∀ t (x : List F × List F), l'[t]? = some x → x.1.getD t 0 ≠ 0 := by
        intro t x hx
        have ht : t < l'.length := by
          by_contra hc
          rw [List.getElem?_eq_none (by omega)] at hx
          cases hx
        by_cases hl1 : t + 1 < l.length
        · have := (r4 t x hx).2.1 hl1
          rwa [Nat.zero_add] at this
        · have e : t = n - 0 - 1 := by omega
          subst e
          rw [List.getElem?_eq_getElem hlast] at hx
          simp only [Option.some.injEq] at hx
          rw [← hx]
          exact h0
      obtain ⟨acc, a1, a2, a3⟩ := reduceLoop_run hT hd n 0 [] (by omega) rfl
        (fun j x hx => by simp at hx)
      refine ⟨(acc.map (·.2)).reverse, ?_, ⟨by simp [a2], ?_⟩, ?_⟩
      · unfold invert reduceToIdentity
        simp only [List.map_nil] at a1
        simp only [s2, ok_bind, hut, r1, List.length_map, hl', a1]
        rfl
      · intro r hr
        rw [List.mem_reverse] at hr
        obtain ⟨x, hx, rfl⟩ := List.mem_map.1 hr
        obtain ⟨j, hj⟩ := List.getElem?_of_mem hx
        exact (a3 j x hj).1.2.1
      · ext i c
        have hi : n - i.1 - 1 < acc.length := by omega
        obtain ⟨⟨t1, t2, t3⟩, d2⟩ := a3 _ _ (List.getElem?_eq_getElem hi)
        have e : ((acc.map (·.2)).reverse).getD i.1 [] = (acc[n - i.1 - 1]).2 := by
          rw [List.getD_eq_getElem?_getD, List.getElem?_reverse (by simp [a2]), List.getElem?_map,
            List.length_map, a2, show n - 1 - i.1 = n - i.1 - 1 by omega,
            List.getElem?_eq_getElem hi]
          rfl
        have h := congrFun t3 c
        simp only [vec] at h
        rw [d2 c c.2] at h
        rw [Matrix.mul_apply]
        have h2 : ∑ j, mat n n ((acc.map (·.2)).reverse) i j * mat n n A j c
            = (vec n (acc[n - i.1 - 1]).2 ᵥ* mat n n A) c := by
          rw [← e]; rfl
        rw [h2]
        simp only [Matrix.vecMul, dotProduct] at h ⊢
        refine h.trans ?_
        rw [Matrix.one_apply]
        simp only [Fin.ext_iff]
        by_cases hic : i.1 = c.1
        · rw [if_pos hic, if_pos (by omega)]
        · rw [if_neg hic, if_neg (by omega)]

end VO.Poseidon
