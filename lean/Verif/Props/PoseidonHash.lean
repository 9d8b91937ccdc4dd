import Verif.Spec.PoseidonHash
import Verif.Lemmas.PoseidonNative
import Verif.Lemmas.SnarkExample

/-
C115: the native Poseidon hasher, `/repo/plonk-hashing/src/poseidon/poseidon_ref.rs`.
-/

set_option linter.unusedSectionVars false

namespace VO

open VO.Poseidon VO.Spec.Poseidon Matrix

variable {F : Type} [Field F] [DecidableEq F]

/-! ### C115 -/

section calls

variable {V : Type}

/-- Inputs are stored from the current position on. -/
theorem inputs_eq : ∀ (xs : List V) (h : Hasher V F),
    inputs h xs = if h.pos + xs.length ≤ h.elements.length ∨ xs = [] then
      some ⟨h.offset, h.elements.take h.pos ++ xs ++ h.elements.drop (h.pos + xs.length),
        h.pos + xs.length, h.constants⟩ else none
  | [], h => by
    rw [if_pos (Or.inr rfl)]
    unfold inputs
    simp
  | x :: xs, h => by
    unfold inputs hasherInput
    by_cases hp : h.elements.length ≤ h.pos
    · rw [if_pos hp, if_neg]
      · rfl
      · simp; omega
    · rw [if_neg hp]
      simp only [Option.bind_some]
      rw [inputs_eq xs]
      simp only [List.length_set, List.length_cons, reduceCtorEq, or_false]
      by_cases hc : h.pos + (xs.length + 1) ≤ h.elements.length
      · rw [if_pos (Or.inl (by omega)), if_pos hc]
        have e1 : (h.elements.set h.pos x).take (h.pos + 1) = h.elements.take h.pos ++ [x] := by
          rw [List.take_succ_eq_append_getElem (by simp; omega)]
          simp [List.take_set_of_le]
        have e2 : (h.elements.set h.pos x).drop (h.pos + 1 + xs.length)
            = h.elements.drop (h.pos + (xs.length + 1)) := by
          rw [List.drop_set_of_lt (by omega)]
          congr 1
          omega
        rw [e1, e2]
        simp only [List.append_assoc, List.cons_append]
        congr 2
        omega
      · rw [if_neg hc, if_neg]
        rintro (h1 | h1)
        · omega
        · subst h1
          simp at hc
          omega

end calls

theorem start_ofFn {n : ℕ} (tag : F) (xs : List F) (h : xs.length ≤ n) :
    tag :: xs ++ List.replicate (n - xs.length) 0 = List.ofFn (start n tag xs) := by
  apply List.ext_getElem
  · simp; omega
  · intro i h1 h2
    simp only [List.getElem_ofFn, start, vec, List.getD_eq_getElem?_getD]
    by_cases hi : i < (tag :: xs).length
    · rw [List.getElem_append_left hi, List.getElem?_eq_getElem hi]
      rfl
    · rw [List.getElem_append_right (by omega), List.getElem?_eq_none (by omega)]
      simp

theorem hash_native_run {n : ℕ} (k : Constants F) (xs : List F) (h : xs.length ≤ n) :
    hashCalls (nativeSpec (F := F)) (n + 1) k xs
      = (outputHash (nativeSpec (F := F)) ⟨0, List.ofFn (start n k.domainTag xs), 1 + xs.length, k⟩).map
          fun r => some r.1 := by
  have e : hasherNew (nativeSpec (F := F)) (n + 1) k
      = .ok ⟨0, k.domainTag :: List.replicate n 0, 1, k⟩ := rfl
  unfold hashCalls
  rw [e, ok_bind, inputs_eq, if_pos]
  · simp only
    have : List.take 1 (k.domainTag :: List.replicate n (0 : F)) ++ xs
        ++ List.drop (1 + xs.length) (k.domainTag :: List.replicate n 0) = List.ofFn (start n k.domainTag xs) := by
      rw [← start_ofFn _ _ h, Nat.add_comm 1]
      simp
    rw [this]
    cases outputHash (nativeSpec (F := F)) ⟨0, List.ofFn (start n k.domainTag xs), 1 + xs.length, k⟩ <;> rfl
  · left
    simp
    omega

/-- The hash of at most `n` elements is the element 1 of the permuted state. -/
theorem C115_hash {n : ℕ} (hn : 0 < n) {k : Constants F} (hk : Fits n k) (xs : List F) (h : xs.length ≤ n) :
    hashCalls (nativeSpec (F := F)) (n + 1) k xs
      = .ok (some (perm n k (start n k.domainTag xs) ⟨1, by omega⟩)) := by
  rw [hash_native_run k xs h]
  have := outputHash_native hn (mat (n + 1) (n + 1) k.mds.m)
    ⟨0, List.ofFn (start n k.domainTag xs), 1 + xs.length, k⟩ (rows_mat hk.shape).symm rfl _ rfl
    k.halfFullRounds k.partialRounds (by have := hk.full; simp only; omega)
    (by have := hk.part; simp only; omega) (by
      refine le_trans (Nat.mul_le_mul_right _ ?_) hk.enough
      simp only
      omega)
  rw [this]
  rfl

/-- One element too many is refused, whatever the constants. -/
theorem C115_full_buffer {n : ℕ} (k : Constants F) (xs : List F) (h : n < xs.length) :
    hashCalls (nativeSpec (F := F)) (n + 1) k xs = .ok none := by
  have e : hasherNew (nativeSpec (F := F)) (n + 1) k
      = .ok ⟨0, k.domainTag :: List.replicate n 0, 1, k⟩ := rfl
  unfold hashCalls
  rw [e, ok_bind, inputs_eq, if_neg]
  · rfl
  · rintro (h1 | h1)
    · simp at h1; omega
    · subst h1; simp at h

/-- Missing elements count as zeros: two lists of inputs that differ in trailing zeros have one hash. -/
theorem C115_padding {n : ℕ} (k : Constants F) (xs : List F) (j : ℕ) (h : xs.length + j ≤ n) :
    hashCalls (nativeSpec (F := F)) (n + 1) k (xs ++ List.replicate j 0)
      = hashCalls (nativeSpec (F := F)) (n + 1) k xs := by
  rw [hash_native_run k _ (by simp; omega), hash_native_run k xs (by omega)]
  have : start n k.domainTag (xs ++ List.replicate j 0) = start n k.domainTag xs := by
    funext i
    unfold start vec
    rw [← List.cons_append]
    simp only [List.getD_eq_getElem?_getD]
    by_cases hi : i.1 < (k.domainTag :: xs).length
    · rw [List.getElem?_append_left hi]
    · rw [List.getElem?_append_right (by omega), List.getElem?_eq_none (l := k.domainTag :: xs) (by omega)]
      simp only [List.getElem?_replicate]
      split <;> rfl
  rw [this]
  -- the position is not read
  unfold outputHash outputHashWith
  simp only
  cases fullRound (nativeSpec (F := F)) k 0 (List.ofFn (start n k.domainTag xs)) with
  | error e => rfl
  | ok q1 =>
    simp only [ok_bind]
    cases repeatRound (fullRound (nativeSpec (F := F))) k (k.halfFullRounds - 1) q1.1 q1.2 with
    | error e => rfl
    | ok q2 =>
      simp only [ok_bind]
      cases partialRound (nativeSpec (F := F)) k q2.1 q2.2 with
      | error e => rfl
      | ok q3 =>
        simp only [ok_bind]
        cases repeatRound (partialRound (nativeSpec (F := F))) k (k.partialRounds - 1) q3.1 q3.2 with
        | error e => rfl
        | ok q4 =>
          simp only [ok_bind]
          cases repeatRound (fullRound (nativeSpec (F := F))) k k.halfFullRounds q4.1 q4.2 with
          | error e => rfl
          | ok q5 =>
            simp only [ok_bind]
            cases idx (nativeSpec (F := F)) q5.2 1 <;> rfl

theorem resetLoop_native : ∀ xs : List F, resetLoop (nativeSpec (F := F)) xs
    = .ok (List.replicate xs.length 0)
  | [] => rfl
  | _ :: xs => by
    unfold resetLoop
    rw [resetLoop_native xs]
    rfl

/-- After any history of calls `reset` gives the hasher that `new` gives. -/
theorem C115_reset {n : ℕ} (h : Hasher F F) (hl : h.elements.length = n + 1) :
    hasherReset (nativeSpec (F := F)) h = hasherNew (nativeSpec (F := F)) (n + 1) h.constants := by
  unfold hasherReset
  cases he : h.elements with
  | nil => rw [he] at hl; cases hl
  | cons x xs =>
    simp only
    rw [resetLoop_native, ok_bind]
    have : xs.length = n := by rw [he] at hl; simpa using hl
    rw [this]
    rfl

/-- The whole state behind `output_hash`, for a hasher made by `new` and `input`. -/
theorem C115_state {n : ℕ} (hn : 0 < n) {k : Constants F} (hk : Fits n k) (h : Hasher F F)
    (h0 : h.offset = 0) (hc : h.constants = k) (x : Fin (n + 1) → F) (hx : h.elements = List.ofFn x) :
    outputHash (nativeSpec (F := F)) h = .ok (perm n k x ⟨1, by omega⟩,
      ⟨(2 * k.halfFullRounds + k.partialRounds) * (n + 1), List.ofFn (perm n k x), h.pos, k⟩) := by
  subst hc
  have h1 := hk.full
  have h2 := hk.part
  have := outputHash_native hn (mat (n + 1) (n + 1) h.constants.mds.m)
    h (rows_mat hk.shape).symm h0 x hx
    h.constants.halfFullRounds h.constants.partialRounds (by omega) (by omega) (by
      refine le_trans (Nat.mul_le_mul_right _ ?_) hk.enough
      omega)
  rw [this, show h.constants.halfFullRounds + h.constants.partialRounds + h.constants.halfFullRounds
    = 2 * h.constants.halfFullRounds + h.constants.partialRounds by omega]
  rfl

/-- The permutation is a permutation: for a regular matrix and a field where every element has exactly one
fifth root. In particular different inputs of full length lead to different states. -/
theorem C115_bijective {n : ℕ} (k : Constants F) (hM : (mat (n + 1) (n + 1) k.mds.m).det ≠ 0)
    (h5 : Function.Bijective fun x : F => x ^ 5) : Function.Bijective (perm n k) :=
  rounds_bijective _ _ hM h5 _ _ _

/-- A second `output_hash` without `reset` finds the round constants used up: it adds no constants, and its
full rounds have no S-box, they are multiplications by the matrix. -/
theorem C115_second {n : ℕ} (hn : 0 < n) {k : Constants F} (hk : Fits n k)
    (he : k.roundConstants.length = (2 * k.halfFullRounds + k.partialRounds) * (n + 1)) (h h' : Hasher F F)
    (h0 : h.offset = 0) (hc : h.constants = k) (x : Fin (n + 1) → F) (hx : h.elements = List.ofFn x) (r : F)
    (h1 : outputHash (nativeSpec (F := F)) h = .ok (r, h')) :
    ∃ h'', outputHash (nativeSpec (F := F)) h' = .ok
      ((fun y => y ᵥ* mat (n + 1) (n + 1) k.mds.m)^[k.halfFullRounds]
        ((fun y => sboxFirst y ᵥ* mat (n + 1) (n + 1) k.mds.m)^[k.partialRounds]
          ((fun y => y ᵥ* mat (n + 1) (n + 1) k.mds.m)^[k.halfFullRounds] (perm n k x))) ⟨1, by omega⟩, h'') := by
  rw [C115_state hn hk h h0 hc x hx] at h1
  simp only [Except.ok.injEq, Prod.mk.injEq] at h1
  have hf := hk.full
  have hp := hk.part
  obtain ⟨off, ho⟩ := outputHash_stale hn (mat (n + 1) (n + 1) k.mds.m) h' (by
    rw [← h1.2]; exact (rows_mat hk.shape).symm) (by rw [← h1.2]; simp only; omega) (perm n k x)
    (by rw [← h1.2])
  have e : h'.constants = k := by rw [← h1.2]
  rw [e, max_eq_right (Nat.succ_le_of_lt hf), max_eq_right (Nat.succ_le_of_lt hp)] at ho
  exact ⟨_, ho⟩

/-- Constants of width 3 with two full and one partial round over the field with 97 elements. -/
def constants97 : Constants K97 :=
  { mds := ⟨[[1, 2, 3], [2, 5, 1], [3, 1, 4]], [], [], [], [], []⟩, roundConstants := [1, 2, 3, 4, 5, 6, 7, 8, 9],
    compressed := [], preSparse := [], sparse := [], domainTag := 3, fullRounds := 2, halfFullRounds := 1,
    partialRounds := 1 }

theorem fits97 : Fits 2 constants97 := ⟨by unfold IsMat; decide +kernel, by decide, by decide, by decide⟩

/-- Fifth powers are one to one in this field, and the matrix is regular. -/
theorem bijective97 : Function.Bijective fun x : K97 => x ^ 5 := by
  rw [Finite.injective_iff_bijective.symm]
  decide +kernel

example : Function.Bijective (perm 2 constants97) := by
  refine C115_bijective constants97 ?_ bijective97
  rw [Matrix.det_fin_three]
  decide +kernel

/-- A hash of two elements, of one element and a zero, of one element, of three elements. -/
example : ∃ r : K97, hashCalls (nativeSpec (F := K97)) 3 constants97 [10, 20] = .ok (some r) ∧
    hashCalls (nativeSpec (F := K97)) 3 constants97 [10, 0]
      = hashCalls (nativeSpec (F := K97)) 3 constants97 [10] ∧
    hashCalls (nativeSpec (F := K97)) 3 constants97 [1, 2, 3] = .ok none :=
  ⟨_, C115_hash (by omega) fits97 [10, 20] (by simp), C115_padding constants97 [10] 1 (by simp),
    C115_full_buffer constants97 [1, 2, 3] (by simp)⟩

end VO
