import Verif.Lemmas.PoseidonMds

/-
The compressed constants of `/repo/plonk-hashing/src/poseidon/preprocessing.rs` and the sparse matrices of
`mds.rs` in the optimised schedule.
-/

set_option linter.unusedSectionVars false

namespace VO.Poseidon

open VO.Spec.Poseidon Matrix

variable {F : Type} [Field F] [DecidableEq F]

theorem steps_congr {α : Type} {f g : ℕ → α → α} : ∀ (len start : ℕ) (x : α),
    (∀ r y, start ≤ r → r < start + len → f r y = g r y) → steps f start len x = steps g start len x
  | 0, _, _, _ => rfl
  | len + 1, start, x, h => by
    unfold steps
    rw [h start x le_rfl (by omega)]
    exact steps_congr len (start + 1) _ fun r y h1 h2 => h r y (by omega) (by omega)

theorem steps_succ' {α : Type} (f : ℕ → α → α) : ∀ (len start : ℕ) (x : α),
    steps f start (len + 1) x = f (start + len) (steps f start len x)
  | 0, _, _ => rfl
  | len + 1, start, x => by
    have := steps_succ' f len (start + 1) (f start x)
    rw [show start + 1 + len = start + (len + 1) by omega] at this
    exact this

section

variable {n : ℕ} (M : Matrix (Fin (n + 1)) (Fin (n + 1)) F) (c : ℕ → Fin (n + 1) → F)

/-- Full rounds with constants behind the S-box. -/
theorem full_shift (h1 : M.det ≠ 0) (d : ℕ → Fin (n + 1) → F) : ∀ (k r s : ℕ) (y : Fin (n + 1) → F),
    (∀ i, i < k → d (s + i) = c (r + i + 1) ᵥ* M⁻¹) →
    steps (fun r y => (sboxAll y + d r) ᵥ* M) s k (y + c r)
      = steps (fun r y => sboxAll (y + c r) ᵥ* M) r k y + c (r + k)
  | 0, _, _, _, _ => rfl
  | k + 1, r, s, y, hd => by
    unfold steps
    have h0 := hd 0 (by omega)
    simp only [Nat.add_zero] at h0
    rw [h0, Matrix.add_vecMul, Matrix.vecMul_vecMul,
      Matrix.nonsing_inv_mul _ (isUnit_iff_ne_zero.2 h1), Matrix.vecMul_one,
      full_shift h1 d k (r + 1) (s + 1) _ fun i hi => by
        have := hd (i + 1) (by omega)
        rw [show s + 1 + i = s + (i + 1) by omega, show r + 1 + i + 1 = r + (i + 1) + 1 by omega]
        exact this,
      show r + 1 + k = r + (k + 1) by omega]

/-- The accumulated row behind `i` steps of the fold over the partial rounds. -/
noncomputable def accV (final : ℕ) : ℕ → Fin (n + 1) → F
  | 0 => c final
  | i + 1 => c (final - i - 1) + Function.update (accV final i ᵥ* M⁻¹) 0 0

/-- The key of the `i`-th step of this fold. -/
noncomputable def keyV (final i : ℕ) : F := (accV M c final i ᵥ* M⁻¹) 0

theorem sboxFirst_add (y z : Fin (n + 1) → F) (h : z 0 = 0) : sboxFirst (y + z) = sboxFirst y + z := by
  funext i
  unfold sboxFirst
  refine Fin.cases ?_ (fun i => ?_) i
  · simp [h]
  · simp [Fin.succ_ne_zero]

/-- Partial rounds with one constant behind the S-box. -/
theorem partial_shift (h1 : M.det ≠ 0) (half P : ℕ) : ∀ (m : ℕ) (y : Fin (n + 1) → F), m ≤ P →
    steps (fun r y => (sboxFirst y + Pi.single 0 (keyV M c (half + P) (P - 1 - r))) ᵥ* M) (P - m) m
        (y + accV M c (half + P) m)
      = steps (fun r y => sboxFirst (y + c r) ᵥ* M) (half + P - m) m y + c (half + P)
  | 0, y, _ => rfl
  | m + 1, y, hm => by
    unfold steps
    have ih := partial_shift h1 half P m (sboxFirst (y + c (half + P - (m + 1))) ᵥ* M) (by omega)
    rw [show P - (m + 1) + 1 = P - m by omega, show half + P - (m + 1) + 1 = half + P - m by omega, ← ih]
    refine congrArg _ ?_
    rw [show P - 1 - (P - (m + 1)) = m by omega]
    rw [show accV M c (half + P) (m + 1) = c (half + P - m - 1)
      + Function.update (accV M c (half + P) m ᵥ* M⁻¹) 0 0 from rfl]
    rw [show half + P - m - 1 = half + P - (m + 1) by omega, ← add_assoc, sboxFirst_add _ _ (by simp)]
    have e : Function.update (accV M c (half + P) m ᵥ* M⁻¹) 0 0 + Pi.single 0 (keyV M c (half + P) m)
        = accV M c (half + P) m ᵥ* M⁻¹ := by
      funext i
      refine Fin.cases ?_ (fun i => ?_) i
      · simp [keyV]
      · simp [Fin.succ_ne_zero]
    rw [add_assoc, e, Matrix.add_vecMul, Matrix.vecMul_vecMul,
      Matrix.nonsing_inv_mul _ (isUnit_iff_ne_zero.2 h1), Matrix.vecMul_one]

/-- The S-box of a partial round commutes with a matrix that keeps the first entry. -/
theorem sboxFirst_diag (H : Matrix (Fin n) (Fin n) F) (k : F) (y : Fin (n + 1) → F) :
    sboxFirst (y ᵥ* block 1 0 0 H) + Pi.single 0 k = (sboxFirst y + Pi.single 0 k) ᵥ* block 1 0 0 H := by
  rw [vecMul_diag, vecMul_diag]
  funext i
  refine Fin.cases ?_ (fun i => ?_) i
  · simp [sboxFirst]
  · simp [sboxFirst, Fin.succ_ne_zero]

/-- Partial rounds with the sparse matrices. -/
theorem partial_sparse (hd : (hat M).det ≠ 0) (hs : (hat M).IsSymm) (P : ℕ) (k : ℕ → F) :
    ∀ (m : ℕ) (x : Fin (n + 1) → F), m ≤ P →
    steps (fun r y => (sboxFirst y + Pi.single 0 (k r)) ᵥ* sparseM M (P - 1 - r)) (P - m) m
        (x ᵥ* currM M m)
      = steps (fun r y => (sboxFirst y + Pi.single 0 (k r)) ᵥ* M) (P - m) m (x ᵥ* M)
  | 0, x, _ => by rw [currM_zero]; rfl
  | m + 1, x, hm => by
    unfold steps
    rw [show P - (m + 1) + 1 = P - m by omega,
      ← partial_sparse hd hs P k m _ (by omega), show P - 1 - (P - (m + 1)) = m by omega]
    refine congrArg _ ?_
    conv_lhs => rw [show currM M (m + 1) = M * block 1 0 0 (hat M ^ (m + 1)) from rfl]
    rw [← Matrix.vecMul_vecMul, sboxFirst_diag, Matrix.vecMul_vecMul, diag_mul_sparse M hd hs]

theorem sparseApply_block (a : F) (v w : Fin n → F) (x : Fin (n + 1) → F) :
    x ᵥ* block a v w 1 = sparseApply (Fin.cons a w) v x := by
  funext j
  refine Fin.cases ?_ (fun j => ?_) j
  · simp only [Matrix.vecMul, dotProduct, sparseApply, Fin.cons_zero]
    refine Finset.sum_congr rfl fun i _ => ?_
    refine Fin.cases ?_ (fun i => ?_) i <;> rfl
  · simp [Matrix.vecMul, dotProduct, sparseApply, Fin.sum_univ_succ, Matrix.one_apply]

/-- The optimised schedule gives the permutation. -/
theorem optimised_eq (h1 : M.det ≠ 0) (hd : (hat M).det ≠ 0) (hs : (hat M).IsSymm) (half P : ℕ)
    (hh : 0 < half) (first last : ℕ → Fin (n + 1) → F) (keys : ℕ → F) (mid : Fin (n + 1) → F)
    (wHat : ℕ → Fin (n + 1) → F) (vRest : ℕ → Fin n → F)
    (hfirst : ∀ r, r + 1 < half → first r = c (r + 1) ᵥ* M⁻¹)
    (hmid : mid = accV M c (half + P) P ᵥ* M⁻¹)
    (hkeys : ∀ r, r < P → keys r = keyV M c (half + P) (P - 1 - r))
    (hsp : ∀ r, r < P → ∀ x, sparseApply (wHat r) (vRest r) x = x ᵥ* sparseM M (P - 1 - r))
    (hlast : ∀ r, r + 1 < half → last r = c (r + 1 + (half + P)) ᵥ* M⁻¹) (x : Fin (n + 1) → F) :
    optimised M (currM M P) (c 0) first mid keys wHat vRest last half P x = permutation M c half P x := by
  obtain ⟨h, rfl⟩ : ∃ h, half = h + 1 := ⟨half - 1, by omega⟩
  unfold optimised permutation rounds
  simp only [Nat.add_sub_cancel]
  rw [full_shift M c h1 first h 0 0 x fun i hi => by
    simp only [Nat.zero_add]
    exact hfirst i (by omega)]
  rw [steps_congr (f := fun r y => sparseApply (wHat r) (vRest r)
      (sboxFirst y + (Pi.single 0 (keys r) : Fin (n + 1) → F)))
    (g := fun r y => (sboxFirst y + (Pi.single 0 (keys r) : Fin (n + 1) → F)) ᵥ* sparseM M (P - 1 - r)) P 0 _
    fun r y _ hr => hsp r (by omega) _]
  have hps := partial_sparse M hd hs P keys P
    (sboxAll (steps (fun r y => sboxAll (y + c r) ᵥ* M) 0 h x + c (0 + h)) + mid) le_rfl
  rw [Nat.sub_self] at hps
  rw [hps, Matrix.add_vecMul, hmid, Matrix.vecMul_vecMul,
    Matrix.nonsing_inv_mul _ (isUnit_iff_ne_zero.2 h1)]
  simp only [Matrix.vecMul_one]
  have hpp := partial_shift M c h1 (h + 1) P P
    (sboxAll (steps (fun r y => sboxAll (y + c r) ᵥ* M) 0 h x + c (0 + h)) ᵥ* M) le_rfl
  rw [Nat.sub_self, Nat.add_sub_cancel] at hpp
  rw [steps_congr (f := fun r y => (sboxFirst y + (Pi.single 0 (keys r) : Fin (n + 1) → F)) ᵥ* M)
    (g := fun r y => (sboxFirst y
      + (Pi.single 0 (keyV M c (h + 1 + P) (P - 1 - r)) : Fin (n + 1) → F)) ᵥ* M)
    P 0 _ fun r y _ hr => by rw [hkeys r (by omega)], hpp]
  rw [full_shift M c h1 last h (h + 1 + P) 0 _ fun i hi => by
    rw [hlast (0 + i) (by omega)]
    congr 2
    omega]
  rw [steps_succ' _ h (h + 1 + P), steps_succ' _ h 0]

end

theorem length_slice_take (w : ℕ) (rc : List F) (r : ℕ) (h : (r + 1) * w ≤ rc.length) :
    roundKeys w rc r = .ok (List.ofFn (slice w rc (r * w))) := by
  unfold roundKeys
  simp only [assertR, if_pos h, ok_bind, pure, Except.pure]
  refine congrArg _ ?_
  have h' : r * w + w ≤ rc.length := by rw [← Nat.succ_mul]; exact h
  apply List.ext_getElem
  · simp; omega
  · intro i h1 h2
    simp only [List.length_ofFn] at h2
    simp [slice, List.getD_eq_getElem?_getD, show r * w + i < rc.length by omega]

theorem vecAdd_ofFn {n : ℕ} (a b : Fin n → F) : vecAdd (List.ofFn a) (List.ofFn b) = List.ofFn (a + b) :=
  zipWith_ofFn _ a b

theorem set_zero_update {n : ℕ} (a : Fin (n + 1) → F) (x : F) :
    (List.ofFn a).set 0 x = List.ofFn (Function.update a 0 x) := by
  rw [List.ofFn_succ, List.set_cons_zero]
  conv_rhs => rw [List.ofFn_succ]
  simp [Fin.succ_ne_zero]

theorem partialFold_run {n : ℕ} (M : Matrix (Fin (n + 1)) (Fin (n + 1)) F) (rc : List F) (final : ℕ) :
    ∀ (k i : ℕ) (keys : List F), i + k ≤ final → (final + 1) * (n + 1) ≤ rc.length →
    partialFold (n + 1) rc (rows M⁻¹) final k i
        (List.ofFn (accV M (fun r => slice (n + 1) rc (r * (n + 1))) final i)) keys
      = .ok (List.ofFn (accV M (fun r => slice (n + 1) rc (r * (n + 1))) final (i + k)),
          keys ++ (List.range k).map fun a =>
            keyV M (fun r => slice (n + 1) rc (r * (n + 1))) final (i + a))
  | 0, i, keys, _, _ => by simp [partialFold]
  | k + 1, i, keys, h, hl => by
    unfold partialFold
    simp only [assertR, if_pos (show i + 1 ≤ final by omega), ok_bind]
    rw [length_slice_take _ _ _ ((Nat.mul_le_mul_right _ (by omega)).trans hl), ok_bind, mulRowVec_rows,
      ok_bind, getR_ofFn _ (Nat.succ_pos n), ok_bind, set_zero_update, vecAdd_ofFn]
    refine (partialFold_run M rc final k (i + 1) _ (by omega) hl).trans ?_
    rw [List.range_succ_eq_map]
    have e : ∀ a, i + 1 + a = i + (a + 1) := fun a => by omega
    simp only [e, List.map_cons, List.map_map, List.append_assoc, List.cons_append, List.nil_append,
      Nat.add_zero]
    rfl

theorem flatten_getD {w : ℕ} (f : ℕ → Fin w → F) : ∀ (k r : ℕ) (s : ℕ) (pre post : List F), r < k →
    slice w (pre ++ ((List.range' s k).map fun i => List.ofFn (f i)).flatten ++ post)
      (pre.length + r * w) = f (s + r)
  | 0, _, _, _, _, h => by omega
  | k + 1, 0, s, pre, post, _ => by
    funext i
    simp only [slice, List.range'_succ, List.map_cons, List.flatten_cons, List.append_assoc,
      Nat.zero_mul, Nat.add_zero]
    rw [List.getD_append_right _ _ _ _ (by omega), Nat.add_sub_cancel_left,
      List.getD_append _ _ _ _ (by rw [List.length_ofFn]; exact i.2), getD_ofFn _ _ i.2]
  | k + 1, r + 1, s, pre, post, h => by
    have := flatten_getD f k r (s + 1) (pre ++ List.ofFn (f s)) post (by omega)
    rw [show s + (r + 1) = s + 1 + r by omega, ← this]
    simp only [List.range'_succ, List.map_cons, List.flatten_cons, List.append_assoc,
      List.length_append, List.length_ofFn]
    congr 1
    rw [Nat.succ_mul]
    omega

theorem length_flatten {w : ℕ} (f : ℕ → Fin w → F) (k : ℕ) :
    (((List.range k).map fun i => List.ofFn (f i)).flatten).length = k * w := by
  induction k with
  | zero => simp
  | succ k ih => simp [List.range_succ, ih, Nat.succ_mul]

/-- `compress_round_constants`: the pieces of its result. -/
theorem compress_run {n : ℕ} (M : Matrix (Fin (n + 1)) (Fin (n + 1)) F) (mds : Mds F)
    (hm : mds.mInv = rows M⁻¹) (half P : ℕ) (hh : 0 < half) (rc : List F)
    (hl : (2 * half + P) * (n + 1) ≤ rc.length) :
    ∃ comp : List F, compressRoundConstants (n + 1) (2 * half) P rc mds = .ok comp ∧
      comp.length = 2 * half * (n + 1) + P ∧
      (let c := fun r => slice (n + 1) rc (r * (n + 1))
       slice (n + 1) comp 0 = c 0 ∧
       (∀ r, r + 1 < half → slice (n + 1) comp ((n + 1) + r * (n + 1)) = c (r + 1) ᵥ* M⁻¹) ∧
       slice (n + 1) comp (half * (n + 1)) = accV M c (half + P) P ᵥ* M⁻¹ ∧
       (∀ r, r < P → comp.getD (half * (n + 1) + (n + 1) + r) 0 = keyV M c (half + P) (P - 1 - r)) ∧
       ∀ r, r + 1 < half → slice (n + 1) comp (half * (n + 1) + (n + 1) + P + r * (n + 1))
         = c (r + 1 + (half + P)) ᵥ* M⁻¹) := by
  obtain ⟨h, rfl⟩ : ∃ h, half = h + 1 := ⟨half - 1, by omega⟩
  let c := fun r => slice (n + 1) rc (r * (n + 1))
  have hrk : ∀ r, r + 1 ≤ 2 * (h + 1) + P → roundKeys (n + 1) rc r = .ok (List.ofFn (c r)) := fun r hr =>
    length_slice_take _ _ _ ((Nat.mul_le_mul_right _ hr).trans hl)
  let first := ((List.range h).map fun i => List.ofFn (c (i + 1) ᵥ* M⁻¹)).flatten
  let last := ((List.range h).map fun i => List.ofFn (c (i + 1 + (h + 1 + P)) ᵥ* M⁻¹)).flatten
  let mid := List.ofFn (accV M c (h + 1 + P) P ᵥ* M⁻¹)
  let keys := ((List.range P).map fun a => keyV M c (h + 1 + P) a).reverse
  have lf : first.length = h * (n + 1) := length_flatten (fun i => c (i + 1) ᵥ* M⁻¹) h
  have ll : last.length = h * (n + 1) := length_flatten (fun i => c (i + 1 + (h + 1 + P)) ᵥ* M⁻¹) h
  have lm : mid.length = n + 1 := by simp [mid]
  have lk : keys.length = P := by simp [keys]
  have l0 : (List.ofFn (c 0)).length = n + 1 := by simp
  have hhw : (h + 1) * (n + 1) = h * (n + 1) + (n + 1) := Nat.succ_mul _ _
  refine ⟨List.ofFn (c 0) ++ first ++ mid ++ keys ++ last, ?_, ?_, ?_, ?_, ?_, ?_, ?_⟩
  · unfold compressRoundConstants
    rw [show 2 * (h + 1) / 2 = h + 1 by omega]
    simp only [Nat.add_sub_cancel]
    rw [hrk 0 (by omega), ok_bind]
    simp only [assertR, if_pos (show 1 ≤ h + 1 by omega), ok_bind]
    rw [mapM_ok _ (fun i => List.ofFn (c (i + 1) ᵥ* M⁻¹)), ok_bind, hrk _ (by omega), ok_bind, hm]
    · have := partialFold_run M rc (h + 1 + P) P 0 [] (by omega)
        ((Nat.mul_le_mul_right _ (by omega)).trans hl)
      rw [Nat.zero_add] at this
      rw [show List.ofFn (c (h + 1 + P)) = List.ofFn (accV M (fun r => slice (n + 1) rc (r * (n + 1)))
        (h + 1 + P) 0) from rfl, this, ok_bind]
      simp only [mulRowVec_rows, ok_bind]
      rw [mapM_ok _ (fun i => List.ofFn (c (i + 1 + (h + 1 + P)) ᵥ* M⁻¹)), ok_bind]
      · simp only [Nat.zero_add, List.nil_append]
        rfl
      · intro i hi
        rw [List.mem_range] at hi
        rw [hrk _ (by omega), ok_bind, mulRowVec_rows]
    · intro i hi
      rw [List.mem_range] at hi
      rw [hrk _ (by omega), ok_bind, hm, mulRowVec_rows]
  · simp only [List.length_append, lf, ll, lm, lk, l0]
    rw [show 2 * (h + 1) = (h + 1) + (h + 1) by omega, Nat.add_mul, hhw]
    omega
  · funext i
    simp only [slice, Nat.zero_add, List.append_assoc]
    rw [List.getD_append _ _ _ _ (by rw [l0]; exact i.2), getD_ofFn _ _ i.2]
    rfl
  · intro r hr
    have := flatten_getD (fun i => c (i + 1) ᵥ* M⁻¹) h r 0 (List.ofFn (c 0)) (mid ++ keys ++ last)
      (by omega)
    rw [← List.range_eq_range', l0, Nat.zero_add] at this
    rw [← this]
    simp only [List.append_assoc, first]
  · funext i
    simp only [slice]
    rw [List.append_assoc, List.append_assoc, List.getD_append_right _ _ _ _ (by
      rw [List.length_append, l0, lf]; omega), List.length_append, l0, lf]
    rw [show (h + 1) * (n + 1) + i.1 - (n + 1 + h * (n + 1)) = i.1 by omega,
      List.getD_append _ _ _ _ (by rw [lm]; exact i.2), getD_ofFn _ _ i.2]
  · intro r hr
    rw [List.append_assoc, List.getD_append_right _ _ _ _ (by
      simp only [List.length_append, l0, lf, lm]; omega)]
    simp only [List.length_append, l0, lf, lm]
    rw [show (h + 1) * (n + 1) + (n + 1) + r - (n + 1 + h * (n + 1) + (n + 1)) = r by omega,
      List.getD_append _ _ _ _ (by omega)]
    simp only [keys]
    rw [List.getD_eq_getElem?_getD, List.getElem?_reverse (by simpa using hr)]
    simp only [List.length_map, List.length_range, List.getElem?_map]
    rw [List.getElem?_range (by omega)]
    rfl
  · intro r hr
    have := flatten_getD (fun i => c (i + 1 + (h + 1 + P)) ᵥ* M⁻¹) h r 0
      (List.ofFn (c 0) ++ first ++ mid ++ keys) [] (by omega)
    rw [← List.range_eq_range', Nat.zero_add] at this
    rw [← this]
    simp only [List.append_nil, List.length_append, l0, lf, lm, lk, last]
    congr 1
    omega

end VO.Poseidon
