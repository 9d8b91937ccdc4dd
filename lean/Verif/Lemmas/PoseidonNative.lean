import Mathlib.Tactic.Ring
import Verif.Model.PoseidonRef
import Verif.Lemmas.PoseidonOpt

/-
The native hash of `/repo/plonk-hashing/src/poseidon/poseidon_ref.rs`.
-/

set_option linter.unusedSectionVars false

namespace VO.Poseidon

open VO.Spec.Poseidon Matrix

variable {F : Type} [Field F] [DecidableEq F]

theorem powerOf5_native (x : F) : powerOf5 (nativeSpec (F := F)) x = .ok (x ^ 5) := by
  unfold powerOf5 nativeSpec
  simp only [ok_bind]
  congr 1
  ring

theorem sboxZip_native : ∀ (xs cs : List F), sboxZip (nativeSpec (F := F)) xs cs
    = .ok (List.zipWith (fun x c => (x + c) ^ 5) xs cs ++ xs.drop cs.length)
  | [], [] => rfl
  | [], _ :: _ => rfl
  | _ :: _, [] => rfl
  | x :: xs, c :: cs => by
    unfold sboxZip quinticSBox
    rw [sboxZip_native xs cs]
    simp only
    rw [show (nativeSpec (F := F)).addi x c = .ok (x + c) from rfl]
    simp only [ok_bind, powerOf5_native]
    rfl

theorem addRoundConstants_native : ∀ (xs cs : List F), addRoundConstants (nativeSpec (F := F)) xs cs
    = .ok (List.zipWith (fun x c => x + c) xs cs ++ xs.drop cs.length)
  | [], [] => rfl
  | [], _ :: _ => rfl
  | _ :: _, [] => rfl
  | x :: xs, c :: cs => by
    unfold addRoundConstants
    rw [addRoundConstants_native xs cs]
    rfl

theorem zipWith_slice {w : ℕ} (f : F → F → F) (x : Fin w → F) (rc : List F) (off : ℕ)
    (h : off + w ≤ rc.length) :
    List.zipWith f (List.ofFn x) (rc.drop off) ++ (List.ofFn x).drop (rc.drop off).length
      = List.ofFn fun i => f (x i) (slice w rc off i) := by
  have : (List.ofFn x).drop (rc.drop off).length = [] := by
    apply List.drop_eq_nil_of_le
    simp
    omega
  rw [this, List.append_nil]
  apply List.ext_getElem
  · simp; omega
  · intro i h1 h2
    simp only [List.length_ofFn] at h2
    simp [slice, List.getD_eq_getElem?_getD, show off + i < rc.length by omega]

theorem mdsEntry_native {w : ℕ} (st : List F) (j : Fin w) : ∀ (k i : ℕ) (M : Fin k → Fin w → F)
    (y : Fin k → F) (val : F), (∀ a : Fin k, st[i + a.1]? = some (y a)) →
    mdsEntry (nativeSpec (F := F)) st j i (List.ofFn fun a => List.ofFn (M a)) val
      = .ok (val + ∑ a, y a * M a j)
  | 0, i, M, y, val, _ => by simp [mdsEntry]; rfl
  | k + 1, i, M, y, val, h => by
    rw [List.ofFn_succ]
    unfold mdsEntry
    have h0 := h 0
    simp only [Fin.val_zero, Nat.add_zero] at h0
    have e1 : idx (nativeSpec (F := F)) st i = .ok (y 0) := by unfold idx; rw [h0]; rfl
    have e2 : idx (nativeSpec (F := F)) (List.ofFn (M 0)) j = .ok (M 0 j) := by
      unfold idx
      simp
      rfl
    rw [e1, ok_bind, e2, ok_bind]
    rw [show (nativeSpec (F := F)).muli (y 0) (M 0 j) = .ok (y 0 * M 0 j) from rfl, ok_bind,
      show (nativeSpec (F := F)).add val (y 0 * M 0 j) = .ok (val + y 0 * M 0 j) from rfl, ok_bind,
      mdsEntry_native st j k (i + 1) (fun a => M a.succ) (fun a => y a.succ) _ fun a => by
        have := h a.succ
        rw [Fin.val_succ] at this
        rw [show i + 1 + a.1 = i + (a.1 + 1) by omega]
        exact this, Fin.sum_univ_succ, add_assoc]

theorem mdsLoop_native {w : ℕ} (M : Matrix (Fin w) (Fin w) F) (x : Fin w → F) :
    ∀ (k j : ℕ) (h : j + k = w) (y : Fin k → F),
    mdsLoop (nativeSpec (F := F)) (rows M) (List.ofFn x) j (List.ofFn y)
      = .ok (List.ofFn fun a : Fin k => y a + (x ᵥ* M) ⟨j + a.1, by omega⟩)
  | 0, j, _, y => by simp [mdsLoop]; rfl
  | k + 1, j, h, y => by
    rw [List.ofFn_succ]
    unfold mdsLoop
    have := mdsEntry_native (List.ofFn x) (⟨j, by omega⟩ : Fin w) w 0 M x (y 0) (fun a => by simp)
    simp only at this
    unfold rows
    rw [this, ok_bind]
    have ih := mdsLoop_native M x k (j + 1) (by omega) (fun a => y a.succ)
    unfold rows at ih
    rw [ih, ok_bind]
    conv_rhs => rw [List.ofFn_succ]
    refine congrArg _ (congrArg₂ _ ?_ ?_)
    · rfl
    · refine congrArg _ (funext fun a => ?_)
      simp only [Fin.val_succ]
      congr 2
      simp only [Fin.mk.injEq]
      omega

theorem productMds_native {w : ℕ} (M : Matrix (Fin w) (Fin w) F) (k : Constants F)
    (hk : k.mds.m = rows M) (x : Fin w → F) :
    productMds (nativeSpec (F := F)) k (List.ofFn x) = .ok (List.ofFn (x ᵥ* M)) := by
  unfold productMds
  rw [show (nativeSpec (F := F)).zeros (List.ofFn x).length = .ok (List.replicate (List.ofFn x).length 0)
    from rfl, ok_bind, hk, List.length_ofFn]
  have : List.replicate w (0 : F) = List.ofFn fun _ : Fin w => (0 : F) := by
    rw [List.ofFn_const]
  rw [this, mdsLoop_native M x w 0 (by omega)]
  simp

theorem fullRound_native {n : ℕ} (M : Matrix (Fin (n + 1)) (Fin (n + 1)) F) (k : Constants F)
    (hk : k.mds.m = rows M) (off : ℕ) (h : off + (n + 1) ≤ k.roundConstants.length)
    (x : Fin (n + 1) → F) :
    fullRound (nativeSpec (F := F)) k off (List.ofFn x)
      = .ok (off + (n + 1), List.ofFn (sboxAll (x + slice (n + 1) k.roundConstants off) ᵥ* M)) := by
  unfold fullRound
  rw [sboxZip_native, zipWith_slice _ _ _ _ h, ok_bind, productMds_native M k hk, ok_bind,
    List.length_ofFn]
  rfl

theorem partialRound_native {n : ℕ} (M : Matrix (Fin (n + 1)) (Fin (n + 1)) F) (k : Constants F)
    (hk : k.mds.m = rows M) (off : ℕ) (h : off + (n + 1) ≤ k.roundConstants.length)
    (x : Fin (n + 1) → F) :
    partialRound (nativeSpec (F := F)) k off (List.ofFn x)
      = .ok (off + (n + 1), List.ofFn (sboxFirst (x + slice (n + 1) k.roundConstants off) ᵥ* M)) := by
  unfold partialRound
  rw [addRoundConstants_native, zipWith_slice _ _ _ _ h, ok_bind]
  rw [List.ofFn_succ]
  simp only
  unfold quinticSBox
  simp only
  rw [show ((pure (x 0 + slice (n + 1) k.roundConstants off 0) : Res F))
    = .ok (x 0 + slice (n + 1) k.roundConstants off 0) from rfl, ok_bind, powerOf5_native, ok_bind]
  rw [show ((pure ((x 0 + slice (n + 1) k.roundConstants off 0) ^ 5) : Res F))
    = .ok ((x 0 + slice (n + 1) k.roundConstants off 0) ^ 5) from rfl, ok_bind]
  have e : ((x 0 + slice (n + 1) k.roundConstants off 0) ^ 5 ::
      List.ofFn fun i : Fin n => x i.succ + slice (n + 1) k.roundConstants off i.succ)
      = List.ofFn (sboxFirst (x + slice (n + 1) k.roundConstants off)) := by
    conv_rhs => rw [List.ofFn_succ]
    simp [sboxFirst, Fin.succ_ne_zero]
  rw [e, productMds_native M k hk, ok_bind, List.length_ofFn]
  rfl

theorem repeat_native {n : ℕ} (k : Constants F)
    (round : Constants F → ℕ → List F → Res (ℕ × List F)) (f : (Fin (n + 1) → F) → (Fin (n + 1) → F) → (Fin (n + 1) → F))
    (hr : ∀ off x, off + (n + 1) ≤ k.roundConstants.length → round k off (List.ofFn x)
      = .ok (off + (n + 1), List.ofFn (f (slice (n + 1) k.roundConstants off) x))) :
    ∀ (m r : ℕ) (x : Fin (n + 1) → F), (r + m) * (n + 1) ≤ k.roundConstants.length →
    repeatRound round k m (r * (n + 1)) (List.ofFn x)
      = .ok ((r + m) * (n + 1),
          List.ofFn (steps (fun r y => f (slice (n + 1) k.roundConstants (r * (n + 1))) y) r m x))
  | 0, r, x, _ => rfl
  | m + 1, r, x, h => by
    unfold repeatRound
    have h1 : r * (n + 1) + (n + 1) ≤ k.roundConstants.length := by
      rw [← Nat.succ_mul]
      exact (Nat.mul_le_mul_right _ (by omega)).trans h
    rw [hr _ _ h1, ok_bind]
    simp only
    rw [← Nat.succ_mul, show r.succ = r + 1 from rfl, repeat_native k round f hr m (r + 1) _ (by
      rw [show r + 1 + m = r + (m + 1) by omega]; exact h), show r + 1 + m = r + (m + 1) by omega]
    rfl

/-- `output_hash` of a hasher that starts at round 0 with enough constants. -/
theorem outputHash_native {n : ℕ} (hn : 0 < n) (M : Matrix (Fin (n + 1)) (Fin (n + 1)) F)
    (h : Hasher F F) (hk : h.constants.mds.m = rows M) (h0 : h.offset = 0) (x : Fin (n + 1) → F)
    (hx : h.elements = List.ofFn x) (a p : ℕ) (ha : a = max 1 h.constants.halfFullRounds)
    (hp : p = max 1 h.constants.partialRounds)
    (hl : (a + p + h.constants.halfFullRounds) * (n + 1) ≤ h.constants.roundConstants.length) :
    outputHash (nativeSpec (F := F)) h = .ok
      (rounds M (fun r => slice (n + 1) h.constants.roundConstants (r * (n + 1))) a p
        h.constants.halfFullRounds x ⟨1, by omega⟩,
       ⟨(a + p + h.constants.halfFullRounds) * (n + 1), List.ofFn
          (rounds M (fun r => slice (n + 1) h.constants.roundConstants (r * (n + 1))) a p
            h.constants.halfFullRounds x), h.pos, h.constants⟩) := by
  let k := h.constants
  let c := fun r => slice (n + 1) k.roundConstants (r * (n + 1))
  have hf := repeat_native (n := n) k (fullRound (nativeSpec (F := F))) (fun c y => sboxAll (y + c) ᵥ* M)
    (fun off x ho => fullRound_native M k hk off ho x)
  have hpp := repeat_native (n := n) k (partialRound (nativeSpec (F := F))) (fun c y => sboxFirst (y + c) ᵥ* M)
    (fun off x ho => partialRound_native M k hk off ho x)
  have one : ∀ (round : Constants F → ℕ → List F → Res (ℕ × List F)) (m o : ℕ) (s : List F),
      (do let (o, s) ← round k o s
          repeatRound round k m o s) = repeatRound round k (m + 1) o s := fun _ _ _ _ => rfl
  obtain ⟨a', rfl⟩ : ∃ a', a = a' + 1 := ⟨a - 1, by omega⟩
  obtain ⟨p', rfl⟩ : ∃ p', p = p' + 1 := ⟨p - 1, by omega⟩
  have ea : k.halfFullRounds - 1 = a' := by
    show h.constants.halfFullRounds - 1 = a'
    omega
  have ep : k.partialRounds - 1 = p' := by
    show h.constants.partialRounds - 1 = p'
    omega
  have s1 := hf (a' + 1) 0 x ((Nat.mul_le_mul_right _ (by omega)).trans hl)
  rw [Nat.zero_mul] at s1
  have s2 := hpp (p' + 1) (0 + (a' + 1))
    (steps (fun r y => sboxAll (y + c r) ᵥ* M) 0 (a' + 1) x) ((Nat.mul_le_mul_right _ (by omega)).trans hl)
  have s3 := hf k.halfFullRounds (0 + (a' + 1) + (p' + 1))
    (steps (fun r y => sboxFirst (y + c r) ᵥ* M) (0 + (a' + 1)) (p' + 1)
      (steps (fun r y => sboxAll (y + c r) ᵥ* M) 0 (a' + 1) x))
    ((Nat.mul_le_mul_right _ (by
      show 0 + (a' + 1) + (p' + 1) + h.constants.halfFullRounds ≤ _
      omega)).trans hl)
  unfold outputHash outputHashWith
  simp only
  rw [h0, hx]
  unfold repeatRound at s1 s2
  cases e1 : fullRound (nativeSpec (F := F)) k 0 (List.ofFn x) with
  | error e => rw [e1] at s1; cases s1
  | ok q =>
    obtain ⟨o1, t1⟩ := q
    rw [e1, ok_bind] at s1
    simp only at s1
    rw [show h.constants = k from rfl, ok_bind]
    simp only
    rw [ea, s1, ok_bind]
    simp only
    cases e2 : partialRound (nativeSpec (F := F)) k ((0 + (a' + 1)) * (n + 1))
      (List.ofFn (steps (fun r y => sboxAll (y + c r) ᵥ* M) 0 (a' + 1) x)) with
    | error e => rw [e2] at s2; cases s2
    | ok q =>
      obtain ⟨o2, t2⟩ := q
      rw [e2, ok_bind] at s2
      simp only at s2
      rw [ok_bind]
      simp only
      rw [ep, s2, ok_bind]
      simp only
      erw [s3]
      rw [ok_bind]
      simp only [Nat.zero_add]
      rw [show ∀ z : Fin (n + 1) → F, idx (nativeSpec (F := F)) (List.ofFn z) 1 = .ok (z ⟨1, by omega⟩) from
        fun z => by
          unfold idx
          simp [hn]
          rfl, ok_bind]
      rfl

/-- The first round of each kind is unconditional. -/
theorem outputHashWith_eq {m : Type → Type} [Monad m] [LawfulMonad m] {V F : Type} (S : Prim m V F)
    (full part : Constants F → ℕ → List V → m (ℕ × List V)) (h : Hasher V F) :
    outputHashWith S full part h = (do
      let q ← repeatRound full h.constants (max 1 h.constants.halfFullRounds) h.offset h.elements
      let q ← repeatRound part h.constants (max 1 h.constants.partialRounds) q.1 q.2
      let q ← repeatRound full h.constants h.constants.halfFullRounds q.1 q.2
      let r ← idx S q.2 1
      pure (r, ⟨q.1, q.2, h.pos, h.constants⟩)) := by
  have e : ∀ a, max 1 a = a - 1 + 1 := fun a => by omega
  unfold outputHashWith
  rw [e h.constants.halfFullRounds, e h.constants.partialRounds]
  simp only [repeatRound, bind_assoc]

theorem repeat_stale {n : ℕ} (k : Constants F)
    (round : Constants F → ℕ → List F → Res (ℕ × List F)) (f : (Fin (n + 1) → F) → (Fin (n + 1) → F))
    (hr : ∀ off x, k.roundConstants.length ≤ off → round k off (List.ofFn x)
      = .ok (off + (n + 1), List.ofFn (f x))) :
    ∀ (m off : ℕ) (x : Fin (n + 1) → F), k.roundConstants.length ≤ off →
    repeatRound round k m off (List.ofFn x) = .ok (off + m * (n + 1), List.ofFn (f^[m] x))
  | 0, off, x, _ => by simp [repeatRound]; rfl
  | m + 1, off, x, h => by
    unfold repeatRound
    rw [hr _ _ h, ok_bind]
    simp only
    rw [repeat_stale k round f hr m _ _ (by omega), Function.iterate_succ_apply]
    congr 2
    rw [Nat.succ_mul]
    omega

theorem fullRound_stale {n : ℕ} (M : Matrix (Fin (n + 1)) (Fin (n + 1)) F) (k : Constants F)
    (hk : k.mds.m = rows M) (off : ℕ) (h : k.roundConstants.length ≤ off) (x : Fin (n + 1) → F) :
    fullRound (nativeSpec (F := F)) k off (List.ofFn x) = .ok (off + (n + 1), List.ofFn (x ᵥ* M)) := by
  unfold fullRound
  rw [List.drop_eq_nil_of_le h, sboxZip_native, List.zipWith_nil_right, List.nil_append, List.length_nil,
    List.drop_zero, ok_bind, productMds_native M k hk, ok_bind, List.length_ofFn]
  rfl

theorem partialRound_stale {n : ℕ} (M : Matrix (Fin (n + 1)) (Fin (n + 1)) F) (k : Constants F)
    (hk : k.mds.m = rows M) (off : ℕ) (h : k.roundConstants.length ≤ off) (x : Fin (n + 1) → F) :
    partialRound (nativeSpec (F := F)) k off (List.ofFn x)
      = .ok (off + (n + 1), List.ofFn (sboxFirst x ᵥ* M)) := by
  unfold partialRound
  rw [List.drop_eq_nil_of_le h, addRoundConstants_native, List.zipWith_nil_right, List.nil_append,
    List.length_nil, List.drop_zero, ok_bind]
  rw [List.ofFn_succ]
  simp only
  unfold quinticSBox
  simp only
  rw [show ((pure (x 0) : Res F)) = .ok (x 0) from rfl, ok_bind, powerOf5_native, ok_bind]
  rw [show ((pure (x 0 ^ 5) : Res F)) = .ok (x 0 ^ 5) from rfl, ok_bind]
  have e : (x 0 ^ 5 :: List.ofFn fun i : Fin n => x i.succ) = List.ofFn (sboxFirst x) := by
    conv_rhs => rw [List.ofFn_succ]
    simp [sboxFirst, Fin.succ_ne_zero]
  rw [e, productMds_native M k hk, ok_bind]
  show Except.ok _ = _
  rw [List.length_cons, List.length_ofFn]

/-- `output_hash` of a hasher whose constants are used up. -/
theorem outputHash_stale {n : ℕ} (hn : 0 < n) (M : Matrix (Fin (n + 1)) (Fin (n + 1)) F)
    (h : Hasher F F) (hk : h.constants.mds.m = rows M) (h0 : h.constants.roundConstants.length ≤ h.offset)
    (x : Fin (n + 1) → F) (hx : h.elements = List.ofFn x) :
    ∃ off, outputHash (nativeSpec (F := F)) h = .ok
      ((fun y => y ᵥ* M)^[h.constants.halfFullRounds] ((fun y => sboxFirst y ᵥ* M)^[max 1 h.constants.partialRounds]
        ((fun y => y ᵥ* M)^[max 1 h.constants.halfFullRounds] x)) ⟨1, by omega⟩,
       ⟨off, List.ofFn
         ((fun y => y ᵥ* M)^[h.constants.halfFullRounds] ((fun y => sboxFirst y ᵥ* M)^[max 1 h.constants.partialRounds]
        ((fun y => y ᵥ* M)^[max 1 h.constants.halfFullRounds] x))), h.pos, h.constants⟩) := by
  have hf := repeat_stale (n := n) h.constants (fullRound (nativeSpec (F := F))) (fun y => y ᵥ* M)
    (fun off x ho => fullRound_stale M _ hk off ho x)
  have hp := repeat_stale (n := n) h.constants (partialRound (nativeSpec (F := F))) (fun y => sboxFirst y ᵥ* M)
    (fun off x ho => partialRound_stale M _ hk off ho x)
  refine ⟨h.offset + max 1 h.constants.halfFullRounds * (n + 1) + max 1 h.constants.partialRounds * (n + 1)
    + h.constants.halfFullRounds * (n + 1), ?_⟩
  unfold outputHash
  rw [outputHashWith_eq, hx, hf _ _ _ h0, ok_bind]
  simp only
  rw [hp _ _ _ (by omega), ok_bind]
  simp only
  rw [hf _ _ _ (by omega), ok_bind]
  simp only
  rw [show ∀ z : Fin (n + 1) → F, idx (nativeSpec (F := F)) (List.ofFn z) 1 = .ok (z ⟨1, by omega⟩) from
    fun z => by
      unfold idx
      simp [hn]
      rfl, ok_bind]
  rfl

theorem steps_bijective {α : Type} (f : ℕ → α → α) (hf : ∀ r, Function.Bijective (f r)) :
    ∀ (len s : ℕ), Function.Bijective (steps f s len)
  | 0, _ => Function.bijective_id
  | len + 1, s => (steps_bijective f hf len (s + 1)).comp (hf s)

theorem rounds_bijective {n : ℕ} (M : Matrix (Fin (n + 1)) (Fin (n + 1)) F) (c : ℕ → Fin (n + 1) → F)
    (hM : M.det ≠ 0) (h5 : Function.Bijective fun x : F => x ^ 5) (a p b : ℕ) :
    Function.Bijective (rounds M c a p b) := by
  have hm : Function.Bijective fun y : Fin (n + 1) → F => y ᵥ* M := by
    rw [Function.bijective_iff_has_inverse]
    refine ⟨fun y => y ᵥ* M⁻¹, fun y => ?_, fun y => ?_⟩
    · simp only [Matrix.vecMul_vecMul]
      rw [Matrix.mul_nonsing_inv _ (isUnit_iff_ne_zero.2 hM), Matrix.vecMul_one]
    · simp only [Matrix.vecMul_vecMul]
      rw [Matrix.nonsing_inv_mul _ (isUnit_iff_ne_zero.2 hM), Matrix.vecMul_one]
  have ha : ∀ d : Fin (n + 1) → F, Function.Bijective fun y : Fin (n + 1) → F => y + d := fun d =>
    (Equiv.addRight d).bijective
  have hs : Function.Bijective (sboxAll : (Fin (n + 1) → F) → Fin (n + 1) → F) := by
    constructor
    · intro x y h
      funext i
      exact h5.1 (congrFun h i)
    · intro y
      choose g hg using h5.2
      exact ⟨fun i => g (y i), funext fun i => hg (y i)⟩
  have h1 : Function.Bijective (sboxFirst : (Fin (n + 1) → F) → Fin (n + 1) → F) := by
    constructor
    · intro x y h
      funext i
      by_cases hi : i = 0
      · subst hi
        have := congrFun h 0
        simp only [sboxFirst, Function.update_self] at this
        exact h5.1 this
      · have := congrFun h i
        simpa only [sboxFirst, Function.update_of_ne hi] using this
    · intro y
      obtain ⟨g, hg⟩ := h5.2 (y 0)
      refine ⟨Function.update y 0 g, ?_⟩
      unfold sboxFirst
      simp only [Function.update_self, Function.update_idem] at hg ⊢
      rw [hg, Function.update_eq_self]
  unfold rounds
  exact (steps_bijective _ (fun r => hm.comp (hs.comp (ha (c r)))) _ _).comp
    ((steps_bijective _ (fun r => hm.comp (h1.comp (ha (c r)))) _ _).comp
      (steps_bijective _ (fun r => hm.comp (hs.comp (ha (c r)))) _ _))

end VO.Poseidon
