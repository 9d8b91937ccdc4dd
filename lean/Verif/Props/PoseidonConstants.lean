import Verif.Model.PoseidonConstants
import Verif.Props.PoseidonMatrix
import Verif.Props.PoseidonZZ
import Verif.Props.PoseidonRounds
import Verif.Props.PoseidonGrain

/-
C120: the generated constants, `/repo/plonk-hashing/src/poseidon/constants.rs`.
-/

set_option linter.unusedSectionVars false

namespace VO

open VO.Poseidon VO.Spec.Poseidon VO.Plonk VO.Spec.Plonk Matrix

variable {F : Type} [Field F] [DecidableEq F] {R : FieldRep F} {E : EdCurve F}

/-! ### C120 -/

/-- The optimised schedule of neptune with the constants of `k`. -/
def optimisedOf (n : ℕ) (k : Constants F) : (Fin (n + 1) → F) → Fin (n + 1) → F :=
  optimised (mat (n + 1) (n + 1) k.mds.m) (mat (n + 1) (n + 1) k.preSparse)
    (slice (n + 1) k.compressed 0)
    (fun r => slice (n + 1) k.compressed ((n + 1) + r * (n + 1)))
    (slice (n + 1) k.compressed (k.halfFullRounds * (n + 1)))
    (fun r => k.compressed.getD (k.halfFullRounds * (n + 1) + (n + 1) + r) 0)
    (fun r => vec (n + 1) (k.sparse.getD r ⟨[], []⟩).wHat)
    (fun r => vec n (k.sparse.getD r ⟨[], []⟩).vRest)
    (fun r => slice (n + 1) k.compressed (k.halfFullRounds * (n + 1) + (n + 1) + k.partialRounds + r * (n + 1)))
    k.halfFullRounds k.partialRounds

/-- What a user of generated constants of width `n + 1` relies on. -/
structure Good (n full part : ℕ) (cs : List F) (k : Constants F) : Prop where
  fits : Fits n k
  exact_ : k.roundConstants.length = (2 * k.halfFullRounds + k.partialRounds) * (n + 1)
  symm : (mat (n + 1) (n + 1) k.mds.m)ᵀ = mat (n + 1) (n + 1) k.mds.m
  mds : IsMds (mat (n + 1) (n + 1) k.mds.m)
  rounds : k.roundConstants = cs ∧ k.fullRounds = full ∧ k.halfFullRounds = full / 2 ∧ k.partialRounds = part
  tag : k.domainTag = 2 ^ n - 1
  opt : ∀ x, optimisedOf n k x = perm n k x

/-- For widths from 2 to 31 `generate` returns when the generator of constants does, and everything fits. -/
theorem C120_good {n : ℕ} (hn : 0 < n) (h30 : n ≤ 30) (hw : NoWrap F (n + 1)) {rounds : ℕ → ℕ × ℕ} {full part : ℕ}
    (hr : rounds (n + 1) = (full, part)) (h2 : 2 ∣ full) (h0 : 0 < full) (hp : 0 < part)
    (conv : List ℕ → Option F) {size fuel : ℕ} (hs : size < 2 ^ 16) {cs : List F}
    (hg : generateConstants conv size fuel 1 1 size (n + 1) full part = .ok (some cs)) :
    ∃ k, constantsGenerate rounds conv size fuel (n + 1) = .ok (some k) ∧ Good n full part cs k := by
  have ha : Accepted size 1 size (n + 1) full part := by
    by_contra hc
    rw [C119_rejects conv 1 fuel hc] at hg
    cases hg
  obtain ⟨b, hb, hst⟩ := C119_stream 1 1 size (n + 1) full part
  have hlen := ((C119_constants conv 1 ha hb hst cs).1 ⟨fuel, hg⟩).1
  obtain ⟨-, -, hf, hft, -⟩ := ha
  obtain ⟨half, rfl⟩ := h2
  obtain ⟨d, comp, pre, sparse, g1, g2, g3, g4⟩ := C114_generated (F := F) hn hw half part (by omega) cs
    (by rw [hlen])
  obtain ⟨A, a1, a2, a3, a4, a5⟩ := (C113_generate (F := F) (Nat.succ_pos n)).1 hw
  obtain ⟨d', b1, b2, -⟩ := C113_new (F := F) hn hw
  rw [g1] at b1
  cases b1
  rw [a1] at b2
  cases b2
  have hd : 2 * half / 2 = half := by omega
  refine ⟨⟨d, cs, comp, pre, sparse, ((2 ^ n - 1 : ℕ) : F), 2 * half, 2 * half / 2, part⟩, ?_, ?_⟩
  · unfold constantsGenerate
    have e1 : n + 1 < 2 ^ 16 := by omega
    have e2 : 2 * half < 2 ^ 16 := by omega
    have e3 : part < 2 ^ 16 := by omega
    have e4 : 2 * half % 2 = 0 := by omega
    have e5 : (n + 1) * (2 * half + part) ≤ cs.length := by rw [hlen, Nat.mul_comm]
    have e6 : 1 ≤ n + 1 := by omega
    simp only [assertR, hr, if_pos e1, if_pos e2, if_pos e3, if_pos e4, if_pos e5, if_pos e6, g1, ok_bind,
      Nat.mod_eq_of_lt hs, hg, g2, g3, domainTagOf, Nat.add_sub_cancel, if_pos h30]
    rfl
  · refine ⟨⟨a2, by simp only; omega, hp, ?_⟩, ?_, a4, a5, ⟨rfl, rfl, rfl, rfl⟩, ?_, ?_⟩
    · simp only [hd]; rw [hlen]
    · simp only [hd]; exact hlen
    · simp only
      rw [Nat.cast_sub Nat.one_le_two_pow]
      push_cast
      rfl
    · intro x
      have := g4 x
      unfold optimisedOf perm
      simp only [hd]
      exact this

/-- The round numbers in exact arithmetic fit all widths that `generate` supports. When every integer of the
size of the field is accepted, `generate` returns good constants; integers that are not accepted are
skipped, see C119. -/
theorem C120_returns {n : ℕ} (hn : 0 < n) (h30 : n ≤ 30) (hw : NoWrap F (n + 1)) (conv : List ℕ → Option F)
    {size : ℕ} (hs : (size + 7) / 8 = 32) (hc : ∀ m, m < 2 ^ size → (conv (bytesLE 32 m)).isSome = true) :
    ∃ fuel k cs part, constantsGenerate (fun t => calcRoundNumbers id (fun t => Real.logb 2 t) t true) conv size fuel
      (n + 1) = .ok (some k) ∧ Good n 8 part cs k := by
  have hv := C118_value (t := n + 1) (by omega) (by omega)
  set part := ⌈(1.075 : ℝ) * ⌈49.04 + Real.logb 2 ((n + 1 : ℕ) : ℝ)⌉₊⌉₊ with hpart
  have hl0 : 0 ≤ Real.logb 2 ((n + 1 : ℕ) : ℝ) := Real.logb_nonneg (by norm_num) (by
    have : 1 ≤ n + 1 := by omega
    exact_mod_cast this)
  have hl5 : Real.logb 2 ((n + 1 : ℕ) : ℝ) ≤ 5 := by
    have : Real.logb 2 ((n + 1 : ℕ) : ℝ) ≤ Real.logb 2 (2 ^ 5) := by
      refine Real.logb_le_logb_of_le (by norm_num) ?_ ?_
      · have : 0 < n + 1 := by omega
        exact_mod_cast this
      · have : n + 1 ≤ 2 ^ 5 := by omega
        exact_mod_cast this
    rwa [show ((2 : ℝ) ^ 5) = (2 : ℝ) ^ (5 : ℝ) by norm_num, Real.logb_rpow (by norm_num) (by norm_num)] at this
  have hb : ⌈49.04 + Real.logb 2 ((n + 1 : ℕ) : ℝ)⌉₊ ≤ 55 := by
    rw [Nat.ceil_le]; push_cast; push_cast at hl5; linarith
  have ha : 0 < ⌈49.04 + Real.logb 2 ((n + 1 : ℕ) : ℝ)⌉₊ := by
    rw [Nat.ceil_pos]; linarith
  have hp0 : 0 < part := by
    rw [hpart, Nat.ceil_pos]
    have : (0 : ℝ) < ⌈49.04 + Real.logb 2 ((n + 1 : ℕ) : ℝ)⌉₊ := by exact_mod_cast ha
    linarith
  have hp1 : part ≤ 60 := by
    rw [hpart, Nat.ceil_le]
    have : (⌈49.04 + Real.logb 2 ((n + 1 : ℕ) : ℝ)⌉₊ : ℝ) ≤ 55 := by exact_mod_cast hb
    generalize (⌈49.04 + Real.logb 2 ((n + 1 : ℕ) : ℝ)⌉₊ : ℝ) = r at this
    push_cast
    linarith
  have hacc : Accepted size 1 size (n + 1) 8 part := by
    refine ⟨by omega, hs, by omega, ?_, rfl⟩
    have : (8 + part) * (n + 1) ≤ 68 * 31 := Nat.mul_le_mul (by omega) (by omega)
    omega
  obtain ⟨fuel, cs, h1, -⟩ := C119_returns conv 1 hacc hc
  obtain ⟨k, h2, h3⟩ := C120_good hn h30 hw (rounds := fun t => calcRoundNumbers id (fun t => Real.logb 2 t) t true)
    hv (by omega) (by omega) hp0 conv (by omega) h1
  exact ⟨fuel, k, cs, part, h2, h3⟩

/-- Widths that are not supported: 0, 1, and more than 31 (where the domain tag overflows an `i32`); and
fields that are too small for the matrix. In none of these cases does `generate` return constants. -/
theorem C120_unsupported (rounds : ℕ → ℕ × ℕ) (conv : List ℕ → Option F) (size fuel : ℕ) {width : ℕ}
    (h : width ≤ 1 ∨ 31 < width ∨ ¬ NoWrap F width) (k : Constants F) :
    constantsGenerate rounds conv size fuel width ≠ .ok (some k) := by
  intro hc
  unfold constantsGenerate at hc
  by_cases h1 : 1 ≤ width
  swap
  · simp only [assertR, if_neg h1] at hc
    cases hc
  simp only [assertR, if_pos h1, ok_bind] at hc
  cases hm : mdsNew (F := F) width with
  | error e => rw [hm] at hc; cases hc
  | ok d =>
    have hnw : NoWrap F width := by
      by_contra hcon
      unfold mdsNew at hm
      rw [(C113_generate (F := F) (by omega)).2 hcon] at hm
      cases hm
    have h31 : 31 < width := by
      rcases h with h | h | h
      · have : width = 1 := by omega
        subst this
        exfalso
        unfold mdsNew at hm
        obtain ⟨A, a1, a2, -⟩ := (C113_generate (F := F) (t := 1) (by omega)).1 hnw
        rw [a1, ok_bind] at hm
        have := (C113_derive_panics (n := 0) a2).1 ⟨d, hm⟩
        omega
      · exact h
      · exact absurd hnw h
    rw [hm, ok_bind] at hc
    simp only [domainTagOf, if_neg (show ¬ width - 1 ≤ 30 by omega)] at hc
    split_ifs at hc
    all_goals try cases hc
    all_goals
      simp only [ok_bind] at hc
      cases hg : generateConstants conv size fuel 1 1 (size % 2 ^ 16) width (rounds width).1 (rounds width).2 with
      | error e => rw [hg] at hc; cases hc
      | ok r =>
        rw [hg, ok_bind] at hc
        cases r with
        | none => cases hc
        | some cs => cases hc

/-- With good constants of width 3 the native hash, the circuit of `PlonkSpecRef` and the circuit of
`PlonkSpecZZ` have one value: for honest values of the composer, and the native hash is the optimised
schedule. -/
theorem C120_agree {c : Composer F} (hc : Reach R E c) {E' : EdCurve F} (hs : OwnSat E' c) {full part : ℕ}
    {cs : List F} {k : Constants F} (hk : Good 2 full part cs k) (xs : List Var) (hl : xs.length ≤ 2)
    (hx : ∀ x ∈ xs, x < c.variables.length) :
    ∃ r1 c1 r2 c2, hashCalls (plonkSpec (F := F)) 3 k xs c = .ok (some r1, c1) ∧
      hashCallsZZ k xs c = .ok (some r2, c2) ∧ OwnSat E' c1 ∧ OwnSat E' c2 ∧
      hashCalls (nativeSpec (F := F)) 3 k (xs.map (ownV c)) = .ok (some (ownV c1 r1)) ∧
      ownV c2 r2 = ownV c1 r1 ∧
      ownV c1 r1 = optimisedOf 2 k (start 2 (2 ^ 2 - 1) (xs.map (ownV c))) 1 := by
  obtain ⟨r1, c1, h1, -, h2, -⟩ := C116_hash (R := R) (E := E) hc (n := 2) (by omega) hk.fits xs hl hx
  obtain ⟨r2, c2, g1, -, g2, -⟩ := C117_hash (R := R) (E := E) hc hk.fits hk.symm hk.exact_ xs hl hx
  obtain ⟨a1, a2⟩ := h2 E' hs
  obtain ⟨b1, b2⟩ := g2 E' hs
  have e : ownV c2 r2 = ownV c1 r1 := by
    rw [a2] at b2
    simp only [Except.ok.injEq, Option.some.injEq] at b2
    exact b2.symm
  refine ⟨r1, c1, r2, c2, h1, g1, a1, b1, a2, e, ?_⟩
  rw [C115_hash (n := 2) (by omega) hk.fits _ (by rw [List.length_map]; exact hl)] at a2
  simp only [Except.ok.injEq, Option.some.injEq] at a2
  rw [← a2, hk.opt, hk.tag]
  rfl

/-- Constants of width 3 over the field with 97 elements, where each integer is taken modulo 97. -/
example : ∃ fuel k cs part, constantsGenerate (F := K97) (fun t => calcRoundNumbers id (fun t => Real.logb 2 t) t true)
    (fun B => some ((B.foldr (fun x n => x + 256 * n) 0 : ℕ) : K97)) 255 fuel 3 = .ok (some k) ∧ Good 2 8 part cs k :=
  C120_returns (n := 2) (by omega) (by omega) (by
    intro k h1 h2
    have h3 : k < 8 := by omega
    interval_cases k <;> decide +kernel) _ (by omega) fun _ _ => rfl

end VO
