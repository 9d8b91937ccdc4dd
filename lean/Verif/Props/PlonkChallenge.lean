import Verif.Props.HashToField

/-
Property theorems C155: challenges of the PLONK transcript (`/repo/plonk-core/src/transcript.rs:34-44`).
-/

namespace VO

open Finset

theorem bytes_lt (n : ℕ) (d : Fin n → UInt8) :
    (List.ofFn d).foldr (fun x acc => x.toNat + 256 * acc) 0 < 256 ^ n := by
  rw [← digestEquiv_val]
  exact Fin.is_lt _

theorem size_two_pow (k : ℕ) : 256 ^ k = 2 ^ (8 * k) := by
  rw [pow_mul]
  norm_num

/-- The bytes are used as they are. -/
theorem challengeScalar_eq (p : ℕ) (d : Fin (challengeSize p) → UInt8) :
    challengeScalar p (List.ofFn d) = if (digestEquiv _ d : ℕ) < p then .ok ((digestEquiv _ d : ℕ) : ZMod p)
      else .error .panic := by
  have h := bytes_lt _ d
  have h2 : 256 ^ challengeSize p ≤ 2 ^ Nat.size p := by
    rw [size_two_pow]
    exact Nat.pow_le_pow_right (by norm_num) (by unfold challengeSize; omega)
  unfold challengeScalar
  simp only [Nat.mod_eq_of_lt (lt_of_lt_of_le h h2), digestEquiv_val]

/-- When the length of the modulus is not a multiple of 8, all numbers that fit into the buffer are below it. -/
theorem buffer_le {p : ℕ} (hp : Nat.size p % 8 ≠ 0) : 256 ^ challengeSize p ≤ p := by
  rw [size_two_pow, ← Nat.lt_size]
  unfold challengeSize
  omega

/-- **C155.** If the bit length of the modulus is not a multiple of 8, no challenge panics: whatever bytes the
transcript gives, they are the challenge. -/
theorem C155_never_panics (p : ℕ) (hp : Nat.size p % 8 ≠ 0) (d : Fin (challengeSize p) → UInt8) :
    ∃ a : ZMod p, challengeScalar p (List.ofFn d) = .ok a ∧
      a.val = (List.ofFn d).foldr (fun x acc => x.toNat + 256 * acc) 0 := by
  have h : (digestEquiv _ d : ℕ) < p := lt_of_lt_of_le (Fin.is_lt _) (buffer_le hp)
  refine ⟨_, by rw [challengeScalar_eq, if_pos h], ?_⟩
  rw [ZMod.val_natCast_of_lt h, digestEquiv_val]

/-- **C155.** The number of byte strings that make the prover or the verifier panic is `256^size - p` (0 if `p` is
larger). -/
theorem C155_panics (p : ℕ) :
    #{d : Fin (challengeSize p) → UInt8 | challengeScalar p (List.ofFn d) = .error .panic}
      = 256 ^ challengeSize p - p := by
  have h1 : #{d : Fin (challengeSize p) → UInt8 | challengeScalar p (List.ofFn d) = .error .panic}
      = #(Ico p (256 ^ challengeSize p)) := by
    refine card_bij (fun d _ => (digestEquiv _ d : ℕ)) ?_ ?_ ?_
    · intro d hd
      simp only [mem_filter, mem_univ, true_and] at hd
      rw [challengeScalar_eq] at hd
      rw [mem_Ico]
      refine ⟨?_, Fin.is_lt _⟩
      by_contra hc
      rw [if_pos (by omega)] at hd
      cases hd
    · intro d _ d' _ h
      exact (digestEquiv _).injective (Fin.ext h)
    · intro x hx
      rw [mem_Ico] at hx
      refine ⟨(digestEquiv _).symm ⟨x, hx.2⟩, ?_, by simp⟩
      simp only [mem_filter, mem_univ, true_and]
      rw [challengeScalar_eq, Equiv.apply_symm_apply, if_neg (by simpa using hx.1)]
  rw [h1, Nat.card_Ico]

/-- **C155.** If the bit length is a multiple of 8, some string panics. -/
theorem C155_can_panic (p : ℕ) (hp : Nat.size p % 8 = 0) :
    ∃ d : Fin (challengeSize p) → UInt8, challengeScalar p (List.ofFn d) = .error .panic := by
  have hlt : p < 256 ^ challengeSize p := by
    rw [size_two_pow, ← Nat.size_le]
    unfold challengeSize
    omega
  have h := C155_panics p
  have hpos : 0 < #{d : Fin (challengeSize p) → UInt8 | challengeScalar p (List.ofFn d) = .error .panic} := by
    rw [h]; omega
  obtain ⟨d, hd⟩ := card_pos.1 hpos
  exact ⟨d, (mem_filter.1 hd).2⟩

/-- **C155.** Every number below `256^size` is the challenge for exactly one string of bytes, and the other
elements of the field are never challenges. -/
theorem C155_strings (p : ℕ) (hp : 0 < p) (hp8 : Nat.size p % 8 ≠ 0) (a : ZMod p) :
    #{d : Fin (challengeSize p) → UInt8 | challengeScalar p (List.ofFn d) = .ok a}
      = if a.val < 256 ^ challengeSize p then 1 else 0 := by
  have : NeZero p := ⟨hp.ne'⟩
  have key : ∀ d : Fin (challengeSize p) → UInt8, challengeScalar p (List.ofFn d) = .ok a ↔
      (digestEquiv _ d : ℕ) = a.val := by
    intro d
    have h : (digestEquiv _ d : ℕ) < p := lt_of_lt_of_le (Fin.is_lt _) (buffer_le hp8)
    rw [challengeScalar_eq, if_pos h]
    constructor
    · intro h'
      rw [← Except.ok.inj h', ZMod.val_natCast_of_lt h]
    · intro h'
      rw [h', ZMod.natCast_zmod_val]
  by_cases ha : a.val < 256 ^ challengeSize p
  · rw [if_pos ha, card_eq_one]
    refine ⟨(digestEquiv _).symm ⟨a.val, ha⟩, ?_⟩
    ext d
    simp only [mem_filter, mem_univ, true_and, mem_singleton, key, Equiv.eq_symm_apply, Fin.ext_iff]
  · rw [if_neg ha, card_eq_zero, filter_eq_empty_iff]
    intro d _
    rw [key]
    have := Fin.is_lt (digestEquiv _ d)
    omega

theorem challenge_exists (p : ℕ) (hp : 0 < p) (hp8 : Nat.size p % 8 ≠ 0) (a : ZMod p)
    (ha : a.val < 256 ^ challengeSize p) :
    ∃ d : Fin (challengeSize p) → UInt8, challengeScalar p (List.ofFn d) = .ok a := by
  have h := C155_strings p hp hp8 a
  rw [if_pos ha] at h
  obtain ⟨d, hd⟩ := card_pos.1 (by rw [h]; exact one_pos)
  exact ⟨d, (mem_filter.1 hd).2⟩

/-- **C155.** A set of `b` challenges is hit by at most `b` of the `256^size` strings. -/
theorem C155_bad_set (p : ℕ) (hp : 0 < p) (hp8 : Nat.size p % 8 ≠ 0) (B : Finset (ZMod p)) :
    #{d : Fin (challengeSize p) → UInt8 | ∃ a ∈ B, challengeScalar p (List.ofFn d) = .ok a} ≤ #B := by
  have : ({d : Fin (challengeSize p) → UInt8 | ∃ a ∈ B, challengeScalar p (List.ofFn d) = .ok a} : Finset _)
      = B.biUnion fun a => {d : Fin (challengeSize p) → UInt8 | challengeScalar p (List.ofFn d) = .ok a} := by
    ext d
    simp
  rw [this]
  refine card_biUnion_le.trans ?_
  rw [← mul_one #B, ← smul_eq_mul]
  refine sum_le_card_nsmul _ _ _ fun a _ => ?_
  rw [C155_strings p hp hp8]
  split <;> omega

/-- **C155.** For BLS12-381: challenges never panic, and are the numbers below `2^248`, less than a hundredth of
the field, so that a bad set of challenges can be more than a hundred times as likely as its size suggests. -/
theorem C155_bls : (∀ d : Fin 31 → UInt8, ∃ a, challengeScalar blsR (List.ofFn d) = .ok a ∧ a.val < 2 ^ 248) ∧
    (∀ x : ℕ, x < 2 ^ 248 → ∃ d : Fin 31 → UInt8, challengeScalar blsR (List.ofFn d) = .ok (x : ZMod blsR)) ∧
    100 * 2 ^ 248 < blsR := by
  have hs : Nat.size blsR = 255 := by decide +kernel
  have hc : challengeSize blsR = 31 := by unfold challengeSize; rw [hs]
  have hp : Nat.size blsR % 8 ≠ 0 := by rw [hs]; norm_num
  have h1 := C155_never_panics blsR hp
  have h2 := bytes_lt 31
  have h3 := challenge_exists blsR (by norm_num [blsR]) hp
  rw [hc] at h1 h3
  refine ⟨fun d => ?_, fun x hx => ?_, by norm_num [blsR]⟩
  · obtain ⟨a, ha, hv⟩ := h1 d
    refine ⟨a, ha, ?_⟩
    rw [hv]
    exact lt_of_lt_of_eq (h2 d) (size_two_pow 31)
  · have hlt : x < blsR := lt_trans hx (by norm_num [blsR])
    refine h3 _ ?_
    rw [ZMod.val_natCast_of_lt hlt]
    exact lt_of_lt_of_eq hx (size_two_pow 31).symm

/-! One byte for a field of 11 bits; a modulus of 8 bits, where five bytes panic. -/

example : challengeScalar 2039 [255] = .ok 255 := by decide +kernel
example : challengeScalar 251 [253] = .error .panic := by decide +kernel
example : #{d : Fin (challengeSize 251) → UInt8 | challengeScalar 251 (List.ofFn d) = .error .panic} = 5 := by
  rw [C155_panics 251]
  decide +kernel

end VO
