import Mathlib.Data.Int.CardIntervalMod
import Mathlib.Algebra.BigOperators.Fin
import Mathlib.Data.ZMod.Basic
import Mathlib.Data.Fintype.BigOperators
import Mathlib.Tactic.NormNum
import Verif.Model.Transcript

/-
Property theorems C154: challenges are nearly uniform when digests are
(`/repo/voproof/src/tools/mod.rs:119-129`).
-/

namespace VO

open Finset

/-- Bytes are the numbers below 256. -/
def byteEquiv : UInt8 ≃ Fin 256 := ⟨UInt8.toFin, UInt8.ofFin, fun _ => rfl, fun _ => rfl⟩

/-- There are 256 bytes. -/
instance : Fintype UInt8 := Fintype.ofEquiv _ byteEquiv.symm

/-- Digests as numbers. -/
def digestEquiv (n : ℕ) : (Fin n → UInt8) ≃ Fin (256 ^ n) :=
  ((Equiv.refl (Fin n)).arrowCongr byteEquiv).trans finFunctionFinEquiv

theorem foldr_ofFn : ∀ (n : ℕ) (d : Fin n → UInt8),
    (List.ofFn d).foldr (fun x acc => x.toNat + 256 * acc) 0 = ∑ i, (d i).toNat * 256 ^ (i : ℕ)
  | 0, d => by simp
  | n + 1, d => by
    rw [List.ofFn_succ, List.foldr_cons, foldr_ofFn n, Fin.sum_univ_succ, mul_sum]
    simp only [Fin.val_zero, pow_zero, mul_one, Fin.val_succ]
    congr 1
    refine sum_congr rfl fun i _ => ?_
    ring

theorem digestEquiv_val (n : ℕ) (d : Fin n → UInt8) :
    (digestEquiv n d : ℕ) = (List.ofFn d).foldr (fun x acc => x.toNat + 256 * acc) 0 := by
  rw [foldr_ofFn]
  exact finFunctionFinEquiv_apply _

/-- **C154.** How many digests of `n` bytes give a challenge: every element of the field is hit by
`⌊256^n / p⌋` digests, the smallest `256^n mod p` elements by one more. -/
theorem C154_digests (n p : ℕ) (hp : 0 < p) (a : ZMod p) :
    #{d : Fin n → UInt8 | fromLeBytesModOrder p (List.ofFn d) = a}
      = 256 ^ n / p + if a.val < 256 ^ n % p then 1 else 0 := by
  have : NeZero p := ⟨hp.ne'⟩
  have h1 : #{d : Fin n → UInt8 | fromLeBytesModOrder p (List.ofFn d) = a}
      = #{x ∈ range (256 ^ n) | x ≡ a.val [MOD p]} := by
    refine card_bij (fun d _ => (digestEquiv n d : ℕ)) ?_ ?_ ?_
    · intro d hd
      simp only [mem_filter, mem_univ, true_and] at hd
      simp only [mem_filter, mem_range, Fin.is_lt, true_and]
      rw [digestEquiv_val, ← ZMod.natCast_eq_natCast_iff, ZMod.natCast_zmod_val, ← hd]
      rfl
    · intro d _ d' _ h
      exact (digestEquiv n).injective (Fin.ext h)
    · intro x hx
      simp only [mem_filter, mem_range] at hx
      refine ⟨(digestEquiv n).symm ⟨x, hx.1⟩, ?_, by simp⟩
      simp only [mem_filter, mem_univ, true_and]
      unfold fromLeBytesModOrder
      rw [← digestEquiv_val, Equiv.apply_symm_apply]
      exact ((ZMod.natCast_eq_natCast_iff _ _ _).2 hx.2).trans (ZMod.natCast_zmod_val a)
  rw [h1, ← Nat.count_eq_card_filter_range, Nat.count_modEq_card _ hp, Nat.mod_eq_of_lt (ZMod.val_lt a)]

/-- **C154.** A set of `b` challenges is hit by at most `b * (⌊256^n / p⌋ + 1)` digests. -/
theorem C154_bad_set (n p : ℕ) (hp : 0 < p) (B : Finset (ZMod p)) :
    #{d : Fin n → UInt8 | fromLeBytesModOrder p (List.ofFn d) ∈ B} ≤ #B * (256 ^ n / p + 1) := by
  have : ({d : Fin n → UInt8 | fromLeBytesModOrder p (List.ofFn d) ∈ B} : Finset _)
      = B.biUnion fun a => {d : Fin n → UInt8 | fromLeBytesModOrder p (List.ofFn d) = a} := by
    ext d
    simp
  rw [this]
  refine card_biUnion_le.trans ?_
  rw [← smul_eq_mul]
  refine sum_le_card_nsmul _ _ _ fun a _ => ?_
  rw [C154_digests n p hp]
  split <;> omega

/-- The order of the scalar field of BLS12-381, for which the proof systems are instantiated. -/
def blsR : ℕ := 0x73eda753299d7d483339d80809a1d80553bda402fffe5bfeffffffff00000001

/-- **C154.** With SHA-256 and BLS12-381, an element is hit by two or three digests: the hash to the field is not
uniform, even if SHA-256 is, -/
theorem C154_bls (a : ZMod blsR) : #{d : Fin 32 → UInt8 | fromLeBytesModOrder blsR (List.ofFn d) = a}
    = if a.val < 2 ^ 256 - 2 * blsR then 3 else 2 := by
  rw [C154_digests 32 blsR (by norm_num [blsR])]
  have h1 : 256 ^ 32 / blsR = 2 := by norm_num [blsR]
  have h2 : 256 ^ 32 % blsR = 2 ^ 256 - 2 * blsR := by norm_num [blsR]
  rw [h1, h2]
  split <;> rfl

/-- but a set of `b` challenges is hit at most with probability `3b / 2^256`, less than `1.4 b / r`. -/
theorem C154_bls_bad_set (B : Finset (ZMod blsR)) :
    #{d : Fin 32 → UInt8 | fromLeBytesModOrder blsR (List.ofFn d) ∈ B} * 5 * blsR ≤ 7 * #B * 2 ^ 256 := by
  have h := C154_bad_set 32 blsR (by norm_num [blsR]) B
  have h1 : 256 ^ 32 / blsR = 2 := by norm_num [blsR]
  rw [h1] at h
  calc _ ≤ #B * (2 + 1) * 5 * blsR := by gcongr
    _ = #B * (15 * blsR) := by ring
    _ ≤ #B * (7 * 2 ^ 256) := Nat.mul_le_mul_left _ (by norm_num [blsR])
    _ = _ := by ring

/-- `hash_to_field` only sees the digest. -/
theorem C154_hash (p : ℕ) (sha : List UInt8 → List UInt8) (d : Fin 32 → UInt8) (b : List UInt8)
    (h : sha b = List.ofFn d) : hashToField p sha b = fromLeBytesModOrder p (List.ofFn d) := by
  rw [hashToField, h]

/-! One byte and a field with 97 elements: 62 elements are hit by three bytes, 35 by two. -/

example : fromLeBytesModOrder 97 [200] = 6 ∧ fromLeBytesModOrder 97 [1, 1] = 63 := by decide +kernel

example : #{d : Fin 1 → UInt8 | fromLeBytesModOrder 97 (List.ofFn d) = 5} = 3 ∧
    #{d : Fin 1 → UInt8 | fromLeBytesModOrder 97 (List.ofFn d) = 90} = 2 := by
  constructor
  · rw [C154_digests 1 97 (by norm_num)]; decide +kernel
  · rw [C154_digests 1 97 (by norm_num)]; decide +kernel

end VO
