import Mathlib.Algebra.Field.ZMod
import Mathlib.Tactic.Ring
import Mathlib.Tactic.Linarith
import Verif.Model.Tools
import Verif.Lemmas.PowerMul

set_option linter.unusedSectionVars false

namespace VO

theorem u64Digits_zero : u64Digits 0 = [] := by rw [u64Digits]; simp

theorem u64Digits_of_lt {n : ℕ} (h0 : n ≠ 0) (h : n < 2 ^ 64) : u64Digits n = [n] := by
  rw [u64Digits, dif_neg h0, Nat.div_eq_of_lt h, u64Digits_zero, Nat.mod_eq_of_lt h]

theorem u64Digits_of_ge {n : ℕ} (h : 2 ^ 64 ≤ n) : ∃ a b l, u64Digits n = a :: b :: l := by
  have h0 : n ≠ 0 := by
    intro hc; subst hc; exact absurd h (by decide)
  have h1 : n / 2 ^ 64 ≠ 0 := by
    have : 1 ≤ n / 2 ^ 64 := (Nat.le_div_iff_mul_le (by decide)).mpr (by simpa using h)
    omega
  rw [u64Digits, dif_neg h0, u64Digits, dif_neg h1]
  exact ⟨_, _, _, rfl⟩

theorem toInt_eq (p : ℕ) (e : ZMod p) :
    toInt p e = if e.val < 2 ^ 64 then .ok e.val else .error .panic := by
  unfold toInt
  split_ifs with h
  · by_cases h0 : e.val = 0
    · rw [h0, u64Digits_zero]
    · rw [u64Digits_of_lt h0 h]
  · obtain ⟨a, b, l, hl⟩ := u64Digits_of_ge (not_lt.mp h)
    rw [hl]

theorem tryToInt_eq (p : ℕ) (e : ZMod p) :
    tryToInt p e = if e.val < 2 ^ 64 then some e.val else none := by
  unfold tryToInt
  split_ifs with h
  · by_cases h0 : e.val = 0
    · rw [h0, u64Digits_zero]
    · rw [u64Digits_of_lt h0 h]
  · obtain ⟨a, b, l, hl⟩ := u64Digits_of_ge (not_lt.mp h)
    rw [hl]

end VO
