import Mathlib.Tactic.NormNum
import Verif.Lemmas.Scalars

/-
Property theorems C01, C02, C49: integer conversions and exponentiation
(`/repo/voproof/src/tools/mod.rs:10-85`).
-/

set_option linter.unusedSectionVars false

namespace VO

/-! ## C01 -/

/-- **C01.** For every modulus of more than 64 bits, every `u64` converts to a field element and
back to itself, through both inverse functions. -/
theorem C01_roundtrip (p : ℕ) (hp : 2 ^ 64 ≤ p) (i : ℕ) (hi : i < 2 ^ 64) :
    ∃ e : ZMod p, toFieldZ p i = .ok e ∧ toInt p e = .ok i ∧ tryToInt p e = some i := by
  have hlt : i < p := lt_of_lt_of_le hi hp
  refine ⟨(i : ZMod p), by rw [toFieldZ, if_pos hlt], ?_, ?_⟩
  · rw [toInt_eq, ZMod.val_natCast_of_lt hlt, if_pos hi]
  · rw [tryToInt_eq, ZMod.val_natCast_of_lt hlt, if_pos hi]

example : (2 : ℕ) ^ 64 ≤ 2 ^ 64 + 13 ∧ 12345 < 2 ^ 64 := by norm_num

/-- **C01.** `try_to_int` answers exactly on the field elements whose canonical representative
has 64 bits, with that representative, and `to_int` aborts exactly on the others. -/
theorem C01_inverse (p : ℕ) (e : ZMod p) :
    (e.val < 2 ^ 64 ∧ tryToInt p e = some e.val ∧ toInt p e = .ok e.val) ∨
    (2 ^ 64 ≤ e.val ∧ tryToInt p e = none ∧ toInt p e = .error .panic) := by
  rw [tryToInt_eq, toInt_eq]
  by_cases h : e.val < 2 ^ 64
  · exact Or.inl ⟨h, if_pos h, if_pos h⟩
  · exact Or.inr ⟨not_lt.mp h, if_neg h, if_neg h⟩

/-- **C01.** Converting back what `try_to_int` returned gives the original field element. -/
theorem C01_back (p : ℕ) [NeZero p] (e : ZMod p) (i : ℕ) (h : tryToInt p e = some i) :
    toFieldZ p i = .ok e ∧ i < 2 ^ 64 := by
  rw [tryToInt_eq] at h
  split_ifs at h with h2
  obtain rfl := Option.some.inj h
  exact ⟨by rw [toFieldZ, if_pos (ZMod.val_lt e), ZMod.natCast_zmod_val], h2⟩

example : ∃ e : ZMod (2 ^ 64 + 13), tryToInt (2 ^ 64 + 13) e = some 7 := by
  obtain ⟨e, -, -, h⟩ := C01_roundtrip (2 ^ 64 + 13) (by norm_num) 7 (by norm_num)
  exact ⟨e, h⟩

/-- `to_field` aborts exactly when the integer is not below the modulus. -/
theorem C01_toField_panics (p i : ℕ) : toFieldZ p i = .error .panic ↔ p ≤ i := by
  unfold toFieldZ
  by_cases h : i < p
  · simp [h]
  · simp [h, not_lt.mp h]

/-! ## C02 -/

variable {F : Type} [Field F] [DecidableEq F]

/-- **C02.** For a non-zero base, `power` is integer exponentiation for every signed exponent. -/
theorem C02_power (a : F) (ha : a ≠ 0) (e : ℤ) : power a e = a ^ e := power_eq_zpow ha e

/-- **C02.** Exponents add: the law callers use to shift exponents. -/
theorem C02_power_add (a : F) (ha : a ≠ 0) (e f : ℤ) :
    power a (e + f) = power a e * power a f := by
  simp only [power_eq_zpow ha, zpow_add₀ ha]

example : power (2 : ℚ) (-3) = 1 / 8 := by rw [C02_power 2 (by norm_num)]; norm_num

/-- **C02.** For the base 0 the function returns 0 for every exponent. -/
theorem C02_power_zero (e : ℤ) : power (0 : F) e = 0 := power_zero_left e

/-- **C02, deviation.** For the base 0 and a natural exponent the result is the usual power
except at exponent 0, where `0^0 = 1` is expected and 0 is returned. -/
theorem C02_power_zero_deviation (n : ℕ) : power (0 : F) n = (0 : F) ^ n ↔ n ≠ 0 := by
  rw [power_zero_left]
  constructor
  · rintro h rfl; simp at h
  · intro h; rw [zero_pow h]

/-! ## C49 -/

/-- **C49.** Adding a non-negative `i64` to a field element adds the integer. -/
theorem C49_add_nonneg (p : ℕ) (hp : 2 ^ 64 ≤ p) (a : ZMod p) (b : ℤ) (h0 : 0 ≤ b)
    (h1 : b < 2 ^ 63) : customAddFi p a b = .ok (a + (b : ZMod p)) := by
  have hm : b % 2 ^ 64 = b := Int.emod_eq_of_lt h0 (by omega)
  have hb : ((b.toNat : ℕ) : ZMod p) = (b : ZMod p) := by
    rw [← Int.cast_natCast, Int.toNat_of_nonneg h0]
  unfold customAddFi toFieldZ i64AsU64
  rw [hm, if_pos (by omega)]
  simp only [hb]

/-- **C49, deviation.** For a negative `i64` the two's-complement cast adds an extra `2^64`. -/
theorem C49_add_neg (p : ℕ) (hp : 2 ^ 64 ≤ p) (a : ZMod p) (b : ℤ) (h0 : b < 0)
    (h1 : -2 ^ 63 ≤ b) : customAddFi p a b = .ok (a + (b : ZMod p) + 2 ^ 64) := by
  have hm : b % 2 ^ 64 = b + 2 ^ 64 := by
    rw [← Int.add_emod_right]
    exact Int.emod_eq_of_lt (by omega) (by omega)
  have hb : (((b + 2 ^ 64).toNat : ℕ) : ZMod p) = (b : ZMod p) + 2 ^ 64 := by
    rw [← Int.cast_natCast, Int.toNat_of_nonneg (by omega)]; push_cast; norm_num
  unfold customAddFi toFieldZ i64AsU64
  rw [hm, if_pos (by omega)]
  simp only [hb, add_assoc]

/-- **C49, deviation.** Hence the result is never the integer sum for a negative `i64` (in every
prime field of more than 64 bits). -/
theorem C49_add_neg_wrong (p : ℕ) [Fact p.Prime] (hp : 2 ^ 64 ≤ p) (a : ZMod p) (b : ℤ)
    (h0 : b < 0) (h1 : -2 ^ 63 ≤ b) : customAddFi p a b ≠ .ok (a + (b : ZMod p)) := by
  rw [C49_add_neg p hp a b h0 h1]
  intro h
  have h2 : ((2 : ℕ) : ZMod p) ^ 64 = 0 := by
    have := Except.ok.inj h
    push_cast
    exact left_eq_add.mp this.symm
  have h3 : ((2 : ℕ) : ZMod p) = 0 := by
    by_contra hc; exact pow_ne_zero 64 hc h2
  rw [ZMod.natCast_eq_zero_iff] at h3
  have := Nat.le_of_dvd (by norm_num) h3
  omega

example : (-5 : ℤ) < 0 ∧ -2 ^ 63 ≤ (-5 : ℤ) := by norm_num

end VO
