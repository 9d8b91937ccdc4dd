import Mathlib.NumberTheory.LucasPrimality
import Mathlib.Data.Nat.Prime.Basic
import Mathlib.Algebra.BigOperators.Group.List.Basic

/-
Powers modulo a number, computed by squaring so that the kernel can evaluate them, and primality and
orders from them.
-/

namespace VO

/-- `a ^ e % m` by squaring, at most `fuel` binary digits of `e`. -/
def powMod (m : ℕ) : ℕ → ℕ → ℕ → ℕ
  | 0, _, _ => 1 % m
  | fuel + 1, a, e =>
    let r := powMod m fuel (a * a % m) (e / 2)
    if e % 2 = 1 then a * r % m else r

theorem powMod_eq (m fuel a e : ℕ) (h : e < 2 ^ fuel) : powMod m fuel a e = a ^ e % m := by
  induction fuel generalizing a e with
  | zero =>
    have : e = 0 := by simpa using h
    subst this
    simp [powMod]
  | succ fuel ih =>
    have h2 : e / 2 < 2 ^ fuel := by rw [pow_succ] at h; omega
    simp only [powMod, ih _ _ h2]
    have key : (a * a % m) ^ (e / 2) % m = a ^ (2 * (e / 2)) % m := by
      rw [← Nat.pow_mod, ← pow_two, ← pow_mul]
    split
    · next h1 =>
      rw [key, Nat.mul_mod, Nat.mod_mod, ← Nat.mul_mod, ← pow_succ']
      congr 2
      omega
    · next h1 =>
      rw [key]
      congr 2
      omega

theorem zmod_pow_eq {p : ℕ} (a e c fuel : ℕ) (h : e < 2 ^ fuel)
    (hc : powMod p fuel a e = c % p) : ((a : ℕ) : ZMod p) ^ e = ((c : ℕ) : ZMod p) := by
  rw [← Nat.cast_pow, ZMod.natCast_eq_natCast_iff, Nat.ModEq, ← powMod_eq p fuel a e h, hc]

theorem zmod_pow_ne {p : ℕ} (a e c fuel : ℕ) (h : e < 2 ^ fuel)
    (hc : powMod p fuel a e ≠ c % p) : ((a : ℕ) : ZMod p) ^ e ≠ ((c : ℕ) : ZMod p) := by
  intro hh
  rw [← Nat.cast_pow, ZMod.natCast_eq_natCast_iff, Nat.ModEq, ← powMod_eq p fuel a e h] at hh
  exact hc hh

/-- A Pratt certificate: the prime factors of `p - 1`, with repetitions, and a generator. -/
structure Pratt (p a fuel : ℕ) (fs : List ℕ) : Prop where
  lt : p < 2 ^ fuel
  prod : fs.prod = p - 1
  prime : ∀ q ∈ fs, q.Prime
  one : powMod p fuel a (p - 1) = 1 % p
  ne : ∀ q ∈ fs, powMod p fuel a ((p - 1) / q) ≠ 1 % p

theorem Pratt.pow_one {p a fuel : ℕ} {fs : List ℕ} (h : Pratt p a fuel fs) :
    ((a : ℕ) : ZMod p) ^ (p - 1) = 1 := by
  have := zmod_pow_eq (p := p) a (p - 1) 1 fuel (lt_of_le_of_lt (Nat.sub_le _ _) h.lt) h.one
  simpa using this

theorem Pratt.pow_ne {p a fuel : ℕ} {fs : List ℕ} (h : Pratt p a fuel fs) {q : ℕ} (hq : q.Prime)
    (hd : q ∣ p - 1) : ((a : ℕ) : ZMod p) ^ ((p - 1) / q) ≠ 1 := by
  rw [← h.prod] at hd
  obtain ⟨r, hr, hqr⟩ := (hq.prime.dvd_prod_iff).1 hd
  obtain rfl := (Nat.prime_dvd_prime_iff_eq hq (h.prime r hr)).1 hqr
  have := zmod_pow_ne (p := p) a ((p - 1) / q) 1 fuel
    (lt_of_le_of_lt ((Nat.div_le_self _ _).trans (Nat.sub_le _ _)) h.lt) (h.ne q hr)
  simpa using this

theorem Pratt.prime' {p a fuel : ℕ} {fs : List ℕ} (h : Pratt p a fuel fs) : p.Prime :=
  lucas_primality p a h.pow_one fun _ hq hd => h.pow_ne hq hd

/-- The generator of a certificate has full order. -/
theorem Pratt.order {p a fuel : ℕ} {fs : List ℕ} (h : Pratt p a fuel fs) (hp : 1 < p) :
    orderOf ((a : ℕ) : ZMod p) = p - 1 :=
  orderOf_eq_of_pow_and_pow_div_prime (by omega) h.pow_one fun _ hq hd => h.pow_ne hq hd

end VO
