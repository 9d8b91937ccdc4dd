import Mathlib.Algebra.Field.ZMod
import Mathlib.Tactic.NormNum.Prime
import Mathlib.Tactic.IntervalCases
import Mathlib.RingTheory.RootsOfUnity.PrimitiveRoots
import Verif.Model.Snark
import Verif.Lemmas.Fft
import Verif.Lemmas.KzgExample

/-
A concrete environment for the examples about SNARKs: the field with 97 elements.
-/

namespace VO

instance fact97 : Fact (Nat.Prime 97) := ⟨by norm_num⟩

/-- The field of the examples. -/
abbrev K97 := ZMod 97

/-- A number for each hashed item. -/
def itemNat97 : Item K97 K97 → ℕ
  | .fld a => a.val
  | .cm c => c.val + 13
  | .flds l => (l.map ZMod.val).sum
  | .nats l => l.sum
  | .nat n => n

/-- A concrete environment: groups are the field, the pairing is multiplication, the hash is a
weighted sum. -/
def env97 : Env K97 K97 K97 K97 where
  hash l := (((l.zipIdx.map (fun p => (itemNat97 p.1 + 3) * (p.2 * 7 + 5))).sum : ℕ) : K97)
  e := mulPairing
  fft := ⟨5, fun e => (5 : K97) ^ (96 / 2 ^ e)⟩
  gamma := 5
  rngF := fun i => ((i * 17 + 11 : ℕ) : K97)
  rngU128 := 23

theorem fftOk97 : FftOk env97.fft := by
  intro e he
  have he : e ≤ 5 := he
  have h1 : ((5 : K97) ^ (96 / 2 ^ e)) ^ (2 ^ e) = 1 := by
    interval_cases e <;> decide +kernel
  have h2 : ∀ l, 0 < l → l < 2 ^ e → ((5 : K97) ^ (96 / 2 ^ e)) ^ l ≠ 1 := by
    have h3 : ∀ e < 6, ∀ l < 2 ^ e, 0 < l → ((5 : K97) ^ (96 / 2 ^ e)) ^ l ≠ 1 := by
      decide +kernel
    intro l h0 hl
    exact h3 e (by omega) l hl h0
  exact IsPrimitiveRoot.mk_of_lt _ (pow_pos (by norm_num) e) h1 h2

theorem nonDegenerate97 : Spec.NonDegenerate env97.e (1 : K97) := by
  intro x hx
  have : x * 1 = 0 := hx
  rwa [mul_one] at this

end VO
