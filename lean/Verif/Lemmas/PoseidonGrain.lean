import Verif.Model.PoseidonGrain
import Verif.Spec.PoseidonGrain
import Mathlib.Tactic.Ring
import Mathlib.Data.Nat.Bitwise

/-
The shift register of `/repo/plonk-hashing/src/poseidon/round_constant.rs` never runs dry: polynomials over
the field with two elements as operators on sequences of bits.
-/

namespace VO.Poseidon

open VO.Spec.Poseidon

/-- A polynomial, as its list of coefficients, applied to a sequence. -/
def act : List Bool → (ℕ → Bool) → ℕ → Bool
  | [], _, _ => false
  | c :: p, a, m => (c && a m) ^^ act p a (m + 1)

def addP : List Bool → List Bool → List Bool
  | [], q => q
  | p, [] => p
  | c :: p, d :: q => (c ^^ d) :: addP p q

def mulP : List Bool → List Bool → List Bool
  | [], _ => []
  | c :: p, q => addP (if c then q else []) (false :: mulP p q)

theorem act_add (a : ℕ → Bool) : ∀ (p q : List Bool) (m : ℕ), act (addP p q) a m = (act p a m ^^ act q a m)
  | [], q, m => by simp [addP, act]
  | c :: p, [], m => by simp [addP, act]
  | c :: p, d :: q, m => by
    simp only [addP, act]
    rw [act_add a p q (m + 1)]
    cases c <;> cases d <;> cases a m <;> cases act p a (m + 1) <;> cases act q a (m + 1) <;> rfl

theorem act_mul (a : ℕ → Bool) : ∀ (p q : List Bool) (m : ℕ), act (mulP p q) a m = act p (act q a) m
  | [], q, m => rfl
  | c :: p, q, m => by
    simp only [mulP, act_add]
    simp only [act]
    rw [act_mul a p q (m + 1)]
    cases c <;> simp [act]

theorem act_zeros (a : ℕ → Bool) : ∀ (n m : ℕ), act (List.replicate n false) a m = false
  | 0, _ => rfl
  | n + 1, m => by rw [List.replicate_succ]; simp [act, act_zeros a n]

theorem act_zero (p : List Bool) : ∀ m, act p (fun _ => false) m = false := by
  induction p with
  | nil => intro m; rfl
  | cons c p ih => intro m; simp [act, ih]

def polyG : List Bool :=
  [false, false, false, false, false, false, true, false, false, false, false, true, false, false, false,
  false, false, false, false, false, false, false, false, false, false, true]
def polyH : List Bool :=
  [true, false, false, false, false, false, false, false, false, false, false, false, false, false, false,
  false, false, false, false, true, false, false, false, false, false, false, false, false, false, false,
  false, true, false, false, false, false, false, false, false, false, true]
def polyU : List Bool :=
  [true, true, false, true, true, true, false, false, false, false, false, true, true, true, false, false,
  false, false, false, false, false, false, false, false, true, false, false, true, true, false, false,
  true, true, true, false, false, false, true, true, true]
def polyV : List Bool :=
  [true, false, false, false, false, false, true, true, false, true, true, false, true, false, true, true,
  true, true, true, false, false, false, true, true, true]

theorem bezout : addP (mulP polyU polyG) (mulP polyV polyH) = true :: List.replicate 64 false := by
  decide +kernel

/-- A sequence that both polynomials take to zero is zero. -/
theorem zero_of_both {a : ℕ → Bool} (hg : act polyG a = fun _ => false) (hh : act polyH a = fun _ => false)
    (m : ℕ) : a m = false := by
  have h := act_add a (mulP polyU polyG) (mulP polyV polyH) m
  rw [bezout, act_mul, act_mul, hg, hh, act_zero, act_zero] at h
  simpa [act, act_zeros] using h

theorem odd_zero {b : ℕ → Bool} (hb : IsGrain b) {q : ℕ} (h : ∀ j, b (q + 2 * j) = false) (m : ℕ) :
    b (q + 2 * m + 1) = false := by
  refine zero_of_both (a := fun m => b (q + 2 * m + 1)) ?_ ?_ m
  · funext m
    have e := hb (q + 2 * m)
    have z : ∀ k, b (q + 2 * m + 2 * k) = false := fun k => by
      rw [show q + 2 * m + 2 * k = q + 2 * (m + k) by ring]; exact h _
    rw [z 40, z 31, z 19, show b (q + 2 * m) = false from h m] at e
    simp only [act, polyG, Bool.false_and, Bool.true_and, Bool.false_xor, Bool.xor_false, Nat.add_assoc]
    simp only [Nat.reduceAdd]
    rw [show q + (2 * (m + 6) + 1) = q + 2 * m + 13 by ring, show q + (2 * (m + 11) + 1) = q + 2 * m + 23 by ring,
      show q + (2 * (m + 25) + 1) = q + 2 * m + 51 by ring]
    revert e
    cases b (q + 2 * m + 13) <;> cases b (q + 2 * m + 23) <;> cases b (q + 2 * m + 51) <;> simp
  · funext m
    have e := hb (q + 2 * m + 1)
    have z : ∀ k, b (q + 2 * m + 1 + (2 * k + 1)) = false := fun k => by
      rw [show q + 2 * m + 1 + (2 * k + 1) = q + 2 * (m + k + 1) by ring]; exact h _
    rw [z 25, z 11, z 6] at e
    simp only [act, polyH, Bool.false_and, Bool.true_and, Bool.false_xor, Bool.xor_false, Nat.add_assoc]
    simp only [Nat.reduceAdd]
    rw [show q + (2 * (m + 19) + 1) = q + 2 * m + 1 + 38 by ring, show q + (2 * (m + 31) + 1) = q + 2 * m + 1 + 62 by ring,
      show q + (2 * (m + 40) + 1) = q + 2 * m + 1 + 80 by ring, show q + (2 * m + 1) = q + 2 * m + 1 by ring]
    revert e
    cases b (q + 2 * m + 1 + 38) <;> cases b (q + 2 * m + 1 + 62) <;> cases b (q + 2 * m + 1 + 80) <;>
      cases b (q + 2 * m + 1) <;> simp

/-- Eighty zeros in a row: all bits in front are zero. -/
theorem back_zero {b : ℕ → Bool} (hb : IsGrain b) : ∀ (p : ℕ), (∀ i < 80, b (p + i) = false) →
    ∀ i < 80, b i = false
  | 0, h => fun i hi => by simpa using h i hi
  | p + 1, h => by
    refine back_zero hb p fun i hi => ?_
    rcases Nat.eq_zero_or_pos i with rfl | hi0
    · have e := hb p
      have z : ∀ k, 0 < k → k ≤ 80 → b (p + k) = false := fun k h1 h2 => by
        have := h (k - 1) (by omega)
        rwa [show p + 1 + (k - 1) = p + k by omega] at this
      rw [z 80 (by omega) (by omega), z 62 (by omega) (by omega), z 51 (by omega) (by omega),
        z 38 (by omega) (by omega), z 23 (by omega) (by omega), z 13 (by omega) (by omega)] at e
      simpa using e.symm
    · have := h (i - 1) (by omega)
      rwa [show p + 1 + (i - 1) = p + i by omega] at this

/-- From every position on one of the first bits of the pairs is 1, unless all bits are zero. -/
theorem exists_one {b : ℕ → Bool} (hb : IsGrain b) (hn : ∃ i < 80, b i = true) (q : ℕ) : ∃ k, b (q + 2 * k) = true := by
  by_contra hc
  have h : ∀ j, b (q + 2 * j) = false := fun j => by
    by_contra h
    exact hc ⟨j, by simpa using h⟩
  have h1 := odd_zero hb h
  obtain ⟨i, hi, ht⟩ := hn
  have := back_zero hb q (fun i hi => by
    rcases Nat.even_or_odd' i with ⟨k, rfl | rfl⟩
    · exact h k
    · exact h1 k) i hi
  rw [this] at ht
  cases ht

theorem first_one {b : ℕ → Bool} (hb : IsGrain b) (hn : ∃ i < 80, b i = true) (q : ℕ) :
    ∃ k, (∀ j < k, b (q + 2 * j) = false) ∧ b (q + 2 * k) = true := by
  have h := exists_one hb hn q
  refine ⟨Nat.find h, fun j hj => ?_, Nat.find_spec h⟩
  simpa using Nat.find_min h hj

end VO.Poseidon
