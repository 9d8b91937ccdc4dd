import Verif.Lemmas.Pratt
import Verif.Model.Fields
import Verif.Lemmas.Fft
import Verif.Spec.PlonkSnark
import Mathlib.RingTheory.RootsOfUnity.PrimitiveRoots
import Mathlib.Tactic.NormNum.Prime

/-
Primality of the two scalar fields, and the facts about their roots of unity and cosets.
-/

namespace VO

open Plonk Spec Spec.Plonk

/-- What is evaluated for a field: a certificate, the two-adicity, and the powers of the coset constants
for the largest domain. -/
structure FieldCert (p g s fuel : ℕ) (fs : List ℕ) : Prop where
  cert : Pratt p g fuel fs
  big : 17 < p
  adic : (p - 1) / 2 ^ s * 2 ^ s = p - 1
  fuelS : 2 ^ s < 2 ^ fuel
  genS : 2 ^ s < p - 1
  k1 : powMod p fuel 7 (2 ^ s) ≠ 1 % p
  k2 : powMod p fuel 13 (2 ^ s) ≠ 1 % p
  k3 : powMod p fuel 17 (2 ^ s) ≠ 1 % p
  k12 : powMod p fuel 7 (2 ^ s) ≠ powMod p fuel 13 (2 ^ s)
  k13 : powMod p fuel 7 (2 ^ s) ≠ powMod p fuel 17 (2 ^ s)
  k23 : powMod p fuel 13 (2 ^ s) ≠ powMod p fuel 17 (2 ^ s)

variable {p g s fuel : ℕ} {fs : List ℕ}

theorem pow_ne_of_top {M : Type} [Monoid M] {a b : M} (h : a ^ 2 ^ s ≠ b ^ 2 ^ s) {e : ℕ} (he : e ≤ s) :
    a ^ 2 ^ e ≠ b ^ 2 ^ e := by
  intro hh
  refine h ?_
  have : 2 ^ s = 2 ^ e * 2 ^ (s - e) := by rw [← pow_add]; congr 1; omega
  rw [this, pow_mul, pow_mul, hh]

theorem natCast_ne_zero_of_lt {k : ℕ} (h0 : k ≠ 0) (h : k < p) : ((k : ℕ) : ZMod p) ≠ 0 := by
  rw [Ne, ZMod.natCast_eq_zero_iff]
  exact fun hd => absurd (Nat.le_of_dvd (by omega) hd) (by omega)

theorem powMod_ne_zmod {a b : ℕ} (hf : 2 ^ s < 2 ^ fuel)
    (h : powMod p fuel a (2 ^ s) ≠ powMod p fuel b (2 ^ s)) :
    ((a : ℕ) : ZMod p) ^ 2 ^ s ≠ ((b : ℕ) : ZMod p) ^ 2 ^ s := by
  intro hh
  rw [powMod_eq p fuel _ _ hf, powMod_eq p fuel _ _ hf] at h
  rw [← Nat.cast_pow, ← Nat.cast_pow, ZMod.natCast_eq_natCast_iff, Nat.ModEq] at hh
  exact h hh

theorem FieldCert.generator (h : FieldCert p g s fuel fs) :
    IsPrimitiveRoot ((g : ℕ) : ZMod p) (p - 1) := by
  rw [← h.cert.order (by have := h.big; omega)]
  exact IsPrimitiveRoot.orderOf _

/-- All the assumptions of the PLONK theorems about the field. -/
theorem FieldCert.pfieldOk [Fact p.Prime] (h : FieldCert p g s fuel fs) :
    PFieldOk (pfieldOf p g s) := by
  have hbig := h.big
  have hgen := h.generator
  have hroot : ∀ e ≤ s, IsPrimitiveRoot
      ((((g : ℕ) : ZMod p) ^ ((p - 1) / 2 ^ s)) ^ 2 ^ (s - e)) (2 ^ e) := by
    intro e he
    rw [← pow_mul]
    refine hgen.pow (by omega) ?_
    rw [mul_assoc, ← pow_add, Nat.sub_add_cancel he, h.adic]
  have c7 : (7 : ZMod p) = ((7 : ℕ) : ZMod p) := by norm_num
  have c13 : (13 : ZMod p) = ((13 : ℕ) : ZMod p) := by norm_num
  have c17 : (17 : ZMod p) = ((17 : ℕ) : ZMod p) := by norm_num
  have one : ∀ k : ℕ, powMod p fuel k (2 ^ s) ≠ 1 % p → ∀ e ≤ s, ((k : ℕ) : ZMod p) ^ 2 ^ e ≠ 1 := by
    intro k hk e he
    have := pow_ne_of_top (M := ZMod p) (s := s) (a := ((k : ℕ) : ZMod p)) (b := 1)
      (by simpa using zmod_pow_ne k (2 ^ s) 1 fuel h.fuelS hk) he
    simpa using this
  refine ⟨hroot, ?_, ?_, ?_, ⟨?_, ?_, ?_⟩, ?_, ?_, ?_, ?_, ?_, ?_⟩
  · intro e he
    have he : e < s := he
    show ((((g : ℕ) : ZMod p) ^ ((p - 1) / 2 ^ s)) ^ 2 ^ (s - (e + 1))) ^ 2
      = (((g : ℕ) : ZMod p) ^ ((p - 1) / 2 ^ s)) ^ 2 ^ (s - e)
    rw [← pow_mul, ← pow_succ]
    congr 2
    omega
  · show ((g : ℕ) : ZMod p) ≠ 0
    exact hgen.ne_zero (by omega)
  · intro e he hh
    have he : e ≤ s := he
    have hdv := hgen.dvd_of_pow_eq_one _ hh
    have hle := Nat.le_of_dvd (by positivity) hdv
    have : 2 ^ e ≤ 2 ^ s := Nat.pow_le_pow_right (by norm_num) he
    have := h.genS
    omega
  · rw [c7]; exact natCast_ne_zero_of_lt (by norm_num) (by omega)
  · rw [c13]; exact natCast_ne_zero_of_lt (by norm_num) (by omega)
  · rw [c17]; exact natCast_ne_zero_of_lt (by norm_num) (by omega)
  · intro e he; rw [c7]; exact one 7 h.k1 e he
  · intro e he; rw [c13]; exact one 13 h.k2 e he
  · intro e he; rw [c17]; exact one 17 h.k3 e he
  · intro e he; rw [c7, c13]; exact pow_ne_of_top (powMod_ne_zmod h.fuelS h.k12) he
  · intro e he; rw [c7, c17]; exact pow_ne_of_top (powMod_ne_zmod h.fuelS h.k13) he
  · intro e he; rw [c13, c17]; exact pow_ne_of_top (powMod_ne_zmod h.fuelS h.k23) he

/-- The powers of the generator are distinct up to the order of the group. -/
theorem FieldCert.gamma_inj (h : FieldCert p g s fuel fs) :
    ∀ i < p - 1, ∀ j < p - 1, ((g : ℕ) : ZMod p) ^ i = ((g : ℕ) : ZMod p) ^ j → i = j :=
  fun _ hi _ hj hh => h.generator.pow_inj hi hj hh

def factors381 : List ℕ := List.replicate 32 2 ++ [3, 11, 19, 10177, 125527, 859267, 906349, 906349,
  2508409, 2529403, 52437899, 254760293, 254760293]

theorem prime381 : ∀ q ∈ factors381, q.Prime := by
  intro q hq
  simp only [factors381, List.mem_append, List.mem_replicate, List.mem_cons, List.not_mem_nil,
    or_false] at hq
  rcases hq with ⟨-, rfl⟩ | rfl | rfl | rfl | rfl | rfl | rfl | rfl | rfl | rfl | rfl | rfl | rfl | rfl <;>
    norm_num

theorem cert381 : FieldCert r381 7 32 255 factors381 where
  cert := ⟨by decide +kernel, by decide +kernel, prime381, by decide +kernel, by decide +kernel⟩
  big := by decide +kernel
  adic := by decide +kernel
  fuelS := by decide +kernel
  genS := by decide +kernel
  k1 := by decide +kernel
  k2 := by decide +kernel
  k3 := by decide +kernel
  k12 := by decide +kernel
  k13 := by decide +kernel
  k23 := by decide +kernel

instance fact381 : Fact r381.Prime := ⟨cert381.cert.prime'⟩

theorem prime_0 : Nat.Prime 1832756501 :=
  Pratt.prime' (a := 2) (fuel := 31) (fs := [2, 2, 5, 5, 5, 29, 126397])
    ⟨by decide +kernel, by decide +kernel, by
      intro q hq
      simp only [List.mem_cons, List.not_mem_nil, or_false] at hq
      rcases hq with rfl | rfl | rfl | rfl | rfl | rfl | rfl <;> norm_num,
      by decide +kernel, by decide +kernel⟩

theorem prime_a : Nat.Prime 49484425527001 :=
  Pratt.prime' (a := 14) (fuel := 46) (fs := [2, 2, 2, 3, 3, 3, 5, 5, 5, 1832756501])
    ⟨by decide +kernel, by decide +kernel, by
      intro q hq
      simp only [List.mem_cons, List.not_mem_nil, or_false] at hq
      rcases hq with rfl | rfl | rfl | rfl | rfl | rfl | rfl | rfl | rfl | rfl <;>
        first | exact prime_0 | norm_num,
      by decide +kernel, by decide +kernel⟩

theorem prime_b : Nat.Prime 958612291309063373 :=
  Pratt.prime' (a := 2) (fuel := 60) (fs := [2, 2, 29, 167, 49484425527001])
    ⟨by decide +kernel, by decide +kernel, by
      intro q hq
      simp only [List.mem_cons, List.not_mem_nil, or_false] at hq
      rcases hq with rfl | rfl | rfl | rfl | rfl
      · norm_num
      · norm_num
      · norm_num
      · norm_num
      · exact prime_a,
      by decide +kernel, by decide +kernel⟩

theorem prime_c : Nat.Prime 9586122913090633729 :=
  Pratt.prime' (a := 11) (fuel := 64) (fs := List.replicate 46 2 ++ [3, 7, 13, 499])
    ⟨by decide +kernel, by decide +kernel, by
      intro q hq
      simp only [List.mem_append, List.mem_replicate, List.mem_cons, List.not_mem_nil, or_false] at hq
      rcases hq with ⟨-, rfl⟩ | rfl | rfl | rfl | rfl <;> norm_num,
      by decide +kernel, by decide +kernel⟩

def factors377 : List ℕ := List.replicate 47 2 ++ [3, 5, 7, 13, 499, 958612291309063373,
  9586122913090633729, 9586122913090633729]

theorem prime377 : ∀ q ∈ factors377, q.Prime := by
  intro q hq
  simp only [factors377, List.mem_append, List.mem_replicate, List.mem_cons, List.not_mem_nil,
    or_false] at hq
  rcases hq with ⟨-, rfl⟩ | rfl | rfl | rfl | rfl | rfl | rfl | rfl | rfl
  · norm_num
  · norm_num
  · norm_num
  · norm_num
  · norm_num
  · norm_num
  · exact prime_b
  · exact prime_c
  · exact prime_c

theorem cert377 : FieldCert r377 22 47 253 factors377 where
  cert := ⟨by decide +kernel, by decide +kernel, prime377, by decide +kernel, by decide +kernel⟩
  big := by decide +kernel
  adic := by decide +kernel
  fuelS := by decide +kernel
  genS := by decide +kernel
  k1 := by decide +kernel
  k2 := by decide +kernel
  k3 := by decide +kernel
  k12 := by decide +kernel
  k13 := by decide +kernel
  k23 := by decide +kernel

instance fact377 : Fact r377.Prime := ⟨cert377.cert.prime'⟩

end VO
