import Mathlib.RingTheory.Polynomial.Basic

set_option linter.unusedSectionVars false

namespace VO
open Polynomial (X)

variable {F : Type} [Field F]

theorem degLt_iff (p : Polynomial F) (n : ℕ) : p.degree < n ↔ p ∈ Polynomial.degreeLT F n :=
  Polynomial.mem_degreeLT.symm

theorem degLt_mono {p : Polynomial F} {m n : ℕ} (h : p.degree < m) (hmn : m ≤ n) : p.degree < n :=
  lt_of_lt_of_le h (by exact_mod_cast hmn)

theorem degLt_add {p q : Polynomial F} {n : ℕ} (hp : p.degree < n) (hq : q.degree < n) :
    (p + q).degree < n := by
  rw [degLt_iff] at *; exact Submodule.add_mem _ hp hq

theorem degLt_sub {p q : Polynomial F} {n : ℕ} (hp : p.degree < n) (hq : q.degree < n) :
    (p - q).degree < n := by
  rw [degLt_iff] at *; exact Submodule.sub_mem _ hp hq

theorem degLt_neg {p : Polynomial F} {n : ℕ} (hp : p.degree < n) : (-p).degree < n := by
  rwa [Polynomial.degree_neg]

theorem degLt_C_mul {p : Polynomial F} {n : ℕ} (hp : p.degree < n) (c : F) :
    (Polynomial.C c * p).degree < n := by
  rw [degLt_iff] at *; rw [Polynomial.C_mul']; exact Submodule.smul_mem _ _ hp

theorem degLt_X_pow_mul {p : Polynomial F} {n : ℕ} (hp : p.degree < n) (k : ℕ) :
    (X ^ k * p).degree < ((k + n : ℕ) : WithBot ℕ) := by
  rw [Polynomial.degree_mul, Polynomial.degree_X_pow, Nat.cast_add]
  exact WithBot.add_lt_add_left (by simp) hp

theorem degLt_X_mul {p : Polynomial F} {n : ℕ} (hp : p.degree < n) :
    (X * p).degree < ((n + 1 : ℕ) : WithBot ℕ) := by
  have := degLt_X_pow_mul hp 1
  rw [pow_one, add_comm] at this; exact this

theorem degLt_X_pow (k n : ℕ) (h : k < n) : (X ^ k : Polynomial F).degree < n := by
  rw [Polynomial.degree_X_pow]; exact_mod_cast h

theorem degLt_C (c : F) (n : ℕ) (h : 0 < n) : (Polynomial.C c).degree < n := by
  refine lt_of_le_of_lt Polynomial.degree_C_le ?_; exact_mod_cast h

theorem degLt_X (n : ℕ) (h : 1 < n) : (X : Polynomial F).degree < n := by
  have := degLt_X_pow (F := F) 1 n h; rwa [pow_one] at this

theorem degLt_one (n : ℕ) (h : 0 < n) : (1 : Polynomial F).degree < n := by
  rw [← Polynomial.C_1]; exact degLt_C 1 n h

end VO
