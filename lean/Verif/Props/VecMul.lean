import Mathlib.RingTheory.RootsOfUnity.PrimitiveRoots
import Verif.Lemmas.Cache
import Verif.Lemmas.Laurent
import Verif.Model.CacheRun

/-
Property theorems C05-C08: polynomial products of vectors
(`/repo/voproof/src/tools/mod.rs:1042-1261`).
-/

set_option linter.unusedSectionVars false

namespace VO
open Spec

variable {F : Type} [Field F] [DecidableEq F]

/-! ## C05 -/

/-- **C05.** Whenever the field has a domain of at least `|u| + |v|` points, the FFT product
succeeds, agrees with the naive product, and is the coefficient vector of
`X^{|u|-1} f_u(ω/X) f_v(X)`. -/
theorem C05_vector_poly_mul (fft : FftParams F) (hf : FftOk fft) (u v : List F) (ω : F)
    (hsz : u.length + v.length ≤ 2 ^ fft.twoAdicity) :
    ∃ r, vectorPolyMul fft u v ω = .ok r ∧ r = vectorPolyMulNoDict u v ω ∧
      Polynomial.toLaurent (polyOf r)
        = LaurentPolynomial.T ((u.length : ℤ) - 1) * omegaInv ω (polyOf u)
            * Polynomial.toLaurent (polyOf v) := by
  have hc : Nat.clog 2 (u.length + v.length) ≤ fft.twoAdicity :=
    (Nat.clog_le_iff_le_pow (by decide)).mpr hsz
  refine ⟨_, vectorPolyMul_eq fft hf u v ω hc, rfl, ?_⟩
  rw [polyOf_vectorPolyMulNoDict, map_mul, toLaurent_vectorReverseOmega]

/-- **C05.** In particular the coefficient at `|u| - 1` is `Σ ω^i u_i v_i`. -/
theorem C05_middle_coefficient (u v : List F) (ω : F) (hu : u ≠ []) :
    (vectorPolyMulNoDict u v ω).getD (u.length - 1) 0 = weightedInner ω u v := by
  have hpos := List.length_pos_of_ne_nil hu
  rw [← coeff_polyOf, polyOf_vectorPolyMulNoDict, Polynomial.coeff_mul,
    Finset.Nat.sum_antidiagonal_eq_sum_range_succ_mk]
  simp only [coeff_polyOf]
  rw [show (u.length - 1).succ = u.length by omega]
  have h1 : ∑ k ∈ Finset.range u.length,
      (vectorReverseOmega u ω).getD k 0 * v.getD (u.length - 1 - k) 0
      = ∑ k ∈ Finset.range u.length, ω ^ k * u.getD k 0 * v.getD k 0 := by
    rw [← Finset.sum_range_reflect]
    apply Finset.sum_congr rfl
    intro k hk
    have hk := Finset.mem_range.mp hk
    rw [getD_vectorReverseOmega _ _ _ (by omega), show u.length - 1 - (u.length - 1 - k) = k by omega]
    ring
  rw [h1, weightedInner]
  rcases le_total u.length v.length with h | h
  · rw [min_eq_left h]
  · rw [min_eq_right h]
    symm
    apply Finset.sum_subset (Finset.range_mono h)
    intro k _ hk
    rw [List.getD_eq_default v 0 (by simpa using hk), mul_zero]

/-- **C05.** The FFT product aborts exactly when the field has no domain of `|u| + |v|` points. -/
theorem C05_abort (fft : FftParams F) (hf : FftOk fft) (u v : List F) (ω : F) :
    vectorPolyMul fft u v ω = .error .panic ↔ 2 ^ fft.twoAdicity < u.length + v.length := by
  constructor
  · intro h
    by_contra hc
    obtain ⟨r, hr, -⟩ := C05_vector_poly_mul fft hf u v ω (not_lt.mp hc)
    rw [hr] at h; cases h
  · intro h
    unfold vectorPolyMul domainLog
    rw [if_neg]
    · rfl
    · rw [Nat.clog_le_iff_le_pow (by decide)]; omega

/-- The FFT data of the rationals: the square roots of unity. -/
def fftQ : FftParams ℚ := ⟨1, fun e => if e = 0 then 1 else -1⟩

theorem fftQ_ok : FftOk fftQ := by
  intro e he
  have he : e = 0 ∨ e = 1 := by simp only [fftQ] at he; omega
  rcases he with rfl | rfl
  · simp [fftQ]
  · simpa [fftQ] using IsPrimitiveRoot.neg_one (R := ℚ) 0 (by decide)

example : FftOk fftQ ∧ [(5 : ℚ)].length + [(7 : ℚ)].length ≤ 2 ^ fftQ.twoAdicity :=
  ⟨fftQ_ok, by simp [fftQ]⟩

/-! ## C06 -/

/-- **C06.** Any sequence of multiplications sharing one left and one right cache per vector
returns what the uncached multiplications return (values and aborts alike). -/
theorem C06_cache_transparent (fft : FftParams F) (ω : F) (vecs : ℕ → List F)
    (ops : List (ℕ × ℕ)) :
    runCached fft ω vecs ops Caches.empty
      = ops.mapM (fun op => vectorPolyMul fft (vecs op.1) (vecs op.2) ω) := by
  suffices h : ∀ c : Caches F,
      (∀ i, DictOk fft (polyFromVec (vectorReverseOmega (vecs i) ω)) (c.left i)) →
      (∀ i, DictOk fft (polyFromVec (vecs i)) (c.right i)) →
      runCached fft ω vecs ops c
        = ops.mapM (fun op => vectorPolyMul fft (vecs op.1) (vecs op.2) ω) from
    h _ (fun _ => dictOk_nil _ _) (fun _ => dictOk_nil _ _)
  induction ops with
  | nil => intro c _ _; rfl
  | cons op ops ih =>
    obtain ⟨i, j⟩ := op
    intro c hl hr
    rw [runCached, List.mapM_cons]
    rcases vectorPolyMulDict_spec fft (vecs i) (vecs j) ω _ _ (hl i) (hr j) with
      ⟨x, h1, h2⟩ | ⟨r, ld, rd, h1, h2, h3, h4⟩
    · rw [h1, h2]; rfl
    · rw [h1, h2]
      simp only [bind, Except.bind]
      rw [ih]
      · intro k
        by_cases hk : k = i
        · subst hk; simpa using h3
        · simpa [Function.update_of_ne hk] using hl k
      · intro k
        by_cases hk : k = j
        · subst hk; simpa using h4
        · simpa [Function.update_of_ne hk] using hr k

/-- Sharing one cache between two different vectors is not transparent: the second product
is computed from the first vector. -/
theorem C06_shared_cache_wrong :
    ∃ ld rd, vectorPolyMulDict fftQ [5] [7] 1 [] [] = .ok ([35], ld, rd) ∧
      vectorPolyMul fftQ [6] [7] 1 = .ok [42] ∧
      (vectorPolyMulDict fftQ [6] [7] 1 ld rd).map Prod.fst = .ok [35] := by
  refine ⟨[(2, [5, 5])], [(2, [7, 7])], ?_, ?_, ?_⟩ <;> decide +kernel

/-! ## C07 -/

/-- **C07.** `vector_power_mul` returns the `n + |v| - 1` coefficients of
`f_v(X) (1 + αX + … + α^{n-1}X^{n-1})`. -/
theorem C07_vector_power_mul (v : List F) (α : F) (n : ℕ) (hn : 1 ≤ n) :
    (vectorPowerMul v α n).length = n + v.length - 1 ∧
      polyOf (vectorPowerMul v α n) = polyOf v * geomPoly α n :=
  ⟨length_vectorPowerMul v α n, polyOf_vectorPowerMul v α n (Or.inl hn)⟩

example : vectorPowerMul ([1, 2] : List ℚ) 3 2 = [1, 5, 6] := by decide +kernel

/-! ## C08 -/

/-- **C08.** `power_power_mul` returns the `n + m - 1` coefficients of the product of the two
geometric polynomials; `α = β` is included. -/
theorem C08_power_power_mul (α : F) (n : ℕ) (β : F) (m : ℕ) (hn : 1 ≤ n) (hm : 1 ≤ m) :
    (powerPowerMul α n β m).length = n + m - 1 ∧
      polyOf (powerPowerMul α n β m) = geomPoly α n * geomPoly β m :=
  ⟨length_powerPowerMul α n β m, polyOf_powerPowerMul α n β m hn hm⟩

example : powerPowerMul (2 : ℚ) 2 2 3 = [1, 4, 8, 8] := by decide +kernel

end VO
