import Mathlib.RingTheory.RootsOfUnity.PrimitiveRoots
import Mathlib.Algebra.Field.GeomSum
import Verif.Lemmas.Poly

set_option linter.unusedSectionVars false

namespace VO
open Polynomial Spec

variable {F : Type} [Field F] [DecidableEq F]

/-- The FFT parameters provide primitive roots of unity of all orders up to the 2-adicity. -/
def FftOk (fft : FftParams F) : Prop :=
  ∀ e ≤ fft.twoAdicity, IsPrimitiveRoot (fft.root e) (2 ^ e)

theorem orthogonality {w : F} {N : ℕ} (hw : IsPrimitiveRoot w N) (hN : 0 < N) (j k : ℕ)
    (hj : j < N) (hk : k < N) :
    ∑ i ∈ Finset.range N, (w ^ i) ^ k * (w⁻¹ ^ j) ^ i = if k = j then (N : F) else 0 := by
  have hw0 : w ≠ 0 := hw.ne_zero hN.ne'
  have hsum : ∑ i ∈ Finset.range N, (w ^ i) ^ k * (w⁻¹ ^ j) ^ i
      = ∑ i ∈ Finset.range N, (w ^ k * w⁻¹ ^ j) ^ i := by
    apply Finset.sum_congr rfl
    intro i _
    rw [mul_pow, ← pow_mul, ← pow_mul, ← pow_mul, mul_comm i k]
  rw [hsum]
  split_ifs with h
  · subst h
    rw [← mul_pow, mul_inv_cancel₀ hw0]; simp
  · have hne : w ^ k * w⁻¹ ^ j ≠ 1 := by
      intro hc
      apply h
      rw [inv_pow, ← div_eq_mul_inv, div_eq_one_iff_eq (pow_ne_zero _ hw0)] at hc
      exact hw.pow_inj hk hj hc
    have hone : (w ^ k * w⁻¹ ^ j) ^ N = 1 := by
      rw [mul_pow, ← pow_mul, ← pow_mul, mul_comm k, mul_comm j, pow_mul, pow_mul, inv_pow,
        hw.pow_eq_one]; simp
    rw [geom_sum_eq hne, hone]; simp

theorem eval_eq_sum_lt (p : F[X]) (N : ℕ) (h : p.degree < N) (x : F) :
    p.eval x = ∑ k ∈ Finset.range N, p.coeff k * x ^ k := by
  by_cases hp : p = 0
  · subst hp; simp
  · rw [eval_eq_sum_range' (n := N)]
    exact (natDegree_lt_iff_degree_lt hp).2 h

theorem idft_values {w : F} {N : ℕ} (hw : IsPrimitiveRoot w N) (hN : 0 < N) (hNF : (N : F) ≠ 0)
    (p : F[X]) (hp : p.degree < N) (e : List F) (he : e.length = N)
    (hv : ∀ i, i < N → e.getD i 0 = p.eval (w ^ i)) :
    polyOf (idft w N e) = p := by
  unfold idft
  rw [polyOf_polyFromVec]
  ext j
  rw [coeff_polyOf]
  by_cases hj : j < N
  · rw [List.getD_eq_getElem _ _ (by simpa using hj)]
    simp only [List.getElem_map, List.getElem_range]
    rw [polyEval_eq, eval_eq_sum_lt _ N (by rw [← he]; exact degree_polyOf_lt e)]
    have : ∀ i ∈ Finset.range N, (polyOf e).coeff i * (w⁻¹ ^ j) ^ i
        = ∑ k ∈ Finset.range N, p.coeff k * ((w ^ i) ^ k * (w⁻¹ ^ j) ^ i) := by
      intro i hi
      rw [coeff_polyOf, hv i (Finset.mem_range.1 hi), eval_eq_sum_lt p N hp, Finset.sum_mul]
      apply Finset.sum_congr rfl
      intro k _; ring
    rw [Finset.sum_congr rfl this, Finset.sum_comm]
    have h2 : ∀ k ∈ Finset.range N,
        ∑ i ∈ Finset.range N, p.coeff k * ((w ^ i) ^ k * (w⁻¹ ^ j) ^ i)
          = if k = j then p.coeff k * N else 0 := by
      intro k hk
      rw [← Finset.mul_sum, orthogonality hw hN j k hj (Finset.mem_range.1 hk)]
      split_ifs <;> simp
    rw [Finset.sum_congr rfl h2, Finset.sum_ite_eq', if_pos (Finset.mem_range.2 hj)]
    field_simp
  · rw [List.getD_eq_default _ _ (by simpa using hj)]
    symm
    exact coeff_eq_zero_of_degree_lt (lt_of_lt_of_le hp (by exact_mod_cast (not_lt.1 hj)))

theorem natCast_ne_zero_of_primitive {w : F} {N : ℕ} (hw : IsPrimitiveRoot w N) (hN : 0 < N) :
    (N : F) ≠ 0 := by
  have : NeZero N := ⟨hN.ne'⟩
  exact (hw.neZero').out

theorem length_dft (w : F) (N : ℕ) (p : List F) : (dft w N p).length = N := by simp [dft]

theorem getD_dft (w : F) (N : ℕ) (p : List F) (i : ℕ) (h : i < N) :
    (dft w N p).getD i 0 = (polyOf p).eval (w ^ i) := by
  rw [List.getD_eq_getElem _ _ (by simpa [dft] using h)]
  simp [dft, polyEval_eq]

/-- Pointwise multiplication of transforms and inverse transform give the product. -/
theorem idft_mul {w : F} {N : ℕ} (hw : IsPrimitiveRoot w N) (hN : 0 < N) (p q : List F)
    (hd : (polyOf p * polyOf q).degree < N) :
    idft w N (((dft w N p).zip (dft w N q)).map (fun a => a.1 * a.2))
      = polyFromVec (mulLists p q) := by
  have h1 : polyOf (idft w N (((dft w N p).zip (dft w N q)).map (fun a => a.1 * a.2)))
      = polyOf p * polyOf q := by
    apply idft_values hw hN (natCast_ne_zero_of_primitive hw hN) _ hd
    · simp [length_dft]
    · intro i hi
      rw [List.getD_eq_getElem _ _ (by simpa [length_dft] using hi)]
      simp only [List.getElem_map, List.getElem_zip]
      have e1 := getD_dft w N p i hi
      have e2 := getD_dft w N q i hi
      rw [List.getD_eq_getElem _ _ (by simpa [length_dft] using hi)] at e1 e2
      rw [e1, e2, eval_mul]
  apply Trimmed.ext
  · unfold idft; exact trimmed_polyFromVec _
  · exact trimmed_polyFromVec _
  · rw [h1, polyOf_polyFromVec, polyOf_mulLists]

/-- The FFT-based product of vectors equals the naive one. -/
theorem vectorPolyMul_eq (fft : FftParams F) (hf : FftOk fft) (u v : List F) (omega : F)
    (hsz : Nat.clog 2 (u.length + v.length) ≤ fft.twoAdicity) :
    vectorPolyMul fft u v omega = .ok (vectorPolyMulNoDict u v omega) := by
  unfold vectorPolyMul domainLog
  rw [if_pos hsz]
  simp only [bind, Except.bind, pure, Except.pure]
  congr 1
  rw [idft_mul (hf _ hsz) (by positivity)]
  · rfl
  · rw [polyOf_polyFromVec, polyOf_polyFromVec]
    have hu := degree_polyOf_lt (vectorReverseOmega u omega)
    have hv := degree_polyOf_lt v
    rw [length_vectorReverseOmega] at hu
    have hle : u.length + v.length ≤ 2 ^ Nat.clog 2 (u.length + v.length) :=
      Nat.le_pow_clog (by norm_num) _
    rw [degree_lt_iff_coeff_zero]
    intro m hm
    rw [coeff_mul]
    apply Finset.sum_eq_zero
    intro x hx
    rw [Finset.mem_antidiagonal] at hx
    by_cases h1 : u.length ≤ x.1
    · rw [degree_lt_iff_coeff_zero] at hu
      rw [hu _ h1, zero_mul]
    · have h2 : v.length ≤ x.2 := by omega
      rw [degree_lt_iff_coeff_zero] at hv
      rw [hv _ h2, mul_zero]

theorem polyOf_vectorPolyMulNoDict (u v : List F) (omega : F) :
    polyOf (vectorPolyMulNoDict u v omega)
      = polyOf (vectorReverseOmega u omega) * polyOf v := by
  unfold vectorPolyMulNoDict polyMul
  rw [polyOf_polyFromVec, polyOf_mulLists, polyOf_polyFromVec, polyOf_polyFromVec]

end VO
