import Verif.Lemmas.HadamardChecks
import Mathlib.Algebra.Polynomial.Roots

set_option linter.unusedSectionVars false

/-
Theorems about the Hadamard-sum reduction (C48), shared by every SNARK of the crate.
-/

namespace VO
open Spec
open Polynomial (X toLaurent)
open LaurentPolynomial

variable {F : Type} [Field F] [DecidableEq F]

/-- The roots of a nonzero polynomial of degree below `d`. -/
theorem bad_of_coeff (p : Polynomial F) (k d : ℕ) (hk : p.coeff k ≠ 0) (hd : p.natDegree ≤ d) :
    ∃ bad : Finset F, bad.card ≤ d ∧ ∀ x, x ∉ bad → p.eval x ≠ 0 := by
  have hp : p ≠ 0 := by rintro rfl; simp at hk
  refine ⟨p.roots.toFinset, ?_, ?_⟩
  · exact (Multiset.toFinset_card_le _).trans ((Polynomial.card_roots' p).trans hd)
  · intro x hx h
    exact hx (Multiset.mem_toFinset.mpr ((Polynomial.mem_roots hp).mpr h))

/-- **C48.** If some entry of the sum of the entrywise products is not zero, then for all but
`d - 1` values of `ω` the coefficient of `T⁰` in `Σ_j A_j(ω/T) B_j(T)` is not zero, where `d` bounds
the lengths of the left vectors. -/
theorem C48_omega (polys : List (Polynomial F × Polynomial F)) (d : ℕ)
    (hd : ∀ p ∈ polys, p.1.degree < d) (h : ∃ i, hadamardEntry polys i ≠ 0) :
    ∃ bad : Finset F, bad.card ≤ d - 1 ∧
      ∀ ω, ω ∉ bad → (hadamardLaurent ω polys).coeff 0 ≠ 0 := by
  obtain ⟨i, hi⟩ := h
  have hid : i < d := by
    by_contra hc
    apply hi
    have hz : ∀ p ∈ polys, p.1.coeff i * p.2.coeff i = 0 := by
      intro p hp
      rw [Polynomial.coeff_eq_zero_of_degree_lt (lt_of_lt_of_le (hd p hp)
        (by exact_mod_cast (by omega : d ≤ i))), zero_mul]
    rw [hadamardEntry]
    apply List.sum_eq_zero
    intro x hx
    obtain ⟨p, hp, rfl⟩ := List.mem_map.mp hx
    exact hz p hp
  set q : Polynomial F := ∑ j ∈ Finset.range d, Polynomial.C (hadamardEntry polys j) * X ^ j with hq
  have hc : q.coeff i ≠ 0 := by
    rw [hq, Polynomial.finsetSum_coeff]
    simp only [Polynomial.coeff_C_mul_X_pow]
    rw [Finset.sum_ite_eq, if_pos (Finset.mem_range.mpr hid)]
    exact hi
  have hdeg : q.natDegree ≤ d - 1 := by
    apply Polynomial.natDegree_sum_le_of_forall_le
    intro j hj
    refine (Polynomial.natDegree_C_mul_X_pow_le _ _).trans ?_
    have := Finset.mem_range.mp hj; omega
  obtain ⟨bad, h1, h2⟩ := bad_of_coeff q i (d - 1) hc hdeg
  refine ⟨bad, h1, fun ω hω => ?_⟩
  rw [lcoeff_zero_hadamard ω polys d hd]
  have := h2 ω hω
  rw [hq, Polynomial.eval_finsetSum] at this
  simp only [Polynomial.eval_mul, Polynomial.eval_C, Polynomial.eval_pow, Polynomial.eval_X] at this
  simpa only [mul_comm] using this

/-- **C48.** If the coefficient of `T⁰` is not zero, then whatever polynomials `H1` of degree below
`D` and `H2` the prover commits to, the identity `Σ_j A_j(ω/z) B_j(z) = z^{-D} H1(z) + z H2(z)`
that the verifiers test fails for all but `N + U` evaluation points `z ≠ 0`, where `N` bounds `D` and
the degrees of the `A_j`, and `U` bounds the degrees of the `B_j` and `X·H2`. -/
theorem C48_z (polys : List (Polynomial F × Polynomial F)) (ω : F)
    (hω : (hadamardLaurent ω polys).coeff 0 ≠ 0) (D N U : ℕ) (hDN : D ≤ N)
    (hA : ∀ p ∈ polys, p.1.degree < ((N + 1 : ℕ) : WithBot ℕ))
    (hB : ∀ p ∈ polys, p.2.degree < ((U + 1 : ℕ) : WithBot ℕ)) (H1 H2 : Polynomial F)
    (h1 : H1.degree < D) (h2 : H2.degree < U) :
    ∃ bad : Finset F, bad.card ≤ N + U ∧ ∀ z, z ∉ bad → z ≠ 0 →
      hadamardAt ω z polys ≠ (z ^ D)⁻¹ * H1.eval z + z * H2.eval z := by
  set P : F[T;T⁻¹] := hadamardLaurent ω polys - T (-(D : ℤ)) * toLaurent H1 - T 1 * toLaurent H2
    with hP
  have hs : SuppIn (hadamardLaurent ω polys) (-N) U := by
    clear hω hP P
    induction polys with
    | nil => intro i _; rw [hadamardLaurent_nil]; simp
    | cons p l ih =>
      rw [hadamardLaurent_cons]
      apply SuppIn.add
      · refine ((suppIn_omegaInv ω p.1 (N + 1) (hA p (by simp))).mul
          (suppIn_toLaurent p.2 (U + 1) (hB p (by simp)))).mono ?_ ?_ <;> push_cast <;> omega
      · exact ih (fun q hq => hA q (by simp [hq])) (fun q hq => hB q (by simp [hq]))
  have hz1 : ∀ i : ℤ, (D : ℤ) ≤ i → zc H1 i = 0 := by
    intro i hi
    rw [zc]; split_ifs
    · apply Polynomial.coeff_eq_zero_of_degree_lt
      exact lt_of_lt_of_le h1 (by exact_mod_cast (by omega : D ≤ i.toNat))
    · rfl
  have hz1' : ∀ i : ℤ, i < 0 → ∀ q : Polynomial F, zc q i = 0 := by
    intro i hi q
    rw [zc, if_neg (by omega)]
  have hz2 : ∀ i : ℤ, (U : ℤ) ≤ i → zc H2 i = 0 := by
    intro i hi
    rw [zc]; split_ifs
    · apply Polynomial.coeff_eq_zero_of_degree_lt
      exact lt_of_lt_of_le h2 (by exact_mod_cast (by omega : U ≤ i.toNat))
    · rfl
  have hc : ∀ i, P.coeff i = (hadamardLaurent ω polys).coeff i - zc H1 (i + D) - zc H2 (i - 1) := by
    intro i
    rw [hP]
    have e : ∀ A B : F[T;T⁻¹], (A - B).coeff i = A.coeff i - B.coeff i := fun A B => by
      simp
    rw [e, e, lcoeff_T_mul, lcoeff_T_mul, lcoeff_toLaurent, lcoeff_toLaurent, sub_neg_eq_add]
  have hP0 : P.coeff 0 ≠ 0 := by
    rw [hc, hz1 _ (by omega), hz1' _ (by omega), sub_zero, sub_zero]; exact hω
  set q : Polynomial F := ∑ j ∈ Finset.range (N + U + 1),
    Polynomial.C (P.coeff ((j : ℤ) - N)) * X ^ j with hq
  have hqc : ∀ j, q.coeff j = if j < N + U + 1 then P.coeff ((j : ℤ) - N) else 0 := by
    intro j
    rw [hq, Polynomial.finsetSum_coeff]
    simp only [Polynomial.coeff_C_mul_X_pow]
    rw [Finset.sum_ite_eq]
    simp only [Finset.mem_range]
  have hPq : toLaurent q = T (N : ℤ) * P := by
    apply LaurentPolynomial.ext
    intro i
    rw [lcoeff_toLaurent, lcoeff_T_mul, zc]
    split_ifs with hi
    · rw [hqc]
      split_ifs with hj
      · congr 1; omega
      · rw [hc, hs _ (by omega), hz1 _ (by omega), hz2 _ (by omega)]; simp
    · rw [hc, hs _ (by omega), hz1' _ (by omega), hz1' _ (by omega)]; simp
  obtain ⟨bad, b1, b2⟩ := bad_of_coeff q N (N + U) (by
      rw [hqc, if_pos (by omega), sub_self]; exact hP0) (by
      apply Polynomial.natDegree_sum_le_of_forall_le
      intro j hj
      refine (Polynomial.natDegree_C_mul_X_pow_le _ _).trans ?_
      have := Finset.mem_range.mp hj; omega)
  refine ⟨bad, b1, fun z hz hz0 heq => b2 z hz ?_⟩
  have h3 := congrArg (evL (Units.mk0 z hz0)) hPq
  rw [evL_toLaurent, map_mul, hP, map_sub, map_sub, evL_hadamard, map_mul, map_mul, evL_T, evL_T,
    evL_T, evL_toLaurent, evL_toLaurent] at h3
  simp only [Units.val_mk0] at h3
  rw [h3, heq]
  simp

/-- **C48.** Conversely, if every entry of the sum vanishes, degree-bounded `H1`, `H2` exist for
every `ω` and satisfy the identity at every `z ≠ 0`. -/
theorem C48_complete (polys : List (Polynomial F × Polynomial F)) (M D : ℕ) (hMD : M ≤ D)
    (hA : ∀ p ∈ polys, p.1.degree < ((M + 1 : ℕ) : WithBot ℕ))
    (hB : ∀ p ∈ polys, p.2.degree < ((M + 1 : ℕ) : WithBot ℕ))
    (h : ∀ i, hadamardEntry polys i = 0) (ω : F) :
    ∃ H1 H2 : Polynomial F, H1.degree < D ∧ H2.degree < M ∧ ∀ z, z ≠ 0 →
      hadamardAt ω z polys = (z ^ D)⁻¹ * H1.eval z + z * H2.eval z := by
  set f : ℤ → F := fun i => (hadamardLaurent ω polys).coeff (i - 1) with hf
  have hid := hadamard_identity M ω polys hA hB f (fun i => rfl) h
  refine ⟨X ^ (D - M) * polyOf (hVec1 M f), polyOf (hVec2 M f), ?_, ?_, ?_⟩
  · have hd := degree_polyOf_lt (hVec1 M f)
    rw [length_hVec1] at hd
    rw [Polynomial.degree_mul, Polynomial.degree_X_pow]
    calc ((D - M : ℕ) : WithBot ℕ) + (polyOf (hVec1 M f)).degree
          < ((D - M : ℕ) : WithBot ℕ) + (M : ℕ) := WithBot.add_lt_add_left (by simp) hd
      _ = ((D : ℕ) : WithBot ℕ) := by rw [← Nat.cast_add]; congr 1; omega
  · have hd := degree_polyOf_lt (hVec2 M f)
    rwa [length_hVec2] at hd
  · intro z hz
    rw [eval_identity M ω polys _ _ hid z hz, Polynomial.eval_mul, Polynomial.eval_pow,
      Polynomial.eval_X]
    have h3 : z ^ D = z ^ (D - M) * z ^ M := by rw [← pow_add]; congr 1; omega
    have h4 : z ^ M ≠ 0 := pow_ne_zero _ hz
    have h5 : z ^ (D - M) ≠ 0 := pow_ne_zero _ hz
    rw [h3]
    field_simp

/-- A case with a non-zero entry: `(1 + 2X) ∘ (3 + X)`. -/
example : hadamardEntry [((1 + 2 * X : Polynomial ℚ), (3 + X : Polynomial ℚ))] 1 ≠ 0 := by
  simp [hadamardEntry, Polynomial.coeff_X, Polynomial.coeff_one]

/-- A case with all entries zero: `(1 + X) ∘ (1 + X) + (-1 + X) ∘ (1 - X)`. -/
example : ∀ i, hadamardEntry [((1 + X : Polynomial ℚ), (1 + X : Polynomial ℚ)),
    ((-1 + X : Polynomial ℚ), (1 - X : Polynomial ℚ))] i = 0 := by
  intro i
  rcases i with _ | _ | i <;> simp [hadamardEntry, Polynomial.coeff_X, Polynomial.coeff_one]

end VO
