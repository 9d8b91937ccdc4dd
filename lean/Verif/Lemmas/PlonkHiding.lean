import Mathlib.LinearAlgebra.Lagrange
import Verif.Lemmas.PlonkCaught2
import Verif.Spec.PlonkHiding

/-
The linear algebra of C151: a column of a PLONK proof has two unknown entries, and the proof contains two
linear equations for them.
-/

set_option linter.unusedSectionVars false

namespace VO.Plonk

open VO.Spec VO.Spec.Plonk Polynomial

variable {F : Type} [Field F] [DecidableEq F]

/-! ### Interpolation -/

/-- The interpolation polynomial. -/
noncomputable def interpP (n : ℕ) (omega : F) (u : ℕ → F) : F[X] :=
  Lagrange.interpolate (Finset.range n) (fun i => omega ^ i) u

theorem interpP_eval (n : ℕ) (omega : F) (u : ℕ → F) (x : F) :
    (interpP n omega u).eval x = interpAt n omega u x := by
  unfold interpP interpAt
  rw [Lagrange.interpolate_apply, eval_finsetSum]
  refine Finset.sum_congr rfl fun i _ => ?_
  rw [eval_mul, eval_C, Lagrange.basis, eval_prod]
  congr 1
  refine Finset.prod_congr rfl fun j _ => ?_
  simp only [Lagrange.basisDivisor, eval_mul, eval_C, eval_sub, eval_X]
  rw [div_eq_mul_inv, mul_comm]

theorem root_inj {n : ℕ} {omega : F} (h : IsPrimitiveRoot omega n) :
    Set.InjOn (fun i => omega ^ i) (Finset.range n : Set ℕ) := by
  intro i hi j hj e
  exact h.pow_inj (by simpa using hi) (by simpa using hj) e

theorem interpP_degree {n : ℕ} {omega : F} (h : IsPrimitiveRoot omega n) (u : ℕ → F) :
    (interpP n omega u).degree < n := by
  have := Lagrange.degree_interpolate_lt u (root_inj h)
  rwa [Finset.card_range] at this

theorem interpP_node {n : ℕ} {omega : F} (h : IsPrimitiveRoot omega n) (u : ℕ → F) {i : ℕ} (hi : i < n) :
    (interpP n omega u).eval (omega ^ i) = u i :=
  Lagrange.eval_interpolate_at_node (v := fun i => omega ^ i) u (root_inj h) (by simpa using hi)

theorem interpP_unique {n : ℕ} {omega : F} (h : IsPrimitiveRoot omega n) {u : ℕ → F} {p : F[X]}
    (hd : p.degree < n) (he : ∀ i < n, p.eval (omega ^ i) = u i) : p = interpP n omega u :=
  Lagrange.eq_interpolate_of_eval_eq u (root_inj h) (by simpa using hd)
    fun i hi => he i (by simpa using hi)

theorem interpP_congr (n : ℕ) (omega : F) {u v : ℕ → F} (h : ∀ i < n, u i = v i) :
    interpP n omega u = interpP n omega v := by
  unfold interpP
  refine Lagrange.interpolate_eq_of_values_eq_on _ _ fun i hi => h i (by simpa using hi)

theorem interpP_add (n : ℕ) (omega : F) (u v : ℕ → F) :
    interpP n omega (fun i => u i + v i) = interpP n omega u + interpP n omega v := by
  unfold interpP
  exact map_add _ u v

theorem interpP_smul (n : ℕ) (omega : F) (x : F) (u : ℕ → F) :
    interpP n omega (fun i => x * u i) = C x * interpP n omega u := by
  unfold interpP
  rw [← smul_eq_C_mul]
  exact map_smul _ x u

theorem interpP_ifft {D : Dom F} (hD : DomOk D) (u : ℕ → F) :
    polyOf (D.ifft ((List.range D.size).map u)) = interpP D.size D.omega u := by
  have hl : ((List.range D.size).map u).length = D.size := by simp
  refine interpP_unique hD.root (ifft_degree hD hl) fun i hi => ?_
  rw [ifft_eval hD hl hi]
  simp [List.getD_eq_getElem?_getD, List.getElem?_range hi]

/-! ### The two equations -/

theorem implied_eval {n : ℕ} {omega z y y' : F} {w : TwiceOpened} {u : ℕ → F} (x : F) :
    interpAt n omega (impliedColumn n omega z y y' w u) x
      = interpAt n omega (withoutRandom w u) x
        + (impliedRandom n omega z y y' w u).1 * interpAt n omega (rowsAt [1]) x
        + (impliedRandom n omega z y y' w u).2 * interpAt n omega (rowsAt w.again) x := by
  simp only [← interpP_eval]
  have : interpP n omega (impliedColumn n omega z y y' w u)
      = interpP n omega (withoutRandom w u)
        + C (impliedRandom n omega z y y' w u).1 * interpP n omega (rowsAt [1])
        + C (impliedRandom n omega z y y' w u).2 * interpP n omega (rowsAt w.again) := by
    rw [← interpP_smul, ← interpP_smul, ← interpP_add, ← interpP_add]
    rfl
  rw [this]
  simp

/-- A column whose random rows are as the composer fills them. -/
def ColShape (w : TwiceOpened) (v : ℕ → F) : Prop := ∀ i ∈ w.again, v i = v 2

theorem col_split {w : TwiceOpened} {v u : ℕ → F} (hv : ColShape w v) {n : ℕ}
    (hu : ∀ i < n, i ∉ 1 :: w.again → u i = v i) {i : ℕ} (hi : i < n) :
    v i = withoutRandom w u i + v 1 * rowsAt [1] i + v 2 * rowsAt w.again i := by
  unfold withoutRandom rowsAt
  by_cases h1 : i = 1
  · subst h1
    have : 1 ∉ w.again := by cases w <;> simp [TwiceOpened.again]
    simp [this]
  · by_cases h2 : i ∈ w.again
    · simp [h1, h2, hv i h2]
    · have := hu i hi (by simp [h1, h2])
      simp [h1, h2, this]

/-- If the guess is right, the implied column is the column. -/
theorem implied_right {n : ℕ} {omega z : F} {w : TwiceOpened} {v u : ℕ → F} (hv : ColShape w v)
    (hu : ∀ i < n, i ∉ 1 :: w.again → u i = v i) (hd : randomDet n omega z w ≠ 0) {i : ℕ} (hi : i < n) :
    impliedColumn n omega z (interpAt n omega v z) (interpAt n omega v (z * omega)) w u i = v i := by
  have key : ∀ x, interpAt n omega v x = interpAt n omega (withoutRandom w u) x
      + v 1 * interpAt n omega (rowsAt [1]) x + v 2 * interpAt n omega (rowsAt w.again) x := by
    intro x
    simp only [← interpP_eval]
    have : interpP n omega v = interpP n omega (withoutRandom w u)
        + C (v 1) * interpP n omega (rowsAt [1]) + C (v 2) * interpP n omega (rowsAt w.again) := by
      rw [← interpP_smul, ← interpP_smul, ← interpP_add, ← interpP_add]
      exact interpP_congr n omega fun i hi => col_split hv hu hi
    rw [this]
    simp
  have h1 : (impliedRandom n omega z (interpAt n omega v z) (interpAt n omega v (z * omega)) w u).1
      = v 1 := by
    unfold impliedRandom
    simp only [key]
    rw [div_eq_iff hd]
    unfold randomDet
    ring
  have h2 : (impliedRandom n omega z (interpAt n omega v z) (interpAt n omega v (z * omega)) w u).2
      = v 2 := by
    unfold impliedRandom
    simp only [key]
    rw [div_eq_iff hd]
    unfold randomDet
    ring
  unfold impliedColumn
  simp only [h1, h2]
  exact (col_split hv hu hi).symm

/-- Outside the random rows the implied column is the guess. -/
theorem implied_guess {n : ℕ} {omega z y y' : F} {w : TwiceOpened} {u : ℕ → F} {i : ℕ}
    (hi : i ∉ 1 :: w.again) : impliedColumn n omega z y y' w u i = u i := by
  unfold impliedColumn withoutRandom rowsAt
  have h1 : i ≠ 1 := fun h => hi (by simp [h])
  have h2 : i ∉ w.again := fun h => hi (by simp [h])
  simp [h1, h2]

/-- The determinant vanishes at few points only. -/
theorem det_few {n : ℕ} {omega : F} (h : IsPrimitiveRoot omega n) (hn : 4 ≤ n) (w : TwiceOpened) :
    Mostly (2 * n) fun z : F => randomDet n omega z w ≠ 0 := by
  let A := interpP n omega (rowsAt [1] : ℕ → F)
  let B := interpP n omega (rowsAt w.again : ℕ → F)
  let q : F[X] := A * B.comp (C omega * X) - B * A.comp (C omega * X)
  have hq : ∀ z, q.eval z = randomDet n omega z w := by
    intro z
    simp only [q, A, B, eval_sub, eval_mul, eval_comp, eval_C, eval_X, interpP_eval, randomDet]
    rw [mul_comm omega z]
  have dA : A.natDegree ≤ n := natDegree_le_of_degree_le (interpP_degree h _).le
  have dB : B.natDegree ≤ n := natDegree_le_of_degree_le (interpP_degree h _).le
  have dX : (C omega * X : F[X]).natDegree ≤ 1 := (natDegree_C_mul_le _ _).trans natDegree_X_le
  have dc : ∀ p : F[X], p.natDegree ≤ n → (p.comp (C omega * X)).natDegree ≤ n := fun p hp =>
    natDegree_comp_le.trans (by nlinarith [Nat.mul_le_mul hp dX])
  have hdeg : q.natDegree ≤ 2 * n := by
    have d1 : (A * B.comp (C omega * X)).natDegree ≤ 2 * n :=
      natDegree_mul_le.trans (by have := dc B dB; omega)
    have d2 : (B * A.comp (C omega * X)).natDegree ≤ 2 * n :=
      natDegree_mul_le.trans (by have := dc A dA; omega)
    exact (natDegree_sub_le _ _).trans (max_le d1 d2)
  have hq0 : q ≠ 0 := by
    intro h0
    have := hq omega
    rw [h0, eval_zero] at this
    have e1 : interpAt n omega (rowsAt [1] : ℕ → F) omega = 1 := by
      have := interpP_node h (rowsAt [1] : ℕ → F) (i := 1) (by omega)
      rw [pow_one] at this
      rw [← interpP_eval, this]; simp [rowsAt]
    have e2 : interpAt n omega (rowsAt w.again : ℕ → F) omega = 0 := by
      have := interpP_node h (rowsAt w.again : ℕ → F) (i := 1) (by omega)
      rw [pow_one] at this
      rw [← interpP_eval, this]; cases w <;> simp [rowsAt, TwiceOpened.again]
    have e3 : interpAt n omega (rowsAt w.again : ℕ → F) (omega * omega) = 1 := by
      have := interpP_node h (rowsAt w.again : ℕ → F) (i := 2) (by omega)
      rw [pow_two] at this
      rw [← interpP_eval, this]; cases w <;> simp [rowsAt, TwiceOpened.again]
    unfold randomDet at this
    rw [e1, e2, e3] at this
    simp at this
  refine ⟨q.roots.toFinset, (Multiset.toFinset_card_le _).trans ((card_roots' q).trans hdeg), ?_⟩
  intro z hz h0
  apply hz
  rw [Multiset.mem_toFinset, mem_roots hq0, IsRoot.def, hq, h0]

/-- A wrong guess implies the committed value for few secrets only. -/
theorem implied_wrong {n : ℕ} {omega z y y' : F} (h : IsPrimitiveRoot omega n) {w : TwiceOpened}
    {v u : ℕ → F} (hu : ¬ ∀ i < n, i ∉ 1 :: w.again → u i = v i) :
    Mostly n fun τ : F => interpAt n omega (impliedColumn n omega z y y' w u) τ ≠ interpAt n omega v τ := by
  push Not at hu
  obtain ⟨i, hi, hw, hne⟩ := hu
  let q := interpP n omega (impliedColumn n omega z y y' w u) - interpP n omega v
  have hq0 : q ≠ 0 := by
    intro h0
    have e : q.eval (omega ^ i) = u i - v i := by
      simp only [q, eval_sub, interpP_node h _ hi, implied_guess hw]
    rw [h0, eval_zero] at e
    exact hne (sub_eq_zero.1 e.symm)
  have hdeg : q.natDegree ≤ n := natDegree_le_of_degree_le
    ((degree_sub_le _ _).trans (max_le (interpP_degree h _).le (interpP_degree h _).le))
  refine ⟨q.roots.toFinset, (Multiset.toFinset_card_le _).trans ((card_roots' q).trans hdeg), ?_⟩
  intro τ hτ he
  apply hτ
  rw [Multiset.mem_toFinset, mem_roots hq0, IsRoot.def]
  simp only [q, eval_sub, interpP_eval, he, sub_self]

end VO.Plonk
