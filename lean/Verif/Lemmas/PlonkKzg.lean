import Mathlib.Algebra.Polynomial.Roots
import Verif.Spec.PlonkKzg
import Verif.Lemmas.PlonkIdeal
import Verif.Lemmas.PlonkSound
import Verif.Lemmas.PlonkRun4

/-
KZG as a commitment scheme for PLONK: it is complete, and against algebraic provers its openings are
as good as ideal ones, except for few challenges and few secrets.
-/

set_option linter.unusedSectionVars false

namespace VO.Plonk

open VO.Spec VO.Spec.Plonk Polynomial

section
variable {F : Type} [Field F] [DecidableEq F] {G1 G2 GT : Type} [AddCommGroup G1] [Module F G1]
  [AddCommGroup G2] [Module F G2] [AddCommGroup GT] [Module F GT]

theorem degree_lt_succ {p : F[X]} {D : ℕ} : p.degree < ((D + 1 : ℕ) : WithBot ℕ) ↔ p.natDegree ≤ D := by
  rw [← Nat.lt_succ_iff]
  by_cases h : p = 0
  · subst h; simp
  · rw [degree_eq_natDegree h]
    exact_mod_cast Iff.rfl

/-- The combination of polynomials and values with the powers of `ξ`. -/
noncomputable def combP (ξ : F) : List (F[X] × F) → F[X]
  | [] => 0
  | x :: l => (x.1 - C x.2) + C ξ * combP ξ l

theorem combP_eval (ξ x : F) (l : List (F[X] × F)) :
    (combP ξ l).eval x = (polyOf (l.map fun p => p.1.eval x - p.2)).eval ξ := by
  induction l with
  | nil => simp [combP, polyOf]
  | cons a l ih =>
    rw [List.map_cons, polyOf_cons]
    simp only [combP, eval_add, eval_sub, eval_C, eval_mul, eval_X, ih]

theorem combP_degree (ξ : F) {D : ℕ} {l : List (F[X] × F)} (hl : ∀ p ∈ l, p.1.natDegree ≤ D) :
    (combP ξ l).natDegree ≤ D := by
  induction l with
  | nil => simp [combP]
  | cons a l ih =>
    unfold combP
    refine (natDegree_add_le _ _).trans (max_le ?_ ?_)
    · exact (natDegree_sub_le _ _).trans (max_le (hl a (by simp)) (by simp))
    · exact (natDegree_C_mul_le _ _).trans (ih fun p hp => hl p (by simp [hp]))

theorem mapIdx_comb (g : G1) (ξ τ : F) (l : List (F[X] × F)) :
    ((l.map fun p => (p.1.eval τ • g, p.2)).mapIdx fun i (c : G1 × F) => ξ ^ i • (c.1 - c.2 • g)).sum
      = (combP ξ l).eval τ • g := by
  have gen : ∀ (l : List (G1 × F)) (k : ℕ),
      (l.mapIdx fun i c => ξ ^ (i + k) • (c.1 - c.2 • g)).sum
        = ξ ^ k • (l.mapIdx fun i c => ξ ^ i • (c.1 - c.2 • g)).sum := by
    intro l
    induction l with
    | nil => simp
    | cons a l ih =>
      intro k
      simp only [List.mapIdx_cons, List.sum_cons, Nat.zero_add, pow_zero, one_smul, smul_add]
      have e1 : (l.mapIdx fun i c => ξ ^ (i + 1 + k) • (c.1 - c.2 • g)).sum
          = ξ ^ (1 + k) • (l.mapIdx fun i c => ξ ^ i • (c.1 - c.2 • g)).sum := by
        rw [← ih (1 + k)]; simp only [Nat.add_assoc]
      rw [e1, ih 1, ← mul_smul, ← pow_add, Nat.add_comm 1 k]
  induction l with
  | nil => simp [combP]
  | cons a l ih =>
    rw [List.map_cons, List.mapIdx_cons, List.sum_cons, gen _ 1, ih]
    simp only [combP, eval_add, eval_sub, eval_C, eval_mul, pow_zero, one_smul, pow_one]
    rw [add_smul, sub_smul, mul_smul]

/-- What the pairing equation says of polynomials. -/
theorem kzg_check_iff {e : G1 →ₗ[F] G2 →ₗ[F] GT} {g : G1} {h : G2} (hg : g ≠ 0)
    (hh : NonDegenerate e h) {D : ℕ} {τ x ξ : F} {l : List (F[X] × F)} {π : F[X]} :
    (kzgPcs e g h D τ).check (l.map fun p => p.1.eval τ • g) x (l.map fun p => p.2) (π.eval τ • g) ξ
      = .ok true ↔ (combP ξ l - π * (X - C x)).eval τ = 0 := by
  have hz : (l.map fun p : F[X] × F => p.1.eval τ • g).zip (l.map fun p => p.2)
      = l.map fun p => (p.1.eval τ • g, p.2) := by
    rw [List.zip_map', ]
  simp only [kzgPcs, Except.ok.injEq, decide_eq_true_eq]
  rw [hz, mapIdx_comb]
  have e1 : e (eval τ π • g) (τ • h - x • h) = e ((π.eval τ * (τ - x)) • g) h := by
    simp only [← sub_smul, map_smul, mul_smul, LinearMap.smul_apply]
    rw [smul_comm]
  rw [e1, ← sub_eq_zero, ← LinearMap.sub_apply, ← map_sub, ← sub_smul]
  constructor
  · intro h0
    have := hh _ h0
    rcases smul_eq_zero.1 this with h1 | h1
    · simpa [sub_eq_zero] using h1
    · exact absurd h1 hg
  · intro h0
    have : (combP ξ l).eval τ - π.eval τ * (τ - x) = 0 := by simpa using h0
    rw [this, zero_smul, map_zero, LinearMap.zero_apply]

/-- The challenges that hide a wrong value. -/
theorem comb_bad (x : F) (l : List (F[X] × F)) (hl : ∃ p ∈ l, p.1.eval x ≠ p.2) :
    ∃ bad : Finset F, bad.card ≤ l.length - 1 ∧ ∀ ξ ∉ bad, (combP ξ l).eval x ≠ 0 := by
  set q := polyOf (l.map fun p => p.1.eval x - p.2) with hq
  have h0 : q ≠ 0 := by
    intro h0
    obtain ⟨p, hp, hne⟩ := hl
    obtain ⟨i, hi, rfl⟩ := List.mem_iff_getElem.1 hp
    have := congrArg (fun q => q.coeff i) h0
    simp only [hq, coeff_polyOf, coeff_zero] at this
    rw [List.getD_eq_getElem?_getD] at this
    simp [hi] at this
    exact hne (sub_eq_zero.1 this)
  have hd : q.natDegree ≤ l.length - 1 := by
    rw [natDegree_le_iff_coeff_eq_zero]
    intro i hi
    rw [hq, coeff_polyOf, List.getD_eq_getElem?_getD, List.getElem?_eq_none (by simp; omega)]
    rfl
  refine ⟨q.roots.toFinset, (Multiset.toFinset_card_le _).trans ((card_roots' q).trans hd), ?_⟩
  intro ξ hξ
  rw [combP_eval]
  intro hc
  exact hξ (by rw [Multiset.mem_toFinset, mem_roots h0]; exact hc)

/-- The secrets for which a wrong value is accepted. -/
theorem secret_bad {D : ℕ} {x ξ : F} {l : List (F[X] × F)} (hl : ∀ p ∈ l, p.1.natDegree ≤ D)
    {π : F[X]} (hπ : π.natDegree ≤ D) (hne : (combP ξ l).eval x ≠ 0) :
    ∃ bad : Finset F, bad.card ≤ D + 1 ∧ ∀ τ ∉ bad, (combP ξ l - π * (X - C x)).eval τ ≠ 0 := by
  set q := combP ξ l - π * (X - C x) with hq
  have h0 : q ≠ 0 := by
    intro h0
    apply hne
    have := congrArg (eval x) h0
    simpa [hq] using this
  have hd : q.natDegree ≤ D + 1 := by
    refine (natDegree_sub_le _ _).trans (max_le ((combP_degree ξ hl).trans (by omega)) ?_)
    refine natDegree_mul_le.trans ?_
    rw [natDegree_X_sub_C]
    omega
  refine ⟨q.roots.toFinset, (Multiset.toFinset_card_le _).trans ((card_roots' q).trans hd), ?_⟩
  intro τ hτ hc
  exact hτ (by rw [Multiset.mem_toFinset, mem_roots h0]; exact hc)

theorem sum_smul_eval (g : G1) (τ : F) (l : List (F × F[X])) :
    ((l.map fun p => p.1 • (p.2.eval τ • g))).sum = (l.map fun p => C p.1 * p.2).sum.eval τ • g := by
  induction l with
  | nil => simp
  | cons a l ih => simp [ih, add_smul, mul_smul]

/-- KZG is complete. -/
noncomputable def kzg_complete (e : G1 →ₗ[F] G2 →ₗ[F] GT) {g : G1} {h : G2} (hg : g ≠ 0)
    (hh : NonDegenerate e h) (D : ℕ) (τ : F) : PcsComplete (kzgPcs e g h D τ) (D + 1) where
  rep := fun p => (p.eval τ • g : G1)
  commit := fun p hp => by
    simp only [kzgPcs, if_pos (degree_lt_succ.1 hp)]
  msm := fun l _ => by
    have : (l.map fun e => e.1).zip (l.map fun e => (e.2.eval τ • g : G1))
        = l.map fun e => (e.1, (e.2.eval τ • g : G1)) := by rw [List.zip_map']
    simp only [kzgPcs]
    rw [this, List.map_map]
    exact sum_smul_eval g τ l
  openAt := fun ps x ξ hps => by
    have hd : ∀ p ∈ ps, (polyOf p).natDegree ≤ D := fun p hp => degree_lt_succ.1 (hps p hp)
    refine ⟨(((ps.mapIdx fun i p => C (ξ ^ i) * polyOf p).sum /ₘ (X - C x)).eval τ • g : G1), ?_, ?_⟩
    · simp only [kzgPcs]; rw [if_pos hd]
    have hc := kzg_check_iff (D := D) (τ := τ) (x := x) (ξ := ξ) hg hh
      (l := ps.map fun p => (polyOf p, polyEval p x))
      (π := (ps.mapIdx fun i p => C (ξ ^ i) * polyOf p).sum /ₘ (X - C x))
    simp only [List.map_map, Function.comp_def] at hc
    refine hc.2 ?_
    have key : combP ξ (ps.map fun p => (polyOf p, polyEval p x))
        = (ps.mapIdx fun i p => C (ξ ^ i) * polyOf p).sum
          - C ((ps.mapIdx fun i p => C (ξ ^ i) * polyOf p).sum.eval x) := by
      have gen : ∀ (l : List (List F)) (k : ℕ), (l.mapIdx fun i p => C (ξ ^ (i + k)) * polyOf p).sum
          = C (ξ ^ k) * (l.mapIdx fun i p => C (ξ ^ i) * polyOf p).sum := by
        intro l
        induction l with
        | nil => simp
        | cons a l ih =>
          intro k
          simp only [List.mapIdx_cons, List.sum_cons, Nat.zero_add, pow_zero, C_1, one_mul, mul_add]
          have e1 : (l.mapIdx fun i p => C (ξ ^ (i + 1 + k)) * polyOf p).sum
              = C (ξ ^ (1 + k)) * (l.mapIdx fun i p => C (ξ ^ i) * polyOf p).sum := by
            rw [← ih (1 + k)]; simp only [Nat.add_assoc]
          rw [e1, ih 1, ← mul_assoc, ← C_mul, ← pow_add, Nat.add_comm 1 k]
      clear hc hd hps
      induction ps with
      | nil => simp [combP]
      | cons a l ih =>
        rw [List.map_cons, combP, ih, List.mapIdx_cons, List.sum_cons, gen l 1]
        simp only [pow_zero, C_1, one_mul, pow_one, eval_add, eval_mul, eval_C, polyEval_eq, C_add, C_mul]
        ring
    have hdiv := modByMonic_add_div ((ps.mapIdx fun i p => C (ξ ^ i) * polyOf p).sum) (X - C x)
    rw [modByMonic_X_sub_C_eq_C_eval] at hdiv
    rw [key]
    have : ∀ a b q c : F[X], b + c * q = a → a - b - q * c = 0 := by
      intro a b q c h; rw [← h]; ring
    rw [this _ _ _ _ hdiv, eval_zero]

end

end VO.Plonk
