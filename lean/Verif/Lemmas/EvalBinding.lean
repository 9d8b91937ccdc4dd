import Verif.Lemmas.SnarkSound

/-
The final opening of the VO proof systems as a condition on field elements: wrong values survive for
few challenges only.
-/

set_option linter.unusedSectionVars false

namespace VO
open Spec
open Polynomial (X)

variable {F : Type} [Field F] [DecidableEq F]

theorem nonDegenerate_mul : NonDegenerate (LinearMap.mul F F) (1 : F) := by
  intro x hx; simpa using hx

theorem opening3 (f0 f1 f2 G : Polynomial F) (v0 v1 v2 x z : F) (D : ℕ) (d0 : f0.natDegree ≤ D)
    (d1 : f1.natDegree ≤ D) (d2 : f2.natDegree ≤ D) (dG : G.natDegree ≤ D)
    (hw : v0 ≠ f0.eval x ∨ v1 ≠ f1.eval x ∨ v2 ≠ f2.eval x ∨ G.eval z ≠ 0) :
    ∃ badξ : Finset F, badξ.card ≤ 2 ∧ ∀ ξ, ξ ∉ badξ → ∀ Q1 Q2 : Polynomial F, Q1.natDegree ≤ D →
      Q2.natDegree ≤ D → ∃ badβ : Finset F, badβ.card ≤ D + 1 ∧ ∀ β, β ∉ badβ → ∃ r0, ∀ r, r ≠ r0 →
        (f0.eval β + ξ * f1.eval β + ξ ^ 2 * f2.eval β - (v0 + ξ * v1 + ξ ^ 2 * v2)
          - (β - x) * Q1.eval β) + r * (G.eval β - (β - z) * Q2.eval β) ≠ 0 := by
  obtain ⟨b1, b2, c1, c2, H⟩ := batch_final (G1 := F) (G2 := F) (GT := F) [f0, f1, f2] [G] [v0, v1, v2] [0]
    rfl rfl x z D (by
      intro f hf
      simp only [List.mem_cons, List.not_mem_nil, or_false] at hf
      rcases hf with rfl | rfl | rfl <;> assumption) (by
      intro f hf
      simp only [List.mem_cons, List.not_mem_nil, or_false] at hf
      rcases hf with rfl; exact dG) (by
      rcases hw with h | h | h | h
      · exact Or.inl ⟨0, by simp, by simpa using h.symm⟩
      · exact Or.inl ⟨1, by simp, by simpa using h.symm⟩
      · exact Or.inl ⟨2, by simp, by simpa using h.symm⟩
      · exact Or.inr ⟨0, by simp, by simpa using h⟩)
  obtain rfl : b2 = ∅ := Finset.card_eq_zero.mp (by simpa using c2)
  refine ⟨b1, by simpa using c1, fun ξ hξ Q1 Q2 dQ1 dQ2 => ?_⟩
  obtain ⟨bB, e1, e2⟩ := H ξ hξ 0 (by simp) Q1 Q2 dQ1 dQ2
  refine ⟨bB, e1, fun β hβ => ?_⟩
  obtain ⟨r0, k⟩ := e2 β hβ
  refine ⟨r0, fun r hr h0 => ?_⟩
  have hvk : HonestVk β (1 : F) (1 : F) ⟨1, 1, β • 1, 1, β • 1⟩ := ⟨rfl, rfl, rfl, rfl, rfl⟩
  have := k r hr (LinearMap.mul F F) 1 one_ne_zero 1 nonDegenerate_mul _ hvk
  rw [← Bool.not_eq_true, C22_batch_iff _ β 1 1 nonDegenerate_mul _ hvk _ _ _ _ (by simp) (by simp)] at this
  apply this
  simp only [combine, List.map_cons, List.map_nil, List.zipIdx_cons, List.zipIdx_nil, List.sum_cons,
    List.sum_nil, smul_eq_mul, pow_zero, zero_add, pow_one, one_mul, mul_one, add_zero, mul_zero]
  linear_combination h0

theorem opening2 (f0 f1 G : Polynomial F) (v0 v1 x z : F) (D : ℕ) (d0 : f0.natDegree ≤ D)
    (d1 : f1.natDegree ≤ D) (dG : G.natDegree ≤ D)
    (hw : v0 ≠ f0.eval x ∨ v1 ≠ f1.eval x ∨ G.eval z ≠ 0) :
    ∃ badξ : Finset F, badξ.card ≤ 1 ∧ ∀ ξ, ξ ∉ badξ → ∀ Q1 Q2 : Polynomial F, Q1.natDegree ≤ D →
      Q2.natDegree ≤ D → ∃ badβ : Finset F, badβ.card ≤ D + 1 ∧ ∀ β, β ∉ badβ → ∃ r0, ∀ r, r ≠ r0 →
        (f0.eval β + ξ * f1.eval β - (v0 + ξ * v1)
          - (β - x) * Q1.eval β) + r * (G.eval β - (β - z) * Q2.eval β) ≠ 0 := by
  obtain ⟨b1, b2, c1, c2, H⟩ := batch_final (G1 := F) (G2 := F) (GT := F) [f0, f1] [G] [v0, v1] [0]
    rfl rfl x z D (by
      intro f hf
      simp only [List.mem_cons, List.not_mem_nil, or_false] at hf
      rcases hf with rfl | rfl <;> assumption) (by
      intro f hf
      simp only [List.mem_cons, List.not_mem_nil, or_false] at hf
      rcases hf with rfl; exact dG) (by
      rcases hw with h | h | h
      · exact Or.inl ⟨0, by simp, by simpa using h.symm⟩
      · exact Or.inl ⟨1, by simp, by simpa using h.symm⟩
      · exact Or.inr ⟨0, by simp, by simpa using h⟩)
  obtain rfl : b2 = ∅ := Finset.card_eq_zero.mp (by simpa using c2)
  refine ⟨b1, by simpa using c1, fun ξ hξ Q1 Q2 dQ1 dQ2 => ?_⟩
  obtain ⟨bB, e1, e2⟩ := H ξ hξ 0 (by simp) Q1 Q2 dQ1 dQ2
  refine ⟨bB, e1, fun β hβ => ?_⟩
  obtain ⟨r0, k⟩ := e2 β hβ
  refine ⟨r0, fun r hr h0 => ?_⟩
  have hvk : HonestVk β (1 : F) (1 : F) ⟨1, 1, β • 1, 1, β • 1⟩ := ⟨rfl, rfl, rfl, rfl, rfl⟩
  have := k r hr (LinearMap.mul F F) 1 one_ne_zero 1 nonDegenerate_mul _ hvk
  rw [← Bool.not_eq_true, C22_batch_iff _ β 1 1 nonDegenerate_mul _ hvk _ _ _ _ (by simp) (by simp)] at this
  apply this
  simp only [combine, List.map_cons, List.map_nil, List.zipIdx_cons, List.zipIdx_nil, List.sum_cons,
    List.sum_nil, smul_eq_mul, pow_zero, zero_add, pow_one, one_mul, mul_one, add_zero, mul_zero]
  linear_combination h0

variable {G1 : Type} [AddCommGroup G1] [Module F G1]

/-- The group equation of the acceptance conditions is the field equation times the generator. -/
theorem opening2_group {f0 f1 v0 v1 ξ β x z q1 q2 c r : F} {g : G1} (hg : g ≠ 0)
    (h : (f0 • g + ξ • f1 • g - (v0 + ξ * v1) • g - (β - x) • q1 • g)
      + r • (c • g - (β - z) • q2 • g) = 0) :
    (f0 + ξ * f1 - (v0 + ξ * v1) - (β - x) * q1) + r * (c - (β - z) * q2) = 0 := by
  refine (smul_eq_zero.mp ?_).resolve_right hg
  rw [← h]; module

theorem opening3_group {f0 f1 f2 v0 v1 v2 ξ β x z q1 q2 c r : F} {g : G1} (hg : g ≠ 0)
    (h : (f0 • g + ξ • f1 • g + ξ ^ 2 • f2 • g - (v0 + ξ * v1 + ξ ^ 2 * v2) • g - (β - x) • q1 • g)
      + r • (c • g - (β - z) • q2 • g) = 0) :
    (f0 + ξ * f1 + ξ ^ 2 * f2 - (v0 + ξ * v1 + ξ ^ 2 * v2) - (β - x) * q1)
      + r * (c - (β - z) * q2) = 0 := by
  refine (smul_eq_zero.mp ?_).resolve_right hg
  rw [← h]; module

end VO
