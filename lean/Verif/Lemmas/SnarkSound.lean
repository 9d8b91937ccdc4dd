import Verif.Lemmas.Snark

set_option linter.unusedSectionVars false

namespace VO
open Spec
open Polynomial (X)

variable {F G1 G2 GT : Type} [Field F] [DecidableEq F]
  [AddCommGroup G1] [Module F G1] [AddCommGroup G2] [Module F G2]
  [AddCommGroup GT] [Module F GT] [DecidableEq GT]

/-- The coefficients of a polynomial as a list. -/
noncomputable def coeffList (p : Polynomial F) : List F := (List.range (p.natDegree + 1)).map p.coeff

theorem polyOf_coeffList (p : Polynomial F) : polyOf (coeffList p) = p := by
  ext k
  rw [coeff_polyOf, coeffList]
  by_cases hk : k < p.natDegree + 1
  · rw [List.getD_eq_getElem _ _ (by simpa using hk)]; simp
  · rw [List.getD_eq_default _ _ (by simpa using hk)]
    exact (Polynomial.coeff_eq_zero_of_natDegree_lt (by omega)).symm

/-- The two halves of the batched check, for one group and pairing. -/
theorem batch_final_one (fs gs : List (Polynomial F)) (fvs gvs : List F) (hl : fs.length = fvs.length)
    (hl2 : gs.length = gvs.length) (z zz : F) (D : ℕ)
    (hD : ∀ f ∈ fs, f.natDegree ≤ D) (hD2 : ∀ f ∈ gs, f.natDegree ≤ D)
    (hwrong : (∃ i, i < fs.length ∧ (fs.getD i 0).eval z ≠ fvs.getD i 0) ∨
      (∃ i, i < gs.length ∧ (gs.getD i 0).eval zz ≠ gvs.getD i 0)) :
    ∃ badXi badXi2 : Finset F, badXi.card ≤ fs.length - 1 ∧ badXi2.card ≤ gs.length - 1 ∧
      ∀ xi, xi ∉ badXi → ∀ xi2, xi2 ∉ badXi2 →
      ∀ q q2 : Polynomial F, q.natDegree ≤ D → q2.natDegree ≤ D →
        ∃ badBeta : Finset F, badBeta.card ≤ D + 1 ∧
        ∀ (e : G1 →ₗ[F] G2 →ₗ[F] GT) (β : F), β ∉ badBeta → ∀ (g : G1), g ≠ 0 → ∀ (h : G2),
          NonDegenerate e h → ∀ vk : VerifierKey G1 G2, HonestVk β g h vk →
            ∃ r0, ∀ r, r ≠ r0 →
              batchCheck e vk (fs.map (fun f => f.eval β • g)) (gs.map (fun f => f.eval β • g))
                z zz xi xi2 fvs gvs (q.eval β • g) (q2.eval β • g) r = false := by
  have hm : ∀ (l : List (Polynomial F)) (β : F) (g : G1), (l.map coeffList).map
      (fun f => (polyOf f).eval β • g) = l.map (fun f => f.eval β • g) := by
    intro l β g
    rw [List.map_map]
    apply List.map_congr_left
    intro f _
    simp only [Function.comp, polyOf_coeffList]
  have hdeg : ∀ l : List (Polynomial F), (∀ f ∈ l, f.natDegree ≤ D) →
      ∀ f ∈ l.map coeffList, (polyOf f).natDegree ≤ D := by
    intro l h f hf
    obtain ⟨p, hp, rfl⟩ := List.mem_map.mp hf
    rw [polyOf_coeffList]; exact h p hp
  have hget : ∀ (l : List (Polynomial F)) (i : ℕ), i < l.length →
      polyOf ((l.map coeffList).getD i []) = l.getD i 0 := by
    intro l i hi
    rw [List.getD_eq_getElem _ _ (by simpa using hi), List.getElem_map, polyOf_coeffList,
      List.getD_eq_getElem _ _ hi]
  rcases hwrong with ⟨i, hi, hne⟩ | ⟨i, hi, hne⟩
  · obtain ⟨bad, b1, b2⟩ := C22_batch_sound (G1 := G1) (G2 := G2) (GT := GT) (fs.map coeffList) fvs
      (by simpa using hl) z D (hdeg fs hD) ⟨i, by simpa using hi, by rw [hget fs i hi]; exact hne⟩
    refine ⟨bad, ∅, by simpa using b1, by simp, ?_⟩
    intro xi hxi xi2 _ q q2 hq hq2
    obtain ⟨badB, c1, c2⟩ := b2 xi hxi q hq
    refine ⟨badB, c1, ?_⟩
    intro e β hβ g hg h hnd vk hvk
    have := (c2 e β hβ g hg h hnd vk hvk (gs.map (fun f => f.eval β • g)) gvs (by simpa using hl2) zz
      xi2 (q2.eval β • g)).1
    rwa [hm] at this
  · obtain ⟨bad, b1, b2⟩ := C22_batch_sound (G1 := G1) (G2 := G2) (GT := GT) (gs.map coeffList) gvs
      (by simpa using hl2) zz D (hdeg gs hD2) ⟨i, by simpa using hi, by rw [hget gs i hi]; exact hne⟩
    refine ⟨∅, bad, by simp, by simpa using b1, ?_⟩
    intro xi _ xi2 hxi2 q q2 hq hq2
    obtain ⟨badB, c1, c2⟩ := b2 xi2 hxi2 q2 hq2
    refine ⟨badB, c1, ?_⟩
    intro e β hβ g hg h hnd vk hvk
    have := (c2 e β hβ g hg h hnd vk hvk (fs.map (fun f => f.eval β • g)) fvs (by simpa using hl) z
      xi (q.eval β • g)).2
    rwa [hm] at this

/-- The two halves of the batched check: if some claimed value is wrong, the check fails for all but
few challenges, trapdoors and randomizers.  The exceptional randomizer depends on the polynomials, the
challenges and the trapdoor only. -/
theorem batch_final (fs gs : List (Polynomial F)) (fvs gvs : List F) (hl : fs.length = fvs.length)
    (hl2 : gs.length = gvs.length) (z zz : F) (D : ℕ)
    (hD : ∀ f ∈ fs, f.natDegree ≤ D) (hD2 : ∀ f ∈ gs, f.natDegree ≤ D)
    (hwrong : (∃ i, i < fs.length ∧ (fs.getD i 0).eval z ≠ fvs.getD i 0) ∨
      (∃ i, i < gs.length ∧ (gs.getD i 0).eval zz ≠ gvs.getD i 0)) :
    ∃ badXi badXi2 : Finset F, badXi.card ≤ fs.length - 1 ∧ badXi2.card ≤ gs.length - 1 ∧
      ∀ xi, xi ∉ badXi → ∀ xi2, xi2 ∉ badXi2 →
      ∀ q q2 : Polynomial F, q.natDegree ≤ D → q2.natDegree ≤ D →
        ∃ badBeta : Finset F, badBeta.card ≤ D + 1 ∧ ∀ β, β ∉ badBeta → ∃ r0, ∀ r, r ≠ r0 →
        ∀ (e : G1 →ₗ[F] G2 →ₗ[F] GT) (g : G1), g ≠ 0 → ∀ (h : G2),
          NonDegenerate e h → ∀ vk : VerifierKey G1 G2, HonestVk β g h vk →
              batchCheck e vk (fs.map (fun f => f.eval β • g)) (gs.map (fun f => f.eval β • g))
                z zz xi xi2 fvs gvs (q.eval β • g) (q2.eval β • g) r = false := by
  obtain ⟨b1, b2, c1, c2, H⟩ := batch_final_one (G1 := G1) (G2 := G2) (GT := GT) fs gs fvs gvs hl hl2 z zz D
    hD hD2 hwrong
  refine ⟨b1, b2, c1, c2, fun xi hxi xi2 hxi2 q q2 hq hq2 => ?_⟩
  obtain ⟨bB, d1, d2⟩ := H xi hxi xi2 hxi2 q q2 hq hq2
  refine ⟨bB, d1, fun β hβ => ?_⟩
  set a : F := combine xi (fs.map (fun f => f.eval β)) - combine xi fvs - (β - z) * q.eval β with ha
  set b : F := combine xi2 (gs.map (fun f => f.eval β)) - combine xi2 gvs - (β - zz) * q2.eval β with hb
  refine ⟨-a / b, fun r hr e g hg h hnd vk hvk => ?_⟩
  have hcm : ∀ (x : F) (l : List (Polynomial F)), combine x (l.map (fun f => f.eval β • g))
      = combine x (l.map (fun f => f.eval β)) • g := by
    intro x l; rw [combine_smul, List.map_map]; rfl
  have key : ∀ s : F, batchCheck e vk (fs.map (fun f => f.eval β • g)) (gs.map (fun f => f.eval β • g))
      z zz xi xi2 fvs gvs (q.eval β • g) (q2.eval β • g) s = true ↔ a + s * b = 0 := by
    intro s
    rw [C22_batch_iff e β g h hnd vk hvk _ _ _ _ (by simpa using hl) (by simpa using hl2), hcm, hcm]
    have : combine xi (fs.map (fun f => f.eval β)) • g - combine xi fvs • g - (β - z) • q.eval β • g
        + s • (combine xi2 (gs.map (fun f => f.eval β)) • g - combine xi2 gvs • g
          - (β - zz) • q2.eval β • g) = (a + s * b) • g := by
      rw [ha, hb]; module
    rw [this]
    constructor
    · intro h0; exact (smul_eq_zero.mp h0).resolve_right hg
    · intro h0; rw [h0, zero_smul]
  rw [← Bool.not_eq_true, key]
  intro h0
  by_cases hb0 : b = 0
  · obtain ⟨r0, hr0⟩ := d2 e β hβ g hg h hnd vk hvk
    have h1 := hr0 (r0 + 1) (by simp)
    rw [(key (r0 + 1)).mpr (by rw [hb0, mul_zero] at h0 ⊢; exact h0)] at h1
    cases h1
  · apply hr
    rw [eq_div_iff hb0]
    linear_combination h0

end VO
