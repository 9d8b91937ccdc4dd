import Verif.Props.RangeCheckComplete
import Verif.Props.FibonacciSound
import Verif.Props.PovSound
import Verif.Lemmas.RangeCheckSound

set_option linter.unusedSectionVars false

/-
Theorems about the range-check verifier (C45, C66-C69).
-/

namespace VO
open Spec
open Polynomial (X toLaurent)

variable {F G1 G2 GT : Type} [Field F] [DecidableEq F]
  [AddCommGroup G1] [Module F G1] [DecidableEq G1] [AddCommGroup G2] [Module F G2]
  [AddCommGroup GT] [Module F GT] [DecidableEq GT]

theorem rcGPoly_natDegree (N B n K D : ℕ) (α β ω z y y1 y2 : F) (W P A P1 H1 H2 : Polynomial F)
    (dW : W.natDegree ≤ D) (dP : P.natDegree ≤ D) (dA : A.natDegree ≤ D) (dP1 : P1.natDegree ≤ D)
    (d1 : H1.natDegree ≤ D) (d2 : H2.natDegree ≤ D) :
    (rcGPoly N B n K α β ω z y y1 y2 W P A P1 H1 H2).natDegree ≤ D := by
  have : (rcGPoly N B n K α β ω z y y1 y2 W P A P1 H1 H2).degree < ((D + 1 : ℕ) : WithBot ℕ) := by
    rw [rcGPoly_eq]
    have t := fun {p : Polynomial F} (h : p.natDegree ≤ D) (a : F) =>
      degLt_C_mul (degLt_of_natDegree h) a
    exact degLt_add (degLt_add (degLt_add (degLt_add (degLt_add (degLt_add (degLt_C _ _ (by omega))
      (t dW _)) (t dP _)) (t dA _)) (t dP1 _)) (t d1 _)) (t d2 _)
  exact natDegree_of_degLt this le_rfl

theorem rcPolys_degA (N B n d : ℕ) (hN : N ≤ n) (hB : B ≤ n) (hd : n ≤ d) (α β : F)
    (W P M R S A P1 : Polynomial F) (eM : M.degree < ((d + 1 : ℕ) : WithBot ℕ))
    (eR : R.degree < ((d + 1 : ℕ) : WithBot ℕ)) (eS : S.degree < ((d + 1 : ℕ) : WithBot ℕ)) :
    ∀ p ∈ rcPolys N B n α β W P M R S A P1, p.1.degree < ((d + 1 : ℕ) : WithBot ℕ) := by
  intro p hp
  have g := fun m => degree_geomPoly_lt (1 : F) m
  simp only [rcPolys, rcBase, blindPair, List.cons_append, List.nil_append, List.mem_cons,
    List.not_mem_nil, or_false] at hp
  rcases hp with rfl | rfl | rfl | rfl | rfl | rfl | rfl | rfl | rfl
  · exact eR
  · exact degLt_neg (degLt_mono (g _) (by omega))
  · exact degLt_C_mul eS _
  · exact degLt_neg (degLt_C_mul eM _)
  · exact degLt_C_mul eR _
  · exact degLt_neg (degLt_C_mul eS _)
  · exact degLt_neg (degLt_C_mul (degLt_mono (g _) (by omega)) _)
  · exact degLt_C_mul (degLt_X_pow _ _ (by omega)) _
  · exact degLt_neg (degLt_mono (degLt_X_pow_mul (g 1) n) (by omega))

theorem rcPolys_degB (N B n d : ℕ) (hn : 1 ≤ n) (hN : N ≤ n) (hB : B ≤ n) (hd : n ≤ d) (α β : F)
    (W P M R S A P1 : Polynomial F) (e : ℕ) (eW : W.degree < ((d + 1 : ℕ) : WithBot ℕ))
    (eP : P.degree < ((d + 1 : ℕ) : WithBot ℕ)) (eA : A.degree < ((d : ℕ) : WithBot ℕ))
    (e1 : P1.degree < ((e : ℕ) : WithBot ℕ)) (he : n - 1 + e ≤ d + 1) :
    ∀ p ∈ rcPolys N B n α β W P M R S A P1, p.2.degree < ((d + 1 : ℕ) : WithBot ℕ) := by
  intro p hp
  have g := fun m => degree_geomPoly_lt (1 : F) m
  simp only [rcPolys, rcBase, blindPair, List.cons_append, List.nil_append, List.mem_cons,
    List.not_mem_nil, or_false] at hp
  rcases hp with rfl | rfl | rfl | rfl | rfl | rfl | rfl | rfl | rfl
  · exact degLt_add eW (degLt_C_mul (degLt_mono (g _) (by omega)) _)
  · exact degLt_mono (g _) (by omega)
  · exact degLt_add eP (degLt_C_mul (degLt_mono (g _) (by omega)) _)
  · exact degLt_mono (g _) (by omega)
  · exact degLt_mono (g _) (by omega)
  · exact degLt_mono (g _) (by omega)
  · exact degLt_sub (degLt_mono eA (by omega)) (degLt_mono (degLt_X_mul eA) (by omega))
  · exact degLt_mono eA (by omega)
  · exact degLt_mono (degLt_X_pow_mul e1 (n - 1)) (by omega)

set_option maxHeartbeats 1000000 in
/-- Soundness of `verify` for an arbitrary committed table. -/
theorem rc_sound (cs : RangeCheck) (hN : 1 ≤ cs.lookupSize) (hB : 1 ≤ cs.range) (D : ℕ)
    (hD : cs.n ≤ D) (hchar : ∀ k : ℕ, 1 ≤ k → k ≤ cs.lookupSize → (k : F) ≠ 0)
    (P W M : Polynomial F) (dP : P.natDegree ≤ D) (dW : W.natDegree ≤ D) (dM : M.natDegree ≤ D)
    (hbad : ¬ LookupHolds cs.lookupSize cs.range W.coeff P.coeff) :
    ∃ badβ : Finset F, badβ.card ≤ cs.lookupSize + 2 * cs.range - 1 ∧ ∀ β, β ∉ badβ →
    ∀ R S A : Polynomial F, R.natDegree ≤ D → S.natDegree ≤ D → A.natDegree ≤ D →
    ∃ badα : Finset F, badα.card ≤ 3 ∧ ∀ α, α ∉ badα →
    ∀ P1 : Polynomial F, P1.natDegree ≤ D →
    ∃ badω : Finset F, badω.card ≤ D + 1 ∧ ∀ ω, ω ∉ badω →
    ∀ H1 H2 : Polynomial F, H1.natDegree ≤ D → H2.natDegree ≤ D →
    ∃ badz : Finset F, badz.card ≤ 2 * D + cs.n + 1 ∧ ∀ z, z ∉ badz →
    ∀ y y1 y2 : F,
    ∃ badξ : Finset F, badξ.card ≤ 2 ∧ ∀ ξ, ξ ∉ badξ → ∀ ξ2,
    ∀ Q1 Q2 : Polynomial F, Q1.natDegree ≤ D → Q2.natDegree ≤ D →
    ∃ badτ : Finset F, badτ.card ≤ D + 1 ∧ ∀ τ, τ ∉ badτ → ∃ r0 : F,
    ∀ (env : Env F G1 G2 GT) (g : G1) (h : G2), env.rngU128 ≠ r0 → g ≠ 0 → NonDegenerate env.e h →
    ∀ kvk : VerifierKey G1 G2, HonestVk τ g h kvk →
      let cm := fun p : Polynomial F => p.eval τ • g
      let it := fun p : Polynomial F => (Item.cm (cm p) : Item F G1)
      let G := rcGPoly cs.lookupSize cs.range cs.n (D + 1) α β ω z y y1 y2 W P A P1 H1 H2
      env.hash [.fld 1, it P, it W, it M] = β →
      env.hash [.fld 1, it P, it W, it M, it R, it S, it A] = α →
      env.hash [.fld 1, it P, it W, it M, it R, it S, it A, it P1] = ω →
      env.hash [.fld 1, it P, it W, it M, it R, it S, it A, it P1, it H1, it H2] = z →
      env.hash [.fld 1, it P, it W, it M, it R, it S, it A, it P1, it H1, it H2, it G, .fld (ω / z),
        .fld y, .fld y1, .fld y2, .fld z] = ξ →
      env.hash [.fld 2, it P, it W, it M, it R, it S, it A, it P1, it H1, it H2, it G, .fld (ω / z),
        .fld y, .fld y1, .fld y2, .fld z] = ξ2 →
      rcVerify env ⟨cm P, kvk, cs, D + 1⟩
          ⟨cm W, cm M, cm R, cm S, cm A, cm P1, cm H1, cm H2, y, y1, y2, cm Q1, cm Q2⟩ ≠ .ok () := by
  have hNn := cs.N_le
  have hBn := cs.B_le
  obtain ⟨badβ, b1, b2⟩ := rc_beta_sound cs.lookupSize cs.range cs.n (by omega) hNn hBn hchar W P M
    hbad
  refine ⟨badβ, b1, fun β hβ R S A dR dS dA => ?_⟩
  obtain ⟨badα, a1, a2⟩ := rc_alpha_sound cs.lookupSize cs.range cs.n (by omega) β W P M R S A
    (b2 β hβ R S A)
  refine ⟨badα, a1, fun α hα P1 dP1 => ?_⟩
  set polys := rcPolys cs.lookupSize cs.range cs.n α β W P M R S A P1 with hpolys
  have hA : ∀ p ∈ polys, p.1.degree < ((D + 1 : ℕ) : WithBot ℕ) :=
    rcPolys_degA _ _ _ D hNn hBn hD α β W P M R S A P1 (degLt_of_natDegree dM)
      (degLt_of_natDegree dR) (degLt_of_natDegree dS)
  have hB' : ∀ p ∈ polys, p.2.degree < ((D + cs.n + 1 : ℕ) : WithBot ℕ) :=
    rcPolys_degB _ _ _ (D + cs.n) (by omega) hNn hBn (by omega) α β W P M R S A P1 (D + 1)
      (degLt_mono (degLt_of_natDegree dW) (by omega)) (degLt_mono (degLt_of_natDegree dP) (by omega))
      (degLt_mono (degLt_of_natDegree dA) (by omega)) (degLt_of_natDegree dP1) (by omega)
  obtain ⟨badω, o1, o2⟩ := C48_omega polys (D + 1) hA (a2 α hα P1)
  refine ⟨insert 0 badω, (Finset.card_insert_le _ _).trans (by omega), fun ω hω H1 H2 dH1 dH2 => ?_⟩
  have hω0 : ω ≠ 0 := fun h => hω (by rw [h]; exact Finset.mem_insert_self _ _)
  obtain ⟨badz, z1, z2⟩ := C48_z polys ω (o2 ω (fun h => hω (Finset.mem_insert_of_mem h))) (D + 1)
    (D + 1) (D + cs.n) le_rfl (fun p hp => degLt_mono (hA p hp) (by omega)) hB' H1 H2
    (degLt_of_natDegree dH1) (degLt_mono (degLt_of_natDegree dH2) (by omega))
  refine ⟨badz, by omega, fun z hz y y1 y2 => ?_⟩
  by_cases hz3 : z = 0 ∨ z = 1 ∨ z = ω
  · refine ⟨∅, by simp, fun ξ _ ξ2 Q1 Q2 _ _ => ⟨∅, by simp, ?_⟩⟩
    intro τ _
    refine ⟨0, ?_⟩
    intro env g h _ hg hnd kvk hvk cm it G e0 e1 e2 e3 e4 e5 hver
    have f0 : rcBeta env (cm P) (cm W) (cm M) = β := e0
    have f1 : rcAlpha env (cm P) (cm W) (cm M) (cm R) (cm S) (cm A) = α := e1
    have f2 : rcOmega env (cm P) (cm W) (cm M) (cm R) (cm S) (cm A) (cm P1) = ω := e2
    have f3 : rcZ env (cm P) (cm W) (cm M) (cm R) (cm S) (cm A) (cm P1) (cm H1) (cm H2) = z := e3
    simp only [rcVerify, f0, f1, f2, f3, rcCoeffs_bad cs (D + 1) α β ω z _ _ _ hz3, bind,
      Except.bind] at hver
    cases hver
  · push Not at hz3
    obtain ⟨h0, h1, h2⟩ := hz3
    set G := rcGPoly cs.lookupSize cs.range cs.n (D + 1) α β ω z y y1 y2 W P A P1 H1 H2 with hG
    have hwrong : (∃ i, i < [R, S, M].length ∧
        (([R, S, M] : List (Polynomial F)).getD i 0).eval (ω / z) ≠ [y, y1, y2].getD i 0) ∨
        (∃ i, i < [G].length ∧ (([G] : List (Polynomial F)).getD i 0).eval z ≠ [(0 : F)].getD i 0) := by
      by_contra hc
      push Not at hc
      obtain ⟨c1, c2⟩ := hc
      have w0 : R.eval (ω / z) = y := c1 0 (by simp)
      have w1 : S.eval (ω / z) = y1 := c1 1 (by simp)
      have w2 : M.eval (ω / z) = y2 := c1 2 (by simp)
      have g0 : G.eval z = 0 := c2 0 (by simp)
      rw [hG, ← w0, ← w1, ← w2, rcG_eval] at g0
      exact z2 z hz h0 (sub_eq_zero.mp g0)
    have dG : G.natDegree ≤ D := rcGPoly_natDegree _ _ _ (D + 1) D α β ω z y y1 y2 W P A P1 H1 H2
      dW dP dA dP1 dH1 dH2
    obtain ⟨badξ, badξ2, x1, x2, x3⟩ := batch_final (G1 := G1) (G2 := G2) (GT := GT) [R, S, M] [G]
      [y, y1, y2] [0] rfl rfl (ω / z) z D (by
        intro f hf
        simp only [List.mem_cons, List.not_mem_nil, or_false] at hf
        rcases hf with rfl | rfl | rfl <;> assumption) (by
        intro f hf
        simp only [List.mem_cons, List.not_mem_nil, or_false] at hf
        rcases hf with rfl; exact dG) hwrong
    have hx2 : badξ2 = ∅ := Finset.card_eq_zero.mp (by simpa using x2)
    subst hx2
    refine ⟨badξ, by simpa using x1, fun ξ hξ ξ2 Q1 Q2 dQ1 dQ2 => ?_⟩
    obtain ⟨badτ, y1', y2'⟩ := x3 ξ hξ ξ2 (by simp) Q1 Q2 dQ1 dQ2
    refine ⟨badτ, y1', ?_⟩
    intro τ hτ
    obtain ⟨r0, hr0⟩ := y2' τ hτ
    refine ⟨r0, ?_⟩
    intro env g h hr hg hnd kvk hvk cm it G' e0 e1 e2 e3 e4 e5 hver
    have f0 : rcBeta env (cm P) (cm W) (cm M) = β := e0
    have f1 : rcAlpha env (cm P) (cm W) (cm M) (cm R) (cm S) (cm A) = α := e1
    have f2 : rcOmega env (cm P) (cm W) (cm M) (cm R) (cm S) (cm A) (cm P1) = ω := e2
    have f3 : rcZ env (cm P) (cm W) (cm M) (cm R) (cm S) (cm A) (cm P1) (cm H1) (cm H2) = z := e3
    have f4 : rcXi env 1 (cm P) (cm W) (cm M) (cm R) (cm S) (cm A) (cm P1) (cm H1) (cm H2) (cm G)
      (ω / z) y y1 y2 z = ξ := e4
    have f5 : rcXi env 2 (cm P) (cm W) (cm M) (cm R) (cm S) (cm A) (cm P1) (cm H1) (cm H2) (cm G)
      (ω / z) y y1 y2 z = ξ2 := e5
    have hvkg : kvk.g = g := hvk.1
    have hcG : rcCmG g (cm W) (cm P) (cm A) (cm P1) (cm H1) (cm H2)
        (rcK cs.lookupSize cs.range cs.n (D + 1) α β ω z y y1 y2) = cm G :=
      (rcK_eval cs.lookupSize cs.range cs.n (D + 1) α β ω z y y1 y2 τ W P A P1 H1 H2 g).symm
    simp only [rcVerify, f0, f1, f2, f3, rcCoeffs_ok cs hN (D + 1) α β ω z _ _ _ (Or.inr hω0) h0 h1 h2,
      bind, Except.bind, divR_ok h0, hvkg, hcG, f4, f5] at hver
    have hf := hr0 env.rngU128 hr env.e g hg h hnd kvk hvk
    simp only [List.map_cons, List.map_nil] at hf
    rw [show batchCheck env.e kvk [cm R, cm S, cm M] [cm G] (ω / z) z ξ ξ2 [y, y1, y2] [0] (cm Q1)
      (cm Q2) env.rngU128 = false from hf] at hver
    simp at hver

/-- The table committed by `index`: shifted when the range is smaller than the lookup size. -/
theorem coeff_shifted_table (N B i : ℕ) :
    (X ^ (N - B) * tablePoly B : Polynomial F).coeff i
      = if N - B ≤ i ∧ i < N - B + B then ((i - (N - B) : ℕ) : F) else 0 := by
  rw [Polynomial.coeff_X_pow_mul']
  by_cases h : N - B ≤ i
  · rw [if_pos h, coeff_tablePoly]
    by_cases h2 : i < N - B + B
    · rw [if_pos (by omega), if_pos ⟨h, h2⟩]
    · rw [if_neg (by omega), if_neg (by omega)]
  · rw [if_neg h, if_neg (by omega)]

theorem natDegree_shifted_table (N B D : ℕ) (hB : B ≤ D) (hN : N ≤ D) :
    (X ^ (N - B) * tablePoly B : Polynomial F).natDegree ≤ D := by
  rw [Polynomial.natDegree_le_iff_coeff_eq_zero]
  intro i hi
  rw [coeff_shifted_table, if_neg (by omega)]

/-- **C66.** Round-by-round soundness of `verify` against a prover whose group elements are
commitments to polynomials of degree at most `D` (the degree of the setup), for the key that `index`
builds when `lookup_size ≤ range`, in a field of characteristic larger than the lookup size.  If one
of the first `lookup_size` coefficients of the committed `W` is not an integer in `[0, range)`, then,
whatever polynomials and values the prover sends after each challenge, only few values of the next
challenge help: `N + 2B - 1` of `β`, 3 of `α`, `D + 1` of `ω`, `2D + n + 1` of `z`, 2 of `ξ`,
`D + 1` trapdoors `τ` and one value of the randomizer of `batch_check`.  For all others `verify`
rejects. -/
theorem C66_sound (cs : RangeCheck) (hN : 1 ≤ cs.lookupSize) (hNB : cs.lookupSize ≤ cs.range) (D : ℕ)
    (hD : cs.range ≤ D) (hchar : ∀ k : ℕ, 1 ≤ k → k ≤ cs.lookupSize → (k : F) ≠ 0)
    (W M : Polynomial F) (dW : W.natDegree ≤ D) (dM : M.natDegree ≤ D)
    (hbad : ¬ InRangeHolds cs.lookupSize cs.range W.coeff) :
    ∃ badβ : Finset F, badβ.card ≤ cs.lookupSize + 2 * cs.range - 1 ∧ ∀ β, β ∉ badβ →
    ∀ R S A : Polynomial F, R.natDegree ≤ D → S.natDegree ≤ D → A.natDegree ≤ D →
    ∃ badα : Finset F, badα.card ≤ 3 ∧ ∀ α, α ∉ badα →
    ∀ P1 : Polynomial F, P1.natDegree ≤ D →
    ∃ badω : Finset F, badω.card ≤ D + 1 ∧ ∀ ω, ω ∉ badω →
    ∀ H1 H2 : Polynomial F, H1.natDegree ≤ D → H2.natDegree ≤ D →
    ∃ badz : Finset F, badz.card ≤ 2 * D + cs.range + 1 ∧ ∀ z, z ∉ badz →
    ∀ y y1 y2 : F,
    ∃ badξ : Finset F, badξ.card ≤ 2 ∧ ∀ ξ, ξ ∉ badξ → ∀ ξ2,
    ∀ Q1 Q2 : Polynomial F, Q1.natDegree ≤ D → Q2.natDegree ≤ D →
    ∃ badτ : Finset F, badτ.card ≤ D + 1 ∧ ∀ τ, τ ∉ badτ → ∃ r0 : F,
    ∀ (env : Env F G1 G2 GT) (g : G1) (h : G2), env.rngU128 ≠ r0 → g ≠ 0 → NonDegenerate env.e h →
    ∀ pp : UniversalParams G1 G2, kzgSetup D τ g h = .ok pp →
    ∀ pk vk, rcIndex (F := F) pp cs = .ok (pk, vk) →
      let cm := fun p : Polynomial F => p.eval τ • g
      let it := fun p : Polynomial F => (Item.cm (cm p) : Item F G1)
      let P : Polynomial F := tablePoly cs.range
      let G := rcGPoly cs.lookupSize cs.range cs.range (D + 1) α β ω z y y1 y2 W P A P1 H1 H2
      env.hash [.fld 1, it P, it W, it M] = β →
      env.hash [.fld 1, it P, it W, it M, it R, it S, it A] = α →
      env.hash [.fld 1, it P, it W, it M, it R, it S, it A, it P1] = ω →
      env.hash [.fld 1, it P, it W, it M, it R, it S, it A, it P1, it H1, it H2] = z →
      env.hash [.fld 1, it P, it W, it M, it R, it S, it A, it P1, it H1, it H2, it G, .fld (ω / z),
        .fld y, .fld y1, .fld y2, .fld z] = ξ →
      env.hash [.fld 2, it P, it W, it M, it R, it S, it A, it P1, it H1, it H2, it G, .fld (ω / z),
        .fld y, .fld y1, .fld y2, .fld z] = ξ2 →
      rcVerify env vk
          ⟨cm W, cm M, cm R, cm S, cm A, cm P1, cm H1, cm H2, y, y1, y2, cm Q1, cm Q2⟩ ≠ .ok () := by
  have hcn := cs.n_eq hNB
  have dP : (tablePoly cs.range : Polynomial F).natDegree ≤ D := by
    have := natDegree_shifted_table (F := F) 0 cs.range D hD (by omega)
    rwa [Nat.zero_sub, pow_zero, one_mul] at this
  have hbad' : ¬ LookupHolds cs.lookupSize cs.range W.coeff (tablePoly cs.range : Polynomial F).coeff := by
    intro h
    apply hbad
    intro j hj
    obtain ⟨i, hi, e⟩ := h j hj
    rw [coeff_tablePoly, if_pos hi] at e
    exact ⟨i, hi, e⟩
  have key := rc_sound (G1 := G1) (G2 := G2) (GT := GT) cs hN (by omega) D (by omega) hchar
    (tablePoly cs.range) W M dP dW dM hbad'
  rw [hcn] at key
  obtain ⟨badβ, b1, b2⟩ := key
  refine ⟨badβ, b1, fun β hβ R S A dR dS dA => ?_⟩
  obtain ⟨badα, a1, a2⟩ := b2 β hβ R S A dR dS dA
  refine ⟨badα, a1, fun α hα P1 dP1 => ?_⟩
  obtain ⟨badω, o1, o2⟩ := a2 α hα P1 dP1
  refine ⟨badω, o1, fun ω hω H1 H2 dH1 dH2 => ?_⟩
  obtain ⟨badz, z1, z2⟩ := o2 ω hω H1 H2 dH1 dH2
  refine ⟨badz, z1, fun z hz y y1 y2 => ?_⟩
  obtain ⟨badξ, x1, x2⟩ := z2 z hz y y1 y2
  refine ⟨badξ, x1, fun ξ hξ ξ2 Q1 Q2 dQ1 dQ2 => ?_⟩
  obtain ⟨badτ, t1, t2⟩ := x2 ξ hξ ξ2 Q1 Q2 dQ1 dQ2
  refine ⟨badτ, t1, fun τ hτ => ?_⟩
  obtain ⟨r0, hr0⟩ := t2 τ hτ
  refine ⟨r0, fun env g h hr hg hnd pp hpp pk vk hidx => ?_⟩
  obtain ⟨kvk, hvk, hidx'⟩ := rcIndex_ok (F := F) τ g h D pp hpp cs (by omega) (by omega)
  rw [show cs.lookupSize - cs.range = 0 by omega, pow_zero, one_mul, hidx] at hidx'
  obtain ⟨-, rfl⟩ := Prod.mk.inj (Except.ok.inj hidx')
  exact hr0 env g h hr hg hnd kvk hvk

/-- **C69 (deviation: short tables).** When `range < lookup_size`, `index` commits to the table shifted
by `lookup_size - range` places, while the argument still looks at its first `range` entries.  So
values in range are refused: if one of the first `lookup_size` coefficients of the committed `W` is
neither zero nor an integer below `2·range - lookup_size` (for instance `range - 1`), then for the key
that `index` builds `verify` rejects, for all but few values of each challenge, every proof of a prover
whose group elements are commitments to polynomials of degree at most `D`. -/
theorem C69_short_table (cs : RangeCheck) (hB : 1 ≤ cs.range) (hBN : cs.range < cs.lookupSize) (D : ℕ)
    (hD : cs.lookupSize ≤ D) (hchar : ∀ k : ℕ, 1 ≤ k → k ≤ cs.lookupSize → (k : F) ≠ 0)
    (W M : Polynomial F) (dW : W.natDegree ≤ D) (dM : M.natDegree ≤ D)
    (hbad : ∃ j, j < cs.lookupSize ∧ W.coeff j ≠ 0 ∧
      ∀ i : ℕ, i < 2 * cs.range - cs.lookupSize → W.coeff j ≠ (i : F)) :
    ∃ badβ : Finset F, badβ.card ≤ cs.lookupSize + 2 * cs.range - 1 ∧ ∀ β, β ∉ badβ →
    ∀ R S A : Polynomial F, R.natDegree ≤ D → S.natDegree ≤ D → A.natDegree ≤ D →
    ∃ badα : Finset F, badα.card ≤ 3 ∧ ∀ α, α ∉ badα →
    ∀ P1 : Polynomial F, P1.natDegree ≤ D →
    ∃ badω : Finset F, badω.card ≤ D + 1 ∧ ∀ ω, ω ∉ badω →
    ∀ H1 H2 : Polynomial F, H1.natDegree ≤ D → H2.natDegree ≤ D →
    ∃ badz : Finset F, badz.card ≤ 2 * D + cs.lookupSize + 1 ∧ ∀ z, z ∉ badz →
    ∀ y y1 y2 : F,
    ∃ badξ : Finset F, badξ.card ≤ 2 ∧ ∀ ξ, ξ ∉ badξ → ∀ ξ2,
    ∀ Q1 Q2 : Polynomial F, Q1.natDegree ≤ D → Q2.natDegree ≤ D →
    ∃ badτ : Finset F, badτ.card ≤ D + 1 ∧ ∀ τ, τ ∉ badτ → ∃ r0 : F,
    ∀ (env : Env F G1 G2 GT) (g : G1) (h : G2), env.rngU128 ≠ r0 → g ≠ 0 → NonDegenerate env.e h →
    ∀ pp : UniversalParams G1 G2, kzgSetup D τ g h = .ok pp →
    ∀ pk vk, rcIndex (F := F) pp cs = .ok (pk, vk) →
      let cm := fun p : Polynomial F => p.eval τ • g
      let it := fun p : Polynomial F => (Item.cm (cm p) : Item F G1)
      let P : Polynomial F := X ^ (cs.lookupSize - cs.range) * tablePoly cs.range
      let G := rcGPoly cs.lookupSize cs.range cs.lookupSize (D + 1) α β ω z y y1 y2 W P A P1 H1 H2
      env.hash [.fld 1, it P, it W, it M] = β →
      env.hash [.fld 1, it P, it W, it M, it R, it S, it A] = α →
      env.hash [.fld 1, it P, it W, it M, it R, it S, it A, it P1] = ω →
      env.hash [.fld 1, it P, it W, it M, it R, it S, it A, it P1, it H1, it H2] = z →
      env.hash [.fld 1, it P, it W, it M, it R, it S, it A, it P1, it H1, it H2, it G, .fld (ω / z),
        .fld y, .fld y1, .fld y2, .fld z] = ξ →
      env.hash [.fld 2, it P, it W, it M, it R, it S, it A, it P1, it H1, it H2, it G, .fld (ω / z),
        .fld y, .fld y1, .fld y2, .fld z] = ξ2 →
      rcVerify env vk
          ⟨cm W, cm M, cm R, cm S, cm A, cm P1, cm H1, cm H2, y, y1, y2, cm Q1, cm Q2⟩ ≠ .ok () := by
  have hcn : cs.n = cs.lookupSize := max_eq_left hBN.le
  have hbad' : ¬ LookupHolds cs.lookupSize cs.range W.coeff
      (X ^ (cs.lookupSize - cs.range) * tablePoly cs.range : Polynomial F).coeff := by
    intro h
    obtain ⟨j, hj, h0, hno⟩ := hbad
    obtain ⟨i, hi, e⟩ := h j hj
    rw [coeff_shifted_table] at e
    split_ifs at e with hc
    · exact hno _ (by omega) e
    · exact h0 e
  have key := rc_sound (G1 := G1) (G2 := G2) (GT := GT) cs (by omega) hB D (by omega) hchar
    (X ^ (cs.lookupSize - cs.range) * tablePoly cs.range) W M
    (natDegree_shifted_table _ _ _ (by omega) hD) dW dM hbad'
  rw [hcn] at key
  obtain ⟨badβ, b1, b2⟩ := key
  refine ⟨badβ, b1, fun β hβ R S A dR dS dA => ?_⟩
  obtain ⟨badα, a1, a2⟩ := b2 β hβ R S A dR dS dA
  refine ⟨badα, a1, fun α hα P1 dP1 => ?_⟩
  obtain ⟨badω, o1, o2⟩ := a2 α hα P1 dP1
  refine ⟨badω, o1, fun ω hω H1 H2 dH1 dH2 => ?_⟩
  obtain ⟨badz, z1, z2⟩ := o2 ω hω H1 H2 dH1 dH2
  refine ⟨badz, z1, fun z hz y y1 y2 => ?_⟩
  obtain ⟨badξ, x1, x2⟩ := z2 z hz y y1 y2
  refine ⟨badξ, x1, fun ξ hξ ξ2 Q1 Q2 dQ1 dQ2 => ?_⟩
  obtain ⟨badτ, t1, t2⟩ := x2 ξ hξ ξ2 Q1 Q2 dQ1 dQ2
  refine ⟨badτ, t1, fun τ hτ => ?_⟩
  obtain ⟨r0, hr0⟩ := t2 τ hτ
  refine ⟨r0, fun env g h hr hg hnd pp hpp pk vk hidx => ?_⟩
  obtain ⟨kvk, hvk, hidx'⟩ := rcIndex_ok (F := F) τ g h D pp hpp cs hB (by omega)
  rw [hidx] at hidx'
  obtain ⟨-, rfl⟩ := Prod.mk.inj (Except.ok.inj hidx')
  exact hr0 env g h hr hg hnd kvk hvk

/-! ## C67: what `verify` checks -/

/-- **C67.** `verify` accepts iff the challenge `z` is none of `0`, `1`, `ω` and the batched opening
equation holds for the commitments `R`, `S`, `M` at `ω/z` with the claimed values and for the
combination `rcComb` of the commitments at `z` with value 0. -/
theorem C67_accepts_iff (env : Env F G1 G2 GT) (τ : F) (g : G1) (h : G2)
    (hnd : NonDegenerate env.e h) (vk : RcVK G1 G2) (hvk : HonestVk τ g h vk.kzgVk)
    (hN : 1 ≤ vk.size.lookupSize) (π : RcProof F G1) :
    let N := vk.size.lookupSize
    let B := vk.size.range
    let n := max N B
    let l : List (Item F G1) := [.cm vk.cmT, .cm π.cmW, .cm π.cmM]
    let β := env.hash (.fld 1 :: l)
    let α := env.hash (.fld 1 :: l ++ [.cm π.cmR, .cm π.cmS, .cm π.cmRt])
    let ω := env.hash (.fld 1 :: l ++ [.cm π.cmR, .cm π.cmS, .cm π.cmRt, .cm π.cmT1])
    let z := env.hash (.fld 1 :: l ++ [.cm π.cmR, .cm π.cmS, .cm π.cmRt, .cm π.cmT1, .cm π.cmH1,
      .cm π.cmH2])
    let cmG := rcComb N B n vk.degreeBound α β ω z π.y π.y1 π.y2 g π.cmW vk.cmT π.cmRt π.cmT1
      π.cmH1 π.cmH2
    let ξ := env.hash (.fld 1 :: l ++ [.cm π.cmR, .cm π.cmS, .cm π.cmRt, .cm π.cmT1, .cm π.cmH1,
      .cm π.cmH2, .cm cmG, .fld (ω / z), .fld π.y, .fld π.y1, .fld π.y2, .fld z])
    (2 ≤ n ∨ ω ≠ 0) →
    (rcVerify env vk π = .ok () ↔
      z ≠ 0 ∧ z ≠ 1 ∧ z ≠ ω ∧
      (π.cmR + ξ • π.cmS + ξ ^ 2 • π.cmM - (π.y + ξ * π.y1 + ξ ^ 2 * π.y2) • g
          - (τ - ω / z) • π.capW)
        + env.rngU128 • (cmG - (τ - z) • π.capW1) = 0) := by
  intro N B n l β α ω z cmG ξ hn
  have f0 : rcBeta env vk.cmT π.cmW π.cmM = β := rfl
  have f1 : rcAlpha env vk.cmT π.cmW π.cmM π.cmR π.cmS π.cmRt = α := rfl
  have f2 : rcOmega env vk.cmT π.cmW π.cmM π.cmR π.cmS π.cmRt π.cmT1 = ω := rfl
  have f3 : rcZ env vk.cmT π.cmW π.cmM π.cmR π.cmS π.cmRt π.cmT1 π.cmH1 π.cmH2 = z := rfl
  have f4 : rcXi env 1 vk.cmT π.cmW π.cmM π.cmR π.cmS π.cmRt π.cmT1 π.cmH1 π.cmH2 cmG (ω / z)
    π.y π.y1 π.y2 z = ξ := rfl
  have hvkg : vk.kzgVk.g = g := hvk.1
  simp only [rcVerify, f0, f1, f2, f3]
  by_cases hb : z = 0 ∨ z = 1 ∨ z = ω
  · simp only [rcCoeffs_bad vk.size vk.degreeBound α β ω z _ _ _ hb, bind, Except.bind]
    constructor
    · intro h; cases h
    · rintro ⟨q0, q1, q2, -⟩
      rcases hb with h | h | h
      · exact absurd h q0
      · exact absurd h q1
      · exact absurd h q2
  push Not at hb
  obtain ⟨h0, h1, h2⟩ := hb
  have hcmG : rcComb vk.size.lookupSize vk.size.range vk.size.n vk.degreeBound α β ω z π.y π.y1 π.y2
    g π.cmW vk.cmT π.cmRt π.cmT1 π.cmH1 π.cmH2 = cmG := rfl
  simp only [rcCoeffs_ok vk.size hN vk.degreeBound α β ω z _ _ _ hn h0 h1 h2, bind, Except.bind,
    divR_ok h0, hvkg, rcComb_eq, hcmG, f4]
  have hif : ∀ b : Bool, (if b then (.ok () : Res Unit) else .error .verificationFail) = .ok ()
      ↔ b = true := by intro b; cases b <;> simp
  rw [hif, C22_batch_iff env.e τ g h hnd vk.kzgVk hvk [π.cmR, π.cmS, π.cmM] [cmG]
    [π.y, π.y1, π.y2] [0] rfl rfl]
  have e1 : combine ξ [π.cmR, π.cmS, π.cmM] = π.cmR + ξ • π.cmS + ξ ^ 2 • π.cmM := by
    simp [combine, List.zipIdx]; abel
  have e2 : combine ξ [π.y, π.y1, π.y2] = π.y + ξ * π.y1 + ξ ^ 2 * π.y2 := by
    simp [combine, List.zipIdx]; ring
  have e3 : ∀ t : F, combine t [cmG] = cmG := by intro t; simp [combine, List.zipIdx]
  have e4 : ∀ t : F, combine t [(0 : F)] = 0 := by intro t; simp [combine, List.zipIdx]
  rw [e1, e2, e3, e4, zero_smul, sub_zero]
  constructor
  · intro h; exact ⟨h0, h1, h2, h⟩
  · rintro ⟨-, -, -, h⟩; exact h

/-! ## C68: forgery with a known randomizer -/

/-- **C68.** Universal forgery of range proofs with a known randomizer: for every key and every
choice of the commitments and values of a proof (in particular of the commitment to the looked-up
vector) whose challenges satisfy `z ∉ {0, 1, ω}` and `z² ≠ ω`, the two opening proofs can be chosen
(as a function of the known randomizer, without the trapdoor) so that `verify` accepts. -/
theorem C68_forgery (env : Env F G1 G2 GT) (g : G1) (size : RangeCheck) (capD : ℕ)
    (hN : 1 ≤ size.lookupSize) (cmT cmW cmM cmR cmS cmRt cmT1 cmH1 cmH2 : G1) (y y1 y2 : F)
    (hr : env.rngU128 ≠ 0) :
    let l : List (Item F G1) := [.cm cmT, .cm cmW, .cm cmM, .cm cmR, .cm cmS, .cm cmRt, .cm cmT1]
    let ω := env.hash (.fld 1 :: l)
    let z := env.hash (.fld 1 :: l ++ [.cm cmH1, .cm cmH2])
    (2 ≤ max size.lookupSize size.range ∨ ω ≠ 0) →
    z ≠ 0 → z ≠ 1 → z ≠ ω → z ^ 2 ≠ ω →
    ∃ capW capW1 : G1, ∀ (τ : F) (h : G2) (kvk : VerifierKey G1 G2), HonestVk τ g h kvk →
      rcVerify env ⟨cmT, kvk, size, capD⟩
        ⟨cmW, cmM, cmR, cmS, cmRt, cmT1, cmH1, cmH2, y, y1, y2, capW, capW1⟩ = .ok () := by
  intro l ω z hn h0 h1 h2 hzz
  set β := rcBeta env cmT cmW cmM with hβ
  set α := rcAlpha env cmT cmW cmM cmR cmS cmRt with hα
  have f2 : rcOmega env cmT cmW cmM cmR cmS cmRt cmT1 = ω := rfl
  have f3 : rcZ env cmT cmW cmM cmR cmS cmRt cmT1 cmH1 cmH2 = z := rfl
  set cmG := rcComb size.lookupSize size.range size.n capD α β ω z y y1 y2 g cmW cmT cmRt cmT1 cmH1
    cmH2 with hcmG
  obtain ⟨w, w2, hw⟩ := C22_known_randomizer_forgery (G1 := G1) (G2 := G2) (GT := GT) g
    [cmR, cmS, cmM] [cmG] [y, y1, y2] [0] (ω / z) z
    (rcXi env 1 cmT cmW cmM cmR cmS cmRt cmT1 cmH1 cmH2 cmG (ω / z) y y1 y2 z)
    (rcXi env 2 cmT cmW cmM cmR cmS cmRt cmT1 cmH1 cmH2 cmG (ω / z) y y1 y2 z) env.rngU128
    (by intro h; apply hzz; rw [div_eq_iff h0] at h; rw [h]; ring) hr
  refine ⟨w, w2, ?_⟩
  intro τ h kvk hvk
  have hvkg : kvk.g = g := hvk.1
  simp only [rcVerify, ← hβ, ← hα, f2, f3, rcCoeffs_ok size hN capD α β ω z _ _ _ hn h0 h1 h2, bind,
    Except.bind, divR_ok h0, hvkg, rcComb_eq, ← hcmG]
  rw [if_pos (hw env.e τ h kvk hvk)]

/-! ## C45: proofs of true statements exist -/

set_option maxHeartbeats 2000000 in
/-- **C45.** Proofs that `verify` accepts exist for every witness in range, whatever the six blinding
values `δ0, …, δ5` are (the prover, which stops when `δ4 ≠ 0`, does not find them): for every
`1 ≤ N ≤ B` with `0, …, B-1` distinct in the field, hash function, trapdoor and maximal degree
`D > B`, if the challenges satisfy `w_j + β ≠ 0` for `j < N`, `ω ≠ 0` and `z ∉ {0, 1, ω}`. -/
theorem C45_accepting_exists (env : Env F G1 G2 GT) (τ : F) (g : G1) (h : G2)
    (hnd : NonDegenerate env.e h) (D : ℕ) (pp : UniversalParams G1 G2)
    (hs : kzgSetup D τ g h = .ok pp) (cs : RangeCheck)
    (hN : 1 ≤ cs.lookupSize) (hNB : cs.lookupSize ≤ cs.range) (hD : cs.range < D)
    (hinj : ∀ i j : ℕ, i < cs.range → j < cs.range → (i : F) = (j : F) → i = j) (w : ℕ → F)
    (hrel : InRangeHolds cs.lookupSize cs.range w) (δ0 δ1 δ2 δ3 δ4 δ5 : F) :
    ∃ pk vk, rcIndex (F := F) pp cs = .ok (pk, vk) ∧
      let N := cs.lookupSize
      let n := cs.range
      let t := fun i : ℕ => (i : F)
      let m := multOf N n w t
      let it := fun p : Polynomial F => (Item.cm (p.eval τ • g) : Item F G1)
      let W := blindVec n w δ0
      let P : Polynomial F := tablePoly n
      let M := blindVec n m δ1
      let β := env.hash [.fld 1, it P, it W, it M]
      let R := blindVec n (invOf N β w) δ2
      let S := blindVec n (fun i => invOf n β t i * m i) δ3
      let A := blindVec n (runSum N n β w t m) δ4
      let α := env.hash [.fld 1, it P, it W, it M, it R, it S, it A]
      let P1 := blindPoly n 1 δ5 (rcBase N n n α β W P M R S A)
      let ω := env.hash [.fld 1, it P, it W, it M, it R, it S, it A, it P1]
      (∀ j, j < N → w j + β ≠ 0) → ω ≠ 0 →
      ∃ cmH1 cmH2 : G1,
      let z := env.hash [.fld 1, it P, it W, it M, it R, it S, it A, it P1, .cm cmH1, .cm cmH2]
      z ≠ 0 → z ≠ 1 → z ≠ ω →
      ∃ (y y1 y2 : F) (capW capW1 : G1),
        rcVerify env vk ⟨W.eval τ • g, M.eval τ • g, R.eval τ • g, S.eval τ • g, A.eval τ • g,
          P1.eval τ • g, cmH1, cmH2, y, y1, y2, capW, capW1⟩ = .ok () := by
  have hcn := cs.n_eq hNB
  obtain ⟨kvk, hvk, hidx⟩ := rcIndex_ok (F := F) τ g h D pp hs cs (by omega) (by omega)
  rw [show cs.lookupSize - cs.range = 0 by omega, pow_zero, one_mul] at hidx
  refine ⟨_, _, hidx, ?_⟩
  intro N n t m it W P M β R S A α P1 ω hβ hω0
  have hn1 : 1 ≤ n := by show 1 ≤ cs.range; omega
  have hnD : n + 1 ≤ D := hD
  have bd : ∀ (f : ℕ → F) (δ : F), (blindVec n f δ).degree < ((n + 1 : ℕ) : WithBot ℕ) :=
    fun f δ => degree_blindVec n f δ
  have hbA : ∀ P1' : Polynomial F, ∀ p ∈ rcPolys N n n α β W P M R S A P1',
      p.1.degree < ((n + 1 : ℕ) : WithBot ℕ) := fun P1' =>
    rcPolys_degA N n n n hNB le_rfl le_rfl α β W P M R S A P1' (bd _ _) (bd _ _) (bd _ _)
  have hhigh : ∀ i, n + 1 ≤ i → hadamardEntry (rcBase N n n α β W P M R S A) i = 0 := by
    intro i hi
    exact entry_zero_of_degA _ (n + 1) (fun p hp => hbA 0 p (List.mem_append_left _ hp)) i hi
  have dP1 : P1.degree < ((2 : ℕ) : WithBot ℕ) :=
    degree_blindPoly n 1 1 _ _ (fun j hj => hhigh _ (by omega))
  have dP : P.degree < ((D + 1 : ℕ) : WithBot ℕ) := by
    have := natDegree_shifted_table (F := F) 0 n D (by omega) (by omega)
    rw [Nat.zero_sub, pow_zero, one_mul] at this
    exact degLt_of_natDegree this
  set polys := rcPolys N n n α β W P M R S A P1 with hpolys
  have hlt : ∀ i, i < n → hadamardEntry polys i = 0 := by
    refine rc_entries_lt N n n hn1 hNB le_rfl α β w t hinj hrel hβ W P M R S A P1 ?_ ?_ ?_ ?_ ?_ ?_
    · intro i hi; rw [coeff_blindVec, if_pos hi]
    · intro i hi; rw [coeff_tablePoly, if_pos hi]
    · intro i hi; rw [coeff_blindVec, if_pos hi]
    · intro i hi; rw [coeff_blindVec, if_pos hi]
    · intro i hi; rw [coeff_blindVec, if_pos hi]
    · intro i hi; rw [coeff_blindVec, if_pos hi]
  have hentry : ∀ i, hadamardEntry polys i = 0 := by
    intro i
    show hadamardEntry (rcBase N n n α β W P M R S A ++ [blindPair n 1 P1]) i = 0
    apply entries_blind_zero n 1 hn1
    · intro i hi
      rw [← entries_blind_lt n 1 hn1 P1 _ i hi]
      exact hlt i hi
    · intro i hi
      exact hhigh i (by omega)
  have hdA : ∀ p ∈ polys, p.1.degree < ((D + 1 : ℕ) : WithBot ℕ) :=
    fun p hp => degLt_mono (hbA P1 p hp) (by omega)
  have hdB : ∀ p ∈ polys, p.2.degree < ((D + 1 : ℕ) : WithBot ℕ) :=
    rcPolys_degB N n n D hn1 hNB le_rfl (by omega) α β W P M R S A P1 2
      (degLt_mono (bd _ _) (by omega)) dP (degLt_mono (bd _ _) (by omega)) dP1 (by omega)
  obtain ⟨H1, H2, -, -, hH⟩ := C48_complete polys D (D + 1) (by omega) hdA hdB hentry ω
  refine ⟨H1.eval τ • g, H2.eval τ • g, ?_⟩
  intro z h0 hz1 hz2
  set G := rcGPoly N n n (D + 1) α β ω z (R.eval (ω / z)) (S.eval (ω / z)) (M.eval (ω / z)) W P A P1
    H1 H2 with hG
  have hGz : G.eval z = 0 := by rw [hG, rcG_eval, hH z h0, sub_self]
  have hcomb : rcComb N n n (D + 1) α β ω z (R.eval (ω / z)) (S.eval (ω / z)) (M.eval (ω / z)) g
      (W.eval τ • g) (P.eval τ • g) (A.eval τ • g) (P1.eval τ • g) (H1.eval τ • g) (H2.eval τ • g)
      = G.eval τ • g := by
    rw [← rcComb_eq, rcK_eval]
  set ξ := env.hash [.fld 1, it P, it W, it M, it R, it S, it A, it P1, it H1, it H2, it G,
    .fld (ω / z), .fld (R.eval (ω / z)), .fld (S.eval (ω / z)), .fld (M.eval (ω / z)), .fld z] with hξ
  obtain ⟨q1, hq1⟩ := open_exists (R + Polynomial.C ξ * S + Polynomial.C (ξ ^ 2) * M) (ω / z)
  obtain ⟨q2, hq2⟩ := open_exists G z
  refine ⟨R.eval (ω / z), S.eval (ω / z), M.eval (ω / z), q1.eval τ • g, q2.eval τ • g, ?_⟩
  have hacc := C67_accepts_iff env τ g h hnd ⟨P.eval τ • g, kvk, cs, D + 1⟩ hvk hN
    ⟨W.eval τ • g, M.eval τ • g, R.eval τ • g, S.eval τ • g, A.eval τ • g,
          P1.eval τ • g, H1.eval τ • g, H2.eval τ • g, R.eval (ω / z), S.eval (ω / z),
          M.eval (ω / z), q1.eval τ • g, q2.eval τ • g⟩ (Or.inr hω0)
  refine hacc.mpr ⟨h0, hz1, hz2, ?_⟩
  have e1 := congrArg (Polynomial.eval τ) hq1
  have e2 := congrArg (Polynomial.eval τ) hq2
  simp only [Polynomial.eval_sub, Polynomial.eval_add, Polynomial.eval_mul, Polynomial.eval_C,
    Polynomial.eval_X, hGz, sub_zero] at e1 e2
  have key : ∀ (ξ' : F) (cmG : G1), ξ' = ξ → cmG = G.eval τ • g →
      R.eval τ • g + ξ' • S.eval τ • g + ξ' ^ 2 • M.eval τ • g
        - (R.eval (ω / z) + ξ' * S.eval (ω / z) + ξ' ^ 2 * M.eval (ω / z)) • g
        - (τ - ω / z) • q1.eval τ • g + env.rngU128 • (cmG - (τ - z) • q2.eval τ • g) = 0 := by
    rintro _ _ rfl rfl
    have t1 : R.eval τ • g + ξ • S.eval τ • g + ξ ^ 2 • M.eval τ • g
        - (R.eval (ω / z) + ξ * S.eval (ω / z) + ξ ^ 2 * M.eval (ω / z)) • g
        - (τ - ω / z) • q1.eval τ • g
        = (R.eval τ + ξ * S.eval τ + ξ ^ 2 * M.eval τ
            - (R.eval (ω / z) + ξ * S.eval (ω / z) + ξ ^ 2 * M.eval (ω / z))
            - (τ - ω / z) * q1.eval τ) • g := by
      module
    have t2 : G.eval τ • g - (τ - z) • q2.eval τ • g = (G.eval τ - (τ - z) * q2.eval τ) • g := by
      module
    rw [t1, t2, e1, e2]
    simp
  have hmax : max cs.lookupSize cs.range = n := hcn
  have hcomb' : rcComb cs.lookupSize cs.range (max cs.lookupSize cs.range) (D + 1) α β ω z
      (R.eval (ω / z)) (S.eval (ω / z)) (M.eval (ω / z)) g (W.eval τ • g) (P.eval τ • g)
      (A.eval τ • g) (P1.eval τ • g) (H1.eval τ • g) (H2.eval τ • g) = G.eval τ • g := by
    rw [hmax]; exact hcomb
  refine key _ _ ?_ hcomb'
  rw [hξ]
  exact congrArg (fun c => env.hash [.fld 1, it P, it W, it M, it R, it S, it A, it P1, it H1, it H2,
    .cm c, .fld (ω / z), .fld (R.eval (ω / z)), .fld (S.eval (ω / z)), .fld (M.eval (ω / z)), .fld z])
    hcomb'

/-! ## Examples -/

/-- The characteristic is large enough for tables up to size 5. -/
example : ∀ k : ℕ, 1 ≤ k → k ≤ 5 → (k : K97) ≠ 0 := by
  intro k h1 h2
  interval_cases k <;> decide

/-- The hypothesis of `C66_sound` holds for the vector `(1, 4, 7)` and the range `[0, 5)`. -/
example : ¬ InRangeHolds 3 5 (polyOf ([1, 4, 7] : List K97)).coeff := by
  intro h
  obtain ⟨i, hi, e⟩ := h 2 (by norm_num)
  rw [coeff_polyOf] at e
  interval_cases i <;> revert e <;> decide

/-- The hypothesis of `C69_short_table` holds for `lookup_size = 5`, `range = 3` and a vector of
values in `[0, 3)`. -/
example : InRangeHolds 5 3 (polyOf ([0, 1, 2, 1, 0] : List K97)).coeff ∧
    ∃ j, j < 5 ∧ (polyOf ([0, 1, 2, 1, 0] : List K97)).coeff j ≠ 0 ∧
      ∀ i : ℕ, i < 2 * 3 - 5 → (polyOf ([0, 1, 2, 1, 0] : List K97)).coeff j ≠ (i : K97) := by
  constructor
  · intro j hj
    rw [coeff_polyOf]
    interval_cases j
    · exact ⟨0, by norm_num, by decide⟩
    · exact ⟨1, by norm_num, by decide⟩
    · exact ⟨2, by norm_num, by decide⟩
    · exact ⟨1, by norm_num, by decide⟩
    · exact ⟨0, by norm_num, by decide⟩
  · refine ⟨2, by norm_num, ?_, ?_⟩
    · rw [coeff_polyOf]; decide
    · intro i hi
      interval_cases i
      rw [coeff_polyOf]; decide

/-- Keys for `lookup_size = 5`, `range = 3` are built. -/
example : (do
      let pp ← kzgSetup 12 (33 : K97) (1 : K97) (1 : K97)
      let _ ← rcIndex (F := K97) pp ⟨5, 3⟩
      return () : Res Unit) = .ok () := by decide +kernel

/-- The hypotheses of `C68_forgery` hold for concrete commitments: a proof about a commitment to
which no witness belongs can be completed. -/
example : ∃ capW capW1 : K97, ∀ (τ h : K97) (kvk : VerifierKey K97 K97), HonestVk τ 1 h kvk →
    rcVerify env97 ⟨20, kvk, ⟨3, 5⟩, 13⟩
      ⟨10, 11, 12, 13, 14, 15, 16, 17, 5, 6, 7, capW, capW1⟩ = .ok () :=
  C68_forgery env97 (1 : K97) ⟨3, 5⟩ 13 (by decide) 20 10 11 12 13 14 15 16 17 5 6 7
    (by decide +kernel) (Or.inl (by decide)) (by decide +kernel) (by decide +kernel)
    (by decide +kernel) (by decide +kernel)

end VO
