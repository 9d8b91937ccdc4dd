import Verif.Props.Fibonacci
import Verif.Lemmas.SnarkSound

set_option linter.unusedSectionVars false

/-
Theorems about the Fibonacci verifier (C38-C40).
-/

namespace VO
open Spec
open Polynomial (X toLaurent)

variable {F G1 G2 GT : Type} [Field F] [DecidableEq F]
  [AddCommGroup G1] [Module F G1] [DecidableEq G1] [AddCommGroup G2] [Module F G2]
  [AddCommGroup GT] [Module F GT] [DecidableEq GT]

/-- **C38.** `verify` accepts iff the challenge `z` is none of `0`, `1`, `ω` and the batched opening
equation holds for the commitments `W`, `P`, `R` at `ω/z` with the claimed values and for the
combination `fibComb` of the commitments at `z` with value 0. -/
theorem C38_accepts_iff (env : Env F G1 G2 GT) (β : F) (g : G1) (h : G2)
    (hnd : NonDegenerate env.e h) (vk : FibVK G1 G2) (hvk : HonestVk β g h vk.kzgVk)
    (hn : 2 ≤ vk.n) (x : FibInstance F) (π : FibProof F G1) :
    let α := env.hash [.fld 1, .cm vk.cmT, .cm π.cmW, .cm π.cmR]
    let ω := env.hash [.fld 1, .cm vk.cmT, .cm π.cmW, .cm π.cmR, .cm π.cmT1]
    let z := env.hash [.fld 1, .cm vk.cmT, .cm π.cmW, .cm π.cmR, .cm π.cmT1, .cm π.cmH1,
      .cm π.cmH2]
    let cmG := fibComb vk.n vk.degreeBound x.a x.b x.c α ω z π.y π.y1 π.y2 g vk.cmT π.cmT1 π.cmH1
      π.cmH2
    let rest := [.cm vk.cmT, .cm π.cmW, .cm π.cmR, .cm π.cmT1, .cm π.cmH1, .cm π.cmH2, .cm cmG,
      .fld (ω / z), .fld π.y, .fld π.y1, .fld π.y2, .fld z]
    let ξ := env.hash (.fld 1 :: rest)
    fibVerify env vk x π = .ok () ↔
      z ≠ 0 ∧ z ≠ 1 ∧ z ≠ ω ∧
      (π.cmW + ξ • vk.cmT + ξ ^ 2 • π.cmR - (π.y + ξ * π.y1 + ξ ^ 2 * π.y2) • g
          - (β - ω / z) • π.capW)
        + env.rngU128 • (cmG - (β - z) • π.capW1) = 0 := by
  intro α ω z cmG rest ξ
  have hα : fibAlpha env vk.cmT π.cmW π.cmR = α := rfl
  have hω : fibOmega env vk.cmT π.cmW π.cmR π.cmT1 = ω := rfl
  have hz : fibZ env vk.cmT π.cmW π.cmR π.cmT1 π.cmH1 π.cmH2 = z := rfl
  have hvkg : vk.kzgVk.g = g := hvk.1
  unfold fibVerify
  simp only [hα, hω, hz]
  by_cases hgood : z ≠ 0 ∧ z ≠ 1 ∧ z ≠ ω
  · obtain ⟨h0, h1, h2⟩ := hgood
    simp only [fibCoeffs_ok vk.n vk.degreeBound hn x α ω z _ _ _ h0 h1 h2, bind, Except.bind,
      divR_ok h0, hvkg, fibComb_eq]
    have hxi : fibXi env 1 vk.cmT π.cmW π.cmR π.cmT1 π.cmH1 π.cmH2
      (fibComb vk.n vk.degreeBound x.a x.b x.c α ω z π.y π.y1 π.y2 g vk.cmT π.cmT1 π.cmH1 π.cmH2)
      (ω / z) π.y π.y1 π.y2 z = ξ := rfl
    rw [hxi]
    have hb := C22_batch_iff env.e β g h hnd vk.kzgVk hvk [π.cmW, vk.cmT, π.cmR] [cmG]
      [π.y, π.y1, π.y2] [0] rfl rfl (ω / z) z ξ (fibXi env 2 vk.cmT π.cmW π.cmR π.cmT1 π.cmH1 π.cmH2
      (fibComb vk.n vk.degreeBound x.a x.b x.c α ω z π.y π.y1 π.y2 g vk.cmT π.cmT1 π.cmH1 π.cmH2)
      (ω / z) π.y π.y1 π.y2 z) π.capW π.capW1 env.rngU128
    have hif : ∀ b : Bool, (if b then (.ok () : Res Unit) else .error .verificationFail) = .ok ()
        ↔ b = true := by intro b; cases b <;> simp
    rw [hif, hb]
    have e1 : combine ξ [π.cmW, vk.cmT, π.cmR] = π.cmW + ξ • vk.cmT + ξ ^ 2 • π.cmR := by
      simp [combine, List.zipIdx]; abel
    have e2 : combine ξ [π.y, π.y1, π.y2] = π.y + ξ * π.y1 + ξ ^ 2 * π.y2 := by
      simp [combine, List.zipIdx]; ring
    have e3 : ∀ t : F, combine t [cmG] = cmG := by intro t; simp [combine, List.zipIdx]
    have e4 : ∀ t : F, combine t [(0 : F)] = 0 := by intro t; simp [combine, List.zipIdx]
    rw [e1, e2, e3, e4, zero_smul, sub_zero]
    simp [h0, h1, h2]
  · have hb : z = 0 ∨ z = 1 ∨ z = ω := by tauto
    simp only [fibCoeffs_bad vk.n vk.degreeBound x α ω z _ _ _ hb, bind, Except.bind]
    constructor
    · intro h; cases h
    · rintro ⟨h0, h1, h2, -⟩; exact absurd ⟨h0, h1, h2⟩ hgood

/-- The recurrence fails at some entry for all but four `α`. -/
theorem fib_alpha_sound (n : ℕ) (hn : 2 ≤ n) (a b c : F) (W P R : Polynomial F)
    (hbad : ¬ FibHolds n P.coeff a b c W.coeff) :
    ∃ bad : Finset F, bad.card ≤ 4 ∧ ∀ α, α ∉ bad → ∀ P1,
      ∃ i, hadamardEntry (fibPolys n a b c α W P R P1) i ≠ 0 := by
  set k : ℕ → ℕ → F := fun i j => match j with
    | 0 => if i = 0 then W.coeff 0 - b * P.coeff 0 - a else 0
    | 1 => R.coeff i - (if i = 0 then 0 else W.coeff (i - 1) * P.coeff i)
    | 2 => if i = 1 then W.coeff 1 - R.coeff 1 - b else 0
    | 3 => if i = n - 1 then W.coeff (n - 1) - c else 0
    | 4 => if 2 ≤ i then W.coeff i - R.coeff i - W.coeff (i - 2) else 0
    | _ => 0 with hk
  have hex : ∃ i, i < n ∧ ∃ j, j < 5 ∧ k i j ≠ 0 := by
    by_contra hc
    push Not at hc
    apply hbad
    have hR : ∀ i, i < n → R.coeff i = if i = 0 then 0 else W.coeff (i - 1) * P.coeff i :=
      fun i hi => sub_eq_zero.mp (hc i hi 1 (by omega))
    refine ⟨?_, ?_, ?_, ?_⟩
    · have h0 := hc 0 (by omega) 0 (by omega)
      simp only [hk, if_true] at h0
      linear_combination h0
    · have h1 := hc 1 (by omega) 2 (by omega)
      simp only [hk, if_true] at h1
      have := hR 1 (by omega)
      rw [if_neg (by omega)] at this
      linear_combination h1 + this
    · intro i hi
      have h1 := hc (i + 2) hi 4 (by omega)
      simp only [hk] at h1
      rw [if_pos (by omega), Nat.add_sub_cancel] at h1
      have := hR (i + 2) hi
      rw [if_neg (by omega), show i + 2 - 1 = i + 1 by omega] at this
      linear_combination h1 + this
    · have h1 := hc (n - 1) (by omega) 3 (by omega)
      simp only [hk, if_true] at h1
      exact sub_eq_zero.mp h1
  obtain ⟨i, hi, j, hj, hne⟩ := hex
  set q : Polynomial F := ∑ m ∈ Finset.range 5, Polynomial.C (k i m) * X ^ m with hq
  obtain ⟨bad, b1, b2⟩ := bad_of_coeff q j 4 (by
      rw [hq, Polynomial.finsetSum_coeff]
      simp only [Polynomial.coeff_C_mul_X_pow]
      rw [Finset.sum_ite_eq, if_pos (Finset.mem_range.mpr hj)]
      exact hne) (by
      apply Polynomial.natDegree_sum_le_of_forall_le
      intro m hm
      refine (Polynomial.natDegree_C_mul_X_pow_le _ _).trans ?_
      have := Finset.mem_range.mp hm; omega)
  refine ⟨bad, b1, fun α hα P1 => ⟨i, ?_⟩⟩
  rw [fib_entry_lt n hn _ _ _ _ _ _ _ _ _ hi]
  have := b2 α hα
  intro h0
  apply this
  rw [hq, Polynomial.eval_finsetSum]
  simp only [Finset.sum_range_succ, Finset.sum_range_zero, Polynomial.eval_mul, Polynomial.eval_C,
    Polynomial.eval_pow, Polynomial.eval_X]
  simp only [hk]
  linear_combination h0

theorem degLt_of_natDegree {p : Polynomial F} {D : ℕ} (h : p.natDegree ≤ D) :
    p.degree < ((D + 1 : ℕ) : WithBot ℕ) :=
  lt_of_le_of_lt (Polynomial.degree_le_of_natDegree_le h) (by exact_mod_cast Nat.lt_succ_self D)

theorem fibGPoly_natDegree (n B D : ℕ) (a b c α ω z y y1 y2 : F) (P P1 H1 H2 : Polynomial F)
    (hP : P.natDegree ≤ D) (hP1 : P1.natDegree ≤ D) (hH1 : H1.natDegree ≤ D)
    (hH2 : H2.natDegree ≤ D) : (fibGPoly n B a b c α ω z y y1 y2 P P1 H1 H2).natDegree ≤ D := by
  have : (fibGPoly n B a b c α ω z y y1 y2 P P1 H1 H2).degree < ((D + 1 : ℕ) : WithBot ℕ) := by
    rw [fibGPoly_eq]
    exact degLt_add (degLt_add (degLt_add (degLt_add (degLt_C _ _ (by omega))
      (degLt_C_mul (degLt_of_natDegree hP) _)) (degLt_C_mul (degLt_of_natDegree hP1) _))
      (degLt_C_mul (degLt_of_natDegree hH1) _)) (degLt_C_mul (degLt_of_natDegree hH2) _)
  have h2 := Polynomial.degree_lt_iff_coeff_zero _ _ |>.mp this
  exact Polynomial.natDegree_le_iff_coeff_eq_zero.mpr (fun N hN => h2 N (by omega))

/-- **C38.** Round-by-round soundness of `verify` against a prover whose group elements are
commitments to polynomials of degree at most `D` (the degree of the setup).  If the coefficients of
the committed witness polynomial `W` do not satisfy the recurrence, then, whatever polynomials and
values the prover sends after each challenge, only few values of the next challenge help: 4 of
`α`, `D + 2` of `ω`, `2D + n + 1` of `z`, 2 of `ξ`, `D + 1` trapdoors `β` and one value of the
randomizer of `batch_check`.  For all others `verify` rejects. -/
theorem C38_sound (n D : ℕ) (hn : 2 ≤ n) (hD : n + 2 ≤ D) (x : FibInstance F)
    (P W R : Polynomial F) (dP : P.natDegree ≤ D) (dW : W.natDegree ≤ D) (dR : R.natDegree ≤ D)
    (hbad : ¬ FibHolds n P.coeff x.a x.b x.c W.coeff) :
    ∃ badα : Finset F, badα.card ≤ 4 ∧ ∀ α, α ∉ badα →
    ∀ P1 : Polynomial F, P1.natDegree ≤ D →
    ∃ badω : Finset F, badω.card ≤ D + 2 ∧ ∀ ω, ω ∉ badω →
    ∀ H1 H2 : Polynomial F, H1.natDegree ≤ D → H2.natDegree ≤ D →
    ∃ badz : Finset F, badz.card ≤ 2 * D + n + 1 ∧ ∀ z, z ∉ badz →
    ∀ y y1 y2 : F,
    ∃ badξ : Finset F, badξ.card ≤ 2 ∧ ∀ ξ, ξ ∉ badξ → ∀ ξ2,
    ∀ Q1 Q2 : Polynomial F, Q1.natDegree ≤ D → Q2.natDegree ≤ D →
    ∃ badβ : Finset F, badβ.card ≤ D + 1 ∧ ∀ β, β ∉ badβ → ∃ r0 : F,
    ∀ (env : Env F G1 G2 GT) (g : G1) (h : G2), env.rngU128 ≠ r0 → g ≠ 0 → NonDegenerate env.e h →
    ∀ kvk : VerifierKey G1 G2, HonestVk β g h kvk →
      let cm := fun p : Polynomial F => p.eval β • g
      let it := fun p : Polynomial F => (Item.cm (cm p) : Item F G1)
      let G := fibGPoly n (D + 1) x.a x.b x.c α ω z y y1 y2 P P1 H1 H2
      env.hash [.fld 1, it P, it W, it R] = α →
      env.hash [.fld 1, it P, it W, it R, it P1] = ω →
      env.hash [.fld 1, it P, it W, it R, it P1, it H1, it H2] = z →
      env.hash [.fld 1, it P, it W, it R, it P1, it H1, it H2, it G, .fld (ω / z), .fld y, .fld y1,
        .fld y2, .fld z] = ξ →
      env.hash [.fld 2, it P, it W, it R, it P1, it H1, it H2, it G, .fld (ω / z), .fld y, .fld y1,
        .fld y2, .fld z] = ξ2 →
      fibVerify env ⟨cm P, kvk, n, D + 1⟩ x
          ⟨cm W, cm R, cm P1, cm H1, cm H2, y, y1, y2, cm Q1, cm Q2⟩ ≠ .ok () := by
  obtain ⟨badα, a1, a2⟩ := fib_alpha_sound n hn x.a x.b x.c W P R hbad
  refine ⟨badα, a1, fun α hα P1 dP1 => ?_⟩
  have eW := degLt_of_natDegree dW
  have eP := degLt_of_natDegree dP
  have eR := degLt_of_natDegree dR
  have eP1 := degLt_of_natDegree dP1
  have eg : (geomPoly (1 : F) n).degree < ((n : ℕ) : WithBot ℕ) := degree_geomPoly_lt 1 n
  have eg3 : (geomPoly (1 : F) 3).degree < ((3 : ℕ) : WithBot ℕ) := degree_geomPoly_lt 1 3
  have hA : ∀ p ∈ fibPolys n x.a x.b x.c α W P R P1, p.1.degree < ((D + 2 + 1 : ℕ) : WithBot ℕ) := by
    intro p hp
    simp only [fibPolys, List.mem_cons, List.not_mem_nil, or_false] at hp
    rcases hp with rfl | rfl | rfl | rfl | rfl | rfl | rfl
    · exact degLt_sub (degLt_sub (degLt_mono eW (by omega)) (degLt_C_mul (degLt_mono eP (by omega)) _))
        (degLt_C _ _ (by omega))
    · exact degLt_C_mul (degLt_mono eR (by omega)) _
    · exact degLt_neg (degLt_C_mul (degLt_mono (degLt_X_mul eW) (by omega)) _)
    · exact degLt_C_mul (degLt_sub (degLt_sub (degLt_mono eW (by omega)) (degLt_mono eR (by omega)))
        (degLt_C_mul (degLt_X _ (by omega)) _)) _
    · exact degLt_C_mul (degLt_sub (degLt_mono eW (by omega))
        (degLt_C_mul (degLt_X_pow _ _ (by omega)) _)) _
    · exact degLt_C_mul (degLt_sub (degLt_sub (degLt_mono eW (by omega)) (degLt_mono eR (by omega)))
        (degLt_mono (degLt_X_pow_mul eW 2) (by omega))) _
    · exact degLt_neg (degLt_mono (degLt_X_pow_mul eg3 n) (by omega))
  have hB : ∀ p ∈ fibPolys n x.a x.b x.c α W P R P1,
      p.2.degree < ((n + D - 1 + 1 : ℕ) : WithBot ℕ) := by
    intro p hp
    simp only [fibPolys, List.mem_cons, List.not_mem_nil, or_false] at hp
    rcases hp with rfl | rfl | rfl | rfl | rfl | rfl | rfl
    · exact degLt_one _ (by omega)
    · exact degLt_mono eg (by omega)
    · exact degLt_mono eP (by omega)
    · exact degLt_X _ (by omega)
    · exact degLt_X_pow _ _ (by omega)
    · exact degLt_sub (degLt_sub (degLt_mono eg (by omega)) (degLt_one _ (by omega)))
        (degLt_X _ (by omega))
    · exact degLt_mono (degLt_X_pow_mul eP1 (n - 1)) (by omega)
  obtain ⟨badω, o1, o2⟩ := C48_omega (fibPolys n x.a x.b x.c α W P R P1) (D + 2 + 1) hA (a2 α hα P1)
  refine ⟨badω, by omega, fun ω hω H1 H2 dH1 dH2 => ?_⟩
  obtain ⟨badz, z1, z2⟩ := C48_z (fibPolys n x.a x.b x.c α W P R P1) ω (o2 ω hω) (D + 1) (D + 2)
    (n + D - 1) (by omega) hA hB H1 H2 (degLt_of_natDegree dH1)
    (degLt_mono (degLt_of_natDegree dH2) (by omega))
  refine ⟨badz, by omega, fun z hz y y1 y2 => ?_⟩
  by_cases hz3 : z = 0 ∨ z = 1 ∨ z = ω
  · refine ⟨∅, by simp, fun ξ _ ξ2 Q1 Q2 _ _ => ⟨∅, by simp, ?_⟩⟩
    intro β _
    refine ⟨0, ?_⟩
    intro env g h _ hg hnd kvk hvk cm it G hα' hω' hz' hξ' hξ2' hver
    have hfa : fibAlpha env (cm P) (cm W) (cm R) = α := hα'
    have hfo : fibOmega env (cm P) (cm W) (cm R) (cm P1) = ω := hω'
    have hfz : fibZ env (cm P) (cm W) (cm R) (cm P1) (cm H1) (cm H2) = z := hz'
    simp only [fibVerify, hfa, hfo, hfz, fibCoeffs_bad n (D + 1) x α ω z _ _ _ hz3, bind,
      Except.bind] at hver
    cases hver
  · push Not at hz3
    obtain ⟨h0, h1, h2⟩ := hz3
    set G := fibGPoly n (D + 1) x.a x.b x.c α ω z y y1 y2 P P1 H1 H2 with hG
    have hwrong : (∃ i, i < [W, P, R].length ∧
        (([W, P, R] : List (Polynomial F)).getD i 0).eval (ω / z) ≠ [y, y1, y2].getD i 0) ∨
        (∃ i, i < [G].length ∧ (([G] : List (Polynomial F)).getD i 0).eval z ≠ [(0 : F)].getD i 0) := by
      by_contra hc
      push Not at hc
      obtain ⟨c1, c2⟩ := hc
      have w0 : W.eval (ω / z) = y := c1 0 (by simp)
      have w1 : P.eval (ω / z) = y1 := c1 1 (by simp)
      have w2 : R.eval (ω / z) = y2 := c1 2 (by simp)
      have g0 : G.eval z = 0 := c2 0 (by simp)
      rw [hG, ← w0, ← w1, ← w2, fibG_eval] at g0
      exact z2 z hz h0 (sub_eq_zero.mp g0)
    have dG : G.natDegree ≤ D := fibGPoly_natDegree n (D + 1) D x.a x.b x.c α ω z y y1 y2 P P1 H1 H2
      dP dP1 dH1 dH2
    obtain ⟨badξ, badξ2, x1, x2, x3⟩ := batch_final (G1 := G1) (G2 := G2) (GT := GT) [W, P, R] [G]
      [y, y1, y2] [0] rfl rfl (ω / z) z D (by
        intro f hf
        simp only [List.mem_cons, List.not_mem_nil, or_false] at hf
        rcases hf with rfl | rfl | rfl <;> assumption) (by
        intro f hf
        simp only [List.mem_cons, List.not_mem_nil, or_false] at hf
        rcases hf with rfl; exact dG) hwrong
    have hx2 : badξ2 = ∅ := Finset.card_eq_zero.mp (by simpa using x2)
    subst hx2
    refine ⟨badξ, by simpa using x1, fun ξ hξ ξ2 Q1 Q2 dQ1 dQ2 => ?_⟩
    obtain ⟨badβ, y1', y2'⟩ := x3 ξ hξ ξ2 (by simp) Q1 Q2 dQ1 dQ2
    refine ⟨badβ, y1', ?_⟩
    intro β hβ
    obtain ⟨r0, hr0⟩ := y2' β hβ
    refine ⟨r0, ?_⟩
    intro env g h hr hg hnd kvk hvk cm it G' hα' hω' hz' hξ' hξ2' hver
    have hfa : fibAlpha env (cm P) (cm W) (cm R) = α := hα'
    have hfo : fibOmega env (cm P) (cm W) (cm R) (cm P1) = ω := hω'
    have hfz : fibZ env (cm P) (cm W) (cm R) (cm P1) (cm H1) (cm H2) = z := hz'
    have hcmg := fibK_eval n (D + 1) x.a x.b x.c α ω z y y1 y2 β P P1 H1 H2 g
    have hvkg : kvk.g = g := hvk.1
    have hx1 : fibXi env 1 (cm P) (cm W) (cm R) (cm P1) (cm H1) (cm H2) (cm G) (ω / z) y y1 y2 z = ξ :=
      hξ'
    have hx2 : fibXi env 2 (cm P) (cm W) (cm R) (cm P1) (cm H1) (cm H2) (cm G) (ω / z) y y1 y2 z = ξ2 :=
      hξ2'
    simp only [fibVerify, hfa, hfo, hfz, fibCoeffs_ok n (D + 1) hn x α ω z _ _ _ h0 h1 h2, bind,
      Except.bind, divR_ok h0, hvkg] at hver
    have hcG : commitmentLinearCombination (fibK n (D + 1) x.a x.b x.c α ω z y y1 y2).1 g
        [(cm P, (fibK n (D + 1) x.a x.b x.c α ω z y y1 y2).2.1),
         (cm P1, (fibK n (D + 1) x.a x.b x.c α ω z y y1 y2).2.2.1),
         (cm H1, (fibK n (D + 1) x.a x.b x.c α ω z y y1 y2).2.2.2.1),
         (cm H2, (fibK n (D + 1) x.a x.b x.c α ω z y y1 y2).2.2.2.2)] = cm G := hcmg.symm
    rw [hcG, hx1, hx2] at hver
    have hf := hr0 env.rngU128 hr env.e g hg h hnd kvk hvk
    simp only [List.map_cons, List.map_nil] at hf
    rw [show batchCheck env.e kvk [cm W, cm P, cm R] [cm G] (ω / z) z ξ ξ2 [y, y1, y2] [0] (cm Q1)
      (cm Q2) env.rngU128 = false from hf] at hver
    simp at hver

/-! ## C39 -/

theorem fibK_shift_a (n D : ℕ) (a b c α ω z y y1 y2 δ : F) (hα : α ≠ 0) (hω : ω ≠ 0)
    (hz : z ≠ 0) :
    fibK n D (a + δ) b (c - δ / (α ^ 3 * ω ^ (n - 1))) α ω z y y1 y2
      = fibK n D a b c α ω z y y1 y2 := by
  unfold fibK
  congr 1
  have hz' : z ^ (n - 1) ≠ 0 := pow_ne_zero _ hz
  have hω' : ω ^ (n - 1) ≠ 0 := pow_ne_zero _ hω
  have e : ∀ c : F, α ^ 3 * (y - c * (ω / z) ^ (n - 1)) * z ^ (n - 1)
      = α ^ 3 * y * z ^ (n - 1) - α ^ 3 * c * ω ^ (n - 1) := by
    intro c
    rw [div_pow]; field_simp
  rw [e, e]
  have e2 : α ^ 3 * (c - δ / (α ^ 3 * ω ^ (n - 1))) * ω ^ (n - 1) = α ^ 3 * c * ω ^ (n - 1) - δ := by
    field_simp
  rw [e2]; ring

/-- **C39.** The transcript of the Fibonacci SNARK does not bind the instance: whatever the proof,
`verify` returns the same result for `a + δ` and a correspondingly changed result `c`, for every
`δ` (provided the challenges `α` and `ω` are not zero). -/
theorem C39_instance_shift (env : Env F G1 G2 GT) (vk : FibVK G1 G2) (hn : 2 ≤ vk.n)
    (x : FibInstance F) (π : FibProof F G1) (δ : F)
    (hα : fibAlpha env vk.cmT π.cmW π.cmR ≠ 0)
    (hω : fibOmega env vk.cmT π.cmW π.cmR π.cmT1 ≠ 0) :
    ∃ c', (δ ≠ 0 → c' ≠ x.c) ∧
      fibVerify env vk ⟨x.a + δ, x.b, c'⟩ π = fibVerify env vk x π := by
  set α := fibAlpha env vk.cmT π.cmW π.cmR with hα'
  set ω := fibOmega env vk.cmT π.cmW π.cmR π.cmT1 with hω'
  set z := fibZ env vk.cmT π.cmW π.cmR π.cmT1 π.cmH1 π.cmH2 with hz'
  refine ⟨x.c - δ / (α ^ 3 * ω ^ (vk.n - 1)), ?_, ?_⟩
  · intro hδ heq
    have : δ / (α ^ 3 * ω ^ (vk.n - 1)) = 0 := by linear_combination -heq
    rw [div_eq_zero_iff] at this
    rcases this with h | h
    · exact hδ h
    · exact (mul_ne_zero (pow_ne_zero _ hα) (pow_ne_zero _ hω)) h
  · unfold fibVerify
    rw [← hα', ← hω', ← hz']
    by_cases hb : z = 0 ∨ z = 1 ∨ z = ω
    · simp only [fibCoeffs_bad vk.n vk.degreeBound _ α ω z _ _ _ hb, bind, Except.bind]
    · push Not at hb
      obtain ⟨h0, h1, h2⟩ := hb
      simp only [fibCoeffs_ok vk.n vk.degreeBound hn _ α ω z _ _ _ h0 h1 h2,
        fibK_shift_a vk.n vk.degreeBound x.a x.b x.c α ω z _ _ _ δ hα hω h0]

/-- **C39.** The same for the second start value: `b + δ` with `a - δ(y₁ + α²ω)`, with no condition on
the challenges. -/
theorem C39_instance_shift_b (env : Env F G1 G2 GT) (vk : FibVK G1 G2) (hn : 2 ≤ vk.n)
    (x : FibInstance F) (π : FibProof F G1) (δ : F) :
    ∃ a', fibVerify env vk ⟨a', x.b + δ, x.c⟩ π = fibVerify env vk x π := by
  set α := fibAlpha env vk.cmT π.cmW π.cmR with hα'
  set ω := fibOmega env vk.cmT π.cmW π.cmR π.cmT1 with hω'
  set z := fibZ env vk.cmT π.cmW π.cmR π.cmT1 π.cmH1 π.cmH2 with hz'
  refine ⟨x.a - δ * (π.y1 + α ^ 2 * ω), ?_⟩
  unfold fibVerify
  rw [← hα', ← hω', ← hz']
  by_cases hb : z = 0 ∨ z = 1 ∨ z = ω
  · simp only [fibCoeffs_bad vk.n vk.degreeBound _ α ω z _ _ _ hb, bind, Except.bind]
  · push Not at hb
    obtain ⟨h0, h1, h2⟩ := hb
    have : fibK vk.n vk.degreeBound (x.a - δ * (π.y1 + α ^ 2 * ω)) (x.b + δ) x.c α ω z π.y π.y1 π.y2
        = fibK vk.n vk.degreeBound x.a x.b x.c α ω z π.y π.y1 π.y2 := by
      unfold fibK
      congr 1
      field_simp
      ring
    simp only [fibCoeffs_ok vk.n vk.degreeBound hn _ α ω z _ _ _ h0 h1 h2, this]

/-! ## C40 -/

/-- **C40.** Universal forgery with a known randomizer: for every key and every instance, true or
false, and every choice of the commitments and values of a proof whose challenges satisfy
`z ∉ {0, 1, ω}` and `z² ≠ ω`, the two opening proofs can be chosen (as a function of the known
randomizer, without the trapdoor) so that `verify` accepts. -/
theorem C40_forgery (env : Env F G1 G2 GT) (g : G1) (n capD : ℕ) (hn : 2 ≤ n) (x : FibInstance F)
    (cmT cmW cmR cmT1 cmH1 cmH2 : G1) (y y1 y2 : F) (hr : env.rngU128 ≠ 0)
    (hz0 : fibZ env cmT cmW cmR cmT1 cmH1 cmH2 ≠ 0) (hz1 : fibZ env cmT cmW cmR cmT1 cmH1 cmH2 ≠ 1)
    (hzo : fibZ env cmT cmW cmR cmT1 cmH1 cmH2 ≠ fibOmega env cmT cmW cmR cmT1)
    (hzz : fibZ env cmT cmW cmR cmT1 cmH1 cmH2 ^ 2 ≠ fibOmega env cmT cmW cmR cmT1) :
    ∃ capW capW1 : G1, ∀ (β : F) (h : G2) (kvk : VerifierKey G1 G2), HonestVk β g h kvk →
      fibVerify env ⟨cmT, kvk, n, capD⟩ x ⟨cmW, cmR, cmT1, cmH1, cmH2, y, y1, y2, capW, capW1⟩
        = .ok () := by
  set α := fibAlpha env cmT cmW cmR with hα'
  set ω := fibOmega env cmT cmW cmR cmT1 with hω'
  set z := fibZ env cmT cmW cmR cmT1 cmH1 cmH2 with hz'
  set cmG := fibComb n capD x.a x.b x.c α ω z y y1 y2 g cmT cmT1 cmH1 cmH2 with hcmG
  obtain ⟨w, w2, hw⟩ := C22_known_randomizer_forgery (G1 := G1) (G2 := G2) (GT := GT) g
    [cmW, cmT, cmR] [cmG] [y, y1, y2]
    [0] (ω / z) z (fibXi env 1 cmT cmW cmR cmT1 cmH1 cmH2 cmG (ω / z) y y1 y2 z)
    (fibXi env 2 cmT cmW cmR cmT1 cmH1 cmH2 cmG (ω / z) y y1 y2 z) env.rngU128
    (by intro h; apply hzz; rw [div_eq_iff hz0] at h; rw [h]; ring) hr
  refine ⟨w, w2, ?_⟩
  intro β h kvk hvk
  have hvkg : kvk.g = g := hvk.1
  simp only [fibVerify, ← hα', ← hω', ← hz', fibCoeffs_ok n capD hn x α ω z _ _ _ hz0 hz1 hzo, bind,
    Except.bind, divR_ok hz0, hvkg, fibComb_eq, ← hcmG]
  rw [if_pos (hw env.e β h kvk hvk)]

/-! Concrete cases for the hypotheses of C38, C39 and C40. -/

/-- A witness polynomial that does not satisfy the recurrence. -/
example : ¬ FibHolds 3 (polyOf ([1, 2, 3] : List K97)).coeff 4 5 77
    (polyOf ([9, 23, 78] : List K97)).coeff := by
  rintro ⟨-, -, -, h⟩
  rw [coeff_polyOf] at h
  revert h
  decide

/-- The forgery applies to the false instance `c = 77` with all commitments equal to 1. -/
example : ∃ capW capW1 : K97, ∀ (β : K97) (h : K97) (kvk : VerifierKey K97 K97),
    HonestVk β 1 h kvk →
      fibVerify env97 ⟨7, kvk, 3, 21⟩ ⟨4, 5, 77⟩ ⟨1, 1, 1, 1, 1, 2, 3, 4, capW, capW1⟩ = .ok () :=
  C40_forgery env97 (1 : K97) 3 21 (by omega) ⟨4, 5, 77⟩ 7 1 1 1 1 1 2 3 4 (by decide +kernel)
    (by decide +kernel) (by decide +kernel) (by decide +kernel) (by decide +kernel)

example : fibAlpha env97 7 1 1 ≠ 0 ∧ fibOmega env97 7 1 1 1 ≠ 0 := by decide +kernel

end VO
