import Verif.Props.PovPe
import Verif.Props.PovSound

set_option linter.unusedSectionVars false

/-
Theorems about the verifier of the prover-efficient POV SNARK (C71-C75).
-/

namespace VO
open Spec
open Polynomial (X toLaurent)

variable {F G1 G2 GT : Type} [Field F] [DecidableEq F]
  [AddCommGroup G1] [Module F G1] [DecidableEq G1] [AddCommGroup G2] [Module F G2]
  [AddCommGroup GT] [Module F GT] [DecidableEq GT]

/-- The equations between the coefficients of the two committed polynomials that the argument
checks. -/
def PovPeEqs (cs : POV F) (c : ℕ) (ins : POVInstance F) (U V : Polynomial F) : Prop :=
  (∀ j, j < cs.nmul → V.coeff (c - cs.nmul + j) = U.coeff j * U.coeff (c + j)) ∧
  (∀ j, c + cs.nmul ≤ j → j < 3 * c → U.coeff (j - c) * U.coeff j = 0) ∧
  (∀ j, j < cs.nadd → V.coeff (c + j) = U.coeff (cs.nmul + j) + V.coeff j) ∧
  (∀ j, j < 3 * c → (selPoly ins.idx : Polynomial F).coeff j
    * (U.coeff j + (if c + cs.nmul ≤ j then V.coeff (j - (c + cs.nmul)) else 0)
      - (instPoly ins.idx ins.vals).coeff j) = 0) ∧
  (∀ j, j < 3 * c → (pePoly c cs.nadd cs.nmul U V (polyOf cs.consts)).coeff
      ((cs.wires.map (fun p => Equiv.swap p.1 p.2)).prod j)
    = (pePoly c cs.nadd cs.nmul U V (polyOf cs.consts)).coeff j)

/-- If some equation or the equality of the products fails, a wrong entry below `3c` remains for all
but four `α`, whatever `R`. -/
theorem povPe_alpha_sound (c ca cm : ℕ) (hsz : ca + cm < c) (γ ζ ζ1 : F)
    (U V S K I N R : Polynomial F)
    (hbad : (∀ j, j < cm → V.coeff (c - cm + j) = U.coeff j * U.coeff (c + j)) →
      (∀ j, c + cm ≤ j → j < 3 * c → U.coeff (j - c) * U.coeff j = 0) →
      (∀ j, j < ca → V.coeff (c + j) = U.coeff (cm + j) + V.coeff j) →
      (∀ j, j < 3 * c → I.coeff j
        * (U.coeff j + (if c + cm ≤ j then V.coeff (j - (c + cm)) else 0) - N.coeff j) = 0) →
      ∏ j ∈ Finset.range (3 * c), ((pePoly c ca cm U V K).coeff j + ζ * γ ^ j + ζ1)
        ≠ ∏ j ∈ Finset.range (3 * c), ((pePoly c ca cm U V K).coeff j + ζ * S.coeff j + ζ1)) :
    ∃ bad : Finset F, bad.card ≤ 4 ∧ ∀ α, α ∉ bad → ∀ P1,
      ∃ i, hadamardEntry (povPePolys c ca cm γ ζ ζ1 α U V S K I N R P1) i ≠ 0 := by
  set W := pePoly c ca cm U V K with hW
  set k : ℕ → ℕ → F := fun i j => match j with
    | 0 => (if c ≤ i then U.coeff (i - c) * U.coeff i else 0)
        - (if c ≤ i ∧ i < c + cm then V.coeff (i - cm) else 0)
    | 1 => if c ≤ i ∧ i < c + ca then
          U.coeff (i - (c - cm)) + V.coeff (i - c) - V.coeff i else 0
    | 2 => I.coeff i * (U.coeff i + (if c + cm ≤ i then V.coeff (i - (c + cm)) else 0) - N.coeff i)
    | 3 => (if i = 0 then 1 else R.coeff (i - 1)) * (W.coeff i + ζ * γ ^ i + ζ1)
          - R.coeff i * (W.coeff i + ζ * S.coeff i + ζ1)
    | 4 => if i = 3 * c - 1 then R.coeff i - 1 else 0
    | _ => 0 with hk
  have hex : ∃ i, i < 3 * c ∧ ∃ j, j < 5 ∧ k i j ≠ 0 := by
    by_contra hc
    push Not at hc
    refine hbad ?_ ?_ ?_ ?_ ?_
    · intro j hj
      have := hc (c + j) (by omega) 0 (by omega)
      simp only [hk] at this
      rw [if_pos (by omega), if_pos (by omega), show c + j - c = j by omega,
        show c + j - cm = c - cm + j by omega] at this
      exact (sub_eq_zero.mp this).symm
    · intro j hj hj3
      have := hc j hj3 0 (by omega)
      simp only [hk] at this
      rwa [if_pos (by omega), if_neg (by omega), sub_zero] at this
    · intro j hj
      have := hc (c + j) (by omega) 1 (by omega)
      simp only [hk] at this
      rw [if_pos (by omega), show c + j - (c - cm) = cm + j by omega,
        show c + j - c = j by omega] at this
      exact (sub_eq_zero.mp this).symm
    · intro j hj
      exact hc j hj 2 (by omega)
    · apply grand_product_of_rec (3 * c) (by omega) _ _ R.coeff
      · intro j hj
        exact sub_eq_zero.mp (hc j hj 3 (by omega))
      · have := hc (3 * c - 1) (by omega) 4 (by omega)
        simp only [hk, if_true] at this
        exact sub_eq_zero.mp this
  obtain ⟨i, hi, j, hj, hne⟩ := hex
  set q : Polynomial F := ∑ m ∈ Finset.range 5, Polynomial.C (k i m) * X ^ m with hq
  obtain ⟨bad, b1, b2⟩ := bad_of_coeff q j 4 (by
      rw [hq, Polynomial.finsetSum_coeff]
      simp only [Polynomial.coeff_C_mul_X_pow]
      rw [Finset.sum_ite_eq, if_pos (Finset.mem_range.mpr hj)]
      exact hne) (by
      apply Polynomial.natDegree_sum_le_of_forall_le
      intro m hm
      refine (Polynomial.natDegree_C_mul_X_pow_le _ _).trans ?_
      have := Finset.mem_range.mp hm; omega)
  refine ⟨bad, b1, fun α hα P1 => ⟨i, ?_⟩⟩
  rw [povPe_entry_lt c ca cm hsz _ _ _ _ _ _ _ _ _ _ _ _ i hi]
  have := b2 α hα
  intro h0
  apply this
  rw [hq, Polynomial.eval_finsetSum]
  simp only [Finset.sum_range_succ, Finset.sum_range_zero, Polynomial.eval_mul, Polynomial.eval_C,
    Polynomial.eval_pow, Polynomial.eval_X]
  simp only [hk]
  linear_combination h0

theorem povPeGPoly_natDegree (c ca cm B D : ℕ) (γ ζ ζ1 α ω z y y1 y2 t : F)
    (U V S K P1 H1 H2 : Polynomial F) (hU : U.natDegree ≤ D) (hV : V.natDegree ≤ D)
    (hS : S.natDegree ≤ D)
    (hK : K.natDegree ≤ D) (hP1 : P1.natDegree ≤ D) (hH1 : H1.natDegree ≤ D)
    (hH2 : H2.natDegree ≤ D) :
    (povPeGPoly c ca cm B γ ζ ζ1 α ω z y y1 y2 t U V S K P1 H1 H2).natDegree ≤ D := by
  have : (povPeGPoly c ca cm B γ ζ ζ1 α ω z y y1 y2 t U V S K P1 H1 H2).degree
      < ((D + 1 : ℕ) : WithBot ℕ) := by
    rw [povPeGPoly_eq]
    have t := fun {p : Polynomial F} (h : p.natDegree ≤ D) (a : F) =>
      degLt_C_mul (degLt_of_natDegree h) a
    exact degLt_add (degLt_add (degLt_add (degLt_add (degLt_add (degLt_add (degLt_add
      (degLt_C _ _ (by omega))
      (t hU _)) (t hV _)) (t hK _)) (t hS _)) (t hP1 _)) (t hH1 _)) (t hH2 _)
  have h2 := Polynomial.degree_lt_iff_coeff_zero _ _ |>.mp this
  exact Polynomial.natDegree_le_iff_coeff_eq_zero.mpr (fun N hN => h2 N (by omega))

/-- Round-by-round rejection: for commitments to `U` and `V`, whatever polynomials of degree at most
`D` and values the prover sends after each challenge, only few values of the next challenge help:
`3c - 1` of `ζ`, `3c - 1` of `ζ1`, 4 of `α`, `D + c + cm + 1` of `ω`, `2D + 4c + cm - 1` of `z`, one of
`ξ`, `D + 1` trapdoors `β` and one value of the randomizer of `batch_check`.  For all others `verify`
rejects, with the key that `index` builds. -/
def PovPeRejects (G1 G2 GT : Type) [AddCommGroup G1] [Module F G1] [DecidableEq G1]
    [AddCommGroup G2] [Module F G2] [AddCommGroup GT] [Module F GT] [DecidableEq GT]
    (cs : POV F) (c D : ℕ) (γ : F) (ins : POVInstance F) (U V : Polynomial F) : Prop :=
    ∃ badζ : Finset F, badζ.card ≤ 3 * c - 1 ∧ ∀ ζ, ζ ∉ badζ →
    ∃ badζ1 : Finset F, badζ1.card ≤ 3 * c - 1 ∧ ∀ ζ1, ζ1 ∉ badζ1 →
    ∀ R : Polynomial F, R.natDegree ≤ D →
    ∃ badα : Finset F, badα.card ≤ 4 ∧ ∀ α, α ∉ badα →
    ∀ P1 : Polynomial F, P1.natDegree ≤ D →
    ∃ badω : Finset F, badω.card ≤ D + c + cs.nmul + 1 ∧ ∀ ω, ω ∉ badω →
    ∀ H1 H2 : Polynomial F, H1.natDegree ≤ D → H2.natDegree ≤ D →
    ∃ badz : Finset F, badz.card ≤ 2 * D + 4 * c + cs.nmul - 1 ∧ ∀ z, z ∉ badz →
    ∀ y y2 : F,
    ∃ badξ : Finset F, badξ.card ≤ 1 ∧ ∀ ξ, ξ ∉ badξ → ∀ ξ2,
    ∀ Q1 Q2 : Polynomial F, Q1.natDegree ≤ D → Q2.natDegree ≤ D →
    ∃ badβ : Finset F, badβ.card ≤ D + 1 ∧ ∀ β, β ∉ badβ → ∃ r0 : F,
    ∀ (env : Env F G1 G2 GT) (g : G1) (h : G2), env.rngU128 ≠ r0 → env.gamma = γ → g ≠ 0 →
    NonDegenerate env.e h →
    ∀ (pp : UniversalParams G1 G2), kzgSetup D β g h = .ok pp →
    ∀ pk vk, povPeIndex γ pp cs = .ok (pk, vk) →
      let S := permPoly (3 * c) γ (cs.wires.map (fun p => Equiv.swap p.1 p.2)).prod
      let K := polyOf cs.consts
      let cm := fun p : Polynomial F => p.eval β • g
      let it := fun p : Polynomial F => (Item.cm (cm p) : Item F G1)
      let pre := fun (first : F) (l : List (Item F G1)) =>
        [.fld first, .nats ins.idx, .flds ins.vals, it S, it K] ++ l
      let G := povPeGPoly c cs.nadd cs.nmul (D + 1) γ ζ ζ1 α ω z y ((selPoly ins.idx).eval (ω / z)) y2
        ((instPoly ins.idx ins.vals).eval z) U V S K P1 H1 H2
      env.hash (pre 1 [it U, it V]) = ζ →
      env.hash (pre 2 [it U, it V]) = ζ1 →
      env.hash (pre 1 [it U, it V, it R]) = α →
      env.hash (pre 1 [it U, it V, it R, it P1]) = ω →
      env.hash (pre 1 [it U, it V, it R, it P1, it H1, it H2]) = z →
      env.hash (pre 1 [it U, it V, it R, it P1, it H1, it H2, it G, .fld (ω / z), .fld y, .fld y2,
        .fld z]) = ξ →
      env.hash (pre 2 [it U, it V, it R, it P1, it H1, it H2, it G, .fld (ω / z), .fld y, .fld y2,
        .fld z]) = ξ2 →
      povPeVerify env vk ins ⟨cm U, cm V, cm R, cm P1, cm H1, cm H2, y, y2, cm Q1, cm Q2⟩ ≠ .ok ()

set_option maxHeartbeats 2000000 in
theorem povPe_rejects (cs : POV F) (c D : ℕ) (hc : c = cs.nmul + cs.nadd + cs.consts.length)
    (hne : cs.consts ≠ []) (hD : 4 * c + cs.nmul ≤ D) (γ : F)
    (hγ : ∀ i < 3 * c, ∀ j < 3 * c, γ ^ i = γ ^ j → i = j)
    (hwr : ∀ p ∈ cs.wires, p.1 < 3 * c ∧ p.2 < 3 * c)
    (ins : POVInstance F) (hir : ∀ i ∈ ins.idx, i < 3 * c)
    (U V : Polynomial F) (dU : U.natDegree ≤ D) (dV : V.natDegree ≤ D)
    (hbad : ¬ PovPeEqs cs c ins U V) : PovPeRejects G1 G2 GT cs c D γ ins U V := by
  have hcl : 0 < cs.consts.length := List.length_pos_of_ne_nil hne
  have hγ0 : γ ≠ 0 := by
    rintro rfl
    have := hγ 1 (by omega) 2 (by omega) (by simp)
    omega
  set σ := (cs.wires.map (fun p => Equiv.swap p.1 p.2)).prod with hσ
  have hσr := perm_lt cs.wires (3 * c) hwr
  rw [← hσ] at hσr
  set S := permPoly (3 * c) γ σ with hS
  set K := polyOf cs.consts with hK
  set I : Polynomial F := selPoly ins.idx with hI
  set N := instPoly ins.idx ins.vals with hN
  set W := pePoly c cs.nadd cs.nmul U V K with hW
  have hSc : ∀ j, j < 3 * c → S.coeff j = γ ^ σ j := by
    intro j hj
    rw [hS, permPoly, Polynomial.finsetSum_coeff]
    simp only [Polynomial.coeff_C_mul_X_pow]
    rw [Finset.sum_ite_eq, if_pos (Finset.mem_range.mpr hj)]
  have hζ : ∃ badζ : Finset F, badζ.card ≤ 3 * c - 1 ∧ ∀ ζ, ζ ∉ badζ →
      ∃ badζ1 : Finset F, badζ1.card ≤ 3 * c - 1 ∧ ∀ ζ1, ζ1 ∉ badζ1 →
        (∀ j, j < cs.nmul → V.coeff (c - cs.nmul + j) = U.coeff j * U.coeff (c + j)) →
        (∀ j, c + cs.nmul ≤ j → j < 3 * c → U.coeff (j - c) * U.coeff j = 0) →
        (∀ j, j < cs.nadd → V.coeff (c + j) = U.coeff (cs.nmul + j) + V.coeff j) →
        (∀ j, j < 3 * c → I.coeff j * (U.coeff j
          + (if c + cs.nmul ≤ j then V.coeff (j - (c + cs.nmul)) else 0) - N.coeff j) = 0) →
        ∏ j ∈ Finset.range (3 * c), (W.coeff j + ζ * γ ^ j + ζ1)
          ≠ ∏ j ∈ Finset.range (3 * c), (W.coeff j + ζ * S.coeff j + ζ1) := by
    by_cases hw : ∃ j, j < 3 * c ∧ W.coeff (σ j) ≠ W.coeff j
    · obtain ⟨b, b1, b2⟩ := C42_grand_product (3 * c) γ hγ σ hσr W.coeff hw
      refine ⟨b, b1, fun ζ hζ => ?_⟩
      obtain ⟨b', b3, b4⟩ := b2 ζ hζ
      refine ⟨b', b3, fun ζ1 hζ1 _ _ _ _ heq => b4 ζ1 hζ1 ?_⟩
      rw [heq]
      apply Finset.prod_congr rfl
      intro j hj
      rw [hSc j (Finset.mem_range.mp hj)]
    · push Not at hw
      refine ⟨∅, by simp, fun ζ _ => ⟨∅, by simp, fun ζ1 _ h1 h2 h3 h4 => ?_⟩⟩
      exact absurd ⟨h1, h2, h3, h4, hw⟩ hbad
  obtain ⟨badζ, c1, c2⟩ := hζ
  refine ⟨badζ, c1, fun ζ hζ => ?_⟩
  obtain ⟨badζ1, c3, c4⟩ := c2 ζ hζ
  refine ⟨badζ1, c3, fun ζ1 hζ1 R dR => ?_⟩
  obtain ⟨badα, a1, a2⟩ := povPe_alpha_sound c cs.nadd cs.nmul (by omega) γ ζ ζ1 U V S K I N R (c4 ζ1 hζ1)
  refine ⟨badα, a1, fun α hα P1 dP1 => ?_⟩
  have eU := degLt_of_natDegree dU
  have eV := degLt_of_natDegree dV
  have eR := degLt_of_natDegree dR
  have eP1 := degLt_of_natDegree dP1
  have fI : I.degree < ((3 * c : ℕ) : WithBot ℕ) := degree_selPoly _ _ hir
  have fN : N.degree < ((3 * c : ℕ) : WithBot ℕ) := degree_instPoly _ _ _ hir
  have fS : S.degree < ((3 * c : ℕ) : WithBot ℕ) := degree_permPoly _ _ _
  have fK : K.degree < ((cs.consts.length : ℕ) : WithBot ℕ) := degree_polyOf_lt cs.consts
  have hA := povPePolys_degA c cs.nadd cs.nmul D (by omega) γ ζ ζ1 α U V S K I N R P1 (by omega) eU
    (degLt_mono fI (by omega)) eR
  have hB := povPePolys_degB c cs.nadd cs.nmul D (by omega) γ ζ ζ1 α U V S K I N R P1 (by omega) eU eV
    (degLt_mono fS (by omega)) (degLt_mono fK (by omega)) (D + 3 * c - 1) (degLt_mono fN (by omega))
    (D - 1) (degLt_mono eP1 (by omega)) (by omega) (by omega)
  obtain ⟨badω, o1, o2⟩ := C48_omega (povPePolys c cs.nadd cs.nmul γ ζ ζ1 α U V S K I N R P1)
    (D + (c + cs.nmul) + 1) hA (a2 α hα P1)
  refine ⟨insert 0 badω, (Finset.card_insert_le _ _).trans (by omega), fun ω hω H1 H2 dH1 dH2 => ?_⟩
  have hω0 : ω ≠ 0 := fun h => hω (by rw [h]; exact Finset.mem_insert_self _ _)
  have hω : ω ∉ badω := fun h => hω (Finset.mem_insert_of_mem h)
  obtain ⟨badz, z1, z2⟩ := C48_z (povPePolys c cs.nadd cs.nmul γ ζ ζ1 α U V S K I N R P1) ω (o2 ω hω) (D + 1)
    (D + (c + cs.nmul)) (D + 3 * c - 1) (by omega) hA hB H1 H2 (degLt_of_natDegree dH1)
    (degLt_mono (degLt_of_natDegree dH2) (by omega))
  refine ⟨badz, by omega, fun z hz y y2 => ?_⟩
  have hsz : cs.getSize.n = c := by show _ + _ + _ = _; omega
  by_cases hz3 : z = 0 ∨ z = 1 ∨ z = ω ∨ γ * z = 1
  · refine ⟨∅, by simp, fun ξ _ ξ2 Q1 Q2 _ _ => ⟨∅, by simp, ?_⟩⟩
    intro β _
    refine ⟨0, ?_⟩
    intro env g h _ hγe hg hnd' pp hpp pk vk hidx S' K' cm it pre G e1 e2 e3 e4 e5 e6 e7 hver
    obtain ⟨sigma, kvk, ls, hvk, -, hSs, hidx'⟩ := povPeIndex_ok γ β hγ0 g h D pp hpp cs c hc hne hwr hD
    rw [hidx'] at hidx
    obtain ⟨-, rfl⟩ := Prod.mk.inj (Except.ok.inj hidx)
    have hSs : polyOf sigma = S := hSs
    have f1 : env.hash (povPrefix 1 ins (S.eval β • g) (K.eval β • g) ++ [.cm (cm U), .cm (cm V)]) = ζ := e1
    have f2 : env.hash (povPrefix 2 ins (S.eval β • g) (K.eval β • g) ++ [.cm (cm U), .cm (cm V)]) = ζ1 := e2
    have f3 : env.hash (povPrefix 1 ins (S.eval β • g) (K.eval β • g) ++ [.cm (cm U), .cm (cm V), .cm (cm R)]) = α := e3
    have f4 : env.hash (povPrefix 1 ins (S.eval β • g) (K.eval β • g)
      ++ [.cm (cm U), .cm (cm V), .cm (cm R), .cm (cm P1)]) = ω := e4
    have f5 : env.hash (povPrefix 1 ins (S.eval β • g) (K.eval β • g)
      ++ [.cm (cm U), .cm (cm V), .cm (cm R), .cm (cm P1), .cm (cm H1), .cm (cm H2)]) = z := e5
    by_cases hz0 : z = 0
    · simp only [povPeVerify, hSs, ← hK, f1, f2, f3, f4, f5] at hver
      rw [hz0, divR_zero] at hver
      cases hver
    · simp only [povPeVerify, hSs, ← hK, f1, f2, f3, f4, f5, divR_ok hz0, hγe,
        povPeCoeffs_bad (D + 1) cs.getSize γ ζ ζ1 α ω z _ _ _ _ hz3, bind, Except.bind] at hver
      cases hver
  · push Not at hz3
    obtain ⟨h0, h1, h2, h3⟩ := hz3
    set G := povPeGPoly c cs.nadd cs.nmul (D + 1) γ ζ ζ1 α ω z y (I.eval (ω / z)) y2
        (N.eval z) U V S K P1 H1 H2 with hG
    have hwrong : (∃ i, i < [U, R].length ∧
        (([U, R] : List (Polynomial F)).getD i 0).eval (ω / z) ≠ [y, y2].getD i 0) ∨
        (∃ i, i < [G].length ∧ (([G] : List (Polynomial F)).getD i 0).eval z ≠ [(0 : F)].getD i 0) := by
      by_contra hc
      push Not at hc
      obtain ⟨c1, c2⟩ := hc
      have w0 : U.eval (ω / z) = y := c1 0 (by simp)
      have w1 : R.eval (ω / z) = y2 := c1 1 (by simp)
      have g0 : G.eval z = 0 := c2 0 (by simp)
      rw [hG, ← w0, ← w1, povPeG_eval] at g0
      exact z2 z hz h0 (sub_eq_zero.mp g0)
    have dG : G.natDegree ≤ D := povPeGPoly_natDegree c cs.nadd cs.nmul (D + 1) D γ ζ ζ1 α ω z y _ y2 _ U V S K
      P1 H1 H2 dU dV (natDegree_of_degLt fS (by omega)) (natDegree_of_degLt fK (by omega)) dP1 dH1 dH2
    obtain ⟨badξ, badξ2, x1, x2, x3⟩ := batch_final (G1 := G1) (G2 := G2) (GT := GT) [U, R] [G]
      [y, y2] [0] rfl rfl (ω / z) z D (by
        intro f hf
        simp only [List.mem_cons, List.not_mem_nil, or_false] at hf
        rcases hf with rfl | rfl <;> assumption) (by
        intro f hf
        simp only [List.mem_cons, List.not_mem_nil, or_false] at hf
        rcases hf with rfl; exact dG) hwrong
    have hx2 : badξ2 = ∅ := Finset.card_eq_zero.mp (by simpa using x2)
    subst hx2
    refine ⟨badξ, by simpa using x1, fun ξ hξ ξ2 Q1 Q2 dQ1 dQ2 => ?_⟩
    obtain ⟨badβ, y1', y2'⟩ := x3 ξ hξ ξ2 (by simp) Q1 Q2 dQ1 dQ2
    refine ⟨badβ, y1', ?_⟩
    intro β hβ
    obtain ⟨r0, hr0⟩ := y2' β hβ
    refine ⟨r0, ?_⟩
    intro env g h hr hγe hg hnd' pp hpp pk vk hidx S' K' cm it pre G' e1 e2 e3 e4 e5 e6 e7 hver
    obtain ⟨sigma, kvk, ls, hvk, -, hSs, hidx'⟩ := povPeIndex_ok γ β hγ0 g h D pp hpp cs c hc hne hwr hD
    rw [hidx'] at hidx
    obtain ⟨-, rfl⟩ := Prod.mk.inj (Except.ok.inj hidx)
    have hSs : polyOf sigma = S := hSs
    have f1 : env.hash (povPrefix 1 ins (S.eval β • g) (K.eval β • g) ++ [.cm (cm U), .cm (cm V)]) = ζ := e1
    have f2 : env.hash (povPrefix 2 ins (S.eval β • g) (K.eval β • g) ++ [.cm (cm U), .cm (cm V)]) = ζ1 := e2
    have f3 : env.hash (povPrefix 1 ins (S.eval β • g) (K.eval β • g) ++ [.cm (cm U), .cm (cm V), .cm (cm R)]) = α := e3
    have f4 : env.hash (povPrefix 1 ins (S.eval β • g) (K.eval β • g)
      ++ [.cm (cm U), .cm (cm V), .cm (cm R), .cm (cm P1)]) = ω := e4
    have f5 : env.hash (povPrefix 1 ins (S.eval β • g) (K.eval β • g)
      ++ [.cm (cm U), .cm (cm V), .cm (cm R), .cm (cm P1), .cm (cm H1), .cm (cm H2)]) = z := e5
    have f6 : env.hash (povPrefix 1 ins (S.eval β • g) (K.eval β • g)
      ++ povPeXiItems (cm U) (cm V) (cm R) (cm P1) (cm H1) (cm H2) (cm G) (ω / z) y y2 z) = ξ := e6
    have f7 : env.hash (povPrefix 2 ins (S.eval β • g) (K.eval β • g)
      ++ povPeXiItems (cm U) (cm V) (cm R) (cm P1) (cm H1) (cm H2) (cm G) (ω / z) y y2 z) = ξ2 := e7
    have hcmg : povPeCmG g (povPeK c cs.nadd cs.nmul (D + 1) γ ζ ζ1 α ω z y (I.eval (ω / z)) y2 (N.eval z))
        (cm U) (cm V) (K.eval β • g) (S.eval β • g) (cm P1) (cm H1) (cm H2) = cm G :=
      povPeK_eval c cs.nadd cs.nmul (D + 1) γ ζ ζ1 α ω z y (I.eval (ω / z)) y2 (N.eval z) β U V S K P1 H1 H2 g
    have hvkg : kvk.g = g := hvk.1
    simp only [povPeVerify, hSs, ← hK, f1, f2, f3, f4, f5, divR_ok h0, hγe,
      evalSparse01_eq ins.idx _ (Or.inl (div_ne_zero hω0 h0)), evalSparse_eq ins.idx ins.vals z h0,
      bind, Except.bind] at hver
    simp only [← hI, ← hN, povPeCoeffs_ok c cs.nadd cs.nmul (D + 1) cs.getSize hsz rfl rfl (by omega) γ ζ ζ1 α
      ω z _ _ _ _ h0 h1 h2 h3, hvkg, hcmg, f6, f7] at hver
    have hf := hr0 env.rngU128 hr env.e g hg h hnd' kvk hvk
    simp only [List.map_cons, List.map_nil] at hf
    rw [show batchCheck env.e kvk [cm U, cm R] [cm G] (ω / z) z ξ ξ2 [y, y2] [0] (cm Q1)
      (cm Q2) env.rngU128 = false from hf] at hver
    simp at hver

/-- If all equations hold, the assignment that can be read off satisfies what the argument enforces. -/
theorem povPe_enforced_of_eqs (cs : POV F) (c : ℕ) (hc : c = cs.nmul + cs.nadd + cs.consts.length)
    (hne : cs.consts ≠ [])
    (hforest : Forest cs.wires) (hwr : ∀ p ∈ cs.wires, p.1 < 3 * c ∧ p.2 < 3 * c)
    (ins : POVInstance F) (hlen : ins.idx.length = ins.vals.length) (hnd : ins.idx.Nodup)
    (hir : ∀ i ∈ ins.idx, i < 3 * c) (U V : Polynomial F) (h : PovPeEqs cs c ins U V) :
    PovPeEnforced cs ins (povRead c (pePoly c cs.nadd cs.nmul U V (polyOf cs.consts))) := by
  have hcl : 0 < cs.consts.length := List.length_pos_of_ne_nil hne
  obtain ⟨h1, h2, h3, h4, hσ⟩ := h
  set W := pePoly c cs.nadd cs.nmul U V (polyOf cs.consts) with hW
  have hWc : ∀ j, W.coeff j = U.coeff j + (if c + cs.nmul ≤ j then V.coeff (j - (c + cs.nmul)) else 0)
      + (if 2 * c + cs.nadd + cs.nmul ≤ j then
        (polyOf cs.consts).coeff (j - (2 * c + cs.nadd + cs.nmul)) else 0) :=
    fun j => coeff_pePoly _ _ _ _ _ _ j
  have hsz : cs.getSize.n = c := by show _ + _ + _ = _; omega
  have g0 : ∀ j, j < c → (povRead c W).w0.getD j 0 = W.coeff j := by
    intro j hj; simp [povRead, hj]
  have g1 : ∀ j, j < c → (povRead c W).w1.getD j 0 = W.coeff (c + j) := by
    intro j hj; simp [povRead, hj]
  have g2 : ∀ j, j < c → (povRead c W).w2.getD j 0 = W.coeff (2 * c + j) := by
    intro j hj; simp [povRead, hj]
  have gv : ∀ j, j < 3 * c → (povVec (povRead c W))[j]? = some (W.coeff j) := by
    intro j hj; rw [povVec_read]; simp [hj]
  refine ⟨?_, ?_, ?_⟩
  · intro i hi hb
    have hx := h2 (2 * c + i) (by omega) (by omega)
    rw [show 2 * c + i - c = c + i by omega] at hx
    have hWi : W.coeff i = U.coeff i := by
      rw [hWc, if_neg (by omega), if_neg (by omega), add_zero, add_zero]
    have hWci : W.coeff (c + i) = U.coeff (c + i) := by
      rw [hWc, if_neg (by omega), if_neg (by omega), add_zero, add_zero]
    have hW2 : W.coeff (2 * c + i) = U.coeff (2 * c + i) + V.coeff (c - cs.nmul + i) := by
      rw [hWc, if_pos (by omega), if_neg (by omega), add_zero,
        show 2 * c + i - (c + cs.nmul) = c - cs.nmul + i by omega]
    rw [g1 i (by omega), hWci] at hb
    rw [g0 i (by omega), g1 i (by omega), g2 i (by omega), hWi, hWci, hW2,
      (mul_eq_zero.mp hx).resolve_left hb, h1 i hi]
    ring
  · have hcopy := (C11_forest_iff cs.wires hforest (fun i => if i < 3 * c then W.coeff i else 0)).mp (by
      intro i
      by_cases hi : i < 3 * c
      · have h1 := perm_lt cs.wires (3 * c) hwr i hi
        beta_reduce
        rw [if_pos hi, if_pos h1, hσ i hi]
      · rw [perm_fix_ge cs.wires (3 * c) hwr i (by omega)])
    intro q hq
    have h1 := hcopy q hq
    obtain ⟨a, b⟩ := hwr q hq
    simp only [if_pos a, if_pos b] at h1
    exact ⟨_, gv _ a, by rw [gv _ b, h1]⟩
  · intro q hq
    have hi := hir q.1 (List.of_mem_zip hq).1
    rw [gv _ hi]
    have := h4 q.1 hi
    rw [coeff_selPoly _ hnd, if_pos (List.of_mem_zip hq).1, one_mul,
      coeff_instPoly _ _ hlen hnd q hq] at this
    rw [hWc, sub_eq_zero.mp this, hsz]
    simp only [coeff_polyOf]

/-- **C71.** What the prover-efficient POV verifier enforces.  Let the wires form a forest of existing
positions, the public positions be existing and distinct, and the powers of `γ` distinct.  If the
assignment that can be read off the committed `U`, `V` and the constants violates a multiplication gate
with non-zero right input, a copy constraint, or, at a public position, "value = claimed value (plus
the constant at that position, if any)", then a prover whose group elements are commitments to
polynomials of degree at most `D` is rejected except for few challenges (`PovPeRejects`). -/
theorem C71_enforced (cs : POV F) (c D : ℕ) (hc : c = cs.nmul + cs.nadd + cs.consts.length)
    (hne : cs.consts ≠ []) (hD : 4 * c + cs.nmul ≤ D) (γ : F)
    (hγ : ∀ i < 3 * c, ∀ j < 3 * c, γ ^ i = γ ^ j → i = j)
    (hforest : Forest cs.wires) (hwr : ∀ p ∈ cs.wires, p.1 < 3 * c ∧ p.2 < 3 * c)
    (ins : POVInstance F) (hlen : ins.idx.length = ins.vals.length) (hnd : ins.idx.Nodup)
    (hir : ∀ i ∈ ins.idx, i < 3 * c)
    (U V : Polynomial F) (dU : U.natDegree ≤ D) (dV : V.natDegree ≤ D)
    (hbad : ¬ PovPeEnforced cs ins
      (povRead c (pePoly c cs.nadd cs.nmul U V (polyOf cs.consts)))) :
    PovPeRejects G1 G2 GT cs c D γ ins U V :=
  povPe_rejects cs c D hc hne hD γ hγ hwr ins hir U V dU dV (fun h => hbad
    (povPe_enforced_of_eqs cs c hc hne hforest hwr ins hlen hnd hir U V h))

/-- **C73.** Full soundness under a condition on the committed polynomials that the verifier does not
check: if `U` has no coefficients at `c + cm, …, 3c - 1`, `V` none at `c + ca, …, 2c - cm - 1` and no
constant other than zero is public, then a prover committing to an assignment that `satisfy` does not
accept is rejected except for few challenges. -/
theorem C73_sound_if_padded (cs : POV F) (c D : ℕ)
    (hc : c = cs.nmul + cs.nadd + cs.consts.length)
    (hne : cs.consts ≠ []) (hD : 4 * c + cs.nmul ≤ D) (γ : F)
    (hγ : ∀ i < 3 * c, ∀ j < 3 * c, γ ^ i = γ ^ j → i = j)
    (hforest : Forest cs.wires) (hwr : ∀ p ∈ cs.wires, p.1 < 3 * c ∧ p.2 < 3 * c)
    (ins : POVInstance F) (hlen : ins.idx.length = ins.vals.length) (hnd : ins.idx.Nodup)
    (hir : ∀ i ∈ ins.idx, i < 3 * c)
    (hpub : ∀ i ∈ ins.idx, 2 * c + cs.nadd + cs.nmul ≤ i →
      cs.consts.getD (i - (2 * c + cs.nadd + cs.nmul)) 0 = 0)
    (U V : Polynomial F) (dU : U.natDegree ≤ D) (dV : V.natDegree ≤ D)
    (hU : ∀ j, c + cs.nmul ≤ j → j < 3 * c → U.coeff j = 0)
    (hV : ∀ j, c + cs.nadd ≤ j → j < 2 * c - cs.nmul → V.coeff j = 0)
    (hbad : cs.satisfy ins (povRead c (pePoly c cs.nadd cs.nmul U V (polyOf cs.consts)))
      ≠ .ok true) :
    PovPeRejects G1 G2 GT cs c D γ ins U V := by
  have hcl : 0 < cs.consts.length := List.length_pos_of_ne_nil hne
  refine povPe_rejects cs c D hc hne hD γ hγ hwr ins hir U V dU dV (fun h => hbad ?_)
  have he := povPe_enforced_of_eqs cs c hc hne hforest hwr ins hlen hnd hir U V h
  obtain ⟨h1, h2, h3, h4, hσ⟩ := h
  set W := pePoly c cs.nadd cs.nmul U V (polyOf cs.consts) with hW
  have hWc : ∀ j, W.coeff j = U.coeff j + (if c + cs.nmul ≤ j then V.coeff (j - (c + cs.nmul)) else 0)
      + (if 2 * c + cs.nadd + cs.nmul ≤ j then
        (polyOf cs.consts).coeff (j - (2 * c + cs.nadd + cs.nmul)) else 0) :=
    fun j => coeff_pePoly _ _ _ _ _ _ j
  have hsz : cs.getSize.n = c := by show _ + _ + _ = _; omega
  have g0 : ∀ j, j < c → (povRead c W).w0.getD j 0 = W.coeff j := by
    intro j hj; simp [povRead, hj]
  have g1 : ∀ j, j < c → (povRead c W).w1.getD j 0 = W.coeff (c + j) := by
    intro j hj; simp [povRead, hj]
  have g2 : ∀ j, j < c → (povRead c W).w2.getD j 0 = W.coeff (2 * c + j) := by
    intro j hj; simp [povRead, hj]
  have hshape : PovShape cs (povRead c W) := by
    refine ⟨?_, ?_, ?_⟩ <;> simp [povRead, hc]
  refine (C27_satisfy cs ins _ hshape).1.mpr ⟨⟨?_, ?_, ?_⟩, he.2.1, ?_⟩
  · intro i hi
    have hWi : W.coeff i = U.coeff i := by
      rw [hWc, if_neg (by omega), if_neg (by omega), add_zero, add_zero]
    have hWci : W.coeff (c + i) = U.coeff (c + i) := by
      rw [hWc, if_neg (by omega), if_neg (by omega), add_zero, add_zero]
    have hW2 : W.coeff (2 * c + i) = V.coeff (c - cs.nmul + i) := by
      rw [hWc, if_pos (by omega), if_neg (by omega), add_zero,
        show 2 * c + i - (c + cs.nmul) = c - cs.nmul + i by omega,
        hU (2 * c + i) (by omega) (by omega), zero_add]
    rw [g0 i (by omega), g1 i (by omega), g2 i (by omega), hWi, hWci, hW2, h1 i hi]
  · intro i hi
    have hWi : W.coeff (cs.nmul + i) = U.coeff (cs.nmul + i) := by
      rw [hWc, if_neg (by omega), if_neg (by omega), add_zero, add_zero]
    have hWci : W.coeff (c + (cs.nmul + i)) = V.coeff i := by
      rw [hWc, if_pos (by omega), if_neg (by omega), add_zero,
        show c + (cs.nmul + i) - (c + cs.nmul) = i by omega,
        hU (c + (cs.nmul + i)) (by omega) (by omega), zero_add]
    have hW2 : W.coeff (2 * c + (cs.nmul + i)) = V.coeff (c + i) := by
      rw [hWc, if_pos (by omega), if_neg (by omega), add_zero,
        show 2 * c + (cs.nmul + i) - (c + cs.nmul) = c + i by omega,
        hU (2 * c + (cs.nmul + i)) (by omega) (by omega), zero_add]
    rw [g0 _ (by omega), g1 _ (by omega), g2 _ (by omega), hWi, hWci, hW2, h3 i hi]
  · intro i hi
    rw [g2 _ (by omega), hWc, if_pos (by omega), if_pos (by omega), hU _ (by omega) (by omega),
      hV _ (by omega) (by omega), coeff_polyOf,
      show 2 * c + (cs.nmul + cs.nadd + i) - (2 * c + cs.nadd + cs.nmul) = i by omega]
    ring
  · intro q hq
    have := he.2.2 q hq
    rw [this, hsz]
    split_ifs with h
    · rw [hpub q.1 (List.of_mem_zip hq).1 h, add_zero]
    · rw [add_zero]

/-! ## C74: what `verify` checks -/

/-- **C74.** `verify` accepts iff the challenge `z` is none of `0`, `1`, `ω`, `1/γ` and the batched
opening equation holds for the commitments `U`, `R` at `ω/z` with the claimed values and for the
combination `povPeComb` of the commitments at `z` with value 0 (`ω = 0` excluded when position 0 is
public). -/
theorem C74_accepts_iff (env : Env F G1 G2 GT) (β : F) (g : G1) (h : G2)
    (hnd : NonDegenerate env.e h) (vk : PovPeVK G1 G2) (hvk : HonestVk β g h vk.kzgVk)
    (hsz : vk.size.nadd + vk.size.nmul < vk.size.n) (x : POVInstance F) (π : PovPeProof F G1) :
    let pre := fun (first : F) (l : List (Item F G1)) =>
      [.fld first, .nats x.idx, .flds x.vals, .cm vk.cmSigma, .cm vk.cmD] ++ l
    let ζ := env.hash (pre 1 [.cm π.cmU, .cm π.cmV])
    let ζ1 := env.hash (pre 2 [.cm π.cmU, .cm π.cmV])
    let α := env.hash (pre 1 [.cm π.cmU, .cm π.cmV, .cm π.cmR])
    let ω := env.hash (pre 1 [.cm π.cmU, .cm π.cmV, .cm π.cmR, .cm π.cmT1])
    let z := env.hash (pre 1 [.cm π.cmU, .cm π.cmV, .cm π.cmR, .cm π.cmT1, .cm π.cmH1, .cm π.cmH2])
    let cmG := povPeComb vk.size.n vk.size.nadd vk.size.nmul vk.degreeBound env.gamma ζ ζ1 α ω z π.y
      ((selPoly x.idx).eval (ω / z)) π.y2 ((instPoly x.idx x.vals).eval z) g π.cmU π.cmV vk.cmSigma vk.cmD
      π.cmT1 π.cmH1 π.cmH2
    let ξ := env.hash (pre 1 [.cm π.cmU, .cm π.cmV, .cm π.cmR, .cm π.cmT1, .cm π.cmH1, .cm π.cmH2, .cm cmG,
      .fld (ω / z), .fld π.y, .fld π.y2, .fld z])
    (ω ≠ 0 ∨ 0 ∉ x.idx) →
    (povPeVerify env vk x π = .ok () ↔
      z ≠ 0 ∧ z ≠ 1 ∧ z ≠ ω ∧ env.gamma * z ≠ 1 ∧
      (π.cmU + ξ • π.cmR - (π.y + ξ * π.y2) • g - (β - ω / z) • π.capW)
        + env.rngU128 • (cmG - (β - z) • π.capW1) = 0) := by
  intro pre ζ ζ1 α ω z cmG ξ hω0
  have hvkg : vk.kzgVk.g = g := hvk.1
  have f1 : env.hash (povPrefix 1 x vk.cmSigma vk.cmD ++ [.cm π.cmU, .cm π.cmV]) = ζ := rfl
  have f2 : env.hash (povPrefix 2 x vk.cmSigma vk.cmD ++ [.cm π.cmU, .cm π.cmV]) = ζ1 := rfl
  have f3 : env.hash (povPrefix 1 x vk.cmSigma vk.cmD ++ [.cm π.cmU, .cm π.cmV, .cm π.cmR]) = α := rfl
  have f4 : env.hash (povPrefix 1 x vk.cmSigma vk.cmD ++ [.cm π.cmU, .cm π.cmV, .cm π.cmR, .cm π.cmT1]) = ω := rfl
  have f5 : env.hash (povPrefix 1 x vk.cmSigma vk.cmD
    ++ [.cm π.cmU, .cm π.cmV, .cm π.cmR, .cm π.cmT1, .cm π.cmH1, .cm π.cmH2]) = z := rfl
  have f6 : env.hash (povPrefix 1 x vk.cmSigma vk.cmD
    ++ povPeXiItems π.cmU π.cmV π.cmR π.cmT1 π.cmH1 π.cmH2 cmG (ω / z) π.y π.y2 z) = ξ := rfl
  simp only [povPeVerify, f1, f2, f3, f4, f5]
  by_cases h0 : z = 0
  · rw [h0, divR_zero]
    constructor
    · intro h; cases h
    · rintro ⟨h, -⟩; exact absurd rfl h
  simp only [divR_ok h0, evalSparse01_eq x.idx _ (hω0.imp (fun h => div_ne_zero h h0) id),
    evalSparse_eq x.idx x.vals z h0, bind, Except.bind]
  by_cases hb : z = 1 ∨ z = ω ∨ env.gamma * z = 1
  · simp only [povPeCoeffs_bad vk.degreeBound vk.size env.gamma ζ ζ1 α ω z _ _ _ _ (Or.inr hb)]
    constructor
    · intro h; cases h
    · rintro ⟨-, h1, h2, h3, -⟩
      rcases hb with h | h | h
      · exact absurd h h1
      · exact absurd h h2
      · exact absurd h h3
  push Not at hb
  obtain ⟨h1, h2, h3⟩ := hb
  simp only [povPeCoeffs_ok vk.size.n vk.size.nadd vk.size.nmul vk.degreeBound vk.size rfl rfl rfl hsz
    env.gamma ζ ζ1 α ω z _ _ _ _ h0 h1 h2 h3, hvkg, povPeComb_eq]
  rw [show povPeComb vk.size.n vk.size.nadd vk.size.nmul vk.degreeBound env.gamma ζ ζ1 α ω z π.y
      ((selPoly x.idx).eval (ω / z)) π.y2 ((instPoly x.idx x.vals).eval z) g π.cmU π.cmV vk.cmSigma vk.cmD
      π.cmT1 π.cmH1 π.cmH2 = cmG from rfl, f6]
  have hif : ∀ b : Bool, (if b then (.ok () : Res Unit) else .error .verificationFail) = .ok ()
      ↔ b = true := by intro b; cases b <;> simp
  rw [hif, C22_batch_iff env.e β g h hnd vk.kzgVk hvk [π.cmU, π.cmR] [cmG] [π.y, π.y2] [0] rfl rfl]
  have e1 : combine ξ [π.cmU, π.cmR] = π.cmU + ξ • π.cmR := by
    simp [combine, List.zipIdx]
  have e2 : combine ξ [π.y, π.y2] = π.y + ξ * π.y2 := by
    simp [combine, List.zipIdx]
  have e3 : ∀ t : F, combine t [cmG] = cmG := by intro t; simp [combine, List.zipIdx]
  have e4 : ∀ t : F, combine t [(0 : F)] = 0 := by intro t; simp [combine, List.zipIdx]
  rw [e1, e2, e3, e4, zero_smul, sub_zero]
  constructor
  · intro h; exact ⟨h0, h1, h2, h3, h⟩
  · rintro ⟨-, -, -, -, h⟩; exact h

/-! ## C75: forgery with a known randomizer -/

/-- **C75.** Universal forgery of prover-efficient POV proofs with a known randomizer: for every key and every
instance, true or false, and every choice of the commitments and values of a proof whose challenges
satisfy `z ∉ {0, 1, ω, 1/γ}` and `z² ≠ ω`, the two opening proofs can be chosen (as a function of the
known randomizer, without the trapdoor) so that `verify` accepts. -/
theorem C75_forgery (env : Env F G1 G2 GT) (g : G1) (size : POVSize) (capD : ℕ)
    (hsz : size.nadd + size.nmul < size.n) (x : POVInstance F)
    (cmS cmK cmU cmV cmR cmT1 cmH1 cmH2 : G1) (y y2 : F) (hr : env.rngU128 ≠ 0) :
    let pre := fun (first : F) (l : List (Item F G1)) =>
      [.fld first, .nats x.idx, .flds x.vals, .cm cmS, .cm cmK] ++ l
    let ω := env.hash (pre 1 [.cm cmU, .cm cmV, .cm cmR, .cm cmT1])
    let z := env.hash (pre 1 [.cm cmU, .cm cmV, .cm cmR, .cm cmT1, .cm cmH1, .cm cmH2])
    z ≠ 0 → z ≠ 1 → z ≠ ω → env.gamma * z ≠ 1 → z ^ 2 ≠ ω →
    ∃ capW capW1 : G1, ∀ (β : F) (h : G2) (kvk : VerifierKey G1 G2), HonestVk β g h kvk →
      povPeVerify env ⟨cmS, cmK, kvk, size, capD⟩ x ⟨cmU, cmV, cmR, cmT1, cmH1, cmH2, y, y2, capW, capW1⟩
        = .ok () := by
  intro pre ω z h0 h1 h2 h3 hzz
  set ζ := env.hash (pre 1 [.cm cmU, .cm cmV]) with hζ
  set ζ1 := env.hash (pre 2 [.cm cmU, .cm cmV]) with hζ1
  set α := env.hash (pre 1 [.cm cmU, .cm cmV, .cm cmR]) with hα
  have f1 : env.hash (povPrefix 1 x cmS cmK ++ [.cm cmU, .cm cmV]) = ζ := rfl
  have f2 : env.hash (povPrefix 2 x cmS cmK ++ [.cm cmU, .cm cmV]) = ζ1 := rfl
  have f3 : env.hash (povPrefix 1 x cmS cmK ++ [.cm cmU, .cm cmV, .cm cmR]) = α := rfl
  have f4 : env.hash (povPrefix 1 x cmS cmK ++ [.cm cmU, .cm cmV, .cm cmR, .cm cmT1]) = ω := rfl
  have f5 : env.hash (povPrefix 1 x cmS cmK
    ++ [.cm cmU, .cm cmV, .cm cmR, .cm cmT1, .cm cmH1, .cm cmH2]) = z := rfl
  set cmG := povPeComb size.n size.nadd size.nmul capD env.gamma ζ ζ1 α ω z y
    (evalSparseZeroOneVector (ω / z) x.idx) y2 (evalSparseVector z x.idx x.vals) g cmU cmV cmS cmK
    cmT1 cmH1 cmH2 with hcmG
  obtain ⟨w, w2, hw⟩ := C22_known_randomizer_forgery (G1 := G1) (G2 := G2) (GT := GT) g
    [cmU, cmR] [cmG] [y, y2] [0] (ω / z) z
    (env.hash (povPrefix 1 x cmS cmK ++ povPeXiItems cmU cmV cmR cmT1 cmH1 cmH2 cmG (ω / z) y y2 z))
    (env.hash (povPrefix 2 x cmS cmK ++ povPeXiItems cmU cmV cmR cmT1 cmH1 cmH2 cmG (ω / z) y y2 z))
    env.rngU128
    (by intro h; apply hzz; rw [div_eq_iff h0] at h; rw [h]; ring) hr
  refine ⟨w, w2, ?_⟩
  intro β h kvk hvk
  have hvkg : kvk.g = g := hvk.1
  simp only [povPeVerify, f1, f2, f3, f4, f5, divR_ok h0, bind, Except.bind,
    povPeCoeffs_ok size.n size.nadd size.nmul capD size rfl rfl rfl hsz env.gamma ζ ζ1 α ω z _ _ _ _ h0 h1
      h2 h3, hvkg, povPeComb_eq, ← hcmG]
  rw [if_pos (hw env.e β h kvk hvk)]

/-! ## C72: addition and constant gates are not enforced -/

set_option maxHeartbeats 1000000 in
/-- Polynomials that satisfy the equations lead to an accepted proof. -/
theorem povPe_forge (env : Env F G1 G2 GT) (hγ : env.gamma ≠ 0) (β : F) (g : G1) (h : G2)
    (hnd : NonDegenerate env.e h) (D : ℕ) (pp : UniversalParams G1 G2)
    (hs : kzgSetup D β g h = .ok pp) (cs : POV F) (hne : cs.consts ≠ []) (c : ℕ)
    (hc : c = cs.nmul + cs.nadd + cs.consts.length) (hD : 4 * c + cs.nmul ≤ D)
    (hwr : ∀ p ∈ cs.wires, p.1 < 3 * c ∧ p.2 < 3 * c) (ins : POVInstance F)
    (hir : ∀ i ∈ ins.idx, i < 3 * c) (U V : Polynomial F)
    (dU : U.degree < ((3 * c + 1 : ℕ) : WithBot ℕ)) (dV : V.degree < ((3 * c + 1 : ℕ) : WithBot ℕ))
    (heq : PovPeEqs cs c ins U V) :
    ∃ pk vk, povPeIndex env.gamma pp cs = .ok (pk, vk) ∧
      let pre := fun (first : F) (l : List (Item F G1)) =>
        [.fld first, .nats ins.idx, .flds ins.vals, .cm vk.cmSigma, .cm vk.cmD] ++ l
      let cmU := U.eval β • g
      let cmV := V.eval β • g
      let ζ := env.hash (pre 1 [.cm cmU, .cm cmV])
      let ζ1 := env.hash (pre 2 [.cm cmU, .cm cmV])
      (∀ i, i < 3 * c → (pePoly c cs.nadd cs.nmul U V (polyOf cs.consts)).coeff i
        + ζ * env.gamma ^ (cs.wires.map (fun p => Equiv.swap p.1 p.2)).prod i + ζ1 ≠ 0) →
      ∃ cmR cmT1 : G1,
      let ω := env.hash (pre 1 [.cm cmU, .cm cmV, .cm cmR, .cm cmT1])
      (ω ≠ 0 ∨ 0 ∉ ins.idx) →
      ∃ cmH1 cmH2 : G1,
      let z := env.hash (pre 1 [.cm cmU, .cm cmV, .cm cmR, .cm cmT1, .cm cmH1, .cm cmH2])
      z ≠ 0 → z ≠ 1 → z ≠ ω → env.gamma * z ≠ 1 →
      ∃ (y y2 : F) (capW capW1 : G1),
        povPeVerify env vk ins ⟨cmU, cmV, cmR, cmT1, cmH1, cmH2, y, y2, capW, capW1⟩ = .ok () := by
  have hcl : 0 < cs.consts.length := List.length_pos_of_ne_nil hne
  obtain ⟨sigma, kvk, ls, hvk, hsig, hS, hidx⟩ := povPeIndex_ok env.gamma β hγ g h D pp hs cs c hc hne hwr hD
  refine ⟨_, _, hidx, ?_⟩
  intro pre cmU cmV
  obtain ⟨q1, q2, q3, q4, q5⟩ := heq
  set σ := (cs.wires.map (fun p => Equiv.swap p.1 p.2)).prod with hσ
  set S := permPoly (3 * c) env.gamma σ with hSd
  set K := polyOf cs.consts with hK
  set W := pePoly c cs.nadd cs.nmul U V K with hW
  set I : Polynomial F := selPoly ins.idx with hI
  set N := instPoly ins.idx ins.vals with hN
  have hcmU : cmU = U.eval β • g := rfl
  have hcmV : cmV = V.eval β • g := rfl
  clear_value cmU cmV
  subst hcmU hcmV
  intro ζ ζ1 hden
  have hSc : ∀ j, j < 3 * c → S.coeff j = env.gamma ^ σ j := by
    intro j hj
    rw [hSd, permPoly, Polynomial.finsetSum_coeff]
    simp only [Polynomial.coeff_C_mul_X_pow]
    rw [Finset.sum_ite_eq, if_pos (Finset.mem_range.mpr hj)]
  set R := grandPoly (3 * c) env.gamma ζ ζ1 W.coeff (fun j => env.gamma ^ σ j) 0 with hR
  set α := env.hash (pre 1 [.cm (U.eval β • g), .cm (V.eval β • g), .cm (R.eval β • g)]) with hα
  set base := povPeBase c cs.nadd cs.nmul env.gamma ζ ζ1 α U V S K I N R with hbase
  set P1 := blindPoly (3 * c) (c + cs.nmul + 1) 0 base with hP1
  refine ⟨R.eval β • g, P1.eval β • g, ?_⟩
  intro ω hω0
  have dR : R.degree < ((3 * c + 1 : ℕ) : WithBot ℕ) := degree_grandPoly _ _ _ _ _ _ _
  have dI : I.degree < ((3 * c : ℕ) : WithBot ℕ) := degree_selPoly _ _ hir
  have dN : N.degree < ((3 * c : ℕ) : WithBot ℕ) := degree_instPoly _ _ _ hir
  have dS : S.degree < ((3 * c : ℕ) : WithBot ℕ) := degree_permPoly _ _ _
  have dK : K.degree < ((cs.consts.length : ℕ) : WithBot ℕ) := degree_polyOf_lt cs.consts
  have dP1 : P1.degree < ((c + cs.nmul + 1 + 1 : ℕ) : WithBot ℕ) := by
    rw [Polynomial.degree_lt_iff_coeff_zero]
    intro k hk
    obtain ⟨i, rfl⟩ : ∃ i, k = i + 1 := ⟨k - 1, by omega⟩
    rw [hP1, coeff_blindPoly_succ, if_neg (by omega)]
  have hdA : ∀ p ∈ povPePolys c cs.nadd cs.nmul env.gamma ζ ζ1 α U V S K I N R P1,
      p.1.degree < ((4 * c + cs.nmul + 1 : ℕ) : WithBot ℕ) := by
    intro p hp
    exact degLt_mono (povPePolys_degA c cs.nadd cs.nmul (3 * c) (by omega) env.gamma ζ ζ1 α U V S K I N R
      P1 le_rfl dU (degLt_mono dI (by omega)) dR p hp) (by omega)
  have hdB : ∀ p ∈ povPePolys c cs.nadd cs.nmul env.gamma ζ ζ1 α U V S K I N R P1,
      p.2.degree < ((4 * c + cs.nmul + 1 : ℕ) : WithBot ℕ) :=
    povPePolys_degB c cs.nadd cs.nmul (3 * c) (by omega) env.gamma ζ ζ1 α U V S K I N R P1
      le_rfl dU dV (degLt_mono dS (by omega)) (degLt_mono dK (by omega)) (4 * c + cs.nmul)
      (degLt_mono dN (by omega)) (c + cs.nmul) dP1 (by omega) (by omega)
  have hentry : ∀ i, hadamardEntry (povPePolys c cs.nadd cs.nmul env.gamma ζ ζ1 α U V S K I N R P1) i
      = 0 := by
    apply entries_blind_zero _ _ (by omega)
    · intro i hi
      rw [← entries_blind_lt (3 * c) (c + cs.nmul + 1) (by omega) P1 _ i hi]
      refine povPe_entry_zero c cs.nadd cs.nmul (by omega) env.gamma ζ ζ1 α U V S K I N R P1 q1 q2 q3
        ?_ ?_ ?_ i hi
      · intro j hj hne0
        exact sub_eq_zero.mp ((mul_eq_zero.mp (q4 j hj)).resolve_left hne0)
      · intro j hj
        rw [hSc j hj]
        exact grand_rec (3 * c) env.gamma ζ ζ1 W.coeff (fun j => env.gamma ^ σ j) 0 j hj hden
      · exact grand_last (3 * c) (by omega) env.gamma ζ ζ1 W.coeff σ (fun i hi => (hsig i hi).1) q5 0 hden
    · intro i hi
      refine entry_zero_of_degA _ (4 * c + cs.nmul + 1) ?_ i (by omega)
      intro p hp
      exact hdA p (List.mem_append_left _ hp)
  obtain ⟨H1, H2, dH1, dH2, hH⟩ := C48_complete _ (4 * c + cs.nmul) (D + 1) (by omega) hdA hdB hentry ω
  refine ⟨H1.eval β • g, H2.eval β • g, ?_⟩
  intro z h0 h1 h2 h3
  set G := povPeGPoly c cs.nadd cs.nmul (D + 1) env.gamma ζ ζ1 α ω z (U.eval (ω / z)) (I.eval (ω / z))
    (R.eval (ω / z)) (N.eval z) U V S K P1 H1 H2 with hG
  have hGz : G.eval z = 0 := by rw [hG, povPeG_eval, hH z h0, sub_self]
  have hsz : cs.getSize.n = c := by show _ + _ + _ = _; omega
  have hadd : cs.getSize.nadd = cs.nadd := rfl
  have hmul : cs.getSize.nmul = cs.nmul := rfl
  have hcomb : povPeComb c cs.nadd cs.nmul (D + 1) env.gamma ζ ζ1 α ω z (U.eval (ω / z)) (I.eval (ω / z))
      (R.eval (ω / z)) (N.eval z) g (U.eval β • g) (V.eval β • g) (S.eval β • g) (K.eval β • g)
      (P1.eval β • g) (H1.eval β • g) (H2.eval β • g) = G.eval β • g := by
    rw [← povPeComb_eq, povPeK_eval]
  set ξ := env.hash (pre 1 [.cm (U.eval β • g), .cm (V.eval β • g), .cm (R.eval β • g),
    .cm (P1.eval β • g),
    .cm (H1.eval β • g), .cm (H2.eval β • g), .cm (G.eval β • g), .fld (ω / z), .fld (U.eval (ω / z)),
    .fld (R.eval (ω / z)), .fld z]) with hξ
  obtain ⟨q1, hq1⟩ := open_exists (U + Polynomial.C ξ * R) (ω / z)
  obtain ⟨q2, hq2⟩ := open_exists G z
  refine ⟨U.eval (ω / z), R.eval (ω / z), q1.eval β • g, q2.eval β • g, ?_⟩
  have hacc := C74_accepts_iff env β g h hnd ⟨(polyOf sigma).eval β • g, K.eval β • g, kvk, cs.getSize, D + 1⟩
    hvk (by show cs.nadd + cs.nmul < cs.getSize.n; omega) ins
    ⟨U.eval β • g, V.eval β • g, R.eval β • g, P1.eval β • g, H1.eval β • g, H2.eval β • g, U.eval (ω / z),
      R.eval (ω / z), q1.eval β • g, q2.eval β • g⟩
  simp only [hsz, hadd, hmul] at hacc
  have hS2 : polyOf sigma = S := hS
  refine (hacc hω0).mpr ⟨h0, h1, h2, h3, ?_⟩
  have hcomb' := hcomb
  rw [← hS2] at hcomb'
  have e1 := congrArg (Polynomial.eval β) hq1
  have e2 := congrArg (Polynomial.eval β) hq2
  simp only [Polynomial.eval_sub, Polynomial.eval_add, Polynomial.eval_mul, Polynomial.eval_C,
    Polynomial.eval_X, hGz, sub_zero] at e1 e2
  have key : ∀ (ξ' : F) (cmG : G1), ξ' = ξ → cmG = G.eval β • g →
      U.eval β • g + ξ' • R.eval β • g - (U.eval (ω / z) + ξ' * R.eval (ω / z)) • g
        - (β - ω / z) • q1.eval β • g + env.rngU128 • (cmG - (β - z) • q2.eval β • g) = 0 := by
    rintro _ _ rfl rfl
    have t1 : U.eval β • g + ξ • R.eval β • g - (U.eval (ω / z) + ξ * R.eval (ω / z)) • g
        - (β - ω / z) • q1.eval β • g
        = (U.eval β + ξ * R.eval β - (U.eval (ω / z) + ξ * R.eval (ω / z))
          - (β - ω / z) * q1.eval β) • g := by module
    have t2 : G.eval β • g - (β - z) • q2.eval β • g = (G.eval β - (β - z) * q2.eval β) • g := by module
    rw [t1, t2, e1, e2, sub_self, sub_self]; simp
  refine key _ _ ?_ ?_
  · rw [hξ]
    exact congrArg env.hash (by rw [← hcomb'])
  · exact hcomb'

theorem coeff_polyOf_range (n : ℕ) (f : ℕ → F) (j : ℕ) (hj : j < n) :
    (polyOf ((List.range n).map f)).coeff j = f j := by
  rw [coeff_polyOf, List.getD_eq_getElem _ _ (by simpa using hj)]; simp

/-- Every assignment that satisfies what the argument enforces is encoded by two polynomials that
satisfy all equations. -/
theorem povPe_eqs_of_enforced (cs : POV F) (c : ℕ) (hc : c = cs.nmul + cs.nadd + cs.consts.length)
    (hne : cs.consts ≠ []) (ins : POVInstance F) (hlen : ins.idx.length = ins.vals.length)
    (hnd : ins.idx.Nodup) (w : POVWitness F) (hsh : PovShape cs w) (hen : PovPeEnforced cs ins w) :
    ∃ U V : Polynomial F, U.degree < ((3 * c + 1 : ℕ) : WithBot ℕ) ∧
      V.degree < ((3 * c + 1 : ℕ) : WithBot ℕ) ∧
      (∀ j, j < 3 * c → (pePoly c cs.nadd cs.nmul U V (polyOf cs.consts)).coeff j
        = (povVec w).getD j 0) ∧
      PovPeEqs cs c ins U V := by
  have hl : 0 < cs.consts.length := List.length_pos_of_ne_nil hne
  obtain ⟨s0, s1, s2⟩ := hsh
  have s0 : w.w0.length = c := by omega
  have s1 : w.w1.length = c := by omega
  have s2 : w.w2.length = c := by omega
  obtain ⟨p1, p2, p3⟩ := povVec_cols c w s0 s1 s2
  obtain ⟨e1, e2, e3⟩ := hen
  have hsz : cs.getSize.n = c := by show _ + _ + _ = _; omega
  rw [hsz] at e3
  set Wf : ℕ → F := fun j => (povVec w).getD j 0 with hWf
  set Kf : ℕ → F := fun j => if 2 * c + cs.nadd + cs.nmul ≤ j then
    cs.consts.getD (j - (2 * c + cs.nadd + cs.nmul)) 0 else 0 with hKf
  set vF : ℕ → F := fun j => if j < c - cs.nmul then Wf (c + cs.nmul + j)
    else if j < c then Wf (j - (c - cs.nmul)) * Wf (c + (j - (c - cs.nmul)))
    else if j < c + cs.nadd then Wf (cs.nmul + (j - c)) + Wf (c + cs.nmul + (j - c))
    else 0 with hvF
  set uF : ℕ → F := fun j => if j < c + cs.nmul then Wf j else if j < 2 * c then 0
    else Wf j - vF (j - (c + cs.nmul)) - Kf j with huF
  have degr : ∀ f : ℕ → F, (polyOf ((List.range (3 * c)).map f)).degree
      < ((3 * c + 1 : ℕ) : WithBot ℕ) := by
    intro f
    have := degree_polyOf_lt ((List.range (3 * c)).map f)
    rw [List.length_map, List.length_range] at this
    exact degLt_mono this (by omega)
  set U := polyOf ((List.range (3 * c)).map uF) with hU
  set V := polyOf ((List.range (3 * c)).map vF) with hV
  have cU : ∀ j, j < 3 * c → U.coeff j = uF j := fun j hj => coeff_polyOf_range _ _ _ hj
  have cV : ∀ j, j < 3 * c → V.coeff j = vF j := fun j hj => coeff_polyOf_range _ _ _ hj
  have hW0 : ∀ j, j < 3 * c →
      U.coeff j + (if c + cs.nmul ≤ j then V.coeff (j - (c + cs.nmul)) else 0) = Wf j - Kf j := by
    intro j hj
    rw [cU j hj]
    by_cases a1 : j < c + cs.nmul
    · rw [if_neg (by omega)]
      simp only [huF, hKf]
      rw [if_pos a1, if_neg (by omega)]; ring
    rw [if_pos (by omega), cV _ (by omega)]
    by_cases a2 : j < 2 * c
    · have hv : vF (j - (c + cs.nmul)) = Wf j := by
        simp only [hvF]
        rw [if_pos (by omega), show c + cs.nmul + (j - (c + cs.nmul)) = j by omega]
      rw [hv]
      simp only [huF, hKf]
      rw [if_neg a1, if_pos a2, if_neg (by omega)]; ring
    · simp only [huF]
      rw [if_neg a1, if_neg a2]; ring
  have hW : ∀ j, j < 3 * c → (pePoly c cs.nadd cs.nmul U V (polyOf cs.consts)).coeff j = Wf j := by
    intro j hj
    rw [coeff_pePoly, hW0 j hj]
    simp only [hKf, coeff_polyOf]
    ring
  refine ⟨U, V, degr _, degr _, hW, ?_, ?_, ?_, ?_, ?_⟩
  · intro j hj
    rw [cV _ (by omega), cU _ (by omega), cU _ (by omega)]
    simp only [hvF, huF]
    rw [if_neg (by omega), if_pos (by omega), if_pos (by omega), if_pos (by omega),
      show c - cs.nmul + j - (c - cs.nmul) = j by omega]
  · intro j hj hj3
    rw [cU _ (by omega), cU _ hj3]
    by_cases a1 : j < 2 * c
    · have : uF j = 0 := by simp only [huF]; rw [if_neg (by omega), if_pos a1]
      rw [this, mul_zero]
    by_cases a2 : j < 2 * c + cs.nmul
    · obtain ⟨i, rfl⟩ : ∃ i, j = 2 * c + i := ⟨j - 2 * c, by omega⟩
      have hb : uF (2 * c + i - c) = w.w1.getD i 0 := by
        rw [show 2 * c + i - c = c + i by omega, ← p2 i (by omega)]
        simp only [huF]
        rw [if_pos (by omega)]
      have ho : uF (2 * c + i) = w.w2.getD i 0 - w.w0.getD i 0 * w.w1.getD i 0 := by
        rw [← p3 i (by omega), ← p2 i (by omega), ← p1 i (by omega)]
        simp only [huF, hvF, hKf]
        rw [if_neg (by omega), if_neg (by omega), if_neg (by omega), if_pos (by omega),
          if_neg (by omega), show 2 * c + i - (c + cs.nmul) - (c - cs.nmul) = i by omega]
        ring
      rw [hb, ho]
      by_cases hz : w.w1.getD i 0 = 0
      · rw [hz, zero_mul]
      · rw [e1 i (by omega) hz, sub_self, mul_zero]
    · have : uF (j - c) = 0 := by simp only [huF]; rw [if_neg (by omega), if_pos (by omega)]
      rw [this, zero_mul]
  · intro j hj
    rw [cV _ (by omega), cU _ (by omega), cV _ (by omega)]
    simp only [hvF, huF]
    rw [if_neg (by omega), if_neg (by omega), if_pos (by omega), if_pos (by omega), if_pos (by omega),
      show c + j - c = j by omega]
  · intro j hj
    rw [hW0 j hj]
    by_cases hne0 : (selPoly ins.idx : Polynomial F).coeff j = 0
    · rw [hne0, zero_mul]
    · have := coeff_inst_of_sel ins.idx ins.vals hlen hnd (fun j => Wf j - Kf j) (by
        intro q hq
        have h3 := e3 q hq
        simp only [hWf, hKf]
        rw [List.getD_eq_getElem?_getD, h3]
        simp) j hne0
      beta_reduce at this
      rw [this, sub_self, mul_zero]
  · intro j hj
    have hlenv : (povVec w).length = 3 * c := by simp only [povVec, List.length_append]; omega
    have hwr : ∀ p ∈ cs.wires, p.1 < 3 * c ∧ p.2 < 3 * c := by
      intro p hp
      obtain ⟨a, h1, h2⟩ := e2 p hp
      obtain ⟨h1, -⟩ := List.getElem?_eq_some_iff.mp h1
      obtain ⟨h2, -⟩ := List.getElem?_eq_some_iff.mp h2
      omega
    rw [hW j hj, hW _ (perm_lt cs.wires (3 * c) hwr j hj)]
    have hcopy : CopyOk cs.wires (fun k => (povVec w).getD k 0) := by
      intro p hp
      obtain ⟨a, h1, h2⟩ := e2 p hp
      simp only [List.getD_eq_getElem?_getD, h1, h2]
    exact C11_complete cs.wires _ hcopy j

/-- **C72 (deviation).** The converse of C71: addition gates, constant gates and multiplication gates
with right input zero are not enforced at all.  For every assignment `w` that satisfies only what C71
lists, there are commitments to `w` (`U`, `V` with the constants encode it) and, for all challenges
outside the exceptional values of the honest run, an accepted proof, whether or not `w` satisfies the
system. -/
theorem C72_not_enforced (env : Env F G1 G2 GT) (hγ : env.gamma ≠ 0) (β : F) (g : G1) (h : G2)
    (hnd : NonDegenerate env.e h) (D : ℕ) (pp : UniversalParams G1 G2)
    (hs : kzgSetup D β g h = .ok pp) (cs : POV F) (hne : cs.consts ≠ []) (c : ℕ)
    (hc : c = cs.nmul + cs.nadd + cs.consts.length) (hD : 4 * c + cs.nmul ≤ D)
    (ins : POVInstance F) (hlen : ins.idx.length = ins.vals.length) (hnod : ins.idx.Nodup)
    (w : POVWitness F) (hsh : PovShape cs w) (hen : PovPeEnforced cs ins w) :
    ∃ U V : Polynomial F, (povRead c (pePoly c cs.nadd cs.nmul U V (polyOf cs.consts))) = w ∧
    ∃ pk vk, povPeIndex env.gamma pp cs = .ok (pk, vk) ∧
      let pre := fun (first : F) (l : List (Item F G1)) =>
        [.fld first, .nats ins.idx, .flds ins.vals, .cm vk.cmSigma, .cm vk.cmD] ++ l
      let cmU := U.eval β • g
      let cmV := V.eval β • g
      let ζ := env.hash (pre 1 [.cm cmU, .cm cmV])
      let ζ1 := env.hash (pre 2 [.cm cmU, .cm cmV])
      (∀ i, i < 3 * c → (povVec w).getD i 0
        + ζ * env.gamma ^ (cs.wires.map (fun p => Equiv.swap p.1 p.2)).prod i + ζ1 ≠ 0) →
      ∃ cmR cmT1 : G1,
      let ω := env.hash (pre 1 [.cm cmU, .cm cmV, .cm cmR, .cm cmT1])
      (ω ≠ 0 ∨ 0 ∉ ins.idx) →
      ∃ cmH1 cmH2 : G1,
      let z := env.hash (pre 1 [.cm cmU, .cm cmV, .cm cmR, .cm cmT1, .cm cmH1, .cm cmH2])
      z ≠ 0 → z ≠ 1 → z ≠ ω → env.gamma * z ≠ 1 →
      ∃ (y y2 : F) (capW capW1 : G1),
        povPeVerify env vk ins ⟨cmU, cmV, cmR, cmT1, cmH1, cmH2, y, y2, capW, capW1⟩ = .ok () := by
  obtain ⟨U, V, dU, dV, hW, heq⟩ := povPe_eqs_of_enforced cs c hc hne ins hlen hnod w hsh hen
  obtain ⟨s0, s1, s2⟩ := hsh
  have hlenv : (povVec w).length = 3 * c := by simp only [povVec, List.length_append]; omega
  have hwr : ∀ p ∈ cs.wires, p.1 < 3 * c ∧ p.2 < 3 * c := by
    intro p hp
    obtain ⟨a, h1, h2⟩ := hen.2.1 p hp
    obtain ⟨h1, -⟩ := List.getElem?_eq_some_iff.mp h1
    obtain ⟨h2, -⟩ := List.getElem?_eq_some_iff.mp h2
    omega
  have hir : ∀ i ∈ ins.idx, i < 3 * c := by
    intro i hi
    have hm : (ins.idx.zip ins.vals).map Prod.fst = ins.idx := List.map_fst_zip (by omega)
    rw [← hm] at hi
    obtain ⟨q, hq, rfl⟩ := List.mem_map.mp hi
    obtain ⟨h1, -⟩ := List.getElem?_eq_some_iff.mp (hen.2.2 q hq)
    omega
  obtain ⟨p1, p2, p3⟩ := povVec_cols c w (by omega) (by omega) (by omega)
  have hrange : ∀ (l : List F) (f : ℕ → F), l.length = c → (∀ i, i < c → f i = l.getD i 0) →
      (List.range c).map f = l := by
    intro l f hl hf
    apply List.ext_getElem
    · simp [hl]
    · intro i h1 h2
      simp only [List.length_map, List.length_range] at h1
      simp only [List.getElem_map, List.getElem_range]
      rw [hf i h1, List.getD_eq_getElem _ _ h2]
  refine ⟨U, V, ?_, ?_⟩
  · have a0 := hrange w.w0 (fun i => (pePoly c cs.nadd cs.nmul U V (polyOf cs.consts)).coeff i) (by omega)
      (fun i hi => by rw [hW i (by omega), p1 i hi])
    have a1 := hrange w.w1 (fun i => (pePoly c cs.nadd cs.nmul U V (polyOf cs.consts)).coeff (c + i))
      (by omega) (fun i hi => by rw [hW _ (by omega), p2 i hi])
    have a2 := hrange w.w2 (fun i => (pePoly c cs.nadd cs.nmul U V (polyOf cs.consts)).coeff (2 * c + i))
      (by omega) (fun i hi => by rw [hW _ (by omega), p3 i hi])
    cases w
    simp only [povRead, POVWitness.mk.injEq]
    exact ⟨a0, a1, a2⟩
  · obtain ⟨pk, vk, hidx, hrest⟩ := povPe_forge env hγ β g h hnd D pp hs cs hne c hc hD hwr ins hir U V
      dU dV heq
    refine ⟨pk, vk, hidx, ?_⟩
    intro pre cmU cmV ζ ζ1 hden
    exact hrest (fun i hi => by rw [hW i hi]; exact hden i hi)

/-- **C72 (constants).** An assignment for one list of constants is accepted for every other list of the
same length, as long as no constant position is public. -/
theorem C72_constants_ignored (cs : POV F) (consts' : List F)
    (hl : consts'.length = cs.consts.length) (ins : POVInstance F) (w : POVWitness F)
    (hsh : PovShape cs w) (hsat : cs.satisfy ins w = .ok true)
    (hpub : ∀ i ∈ ins.idx, i < 2 * cs.getSize.n + cs.nadd + cs.nmul) :
    PovShape { cs with consts := consts' } w ∧ PovPeEnforced { cs with consts := consts' } ins w := by
  obtain ⟨⟨g1, -, -⟩, hw, hi⟩ := (C27_satisfy cs ins w hsh).1.mp hsat
  refine ⟨⟨?_, ?_, ?_⟩, fun i hi _ => g1 i hi, hw, ?_⟩
  · rw [hsh.1, hl]
  · rw [hsh.2.1, hl]
  · rw [hsh.2.2, hl]
  · intro q hq
    have := hpub q.1 (List.of_mem_zip hq).1
    have hsz : ({ cs with consts := consts' } : POV F).getSize.n = cs.getSize.n := by
      show _ + _ + _ = _ + _ + _
      rw [hl]
    rw [hi q hq, if_neg (by rw [hsz]; exact Nat.not_le.mpr this), add_zero]

/-! Concrete cases over the field with 97 elements. -/

/-- The polynomial encoded by `U`, `V` and the constants, for short lists. -/
theorem pe_read_example (u v : List K97) :
    povRead 3 (pePoly 3 1 1 (polyOf u) (polyOf v) (polyOf [5]))
      = ⟨[u.getD 0 0, u.getD 1 0, u.getD 2 0], [u.getD 3 0, u.getD 4 0 + v.getD 0 0,
          u.getD 5 0 + v.getD 1 0],
        [u.getD 6 0 + v.getD 2 0, u.getD 7 0 + v.getD 3 0, u.getD 8 0 + v.getD 4 0 + 5]⟩ := by
  simp [povRead, List.range_succ, coeff_pePoly, coeff_polyOf]

/-- Hypotheses of C71: the assignment read off breaks the copy constraint between 0 and 4. -/
example : ¬ PovPeEnforced (⟨[5], [(0, 4), (3, 8)], 1, 1⟩ : POV K97) ⟨[6], [10]⟩
    (povRead 3 (pePoly 3 1 1 (polyOf [2, 1, 0, 5]) (polyOf [3, 0, 10, 4]) (polyOf [5]))) := by
  rw [pe_read_example]
  rintro ⟨-, h, -⟩
  obtain ⟨a, h1, h2⟩ := h (0, 4) (by simp)
  revert h1 h2
  simp [povVec]
  decide +revert +kernel

/-- Hypotheses of C73: the assignment read off breaks the addition gate, and `U`, `V` are padded. -/
example : (⟨[5], [(0, 4), (3, 8)], 1, 1⟩ : POV K97).satisfy ⟨[6], [10]⟩
      (povRead 3 (pePoly 3 1 1 (polyOf [2, 1, 0, 5]) (polyOf [2, 0, 10, 4]) (polyOf [5]))) ≠ .ok true ∧
    (∀ j, 3 + 1 ≤ j → j < 9 → (polyOf ([2, 1, 0, 5] : List K97)).coeff j = 0) ∧
    (∀ j, 3 + 1 ≤ j → j < 6 - 1 → (polyOf ([2, 0, 10, 4] : List K97)).coeff j = 0) := by
  refine ⟨?_, ?_, ?_⟩
  · rw [pe_read_example]
    decide +kernel
  · intro j h1 h2
    rw [coeff_polyOf]; interval_cases j <;> rfl
  · intro j h1 h2
    rw [coeff_polyOf]; interval_cases j; rfl

/-- Hypotheses of C72: the assignment gives the constant gate the value 7 instead of 5, and the
statement "the right input of the multiplication gate, wired to the constant 5, is 7" is enforced. -/
example : PovPeEnforced (⟨[5], [(0, 4), (3, 8)], 1, 1⟩ : POV K97) ⟨[3], [7]⟩
    ⟨[2, 1, 0], [7, 2, 0], [14, 3, 7]⟩ := by
  refine ⟨?_, ?_, ?_⟩
  · decide +kernel
  · intro q hq
    simp only [List.mem_cons, List.not_mem_nil, or_false] at hq
    rcases hq with rfl | rfl
    · exact ⟨2, by decide +kernel, by decide +kernel⟩
    · exact ⟨7, by decide +kernel, by decide +kernel⟩
  · decide +kernel

/-- A false statement with an accepted proof: no assignment satisfies the system with 7 at position 3,
because position 3 is wired to the constant 5; the verifier accepts the given proof. -/
example : (∀ w, PovShape (⟨[5], [(0, 4), (3, 8)], 1, 1⟩ : POV K97) w →
      (⟨[5], [(0, 4), (3, 8)], 1, 1⟩ : POV K97).satisfy ⟨[3], [7]⟩ w ≠ .ok true) ∧
    ((kzgSetup 30 (33 : K97) (1 : K97) (1 : K97)).bind
    (fun pp => (povPeIndex env97.gamma pp ⟨[5], [(0, 4), (3, 8)], 1, 1⟩).bind (fun keys =>
      povPeVerify env97 keys.2 ⟨[3], [7]⟩ ⟨50, 17, 87, 40, 28, 71, 62, 69, 70, 70⟩))) = .ok () := by
  refine ⟨?_, by decide +kernel⟩
  intro w hsh hsat
  obtain ⟨⟨-, -, g3⟩, hw, hi⟩ := (C27_satisfy _ _ w hsh).1.mp hsat
  obtain ⟨a, h1, h2⟩ := hw (3, 8) (by simp)
  have h3 := hi (3, 7) (by simp)
  have h4 := g3 0 (by simp)
  obtain ⟨s0, s1, s2⟩ := hsh
  obtain ⟨-, -, p3⟩ := povVec_cols 3 w s0 s1 s2
  have h5 := p3 2 (by omega)
  have h2' : (povVec w).getD 8 0 = a := by rw [List.getD_eq_getElem?_getD, h2]; rfl
  have ha : a = 7 := Option.some.inj (h1.symm.trans h3)
  have h4' : w.w2.getD 2 0 = 5 := h4
  have h5' : (povVec w).getD 8 0 = w.w2.getD 2 0 := h5
  rw [h2', h4', ha] at h5'
  exact absurd h5' (by decide +kernel)

/-- The forgery of C75 applies to a false instance. -/
example : ∃ capW capW1 : K97, ∀ (β : K97) (h : K97) (kvk : VerifierKey K97 K97),
    HonestVk β 1 h kvk →
      povPeVerify env97 ⟨7, 8, kvk, ⟨1, 1, 1, 3⟩, 31⟩ ⟨[6], [77]⟩
        ⟨1, 1, 1, 1, 1, 1, 2, 3, capW, capW1⟩ = .ok () :=
  C75_forgery env97 (1 : K97) ⟨1, 1, 1, 3⟩ 31 (by decide) ⟨[6], [77]⟩ 7 8 1 1 1 1 1 1 2 3
    (by decide +kernel) (by decide +kernel) (by decide +kernel) (by decide +kernel) (by decide +kernel)
    (by decide +kernel)

end VO
