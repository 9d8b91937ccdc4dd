import Verif.Props.Examples
import Verif.Props.R1csSnarkSound
import Verif.Props.R1csPeSound

/-
Property theorems C131: from an arkworks constraint system to an accepted proof
(`/repo/voproof/src/cs/r1cs.rs`, `/repo/voproof/src/snarks/voproof_r1cs.rs`,
`/repo/voproof/src/snarks/voproof_r1cs_prover_efficient.rs`; the pipeline of
`/repo/voproof/tests/r1cs_test.rs`).
-/

set_option linter.unusedSectionVars false

namespace VO
open Spec
open Polynomial (X toLaurent)
open LaurentPolynomial (T)

variable {F G1 G2 GT : Type} [Field F] [DecidableEq F]
  [AddCommGroup G1] [Module F G1] [DecidableEq G1] [AddCommGroup G2] [Module F G2] [DecidableEq G2]
  [AddCommGroup GT] [Module F GT] [DecidableEq GT]

namespace Spec

/-- An arkworks constraint system as `to_matrices` returns it: one row per constraint in each matrix,
columns within the variables, the constant one among the instance variables. -/
structure ArkWf (m : ArkMatrices F) : Prop where
  one_var : 0 < m.numInstanceVariables
  rows_a : m.a.length = m.numConstraints
  rows_b : m.b.length = m.numConstraints
  rows_c : m.c.length = m.numConstraints
  cols : ∀ row ∈ m.a ++ m.b ++ m.c, ∀ e ∈ row, e.2 < m.numInstanceVariables + m.numWitnessVariables

/-- The assignment `1, x, w` satisfies every constraint `⟨a_i, z⟩ * ⟨b_i, z⟩ = ⟨c_i, z⟩` (this is what
`is_satisfied` of arkworks checks). -/
def ArkHolds (m : ArkMatrices F) (x w : List F) : Prop :=
  x.length + 1 = m.numInstanceVariables ∧ w.length = m.numWitnessVariables ∧
  ∀ i < m.numConstraints,
    lcValue (m.a.getD i []) (1 :: (x ++ w)) * lcValue (m.b.getD i []) (1 :: (x ++ w))
      = lcValue (m.c.getD i []) (1 :: (x ++ w))

/-- Number of terms in all linear combinations. -/
def arkTerms (m : ArkMatrices F) : ℕ :=
  (m.a.map List.length).sum + (m.b.map List.length).sum + (m.c.map List.length).sum

end Spec

/-- Round-by-round rejection by `VOProofR1CS::verify` (the conclusion of C58) for `H` rows, `K` columns,
`S` listed entries, `ℓ` public inputs: for a commitment to `A`, whatever polynomials of degree at most `D`
and values the prover sends after each challenge, only few values of the next challenge help. -/
def R1csRejects (G1 G2 GT : Type) [AddCommGroup G1] [Module F G1] [DecidableEq G1]
    [AddCommGroup G2] [Module F G2] [DecidableEq G2] [AddCommGroup GT] [Module F GT] [DecidableEq GT]
    (cs : R1CS F) (H K S ℓ D : ℕ) (γ : F) (x : List F) (A : Polynomial F) : Prop :=
    ∃ badμ : Finset F, badμ.card ≤ 3 * H - 1 ∧ ∀ μ, μ ∉ badμ →
    ∀ P : Polynomial F, P.natDegree ≤ D →
    ∃ badν : Finset F, badν.card ≤ K - 1 ∧ ∀ ν, ν ∉ badν →
    ∀ Q : Polynomial F, Q.natDegree ≤ D →
    ∃ badβ : Finset F, badβ.card ≤ 1 ∧ ∀ β, β ∉ badβ →
    ∀ R : Polynomial F, R.natDegree ≤ D →
    ∃ badα : Finset F, badα.card ≤ 8 ∧ ∀ α, α ∉ badα →
    ∀ T : Polynomial F, T.natDegree ≤ D →
    ∃ badω : Finset F, badω.card ≤ D + K + S ∧ ∀ ω, ω ∉ badω →
    ∀ H1 H2 : Polynomial F, H1.natDegree ≤ D → H2.natDegree ≤ D →
    ∃ badz : Finset F, badz.card ≤ 2 * D + 2 * (K + S) + x.length ∧ ∀ z, z ∉ badz →
    ∀ y y1 : F,
    ∃ badξ : Finset F, badξ.card ≤ 1 ∧ ∀ ξ, ξ ∉ badξ → ∀ ξ2,
    ∀ Q1 Q2 : Polynomial F, Q1.natDegree ≤ D → Q2.natDegree ≤ D →
    ∃ badτ : Finset F, badτ.card ≤ D + 1 ∧ ∀ τ, τ ∉ badτ → ∃ r0 : F,
    ∀ (env : Env F G1 G2 GT) (g : G1) (h : G2), env.rngU128 ≠ r0 → env.gamma = γ → g ≠ 0 →
    NonDegenerate env.e h →
    ∀ (pp : UniversalParams G1 G2), kzgSetup D τ g h = .ok pp →
    ∀ pk vk, r1csIndex γ pp cs = .ok (pk, vk) →
      let l := stacked cs
      let cm := fun p : Polynomial F => p.eval τ • g
      let it := fun p : Polynomial F => (Item.cm (cm p) : Item F G1)
      let pre := fun (first : F) (items : List (Item F G1)) =>
        [.fld first, .flds x, it (rowPoly γ l), it (colPoly γ l), it (valPoly l),
          it (rowColPoly γ l)] ++ items
      let G := r1csGPoly H K S ℓ (D + 1) γ μ ν β α ω z y y1 ((polyOf x).eval z) (rowPoly γ l)
        (colPoly γ l) (valPoly l) (rowColPoly γ l) A P Q R T H1 H2
      env.hash (pre 1 [it A]) = μ →
      env.hash (pre 1 [it A, it P]) = ν →
      env.hash (pre 1 [it A, it P, it Q]) = β →
      env.hash (pre 1 [it A, it P, it Q, it R]) = α →
      env.hash (pre 1 [it A, it P, it Q, it R, it T]) = ω →
      env.hash (pre 1 [it A, it P, it Q, it R, it T, it H1, it H2]) = z →
      env.hash (pre 1 [it A, it P, it Q, it R, it T, it H1, it H2, it G, .fld (ω / z), .fld y,
        .fld y1, .fld z]) = ξ →
      env.hash (pre 2 [it A, it P, it Q, it R, it T, it H1, it H2, it G, .fld (ω / z), .fld y,
        .fld y1, .fld z]) = ξ2 →
      r1csVerify env vk x ⟨cm A, cm P, cm Q, cm R, cm T, cm H1, cm H2, y, y1, cm Q1, cm Q2⟩
          ≠ .ok ()

/-- The same for `VOProofR1CSProverEfficient::verify` (the conclusion of C77): the first commitments are to
`Y` and `W`. -/
def R1csPeRejects (G1 G2 GT : Type) [AddCommGroup G1] [Module F G1] [DecidableEq G1]
    [AddCommGroup G2] [Module F G2] [DecidableEq G2] [AddCommGroup GT] [Module F GT] [DecidableEq GT]
    (cs : R1CS F) (H K S ℓ D : ℕ) (γ : F) (x : List F) (Y W : Polynomial F) : Prop :=
    ∃ badμ : Finset F, badμ.card ≤ 3 * H - 1 ∧ ∀ μ, μ ∉ badμ →
    ∀ P Cc : Polynomial F, P.natDegree ≤ D → Cc.natDegree ≤ D →
    ∃ badν : Finset F, badν.card ≤ K - 1 ∧ ∀ ν, ν ∉ badν →
    ∀ Q U : Polynomial F, Q.natDegree ≤ D → U.natDegree ≤ D →
    ∃ badβ : Finset F, badβ.card ≤ 1 ∧ ∀ β, β ∉ badβ →
    ∀ R : Polynomial F, R.natDegree ≤ D →
    ∃ badα : Finset F, badα.card ≤ 10 ∧ ∀ α, α ∉ badα →
    ∀ T : Polynomial F, T.natDegree ≤ D →
    ∃ badω : Finset F, badω.card ≤ D + S ∧ ∀ ω, ω ∉ badω →
    ∀ H1 H2 : Polynomial F, H1.natDegree ≤ D → H2.natDegree ≤ D →
    ∃ badz : Finset F, badz.card ≤ 2 * D + 2 * S + x.length ∧ ∀ z, z ∉ badz →
    ∀ y y1 y2 : F,
    ∃ badξ : Finset F, badξ.card ≤ 2 ∧ ∀ ξ, ξ ∉ badξ → ∀ ξ2,
    ∀ Q1 Q2 : Polynomial F, Q1.natDegree ≤ D → Q2.natDegree ≤ D →
    ∃ badτ : Finset F, badτ.card ≤ D + 1 ∧ ∀ τ, τ ∉ badτ → ∃ r0 : F,
    ∀ (env : Env F G1 G2 GT) (g : G1) (h : G2), env.rngU128 ≠ r0 → env.gamma = γ → g ≠ 0 →
    NonDegenerate env.e h →
    ∀ (pp : UniversalParams G1 G2), kzgSetup D τ g h = .ok pp →
    ∀ pk vk, r1csPeIndex γ pp cs = .ok (pk, vk) →
      let l := stackedPe cs
      let cm := fun p : Polynomial F => p.eval τ • g
      let it := fun p : Polynomial F => (Item.cm (cm p) : Item F G1)
      let pre := fun (first : F) (items : List (Item F G1)) =>
        [.fld first, .flds x, it (rowPoly γ l), it (colPoly γ l), it (valPoly l),
          it (rowColPoly γ l)] ++ items
      let G := r1csPeGPoly H K S ℓ (D + 1) γ μ ν β α ω z y y1 y2 ((polyOf x).eval z) (rowPoly γ l)
        (colPoly γ l) (valPoly l) (rowColPoly γ l) Y W P Cc Q R T H1 H2
      env.hash (pre 1 [it Y, it W]) = μ →
      env.hash (pre 1 [it Y, it W, it P, it Cc]) = ν →
      env.hash (pre 1 [it Y, it W, it P, it Cc, it Q, it U]) = β →
      env.hash (pre 1 [it Y, it W, it P, it Cc, it Q, it U, it R]) = α →
      env.hash (pre 1 [it Y, it W, it P, it Cc, it Q, it U, it R, it T]) = ω →
      env.hash (pre 1 [it Y, it W, it P, it Cc, it Q, it U, it R, it T, it H1, it H2]) = z →
      env.hash (pre 1 [it Y, it W, it P, it Cc, it Q, it U, it R, it T, it H1, it H2, it G,
        .fld (ω / z), .fld y, .fld y1, .fld y2, .fld z]) = ξ →
      env.hash (pre 2 [it Y, it W, it P, it Cc, it Q, it U, it R, it T, it H1, it H2, it G,
        .fld (ω / z), .fld y, .fld y1, .fld y2, .fld z]) = ξ2 →
      r1csPeVerify env vk x ⟨cm Y, cm W, cm P, cm Cc, cm Q, cm U, cm R, cm T, cm H1, cm H2, y, y1, y2,
          cm Q1, cm Q2⟩ ≠ .ok ()

/-- Facts about the converted system. -/
theorem ofArk_facts (m : ArkMatrices F) (hm : ArkWf m) :
    ∃ r, R1CS.ofArk m = .ok r ∧ R1csLens r ∧ r.nrows = m.numConstraints ∧
      r.ncols = m.numInstanceVariables + m.numWitnessVariables ∧
      r.inputSize + 1 = m.numInstanceVariables ∧
      r.a.rows.length + r.b.rows.length + r.c.rows.length = arkTerms m ∧
      InRange r.a r.nrows r.ncols ∧ InRange r.b r.nrows r.ncols ∧ InRange r.c r.nrows r.ncols ∧
      ∀ x w : List F, x.length + 1 = m.numInstanceVariables → w.length = m.numWitnessVariables →
        (R1CSHolds r x w ↔ ArkHolds m x w) := by
  obtain ⟨r, hr, h1, h2, h3, h4⟩ := C51_ark_conversion m hm.one_var hm.cols
  have hr' := hr
  rw [R1CS.ofArk, if_neg (by have := hm.one_var; omega)] at hr'
  have ea : r.a = arkSparse m.a := by rw [← Except.ok.inj hr']
  have eb : r.b = arkSparse m.b := by rw [← Except.ok.inj hr']
  have ec : r.c = arkSparse m.c := by rw [← Except.ok.inj hr']
  refine ⟨r, hr, ⟨?_, ?_, ?_⟩, h1, h2, h3, ?_, ?_, ?_, ?_, ?_⟩
  · rw [ea]; exact (length_arkSparse _).1
  · rw [eb]; exact (length_arkSparse _).1
  · rw [ec]; exact (length_arkSparse _).1
  · rw [ea, eb, ec, (length_arkSparse _).2, (length_arkSparse _).2, (length_arkSparse _).2]; rfl
  · rw [ea, h1, h2]
    exact inRange_arkSparse _ _ _ hm.rows_a.le (fun row hrow => hm.cols row (by simp [hrow]))
  · rw [eb, h1, h2]
    exact inRange_arkSparse _ _ _ hm.rows_b.le (fun row hrow => hm.cols row (by simp [hrow]))
  · rw [ec, h1, h2]
    exact inRange_arkSparse _ _ _ hm.rows_c.le (fun row hrow => hm.cols row (by simp [hrow]))
  · intro x w hx hw
    rw [h4]
    exact ⟨fun h => ⟨hx, hw, h⟩, fun h => h.2.2⟩

theorem fitTo_self (x : List F) {ℓ : ℕ} (hx : x.length = ℓ) : fitTo ℓ x = x := by
  subst hx
  unfold fitTo
  apply List.ext_getElem
  · simp
  · intro i h1 h2
    simp [List.getElem?_eq_getElem h2]

theorem ofArk_shape (m : ArkMatrices F) (hm : ArkWf m) (h1 : 1 ≤ m.numConstraints) (r : R1CS F)
    (hr : R1CS.ofArk m = .ok r) (x w : List F) (hx : x.length + 1 = m.numInstanceVariables)
    (hw : w.length = m.numWitnessVariables) : R1CSShape r x w := by
  obtain ⟨r', hr', -, e1, e2, -, -, ra, rb, rc, -⟩ := ofArk_facts m hm
  obtain rfl := Except.ok.inj (hr.symm.trans hr')
  refine ⟨?_, ?_, ?_, ra, rb, rc⟩ <;> omega

/-- **C131.** From an arkworks constraint system to an accepted proof.  For every system with `H ≥ 1`
constraints, `K` variables and `S` terms with `3 H ≤ S` and `4 H ≤ K + S + 1`, and every assignment that satisfies
it: the conversion succeeds, `satisfy` accepts the assignment, `index` makes keys if the setup is large enough,
every proof that `prove` returns is accepted by `verify`, and `prove` returns one unless a challenge takes one
of the exceptional values listed in C43. -/
theorem C131_complete (env : Env F G1 G2 GT) (hf : FftOk env.fft) (hγ : env.gamma ≠ 0) (τ : F) (g : G1)
    (h : G2) (D : ℕ) (pp : UniversalParams G1 G2) (hs : kzgSetup D τ g h = .ok pp)
    (m : ArkMatrices F) (hm : ArkWf m) (H K S : ℕ) (hH : H = m.numConstraints)
    (hK : K = m.numInstanceVariables + m.numWitnessVariables) (hS : S = arkTerms m)
    (h1 : 1 ≤ H) (h3 : 3 * H ≤ S) (h4 : 4 * H ≤ K + S + 1) (hD : 2 * (K + S) - H ≤ D)
    (hfft : 2 * (K + S) + 2 ≤ 2 ^ env.fft.twoAdicity) (x w : List F) (hsat : ArkHolds m x w) :
    ∃ r pk vk, R1CS.ofArk m = .ok r ∧ r.satisfy x w = .ok true ∧
      r1csIndex env.gamma pp r = .ok (pk, vk) ∧
      (∀ π, r1csProve env pk x w = .ok π → r1csVerify env vk x π = .ok ()) ∧
      R1csCompletes env τ g D r H K S x w pk vk := by
  obtain ⟨r, hr, hl, e1, e2, e3, e4, -, -, -, hiff⟩ := ofArk_facts m hm
  obtain ⟨hx, hw, -⟩ := id hsat
  have hsh := ofArk_shape m hm (by omega) r hr x w hx hw
  have hacc := (C24_satisfy r x w hsh).1.mpr ((hiff x w hx hw).mpr hsat)
  obtain ⟨-, -, -, -, f4⟩ := stacked_facts r hl
  obtain ⟨pk, vk, hidx, hcomp⟩ := C43_complete env hf hγ τ g h D pp hs r hl H K S (by omega) (by omega)
    (by rw [f4]; omega) h3 h4 hD hfft x w hsh (by omega) hacc
  exact ⟨r, pk, vk, hr, hacc, hidx, fun π hπ => C81_r1cs env τ g h D pp hs r pk vk hidx x w π hπ, hcomp⟩

/-- **C131.** Soundness for arkworks constraint systems: if no witness satisfies the system together with
the public inputs `x`, then whatever polynomial the prover commits to first, it is rejected except for few
challenges. -/
theorem C131_sound (m : ArkMatrices F) (hm : ArkWf m) (H K S ℓ D : ℕ) (hH : H = m.numConstraints)
    (hK : K = m.numInstanceVariables + m.numWitnessVariables) (hS : S = arkTerms m)
    (hℓ : ℓ + 1 = m.numInstanceVariables) (h1 : 1 ≤ H) (h3 : 3 * H ≤ S) (hD : 2 * (K + S) - H ≤ D) (γ : F)
    (hγ : ∀ i < max (3 * H) K, ∀ j < max (3 * H) K, γ ^ i = γ ^ j → i = j)
    (x : List F) (hx : x.length = ℓ) (hfalse : ¬ ∃ w, ArkHolds m x w)
    (r : R1CS F) (hr : R1CS.ofArk m = .ok r) (A : Polynomial F) (dA : A.natDegree ≤ D) :
    R1csRejects G1 G2 GT r H K S ℓ D γ x A := by
  obtain ⟨r', hr', hl, e1, e2, e3, e4, ra, rb, rc, hiff⟩ := ofArk_facts m hm
  obtain rfl := Except.ok.inj (hr.symm.trans hr')
  obtain ⟨-, -, -, -, f4⟩ := stacked_facts r hl
  have hfit : fitTo ℓ x = x := fitTo_self x hx
  refine C58_sound r hl H K S ℓ D (by omega) (by omega) (by rw [f4]; omega) (by omega) h1 h3 (by omega)
    (by rw [hH, hK, ← e1, ← e2]; exact ra) (by rw [hH, hK, ← e1, ← e2]; exact rb)
    (by rw [hH, hK, ← e1, ← e2]; exact rc) hD γ hγ x A dA ?_
  rw [hfit]
  intro hsat
  by_cases hw : (r1csRead H K ℓ A).length = m.numWitnessVariables
  · have hsh := ofArk_shape m hm (by omega) r hr x _ (by omega) hw
    exact hfalse ⟨_, (hiff x _ (by omega) hw).mp ((C24_satisfy r x _ hsh).1.mp hsat)⟩
  · apply hw
    simp [r1csRead]
    omega

/-- **C131.** The same with the prover-efficient system, for systems with `3 H ≤ S`, `K ≤ S` and fewer than `2 H`
public inputs. -/
theorem C131_prover_efficient_complete (env : Env F G1 G2 GT) (hf : FftOk env.fft) (hγ : env.gamma ≠ 0)
    (τ : F) (g : G1) (h : G2) (D : ℕ) (pp : UniversalParams G1 G2) (hs : kzgSetup D τ g h = .ok pp)
    (m : ArkMatrices F) (hm : ArkWf m) (H K S ℓ : ℕ) (hH : H = m.numConstraints)
    (hK : K = m.numInstanceVariables + m.numWitnessVariables) (hS : S = arkTerms m)
    (hℓ : ℓ + 1 = m.numInstanceVariables) (h1 : 1 ≤ H) (h3 : 3 * H ≤ S) (hKS : K ≤ S) (hℓ2 : ℓ + 1 ≤ 2 * H)
    (hD : 2 * H + S ≤ D) (hfft : 2 * S + 2 ≤ 2 ^ env.fft.twoAdicity) (x w : List F)
    (hsat : ArkHolds m x w) :
    ∃ r pk vk, R1CS.ofArk m = .ok r ∧ r.satisfy x w = .ok true ∧
      r1csPeIndex env.gamma pp r = .ok (pk, vk) ∧
      (∀ π, r1csPeProve env pk x w = .ok π → r1csPeVerify env vk x π = .ok ()) ∧
      R1csPeCompletes env τ g D r H K S ℓ x w pk vk := by
  obtain ⟨r, hr, hl, e1, e2, e3, e4, -, -, -, hiff⟩ := ofArk_facts m hm
  obtain ⟨hx, hw, -⟩ := id hsat
  have hsh := ofArk_shape m hm (by omega) r hr x w hx hw
  have hacc := (C24_satisfy r x w hsh).1.mpr ((hiff x w hx hw).mpr hsat)
  obtain ⟨-, -, -, -, f4⟩ := stackedPe_facts r hl
  obtain ⟨pk, vk, hidx, hcomp⟩ := C76_complete env hf hγ τ g h D pp hs r hl H K S ℓ (by omega) (by omega)
    (by omega) (by rw [f4]; omega) h3 hKS hℓ2 hD hfft x w hsh (by omega) hacc
  exact ⟨r, pk, vk, hr, hacc, hidx,
    fun π hπ => C81_r1cs_prover_efficient env τ g h D pp hs r (by omega) pk vk hidx x w π hπ, hcomp⟩

/-- **C131.** Soundness of the prover-efficient system for arkworks constraint systems. -/
theorem C131_prover_efficient_sound (m : ArkMatrices F) (hm : ArkWf m) (H K S ℓ D : ℕ)
    (hH : H = m.numConstraints) (hK : K = m.numInstanceVariables + m.numWitnessVariables)
    (hS : S = arkTerms m) (hℓ : ℓ + 1 = m.numInstanceVariables) (h1 : 1 ≤ H) (h3 : 3 * H ≤ S) (hKS : K ≤ S)
    (hD : 2 * H + S ≤ D) (γ : F)
    (hγ : ∀ i < max (3 * H) K, ∀ j < max (3 * H) K, γ ^ i = γ ^ j → i = j)
    (x : List F) (hx : x.length = ℓ) (hfalse : ¬ ∃ w, ArkHolds m x w)
    (r : R1CS F) (hr : R1CS.ofArk m = .ok r) (Y W : Polynomial F) (dY : Y.natDegree ≤ D)
    (dW : W.natDegree ≤ D) :
    R1csPeRejects G1 G2 GT r H K S ℓ D γ x Y W := by
  obtain ⟨r', hr', hl, e1, e2, e3, e4, ra, rb, rc, hiff⟩ := ofArk_facts m hm
  obtain rfl := Except.ok.inj (hr.symm.trans hr')
  obtain ⟨-, -, -, -, f4⟩ := stackedPe_facts r hl
  have hfit : fitTo ℓ x = x := fitTo_self x hx
  refine C77_sound r hl H K S ℓ D (by omega) (by omega) (by rw [f4]; omega) (by omega) h1 h3 hKS (by omega)
    (by rw [hH, hK, ← e1, ← e2]; exact ra) (by rw [hH, hK, ← e1, ← e2]; exact rb)
    (by rw [hH, hK, ← e1, ← e2]; exact rc) hD γ hγ x Y W dY dW ?_
  rw [hfit]
  intro hsat
  by_cases hw : (r1csPeRead K ℓ x W).length = m.numWitnessVariables
  · have hsh := ofArk_shape m hm (by omega) r hr x _ (by omega) hw
    exact hfalse ⟨_, (hiff x _ (by omega) hw).mp ((C24_satisfy r x _ hsh).1.mp hsat)⟩
  · apply hw
    simp [r1csPeRead]
    omega

/-! ## The hypotheses can be met -/

/-- The system of the single constraint `w * w = x`. -/
def square97 : ArkMatrices (ZMod 97) := ⟨2, 1, 1, [[(1, 2)]], [[(1, 2)]], [[(1, 1)]]⟩

/-- `x = 9` is a true statement, `x = 5` a false one, and the size conditions of the four theorems hold. -/
example : ArkWf square97 ∧ ArkHolds square97 [9] [3] ∧ (¬ ∃ w, ArkHolds square97 [5] w) ∧
    arkTerms square97 = 3 ∧ 3 * 1 ≤ 3 ∧ 4 * 1 ≤ 3 + 3 + 1 ∧ 1 + 1 ≤ 2 * 1 ∧
    (∀ i < max (3 * 1) 3, ∀ j < max (3 * 1) 3, (5 : ZMod 97) ^ i = 5 ^ j → i = j) := by
  refine ⟨⟨by decide, rfl, rfl, rfl, by decide⟩, ⟨rfl, rfl, by decide +kernel⟩, ?_, by decide, by decide,
    by decide, by decide, by decide +kernel⟩
  rintro ⟨w, h1, h2, h3⟩
  obtain ⟨y, rfl⟩ : ∃ y, w = [y] := List.length_eq_one_iff.mp h2
  have := h3 0 (by decide)
  revert this
  generalize y = y
  revert y
  decide +kernel

end VO
