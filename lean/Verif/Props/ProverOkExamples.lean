import Verif.Props.ProverOkPov
import Verif.Props.ProverOkR1cs
import Verif.Props.ProverOkR1csPe
import Verif.Props.ProverOkHpr
import Verif.Props.ProverOkFib
import Verif.Props.Pov
import Verif.Props.PovPe
import Verif.Props.R1csSnark
import Verif.Props.R1csPe
import Verif.Props.HprSnark
import Verif.Props.Fibonacci
import Verif.Props.RangeCheckComplete

/-
Concrete cases that meet the hypotheses of C81, over the field with 97 elements: the prover returns a
proof.  Where `satisfy` is shown to be false, the witness does not satisfy the system and the prover
succeeds by accident on a challenge; C81 says that the verifier accepts these proofs as well.
-/

namespace VO

/-- The setup used by the examples below. -/
example : ∃ pp, kzgSetup 30 (33 : K97) (1 : K97) (1 : K97) = .ok pp :=
  ⟨_, rfl⟩

/-- POV. -/
example :
    (⟨[5], [(0, 4), (3, 8)], 1, 1⟩ : POV K97).satisfy ⟨[6], [10]⟩ ⟨[2, 1, 0], [5, 2, 0], [10, 7, 5]⟩
      = .ok false ∧
    ∃ (pp : UniversalParams K97 K97) (pk : PovPK K97 K97 K97) (vk : PovVK K97 K97)
      (π : PovProof K97 K97), kzgSetup 30 (33 : K97) (1 : K97) (1 : K97) = .ok pp ∧
      povIndex env97.gamma pp ⟨[5], [(0, 4), (3, 8)], 1, 1⟩ = .ok (pk, vk) ∧
      povProve env97 pk ⟨[6], [10]⟩ ⟨[2, 1, 0], [5, 2, 0], [10, 7, 5]⟩ = .ok π := by
  refine ⟨by decide +kernel, ?_⟩
  have h : povRun97 ⟨[5], [(0, 4), (3, 8)], 1, 1⟩ ⟨[6], [10]⟩ ⟨[2, 1, 0], [5, 2, 0], [10, 7, 5]⟩
      = .ok () := by decide +kernel
  obtain ⟨pp, h1, h⟩ := bind_ok h
  obtain ⟨⟨pk, vk⟩, h2, h⟩ := bind_ok h
  obtain ⟨π, h3, -⟩ := bind_ok h
  exact ⟨pp, pk, vk, π, h1, h2, h3⟩

/-- Prover-efficient POV. -/
example :
    ∃ (pp : UniversalParams K97 K97) (pk : PovPePK K97 K97 K97) (vk : PovPeVK K97 K97)
      (π : PovPeProof K97 K97), kzgSetup 30 (33 : K97) (1 : K97) (1 : K97) = .ok pp ∧
      povPeIndex env97.gamma pp ⟨[5], [(0, 4), (3, 8)], 1, 1⟩ = .ok (pk, vk) ∧
      povPeProve env97 pk ⟨[6], [10]⟩ ⟨[2, 1, 0], [5, 2, 0], [10, 3, 5]⟩ = .ok π := by
  have h : povPeRun97 ⟨[5], [(0, 4), (3, 8)], 1, 1⟩ ⟨[6], [10]⟩ ⟨[2, 1, 0], [5, 2, 0], [10, 3, 5]⟩
      = .ok () := by decide +kernel
  obtain ⟨pp, h1, h⟩ := bind_ok h
  obtain ⟨⟨pk, vk⟩, h2, h⟩ := bind_ok h
  obtain ⟨π, h3, -⟩ := bind_ok h
  exact ⟨pp, pk, vk, π, h1, h2, h3⟩

/-- R1CS. -/
example : cube97.satisfy [27] [6, 4] = .ok false ∧
    ∃ (pp : UniversalParams K97 K97) (pk : R1csPK K97 K97 K97) (vk : R1csVK K97 K97)
      (π : R1csProof K97 K97), kzgSetup 30 (33 : K97) (1 : K97) (1 : K97) = .ok pp ∧
      r1csIndex env97.gamma pp cube97 = .ok (pk, vk) ∧
      r1csProve env97 pk [27] [6, 4] = .ok π := by
  refine ⟨by decide +kernel, ?_⟩
  have h : r1csRun97 cube97 [27] [6, 4] = .ok () := by decide +kernel
  obtain ⟨pp, h1, h⟩ := bind_ok h
  obtain ⟨⟨pk, vk⟩, h2, h⟩ := bind_ok h
  obtain ⟨π, h3, -⟩ := bind_ok h
  exact ⟨pp, pk, vk, π, h1, h2, h3⟩

/-- Prover-efficient R1CS. -/
example : cube97.satisfy [27] [7, 2] = .ok false ∧
    cube97.ncols ≤ cube97.a.rows.length + cube97.b.rows.length + cube97.c.rows.length + 1 ∧
    ∃ (pp : UniversalParams K97 K97) (pk : R1csPePK K97 K97 K97) (vk : R1csPeVK K97 K97)
      (π : R1csPeProof K97 K97), kzgSetup 30 (33 : K97) (1 : K97) (1 : K97) = .ok pp ∧
      r1csPeIndex env97.gamma pp cube97 = .ok (pk, vk) ∧
      r1csPeProve env97 pk [27] [7, 2] = .ok π := by
  refine ⟨by decide +kernel, by decide, ?_⟩
  have h : r1csPeRun97 cube97 [27] [7, 2] = .ok () := by decide +kernel
  obtain ⟨pp, h1, h⟩ := bind_ok h
  obtain ⟨⟨pk, vk⟩, h2, h⟩ := bind_ok h
  obtain ⟨π, h3, -⟩ := bind_ok h
  exact ⟨pp, pk, vk, π, h1, h2, h3⟩

/-- HPR. -/
example : hpr97.satisfy [48] [3] [2] [20] = .ok false ∧
    hpr97.b.rows.length + hpr97.c.rows.length = 2 * hpr97.a.rows.length ∧
    ∃ (pp : UniversalParams K97 K97) (pk : HprPK K97 K97 K97) (vk : HprVK K97 K97)
      (π : HprProof K97 K97), kzgSetup 40 (33 : K97) (1 : K97) (1 : K97) = .ok pp ∧
      hprIndex env97.gamma pp hpr97 = .ok (pk, vk) ∧
      hprProve env97 pk [48] ([3], [2], [20]) = .ok π := by
  refine ⟨by decide +kernel, by decide, ?_⟩
  have h : hprRun97 hpr97 [48] ([3], [2], [20]) = .ok () := by decide +kernel
  obtain ⟨pp, h1, h⟩ := bind_ok h
  obtain ⟨⟨pk, vk⟩, h2, h⟩ := bind_ok h
  obtain ⟨π, h3, -⟩ := bind_ok h
  exact ⟨pp, pk, vk, π, h1, h2, h3⟩

/-- Fibonacci. -/
example : ([1, 2, 3] : List K97).length = 3 ∧
    ∃ (pp : UniversalParams K97 K97) (pk : FibPK K97 K97 K97) (vk : FibVK K97 K97)
      (π : FibProof K97 K97), kzgSetup 20 (33 : K97) (1 : K97) (1 : K97) = .ok pp ∧
      fibIndex pp ⟨3, [1, 2, 3]⟩ = .ok (pk, vk) ∧
      fibProve env97 pk ⟨4, 5, 78⟩ [9, 23, 78] = .ok π := by
  refine ⟨rfl, ?_⟩
  have h : fibRun97 3 [1, 2, 3] ⟨4, 5, 78⟩ [9, 23, 78] = .ok () := by decide +kernel
  obtain ⟨pp, h1, h⟩ := bind_ok h
  obtain ⟨⟨pk, vk⟩, h2, h⟩ := bind_ok h
  obtain ⟨π, h3, -⟩ := bind_ok h
  exact ⟨pp, pk, vk, π, h1, h2, h3⟩

/-- Range check. -/
example : ∃ (env : Env K97 K97 K97 K97) (pp : UniversalParams K97 K97) (pk : RcPK K97 K97 K97)
      (vk : RcVK K97 K97) (π : RcProof K97 K97),
      kzgSetup 12 (33 : K97) (1 : K97) (1 : K97) = .ok pp ∧
      rcIndex pp ⟨3, 5⟩ = .ok (pk, vk) ∧ rcProve env pk [1, 4, 4] = .ok π := by
  have h : rcRun97 0 3 5 12 [1, 4, 4] = .ok () := by decide +kernel
  obtain ⟨pp, h1, h⟩ := bind_ok h
  obtain ⟨⟨pk, vk⟩, h2, h⟩ := bind_ok h
  obtain ⟨π, h3, -⟩ := bind_ok h
  exact ⟨_, pp, pk, vk, π, h1, h2, h3⟩

end VO
