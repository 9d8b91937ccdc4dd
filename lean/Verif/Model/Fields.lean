import Verif.Model.PlonkProof
import Verif.Model.PlonkUtil
import Mathlib.Data.ZMod.Defs
import Mathlib.Algebra.Field.ZMod

/-
The scalar fields the repository is used with: `ark_bls12_381::Fr` (`/repo/voproof/src/main.rs:218-238`,
`/repo/voproof/Cargo.toml:24-27`, the tests of plonk-core) and `ark_bls12_377::Fr`
(`/repo/voproof/src/cs/circuit/fan_in_two.rs:789`, `/repo/voproof/src/kzg/mod.rs:452`,
`/repo/voproof/Cargo.toml:28-31`, the tests of plonk-core). The constants are those of the `FrConfig` of
the two crates: modulus, generator, two-adicity.
-/

namespace VO

/-- `ark_bls12_381::Fr::MODULUS`. -/
def r381 : ℕ := 52435875175126190479447740508185965837690552500527637822603658699938581184513

/-- `ark_bls12_377::Fr::MODULUS`. -/
def r377 : ℕ := 8444461749428370424248824938781546531375899335154063827935233455917409239041

/-- `ark_bls12_381::Fr`. -/
abbrev Fr381 := ZMod r381

/-- `ark_bls12_377::Fr`. -/
abbrev Fr377 := ZMod r377

/-- `FftField` of a prime field (ark-ff): `TWO_ADIC_ROOT_OF_UNITY = GENERATOR ^ T` where
`modulus - 1 = T * 2 ^ TWO_ADICITY`, and `get_root_of_unity(2 ^ e)` squares it `TWO_ADICITY - e` times
(used by `Radix2EvaluationDomain::new`, tools/mod.rs:1069-1073). -/
def fftOf (p generator twoAdicity : ℕ) [Fact p.Prime] : FftParams (ZMod p) :=
  ⟨twoAdicity, fun e => (((generator : ℕ) : ZMod p) ^ ((p - 1) / 2 ^ twoAdicity)) ^ 2 ^ (twoAdicity - e)⟩

/-- The field for the PLONK prover: `F::GENERATOR` shifts the coset of the quotient
(`/repo/plonk-core/src/proof_system/quotient_poly.rs`, ark-poly `get_coset`). -/
def pfieldOf (p generator twoAdicity : ℕ) [Fact p.Prime] : Plonk.PField (ZMod p) :=
  ⟨fftOf p generator twoAdicity, ((generator : ℕ) : ZMod p)⟩

/-- The integers below the modulus, in `limbs` 64-bit limbs. -/
def primeRepOf (p limbs : ℕ) : Plonk.PrimeRep (ZMod p) := ⟨ZMod.val, p, limbs⟩

/-- `ark_ed_on_bls12_381::EdwardsConfig` (`/repo/voproof/Cargo.toml:51`, the tests of plonk-core, for
example `/repo/plonk-core/src/constraint_system/composer.rs:1002`): `a = -1`, `d = -(10240/10241)`. The
test for the subgroup is a parameter. -/
def ed381 (sub : Fr381 → Fr381 → Bool) [Fact r381.Prime] : Plonk.EdCurve Fr381 :=
  ⟨-1, -(10240 / 10241), sub⟩

/-- `ark_ed_on_bls12_377::EdwardsConfig` (the tests of plonk-core, for example
`/repo/plonk-core/src/constraint_system/composer.rs:1013`): `a = -1`, `d = 3021`. -/
def ed377 (sub : Fr377 → Fr377 → Bool) : Plonk.EdCurve Fr377 := ⟨-1, 3021, sub⟩

end VO
