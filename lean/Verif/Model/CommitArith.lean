import Verif.Model.Snark

/-
Model of the arithmetic on commitments and on commitment randomness that no SNARK of the repository
calls but that the library exports: `combine_commits` and `commitment_linear_combination_no_one!`
(`/repo/voproof/src/tools/mod.rs`) and `Randomness` (`/repo/voproof/src/kzg/data_structures.rs`).
-/

namespace VO

variable {F G1 : Type} [Field F] [DecidableEq F] [AddCommGroup G1] [Module F G1]

/-- `combine_commits`, tools/mod.rs:131-142: `msm_unchecked`, over the common prefix. -/
def combineCommits (comms : List G1) (coeffs : List F) : G1 := msm comms coeffs

/-- `commitment_linear_combination_no_one!`, tools/mod.rs:457-469, with `sum!` (742-747): the
arguments are a non-empty list of pairs, given as its first element and the others. -/
def commitmentLinearCombinationNoOne : G1 × F → List (G1 × F) → G1
  | p, [] => p.2 • p.1
  | p, q :: l => p.2 • p.1 + commitmentLinearCombinationNoOne q l

/-- `Randomness`, kzg/data_structures.rs:340-344: the blinding polynomial, as its coefficients without
trailing zeros. -/
structure Randomness (F : Type) where
  blinding : List F
  deriving DecidableEq

/-- `Randomness::is_hiding`, kzg/data_structures.rs:349-352. -/
def Randomness.isHiding (r : Randomness F) : Bool := !(r.blinding.all (fun a => a = 0))

/-- `Randomness::calculate_hiding_polynomial_degree`, kzg/data_structures.rs:355-358. -/
def hidingDegree (hidingBound : ℕ) : ℕ := hidingBound + 1

/-- `Randomness::empty`, kzg/data_structures.rs:362-367. -/
def Randomness.empty : Randomness F := ⟨[]⟩

/-- `Randomness::rand`, kzg/data_structures.rs:369-374: `P::rand(d, rng)` (ark-poly) draws `d + 1`
coefficients and drops trailing zeros. -/
def Randomness.rand (rng : ℕ → F) (hidingBound : ℕ) : Randomness F :=
  ⟨polyFromVec (sampleVec rng 0 (hidingDegree hidingBound + 1))⟩

/-- `Add<&Randomness>` and `AddAssign<&Randomness>`, kzg/data_structures.rs:377-385, 399-407. -/
def Randomness.add (r s : Randomness F) : Randomness F := ⟨polyAdd r.blinding s.blinding⟩

/-- `Add<(F, &Randomness)>` and `AddAssign<(F, &Randomness)>`, kzg/data_structures.rs:387-397,
409-416. -/
def Randomness.addScaled (r : Randomness F) (f : F) (s : Randomness F) : Randomness F :=
  ⟨polyAdd r.blinding (polyScale s.blinding f)⟩

/-- `vector_diff!`, tools/mod.rs:1373-1382. -/
def vectorDiff (u v : List F) : Res (List F) := do
  assertR (u.length = v.length)
  return List.zipWith (fun a b => a - b) u v

/-- `check_expression_vector_eq!`, tools/mod.rs:1401-1410. -/
def checkExpressionVectorEq (len : ℤ) (f g : ℤ → F) : Res Unit :=
  checkVectorEq (expressionVector len f) (expressionVector len g)

/-- `compute_density!`, tools/mod.rs:837-842. -/
def computeDensity (v : List F) : ℕ := (v.filter (fun a => a ≠ 0)).length

end VO
