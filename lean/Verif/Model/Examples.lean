import Verif.Model.Fibonacci
import Verif.Model.RangeCheck
import Verif.Model.R1csSnark
import Verif.Model.HprSnark
import Verif.Model.R1csPe
import Mathlib.Algebra.Order.Floor.Semiring
import Mathlib.Data.Rat.Floor

/-
Model of the example program `/repo/voproof/src/main.rs` and of the circuit of
`/repo/voproof/benches/r1cs_bench.rs`.  Output to the terminal is not modelled.  `setup` is `kzgSetup`
with the trapdoor and generators it draws as parameters.  `unwrap` and `?` are not told apart: both
propagate the error.
-/

namespace VO

variable {F G1 G2 GT : Type} [Field F] [DecidableEq F]
  [AddCommGroup G1] [Module F G1] [DecidableEq G1] [AddCommGroup G2] [Module F G2]
  [AddCommGroup GT] [Module F GT] [DecidableEq GT]

/-! ## Fibonacci -/

/-- The coefficients `t`, main.rs:78-80. -/
def fibExampleT (n : ℕ) : List F := (List.range n).map (fun (i : ℕ) => (i : F))

/-- The vector `w` after the loop of main.rs:81-85 (both initial values are `to_field(1)`). -/
def fibExampleVec (n : ℕ) : List F :=
  (List.range n).foldl (fun w i =>
    w ++ [w.getD (w.length - 2) 0 + w.getD (w.length - 1) 0 * (fibExampleT n : List F).getD i 0]) [1, 1]

/-- The instance, main.rs:86-88. -/
def fibExampleInstance (n : ℕ) : FibInstance F :=
  ⟨1, 1, (fibExampleVec n : List F).getLastD 0⟩

/-- The witness `w[2..]`, main.rs:90-92. -/
def fibExampleWitness (n : ℕ) : List F := (fibExampleVec n).drop 2

/-- `run_fibonacci_example`, main.rs:75-99. -/
def runFibonacciExample (env : Env F G1 G2 GT) (beta : F) (g : G1) (h : G2) (n : ℕ) : Res Unit := do
  let pp ← kzgSetup (fibMaxDegree n) beta g h
  let (pk, vk) ← fibIndex pp ⟨n, fibExampleT n⟩
  let π ← fibProve env pk (fibExampleInstance n) (fibExampleWitness n)
  fibVerify env vk (fibExampleInstance n) π

/-! ## Range check -/

/-- The witness of main.rs:107-111, `((range as f64) * (i as f64) / (n as f64)) as u64`.  `fl` is the
rounding of 64-bit floating-point numbers, applied to each conversion and each operation; the final
cast truncates. -/
def rangeExampleWitness (fl : ℚ → ℚ) (n range : ℕ) : List F :=
  (List.range n).map (fun (i : ℕ) =>
    ((⌊fl (fl (fl (range : ℚ) * fl (i : ℚ)) / fl (n : ℚ))⌋₊ : ℕ) : F))

/-- `run_range_check_example`, main.rs:101-118. -/
def runRangeCheckExample (fl : ℚ → ℚ) (env : Env F G1 G2 GT) (beta : F) (g : G1) (h : G2)
    (n range : ℕ) : Res Unit := do
  let cs : RangeCheck := ⟨n, range⟩
  let pp ← kzgSetup cs.n beta g h
  let (pk, vk) ← rcIndex (F := F) pp cs
  let π ← rcProve env pk (rangeExampleWitness fl n range)
  rcVerify env vk π

/-! ## R1CS -/

/-- The matrices of `TestCircuit`, main.rs:50-73 (benches/r1cs_bench.rs:43-65): variable 0 is the
constant one, 1, 2, 3 are the inputs `a`, `b`, `c`, and the `num_variables - 3` witness variables
follow.  `num_variables - 3` and `num_constraints - 1` panic on underflow.  Linear combinations are
kept sorted by variable, as `lc!() + ..` of `ark_relations` does. -/
def testCircuit (numVariables numConstraints : ℕ) : Res (ArkMatrices F) := do
  assertR (3 ≤ numVariables)
  assertR (1 ≤ numConstraints)
  let m := numVariables - 3
  let k := numConstraints - 1
  return {
    numInstanceVariables := 4
    numWitnessVariables := m
    numConstraints := m + k + 1
    a := List.replicate m [(1, 1), (1, 2)] ++ List.replicate k [(1, 1)] ++ [[]]
    b := List.replicate m [(1, 0)] ++ List.replicate k [(1, 2)] ++ [[]]
    c := (List.range m).map (fun i => [(1, 2), (1, 4 + i)]) ++ List.replicate k [(1, 3)] ++ [[]] }

/-- The assignment of `run_r1cs_example`, main.rs:127-128, and `computes_r1cs`,
benches/r1cs_bench.rs:98-99. -/
def testInstance (a b : F) : List F := [a, b, a * b]
/-- The witness, main.rs:128: `vec![a; num_variables - 3]`. -/
def testWitness (a : F) (numVariables : ℕ) : List F := List.replicate (numVariables - 3) a

/-- `run_r1cs_example`, main.rs:120-178, for any numbers of variables and constraints (main.rs uses 5
and 5, `a = 3`, `b = 2`); `extra` is what is added to the degree (10 in main.rs, 0 in the benches). -/
def runR1csExample (env : Env F G1 G2 GT) (beta : F) (g : G1) (h : G2)
    (numVariables numConstraints extra : ℕ) (a b : F) : Res Unit := do
  let m ← testCircuit numVariables numConstraints
  let r ← R1CS.ofArk m
  let size ← r.getSize
  let pp ← kzgSetup (r1csMaxDegree size + extra) beta g h
  let (pk, vk) ← r1csIndex env.gamma pp r
  let π ← r1csProve env pk (testInstance a b) (testWitness a numVariables)
  r1csVerify env vk (testInstance a b) π

/-- The computation of benches/r1cs_bench.rs:174-187 (`bench_verifier_pe_test_circuit_scale_1000`) with
the prover-efficient system, for any numbers of variables and constraints. -/
def runR1csPeBench (env : Env F G1 G2 GT) (beta : F) (g : G1) (h : G2)
    (numVariables numConstraints : ℕ) (a b : F) : Res Unit := do
  let m ← testCircuit numVariables numConstraints
  let r ← R1CS.ofArk m
  let size ← r.getSize
  let pp ← kzgSetup (r1csPeMaxDegree size) beta g h
  let (pk, vk) ← r1csPeIndex env.gamma pp r
  let π ← r1csPeProve env pk (testInstance a b) (testWitness a numVariables)
  r1csPeVerify env vk (testInstance a b) π

/-! ## HPR -/

/-- `run_hpr_example`, main.rs:180-215; the call of `satisfy` panics where the check does. -/
def runHprExample {S : Type} (rng : Rng S F) (s : S) (env : Env F G1 G2 GT) (beta : F) (g : G1)
    (h : G2) (scale : ℕ) : Res Unit := do
  let (hpr, x, w) ← generateRandomHpr rng scale scale (scale / 5) s
  let _ ← hpr.satisfy x w.1 w.2.1 w.2.2
  let size ← hpr.getSize
  let pp ← kzgSetup (hprMaxDegree size + 10) beta g h
  let (pk, vk) ← hprIndex env.gamma pp hpr
  let π ← hprProve env pk x w
  hprVerify env vk x π

end VO
