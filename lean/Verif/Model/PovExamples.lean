import Verif.Model.Pov
import Verif.Model.PovPe
import Verif.Model.Circuit

/-
Model of the program in `/repo/voproof/benches/pov_bench.rs` and of the first test in
`/repo/voproof/tests/pov_test.rs`: one circuit, run with both POV proof systems.  Output to the terminal is not
modelled; the three inputs are parameters (the programs use 1, 2, 3).
-/

namespace VO

variable {F G1 G2 GT : Type} [Field F] [DecidableEq F]
  [AddCommGroup G1] [Module F G1] [DecidableEq G1] [AddCommGroup G2] [Module F G2]
  [AddCommGroup GT] [Module F GT] [DecidableEq GT]

/-- The calls of pov_bench.rs:22-35 (pov_test.rs:19-32).  The variables `a, b, c, d, e, f, g, h, o, p` have
the numbers 0 to 9. -/
def povExampleCalls : List (Call F) :=
  [.input, .input, .input, .bin .add 0 1, .bin .mul 1 2, .bin .mul 3 4, .bin .add 0 3, .bin .mul 6 5,
    .const 10, .bin .mul 7 8, .complete, .markPublic 0, .markPublic 9]

/-- pov_bench.rs:21-48 (pov_test.rs:18-62): build the circuit, evaluate it, read instance and witness and
make the POV system; the numbers of gates and the length of the witness are asserted. -/
def povExampleTriple (a b c : F) : Res (POV F × POVInstance F × POVWitness F) := do
  let circ ← Circuit.run Circuit.new povExampleCalls
  let circ ← circ.evaluate [a, b, c]
  let ins ← circ.getInstance
  let wit ← circ.getWitness
  assertR (circ.getAddNum = 2 ∧ circ.getMulNum = 4 ∧ circ.getConstNum = 1)
  assertR (wit.w0.length = 7 ∧ wit.w1.length = 7 ∧ wit.w2.length = 7)
  let pov ← POV.ofCircuit circ
  let s ← pov.satisfy ins wit
  assertR (s = true)
  return (pov, ins, wit)

/-- pov_bench.rs:49-58 with `VOProofPOV`. -/
def runPovExample (env : Env F G1 G2 GT) (beta : F) (gen : G1) (h : G2) (a b c : F) : Res Unit := do
  let (pov, ins, wit) ← povExampleTriple a b c
  let pp ← kzgSetup (povMaxDegree pov.getSize + 10) beta gen h
  let (pk, vk) ← povIndex env.gamma pp pov
  let π ← povProve env pk ins wit
  povVerify env vk ins π

/-- pov_bench.rs:49-58 with `VOProofPOVProverEfficient`. -/
def runPovPeExample (env : Env F G1 G2 GT) (beta : F) (gen : G1) (h : G2) (a b c : F) : Res Unit := do
  let (pov, ins, wit) ← povExampleTriple a b c
  let pp ← kzgSetup (povPeMaxDegree pov.getSize + 10) beta gen h
  let (pk, vk) ← povPeIndex env.gamma pp pov
  let π ← povPeProve env pk ins wit
  povPeVerify env vk ins π

end VO
