import Verif.Model.PlonkHost
import Verif.Model.PlonkUtil
import Verif.Model.PlonkCircuit

/-
The circuits of `/repo/plonk/examples/simple_circuit.rs`, of the test in
`/repo/plonk-core/src/circuit.rs:327-382`, and of `/repo/plonk/examples/example_poly.rs`.
-/

namespace VO.Plonk

variable {F K : Type} [Field F] [DecidableEq F]

/-- `TestCircuit`, simple_circuit.rs:36-47, circuit.rs:335-342: five values and a point. `K` is the scalar
field of the embedded curve. -/
structure SimpleValues (F K : Type) where
  a : F
  b : F
  c : F
  d : F
  e : K
  f : F × F

/-- `gadget`, simple_circuit.rs:56-87 with `bitsA = 6` and `bitsB = 4`; circuit.rs:351-377 with
`bitsA = 1 << 6` and `bitsB = 1 << 5`. `gen` is `AFFINE_GENERATOR_COEFFS` of the curve. -/
def simpleGadget (S : PrimeRep K) (T : PrimeRep F) (R : FieldRep F) (E : EdCurve F) (gen : F × F)
    (bitsA bitsB : ℕ) (t : SimpleValues F K) : CM F (Except PErr Unit) := do
  let a ← addInput t.a
  let b ← addInput t.b
  let zero ← zeroVar
  let _ ← arithmeticGate { (ArithGate.new : ArithGate F) with
    witness := some (a, b, some zero), add := (1, 1), pi := some (-t.c) }
  rangeGate R a bitsA
  rangeGate R b bitsB
  let _ ← arithmeticGate { (ArithGate.new : ArithGate F) with
    witness := some (a, b, some zero), mul := 1, pi := some (-t.d) }
  let s ← liftC (fromEmbeddedCurveScalar S T t.e)
  let e ← addInput s
  liftC (assertR (E.check gen = true))
  let p ← fixedBaseScalarMul R E e gen
  assertEqualPublicPoint p t.f
  return .ok ()

/-- The circuit with its padded size, simple_circuit.rs:89-91, circuit.rs:379-381. -/
def simpleCirc (S : PrimeRep K) (T : PrimeRep F) (R : FieldRep F) (E : EdCurve F) (gen : F × F)
    (bitsA bitsB : ℕ) (t : SimpleValues F K) : Circ F :=
  ⟨simpleGadget S T R E gen bitsA bitsB t, 2 ^ 9⟩

/-- The circuit in the documentation of the trait `Circuit`, plonk-core/src/circuit.rs:119-157: the same
gadget (with the bounds `1 << 6` and `1 << 5`) and the padded size `1 << 11`. -/
def documentedCirc (S : PrimeRep K) (T : PrimeRep F) (R : FieldRep F) (E : EdCurve F) (gen : F × F)
    (t : SimpleValues F K) : Circ F :=
  ⟨simpleGadget S T R E gen 64 32 t, 2 ^ 11⟩

/-- `TestCircuit`, example_poly.rs:38-48; the dummy field only mentions the curve. -/
structure PolyValues (F : Type) where
  x : F
  y : F
  z : F
  r : F

/-- `gadget`, example_poly.rs:57-114. -/
def polyGadget (R : FieldRep F) (t : PolyValues F) : CM F (Except PErr Unit) := do
  let x ← addInput t.x
  let y ← addInput t.y
  let z ← addInput t.z
  let r ← addInput t.r
  let one ← addInput 1
  let zero ← zeroVar
  let twoYMinusZ ← arithmeticGate { (ArithGate.new : ArithGate F) with
    witness := some (y, z, none), add := (2, -1) }
  let yTimesZ ← arithmeticGate { (ArithGate.new : ArithGate F) with witness := some (y, z, none), mul := 1 }
  let xMinus1 ← arithmeticGate { (ArithGate.new : ArithGate F) with
    witness := some (x, zero, none), add := (1, 0), const := -1 }
  let xBool ← isZeroWithOutput xMinus1
  let xBoolNegate ← xorGate R xBool one 10
  let part1 ← arithmeticGate { (ArithGate.new : ArithGate F) with
    witness := some (xBool, yTimesZ, none), mul := 1 }
  let part2 ← arithmeticGate { (ArithGate.new : ArithGate F) with
    witness := some (xBoolNegate, twoYMinusZ, none), mul := 1 }
  let full ← arithmeticGate { (ArithGate.new : ArithGate F) with
    witness := some (part1, part2, none), add := (1, 1) }
  assertEqual full r
  return .ok ()

/-- The circuit with its padded size, example_poly.rs:116-118. -/
def polyCirc (R : FieldRep F) (t : PolyValues F) : Circ F := ⟨polyGadget R t, 2 ^ 9⟩

end VO.Plonk
