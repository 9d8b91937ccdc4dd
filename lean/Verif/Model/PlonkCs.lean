import Mathlib.Algebra.Field.Basic
import Mathlib.Data.Nat.Log
import Verif.Model.Basic

/-
The constraint-system layer of the vendored PLONK crate:
`/repo/plonk-core/src/constraint_system/` and the wire bookkeeping of
`/repo/plonk-core/src/permutation/mod.rs`.
-/

namespace VO.Plonk

/-- `/repo/plonk-core/src/constraint_system/variable.rs:11-12`, `Variable(usize)`. -/
scoped notation "Var" => Nat

/-- `/repo/plonk-core/src/constraint_system/variable.rs:25-36`, `WireData`: a position of the wire
table, named by its column and its gate index. -/
inductive WireData where
  | left (i : Nat)
  | right (i : Nat)
  | output (i : Nat)
  | fourth (i : Nat)
  deriving DecidableEq, Repr

/-- One entry of each of the fifteen selector vectors
(`/repo/plonk-core/src/constraint_system/composer.rs:65-97`). -/
structure Gate (F : Type) where
  m : F
  l : F
  r : F
  o : F
  q4 : F
  c : F
  hl : F
  hr : F
  h4 : F
  arith : F
  range : F
  logic : F
  fixed : F
  var : F
  lookup : F
  deriving DecidableEq

/-- `/repo/plonk-core/src/constraint_system/composer.rs:57-129`, `StandardComposer`.

`variables` and `perm` are hash maps in the code. Their keys are always `0, …, len - 1`, because
`add_input` (`composer.rs:256-265`) takes as the new key the number of keys and inserts it in
both, and nothing removes a key; they are lists here, indexed by the key. `public_inputs` is a
`BTreeMap<usize, F>` (`proof_system/pi.rs:34`), here the list of its entries in key order. -/
structure Composer (F : Type) where
  n : Nat
  q_m : List F
  q_l : List F
  q_r : List F
  q_o : List F
  q_4 : List F
  q_c : List F
  q_hl : List F
  q_hr : List F
  q_h4 : List F
  q_arith : List F
  q_range : List F
  q_logic : List F
  q_fixed_group_add : List F
  q_variable_group_add : List F
  q_lookup : List F
  public_inputs : List (Nat × F)
  intended_pi_pos : List Nat
  w_l : List Var
  w_r : List Var
  w_o : List Var
  w_4 : List Var
  lookup_table : List (F × F × F × F)
  zero_var : Var
  variables : List F
  perm : List (List WireData)

/-- A function that takes `&mut self` of the composer and may panic. -/
abbrev CM (F α : Type) := StateT (Composer F) (Except Err) α

section Basic
variable {F : Type}

/-- A failed `assert!`, `unwrap` or index. -/
def panicC {α : Type} : CM F α := fun _ => .error .panic

/-- `assert!(p)`. -/
def assertC (p : Prop) [Decidable p] : CM F Unit := fun c =>
  if p then .ok ((), c) else .error .panic

/-- `self.variables[&x]` and `self.variables.get(&x).unwrap()`; also `value_of_var`
(`composer.rs:810-815`). All panic when `x` is not a key. -/
def valueOfVar (x : Var) : CM F F := fun c =>
  match c.variables[x]? with
  | some s => .ok (s, c)
  | none => .error .panic

/-- `self.zero_var()` (`composer.rs:247-249`). -/
def zeroVar : CM F Var := fun c => .ok (c.zero_var, c)

/-- `/repo/plonk-core/src/constraint_system/composer.rs:256-265`, `add_input`, with
`Permutation::new_variable` (`permutation/mod.rs:50-60`): the new variable is the number of keys
of the wire map; it gets an empty list of wires and the value `s`. -/
def addInput (s : F) : CM F Var := fun c =>
  .ok (c.perm.length,
    { c with perm := c.perm ++ [[]], variables := c.variables ++ [s] })

/-- `/repo/plonk-core/src/permutation/mod.rs:95-102`, `add_variable_to_map`: the assertion that
the variable is a key, then the wire is pushed to its list. -/
def addVariableToMap (x : Var) (p : WireData) : CM F Unit := fun c =>
  match c.perm[x]? with
  | some ws => .ok ((), { c with perm := c.perm.set x (ws ++ [p]) })
  | none => .error .panic

/-- `/repo/plonk-core/src/permutation/mod.rs:72-93`, `add_variables_to_map`. -/
def addVariablesToMap (a b c d : Var) (i : Nat) : CM F Unit := do
  addVariableToMap a (.left i)
  addVariableToMap b (.right i)
  addVariableToMap c (.output i)
  addVariableToMap d (.fourth i)

/-- The pushes of one entry to each selector vector, which every gate of the crate does
(for instance `composer.rs:286-307`). -/
def pushSelectors (g : Gate F) : CM F Unit := fun c =>
  .ok ((), { c with
    q_m := c.q_m ++ [g.m], q_l := c.q_l ++ [g.l], q_r := c.q_r ++ [g.r], q_o := c.q_o ++ [g.o],
    q_4 := c.q_4 ++ [g.q4], q_c := c.q_c ++ [g.c], q_hl := c.q_hl ++ [g.hl],
    q_hr := c.q_hr ++ [g.hr], q_h4 := c.q_h4 ++ [g.h4], q_arith := c.q_arith ++ [g.arith],
    q_range := c.q_range ++ [g.range], q_logic := c.q_logic ++ [g.logic],
    q_fixed_group_add := c.q_fixed_group_add ++ [g.fixed],
    q_variable_group_add := c.q_variable_group_add ++ [g.var],
    q_lookup := c.q_lookup ++ [g.lookup] })

/-- `self.w_l.push(x)`. -/
def pushL (x : Var) : CM F Unit := fun c => .ok ((), { c with w_l := c.w_l ++ [x] })
/-- `self.w_r.push(x)`. -/
def pushR (x : Var) : CM F Unit := fun c => .ok ((), { c with w_r := c.w_r ++ [x] })
/-- `self.w_o.push(x)`. -/
def pushO (x : Var) : CM F Unit := fun c => .ok ((), { c with w_o := c.w_o ++ [x] })
/-- `self.w_4.push(x)`. -/
def push4 (x : Var) : CM F Unit := fun c => .ok ((), { c with w_4 := c.w_4 ++ [x] })

/-- The value of `self.n`. -/
def gateCount : CM F Nat := fun c => .ok (c.n, c)

/-- `self.n += k`. -/
def bump (k : Nat) : CM F Unit := fun c => .ok ((), { c with n := c.n + k })

/-- A whole gate: four wires, fifteen selectors, the four entries of the wire map and `n += 1`.
This is the shape of `poly_gate` (`composer.rs:286-318`), `boolean_gate`, `lookup_gate`, the two
hash gates, `fixed_group_add`, the dummy gates and the blinding gates; the pushes go to different
vectors, so their order inside one gate does not matter. -/
def pushGate (g : Gate F) (a b c d : Var) : CM F Unit := do
  pushL a
  pushR b
  pushO c
  push4 d
  pushSelectors g
  let n ← gateCount
  addVariablesToMap a b c d n
  bump 1

end Basic

section PublicInput
variable {F : Type} [Field F] [DecidableEq F]

/-- `BTreeMap::insert` of a key that is not present, on the list of entries in key order. -/
def btreeInsert (pos : Nat) (val : F) : List (Nat × F) → List (Nat × F)
  | [] => [(pos, val)]
  | (k, x) :: l => if pos < k then (pos, val) :: (k, x) :: l else (k, x) :: btreeInsert pos val l

/-- `/repo/plonk-core/src/proof_system/pi.rs:54-61`, `PublicInputs::insert`: panics when the
position holds a value; stores nothing when the value is zero. -/
def piInsert (pi : List (Nat × F)) (pos : Nat) (val : F) : Res (List (Nat × F)) :=
  if pi.any (fun e => e.1 == pos) then .error .panic
  else if val = 0 then .ok pi
  else .ok (btreeInsert pos val pi)

/-- `/repo/plonk-core/src/constraint_system/composer.rs:156-163`, `add_pi`, for one field element
(`ToConstraintField` of a field element is that element). -/
def addPi (val : F) : CM F Unit := fun c =>
  match piInsert c.public_inputs c.n val with
  | .ok ps => .ok ((), { c with public_inputs := ps
                                intended_pi_pos := c.intended_pi_pos ++ [c.n] })
  | .error e => .error e

/-- `if let Some(pi) = pi { self.add_pi(self.n, &pi).unwrap_or_else(panic) }`. -/
def addPiOpt : Option F → CM F Unit
  | some val => addPi val
  | none => pure ()

end PublicInput

section Gates
variable {F : Type} [Field F] [DecidableEq F]

/-- A gate with all selectors zero. -/
def gate0 : Gate F := ⟨0, 0, 0, 0, 0, 0, 0, 0, 0, 0, 0, 0, 0, 0, 0⟩

/-- `/repo/plonk-core/src/constraint_system/composer.rs:275-321`, `poly_gate`. -/
def polyGate (a b c : Var) (q_m q_l q_r q_o q_c : F) (pi : Option F) : CM F Unit := do
  let z ← zeroVar
  addPiOpt pi
  pushGate { (gate0 : Gate F) with
    l := q_l, r := q_r, m := q_m, o := q_o, c := q_c, arith := 1 } a b c z

/-- `/repo/plonk-core/src/constraint_system/composer.rs:328-340`, `constrain_to_constant`. -/
def constrainToConstant (a : Var) (constant : F) (pi : Option F) : CM F Unit :=
  polyGate a a a 0 1 0 0 (-constant) pi

/-- `/repo/plonk-core/src/constraint_system/composer.rs:344-356`, `assert_equal`. -/
def assertEqual (a b : Var) : CM F Unit := do
  let z ← zeroVar
  polyGate a b z 0 1 (-1) 0 0 none

/-- `/repo/plonk-core/src/constraint_system/composer.rs:196-200`,
`add_witness_to_circuit_description`. -/
def addWitnessToCircuitDescription (value : F) : CM F Var := do
  let x ← addInput value
  constrainToConstant x value none
  pure x

/-- `/repo/plonk-core/src/constraint_system/arithmetic.rs:13-24`, `ArithmeticGate`, with the
default of lines 31-41. -/
structure ArithGate (F : Type) where
  witness : Option (Var × Var × Option Var)
  fan_in_3 : Option (F × Var)
  mul : F
  add : F × F
  out : F
  const : F
  pi : Option F

/-- `/repo/plonk-core/src/constraint_system/arithmetic.rs:31-41`, the default gate. -/
def ArithGate.new : ArithGate F := ⟨none, none, 0, (0, 0), -1, 0, none⟩

/-- `/repo/plonk-core/src/constraint_system/arithmetic.rs:98-161`, `arithmetic_gate`. The closure
argument only builds the gate, so the argument here is the built gate. -/
def arithmeticGate (g : ArithGate F) : CM F Var := do
  match g.witness with
  | none => panicC
  | some (l, r, o) =>
    let z ← zeroVar
    let (q4, w4) := match g.fan_in_3 with
      | some p => p
      | none => ((0 : F), z)
    addPiOpt g.pi
    let c ← (match o with
      | some c => pure c
      | none => do
        let vl ← valueOfVar l
        let vr ← valueOfVar r
        let v4 ← valueOfVar w4
        addInput ((g.mul * (vl * vr) + g.add.1 * vl + g.add.2 * vr + g.const + q4 * v4
          + g.pi.getD 0) * (-g.out)))
    pushGate { (gate0 : Gate F) with
      q4 := q4, l := g.add.1, r := g.add.2, m := g.mul, o := g.out, c := g.const, arith := 1 }
      l r c w4
    pure c

/-- `/repo/plonk-core/src/constraint_system/boolean.rs:25-56`, `boolean_gate`. -/
def booleanGate (a : Var) : CM F Var := do
  let z ← zeroVar
  pushGate { (gate0 : Gate F) with m := 1, o := -1, arith := 1 } a a a z
  pure a

/-- `/repo/plonk-core/src/constraint_system/composer.rs:360-386`, `is_zero_with_output`. -/
def isZeroWithOutput (a : Var) : CM F Var := do
  let av ← valueOfVar a
  let yv := if av = 0 then (1 : F) else av⁻¹
  let bv := 1 - av * yv
  let y ← addInput yv
  let b ← addInput bv
  let z ← zeroVar
  let _ ← arithmeticGate { (ArithGate.new : ArithGate F) with
    witness := some (a, b, some z), mul := 1 }
  let _ ← arithmeticGate { (ArithGate.new : ArithGate F) with
    witness := some (a, y, some z), mul := 1, fan_in_3 := some (1, b), const := -1 }
  pure b

/-- `/repo/plonk-core/src/constraint_system/composer.rs:390-394`, `is_eq_with_output`. -/
def isEqWithOutput (a b : Var) : CM F Var := do
  let d ← arithmeticGate { (ArithGate.new : ArithGate F) with
    witness := some (a, b, none), add := (1, -1) }
  isZeroWithOutput d

/-- `/repo/plonk-core/src/constraint_system/composer.rs:406-433`, `conditional_select`. -/
def conditionalSelect (bit a b : Var) : CM F Var := do
  let z ← zeroVar
  let bitA ← arithmeticGate { (ArithGate.new : ArithGate F) with
    witness := some (bit, a, none), mul := 1 }
  let oneMinBit ← arithmeticGate { (ArithGate.new : ArithGate F) with
    witness := some (bit, z, none), add := (-1, 0), const := 1 }
  let bitB ← arithmeticGate { (ArithGate.new : ArithGate F) with
    witness := some (oneMinBit, b, none), mul := 1 }
  arithmeticGate { (ArithGate.new : ArithGate F) with
    witness := some (bitB, bitA, none), add := (1, 1) }

/-- `/repo/plonk-core/src/constraint_system/composer.rs:444-447`, `conditional_select_zero`. -/
def conditionalSelectZero (bit value : Var) : CM F Var :=
  arithmeticGate { (ArithGate.new : ArithGate F) with
    witness := some (bit, value, none), mul := 1 }

/-- `/repo/plonk-core/src/constraint_system/composer.rs:458-478`, `conditional_select_one`. -/
def conditionalSelectOne (bit value : Var) : CM F Var := do
  let vv ← valueOfVar value
  let bv ← valueOfVar bit
  let fx ← addInput (1 - bv + bv * vv)
  polyGate bit value fx 1 (-1) 0 (-1) 1 none
  pure fx

/-- `/repo/plonk-core/src/constraint_system/composer.rs:483-536`, `add_dummy_constraints`. -/
def addDummyConstraints : CM F Unit := do
  let six ← addInput (6 : F)
  let one ← addInput 1
  let seven ← addInput 7
  let minTwenty ← addInput (-20)
  pushGate { (gate0 : Gate F) with
    m := 1, l := 2, r := 3, o := 4, c := 4, q4 := 1, arith := 1, lookup := 1 }
    six seven minTwenty one
  let z ← zeroVar
  pushGate { (gate0 : Gate F) with
    m := 1, l := 1, r := 1, o := 1, c := 127, q4 := 0, arith := 1, lookup := 1 }
    minTwenty six seven z

/-- `/repo/plonk-core/src/lookup/lookup_table.rs:41-43`, `insert_row`, on the composer's table. -/
def insertRow (a b c d : F) : CM F Unit := fun s =>
  .ok ((), { s with lookup_table := s.lookup_table ++ [(a, b, c, d)] })

/-- `/repo/plonk-core/src/constraint_system/composer.rs:541-550`, `add_dummy_lookup_table`. -/
def addDummyLookupTable : CM F Unit := do
  insertRow 6 7 (-20) 1
  insertRow (-20) 6 7 0
  insertRow 3 1 4 9

/-- One turn of the loop of `add_blinding_factors` (`composer.rs:563-594`), the four random values
given. Returns the first two variables. -/
def blindRow (r : F × F × F × F) : CM F (Var × Var) := do
  let x1 ← addInput r.1
  let x2 ← addInput r.2.1
  let x3 ← addInput r.2.2.1
  let x4 ← addInput r.2.2.2
  pushGate gate0 x1 x2 x3 x4
  pure (x1, x2)

/-- `/repo/plonk-core/src/constraint_system/composer.rs:556-632`, `add_blinding_factors`, with the
eight values drawn from the generator as arguments. -/
def addBlindingFactors (r1 r2 : F × F × F × F) : CM F Unit := do
  let _ ← blindRow r1
  let (x1, x2) ← blindRow r2
  let z ← zeroVar
  pushGate gate0 x1 x2 z z

/-- The composer of `composer.rs:207-234`, before the first variable is reserved. -/
def emptyComposer : Composer F :=
  { n := 0, q_m := [], q_l := [], q_r := [], q_o := [], q_4 := [], q_c := [], q_hl := [],
    q_hr := [], q_h4 := [], q_arith := [], q_range := [], q_logic := [], q_fixed_group_add := [],
    q_variable_group_add := [], q_lookup := [], public_inputs := [], intended_pi_pos := [],
    w_l := [], w_r := [], w_o := [], w_4 := [], lookup_table := [], zero_var := 0,
    variables := [], perm := [] }

/-- `/repo/plonk-core/src/constraint_system/composer.rs:206-244`, `with_expected_size` (the size
only reserves memory), with the randomness as arguments. -/
def newComposer (r1 r2 : F × F × F × F) : Res (Composer F) :=
  match (do
    let z ← addWitnessToCircuitDescription (0 : F)
    modify fun c => { c with zero_var := z }
    addBlindingFactors r1 r2 : CM F Unit) emptyComposer with
  | .ok (_, c) => .ok c
  | .error e => .error e

/-- `/repo/plonk-core/src/constraint_system/composer.rs:139-146`, `total_size` and
`circuit_bound`. -/
def circuitBound (c : Composer F) : Nat :=
  2 ^ Nat.clog 2 (max c.n c.lookup_table.length)

/-- `/repo/plonk-core/src/constraint_system/lookup.rs:18-69`, `lookup_gate`. -/
def lookupGate (a b c : Var) (d : Option Var) (pi : Option F) : CM F Var := do
  let z ← zeroVar
  let d := d.getD z
  addPiOpt pi
  pushGate { (gate0 : Gate F) with lookup := 1 } a b c d
  pure c

/-- Field division `x / y` of the scalar type: panics when `y = 0`. -/
def divC (x y : F) : CM F F := if y = 0 then panicC else pure (x / y)

/-- `/repo/plonk-core/src/constraint_system/hash.rs:20-63`, `full_affine_transform_gate`, with
`SBOX_ALPHA = 5` (line 6). -/
def fullAffineTransformGate (v0 v1 v2 : Var) (q0 q1 q2 q3 q4 : F) : CM F Var := do
  let x0 ← valueOfVar v0
  let x1 ← valueOfVar v1
  let x2 ← valueOfVar v2
  let w ← divC (q0 * x0 ^ 5 + q1 * x1 ^ 5 + q2 * x2 ^ 5 + q3) (-q4)
  let w4 ← addInput w
  pushGate { (gate0 : Gate F) with hl := q0, hr := q1, h4 := q2, c := q3, o := q4, arith := 1 }
    v0 v1 w4 v2
  pure w4

/-- `/repo/plonk-core/src/constraint_system/hash.rs:72-115`, `partial_affine_transform_gate`. -/
def partialAffineTransformGate (v0 v1 v2 : Var) (q0 q1 q2 q3 q4 : F) : CM F Var := do
  let x0 ← valueOfVar v0
  let x1 ← valueOfVar v1
  let x2 ← valueOfVar v2
  let w ← divC (q0 * x0 ^ 5 + q1 * x1 + q2 * x2 + q3) (-q4)
  let w4 ← addInput w
  pushGate { (gate0 : Gate F) with hl := q0, r := q1, q4 := q2, c := q3, o := q4, arith := 1 }
    v0 v1 w4 v2
  pure w4

end Gates

/-- What the code uses of `PrimeField`: `into_bigint` as a natural number, the number of bits
`to_bits_le` returns (64 times the number of limbs) and `MODULUS_BIT_SIZE`. -/
structure FieldRep (F : Type) where
  toNat : F → Nat
  bigBits : Nat
  modBits : Nat

section Range
variable {F : Type} [Field F] [DecidableEq F]

/-- `x.into_bigint().to_bits_le()`. -/
def bitsLe (R : FieldRep F) (x : F) : List Bool :=
  (List.range R.bigBits).map (fun i => (R.toNat x).testBit i)

/-- `/repo/plonk-core/src/constraint_system/range.rs:30-55`, the closure `add_wire`. -/
def addWire (i : Nat) (x : Var) : CM F Unit := do
  let n ← gateCount
  let gi := n + i / 4
  if i % 4 = 0 then
    push4 x
    addVariableToMap x (.fourth gi)
  else if i % 4 = 1 then
    pushO x
    addVariableToMap x (.output gi)
  else if i % 4 = 2 then
    pushR x
    addVariableToMap x (.right gi)
  else
    pushL x
    addVariableToMap x (.left gi)

/-- `range.rs:133-135`, the padding loop, for indices `i, …, i + k - 1`. -/
def padLoop (z : Var) : Nat → Nat → CM F Unit
  | _, 0 => pure ()
  | i, k + 1 => do
    addWire i z
    padLoop z (i + 1) k

/-- `range.rs:137-152`, the accumulator loop, for indices `i, …, i + k - 1`, `acc` the running
accumulator. Returns the pushed accumulator variables. An index past the end of `bits` panics. -/
def accLoop (bits : List Bool) (numQuads : Nat) : Nat → Nat → F → CM F (List Var)
  | _, 0, _ => pure []
  | i, k + 1, acc => do
    let bi := (numQuads - i) * 2
    match bits[bi]?, bits[bi + 1]? with
    | some q0, some q1 =>
      let quad : Nat := q0.toNat + 2 * q1.toNat
      let acc := 4 * acc + (quad : F)
      let x ← addInput acc
      addWire i x
      let xs ← accLoop bits numQuads (i + 1) k acc
      pure (x :: xs)
    | _, _ => panicC

/-- `range.rs:154-176`: the selector vectors are extended by `k` zeros, `q_range` by `k` ones. -/
def extendRangeSelectors (k : Nat) : CM F Unit := fun c =>
  let zeros := List.replicate k (0 : F)
  let ones := List.replicate k (1 : F)
  .ok ((), { c with
    q_m := c.q_m ++ zeros, q_l := c.q_l ++ zeros, q_r := c.q_r ++ zeros, q_o := c.q_o ++ zeros,
    q_c := c.q_c ++ zeros, q_arith := c.q_arith ++ zeros, q_4 := c.q_4 ++ zeros,
    q_fixed_group_add := c.q_fixed_group_add ++ zeros,
    q_variable_group_add := c.q_variable_group_add ++ zeros,
    q_range := c.q_range ++ ones, q_logic := c.q_logic ++ zeros, q_lookup := c.q_lookup ++ zeros,
    q_hl := c.q_hl ++ zeros, q_hr := c.q_hr ++ zeros, q_h4 := c.q_h4 ++ zeros })

/-- `range.rs:184`, `*self.q_range.last_mut().unwrap() = F::zero()`. -/
def clearLastRange : CM F Unit := fun c =>
  if c.q_range = [] then .error .panic
  else .ok ((), { c with q_range := c.q_range.dropLast ++ [0] })

/-- `/repo/plonk-core/src/constraint_system/range.rs:27-199`, `range_gate`. -/
def rangeGate (R : FieldRep F) (witness : Var) (numBits : Nat) : CM F Unit := do
  assertC (numBits % 2 = 0)
  let wv ← valueOfVar witness
  let bits := bitsLe R wv
  let numGates := if numBits % 8 = 0 then numBits / 8 else numBits / 8 + 1
  let numQuads := numGates * 4
  let pad := 1 + (numQuads * 2 - numBits) / 2
  let usedGates := numGates + 1
  let z ← zeroVar
  padLoop z 0 pad
  let accs ← accLoop bits numQuads pad (numQuads + 1 - pad) 0
  extendRangeSelectors usedGates
  bump usedGates
  clearLastRange
  pushL z
  pushR z
  pushO z
  match accs.getLast? with
  | none => panicC
  | some last => assertEqual last witness

end Range

section Logic
variable {F : Type} [Field F] [DecidableEq F]

/-- `x.into_bigint().to_bits_be()` without its first `256 - num_bits` entries
(`logic.rs:57-70`). -/
def bitsBeTail (R : FieldRep F) (x : F) (numBits : Nat) : List Bool :=
  (bitsLe R x).reverse.drop (256 - numBits)

/-- The `i`-th quad of a list of bits (`logic.rs:120-127`): `(bits[2i] << 1) + bits[2i+1]`. -/
def quadAt (bits : List Bool) (i : Nat) : Option Nat :=
  match bits[2 * i]?, bits[2 * i + 1]? with
  | some hi, some lo => some (2 * hi.toNat + lo.toNat)
  | _, _ => none

/-- `logic.rs:113-238`, the loop, for rounds `i, …, i + k - 1`, with the three accumulators. The
three assertions of lines 190-192 compare the new quads with 4 and hold for every quad; they are
kept, as comparisons of the quads. -/
def logicLoop (aBits bBits : List Bool) (isXor : Bool) : Nat → Nat → F → F → F → CM F Unit
  | _, 0, _, _, _ => pure ()
  | i, k + 1, la, ra, oa => do
    match quadAt aBits i, quadAt bBits i with
    | some lq, some rq =>
      let oq := if isXor then Nat.xor lq rq else Nat.land lq rq
      let la := la * 4 + (lq : F)
      let ra := ra * 4 + (rq : F)
      let oa := oa * 4 + (oq : F)
      assertC (lq < 4)
      assertC (rq < 4)
      assertC (oq < 4)
      let va ← addInput la
      let vb ← addInput ra
      let vc ← addInput ((lq * rq : Nat) : F)
      let v4 ← addInput oa
      let n ← gateCount
      addVariableToMap va (.left n)
      addVariableToMap vb (.right n)
      addVariableToMap v4 (.fourth n)
      addVariableToMap vc (.output (n - 1))
      pushL va
      pushR vb
      pushO vc
      push4 v4
      bump 1
      logicLoop aBits bBits isXor (i + 1) k la ra oa
    | _, _ => panicC

/-- `logic.rs:255-279`, the selectors of the `k` active rows. -/
def logicSelectors (isXor : Bool) : Nat → CM F Unit
  | 0 => pure ()
  | k + 1 => do
    pushSelectors { (gate0 : Gate F) with
      c := if isXor then -1 else 1, logic := if isXor then -1 else 1 }
    logicSelectors isXor k

/-- `self.w_4[self.w_4.len() - 1]` (`logic.rs:315`). -/
def lastFourth : CM F Var := fun c =>
  match c.w_4.getLast? with
  | some x => .ok (x, c)
  | none => .error .panic

/-- `/repo/plonk-core/src/constraint_system/logic.rs:36-316`, `logic_gate`. `256 - num_bits`
underflows, so the call panics, when `num_bits > 256`. -/
def logicGate (R : FieldRep F) (a b : Var) (numBits : Nat) (isXor : Bool) : CM F Var := do
  assertC (numBits % 2 = 0)
  let numQuads := numBits / 2
  let av ← valueOfVar a
  assertC (numBits ≤ 256)
  let aBits := bitsBeTail R av numBits
  let bv ← valueOfVar b
  let bBits := bitsBeTail R bv numBits
  assertC (numBits ≤ aBits.length)
  assertC (numBits ≤ bBits.length)
  let z ← zeroVar
  let n ← gateCount
  addVariableToMap z (.left n)
  addVariableToMap z (.right n)
  addVariableToMap z (.fourth n)
  pushL z
  pushR z
  push4 z
  bump 1
  logicLoop aBits bBits isXor 0 numQuads 0 0 0
  let n ← gateCount
  addVariableToMap z (.output (n - 1))
  pushO z
  logicSelectors isXor numQuads
  pushSelectors gate0
  lastFourth

/-- `logic.rs:324-326`, `xor_gate`. -/
def xorGate (R : FieldRep F) (a b : Var) (numBits : Nat) : CM F Var := logicGate R a b numBits true

/-- `logic.rs:335-337`, `and_gate`. -/
def andGate (R : FieldRep F) (a b : Var) (numBits : Nat) : CM F Var :=
  logicGate R a b numBits false

end Logic

/-- What the code uses of a twisted Edwards curve (`TECurveConfig`): the coefficients and the
subgroup test of `Affine::new`. -/
structure EdCurve (F : Type) where
  a : F
  d : F
  inSubgroup : F → F → Bool

section Ecc
variable {F : Type} [Field F] [DecidableEq F]

/-- The affine addition law of the curve. arkworks adds in extended coordinates; the result has
these affine coordinates whenever the two denominators are not zero. -/
def EdCurve.add (E : EdCurve F) (P Q : F × F) : F × F :=
  ((P.1 * Q.2 + P.2 * Q.1) / (1 + E.d * P.1 * Q.1 * P.2 * Q.2),
   (P.2 * Q.2 - E.a * P.1 * Q.1) / (1 - E.d * P.1 * Q.1 * P.2 * Q.2))

/-- `Affine::new(x, y)` of ark-ec: panics unless the point is on the curve and in the prime-order
subgroup. -/
def EdCurve.check (E : EdCurve F) (P : F × F) : Bool :=
  decide (E.a * P.1 ^ 2 + P.2 ^ 2 = 1 + E.d * P.1 ^ 2 * P.2 ^ 2) && E.inSubgroup P.1 P.2

/-- `/repo/plonk-core/src/constraint_system/ecc/mod.rs:22-34`, `Point`. -/
structure Point where
  x : Var
  y : Var
  deriving DecidableEq

/-- `/repo/plonk-core/src/constraint_system/ecc/mod.rs:58-61`, `Point::identity`. -/
def pointIdentity : CM F Point := do
  let one ← addWitnessToCircuitDescription (1 : F)
  let z ← zeroVar
  pure ⟨z, one⟩

/-- `/repo/plonk-core/src/constraint_system/ecc/mod.rs:81-83`, `add_affine`. -/
def addAffine (P : F × F) : CM F Point := do
  let x ← addInput P.1
  let y ← addInput P.2
  pure ⟨x, y⟩

/-- `/repo/plonk-core/src/constraint_system/ecc/mod.rs:106-109`, `assert_equal_public_point`. -/
def assertEqualPublicPoint (p : Point) (P : F × F) : CM F Unit := do
  constrainToConstant p.x 0 (some (-P.1))
  constrainToConstant p.y 0 (some (-P.2))

/-- `/repo/plonk-core/src/constraint_system/ecc/mod.rs:87-92`, `add_public_affine`. -/
def addPublicAffine (P : F × F) : CM F Point := do
  let p ← addAffine P
  constrainToConstant p.x 0 (some (-P.1))
  constrainToConstant p.y 0 (some (-P.2))
  pure p

/-- `/repo/plonk-core/src/constraint_system/ecc/mod.rs:96-102`,
`add_affine_to_circuit_description`. -/
def addAffineToCircuitDescription (P : F × F) : CM F Point := do
  let x ← addWitnessToCircuitDescription P.1
  let y ← addWitnessToCircuitDescription P.2
  pure ⟨x, y⟩

/-- `/repo/plonk-core/src/constraint_system/ecc/mod.rs:119-122`, `assert_equal_point`. -/
def assertEqualPoint (p q : Point) : CM F Unit := do
  assertEqual p.x q.x
  assertEqual p.y q.y

/-- `/repo/plonk-core/src/constraint_system/ecc/mod.rs:137-147`, `conditional_point_select`. -/
def conditionalPointSelect (p1 p0 : Point) (bit : Var) : CM F Point := do
  let x ← conditionalSelect bit p1.x p0.x
  let y ← conditionalSelect bit p1.y p0.y
  pure ⟨x, y⟩

/-- `/repo/plonk-core/src/constraint_system/ecc/mod.rs:157-169`, `conditional_point_neg`. -/
def conditionalPointNeg (bit : Var) (p : Point) : CM F Point := do
  let z ← zeroVar
  let xn ← arithmeticGate { (ArithGate.new : ArithGate F) with
    witness := some (p.x, z, none), add := (-1, 0) }
  let xu ← conditionalSelect bit xn p.x
  pure ⟨xu, p.y⟩

/-- `/repo/plonk-core/src/constraint_system/ecc/mod.rs:184-189`,
`conditional_select_identity`. -/
def conditionalSelectIdentity (bit : Var) (p : Point) : CM F Point := do
  let x ← conditionalSelectZero bit p.x
  let y ← conditionalSelectOne bit p.y
  pure ⟨x, y⟩

/-- `/repo/plonk-core/src/constraint_system/ecc/curve_addition/variable_base_gate.rs:24-89`,
`point_addition_gate`. -/
def pointAdditionGate (E : EdCurve F) (p q : Point) : CM F Point := do
  let x1 ← valueOfVar p.x
  let y1 ← valueOfVar p.y
  let x2 ← valueOfVar q.x
  let y2 ← valueOfVar q.y
  assertC (E.check (x1, y1) = true)
  assertC (E.check (x2, y2) = true)
  let S := E.add (x1, y1) (x2, y2)
  let x1y2 ← addInput (x1 * y2)
  let x3 ← addInput S.1
  let y3 ← addInput S.2
  let z ← zeroVar
  pushGate { (gate0 : Gate F) with var := 1 } p.x p.y q.x q.y
  pushGate gate0 x3 y3 z x1y2
  pure ⟨x3, y3⟩

/-- `/repo/plonk-core/src/constraint_system/ecc/scalar_mul/variable_base.rs:57-61`, the bits of
the witness as variables. -/
def addBits : List Bool → CM F (List Var)
  | [] => pure []
  | b :: bs => do
    let x ← addInput (if b then (1 : F) else 0)
    let xs ← addBits bs
    pure (x :: xs)

/-- `variable_base.rs:71-79`, the accumulation loop from power `k`. -/
def decomposeLoop : Nat → List Var → Var → CM F Var
  | _, [], acc => pure acc
  | k, b :: bs, acc => do
    let _ ← booleanGate b
    let acc ← arithmeticGate { (ArithGate.new : ArithGate F) with
      witness := some (b, acc, none), add := ((2 : F) ^ k, 1) }
    decomposeLoop (k + 1) bs acc

/-- `/repo/plonk-core/src/constraint_system/ecc/scalar_mul/variable_base.rs:50-83`,
`scalar_decomposition`. -/
def scalarDecomposition (R : FieldRep F) (x : Var) (s : F) : CM F (List Var) := do
  let all ← addBits (bitsLe R s)
  assertC (R.modBits ≤ all.length)
  let bits := all.take R.modBits
  let z ← zeroVar
  let acc ← decomposeLoop 0 bits z
  assertEqual acc x
  pure bits

/-- `variable_base.rs:41-45`, the double-and-add loop over the bits, most significant first. -/
def doubleAddLoop (E : EdCurve F) (p : Point) : List Var → Point → CM F Point
  | [], acc => pure acc
  | b :: bs, acc => do
    let acc ← pointAdditionGate E acc acc
    let q ← conditionalSelectIdentity b p
    let acc ← pointAdditionGate E acc q
    doubleAddLoop E p bs acc

/-- `/repo/plonk-core/src/constraint_system/ecc/scalar_mul/variable_base.rs:25-48`,
`variable_base_scalar_mul`. -/
def variableBaseScalarMul (R : FieldRep F) (E : EdCurve F) (x : Var) (p : Point) :
    CM F Point := do
  let s ← valueOfVar x
  let bits ← scalarDecomposition R x s
  let idp ← pointIdentity
  doubleAddLoop E p bits.reverse idp

/-- `/repo/plonk-core/src/constraint_system/ecc/curve_addition/fixed_base_gate.rs:77-112`,
`fixed_group_add`, the round given by its seven fields (lines 17-48). -/
def fixedGroupAdd (accX accY bit xyAlpha : Var) (xBeta yBeta xyBeta : F) : CM F Unit :=
  pushGate { (gate0 : Gate F) with l := xBeta, r := yBeta, c := xyBeta, fixed := 1 }
    accX accY xyAlpha bit

/-- `/repo/plonk-core/src/constraint_system/ecc/scalar_mul/fixed_base.rs:17-29`,
`compute_wnaf_point_multiples`: `k` successive doublings, the base first. -/
def pointMultiples (E : EdCurve F) : Nat → F × F → List (F × F)
  | 0, _ => []
  | k + 1, P => P :: pointMultiples E k (E.add P P)

/-- `BigInteger::find_wnaf(2)` of ark-ff on a natural number: digits in `{-1, 0, 1}`, least
significant first; `fuel` bounds the number of digits. -/
def wnaf : Nat → Nat → List Int
  | 0, _ => []
  | fuel + 1, e =>
    if e = 0 then []
    else if e % 4 = 1 then 1 :: wnaf fuel ((e - 1) / 2)
    else if e % 4 = 3 then -1 :: wnaf fuel ((e + 1) / 2)
    else 0 :: wnaf fuel (e / 2)

/-- `fixed_base.rs:78-105`: the accumulators. Given the digits most significant first and the
multiples in the same order, the lists after each step: scalars, points and `xy_alpha`. -/
def wnafAccs (E : EdCurve F) : List Int → List (F × F) → F → F × F → List (F × (F × F) × F)
  | e :: es, M :: Ms, s, P =>
    let sa : F := if e = 0 then 0 else if e = -1 then -1 else 1
    let Q : F × F := if e = 0 then (0, 1) else if e = -1 then (-M.1, M.2) else M
    let s' := 2 * s + sa
    let P' := E.add P Q
    (s', P', Q.1 * Q.2) :: wnafAccs E es Ms s' P'
  | _, _, _, _ => []

/-- `fixed_base.rs:107-139`, the loop over the rounds. Each round is the accumulators before it
(scalar and point), the `xy_alpha` of its step and its multiple. -/
def fixedLoop : Bool → List ((F × (F × F)) × F × (F × F)) → CM F Unit
  | _, [] => pure ()
  | first, ((s, P), xy, M) :: rest => do
    let ax ← addInput P.1
    let ay ← addInput P.2
    let ab ← addInput s
    if first then
      constrainToConstant ax 0 none
      constrainToConstant ay 1 none
      constrainToConstant ab 0 none
    let xa ← addInput xy
    fixedGroupAdd ax ay ab xa M.1 M.2 (M.1 * M.2)
    fixedLoop false rest

/-- `/repo/plonk-core/src/constraint_system/ecc/scalar_mul/fixed_base.rs:46-155`,
`fixed_base_scalar_mul`. The leading zero digits added by lines 73-76 are put in front of the
digits here; their steps leave the scalar `0` and the identity point and have `xy_alpha = 0`, the
values the code writes for them. `multiples[0]` (line 26) panics when the modulus has no bits. -/
def fixedBaseScalarMul (R : FieldRep F) (E : EdCurve F) (x : Var) (base : F × F) :
    CM F Point := do
  let numBits := R.modBits
  assertC (0 < numBits)
  let multiples := (pointMultiples E numBits base).reverse
  let s ← valueOfVar x
  let digits := wnaf (R.bigBits + 1) (R.toNat s)
  assertC (digits.length ≤ numBits)
  let steps := wnafAccs E (List.replicate (numBits - digits.length) 0 ++ digits.reverse)
    multiples 0 (0, 1)
  let befores := (0, ((0 : F), (1 : F))) :: steps.map (fun t => (t.1, t.2.1))
  fixedLoop true (befores.dropLast.zip ((steps.map (fun t => t.2.2)).zip multiples))
  match befores.getLast? with
  | none => panicC
  | some (sLast, PLast) =>
    let ax ← addInput PLast.1
    let ay ← addInput PLast.2
    let z ← zeroVar
    let last ← addInput sLast
    let _ ← arithmeticGate { (ArithGate.new : ArithGate F) with
      witness := some (ax, ay, some z), fan_in_3 := some (0, last), out := 0 }
    assertEqual last x
    pure ⟨ax, ay⟩

end Ecc

end VO.Plonk
