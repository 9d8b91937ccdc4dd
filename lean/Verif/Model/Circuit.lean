import Verif.Model.Cs

/-
Model of the circuit builder `/repo/voproof/src/cs/circuit/fan_in_two.rs`, of the translation
from R1CS `/repo/voproof/src/cs/circuit/mod.rs` and of the conversions to POV in
`/repo/voproof/src/cs/pov.rs:73-83, 136-169`.

A `VariableRef` is its index.  The pairs of twin functions for addition and multiplication gates
are one function with a `Kind` argument.  `const_vars_cache` is keyed by the element itself
instead of its `Debug` text (the canonical decimal integer of a field element, so injective).
`HashMap`s are association lists.  Functions that return an error value after having changed the
circuit return the pair of result and state; in the others the state of a failed call is dropped.
-/

namespace VO

variable {F : Type} [Field F] [DecidableEq F]

/-- The two sorts of binary gates, fan_in_two.rs:20-32. -/
inductive Kind where
  | add
  | mul
  deriving DecidableEq, Repr

/-- `InputWireType`, fan_in_two.rs:63-67. -/
inductive Side where
  | left
  | right
  deriving DecidableEq, Repr

/-- `AddGate` and `MulGate`, fan_in_two.rs:20-32. -/
structure BinGate where
  left : ℕ
  right : ℕ
  output : ℕ
  deriving DecidableEq, Repr

/-- `ConstGate`, fan_in_two.rs:34-38. -/
structure ConstGate (F : Type) where
  output : ℕ
  value : F

/-- `InputGateWire`, fan_in_two.rs:75-79. -/
structure InputGateWire where
  kind : Kind
  idx : ℕ
  side : Side
  deriving DecidableEq, Repr

/-- `OutputGateWire`, fan_in_two.rs:81-86; also `GateRef`, 46-51. -/
inductive OutputGateWire where
  | bin (k : Kind) (i : ℕ)
  | const (i : ℕ)
  deriving DecidableEq, Repr

/-- `GateWire`, fan_in_two.rs:88-92. -/
inductive GateWire where
  | input (w : InputGateWire)
  | output (w : OutputGateWire)
  deriving DecidableEq, Repr

/-- `Variable`, fan_in_two.rs:122-127. -/
structure Variable (F : Type) where
  inputWires : List InputGateWire
  outputWire : Option OutputGateWire
  value : Option F

/-- `Variable::new`, fan_in_two.rs:661-667. -/
def Variable.new : Variable F := ⟨[], none, none⟩

/-- `FanInTwoCircuit`, fan_in_two.rs:6-18. -/
structure Circuit (F : Type) where
  addGates : List BinGate
  mulGates : List BinGate
  constGates : List (ConstGate F)
  publicIo : List GateWire
  numInputs : ℕ
  outputs : List ℕ
  vars : List (Variable F)
  assertEquals : List (ℕ × ℕ)
  addCache : List ((ℕ × ℕ) × ℕ)
  mulCache : List ((ℕ × ℕ) × ℕ)
  constCache : List (F × ℕ)

/-- `FanInTwoCircuit::new`, fan_in_two.rs:135-149. -/
def Circuit.new : Circuit F := ⟨[], [], [], [], 0, [], [], [], [], [], []⟩

namespace Circuit

/-- The gates of one kind (`add_gates` or `mul_gates`), fan_in_two.rs:7-8. -/
def gates (c : Circuit F) : Kind → List BinGate
  | .add => c.addGates
  | .mul => c.mulGates

/-- The cache of one kind (`add_vars_cache` or `mul_vars_cache`), fan_in_two.rs:15-16. -/
def cache (c : Circuit F) : Kind → List ((ℕ × ℕ) × ℕ)
  | .add => c.addCache
  | .mul => c.mulCache

/-- `add_gates.push` (fan_in_two.rs:286-290) or `mul_gates.push` (310-314). -/
def pushGate (c : Circuit F) (k : Kind) (g : BinGate) : Circuit F :=
  match k with
  | .add => { c with addGates := c.addGates ++ [g] }
  | .mul => { c with mulGates := c.mulGates ++ [g] }

/-- `add_vars_cache.insert` (fan_in_two.rs:346) or `mul_vars_cache.insert` (359). -/
def pushCache (c : Circuit F) (k : Kind) (e : (ℕ × ℕ) × ℕ) : Circuit F :=
  match k with
  | .add => { c with addCache := e :: c.addCache }
  | .mul => { c with mulCache := e :: c.mulCache }

/-- `get_add_num`, fan_in_two.rs:151-153. -/
def getAddNum (c : Circuit F) : ℕ := c.addGates.length
/-- `get_mul_num`, fan_in_two.rs:155-157. -/
def getMulNum (c : Circuit F) : ℕ := c.mulGates.length
/-- `get_const_num`, fan_in_two.rs:159-161. -/
def getConstNum (c : Circuit F) : ℕ := c.constGates.length
/-- `get_gate_num`, fan_in_two.rs:163-165. -/
def getGateNum (c : Circuit F) : ℕ := c.getAddNum + c.getMulNum + c.getConstNum
/-- `get_consts`, fan_in_two.rs:167-173. -/
def getConsts (c : Circuit F) : List F := c.constGates.map (·.value)

/-- `add_new_variable`, fan_in_two.rs:258-263. -/
def addNewVariable (c : Circuit F) : ℕ × Circuit F :=
  (c.vars.length, { c with vars := c.vars ++ [Variable.new] })

/-- `assert_no_gate`, fan_in_two.rs:265-271. -/
def assertNoGate (c : Circuit F) : Res Unit :=
  if c.addGates = [] ∧ c.mulGates = [] ∧ c.constGates.length = 0 then .ok ()
  else .error .gatesAreNotEmpty

/-- `add_global_input_variable`, fan_in_two.rs:273-278. -/
def addGlobalInputVariable (c : Circuit F) : Res (ℕ × Circuit F) :=
  match c.assertNoGate with
  | .error e => .error e
  | .ok () =>
    let (r, c) := c.addNewVariable
    .ok (r, { c with numInputs := c.numInputs + 1 })

/-- `get_var_mut(v)` followed by pushing an input wire (fan_in_two.rs:214-216, 722-724, 735-737);
an index out of range panics. -/
def attachInput (c : Circuit F) (v : ℕ) (w : InputGateWire) : Res Unit × Circuit F :=
  match c.vars[v]? with
  | none => (.error .panic, c)
  | some x => (.ok (), { c with vars := c.vars.set v { x with inputWires := x.inputWires ++ [w] } })

/-- `get_var_mut(v)` followed by setting the output wire (fan_in_two.rs:725-728, 738-741,
746-750), an error when the variable already is an output (764-770). -/
def attachOutput (c : Circuit F) (v : ℕ) (w : OutputGateWire) : Res Unit × Circuit F :=
  match c.vars[v]? with
  | none => (.error .panic, c)
  | some x =>
    if x.outputWire.isSome then (.error .variableAlreadySetAsOutput, c)
    else (.ok (), { c with vars := c.vars.set v { x with outputWire := some w } })

/-- `add_add_gate`, fan_in_two.rs:280-302, and `add_mul_gate`, 304-326. -/
def addBinGate (c : Circuit F) (k : Kind) (a b out : ℕ) : Res Unit × Circuit F :=
  let c := c.pushGate k ⟨a, b, out⟩
  let i := (c.gates k).length - 1
  match c.attachInput a ⟨k, i, .left⟩ with
  | (.error e, c) => (.error e, c)
  | (.ok (), c) =>
    match c.attachInput b ⟨k, i, .right⟩ with
    | (.error e, c) => (.error e, c)
    | (.ok (), c) => c.attachOutput out (.bin k i)

/-- `add_const_gate`, fan_in_two.rs:328-336. -/
def addConstGate (c : Circuit F) (v : F) (out : ℕ) : Res Unit × Circuit F :=
  let c : Circuit F := { c with constGates := c.constGates ++ [⟨out, v⟩] }
  c.attachOutput out (.const (c.constGates.length - 1))

/-- `add_vars`, fan_in_two.rs:338-349, and `mul_vars`, 351-362 (`unwrap` panics on any error). -/
def binVars (c : Circuit F) (k : Kind) (a b : ℕ) : Res (ℕ × Circuit F) :=
  let (a, b) := if a < b then (a, b) else (b, a)
  match (c.cache k).lookup (a, b) with
  | some v => .ok (v, c)
  | none =>
    let (ret, c) := c.addNewVariable
    match c.addBinGate k a b ret with
    | (.error _, _) => .error .panic
    | (.ok (), c) => .ok (ret, c.pushCache k ((a, b), ret))

/-- `const_var`, fan_in_two.rs:364-375. -/
def constVar (c : Circuit F) (v : F) : Res (ℕ × Circuit F) :=
  match c.constCache.lookup v with
  | some r => .ok (r, c)
  | none =>
    let (ret, c) := c.addNewVariable
    match c.addConstGate v ret with
    | (.error _, _) => .error .panic
    | (.ok (), c) => .ok (ret, { c with constCache := (v, ret) :: c.constCache })

/-- `get_var_value`, fan_in_two.rs:218-224, 234-240; an index out of range panics. -/
def getVarValue (c : Circuit F) (v : ℕ) : Res F :=
  match c.vars[v]? with
  | none => .error .panic
  | some x => match x.value with
    | some a => .ok a
    | none => .error (.variableNotSet v)

/-- `set_var`, fan_in_two.rs:246-248. -/
def setVar (c : Circuit F) (v : ℕ) (a : F) : Res (Circuit F) :=
  match c.vars[v]? with
  | none => .error .panic
  | some x => .ok { c with vars := c.vars.set v { x with value := some a } }

/-- The operation of a gate, fan_in_two.rs:382 and 386. -/
def op (k : Kind) (a b : F) : F :=
  match k with
  | .add => a + b
  | .mul => a * b

/-- `eval_gate`, fan_in_two.rs:377-391, with `get_gate`, 250-256. -/
def evalGate (c : Circuit F) (g : OutputGateWire) : Res (Circuit F) :=
  match g with
  | .bin k i =>
    match (c.gates k)[i]? with
    | none => .error .panic
    | some g => do
      let a ← c.getVarValue g.left
      let b ← c.getVarValue g.right
      c.setVar g.output (op k a b)
  | .const i =>
    match c.constGates[i]? with
    | none => .error .panic
    | some g => c.setVar g.output g.value

/-- `is_complete`, fan_in_two.rs:411-413. -/
def isComplete (c : Circuit F) : Bool := !c.outputs.isEmpty

/-- The loop of `mark_as_complete`, fan_in_two.rs:397-404, from variable `i` on: result and
accumulated outputs. -/
def completeGo : ℕ → List (Variable F) → List ℕ → Res Unit × List ℕ
  | _, [], outs => (.ok (), outs)
  | i, x :: l, outs =>
    if x.inputWires.isEmpty ∧ ¬ x.outputWire.isSome then (.error (.variableNotConnected i), outs)
    else completeGo (i + 1) l (if x.inputWires.isEmpty then outs ++ [i] else outs)

/-- `mark_as_complete`, fan_in_two.rs:393-409.  The outputs collected before an error stay in the
circuit. -/
def markAsComplete (c : Circuit F) : Res Unit × Circuit F :=
  if c.numInputs = 0 then (.error .circuitHasNoGlobalInput, c)
  else
    match completeGo 0 c.vars c.outputs with
    | (.error e, outs) => (.error e, { c with outputs := outs })
    | (.ok (), outs) =>
      let c := { c with outputs := outs }
      if c.isComplete then (.ok (), c) else (.error .allVariablesAreInputs, c)

/-- `assert_complete`, fan_in_two.rs:415-420. -/
def assertComplete (c : Circuit F) : Res Unit :=
  if c.isComplete then .ok () else .error .circuitNotComplete

/-- `get_input_size`, fan_in_two.rs:513-516. -/
def getInputSize (c : Circuit F) : Res ℕ := do
  c.assertComplete
  return c.numInputs

/-- `get_io_size`, fan_in_two.rs:518-521. -/
def getIoSize (c : Circuit F) : Res ℕ := do
  c.assertComplete
  return c.publicIo.length

/-- `assert_input_size`, fan_in_two.rs:422-429. -/
def assertInputSize (c : Circuit F) (n : ℕ) : Res Unit := do
  let expected ← c.getInputSize
  if expected ≠ n then .error (.inputSizeNotSupported expected n) else .ok ()

/-- `assert_io_size`, fan_in_two.rs:431-438. -/
def assertIoSize (c : Circuit F) (n : ℕ) : Res Unit := do
  let expected ← c.getIoSize
  if expected ≠ n then .error (.inputSizeNotSupported expected n) else .ok ()

/-- `mark_variable_as_public`, fan_in_two.rs:440-453 (`unwrap` panics when the variable has no
wire). -/
def markVariableAsPublic (c : Circuit F) (v : ℕ) : Res (Circuit F) :=
  match c.vars[v]? with
  | none => .error .panic
  | some x =>
    match x.outputWire, x.inputWires with
    | some w, _ => .ok { c with publicIo := c.publicIo ++ [.output w] }
    | none, w :: _ => .ok { c with publicIo := c.publicIo ++ [.input w] }
    | none, [] => .error .panic

/-- The `zip(..).take(..)` loop of `assign_global_inputs`, fan_in_two.rs:457-462. -/
def assignGo : List F → List (Variable F) → List (Variable F)
  | a :: l, x :: xs => { x with value := some a } :: assignGo l xs
  | _, xs => xs

/-- `assign_global_inputs`, fan_in_two.rs:455-464. -/
def assignGlobalInputs (c : Circuit F) (input : List F) : Res (Circuit F) := do
  c.assertInputSize input.length
  return { c with vars := assignGo input c.vars }

/-- `get_var_from_wire`, fan_in_two.rs:466-486. -/
def getVarFromWire (c : Circuit F) (w : GateWire) : Res ℕ :=
  match w with
  | .input ⟨k, i, .left⟩ => match (c.gates k)[i]? with
    | some g => .ok g.left
    | none => .error .panic
  | .input ⟨k, i, .right⟩ => match (c.gates k)[i]? with
    | some g => .ok g.right
    | none => .error .panic
  | .output (.bin k i) => match (c.gates k)[i]? with
    | some g => .ok g.output
    | none => .error .panic
  | .output (.const i) => match c.constGates[i]? with
    | some g => .ok g.output
    | none => .error .panic

/-- `assign_no_overwrite`, fan_in_two.rs:677-684, through `get_var_mut`. -/
def assignNoOverwrite (c : Circuit F) (v : ℕ) (a : F) : Res (Circuit F) :=
  match c.vars[v]? with
  | none => .error .panic
  | some x => match x.value with
    | none => .ok { c with vars := c.vars.set v { x with value := some a } }
    | some _ => .error .variableAlreadySet

/-- The loop of `assign_public_io`, fan_in_two.rs:490-494. -/
def assignPublicGo (c : Circuit F) : List (F × GateWire) → Res (Circuit F)
  | [] => .ok c
  | (a, w) :: l => do
    let v ← c.getVarFromWire w
    let c ← c.assignNoOverwrite v a
    assignPublicGo c l

/-- `assign_public_io`, fan_in_two.rs:488-496. -/
def assignPublicIo (c : Circuit F) (input : List F) : Res (Circuit F) := do
  c.assertIoSize input.length
  c.assignPublicGo (input.zip c.publicIo)

/-- The loop of `evaluate`, fan_in_two.rs:503-509: `steps` variables from index `i` on. -/
def evaluateGo (c : Circuit F) : ℕ → ℕ → Res (Circuit F)
  | 0, _ => .ok c
  | steps + 1, i =>
    match c.vars[i]? with
    | none => .error .panic
    | some x => match x.outputWire with
      | none => .error (.variableIsNotOutput i)
      | some g => match c.evalGate g with
        | .error e => .error e
        | .ok c => evaluateGo c steps (i + 1)

/-- `evaluate`, fan_in_two.rs:498-511. -/
def evaluate (c : Circuit F) (input : List F) : Res (Circuit F) := do
  let c ← c.assignGlobalInputs input
  c.evaluateGo (c.vars.length - input.length) input.length

/-- `get_output`, fan_in_two.rs:523-529. -/
def getOutput (c : Circuit F) : Res (List F) := c.outputs.mapM c.getVarValue

/-- `get_offset`, fan_in_two.rs:537-549. -/
def getOffset (c : Circuit F) : GateWire → ℕ
  | .input ⟨.add, _, .left⟩ => c.getMulNum
  | .input ⟨.add, _, .right⟩ => c.getGateNum + c.getMulNum
  | .input ⟨.mul, _, .left⟩ => 0
  | .input ⟨.mul, _, .right⟩ => c.getGateNum
  | .output (.bin .add _) => c.getGateNum * 2 + c.getMulNum
  | .output (.bin .mul _) => c.getGateNum * 2
  | .output (.const _) => c.getGateNum * 3 - c.getConstNum

/-- `get_gate().get_index()`, fan_in_two.rs:53-61, 95-107. -/
def gateIndex : GateWire → ℕ
  | .input w => w.idx
  | .output (.bin _ i) => i
  | .output (.const i) => i

/-- `get_wire_global_index`, fan_in_two.rs:551-553. -/
def getWireGlobalIndex (c : Circuit F) (w : GateWire) : ℕ := gateIndex w + c.getOffset w

/-- The wires of a variable in the order of fan_in_two.rs:182-189. -/
def wiresOf (x : Variable F) : List GateWire :=
  x.inputWires.map .input ++ (match x.outputWire with
    | some w => [.output w]
    | none => [])

/-- `windows(2)` of fan_in_two.rs:190-192. -/
def windows2 : List ℕ → List (ℕ × ℕ)
  | a :: b :: l => (a, b) :: windows2 (b :: l)
  | _ => []

/-- `try_get_any_wire`, fan_in_two.rs:710-718. -/
def anyWire (x : Variable F) : Option GateWire :=
  match x.inputWires, x.outputWire with
  | w :: _, _ => some (.input w)
  | [], some w => some (.output w)
  | [], none => none

/-- The wire pair of an asserted equality, fan_in_two.rs:195-210. -/
def assertPair (c : Circuit F) (p : ℕ × ℕ) : Res (ℕ × ℕ) :=
  match c.vars[p.1]? with
  | none => .error .panic
  | some x => match anyWire x with
    | none => .error .connectedVariablesDoNotHaveWire
    | some a => match c.vars[p.2]? with
      | none => .error .panic
      | some y => match anyWire y with
        | none => .error .connectedVariablesDoNotHaveWire
        | some b => .ok (c.getWireGlobalIndex a, c.getWireGlobalIndex b)

/-- `get_wiring`, fan_in_two.rs:175-212 (variables with at most one wire yield no window). -/
def getWiring (c : Circuit F) : Res (List (ℕ × ℕ)) := do
  c.assertComplete
  let own := c.vars.flatMap (fun x => windows2 ((wiresOf x).map c.getWireGlobalIndex))
  let eqs ← c.assertEquals.mapM c.assertPair
  return own ++ eqs

/-- `get_wire_value`, fan_in_two.rs:242-244. -/
def getWireValue (c : Circuit F) (w : GateWire) : Res F := do
  let v ← c.getVarFromWire w
  c.getVarValue v

/-- `get_instance`, fan_in_two.rs:555-568. -/
def getInstance (c : Circuit F) : Res (POVInstance F) := do
  let vals ← c.publicIo.mapM c.getWireValue
  return ⟨c.publicIo.map c.getWireGlobalIndex, vals⟩

/-- `get_witness`, fan_in_two.rs:570-614. -/
def getWitness (c : Circuit F) : Res (POVWitness F) := do
  let lm ← c.mulGates.mapM (fun g => c.getVarValue g.left)
  let la ← c.addGates.mapM (fun g => c.getVarValue g.left)
  let rm ← c.mulGates.mapM (fun g => c.getVarValue g.right)
  let ra ← c.addGates.mapM (fun g => c.getVarValue g.right)
  let om ← c.mulGates.mapM (fun g => c.getVarValue g.output)
  let oa ← c.addGates.mapM (fun g => c.getVarValue g.output)
  let oc ← c.constGates.mapM (fun g => c.getVarValue g.output)
  return ⟨lm ++ la ++ List.replicate c.getConstNum 0,
    rm ++ ra ++ List.replicate c.getConstNum 0, om ++ oa ++ oc⟩

/-- `assert_equal`, fan_in_two.rs:619-625. -/
def assertEqual (c : Circuit F) (a b : ℕ) : Res (Circuit F) :=
  if a = b then .error .tryingToConnectTheSameVariable
  else .ok { c with assertEquals := c.assertEquals ++ [(a, b)] }

end Circuit

/-- `From<FanInTwoCircuit> for POV`, cs/pov.rs:73-82 (`get_wiring().unwrap()`). -/
def POV.ofCircuit (c : Circuit F) : Res (POV F) :=
  match c.getWiring with
  | .error _ => .error .panic
  | .ok wires => .ok ⟨c.getConsts, wires, c.getMulNum, c.getAddNum⟩

/-! ## Calls of the builder -/

/-- One call of the public API with its result unwrapped by the caller (ignored in
`tryComplete`); variables are referred to by the `VariableRef` the API returned.
fan_in_two.rs:258-375, 393-409, 444-464, 488-511, 619-625.  The last three are the low-level
functions. -/
inductive Call (F : Type) where
  | input
  | bin (k : Kind) (a b : ℕ)
  | const (v : F)
  | assertEq (a b : ℕ)
  | complete
  | tryComplete
  | markPublic (v : ℕ)
  | assignInputs (l : List F)
  | assignPublic (l : List F)
  | evaluate (l : List F)
  | newVar
  | rawGate (k : Kind) (a b out : ℕ)
  | rawConst (v : F) (out : ℕ)

/-- `.unwrap()` of a call that keeps its state. -/
def unwrapS {α : Type} (r : Res α × Circuit F) : Res (Circuit F) :=
  match r with
  | (.ok _, c) => .ok c
  | (.error _, _) => .error .panic

/-- Executes one call (the functions cited at `Call`). -/
def Circuit.step (c : Circuit F) : Call F → Res (Circuit F)
  | .input => c.addGlobalInputVariable.map Prod.snd
  | .bin k a b => (c.binVars k a b).map Prod.snd
  | .const v => (c.constVar v).map Prod.snd
  | .assertEq a b => c.assertEqual a b
  | .complete => unwrapS c.markAsComplete
  | .tryComplete => .ok c.markAsComplete.2
  | .assignInputs l => c.assignGlobalInputs l
  | .assignPublic l => c.assignPublicIo l
  | .evaluate l => c.evaluate l
  | .markPublic v => c.markVariableAsPublic v
  | .newVar => .ok c.addNewVariable.2
  | .rawGate k a b out => unwrapS (c.addBinGate k a b out)
  | .rawConst v out => unwrapS (c.addConstGate v out)

/-- Executes a sequence of calls. -/
def Circuit.run (c : Circuit F) : List (Call F) → Res (Circuit F)
  | [] => .ok c
  | x :: l => match c.step x with
    | .error e => .error e
    | .ok c => Circuit.run c l

/-! ## Translation from R1CS -/

/-- `Matrix`, circuit/mod.rs:9-13. -/
inductive Mat where
  | A
  | B
  | C
  deriving DecidableEq, Repr

/-- `entry(v).or_insert(Vec::new()).push(p)`, circuit/mod.rs:30-33. -/
def insertPos (m : List (F × List (ℕ × ℕ × Mat))) (v : F) (p : ℕ × ℕ × Mat) :
    List (F × List (ℕ × ℕ × Mat)) :=
  match m with
  | [] => [(v, [p])]
  | (u, ps) :: m => if u = v then (u, ps ++ [p]) :: m else (u, ps) :: insertPos m v p

/-- One of the three loops of circuit/mod.rs:23-58; `f` is the identity or negation. -/
def collectPos (t : Mat) (f : F → F) (m : SparseMat F) (acc : List (F × List (ℕ × ℕ × Mat))) :
    List (F × List (ℕ × ℕ × Mat)) :=
  (((m.rows.zip m.cols).zip m.vals).filter (fun e => decide (e.2 ≠ 0))).foldl
    (fun acc e => insertPos acc (f e.2) (e.1.1, e.1.2, t)) acc

/-- `value_to_position_lists`, circuit/mod.rs:22-58. -/
def valueToPositions (r : R1CS F) : List (F × List (ℕ × ℕ × Mat)) :=
  collectPos .C (fun v => -v) r.c (collectPos .B id r.b (collectPos .A id r.a []))

/-- Adds `n` global inputs, circuit/mod.rs:18-20. -/
def addInputs (c : Circuit F) : ℕ → Res (List ℕ × Circuit F)
  | 0 => .ok ([], c)
  | n + 1 => do
    let (v, c) ← c.addGlobalInputVariable
    let (l, c) ← addInputs c n
    return (v :: l, c)

/-- One constant variable per key, circuit/mod.rs:59-62. -/
def addConsts (c : Circuit F) : List F → Res (List ℕ × Circuit F)
  | [] => .ok ([], c)
  | v :: l => do
    let (x, c) ← c.constVar v
    let (xs, c) ← addConsts c l
    return (x :: xs, c)

/-- The state of the loop at circuit/mod.rs:66-97: the circuit and the three arrays of rows. -/
structure MulState (F : Type) where
  circ : Circuit F
  rows : Mat → List (List ℕ)

/-- `mul_results[ri].push(var)`, circuit/mod.rs:95; out of range panics. -/
def pushRow (rows : Mat → List (List ℕ)) (t : Mat) (ri var : ℕ) : Res (Mat → List (List ℕ)) :=
  match (rows t)[ri]? with
  | none => .error .panic
  | some row => .ok (fun u => if u = t then (rows t).set ri (row ++ [var]) else rows u)

/-- The variable of one matrix entry with value `v` in column `ci`, circuit/mod.rs:77-94; `cache`
is `mul_results_cache`. -/
def pickVar (v : F) (cvar zv : ℕ) (inputs : List ℕ) (circ : Circuit F) (cache : List (ℕ × ℕ))
    (ci : ℕ) : Res (ℕ × Circuit F × List (ℕ × ℕ)) :=
  if v = 0 then .ok (zv, circ, cache)
  else if ci > 0 then
    if v = 1 then
      match inputs[ci - 1]? with
      | none => .error .panic
      | some x => .ok (x, circ, cache)
    else match cache.lookup (ci - 1) with
      | some x => .ok (x, circ, cache)
      | none => match inputs[ci - 1]? with
        | none => .error .panic
        | some x => match circ.binVars .mul cvar x with
          | .error e => .error e
          | .ok (m, circ) => .ok (m, circ, (ci - 1, m) :: cache)
  else .ok (cvar, circ, cache)

/-- The inner loop, circuit/mod.rs:70-96, for one value. -/
def positionsGo (v : F) (cvar zv : ℕ) (inputs : List ℕ) (st : MulState F) (cache : List (ℕ × ℕ)) :
    List (ℕ × ℕ × Mat) → Res (MulState F)
  | [] => .ok st
  | (ri, ci, t) :: l => do
    let (var, circ, cache) ← pickVar v cvar zv inputs st.circ cache ci
    let rows ← pushRow st.rows t ri var
    positionsGo v cvar zv inputs ⟨circ, rows⟩ cache l

/-- The outer loop, circuit/mod.rs:66-97. -/
def valuesGo (zv : ℕ) (inputs : List ℕ) (st : MulState F) :
    List ((F × List (ℕ × ℕ × Mat)) × ℕ) → Res (MulState F)
  | [] => .ok st
  | ((v, ps), cvar) :: l => do
    let st ← positionsGo v cvar zv inputs st [] ps
    valuesGo zv inputs st l

/-- The fold `add_vars` over the rest of a row, circuit/mod.rs:102-105. -/
def sumRowGo (c : Circuit F) (acc : ℕ) : List ℕ → Res (ℕ × Circuit F)
  | [] => .ok (acc, c)
  | v :: l => do
    let (acc, c) ← c.binVars .add acc v
    sumRowGo c acc l

/-- `a_sum_results` (and `b_`, `c_`), circuit/mod.rs:98-136. -/
def sumRows (c : Circuit F) (zv : ℕ) : List (List ℕ) → Res (List ℕ × Circuit F)
  | [] => .ok ([], c)
  | row :: rows => do
    let (v, c) ← (match row with
      | [] => Except.ok (zv, c)
      | x :: l => sumRowGo c x l : Res (ℕ × Circuit F))
    let (vs, c) ← sumRows c zv rows
    return (v :: vs, c)

/-- The loop of circuit/mod.rs:137-145. -/
def rowChecks (c : Circuit F) (zv : ℕ) : List ((ℕ × ℕ) × ℕ) → Res (Circuit F)
  | [] => .ok c
  | ((a, b), s) :: l => do
    let (m, c) ← c.binVars .mul a b
    let (x, c) ← c.binVars .add m s
    match c.assertEqual x zv with
    | .error _ => .error .panic
    | .ok c => rowChecks c zv l

/-- `mark_variable_as_public` for the first inputs, circuit/mod.rs:147-152. -/
def markPublics (c : Circuit F) : List ℕ → Res (Circuit F)
  | [] => .ok c
  | v :: l => do
    let c ← c.markVariableAsPublic v
    markPublics c l

/-- `From<R1CS> for FanInTwoCircuit`, circuit/mod.rs:15-155.  `perm` is the iteration order of the
hash map (any reordering; `keys()` and `iter()` agree). -/
def Circuit.ofR1CS (perm : List (F × List (ℕ × ℕ × Mat)) → List (F × List (ℕ × ℕ × Mat)))
    (r : R1CS F) : Res (Circuit F) :=
  if r.ncols = 0 then .error .panic
  else do
    let (inputs, c) ← addInputs Circuit.new (r.ncols - 1)
    let (zv, c) ← c.constVar 0
    let vp := perm (valueToPositions r)
    let (cvars, c) ← addConsts c (vp.map Prod.fst)
    let st ← valuesGo zv inputs ⟨c, fun _ => List.replicate r.nrows []⟩ (vp.zip cvars)
    let (sa, c) ← sumRows st.circ zv (st.rows .A)
    let (sb, c) ← sumRows c zv (st.rows .B)
    let (sc, c) ← sumRows c zv (st.rows .C)
    let c ← rowChecks c zv ((sa.zip sb).zip sc)
    let c ← unwrapS c.markAsComplete
    markPublics c (inputs.take r.inputSize)

/-- `unwrap` of a result. -/
def unwrapR {α : Type} (r : Res α) : Res α :=
  match r with
  | .ok a => .ok a
  | .error _ => .error .panic

/-- `pov_pair_from_r1cs_pair`, cs/pov.rs:136-144. -/
def povPairFromR1cs (perm : List (F × List (ℕ × ℕ × Mat)) → List (F × List (ℕ × ℕ × Mat)))
    (r : R1CS F) (ins : List F) : Res (POV F × POVInstance F) := do
  let circ ← Circuit.ofR1CS perm r
  let circ ← unwrapR (circ.assignPublicIo ins)
  let x ← unwrapR circ.getInstance
  let p ← POV.ofCircuit circ
  return (p, x)

/-- `pov_triple_from_r1cs_triple`, cs/pov.rs:146-169. -/
def povTripleFromR1cs (perm : List (F × List (ℕ × ℕ × Mat)) → List (F × List (ℕ × ℕ × Mat)))
    (r : R1CS F) (ins wit : List F) : Res (POV F × POVInstance F × POVWitness F) := do
  let circ ← Circuit.ofR1CS perm r
  let circ ← unwrapR (circ.evaluate (ins ++ wit))
  let x ← unwrapR circ.getInstance
  let w ← unwrapR circ.getWitness
  let p ← POV.ofCircuit circ
  return (p, x, w)

end VO
