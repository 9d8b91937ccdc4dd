import Verif.Model.Circuit
import Verif.Spec.Wires

/-
Independent specification for the circuit builder: which wires exist, which variable each wire
belongs to, and what it means for the bookkeeping and for an assignment of values to be right.
-/

namespace VO.Spec

variable {F : Type} [Field F]

/-- The variable at an input port of a gate. -/
def port (g : BinGate) : Side → ℕ
  | .left => g.left
  | .right => g.right

/-- `w` is a wire of the circuit and carries variable `v`. -/
def Carries (c : Circuit F) : GateWire → ℕ → Prop
  | .input w, v => ∃ g, (c.gates w.kind)[w.idx]? = some g ∧ port g w.side = v
  | .output (.bin k i), v => ∃ g, (c.gates k)[i]? = some g ∧ g.output = v
  | .output (.const i), v => ∃ g, c.constGates[i]? = some g ∧ g.output = v

/-- The bookkeeping of wires is exact: a variable lists each input wire that carries it exactly
once and no other, its driver is the output wire that carries it, and gates only mention existing
variables. -/
structure Wired (c : Circuit F) : Prop where
  inputs : ∀ (v : ℕ) (x : Variable F), c.vars[v]? = some x → ∀ w, w ∈ x.inputWires ↔ Carries c (.input w) v
  nodup : ∀ (v : ℕ) (x : Variable F), c.vars[v]? = some x → x.inputWires.Nodup
  driver : ∀ (v : ℕ) (x : Variable F), c.vars[v]? = some x → ∀ w, x.outputWire = some w ↔ Carries c (.output w) v
  range : ∀ w v, Carries c w v → v < c.vars.length

/-- Inputs come first and are the only variables without a driver; the operands of every gate
precede its output. -/
structure Ordered (c : Circuit F) : Prop where
  numInputs_le : c.numInputs ≤ c.vars.length
  driven : ∀ (v : ℕ) (x : Variable F), c.vars[v]? = some x → (x.outputWire = none ↔ v < c.numInputs)
  before : ∀ (k : Kind) (i : ℕ) (g : BinGate), (c.gates k)[i]? = some g → g.left < g.output ∧ g.right < g.output

/-- The calls of the high-level interface (no hand-made variables and gates). -/
def HighLevel : Call F → Prop
  | .newVar | .rawGate .. | .rawConst .. => False
  | _ => True

/-- The variables a call refers to. -/
def refs : Call F → List ℕ
  | .bin _ a b | .assertEq a b => [a, b]
  | .markPublic v => [v]
  | .rawGate _ a b out => [a, b, out]
  | .rawConst _ out => [out]
  | _ => []

/-- `c'` is reached from `c` by a history of successful calls, each of which only refers to
variables that exist at that moment (a `VariableRef` can only be obtained from the API). -/
inductive Builds [DecidableEq F] : Circuit F → List (Call F) → Circuit F → Prop
  | nil (c : Circuit F) : Builds c [] c
  | cons {c c1 c2 : Circuit F} {x : Call F} {l : List (Call F)} :
      (∀ v ∈ refs x, v < c.vars.length) → c.step x = .ok c1 → Builds c1 l c2 →
      Builds c (x :: l) c2

/-- The equalities asserted in a history. -/
def asserted (l : List (Call F)) : List (ℕ × ℕ) :=
  l.filterMap (fun x => match x with
    | .assertEq a b => some (a, b)
    | _ => none)

/-- The variables made public in a history, in order. -/
def publicVars (l : List (Call F)) : List ℕ :=
  l.filterMap (fun x => match x with
    | .markPublic v => some v
    | _ => none)

/-- The arithmetic operation a gate stands for. -/
def arith (k : Kind) (a b : F) : F :=
  match k with
  | .add => a + b
  | .mul => a * b

/-- The value held by a variable. -/
def valueOf (c : Circuit F) (v : ℕ) : Option F := (c.vars[v]?).bind (·.value)

/-- `val` is the execution of the circuit on `input`: inputs have their values, and every gate
equation holds. -/
structure Execution (c : Circuit F) (input : List F) (val : ℕ → F) : Prop where
  inputs : ∀ i < c.numInputs, input[i]? = some (val i)
  bin : ∀ (k : Kind) (i : ℕ) (g : BinGate), (c.gates k)[i]? = some g →
    val g.output = arith k (val g.left) (val g.right)
  const : ∀ (i : ℕ) (g : ConstGate F), c.constGates[i]? = some g → val g.output = g.value

/-- Two circuits that differ at most in the values of their variables. -/
def SameShape (c c' : Circuit F) : Prop :=
  c' = { c with vars := c'.vars } ∧
  c'.vars.map (fun x => (x.inputWires, x.outputWire))
    = c.vars.map (fun x => (x.inputWires, x.outputWire))

/-- The column of a wire in a POV witness: left inputs, right inputs, outputs. -/
def column : GateWire → ℕ
  | .input ⟨_, _, .left⟩ => 0
  | .input ⟨_, _, .right⟩ => 1
  | .output _ => 2

/-- The row of a wire: multiplication gates first, then addition gates, then constants. -/
def slot (c : Circuit F) : GateWire → ℕ
  | .input ⟨.mul, i, _⟩ => i
  | .output (.bin .mul i) => i
  | .input ⟨.add, i, _⟩ => c.mulGates.length + i
  | .output (.bin .add i) => c.mulGates.length + i
  | .output (.const i) => c.mulGates.length + c.addGates.length + i

/-- The number of gates. -/
def gateCount (c : Circuit F) : ℕ :=
  c.mulGates.length + c.addGates.length + c.constGates.length

/-- The variable has at least one wire. -/
def Connected (c : Circuit F) (v : ℕ) : Prop := ∃ w, Carries c w v

/-- Two variables linked by asserted equalities. -/
def EqLinked (c : Circuit F) : ℕ → ℕ → Prop := Linked c.assertEquals

end VO.Spec
