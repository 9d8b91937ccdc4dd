import Verif.Model.PlonkCircuit

/-
The circuit of the benchmark `/repo/plonk/benches/plonk.rs`.
-/

namespace VO.Plonk

variable {F : Type} [Field F] [DecidableEq F]

/-- The `while` loop of `gadget`, plonk.rs:59-61, with at most `fuel` evaluations of its condition.
Running out of fuel stands for a loop that has not ended; `C148_runs` shows that this does not happen.
`self.size - 1` does not wrap, a size is a power of two. -/
def benchLoop (size : ℕ) : ℕ → CM F Unit
  | 0 => fun _ => .error .panic
  | fuel + 1 => fun c =>
    if circuitBound c < size - 1 then
      match (addDummyConstraints : CM F Unit) c with
      | .ok (_, c') => benchLoop size fuel c'
      | .error e => .error e
    else .ok ((), c)

/-- `gadget`, plonk.rs:53-63. -/
def benchGadget (size : ℕ) : CM F (Except PErr Unit) := do
  addDummyLookupTable
  benchLoop size size
  return .ok ()

/-- `BenchCircuit::new`, plonk.rs:36-42, and `padded_circuit_size`, plonk.rs:66-68. -/
def benchCirc (degree : ℕ) : Circ F := ⟨benchGadget (2 ^ degree), 2 ^ degree⟩

end VO.Plonk
