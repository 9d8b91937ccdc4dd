/-
Common conventions of the model.

`Result<T, Error>` and panics are both values of `Res T = Except Err T`.
-/

namespace VO

/-- The error values of the crate that the modelled functions return
(`/repo/voproof/src/error.rs:75-190`), payload strings dropped, plus `panic` for every
Rust panic: failed `assert!`, `unwrap` on an error, index out of range, `usize` underflow,
inversion of zero. -/
inductive Err where
  | panic
  | degreeIsZero
  | tooManyCoefficients (numCoefficients numPowers : Nat)
  | unsupportedDegreeBound (bound : Nat)
  | incorrectDegreeBound (polyDegree degreeBound supportedDegree : Nat)
  | vectorNotEqual
  | polynomialEvaluationUnexpected
  | verificationFail
  | allVariablesAreInputs
  | circuitHasNoGlobalInput
  | circuitNotComplete
  | connectedVariablesDoNotHaveWire
  | gatesAreNotEmpty
  | inputSizeNotSupported (expected actual : Nat)
  | tryingToConnectTheSameVariable
  | variableAlreadySet
  | variableAlreadySetAsOutput
  | variableIsNotOutput (i : Nat)
  | variableNotConnected (i : Nat)
  | variableNotSet (i : Nat)
  deriving DecidableEq, Repr

/-- `Result<T, Error>` with panics as values. -/
abbrev Res (α : Type _) := Except Err α

/-- `assert!(c)`: panics when the condition is false. -/
def assertR (c : Prop) [Decidable c] : Res Unit := if c then .ok () else .error .panic

end VO
