import Verif.Model.PlonkProof
import Verif.Model.PoseidonMatrix

/-
Model of `check_circuit_satisfied` (`/repo/plonk-core/src/constraint_system/composer.rs:634-803`,
compiled with the feature `trace`), the test a circuit author runs before proving.
-/

namespace VO.Plonk

open VO.Poseidon (getR)

variable {F : Type} [Field F] [DecidableEq F]

/-- The closure `delta`, composer.rs:667-672. -/
def checkDelta (f : F) : F := f * (f - 1) * (f - 2) * (f - 3)

/-- `BigInt::from_bits_le`, as a natural number. -/
def fromBitsLe : List Bool → ℕ
  | [] => 0
  | b :: l => b.toNat + 2 * fromBitsLe l

/-- `F::from_bigint(m).unwrap()`: `from_bigint` returns `None` when the number is not below the
modulus, that is, when it is not the representation of the element it stands for. -/
def fromBigint (R : FieldRep F) (m : ℕ) : Res F :=
  if R.toNat (m : F) = m then .ok (m : F) else .error .panic

/-- The `match` of composer.rs:762-790. In a field with `1 = -1` a row with that selector reaches
`unreachable!`. -/
def checkLogicBits (R : FieldRep F) (qlogic a b d : F) : Res F :=
  match decide (qlogic = 1), decide (qlogic = -1) with
  | true, false => do
    let m ← fromBigint R (fromBitsLe (List.zipWith (fun x y => x && y) (bitsLe R a) (bitsLe R b)))
    return m - d
  | false, true => do
    let m ← fromBigint R (fromBitsLe (List.zipWith (fun x y => x ^^ y) (bitsLe R a) (bitsLe R b)))
    return m - d
  | false, false => .ok 0
  | true, true => .error .panic

/-- One turn of the loop of composer.rs:675-802. `q_lookup` is not read; `_qfixed` and `_qvar` are
read and not used. -/
def checkGate (R : FieldRep F) (c : Composer F) (wl wr wo w4 pis : List F) (i : ℕ) : Res Unit := do
  let qm ← getR c.q_m i
  let ql ← getR c.q_l i
  let qr ← getR c.q_r i
  let qo ← getR c.q_o i
  let qc ← getR c.q_c i
  let q4 ← getR c.q_4 i
  let qarith ← getR c.q_arith i
  let qrange ← getR c.q_range i
  let qlogic ← getR c.q_logic i
  let _qfixed ← getR c.q_fixed_group_add i
  let _qvar ← getR c.q_variable_group_add i
  let qhl ← getR c.q_hl i
  let qhr ← getR c.q_hr i
  let qh4 ← getR c.q_h4 i
  let pi ← getR pis i
  let a ← getR wl i
  let aNext ← getR wl ((i + 1) % c.n)
  let b ← getR wr i
  let bNext ← getR wr ((i + 1) % c.n)
  let cc ← getR wo i
  let d ← getR w4 i
  let dNext ← getR w4 ((i + 1) % c.n)
  let bits ← checkLogicBits R qlogic a b d
  let k := qarith * (qm * a * b + ql * a + qr * b + qo * cc + q4 * d + pi + qhl * a ^ 5
      + qhr * b ^ 5 + qh4 * d ^ 5 + qc)
    + qlogic * ((checkDelta (aNext - 4 * a) - checkDelta (bNext - 4 * b)) * cc
      + checkDelta (aNext - 4 * a) + checkDelta (bNext - 4 * b) + checkDelta (dNext - 4 * d) + bits)
    + qrange * (checkDelta (cc - 4 * d) + checkDelta (b - 4 * cc) + checkDelta (a - 4 * b)
      + checkDelta (dNext - 4 * a))
  assertR (k = 0)

/-- `check_circuit_satisfied`, composer.rs:643-803: returns or panics; the composer is unchanged. -/
def checkCircuitSatisfied (R : FieldRep F) (c : Composer F) : Res Unit := do
  let wl ← c.w_l.mapM (getR c.variables)
  let wr ← c.w_r.mapM (getR c.variables)
  let wo ← c.w_o.mapM (getR c.variables)
  let w4 ← c.w_4.mapM (getR c.variables)
  let pis ← asEvals c.public_inputs (circuitBound c)
  (List.range c.n).forM (checkGate R c wl wr wo w4 pis)

end VO.Plonk
