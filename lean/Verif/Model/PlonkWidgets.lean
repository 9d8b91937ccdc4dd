import Verif.Model.PlonkCs

/-
The gate polynomials of the vendored PLONK prover and verifier:
`/repo/plonk-core/src/proof_system/widget/`, the permutation terms of
`/repo/plonk-core/src/proof_system/permutation.rs` and `lc` of `/repo/plonk-core/src/util.rs`.

Every function here is written once and used three times, as in the code: on values of the
polynomials on the coset of size `8n` (quotient polynomial), on evaluations at the challenge
(linearisation polynomial, linearisation commitment).
-/

namespace VO.Plonk

/- The formulas are written for a commutative ring: the code applies them to field elements, the
proofs also to polynomials. -/
variable {F : Type} [CommRing F]

/-- `WitnessValues`, widget/mod.rs:41-57. -/
structure WitVals (F : Type) where
  a : F
  b : F
  c : F
  d : F
  deriving DecidableEq

/-- The values the custom gates read besides the four wires (`RangeVals`, range.rs:16-23;
`LogicVals`, logic.rs:19-31; `FBSMVals`, fixed_base_scalar_mul.rs:31-47; `CAVals`,
curve_addition.rs:20-30), in one record. -/
structure CustomVals (F : Type) where
  aNext : F
  bNext : F
  dNext : F
  ql : F
  qr : F
  qc : F
  deriving DecidableEq

/-- `delta`, range.rs:66-74 and logic.rs:95-103. -/
def delta4 (f : F) : F :=
  let f1 := f - 1
  let f2 := f - 2
  let f3 := f - 3
  f * f1 * f2 * f3

/-- `Range::constraints`, range.rs:47-63. -/
def rangeConstraints (sep : F) (w : WitVals F) (v : CustomVals F) : F :=
  let kappa := sep * sep
  let kappaSq := kappa * kappa
  let kappaCu := kappaSq * kappa
  let b1 := delta4 (w.c - 4 * w.d)
  let b2 := delta4 (w.b - 4 * w.c) * kappa
  let b3 := delta4 (w.a - 4 * w.b) * kappaSq
  let b4 := delta4 (v.dNext - 4 * w.a) * kappaCu
  (b1 + b2 + b3 + b4) * sep

/-- `delta_xor_and`, logic.rs:114-133. -/
def deltaXorAnd (a b w c qc : F) : F :=
  let f := w * (w * (4 * w - 18 * (a + b) + 81) + 18 * (a * a + b * b) - 81 * (a + b) + 83)
  let e := 3 * (a + b + c) - 2 * f
  let b' := qc * (9 * c - 3 * (a + b))
  b' + e

/-- `Logic::constraints`, logic.rs:65-91. -/
def logicConstraints (sep : F) (w : WitVals F) (v : CustomVals F) : F :=
  let kappa := sep * sep
  let kappaSq := kappa * kappa
  let kappaCu := kappaSq * kappa
  let kappaQu := kappaCu * kappa
  let a := v.aNext - 4 * w.a
  let c0 := delta4 a
  let b := v.bNext - 4 * w.b
  let c1 := delta4 b * kappa
  let d := v.dNext - 4 * w.d
  let c2 := delta4 d * kappaSq
  let wc := w.c
  let c3 := (wc - a * b) * kappaCu
  let c4 := deltaXorAnd a b wc d v.qc * kappaQu
  (c0 + c1 + c2 + c3 + c4) * sep

/-- `extract_bit`, fixed_base_scalar_mul.rs:139-144. -/
def extractBit (cur next : F) : F := next - cur - cur

/-- `check_bit_consistency`, fixed_base_scalar_mul.rs:147-153. -/
def checkBitConsistency (bit : F) : F := bit * (bit - 1) * (bit + 1)

/-- `FixedBaseScalarMul::constraints`, fixed_base_scalar_mul.rs:88-135. -/
def fixedConstraints (E : EdCurve F) (sep : F) (w : WitVals F) (v : CustomVals F) : F :=
  let kappa := sep * sep
  let kappaSq := kappa * kappa
  let kappaCu := kappaSq * kappa
  let bit := extractBit w.d v.dNext
  let bitConsistency := checkBitConsistency bit
  let yAlpha := bit * bit * (v.qr - 1) + 1
  let xAlpha := v.ql * bit
  let xyConsistency := (bit * v.qc - w.c) * kappa
  let x3 := v.aNext
  let lhs := x3 + x3 * w.c * w.a * w.b * E.d
  let rhs := xAlpha * w.b + yAlpha * w.a
  let xAcc := (lhs - rhs) * kappaSq
  let y3 := v.bNext
  let lhs := y3 - y3 * w.c * w.a * w.b * E.d
  let rhs := yAlpha * w.b - E.a * xAlpha * w.a
  let yAcc := (lhs - rhs) * kappaCu
  (bitConsistency + xAcc + yAcc + xyConsistency) * sep

/-- `CurveAddition::constraints`, curve_addition.rs:62-95. -/
def curveConstraints (E : EdCurve F) (sep : F) (w : WitVals F) (v : CustomVals F) : F :=
  let x1 := w.a
  let x3 := v.aNext
  let y1 := w.b
  let y3 := v.bNext
  let x2 := w.c
  let y2 := w.d
  let x1y2 := v.dNext
  let kappa := sep * sep
  let xyConsistency := x1 * y2 - x1y2
  let y1x2 := y1 * x2
  let y1y2 := y1 * y2
  let x1x2 := x1 * x2
  let x3lhs := x1y2 + y1x2
  let x3rhs := x3 + x3 * E.d * x1y2 * y1x2
  let x3c := (x3lhs - x3rhs) * kappa
  let y3lhs := y1y2 - E.a * x1x2
  let y3rhs := y3 - y3 * E.d * x1y2 * y1x2
  let y3c := (y3lhs - y3rhs) * (kappa * kappa)
  (xyConsistency + x3c + y3c) * sep

/-- `arithmetic::ProverKey::compute_quotient_i`, arithmetic.rs:61-73, with the ten selector values
in a `Gate`. `SBOX_ALPHA` is `5` (constraint_system/hash.rs:6). -/
def arithQuotient (g : Gate F) (w : WitVals F) : F :=
  (w.a * w.b * g.m + w.a * g.l + w.b * g.r + w.c * g.o + w.d * g.q4 + w.a ^ 5 * g.hl
    + w.b ^ 5 * g.hr + w.d ^ 5 * g.h4 + g.c) * g.arith

/-- `lc`, util.rs:147-170: Horner combination from the last value; panics for the challenges `0`
and `1` and for no values. -/
def lc [DecidableEq F] (values : List F) (challenge : F) : Except Err F := do
  assertR (challenge ≠ 0)
  assertR (challenge ≠ 1)
  match values.reverse with
  | [] => .error .panic
  | k :: rest => .ok (rest.foldl (fun acc v => acc * challenge + v) k)

/-- `lc` of the four columns, as a value: what `lc` returns for four values when it does not
panic. -/
def lc4 (a b c d challenge : F) : F := ((d * challenge + c) * challenge + b) * challenge + a

/-- `lookup::ProverKey::compute_quotient_i`, lookup.rs:98-151; `ct` is the compressed tuple
`lc(&[w_l, w_r, w_o, w_4], &zeta)`. -/
def lookupQuotient (qLookup ct f t tNext h1 h1Next h2 z2 z2Next l1 delta epsilon lookupSep : F) :
    F :=
  let sepSq := lookupSep * lookupSep
  let sepCu := sepSq * lookupSep
  let oneDelta := delta + 1
  let epsOneDelta := epsilon * oneDelta
  let a := qLookup * (ct - f) * lookupSep
  let b0 := epsilon + f
  let b1 := epsOneDelta + t + delta * tNext
  let b := z2 * oneDelta * b0 * b1 * sepSq
  let c0 := epsOneDelta + h1 + delta * h2
  let c1 := epsOneDelta + h2 + delta * h1Next
  let c := -z2Next * c0 * c1 * sepSq
  let d := (z2 - 1) * l1 * sepCu
  a + b + c + d

/-- `K1`, permutation/constants.rs:12-14. -/
def K1 : F := 7
/-- `K2`, permutation/constants.rs:16-18. -/
def K2 : F := 13
/-- `K3`, permutation/constants.rs:20-22. -/
def K3 : F := 17

/-- `compute_quotient_identity_range_check_i`, proof_system/permutation.rs:91-110. -/
def permIdentity (x : F) (w : WitVals F) (z alpha beta gamma : F) : F :=
  (w.a + beta * x + gamma) * (w.b + beta * K1 * x + gamma) * (w.c + beta * K2 * x + gamma)
    * (w.d + beta * K3 * x + gamma) * z * alpha

/-- `compute_quotient_copy_range_check_i`, proof_system/permutation.rs:119-143; `s` holds the four
sigma values. -/
def permCopy (s w : WitVals F) (zNext alpha beta gamma : F) : F :=
  -((w.a + beta * s.a + gamma) * (w.b + beta * s.b + gamma) * (w.c + beta * s.c + gamma)
    * (w.d + beta * s.d + gamma) * zNext * alpha)

/-- `permutation::ProverKey::compute_quotient_i`, proof_system/permutation.rs:61-83, with
`compute_quotient_term_check_one_i` (150-152). -/
def permQuotient (x : F) (s w : WitVals F) (z zNext alpha l1AlphaSq beta gamma : F) : F :=
  permIdentity x w z alpha beta gamma + permCopy s w zNext alpha beta gamma
    + (z - 1) * l1AlphaSq

/-- The gate constraints of one point, proof_system/quotient_poly.rs:237-289
(`compute_gate_constraint_satisfiability`): `pi` is the value of the public input polynomial and
the challenges are those of range, logic, fixed-base and variable-base gates. `quotient_term`
multiplies a gate's constraints by its selector (widget/mod.rs). -/
def gateQuotient (E : EdCurve F) (sr sl sf sv : F) (g : Gate F) (w : WitVals F) (v : CustomVals F)
    (pi : F) : F :=
  arithQuotient g w + pi + g.range * rangeConstraints sr w v + g.logic * logicConstraints sl w v
    + g.fixed * fixedConstraints E sf w v + g.var * curveConstraints E sv w v

end VO.Plonk
