import Mathlib.Data.Finset.Card
import Mathlib.RingTheory.RootsOfUnity.PrimitiveRoots
import Verif.Spec.Plonk
import Verif.Model.PlonkWidgets
import Verif.Model.PlonkPerm

/-
Words used to state the properties of the PLONK prover and verifier.
-/

namespace VO.Spec.Plonk

open VO.Plonk

variable {F : Type} [Field F] [DecidableEq F]

/-- All field elements but at most `k` satisfy `P`. A claim about a challenge drawn after other
messages is written by nesting: `∀ message, Mostly k fun challenge => ∀ nextMessage, …`, so what
comes later may depend on the challenge and what came earlier may not. -/
def Mostly (k : ℕ) (P : F → Prop) : Prop :=
  ∃ bad : Finset F, bad.card ≤ k ∧ ∀ x, x ∉ bad → P x

/-- The wires of a row, as the gate polynomials take them. -/
def witOf (r : Row F) : WitVals F := ⟨r.a, r.b, r.c, r.d⟩

/-- The other values the gate polynomials take: next wires and three selectors. -/
def custOf (g : Gate F) (r : Row F) : CustomVals F := ⟨r.aNext, r.bNext, r.dNext, g.l, g.r, g.c⟩

/-- A row satisfies its gate, lookups apart. -/
structure GatesOk (E : EdCurve F) (g : Gate F) (r : Row F) (p : F) : Prop where
  arith : ArithOk g r p
  range : g.range ≠ 0 → RangeOk r
  logic : g.logic ≠ 0 → LogicOk g r
  fixed : g.fixed ≠ 0 → FixedOk E g r
  var : g.var ≠ 0 → VarOk E r

/-- Where four vectors of wire positions send a position. -/
def sigmaAt (s : Sigmas) : WireData → Option WireData
  | .left i => s.s1[i]?
  | .right i => s.s2[i]?
  | .output i => s.s3[i]?
  | .fourth i => s.s4[i]?

/-- The row of a position. -/
def posRow : WireData → ℕ
  | .left i => i
  | .right i => i
  | .output i => i
  | .fourth i => i

/-- Values of the positions are equal wherever the circuit puts the same variable. -/
def CopyOk (c : Composer F) (w : WireData → F) : Prop :=
  ∀ x p q, OnWire c x p → OnWire c x q → w p = w q

/-- The label of a position: the four columns are four cosets of the domain. -/
def wireLabel (omega : F) : WireData → F
  | .left i => omega ^ i
  | .right i => 7 * omega ^ i
  | .output i => 13 * omega ^ i
  | .fourth i => 17 * omega ^ i

/-- The domain is generated by a primitive root of unity and `1, 7, 13, 17` times it are four
disjoint cosets, so labels are distinct. This holds in the scalar fields the library is used with;
the code takes it for granted. -/
structure DomOk (D : Dom F) : Prop where
  pos : 0 < D.size
  root : IsPrimitiveRoot D.omega D.size
  nz : (7 : F) ≠ 0 ∧ (13 : F) ≠ 0 ∧ (17 : F) ≠ 0
  k1 : (7 : F) ^ D.size ≠ 1
  k2 : (13 : F) ^ D.size ≠ 1
  k3 : (17 : F) ^ D.size ≠ 1
  k12 : (7 : F) ^ D.size ≠ 13 ^ D.size
  k13 : (7 : F) ^ D.size ≠ 17 ^ D.size
  k23 : (13 : F) ^ D.size ≠ 17 ^ D.size

/-- Four vectors of wire values, read at a position. -/
def quadW (q : Quad F) : WireData → F
  | .left i => q.p1.getD i 0
  | .right i => q.p2.getD i 0
  | .output i => q.p3.getD i 0
  | .fourth i => q.p4.getD i 0

/-- The factor of the permutation argument for the wires of row `i`: the four values plus `β` times
the label of their own positions. -/
def ownFactor (omega beta gamma : F) (w : WireData → F) (i : ℕ) : F :=
  (w (.left i) + beta * wireLabel omega (.left i) + gamma)
    * (w (.right i) + beta * wireLabel omega (.right i) + gamma)
    * (w (.output i) + beta * wireLabel omega (.output i) + gamma)
    * (w (.fourth i) + beta * wireLabel omega (.fourth i) + gamma)

/-- The same with the labels given by four polynomials at the point of the row. -/
def sigFactor (sig : Quad F) (omega beta gamma : F) (w : WireData → F) (i : ℕ) : F :=
  (w (.left i) + beta * polyEval sig.p1 (omega ^ i) + gamma)
    * (w (.right i) + beta * polyEval sig.p2 (omega ^ i) + gamma)
    * (w (.output i) + beta * polyEval sig.p3 (omega ^ i) + gamma)
    * (w (.fourth i) + beta * polyEval sig.p4 (omega ^ i) + gamma)

/-- What the verifier checks of the accumulator `z` (a function on the domain): it starts at `1`
and every step multiplies by `ownFactor / sigFactor`, cyclically. -/
def PermCheck (sig : Quad F) (n : ℕ) (omega beta gamma : F) (w : WireData → F) (z : ℕ → F) : Prop :=
  z 0 = 1 ∧ ∀ i < n, z ((i + 1) % n) * sigFactor sig omega beta gamma w i
    = z i * ownFactor omega beta gamma w i

end VO.Spec.Plonk
