import Mathlib.Algebra.Group.Basic
import Verif.Model.PlonkCs

/-
What it means for values to satisfy a circuit built with the composer of
`/repo/plonk-core/src/constraint_system/`, said without the prover: an assignment gives a value to
every position of the wire table and to every variable; all positions of one variable carry its
value, and every row satisfies the equations of the gate kinds its selectors switch on.
-/

namespace VO.Spec.Plonk

open VO.Plonk

variable {F : Type} [Field F]

/-- The value of a point of the circuit. -/
def ptV (v : Var → F) (p : Point) : F × F := (v p.x, v p.y)

/-- The values a row of the table speaks about: its four wires and three wires of the next row. -/
structure Row (F : Type) where
  a : F
  b : F
  c : F
  d : F
  aNext : F
  bNext : F
  dNext : F

/-- Row `i` of a wire table with `N` rows; the row after the last is the first. -/
def rowAt (N : ℕ) (w : WireData → F) (i : ℕ) : Row F :=
  ⟨w (.left i), w (.right i), w (.output i), w (.fourth i),
   w (.left ((i + 1) % N)), w (.right ((i + 1) % N)), w (.fourth ((i + 1) % N))⟩

/-- A base-four digit. -/
def IsQuad (x : F) : Prop := x = 0 ∨ x = 1 ∨ x = 2 ∨ x = 3

/-- The arithmetic equation, with the public input `p` of the row. -/
def ArithOk (g : Gate F) (r : Row F) (p : F) : Prop :=
  g.arith * (g.m * r.a * r.b + g.l * r.a + g.r * r.b + g.o * r.c + g.q4 * r.d
    + g.hl * r.a ^ 5 + g.hr * r.b ^ 5 + g.h4 * r.d ^ 5 + g.c) + p = 0

/-- Consecutive base-four accumulators: `d, c, b, a` and the next `d`. -/
def RangeOk (r : Row F) : Prop :=
  IsQuad (r.c - 4 * r.d) ∧ IsQuad (r.b - 4 * r.c) ∧ IsQuad (r.a - 4 * r.b) ∧
    IsQuad (r.dNext - 4 * r.a)

/-- The polynomial of the xor/and gate, in the two digits, their product, the output digit and the
constant selector. -/
def xorAndPoly (a b w o qc : F) : F :=
  qc * (9 * o - 3 * (a + b)) + (3 * (a + b + o)
    - 2 * (w * (w * (4 * w - 18 * (a + b) + 81) + 18 * (a ^ 2 + b ^ 2) - 81 * (a + b) + 83)))

/-- Three base-four accumulators; the digits appended by this row are related by `xorAndPoly`. -/
def LogicOk (g : Gate F) (r : Row F) : Prop :=
  IsQuad (r.aNext - 4 * r.a) ∧ IsQuad (r.bNext - 4 * r.b) ∧ IsQuad (r.dNext - 4 * r.d) ∧
    r.c = (r.aNext - 4 * r.a) * (r.bNext - 4 * r.b) ∧
    xorAndPoly (r.aNext - 4 * r.a) (r.bNext - 4 * r.b) r.c (r.dNext - 4 * r.d) g.c = 0

/-- The denominators-cleared addition law: `(x3, y3)` is a sum of `(x1, y1)` and `(x2, y2)`. -/
def EdSum (E : EdCurve F) (x1 y1 x2 y2 x3 y3 : F) : Prop :=
  x3 * (1 + E.d * x1 * x2 * y1 * y2) = x1 * y2 + y1 * x2 ∧
    y3 * (1 - E.d * x1 * x2 * y1 * y2) = y1 * y2 - E.a * x1 * x2

/-- The two denominators of the addition law do not vanish. -/
def EdDen (E : EdCurve F) (P Q : F × F) : Prop :=
  1 + E.d * P.1 * Q.1 * P.2 * Q.2 ≠ 0 ∧ 1 - E.d * P.1 * Q.1 * P.2 * Q.2 ≠ 0

/-- The point satisfies the curve equation. -/
def OnCurve (E : EdCurve F) (P : F × F) : Prop :=
  E.a * P.1 ^ 2 + P.2 ^ 2 = 1 + E.d * P.1 ^ 2 * P.2 ^ 2

/-- `pt` lists points of the curve that form a group under the affine addition law, with neutral
element `(0, 1)` and `-(x, y) = (-x, y)`; sums never meet a zero denominator. This is what is used
of the arithmetic of elliptic curves. -/
structure CurveGroup (E : EdCurve F) (G : Type) [AddCommGroup G] (pt : G → F × F) : Prop where
  zero : pt 0 = (0, 1)
  neg : ∀ g, pt (-g) = (-(pt g).1, (pt g).2)
  den : ∀ g h, EdDen E (pt g) (pt h)
  sum : ∀ g h, EdSum E (pt g).1 (pt g).2 (pt h).1 (pt h).2 (pt (g + h)).1 (pt (g + h)).2
  curve : ∀ g, OnCurve E (pt g)

/-- One step of fixed-base multiplication: the signed digit is the next accumulator minus twice
this one; the next point is the sum of this point and digit times the fixed multiple
`(g.l, g.r)`, whose product of coordinates is `g.c`. -/
def FixedOk (E : EdCurve F) (g : Gate F) (r : Row F) : Prop :=
  let t := r.dNext - 2 * r.d
  (t = 0 ∨ t = 1 ∨ t = -1) ∧ r.c = t * g.c ∧
    r.aNext * (1 + E.d * r.c * r.a * r.b) = (g.l * t) * r.b + (t ^ 2 * (g.r - 1) + 1) * r.a ∧
    r.bNext * (1 - E.d * r.c * r.a * r.b)
      = (t ^ 2 * (g.r - 1) + 1) * r.b - E.a * (g.l * t) * r.a

/-- Point addition: `(a, b) + (c, d)` is the next `(a, b)`; the next `d` holds `a · d`. -/
def VarOk (E : EdCurve F) (r : Row F) : Prop :=
  r.dNext = r.a * r.d ∧ EdSum E r.a r.b r.c r.d r.aNext r.bNext

/-- A row satisfies its gate: every switched-on gate kind holds. -/
structure RowOk (E : EdCurve F) (T : List (F × F × F × F)) (g : Gate F) (r : Row F) (p : F) :
    Prop where
  arith : ArithOk g r p
  range : g.range ≠ 0 → RangeOk r
  logic : g.logic ≠ 0 → LogicOk g r
  fixed : g.fixed ≠ 0 → FixedOk E g r
  var : g.var ≠ 0 → VarOk E r
  lookup : g.lookup ≠ 0 → (r.a, r.b, r.c, r.d) ∈ T

/-- The selectors of row `i`; a missing entry is zero, as the prover pads the vectors. -/
def gateAt (c : Composer F) (i : ℕ) : Gate F :=
  ⟨c.q_m.getD i 0, c.q_l.getD i 0, c.q_r.getD i 0, c.q_o.getD i 0, c.q_4.getD i 0,
   c.q_c.getD i 0, c.q_hl.getD i 0, c.q_hr.getD i 0, c.q_h4.getD i 0, c.q_arith.getD i 0,
   c.q_range.getD i 0, c.q_logic.getD i 0, c.q_fixed_group_add.getD i 0,
   c.q_variable_group_add.getD i 0, c.q_lookup.getD i 0⟩

/-- The wire position `p` is listed under variable `x`. -/
def OnWire (c : Composer F) (x : Var) (p : WireData) : Prop :=
  ∃ ws, c.perm[x]? = some ws ∧ p ∈ ws

/-- Values satisfy the circuit of a composer, in a table of `N` rows, with lookup table `T` and
public inputs `pub`: the circuit fits; public inputs are zero outside the declared rows; rows
satisfy their gates; positions of a variable carry its value. -/
structure Sat (E : EdCurve F) (T : List (F × F × F × F)) (N : ℕ) (c : Composer F) (pub : ℕ → F)
    (w : WireData → F) (v : Var → F) : Prop where
  fits : c.n ≤ N
  pubZero : ∀ i < c.n, i ∉ c.intended_pi_pos → pub i = 0
  rows : ∀ i < c.n, RowOk E T (gateAt c i) (rowAt N w i) (pub i)
  copy : ∀ x p, OnWire c x p → w p = v x

/-- The variable the composer put on a wire position. -/
def wireVar (c : Composer F) : WireData → Option Var
  | .left i => c.w_l[i]?
  | .right i => c.w_r[i]?
  | .output i => c.w_o[i]?
  | .fourth i => c.w_4[i]?

/-- The composer's own values: of its variables, of its wire positions (zero in padded rows) and
of its public inputs. -/
def ownV (c : Composer F) (x : Var) : F := c.variables.getD x 0

/-- See `ownV`. -/
def ownW (c : Composer F) (p : WireData) : F :=
  match wireVar c p with
  | some x => ownV c x
  | none => 0

/-- See `ownV`. -/
def ownPub (c : Composer F) (i : ℕ) : F :=
  match c.public_inputs.find? (fun e => e.1 == i) with
  | some e => e.2
  | none => 0

/-- The values the composer holds satisfy its circuit, in every table large enough. -/
def OwnSat (E : EdCurve F) (c : Composer F) : Prop :=
  ∀ N, c.n ≤ N → Sat E c.lookup_table N c (ownPub c) (ownW c) (ownV c)

/-- `into_bigint` returns a number that stands for the element and fits in the bits of the
representation and of the modulus; equal elements have equal numbers, and a number below
`2 ^ (modBits - 1)` is its own representation. All prime fields of the library are like this. -/
structure RepOk (R : FieldRep F) : Prop where
  cast : ∀ x, ((R.toNat x : ℕ) : F) = x
  lt : ∀ x, R.toNat x < 2 ^ R.modBits
  mod_le : R.modBits ≤ R.bigBits
  own : ∀ m, m < 2 ^ (R.modBits - 1) → R.toNat ((m : ℕ) : F) = m

end VO.Spec.Plonk
