import Mathlib.Algebra.BigOperators.Group.Finset.Basic
import Verif.Model.PlonkProof
import Verif.Spec.PlonkSnark

/-
Specification for C151: what an observer of a PLONK proof can compute about the witness.
-/

namespace VO.Spec.Plonk

open VO.Plonk

variable {F : Type} [Field F] [DecidableEq F]

/-- The value at `x` of the polynomial of degree below `n` with the values `u 0, …, u (n-1)` at
`1, omega, …, omega^(n-1)`, by Lagrange's formula. -/
def interpAt (n : ℕ) (omega : F) (u : ℕ → F) (x : F) : F :=
  ∑ i ∈ Finset.range n, u i * ∏ j ∈ (Finset.range n).erase i,
    (x - omega ^ j) / (omega ^ i - omega ^ j)

/-- The wire columns of which a proof contains the values at two points. -/
inductive TwiceOpened
  | left
  | right
  | fourth

/-- The position of row `i` of the column. -/
def TwiceOpened.pos : TwiceOpened → ℕ → WireData
  | .left => .left
  | .right => .right
  | .fourth => .fourth

/-- The rows that hold the column's second random value (the first one is in row 1 only). -/
def TwiceOpened.again : TwiceOpened → List ℕ
  | .left => [2, 3]
  | .right => [2, 3]
  | .fourth => [2]

/-- The published commitment to the column. -/
def TwiceOpened.comm {P : PCS F} (pr : PlonkProof P) : TwiceOpened → P.Comm
  | .left => pr.a
  | .right => pr.b
  | .fourth => pr.d

/-- The published value at the evaluation point. -/
def TwiceOpened.value {P : PCS F} (pr : PlonkProof P) : TwiceOpened → F
  | .left => pr.ev.w.a
  | .right => pr.ev.w.b
  | .fourth => pr.ev.w.d

/-- The label of the published value at the evaluation point times the generator. -/
def TwiceOpened.label : TwiceOpened → String
  | .left => "a_next_eval"
  | .right => "b_next_eval"
  | .fourth => "d_next_eval"

/-- One in the given rows, zero elsewhere. -/
def rowsAt (l : List ℕ) (i : ℕ) : F := if i ∈ l then 1 else 0

/-- The guess `u` in all rows but those with random values. -/
def withoutRandom (w : TwiceOpened) (u : ℕ → F) (i : ℕ) : F :=
  if i ∈ 1 :: w.again then 0 else u i

/-- The determinant of the two linear equations for the two random values. -/
def randomDet (n : ℕ) (omega z : F) (w : TwiceOpened) : F :=
  interpAt n omega (rowsAt [1]) z * interpAt n omega (rowsAt w.again) (z * omega)
    - interpAt n omega (rowsAt w.again) z * interpAt n omega (rowsAt [1]) (z * omega)

/-- The two random values that a guess `u` for the other rows implies, given the values `y` at `z` and
`y'` at `z omega`: the solution of two linear equations, by Cramer's rule. -/
def impliedRandom (n : ℕ) (omega z y y' : F) (w : TwiceOpened) (u : ℕ → F) : F × F :=
  let r := y - interpAt n omega (withoutRandom w u) z
  let r' := y' - interpAt n omega (withoutRandom w u) (z * omega)
  let a := interpAt n omega (rowsAt [1]) z
  let b := interpAt n omega (rowsAt w.again) z
  let a' := interpAt n omega (rowsAt [1]) (z * omega)
  let b' := interpAt n omega (rowsAt w.again) (z * omega)
  ((r * b' - b * r') / randomDet n omega z w, (a * r' - r * a') / randomDet n omega z w)

/-- The column that a guess implies. -/
def impliedColumn (n : ℕ) (omega z y y' : F) (w : TwiceOpened) (u : ℕ → F) (i : ℕ) : F :=
  let x := impliedRandom n omega z y y' w u
  withoutRandom w u i + x.1 * rowsAt [1] i + x.2 * rowsAt w.again i

/-- The test anybody can run on a guess `u` for a wire column, from public data only: the commitment key,
the domain, the evaluation point and the proof. Find the two random values, then commit to the column
and compare. -/
def ConfirmsColumn (P : PCS F) (D : Dom F) (z : F) (pr : PlonkProof P) (w : TwiceOpened) (u : ℕ → F) :
    Prop :=
  ∃ y', customGet pr.ev.custom w.label = .ok y' ∧
    P.commit (D.ifft ((List.range D.size).map (impliedColumn D.size D.omega z (w.value pr) y' w u)))
      = .ok (w.comm pr)

/-- The guess `u` agrees with the composer's values in all rows of the column but those with random
values. -/
def RightGuess (n : ℕ) (c : Composer F) (w : TwiceOpened) (u : ℕ → F) : Prop :=
  ∀ i < n, i ∉ 1 :: w.again → u i = ownW c (w.pos i)

end VO.Spec.Plonk
