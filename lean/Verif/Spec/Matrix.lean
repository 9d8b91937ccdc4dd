import Mathlib.Algebra.BigOperators.Group.Finset.Basic
import Mathlib.Algebra.BigOperators.Ring.Finset
import Verif.Model.Tools

/-
Independent specification of sparse matrices: the matrix denoted by a list of triples,
its product with a vector, and inner products.
-/

namespace VO.Spec

variable {F : Type} [Field F]

/-- The triples `((row, column), value)` listed by the three arrays (common prefix). -/
def triples (m : SparseMat F) : List ((ℕ × ℕ) × F) := (m.rows.zip m.cols).zip m.vals

/-- Entry `(i, j)` of the matrix: the sum of all values listed at `(i, j)`. -/
def entry (m : SparseMat F) (i j : ℕ) : F :=
  (((triples m).filter (fun e => e.1.1 = i ∧ e.1.2 = j)).map Prod.snd).sum

/-- Coordinate `i` of the product of the matrix (with `k` columns) and the vector `x`. -/
def mulVec (m : SparseMat F) (k : ℕ) (x : List F) (i : ℕ) : F :=
  ∑ j ∈ Finset.range k, entry m i j * x.getD j 0

/-- Coordinate `j` of the product of the row vector `x` and the matrix (with `h` rows). -/
def vecMul (m : SparseMat F) (h : ℕ) (x : List F) (j : ℕ) : F :=
  ∑ i ∈ Finset.range h, x.getD i 0 * entry m i j

/-- All listed positions are inside an `h × k` matrix. -/
def InRange (m : SparseMat F) (h k : ℕ) : Prop :=
  ∀ e ∈ triples m, e.1.1 < h ∧ e.1.2 < k

/-- The three arrays of a sparse matrix have the same length. -/
def SameLengths (m : SparseMat F) : Prop :=
  m.rows.length = m.cols.length ∧ m.cols.length = m.vals.length

/-- Inner product over `n` coordinates. -/
def inner (n : ℕ) (u v : List F) : F := ∑ i ∈ Finset.range n, u.getD i 0 * v.getD i 0

end VO.Spec
