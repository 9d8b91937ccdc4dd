import Verif.Spec.Matrix
import Verif.Model.Cs

/-
Independent specification of the constraint systems.
-/

namespace VO.Spec

variable {F : Type} [Field F]

/-- `(A z) ∘ (B z) = C z` for `z = (1, x, w)`, in matrix terms. -/
def R1CSHolds (r : R1CS F) (x w : List F) : Prop :=
  ∀ i < r.nrows,
    mulVec r.a r.ncols (1 :: (x ++ w)) i * mulVec r.b r.ncols (1 :: (x ++ w)) i
      = mulVec r.c r.ncols (1 :: (x ++ w)) i

/-- Shape under which the R1CS arrays can be read without going out of bounds. -/
def R1CSShape (r : R1CS F) (x w : List F) : Prop :=
  0 < r.nrows ∧ 0 < r.ncols ∧ 1 + x.length + w.length = r.ncols ∧
    InRange r.a r.nrows r.ncols ∧ InRange r.b r.nrows r.ncols ∧ InRange r.c r.nrows r.ncols

/-- A value other than zero is listed at `(i, j)`. -/
def Lists (m : SparseMat F) (i j : ℕ) : Prop := ∃ u, u ≠ 0 ∧ ((i, j), u) ∈ triples m

/-- The constant vector of an HPR: the sum of the values listed at row `i`. -/
def constAt (drows : List ℕ) (dvals : List F) (i : ℕ) : F :=
  (((drows.zip dvals).filter (fun p => p.1 = i)).map Prod.snd).sum

/-- The HPR relation: `w1 ∘ w2 = w3` and `A w1 + B w2 + C w3 + d = (x, 0)`. -/
def HPRHolds (r : HPR F) (x w1 w2 w3 : List F) : Prop :=
  (∀ j < r.ncols, w1.getD j 0 * w2.getD j 0 = w3.getD j 0) ∧
  ∀ i < r.nrows, mulVec r.a r.ncols w1 i + mulVec r.b r.ncols w2 i + mulVec r.c r.ncols w3 i
      + constAt r.drows r.dvals i = x.getD i 0

/-- Shape under which the HPR arrays can be read without going out of bounds. -/
def HPRShape (r : HPR F) (x w1 w2 w3 : List F) : Prop :=
  0 < r.nrows ∧ 0 < r.ncols ∧ w1.length = r.ncols ∧ w2.length = r.ncols ∧ w3.length = r.ncols ∧
    InRange r.a r.nrows r.ncols ∧ InRange r.b r.nrows r.ncols ∧ InRange r.c r.nrows r.ncols ∧
    (∀ p ∈ r.drows.zip r.dvals, p.1 < r.nrows) ∧ x.length ≤ r.nrows

/-- The three columns of a POV witness read as one vector. -/
def povVec (w : POVWitness F) : List F := w.w0 ++ w.w1 ++ w.w2

/-- All gates of a POV hold: multiplication gates first, then addition gates, then constants. -/
def GatesHold (p : POV F) (w : POVWitness F) : Prop :=
  (∀ i < p.nmul, w.w2.getD i 0 = w.w0.getD i 0 * w.w1.getD i 0) ∧
  (∀ i < p.nadd, w.w2.getD (p.nmul + i) 0
      = w.w0.getD (p.nmul + i) 0 + w.w1.getD (p.nmul + i) 0) ∧
  (∀ i < p.consts.length, w.w2.getD (p.nmul + p.nadd + i) 0 = p.consts.getD i 0)

/-- Every wire pair joins two existing positions with the same value. -/
def WiringHolds (p : POV F) (w : POVWitness F) : Prop :=
  ∀ q ∈ p.wires, ∃ a, (povVec w)[q.1]? = some a ∧ (povVec w)[q.2]? = some a

/-- Every public position exists and holds the announced value. -/
def InstanceHolds (w : POVWitness F) (ins : POVInstance F) : Prop :=
  ∀ q ∈ ins.idx.zip ins.vals, (povVec w)[q.1]? = some q.2

/-- The three columns have one entry per gate. -/
def PovShape (p : POV F) (w : POVWitness F) : Prop :=
  w.w0.length = p.nmul + p.nadd + p.consts.length ∧
  w.w1.length = p.nmul + p.nadd + p.consts.length ∧
  w.w2.length = p.nmul + p.nadd + p.consts.length

end VO.Spec
