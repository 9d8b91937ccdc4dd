import Mathlib.LinearAlgebra.Matrix.NonsingularInverse
import Verif.Model.PoseidonMatrix

/-
Words used to state the properties of the Poseidon crate.
-/

namespace VO.Spec.Poseidon

open VO.Poseidon

variable {F : Type} [Field F] [DecidableEq F]

/-- `n` rows of `k` entries. -/
def IsMat (n k : ℕ) (A : Mat F) : Prop := A.length = n ∧ ∀ r ∈ A, r.length = k

/-- The vector with these entries. -/
def vec (n : ℕ) (v : List F) : Fin n → F := fun i => v.getD i 0

/-- The matrix with these rows. -/
def mat (n k : ℕ) (A : Mat F) : Matrix (Fin n) (Fin k) F := fun i j => (A.getD i []).getD j 0

/-- The matrix `[[a, v], [w, H]]`. -/
def block {n : ℕ} (a : F) (v w : Fin n → F) (H : Matrix (Fin n) (Fin n) F) :
    Matrix (Fin (n + 1)) (Fin (n + 1)) F :=
  fun i j => Fin.cases (motive := fun _ => F) (Fin.cases (motive := fun _ => F) a v j)
    (fun i' => Fin.cases (motive := fun _ => F) (w i') (H i') j) i

/-- The matrix without its first row and column. -/
def hat {n : ℕ} (M : Matrix (Fin (n + 1)) (Fin (n + 1)) F) : Matrix (Fin n) (Fin n) F :=
  M.submatrix Fin.succ Fin.succ

/-- Every square submatrix is regular: a maximum distance separable matrix. -/
def IsMds {n : ℕ} (M : Matrix (Fin n) (Fin n) F) : Prop :=
  ∀ (k : ℕ) (r c : Fin k → Fin n), Function.Injective r → Function.Injective c →
    (M.submatrix r c).det ≠ 0

/-- No number between `t` and `3 t - 2` vanishes in the field: these are the sums `i + j + t` of the entries
of the matrix of width `t`. -/
def NoWrap (F : Type) [Field F] (t : ℕ) : Prop := ∀ k : ℕ, t ≤ k → k + 1 < 3 * t → (k : F) ≠ 0

/-- The steps numbered `start, …, start + len - 1`, in this order. -/
def steps {α : Type} (f : ℕ → α → α) : ℕ → ℕ → α → α
  | _, 0, x => x
  | start, len + 1, x => steps f (start + 1) len (f start x)

/-- The S-box on all entries. -/
def sboxAll {n : ℕ} (x : Fin n → F) : Fin n → F := fun i => x i ^ 5

/-- The S-box on the first entry. -/
def sboxFirst {n : ℕ} (x : Fin (n + 1) → F) : Fin (n + 1) → F := Function.update x 0 (x 0 ^ 5)

/-- `a` full rounds, `p` partial rounds and `b` full rounds; every round adds its row of constants, applies
the S-box and multiplies the row vector by `M`. -/
def rounds {n : ℕ} (M : Matrix (Fin (n + 1)) (Fin (n + 1)) F) (c : ℕ → Fin (n + 1) → F)
    (a p b : ℕ) (x : Fin (n + 1) → F) : Fin (n + 1) → F :=
  let full := fun r y => Matrix.vecMul (sboxAll (y + c r)) M
  let partial' := fun r y => Matrix.vecMul (sboxFirst (y + c r)) M
  steps full (a + p) b (steps partial' a p (steps full 0 a x))

/-- The Poseidon permutation: half of the full rounds, the partial rounds, the other half. -/
def permutation {n : ℕ} (M : Matrix (Fin (n + 1)) (Fin (n + 1)) F) (c : ℕ → Fin (n + 1) → F)
    (half part : ℕ) (x : Fin (n + 1) → F) : Fin (n + 1) → F := rounds M c half part half x

/-- A row vector times the sparse matrix with the first column `wHat`, the rest `vRest` of the first row
and the identity in the rest. -/
def sparseApply {n : ℕ} (wHat : Fin (n + 1) → F) (vRest : Fin n → F) (x : Fin (n + 1) → F) :
    Fin (n + 1) → F := Fin.cons (∑ i, x i * wHat i) fun j => x 0 * vRest j + x j.succ

/-- The optimised schedule of neptune: the first row of constants `k0` is added before the first round;
every full round adds its constants behind the S-box; the last full round of the first half multiplies by
`pre`; a partial round adds one constant to the first entry behind the S-box and multiplies by a sparse
matrix; the last round adds nothing. -/
def optimised {n : ℕ} (M pre : Matrix (Fin (n + 1)) (Fin (n + 1)) F) (k0 : Fin (n + 1) → F)
    (first : ℕ → Fin (n + 1) → F) (mid : Fin (n + 1) → F) (keys : ℕ → F)
    (wHat : ℕ → Fin (n + 1) → F) (vRest : ℕ → Fin n → F) (last : ℕ → Fin (n + 1) → F)
    (half part : ℕ) (x : Fin (n + 1) → F) : Fin (n + 1) → F :=
  let y1 := steps (fun r y => Matrix.vecMul (sboxAll y + first r) M) 0 (half - 1) (x + k0)
  let y2 := Matrix.vecMul (sboxAll y1 + mid) pre
  let y3 := steps (fun r y => sparseApply (wHat r) (vRest r) (sboxFirst y + Pi.single 0 (keys r))) 0 part y2
  let y4 := steps (fun r y => Matrix.vecMul (sboxAll y + last r) M) 0 (half - 1) y3
  Matrix.vecMul (sboxAll y4) M

/-- `n` consecutive entries of a list. -/
def slice (n : ℕ) (l : List F) (offset : ℕ) : Fin n → F := fun i => l.getD (offset + i) 0

end VO.Spec.Poseidon
