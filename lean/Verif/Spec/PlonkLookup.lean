import Verif.Spec.PlonkProof
import Verif.Model.PlonkLookup

/-
Words used to state the properties of lookup tables and of the lookup argument.
-/

namespace VO.Spec.Plonk

open VO.Plonk

variable {F : Type} [Field F] [DecidableEq F]

/-- The elements of two lists, equal ones together, in the order in which they first occur in the
first. -/
def grouped (t f : List F) : List F :=
  t.eraseDups.flatMap fun x => List.replicate (t.count x + f.count x) x

/-- Equal elements of the list stand together, if the list is read as a cycle. -/
def Contiguous (t : List F) : Prop := ∃ m, t.rotate m = grouped t []

/-- What the verifier checks of the accumulator `z` of the lookup argument on a domain of `n`
points: it starts at one and every step multiplies by the ratio of the query and table factors to
the factors of the two halves. -/
def LookupCheck (n : ℕ) (delta epsilon : F) (f t h1 h2 z : ℕ → F) : Prop :=
  z 0 = 1 ∧ ∀ i < n,
    z ((i + 1) % n) * ((epsilon * (1 + delta) + h1 i + delta * h2 i)
        * (epsilon * (1 + delta) + h2 i + delta * h1 ((i + 1) % n)))
      = z i * ((1 + delta) * (epsilon + f i)
        * (epsilon * (1 + delta) + t i + delta * t ((i + 1) % n)))

/-- The four entries of a row as one element. -/
def compressRow (zeta : F) (r : F × F × F × F) : F :=
  r.1 + zeta * r.2.1 + zeta ^ 2 * r.2.2.1 + zeta ^ 3 * r.2.2.2

/-- The rows of a table padded to `n` rows with its first row; an empty table counts as one zero
row. -/
def padRows (T : Table F) (n : ℕ) : Table F :=
  let T := if T = [] then [(0, 0, 0, 0)] else T
  T ++ List.replicate (n - T.length) (T.headD (0, 0, 0, 0))

/-- The rows of an operation for operands from `lower` up to `2 ^ n`, in order. -/
def opRows (op : LookupOp) (lower n : ℕ) : Table F :=
  (List.range' lower (2 ^ n - lower)).flatMap fun a : ℕ =>
    (List.range' lower (2 ^ n - lower)).map fun b : ℕ =>
      ((a : F), (b : F), ((op.val a b % 2 ^ n : ℕ) : F), op.tag)

end VO.Spec.Plonk
