import Mathlib.Algebra.Field.Basic
import Verif.Model.Basic

/-
Model of `/repo/plonk-hashing/src/poseidon/matrix.rs`. A matrix is the list of its rows; rows may
have any lengths.
-/

namespace VO.Poseidon

/-- `Matrix<T>`, matrix.rs:7. -/
abbrev Mat (F : Type) := List (List F)

/-- Indexing of a slice: panics when out of range. -/
def getR {α : Type} (l : List α) (i : ℕ) : Res α :=
  match l[i]? with
  | some x => .ok x
  | none => .error .panic

variable {F : Type} [Field F] [DecidableEq F]

/-- `num_columns`, matrix.rs:20-32. -/
def numColumns {α : Type} : List (List α) → Res ℕ
  | [] => .ok 0
  | r :: rs => if ((r :: rs).all fun x => decide (x.length = r.length)) then .ok r.length
    else .error .panic

/-- `is_square`, matrix.rs:42-44. -/
def isSquare {α : Type} (m : List (List α)) : Res Bool := do
  let c ← numColumns m
  return m.length == c

/-- `transpose`, matrix.rs:46-57. Works with the number of rows only. -/
def transpose {α : Type} (m : List (List α)) : Res (List (List α)) :=
  (List.range m.length).mapM fun j => (List.range m.length).mapM fun i => do
    let r ← getR m i
    getR r j

/-- `kronecker_delta`, matrix.rs:404-410. -/
def kroneckerDelta (i j : ℕ) : F := if i = j then 1 else 0

/-- `identity`, matrix.rs:84-90. -/
def identity (n : ℕ) : Mat F :=
  (List.range n).map fun i => (List.range n).map fun j => if i = j then 1 else 0

/-- `is_identity`, matrix.rs:92-104. The matrix is square when the entries are read. -/
def isIdentity (m : Mat F) : Res Bool := do
  if !(← isSquare m) then return false
  return (List.range m.length).all fun i => (List.range m.length).all fun j =>
    decide ((m.getD i []).getD j 0 = kroneckerDelta i j)

/-- `mul_by_scalar`, matrix.rs:111-126. -/
def mulByScalar (m : Mat F) (s : F) : Mat F := m.map fun row => row.map fun v => s * v

/-- `inner_product`, matrix.rs:363-370: the common prefix. -/
def innerProduct (a b : List F) : F := (List.zipWith (fun x y => x * y) a b).foldl (· + ·) 0

/-- `vec_add`, matrix.rs:372-381. -/
def vecAdd (a b : List F) : List F := List.zipWith (fun x y => x + y) a b

/-- `vec_sub`, matrix.rs:383-392. -/
def vecSub (a b : List F) : List F := List.zipWith (fun x y => x - y) a b

/-- `scalar_vec_mul`, matrix.rs:394-402. -/
def scalarVecMul (s : F) (v : List F) : List F := v.map fun x => s * x

/-- `mul_col_vec` and `left_apply`, matrix.rs:129-150, 158-160. -/
def mulColVec (m : Mat F) (v : List F) : Res (List F) := do
  assertR ((← isSquare m) = true)
  assertR (m.length = v.length)
  return m.map fun row => innerProduct row v

/-- `mul_row_vec_at_left` and `right_apply`, matrix.rs:153-155, 163-183. The matrix is square and of
the size of the vector when the entries are read. -/
def mulRowVec (m : Mat F) (v : List F) : Res (List F) := do
  assertR ((← isSquare m) = true)
  assertR (m.length = v.length)
  return (List.range v.length).map fun j => innerProduct (m.map fun row => row.getD j 0) v

/-- `matmul`, matrix.rs:186-206. -/
def matmul (a b : Mat F) : Res (Option (Mat F)) := do
  let c ← numColumns b
  if a.length ≠ c then return none
  let bt ← transpose b
  return some (a.map fun row => bt.map fun col => innerProduct row col)

/-- `minor`, matrix.rs:220-241: the filtered rows, with `Vec::remove` panicking out of range. -/
def minorRows (j : ℕ) : ℕ → ℕ → Mat F → Res (Mat F)
  | _, _, [] => .ok []
  | i, ii, row :: rows => do
    if ii = i then minorRows j i (ii + 1) rows
    else
      if j < row.length then do
        let rest ← minorRows j i (ii + 1) rows
        return row.eraseIdx j :: rest
      else .error .panic

/-- `minor`, matrix.rs:220-241. -/
def minor (m : Mat F) (i j : ℕ) : Res (Mat F) := do
  assertR ((← isSquare m) = true)
  assertR (0 < m.length)
  let res ← minorRows j i 0 m
  assertR ((← isSquare res) = true)
  return res

/-- `is_sparse`, matrix.rs:107-109. -/
def isSparse (m : Mat F) : Res Bool := do
  if ← isSquare m then
    let mm ← minor m 0 0
    isIdentity mm
  else return false

/-- The test of a pivot row in `eliminate`, matrix.rs:249-251. -/
def isPivotRow (row : List F) (column : ℕ) : Res Bool := do
  let v ← getR row column
  return decide (v ≠ 0) && (List.range column).all fun j => decide (row.getD j 0 = 0)

/-- The search for the pivot in `eliminate`, matrix.rs:249-251. -/
def findPivot (column : ℕ) : Mat F → ℕ → Res (Option ℕ)
  | [], _ => .ok none
  | r :: rs, i => do
    if ← isPivotRow r column then return some i
    else findPivot column rs (i + 1)

/-- The loop of `eliminate`, matrix.rs:262-281, from row `i` on: the new rows and the new shadow. -/
def elimRows (pivot : List F) (inv : F) (column pi : ℕ) : Mat F → ℕ → Mat F → Res (Mat F × Mat F)
  | [], _, shadow => .ok ([], shadow)
  | row :: rows, i, shadow => do
    if i = pi then elimRows pivot inv column pi rows (i + 1) shadow
    else
      let val ← getR row column
      if val = 0 then do
        let r ← elimRows pivot inv column pi rows (i + 1) shadow
        return (row :: r.1, r.2)
      else do
        let factor := val * inv
        let sp ← getR shadow pi
        let sr ← getR shadow i
        let r ← elimRows pivot inv column pi rows (i + 1)
          (shadow.set i (vecSub sr (scalarVecMul factor sp)))
        return (vecSub row (scalarVecMul factor pivot) :: r.1, r.2)

/-- `eliminate`, matrix.rs:247-287: the result and the new shadow. -/
def eliminate (m : Mat F) (column : ℕ) (shadow : Mat F) : Res (Option (Mat F × Mat F)) := do
  match ← findPivot column m 0 with
  | none => return none
  | some pi => do
    let pivot ← getR m pi
    let pv ← getR pivot column
    let r ← elimRows pivot pv⁻¹ column pi m 0 shadow
    let pr ← getR r.2 pi
    return some (pivot :: r.1, pr :: r.2.eraseIdx pi)

/-- The loop of `upper_triangular`, matrix.rs:300-317. The first argument bounds the number of rounds;
the number of rows suffices, because every round takes one row away. -/
def utLoop : ℕ → ℕ → Mat F → Mat F → Res (Option (Mat F × Mat F))
  | 0, _, _, _ => .error .panic
  | k + 1, column, curr, shadow =>
    if 1 < curr.length then do
      match ← eliminate curr column shadow with
      | none => return none
      | some (c, s) => do
        let r ← getR c 0
        let sr ← getR s 0
        assertR ((c.drop 1).length = curr.length - 1)
        match ← utLoop k (column + 1) (c.drop 1) (s.drop 1) with
        | none => return none
        | some (rs, ss) => return some (r :: rs, sr :: ss)
    else do
      let r ← getR curr 0
      let sr ← getR shadow 0
      return some ([r], [sr])

/-- `upper_triangular`, matrix.rs:293-319: the result and the new shadow. -/
def upperTriangular (m shadow : Mat F) : Res (Option (Mat F × Mat F)) := do
  assertR ((← isSquare m) = true)
  utLoop (m.length + 1) 0 m shadow

/-- One step of the loop of `reduce_to_identity`, matrix.rs:329-352. -/
def reduceStep (m shadow : Mat F) (i : ℕ) (result sres : Mat F) : Res (Option (Mat F × Mat F)) := do
  let idx := m.length - i - 1
  let row ← getR m idx
  let srow ← getR shadow idx
  let val ← getR row idx
  if val = 0 then return none
  else do
    let p ← (List.range i).foldlM (fun (p : List F × List F) j => do
      let val ← getR p.1 (m.length - j - 1)
      let r ← getR result j
      let s ← getR sres j
      return (vecSub p.1 (scalarVecMul val r), vecSub p.2 (scalarVecMul val s)))
      (scalarVecMul val⁻¹ row, scalarVecMul val⁻¹ srow)
    return some (result ++ [p.1], sres ++ [p.2])

/-- The loop of `reduce_to_identity`, matrix.rs:329-352: the next `k` steps. -/
def reduceLoop (m shadow : Mat F) : ℕ → ℕ → Mat F → Mat F → Res (Option (Mat F × Mat F))
  | 0, _, result, sres => .ok (some (result, sres))
  | k + 1, i, result, sres => do
    match ← reduceStep m shadow i result sres with
    | none => return none
    | some (r, s) => reduceLoop m shadow k (i + 1) r s

/-- `reduce_to_identity`, matrix.rs:324-360: the result and the new shadow. -/
def reduceToIdentity (m shadow : Mat F) : Res (Option (Mat F × Mat F)) := do
  match ← reduceLoop m shadow m.length 0 [] [] with
  | none => return none
  | some (r, s) => return some (r.reverse, s.reverse)

/-- `invert`, matrix.rs:208-214. -/
def invert (m : Mat F) : Res (Option (Mat F)) := do
  let c ← numColumns m
  match ← upperTriangular m (identity c) with
  | none => return none
  | some (u, shadow) =>
    match ← reduceToIdentity u shadow with
    | none => return none
    | some (_, s) => return some s

/-- `is_invertible`, matrix.rs:216-218. -/
def isInvertible (m : Mat F) : Res Bool := do
  if ← isSquare m then return (← invert m).isSome
  else return false

end VO.Poseidon
