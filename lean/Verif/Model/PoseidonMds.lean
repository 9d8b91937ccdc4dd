import Verif.Model.PoseidonMatrix

/-
Model of `/repo/plonk-hashing/src/poseidon/mds.rs` and of `preprocessing.rs`.
-/

namespace VO.Poseidon

variable {F : Type} [Field F] [DecidableEq F]

/-- `MdsMatrices`, mds.rs:7-14. -/
structure Mds (F : Type) where
  m : Mat F
  mInv : Mat F
  mHat : Mat F
  mHatInv : Mat F
  mPrime : Mat F
  mDoublePrime : Mat F
  deriving DecidableEq

/-- `Option::expect` and `Option::unwrap`. -/
def unwrapR {α : Type} : Option α → Res α
  | some x => .ok x
  | none => .error .panic

/-- `generate_mds`, mds.rs:41-63. The additions `t as u64 .. 2 * t as u64` are taken not to overflow.
The two `debug_assert`s are kept: the first one panics for `t = 0`, where a build without debug
assertions panics in `derive_mds_matrices` instead. -/
def generateMds (t : ℕ) : Res (Mat F) := do
  let matrix ← (List.range t).mapM fun (x : ℕ) => (List.range t).mapM fun (y : ℕ) =>
    if ((x : F) + ((t + y : ℕ) : F)) = 0 then .error .panic else .ok ((x : F) + ((t + y : ℕ) : F))⁻¹
  assertR ((← isInvertible matrix) = true)
  assertR (matrix = (← transpose matrix))
  return matrix

/-- `make_prime`, mds.rs:66-83: the rows from the `i`-th on. -/
def makePrimeRows : ℕ → Mat F → Res (Mat F)
  | _, [] => .ok []
  | i, row :: rest => do
    let r ← match i, row with
      | _, [] => .error .panic
      | 0, _ :: tl => .ok ((1 : F) :: tl.map fun _ => 0)
      | _ + 1, _ :: tl => .ok ((0 : F) :: tl)
    let rs ← makePrimeRows (i + 1) rest
    return r :: rs

/-- `make_prime`, mds.rs:66-83. -/
def makePrime (m : Mat F) : Res (Mat F) := makePrimeRows 0 m

/-- `make_v_w`, mds.rs:111-115. -/
def makeVW (m : Mat F) : Res (List F × List F) := do
  let r ← getR m 0
  let _ ← getR r 0
  let w ← (m.drop 1).mapM fun column => getR column 0
  return (r.drop 1, w)

/-- The rows of `make_double_prime` from the `i`-th on, mds.rs:92-107. -/
def makeDoublePrimeRows (v wHat : List F) : ℕ → Mat F → Res (Mat F)
  | _, [] => .ok []
  | i, row :: rest => do
    let r ← match i with
      | 0 => do
        let x ← getR row 0
        .ok (x :: v)
      | k + 1 => do
        let x ← getR wHat k
        assertR (0 < row.length ∧ k + 1 < row.length)
        .ok (((row.map fun _ => (0 : F)).set 0 x).set (k + 1) 1)
    let rs ← makeDoublePrimeRows v wHat (i + 1) rest
    return r :: rs

/-- `make_double_prime`, mds.rs:86-107. -/
def makeDoublePrime (m mHatInv : Mat F) : Res (Mat F) := do
  let (v, w) ← makeVW m
  let wHat ← mulRowVec mHatInv w
  makeDoublePrimeRows v wHat 0 m

/-- `derive_mds_matrices`, mds.rs:24-39. -/
def deriveMds (m : Mat F) : Res (Mds F) := do
  let mInv ← unwrapR (← invert m)
  let mHat ← minor m 0 0
  let mHatInv ← unwrapR (← invert mHat)
  let mPrime ← makePrime m
  let mDoublePrime ← makeDoublePrime m mHatInv
  return ⟨m, mInv, mHat, mHatInv, mPrime, mDoublePrime⟩

/-- `MdsMatrices::new`, mds.rs:18-21. -/
def mdsNew (dim : ℕ) : Res (Mds F) := do
  let m ← generateMds dim
  deriveMds m

/-- `SparseMatrix`, mds.rs:123-131. -/
structure Sparse (F : Type) where
  wHat : List F
  vRest : List F
  deriving DecidableEq

/-- `SparseMatrix::new`, mds.rs:133-139. -/
def sparseNew (m : Mat F) : Res (Sparse F) := do
  assertR ((← isSparse m) = true)
  let w ← m.mapM fun r => getR r 0
  let r ← getR m 0
  let _ ← getR r 0
  return ⟨w, r.drop 1⟩

/-- `SparseMatrix::to_matrix`, mds.rs:145-154. The first loop writes `w_hat` into the first column of
the identity of size `w_hat.len()`, the second writes `v_rest` into the first row behind it, and panics
when the row is too short. -/
def Sparse.toMatrix (s : Sparse F) : Res (Mat F) := do
  let m1 := (List.range s.wHat.length).map fun j =>
    (((identity s.wHat.length : Mat F).getD j []).set 0 (s.wHat.getD j 0))
  match m1 with
  | [] => if s.vRest = [] then .ok [] else .error .panic
  | row :: rest =>
    if s.vRest.length + 1 ≤ row.length then
      .ok ((row.take 1 ++ s.vRest ++ row.drop (s.vRest.length + 1)) :: rest)
    else .error .panic

/-- The fold of `factor_to_sparse_matrixes`, mds.rs:164-170: `n` more rounds. -/
def factorLoop (base : Mat F) : ℕ → Mat F → List (Mat F) → Res (Mat F × List (Mat F))
  | 0, curr, acc => .ok (curr, acc)
  | n + 1, curr, acc => do
    let d ← deriveMds curr
    let new ← unwrapR (← matmul base d.mPrime)
    factorLoop base n new (acc ++ [d.mDoublePrime])

/-- `factor_to_sparse_matrixes`, mds.rs:160-178. -/
def factorToSparse (base : Mat F) (n : ℕ) : Res (Mat F × List (Sparse F)) := do
  let (pre, l) ← factorLoop base n base []
  let s ← l.reverse.mapM sparseNew
  return (pre, s)

/-- The slice `round_keys` of `compress_round_constants`, preprocessing.rs:20. -/
def roundKeys (width : ℕ) (rc : List F) (r : ℕ) : Res (List F) := do
  assertR ((r + 1) * width ≤ rc.length)
  return (rc.drop (r * width)).take width

/-- The fold over the partial rounds, preprocessing.rs:59-70: the accumulated row and the keys of the
partial rounds in the order of their production. -/
def partialFold (width : ℕ) (rc : List F) (mInv : Mat F) (final : ℕ) : ℕ → ℕ → List F → List F →
    Res (List F × List F)
  | 0, _, acc, keys => .ok (acc, keys)
  | n + 1, i, acc, keys => do
    assertR (i + 1 ≤ final)
    let prev ← roundKeys width rc (final - i - 1)
    let inverted ← mulRowVec mInv acc
    let x ← getR inverted 0
    partialFold width rc mInv final n (i + 1) (vecAdd prev (inverted.set 0 0)) (keys ++ [x])

/-- `compress_round_constants`, preprocessing.rs:10-88. `half_full_rounds - 1` panics for zero. -/
def compressRoundConstants (width fullRounds partialRounds : ℕ) (rc : List F) (mds : Mds F) :
    Res (List F) := do
  let half := fullRounds / 2
  let k0 ← roundKeys width rc 0
  assertR (1 ≤ half)
  let first ← (List.range (half - 1)).mapM fun i => do
    let next ← roundKeys width rc (i + 1)
    mulRowVec mds.mInv next
  let finalRound := half + partialRounds
  let fk ← roundKeys width rc finalRound
  let (acc, keys) ← partialFold width rc mds.mInv finalRound partialRounds 0 fk []
  let mid ← mulRowVec mds.mInv acc
  let last ← (List.range (half - 1)).mapM fun i => do
    let next ← roundKeys width rc (i + 1 + (half + partialRounds))
    mulRowVec mds.mInv next
  return k0 ++ first.flatten ++ mid ++ keys.reverse ++ last.flatten

end VO.Poseidon
