import Mathlib.Algebra.Field.Basic
import Mathlib.Data.ZMod.Basic
import Verif.Model.Basic

/-
Model of `/repo/voproof/src/tools/mod.rs`.

Vectors (`Vec<F>`) are lists.  Index arithmetic in `i64`/`usize` is done in `Int`/`Nat`
(no overflow).  Timers and prints are dropped.
-/

namespace VO

/-! ## Integer conversions (only here is the field fixed to `ZMod p`) -/

/-- `to_field`, tools/mod.rs:10-12.  `from_bigint(i).unwrap()` panics when `i ≥ p`. -/
def toFieldZ (p : ℕ) (i : ℕ) : Res (ZMod p) :=
  if i < p then .ok (i : ZMod p) else .error .panic

/-- Little-endian base-`2^64` digits without leading zeros: `into_bigint().into().to_u64_digits()`
(used at tools/mod.rs:15 and 27). -/
def u64Digits (n : ℕ) : List ℕ :=
  if h : n = 0 then [] else (n % 2 ^ 64) :: u64Digits (n / 2 ^ 64)
termination_by n
decreasing_by exact Nat.div_lt_self (Nat.pos_of_ne_zero h) (by decide)

/-- `to_int`, tools/mod.rs:14-24. -/
def toInt (p : ℕ) (e : ZMod p) : Res ℕ :=
  match u64Digits e.val with
  | [] => .ok 0
  | [d] => .ok d
  | _ => .error .panic

/-- `try_to_int`, tools/mod.rs:26-33. -/
def tryToInt (p : ℕ) (e : ZMod p) : Option ℕ :=
  match u64Digits e.val with
  | [] => some 0
  | [d] => some d
  | _ => none

/-- The cast `b as u64` of an `i64` (two's complement), used at tools/mod.rs:66. -/
def i64AsU64 (b : ℤ) : ℕ := (b % 2 ^ 64).toNat

/-- `custom_add_fi`, tools/mod.rs:65-67. -/
def customAddFi (p : ℕ) (a : ZMod p) (b : ℤ) : Res (ZMod p) :=
  match toFieldZ p (i64AsU64 b) with
  | .ok f => .ok (a + f)
  | .error e => .error e

/-! ## Scalars -/

variable {F : Type} [Field F] [DecidableEq F]

/-- `to_field` for an abstract field (tools/mod.rs:10-12) when the integer is below the modulus. -/
def toField (i : ℕ) : F := (i : F)

/-- `power`, tools/mod.rs:77-85. -/
def power (a : F) (e : ℤ) : F :=
  if a = 0 ∨ a = 1 then a
  else if e < 0 then a⁻¹ ^ (-e).toNat
  else a ^ e.toNat

/-- Field division `a / b`: `a * b.inverse().unwrap()` in ark-ff, panics when `b = 0`. -/
def divR (a b : F) : Res F := if b = 0 then .error .panic else .ok (a / b)

/-- `inverse!`, tools/mod.rs:1476-1480. -/
def inverseR (a : F) : Res F := if a = 0 then .error .panic else .ok a⁻¹

/-! ## Sparse matrices -/

/-- A sparse matrix: rows, columns, values (`(Vec<u64>, Vec<u64>, Vec<F>)`). -/
structure SparseMat (F : Type) where
  rows : List ℕ
  cols : List ℕ
  vals : List F

/-- One iteration of the loop at tools/mod.rs:103-105: `res[r] += right[c] * v`. -/
def sparseStep (right : List F) (res : Res (List F)) (e : (ℕ × ℕ) × F) : Res (List F) :=
  match res with
  | .error x => .error x
  | .ok l =>
    match l[e.1.1]?, right[e.1.2]? with
    | some a, some b => .ok (l.set e.1.1 (a + b * e.2))
    | _, _ => .error .panic

/-- `sparse_mvp`, tools/mod.rs:90-107.  Sizes are `i64`, the vector must have length `k`. -/
def sparseMvp (h k : ℤ) (m : SparseMat F) (right : List F) : Res (List F) :=
  if ¬ 0 < h then .error .panic
  else if ¬ 0 < k then .error .panic
  else if (right.length : ℤ) ≠ k then .error .panic
  else ((m.rows.zip m.cols).zip m.vals).foldl (sparseStep right)
        (.ok (List.replicate h.toNat 0))

/-- `define_left_sparse_mvp_vector!`, tools/mod.rs:992-998: rows and columns exchanged. -/
def leftSparseMvp (m : SparseMat F) (v : List F) (h k : ℤ) : Res (List F) :=
  sparseMvp k h ⟨m.cols, m.rows, m.vals⟩ v

/-- `concat_matrix_vertically!`, tools/mod.rs:342-368. -/
def concatMatrixVertically (h : ℕ) (a b c : SparseMat F) : SparseMat F :=
  ⟨a.rows ++ b.rows.map (· + h) ++ c.rows.map (· + h * 2),
   a.cols ++ b.cols ++ c.cols,
   a.vals ++ b.vals ++ c.vals⟩

/-- `concat_matrix_horizontally!`, tools/mod.rs:371-401. -/
def concatMatrixHorizontally (k : ℕ) (a b c : SparseMat F) (drows : List ℕ) (dvals : List F) :
    SparseMat F :=
  ⟨a.rows ++ b.rows ++ c.rows ++ drows,
   a.cols.map (· + 1) ++ b.cols.map (· + k + 1) ++ c.cols.map (· + k * 2 + 1)
     ++ List.replicate dvals.length 0,
   a.vals ++ b.vals ++ c.vals ++ dvals⟩

/-! ## Evaluation helpers -/

/-- `evaluate_sparse`, tools/mod.rs:144-148. -/
def evaluateSparse (x : F) (coeffs : List F) (indices : List ℕ) : F :=
  (coeffs.zip indices).foldl (fun y ci => y + ci.1 * power x ci.2) 0

/-- `evaluate_short`, tools/mod.rs:150-154. -/
def evaluateShort (x : F) (coeffs : List F) : F :=
  coeffs.zipIdx.foldl (fun y ci => y + ci.1 * power x ci.2) 0

/-! ## Power vector iterator -/

/-- State of `PowerVectorIterator`, tools/mod.rs:156-164. -/
structure PowerIter (F : Type) where
  start : ℕ
  stop : ℕ
  alpha : F
  length : ℕ
  shifted : ℕ
  i : ℕ
  curr : Option F

/-- `next`, tools/mod.rs:166-189.  Returns the yielded item and the new state. -/
def PowerIter.next (s : PowerIter F) : Option F × PowerIter F :=
  if s.stop ≤ s.start ∨ s.stop ≤ s.i then (none, s)
  else
    let (ret, curr) :=
      if s.i < s.shifted ∨ s.length + s.shifted ≤ s.i then (some 0, s.curr)
      else match s.curr with
        | some c => (some c, some c)
        | none =>
          let c := power s.alpha ((s.i - s.shifted : ℕ) : ℤ)
          (some c, some c)
    (ret, { s with i := s.i + 1, curr := curr.map (· * s.alpha) })

/-- `power_iter`, tools/mod.rs:191-210. -/
def powerIter (start stop : ℕ) (alpha : F) (length shifted : ℕ) : Res (PowerIter F) :=
  if stop ≤ start then .error .panic
  else .ok ⟨start, stop, alpha, length, shifted, start, none⟩

/-- `.collect::<Vec<_>>()` on the iterator with at most `fuel` items. -/
def PowerIter.collect (fuel : ℕ) (s : PowerIter F) : List F :=
  match fuel with
  | 0 => []
  | fuel + 1 =>
    match s.next with
    | (none, _) => []
    | (some x, s') => x :: PowerIter.collect fuel s'

/-! ## Index macros -/

/-- `minus_i64!`, tools/mod.rs:280-284: note the `+ 1`. -/
def minusI64 (u v : ℤ) : ℤ := u - v + 1

/-- `delta!`, tools/mod.rs:404-412. -/
def delta (i j : ℤ) : F := if i = j then 1 else 0

/-- `multi_delta!`, tools/mod.rs:415-425; the variadic arguments are a list of `(c, j)`. -/
def multiDelta (i : ℤ) (cs : List (F × ℤ)) : F :=
  cs.foldl (fun s cj => if i = cj.2 then s + cj.1 else s) 0

/-- `linear_combination!`, tools/mod.rs:428-440; the variadic arguments are a list of pairs. -/
def linearCombination (i : F) (l : List (F × F)) : F :=
  l.foldl (fun s cj => s + cj.1 * cj.2) i

/-- `power_linear_combination!`, tools/mod.rs:505-517. -/
def powerLinearCombination (alpha : F) (l : List F) : F :=
  (l.foldl (fun (sc : F × F) a => (sc.1 + sc.2 * a, sc.2 * alpha)) (0, 1)).1

/-- `vector_index!`, tools/mod.rs:520-528: 1-based, zero outside the vector. -/
def vectorIndex (v : List F) (i : ℤ) : F :=
  if 1 ≤ i ∧ i ≤ (v.length : ℤ) then v.getD (i - 1).toNat 0 else 0

/-- `power_vector_index!`, tools/mod.rs:531-539. -/
def powerVectorIndex (a : F) (n i : ℤ) : F :=
  if 1 ≤ i ∧ i ≤ n then power a (i - 1) else 0

/-- `range_index!`, tools/mod.rs:542-550. -/
def rangeIndex (s e i : ℤ) : F := if s ≤ i ∧ i ≤ e then 1 else 0

/-! ## Vector macros -/

/-- `zero_pad!`, tools/mod.rs:287-295: `n as usize - u.len()` underflows when `u` is too long. -/
def zeroPad (u : List F) (n : ℤ) : Res (List F) :=
  if n < u.length then .error .panic
  else .ok (u ++ List.replicate (n.toNat - u.length) 0)

/-- `zero_pad_and_concat!`, tools/mod.rs:298-304 (the variadic tail is given as one list). -/
def zeroPadAndConcat (u : List F) (n : ℤ) (v : List F) : Res (List F) :=
  if n < u.length then .error .panic
  else .ok (u ++ List.replicate (n.toNat - u.length) 0 ++ v)

/-- `expression_vector!`, tools/mod.rs:553-560: `(1..=n).map(|i| v)`. -/
def expressionVector (n : ℤ) (f : ℤ → F) : List F :=
  (List.range n.toNat).map (fun (k : ℕ) => f ((k : ℤ) + 1))

/-- `ark_ff::batch_inversion`: zero entries are left unchanged, all others inverted. -/
def batchInversion (v : List F) : List F := v.map (fun a => if a = 0 then 0 else a⁻¹)

/-- `define_expression_vector_inverse!`, tools/mod.rs:570-578. -/
def expressionVectorInverse (n : ℤ) (f : ℤ → F) : List F :=
  batchInversion (expressionVector n f)

/-- `define_uwinverse_vector!`, tools/mod.rs:921-938. -/
def uwinverseVector (mu : F) (u : List F) (nu : F) (w : List F) : List F :=
  batchInversion ((u.zip w).map (fun p => (mu - p.1) * (nu - p.2)))

/-- `add_expression_vector_to_vector!`, tools/mod.rs:581-587. -/
def addExpressionVectorToVector (u : List F) (f : ℤ → F) : List F :=
  u.zipIdx.map (fun p => p.1 + f ((p.2 : ℤ) + 1))

/-- `add_vector_to_vector!`, tools/mod.rs:590-596. -/
def addVectorToVector (u v : List F) : List F :=
  addExpressionVectorToVector u (fun i => vectorIndex v i)

/-- The `scan` of `accumulate_vector!`, tools/mod.rs:602-608. -/
def scanAcc (op : F → F → F) : F → List F → List F
  | _, [] => []
  | acc, x :: l => op acc x :: scanAcc op (op acc x) l

/-- `accumulate_vector_plus!` on `n` expression terms, tools/mod.rs:619-635. -/
def accumulateVectorPlus (init : F) (n : ℤ) (f : ℤ → F) : List F :=
  scanAcc (· + ·) init (expressionVector n f)

/-- `accumulate_vector_mul!` on `n` expression terms, tools/mod.rs:638-654. -/
def accumulateVectorMul (init : F) (n : ℤ) (f : ℤ → F) : List F :=
  scanAcc (· * ·) init (expressionVector n f)

/-- `vector_concat_skip!`, tools/mod.rs:683-689 (the variadic tail is one list). -/
def vectorConcatSkip (m : ℕ) (u v : List F) : List F := u.drop m ++ v

/-- `define_concat_subvec!`, tools/mod.rs:692-708; panics on `aj < ai` or `bj < bi`. -/
def concatSubvec (a : List F) (ai aj : ℕ) (b : List F) (bi bj : ℕ) : Res (List F) :=
  if aj < ai ∨ bj < bi then .error .panic
  else .ok ((a.drop ai).take (aj - ai) ++ (b.drop bi).take (bj - bi))

/-- `define_hadamard_vector!`, tools/mod.rs:855-865. -/
def hadamardVector (u v : List F) : List F := (u.zip v).map (fun p => p.1 * p.2)

/-- `define_concat_neg_vector!`, tools/mod.rs:888-900. -/
def concatNegVector (u v : List F) : List F := u ++ v.map (fun a => -a)

/-- `int_array_to_power_vector!`, tools/mod.rs:801-805. -/
def intArrayToPowerVector (v : List ℕ) (gamma : F) : List F :=
  v.map (fun (e : ℕ) => power gamma (e : ℤ))

/-! ## Polynomials as coefficient lists -/

/-- `DensePolynomial::from_coefficients_vec` (ark-poly): removes trailing zero coefficients;
`poly_from_vec!`, tools/mod.rs:757-768. -/
def polyFromVec (v : List F) : List F := (v.reverse.dropWhile (fun a => a = 0)).reverse

/-- `DensePolynomial::degree` (ark-poly): the zero polynomial has degree 0. -/
def polyDegree (p : List F) : ℕ := p.length - 1

/-- Coefficientwise addition of coefficient lists of any lengths. -/
def addLists : List F → List F → List F
  | [], l => l
  | l, [] => l
  | a :: l, b :: m => (a + b) :: addLists l m

/-- Polynomial addition (ark-poly `AddAssign<&DensePolynomial>`), result trimmed. -/
def polyAdd (p q : List F) : List F := polyFromVec (addLists p q)

/-- Multiplication by a scalar (ark-poly `Mul<F>`). -/
def polyScale (p : List F) (c : F) : List F := polyFromVec (p.map (· * c))

/-- Schoolbook product of coefficient lists. -/
def mulLists : List F → List F → List F
  | [], _ => []
  | a :: l, m => addLists (m.map (a * ·)) (0 :: mulLists l m)

/-- Polynomial product (ark-poly `Mul<&DensePolynomial>`), result trimmed. -/
def polyMul (p q : List F) : List F := polyFromVec (mulLists p q)

/-- Polynomial evaluation (ark-poly `evaluate`). -/
def polyEval (p : List F) (z : F) : F := p.foldr (fun c acc => c + z * acc) 0

/-- `vector_reverse_omega!`, tools/mod.rs:771-790. -/
def vectorReverseOmega (v : List F) (omega : F) : List F :=
  (v.foldl (fun (s : List F × F) c => (s.1 ++ [c * s.2], s.2 * omega)) ([], 1)).1.reverse

/-- `vector_poly_mul_no_dict!`, tools/mod.rs:1092-1098. -/
def vectorPolyMulNoDict (u v : List F) (omega : F) : List F :=
  polyMul (polyFromVec (vectorReverseOmega u omega)) (polyFromVec v)

/-! ### FFT multiplication -/

/-- The FFT data of the scalar field: 2-adicity and a root of unity of order `2^k` for each
`k ≤ twoAdicity` (ark-ff `FftField`).  Mixed-radix domains are not modelled. -/
structure FftParams (F : Type) where
  twoAdicity : ℕ
  root : ℕ → F

/-- Exponent of the domain size `compute_size_of_domain(k)` (ark-poly radix-2 domain): the
least `e` with `k ≤ 2^e`, `None` (and a panic on `unwrap`) beyond the 2-adicity;
tools/mod.rs:1069-1073. -/
def domainLog (fft : FftParams F) (k : ℕ) : Res ℕ :=
  if Nat.clog 2 k ≤ fft.twoAdicity then .ok (Nat.clog 2 k) else .error .panic

/-- `evaluate_over_domain_by_ref`: the values at the `N` powers of the root. -/
def dft (w : F) (N : ℕ) (p : List F) : List F :=
  (List.range N).map (fun i => polyEval p (w ^ i))

/-- `Evaluations::interpolate`: inverse transform followed by trimming. -/
def idft (w : F) (N : ℕ) (e : List F) : List F :=
  polyFromVec ((List.range N).map (fun j => (N : F)⁻¹ * polyEval e (w⁻¹ ^ j)))

/-- `vector_poly_mul!` without caches, tools/mod.rs:1058-1089. -/
def vectorPolyMul (fft : FftParams F) (u v : List F) (omega : F) : Res (List F) := do
  let e ← domainLog fft (u.length + v.length)
  let N := 2 ^ e
  let w := fft.root e
  let ue := dft w N (polyFromVec (vectorReverseOmega u omega))
  let ve := dft w N (polyFromVec v)
  return idft w N ((ue.zip ve).map (fun p => p.1 * p.2))

/-- An evaluation cache, `HashMap<usize, Evaluations>` keyed by domain size,
tools/mod.rs:1103-1128. -/
abbrev EvalDict (F : Type) := List (ℕ × List F)

/-- `get_eval!`, tools/mod.rs:1042-1055: look up, or compute and insert. -/
def getEval (fft : FftParams F) (p : List F) (d : EvalDict F) (e : ℕ) : List F × EvalDict F :=
  match d.lookup (2 ^ e) with
  | some v => (v, d)
  | none => let v := dft (fft.root e) (2 ^ e) p; (v, (2 ^ e, v) :: d)

/-- `vector_poly_mul!` with its two caches, tools/mod.rs:1058-1089. -/
def vectorPolyMulDict (fft : FftParams F) (u v : List F) (omega : F) (ld rd : EvalDict F) :
    Res (List F × EvalDict F × EvalDict F) := do
  let e ← domainLog fft (u.length + v.length)
  let (ue, ld) := getEval fft (polyFromVec (vectorReverseOmega u omega)) ld e
  let (ve, rd) := getEval fft (polyFromVec v) rd e
  return (idft (fft.root e) (2 ^ e) ((ue.zip ve).map (fun p => p.1 * p.2)), ld, rd)

/-! ### Products with power vectors -/

/-- The scan of `vector_power_mul!`, tools/mod.rs:1170-1176, from index `i` on, `steps` steps. -/
def vectorPowerMulGo (v : List F) (alpha alphaPower : F) (n : ℤ) : ℕ → ℤ → F → List F
  | 0, _, _ => []
  | steps + 1, i, acc =>
    let acc' := acc * alpha + vectorIndex v i - vectorIndex v (i - n) * alphaPower
    acc' :: vectorPowerMulGo v alpha alphaPower n steps (i + 1) acc'

/-- `vector_power_mul!`, tools/mod.rs:1162-1199.  The range is `1..n + |v|` (exclusive). -/
def vectorPowerMul (v : List F) (alpha : F) (n : ℤ) : List F :=
  vectorPowerMulGo v alpha (power alpha n) n (n.toNat + v.length - 1) 1 0

/-- The scan of `power_power_mul!`, tools/mod.rs:1218-1233. -/
def powerPowerMulGo (alpha alphaPower : F) (n : ℕ) (beta : F) (m : ℕ) :
    ℕ → ℕ → F → F → F → List F
  | 0, _, _, _, _ => []
  | steps + 1, i, acc, betaPower, late =>
    let acc' := acc * alpha + betaPower - late * alphaPower
    let betaPower' := if m ≤ i then 0 else betaPower * beta
    let late' := if i < n then 0 else if i = n then 1 else late * beta
    acc' :: powerPowerMulGo alpha alphaPower n beta m steps (i + 1) acc' betaPower' late'

/-- `power_power_mul!`, tools/mod.rs:1209-1261. -/
def powerPowerMul (alpha : F) (n : ℕ) (beta : F) (m : ℕ) : List F :=
  powerPowerMulGo alpha (power alpha n) n beta m (n + m - 1) 1 0 1 0

/-- `eval_vector_expression!`, tools/mod.rs:1271-1287. -/
def evalVectorExpression (z : F) (n : ℤ) (f : ℤ → F) : F :=
  ((expressionVector n f).foldl (fun (s : F × F) x => (s.1 + x * s.2, s.2 * z)) (0, 1)).1

/-- `eval_vector_as_poly!`, tools/mod.rs:1302-1306. -/
def evalVectorAsPoly (v : List F) (z : F) : F :=
  evalVectorExpression z v.length (fun i => vectorIndex v i)

/-! ### Checks -/

/-- `check_vector_eq!`, tools/mod.rs:1386-1399: the lengths, then the first differing position. -/
def checkVectorEq (u v : List F) : Res Unit :=
  if u.length ≠ v.length then .error .vectorNotEqual
  else if ((u.zip v).findIdx? (fun p => p.1 ≠ p.2)).isSome then .error .vectorNotEqual
  else .ok ()

/-- `check_poly_eval!`, tools/mod.rs:1330-1341. -/
def checkPolyEval (p : List F) (z y : F) : Res Unit :=
  if polyEval p z = y then .ok () else .error .polynomialEvaluationUnexpected

/-! ### Sparse vectors and permutations -/

/-- `eval_sparse_vector!`, tools/mod.rs:1413-1421. -/
def evalSparseVector (z : F) (indices : List ℕ) (vals : List F) : F :=
  ((indices.zip vals).map (fun p => power z (p.1 : ℤ) * p.2)).sum

/-- `eval_sparse_zero_one_vector!`, tools/mod.rs:1424-1431. -/
def evalSparseZeroOneVector (z : F) (indices : List ℕ) : F :=
  (indices.map (fun (i : ℕ) => power z (i : ℤ))).sum

/-- `define_sparse_vector!`, tools/mod.rs:1434-1444: later writes overwrite, an index out of
range panics. -/
def sparseVector (indices : List ℕ) (vals : List F) (n : ℤ) : Res (List F) :=
  (indices.zip vals).foldl
    (fun r p => match r with
      | .error e => .error e
      | .ok l => if p.1 < l.length then .ok (l.set p.1 p.2) else .error .panic)
    (.ok (List.replicate n.toNat 0))

/-- `define_sparse_zero_one_vector!`, tools/mod.rs:1447-1457. -/
def sparseZeroOneVector (indices : List ℕ) (n : ℤ) : Res (List F) :=
  indices.foldl
    (fun r i => match r with
      | .error e => .error e
      | .ok l => if i < l.length then .ok (l.set i 1) else .error .panic)
    (.ok (List.replicate n.toNat 0))

/-- One swap of `define_permutation_vector_from_wires!`, tools/mod.rs:1467-1471. -/
def swapStep {α : Type} (r : Res (List α)) (p : ℕ × ℕ) : Res (List α) :=
  match r with
  | .error e => .error e
  | .ok l =>
    match l[p.1]?, l[p.2]? with
    | some a, some b => .ok ((l.set p.1 b).set p.2 a)
    | _, _ => .error .panic

/-- `define_permutation_vector_from_wires!`, tools/mod.rs:1460-1473. -/
def permutationVectorFromWires (gamma : F) (pairs : List (ℕ × ℕ)) (n : ℤ) : Res (List F) := do
  let ginv ← inverseR gamma
  pairs.foldl swapStep (.ok (scanAcc (· * ·) ginv (List.replicate n.toNat gamma)))

end VO
