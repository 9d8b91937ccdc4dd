import Verif.Model.PlonkPerm

/-
Model of `/repo/plonk-core/src/lookup/` and of the part of
`/repo/plonk-core/src/proof_system/prover.rs` that prepares the lookup argument.
-/

namespace VO.Plonk

/-- The constructors of `Error` (`/repo/plonk-core/src/error.rs:11-82`) that the modelled functions
return, payloads dropped, plus `panic`. -/
inductive PErr where
  | panic
  | invalidEvalDomainSize
  | proofVerificationError
  | circuitInputsNotFound
  | circuitAlreadyPreprocessed
  | mismatchedPolyLen
  | pcError
  | elementNotIndexed
  | invalidPublicInputValue
  deriving DecidableEq, Repr

/-- A function that can only panic, called from one that returns `Result`. -/
def liftP {α : Type} : Res α → Except PErr α
  | .ok a => .ok a
  | .error _ => .error .panic

/-- `r.unwrap()`. -/
def unwrapP {α : Type} : Except PErr α → Res α
  | .ok a => .ok a
  | .error _ => .error .panic

variable {F : Type} [Field F] [DecidableEq F]

/-! ### `lookup_table.rs` -/

/-- The rows of `LookupTable`, lookup_table.rs:18. -/
abbrev Table (F : Type) := List (F × F × F × F)

/-- The result of a `u64` operation whose mathematical value is `x`: with overflow checks (debug
builds) it panics when `x` does not fit, without (release builds) it wraps. -/
def u64 (checks : Bool) (x : ℕ) : Res ℕ :=
  if x < 2 ^ 64 then .ok x else if checks then .error .panic else .ok (x % 2 ^ 64)

/-- The four kinds of rows; the code has one function per kind. -/
inductive LookupOp where
  | add | mul | xor | and
  deriving DecidableEq, Repr

/-- The `u64` operation: `a + b` (lookup_table.rs:52), `a * b` (:62), `a ^ b` (:72), `a & b`
(:82). -/
def LookupOp.val : LookupOp → ℕ → ℕ → ℕ
  | .add, a, b => a + b
  | .mul, a, b => a * b
  | .xor, a, b => a ^^^ b
  | .and, a, b => a &&& b

/-- The fourth column: lookup_table.rs:53, 63, 73, 83. -/
def LookupOp.tag : LookupOp → F
  | .add => 0
  | .mul => 1
  | .xor => -1
  | .and => 2

/-- `insert_add_row`, `insert_mul_row`, `insert_xor_row`, `insert_and_row`,
lookup_table.rs:51-84. -/
def insertOpRow (checks : Bool) (op : LookupOp) (T : Table F) (a b ub : ℕ) : Res (Table F) := do
  let s ← u64 checks (op.val a b)
  assertR (ub ≠ 0)
  return T ++ [((a : F), (b : F), ((s % ub : ℕ) : F), op.tag)]

/-- `insert_multi_add`, `insert_multi_mul`, `insert_multi_xor`, `insert_multi_and`,
lookup_table.rs:94-152. -/
def insertMulti (checks : Bool) (op : LookupOp) (T : Table F) (lower n : ℕ) : Res (Table F) := do
  let ub ← u64 checks (2 ^ n)
  (List.range' lower (ub - lower)).foldlM (fun T a =>
    (List.range' lower (ub - lower)).foldlM (fun T b => insertOpRow checks op T a b ub) T) T

/-- `add_table`, `xor_table`, `mul_table`, lookup_table.rs:184-204. -/
def opTable (checks : Bool) (op : LookupOp) (lower n : ℕ) : Res (Table F) :=
  insertMulti checks op [] lower n

/-- `vec_to_multiset`, lookup_table.rs:157-165. -/
def vecToMultiset (T : Table F) : List (List F) :=
  [T.map (·.1), T.map (·.2.1), T.map (·.2.2.1), T.map (·.2.2.2)]

/-- `lookup`, lookup_table.rs:172-180. -/
def tableLookup (T : Table F) (a b d : F) : Except PErr F :=
  match T.find? (fun row => row.1 = a ∧ row.2.1 = b ∧ row.2.2.2 = d) with
  | some row => .ok row.2.2.1
  | none => .error .elementNotIndexed

/-! ### `witness_table.rs` -/

/-- `WitnessTable::value_from_table`, witness_table.rs:48-67, for the four columns made by `new`
(:28-32). -/
def valueFromTable (f : Quad F) (T : Table F) (l r d : F) : Except PErr (Quad F) := do
  let o ← tableLookup T l r d
  return ⟨f.p1 ++ [l], f.p2 ++ [r], f.p3 ++ [o], f.p4 ++ [d]⟩

/-- `WitnessTable::from_wire_values`, witness_table.rs:38-44. -/
def fromWireValues (f : Quad F) (wires : List F) : Res (Quad F) :=
  match wires with
  | [a, b, c, d] => .ok ⟨f.p1 ++ [a], f.p2 ++ [b], f.p3 ++ [c], f.p4 ++ [d]⟩
  | _ => .error .panic

/-! ### `multiset.rs` -/

/-- `pad`, multiset.rs:60-69. -/
def msPad (m : List F) (n : ℕ) : Res (List F) := do
  assertR (2 ^ Nat.log 2 n = n)
  let m := if m.isEmpty then [0] else m
  return m ++ List.replicate (n - m.length) (m.getD 0 0)

/-- One round of the first loop of `combine_split`, multiset.rs:125-132, on the entries of the
`IndexMap` in insertion order. -/
def countInsert (c : List (F × ℕ)) (x : F) : List (F × ℕ) :=
  if c.any (fun e => e.1 = x) then c.map fun e => if e.1 = x then (e.1, e.2 + 1) else e
  else c ++ [(x, 1)]

/-- One round of the second loop, multiset.rs:136-141. -/
def countBump (c : List (F × ℕ)) (x : F) : Except PErr (List (F × ℕ)) :=
  if c.any (fun e => e.1 = x) then .ok (c.map fun e => if e.1 = x then (e.1, e.2 + 1) else e)
  else .error .elementNotIndexed

/-- State of the third loop: evens, odds and whether `parity` is one. -/
structure SplitSt (F : Type) where
  evens : List F
  odds : List F
  parity : Bool

/-- One round of the third loop, multiset.rs:148-161. -/
def splitStep (s : SplitSt F) (e : F × ℕ) : SplitSt F :=
  let half := e.2 / 2
  let s : SplitSt F := ⟨s.evens ++ List.replicate half e.1, s.odds ++ List.replicate half e.1, s.parity⟩
  if e.2 % 2 = 1 then
    if s.parity then ⟨s.evens, s.odds ++ [e.1], false⟩ else ⟨s.evens ++ [e.1], s.odds, true⟩
  else s

/-- `combine_split`, multiset.rs:121-164. -/
def combineSplit (t f : List F) : Except PErr (List F × List F) := do
  let c ← f.foldlM countBump (t.foldl countInsert [])
  let s := c.foldl splitStep ⟨[], [], false⟩
  return (s.evens, s.odds)

/-- `compress`, multiset.rs:194-200, with `lc` (util.rs:147-170) and the element-wise operations of
multiset.rs:227-267. -/
def msCompress (cols : List (List F)) (alpha : F) : Res (List F) :=
  match cols with
  | [] => .error .panic
  | c :: cs => do
    assertR (∀ m ∈ cs, m.length = c.length)
    assertR (alpha ≠ 0)
    assertR (alpha ≠ 1)
    match (c :: cs).reverse with
    | [] => .error .panic
    | k :: rest => .ok (rest.foldl (fun acc v => (acc.zip v).map fun p => p.1 * alpha + p.2) k)

/-! ### `preprocess.rs` -/

/-- The padded columns of `PreprocessedLookupTable::preprocess`, preprocess.rs:45-67; their
polynomials are interpolated and committed to by the caller of this definition. -/
def preprocessTable (T : Table F) (n : ℕ) : Res (List (List F)) := do
  assertR (2 ^ Nat.log 2 n = n)
  (vecToMultiset T).mapM fun col => msPad col n

/-! ### `prover.rs` -/

/-- The query columns, prover.rs:243-264: `ct0` is the first entry of the compressed table and
`rows` the selector and the wires of each row, padded. -/
def queryCols (ct0 : F) (rows : List (F × F × F × F × F)) : List (List F) :=
  [rows.map fun r => if r.1 = 0 then ct0 else r.2.1,
   rows.map fun r => if r.1 = 0 then 0 else r.2.2.1,
   rows.map fun r => if r.1 = 0 then 0 else r.2.2.2.1,
   rows.map fun r => if r.1 = 0 then 0 else r.2.2.2.2]

end VO.Plonk
