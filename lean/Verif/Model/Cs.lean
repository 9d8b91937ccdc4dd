import Verif.Model.Tools

/-
Model of the constraint systems `/repo/voproof/src/cs/{r1cs,hpr,pov}.rs`
(the circuit builder `cs/circuit` is in `Model/Circuit.lean`).  `u64`/`usize` are `Nat`.
-/

namespace VO

variable {F : Type} [Field F] [DecidableEq F]

/-! ## R1CS -/

/-- `R1CS`, cs/r1cs.rs:7-21; the nine arrays are three `SparseMat`. -/
structure R1CS (F : Type) where
  a : SparseMat F
  b : SparseMat F
  c : SparseMat F
  nrows : ℕ
  ncols : ℕ
  inputSize : ℕ

/-- `R1CSSize`, cs/r1cs.rs:143-151. -/
structure R1CSSize where
  nrows : ℕ
  ncols : ℕ
  adensity : ℕ
  bdensity : ℕ
  cdensity : ℕ
  inputSize : ℕ
  deriving DecidableEq

/-- `R1CS::get_size`, cs/r1cs.rs:23-44. -/
def R1CS.getSize (r : R1CS F) : Res R1CSSize := do
  assertR (r.a.rows.length = r.a.cols.length)
  assertR (r.a.rows.length = r.a.vals.length)
  assertR (r.b.rows.length = r.b.cols.length)
  assertR (r.b.rows.length = r.b.vals.length)
  assertR (r.c.rows.length = r.c.cols.length)
  assertR (r.c.rows.length = r.c.vals.length)
  return ⟨r.nrows, r.ncols, r.a.rows.length, r.b.rows.length, r.c.rows.length, r.inputSize⟩

/-- `R1CS::satisfy`, cs/r1cs.rs:46-81; `unwrap` of `sparse_mvp` panics. -/
def R1CS.satisfy (r : R1CS F) (ins wit : List F) : Res Bool := do
  let z := 1 :: (ins ++ wit)
  let ya ← sparseMvp r.nrows r.ncols r.a z
  let yb ← sparseMvp r.nrows r.ncols r.b z
  let yc ← sparseMvp r.nrows r.ncols r.c z
  return ((ya.zip yb).zip yc).all (fun t => decide (t.1.1 * t.1.2 = t.2))

/-- The matrices returned by `ark_relations` `to_matrices` after `inline_all_lcs`
(used at cs/r1cs.rs:87-92): each row is a list of `(coefficient, column)`. -/
structure ArkMatrices (F : Type) where
  numInstanceVariables : ℕ
  numWitnessVariables : ℕ
  numConstraints : ℕ
  a : List (List (F × ℕ))
  b : List (List (F × ℕ))
  c : List (List (F × ℕ))

/-- The `enumerate().flat_map(..)` of cs/r1cs.rs:93-101 (and 102-119 for `b`, `c`). -/
def arkTriples (m : List (List (F × ℕ))) : List (ℕ × ℕ × F) :=
  m.zipIdx.flatMap (fun (row : List (F × ℕ) × ℕ) => row.1.map (fun e => (row.2, e.2, e.1)))

/-- cs/r1cs.rs:120-128: the three arrays of one matrix. -/
def arkSparse (m : List (List (F × ℕ))) : SparseMat F :=
  ⟨(arkTriples m).map (·.1), (arkTriples m).map (·.2.1), (arkTriples m).map (·.2.2)⟩

/-- `From<ArkR1CS> for R1CS`, cs/r1cs.rs:83-141 (after `to_matrices`);
`num_instance_variables - 1` underflows on 0. -/
def R1CS.ofArk (m : ArkMatrices F) : Res (R1CS F) :=
  if m.numInstanceVariables = 0 then .error .panic
  else .ok ⟨arkSparse m.a, arkSparse m.b, arkSparse m.c, m.numConstraints,
    m.numInstanceVariables + m.numWitnessVariables, m.numInstanceVariables - 1⟩

/-! ## HPR -/

/-- `HPR`, cs/hpr.rs:7-23. -/
structure HPR (F : Type) where
  a : SparseMat F
  b : SparseMat F
  c : SparseMat F
  drows : List ℕ
  dvals : List F
  nrows : ℕ
  ncols : ℕ
  inputSize : ℕ

/-- `HPRSize`, cs/hpr.rs:52-61. -/
structure HPRSize where
  nrows : ℕ
  ncols : ℕ
  adensity : ℕ
  bdensity : ℕ
  cdensity : ℕ
  ddensity : ℕ
  inputSize : ℕ
  deriving DecidableEq

/-- `HPR::get_size`, cs/hpr.rs:25-50.  Lines 43-44 report `adensity` for all three matrices. -/
def HPR.getSize (r : HPR F) : Res HPRSize := do
  assertR (r.a.rows.length = r.a.cols.length)
  assertR (r.a.rows.length = r.a.vals.length)
  assertR (r.b.rows.length = r.b.cols.length)
  assertR (r.b.rows.length = r.b.vals.length)
  assertR (r.c.rows.length = r.c.cols.length)
  assertR (r.c.rows.length = r.c.vals.length)
  assertR (r.drows.length = r.dvals.length)
  assertR (r.drows.length ≤ r.nrows)
  return ⟨r.nrows, r.ncols, r.a.rows.length, r.a.rows.length, r.a.rows.length, r.drows.length,
    r.inputSize⟩

/-- One step `y[i] += a` (index out of range panics), cs/hpr.rs:116-118. -/
def addAt (y : Res (List F)) (p : ℕ × F) : Res (List F) :=
  match y with
  | .error e => .error e
  | .ok l => if p.1 < l.length then .ok (l.set p.1 (l.getD p.1 0 + p.2)) else .error .panic

/-- One step `y[i] -= a`, cs/hpr.rs:119-121. -/
def subAt (y : Res (List F)) (p : F × ℕ) : Res (List F) :=
  match y with
  | .error e => .error e
  | .ok l => if p.2 < l.length then .ok (l.set p.2 (l.getD p.2 0 - p.1)) else .error .panic

/-- `HPR::satisfy`, cs/hpr.rs:75-124. -/
def HPR.satisfy (r : HPR F) (ins w1 w2 w3 : List F) : Res Bool :=
  if ¬ ((w1.zip w2).zip w3).all (fun t => decide (t.1.1 * t.1.2 = t.2)) then .ok false
  else do
    let ya ← sparseMvp r.nrows r.ncols r.a w1
    let yb ← sparseMvp r.nrows r.ncols r.b w2
    let yc ← sparseMvp r.nrows r.ncols r.c w3
    let y := ((ya.zip yb).zip yc).map (fun t => t.1.1 + t.1.2 + t.2)
    let y ← (r.drows.zip r.dvals).foldl addAt (.ok y)
    let y ← ins.zipIdx.foldl subAt (.ok y)
    return y.all (fun a => decide (a = 0))

/-- A source of randomness `RngCore`: from each state it can draw a `u64` or a field element.
Any implementation is an instance. -/
structure Rng (S F : Type) where
  u64 : S → ℕ × S
  field : S → F × S

/-- `(0..n).map(|_| draw(rng)).collect()`. -/
def drawMany {S α : Type} (draw : S → α × S) : ℕ → S → List α × S
  | 0, s => ([], s)
  | n + 1, s =>
    let (x, s) := draw s
    let (l, s) := drawMany draw n s
    (x :: l, s)

/-- `u64::rand(rng) % m` (the callers exclude `m = 0`), cs/hpr.rs:136. -/
def Rng.u64Mod {S : Type} (rng : Rng S F) (m : ℕ) (s : S) : ℕ × S :=
  let (x, s) := rng.u64 s
  (x % m, s)

/-- The constant vector of `generate_random_hpr_instance`, cs/hpr.rs:168-181. -/
def hprConst (x y1 y2 y3 : List F) : List F :=
  ((y1.zip y2).zip y3).zipIdx.map (fun t =>
    if t.2 < x.length then -t.1.1.1 - t.1.1.2 - t.1.2 + x.getD t.2 0
    else -t.1.1.1 - t.1.1.2 - t.1.2)

/-- `generate_random_hpr_instance`, cs/hpr.rs:129-221.  `% nrows`, `% ncols` panic on 0 because
`density` is positive as soon as one of them is. -/
def generateRandomHpr {S : Type} (rng : Rng S F) (nrows ncols inputSize : ℕ) (s : S) :
    Res (HPR F × List F × (List F × List F × List F)) :=
  if (nrows = 0 ∨ ncols = 0) ∧ (nrows + ncols) * 2 ≠ 0 then .error .panic
  else
    let density := (nrows + ncols) * 2
    let (arows, s) := drawMany (rng.u64Mod nrows) density s
    let (brows, s) := drawMany (rng.u64Mod nrows) density s
    let (crows, s) := drawMany (rng.u64Mod nrows) density s
    let (acols, s) := drawMany (rng.u64Mod ncols) density s
    let (bcols, s) := drawMany (rng.u64Mod ncols) density s
    let (ccols, s) := drawMany (rng.u64Mod ncols) density s
    let (avals, s) := drawMany rng.field density s
    let (bvals, s) := drawMany rng.field density s
    let (cvals, s) := drawMany rng.field density s
    let (x, s) := drawMany rng.field inputSize s
    let (w1, s) := drawMany rng.field ncols s
    let (w2, _) := drawMany rng.field ncols s
    let w3 := hadamardVector w1 w2
    do
      let y1 ← sparseMvp nrows ncols ⟨arows, acols, avals⟩ w1
      let y2 ← sparseMvp nrows ncols ⟨brows, bcols, bvals⟩ w2
      let y3 ← sparseMvp nrows ncols ⟨crows, ccols, cvals⟩ w3
      let d := hprConst x y1 y2 y3
      let nz := d.zipIdx.filter (fun t => decide (t.1 ≠ 0))
      return (⟨⟨arows, acols, avals⟩, ⟨brows, bcols, bvals⟩, ⟨crows, ccols, cvals⟩,
        nz.map Prod.snd, nz.map Prod.fst, nrows, ncols, inputSize⟩, x, (w1, w2, w3))

/-! ## POV -/

/-- `POV`, cs/pov.rs:5-11. -/
structure POV (F : Type) where
  consts : List F
  wires : List (ℕ × ℕ)
  nmul : ℕ
  nadd : ℕ

/-- `POVSize`, cs/pov.rs:24-30. -/
structure POVSize where
  nconsts : ℕ
  nmul : ℕ
  nadd : ℕ
  n : ℕ
  deriving DecidableEq

/-- `POV::get_size`, cs/pov.rs:13-22. -/
def POV.getSize (p : POV F) : POVSize :=
  ⟨p.consts.length, p.nmul, p.nadd, p.consts.length + p.nmul + p.nadd⟩

/-- `POVWitness`, cs/pov.rs:39-42. -/
structure POVWitness (F : Type) where
  w0 : List F
  w1 : List F
  w2 : List F
  deriving DecidableEq

/-- `POVInstance`, cs/pov.rs:34-37. -/
structure POVInstance (F : Type) where
  idx : List ℕ
  vals : List F
  deriving DecidableEq

/-- `POVWitness::get_value_at`, cs/pov.rs:48-58. -/
def POVWitness.getValueAt (w : POVWitness F) (index : ℕ) : Option F :=
  if index < w.w0.length then w.w0[index]?
  else if index < w.w0.length + w.w1.length then w.w1[index - w.w0.length]?
  else if index < w.w0.length + w.w1.length + w.w2.length then
    w.w2[index - w.w0.length - w.w1.length]?
  else none

/-- `POVWitness::satisfy_instance`, cs/pov.rs:60-71. -/
def POVWitness.satisfyInstance (w : POVWitness F) (ins : POVInstance F) : Bool :=
  (ins.idx.zip ins.vals).all (fun p =>
    match w.getValueAt p.1 with
    | some u => decide (u = p.2)
    | none => false)

/-- The loop body of `satisfy_gate_logics`, cs/pov.rs:100-117: `some ok` or a panic when a
constant gate index is outside `consts`. -/
def POV.gateOk (p : POV F) (i : ℕ) (a b c : F) : Res Bool :=
  if i < p.nmul then .ok (decide (c = a * b))
  else if i < p.nmul + p.nadd then .ok (decide (c = a + b))
  else match p.consts[i - (p.nmul + p.nadd)]? with
    | some k => .ok (decide (c = k))
    | none => .error .panic

/-- The loop of `satisfy_gate_logics`, cs/pov.rs:91-118: stops at the first failing gate. -/
def POV.gatesOk (p : POV F) : ℕ → List ((F × F) × F) → Res Bool
  | _, [] => .ok true
  | i, t :: l =>
    match p.gateOk i t.1.1 t.1.2 t.2 with
    | .error e => .error e
    | .ok false => .ok false
    | .ok true => p.gatesOk (i + 1) l

/-- `POV::satisfy_gate_logics`, cs/pov.rs:89-120. -/
def POV.satisfyGateLogics (p : POV F) (w : POVWitness F) : Res Bool :=
  p.gatesOk 0 ((w.w0.zip w.w1).zip w.w2)

/-- `POV::satisfy_wiring`, cs/pov.rs:122-133. -/
def POV.satisfyWiring (p : POV F) (w : POVWitness F) : Bool :=
  p.wires.all (fun q =>
    match w.getValueAt q.1, w.getValueAt q.2 with
    | some a, some b => decide (a = b)
    | _, _ => false)

/-- `POV::satisfy`, cs/pov.rs:85-87 (short-circuit `&&`). -/
def POV.satisfy (p : POV F) (ins : POVInstance F) (w : POVWitness F) : Res Bool :=
  match p.satisfyGateLogics w with
  | .error e => .error e
  | .ok g => .ok (g && p.satisfyWiring w && w.satisfyInstance ins)

end VO
