import Verif.Model.PlonkPerm

/-
Model of the two reference implementations of the permutation accumulator in
`/repo/plonk-core/src/permutation/mod.rs`, `compute_slow_permutation_poly` and
`compute_fast_permutation_poly`, which the crate keeps (marked `dead_code`) beside
`compute_permutation_poly`.
-/

namespace VO.Plonk

variable {F : Type} [Field F] [DecidableEq F]

/-- `x.inverse().unwrap()`, permutation/mod.rs:366, 379 and 516-525. -/
def invR (x : F) : Except Err F := if x = 0 then .error .panic else .ok x⁻¹

/-- The product of one row of the numerator loop, permutation/mod.rs:294-306. -/
def slowNum (beta gamma : F) (e : (F × F × F × F) × F) : F :=
  (e.2 * beta + (e.1.1 + gamma)) * (K1 * beta * e.2 + (e.1.2.1 + gamma))
    * (K2 * beta * e.2 + (e.1.2.2.1 + gamma)) * (K3 * beta * e.2 + (e.1.2.2.2 + gamma))

/-- The product of one row of the denominator loop, permutation/mod.rs:335-347. -/
def slowDen (beta gamma : F) (e : (F × F × F × F) × (F × F × F × F)) : F :=
  (e.2.1 * beta + (e.1.1 + gamma)) * (e.2.2.1 * beta + (e.1.2.1 + gamma))
    * (e.2.2.2.1 * beta + (e.1.2.2.1 + gamma)) * (e.2.2.2.2 * beta + (e.1.2.2.2 + gamma))

/-- `push(1); for prod { prod *= last; push(prod) }`, permutation/mod.rs:271-272, 308-312 and 349-355. -/
def coeffsOf (l : List F) : List F := l.scanl (fun last prod => prod * last) 1

/-- `compute_slow_permutation_poly`, permutation/mod.rs:207-388: the values of the accumulator and the
numerator and denominator of every row. The four wire iterators are lists. -/
def computeSlowPermutationPoly (D : Dom F) (wires : Quad F) (beta gamma : F) (sigma : Quad F) :
    Except Err (List F × List F × List F) := do
  let sm : Quad F := ⟨D.fft sigma.p1, D.fft sigma.p2, D.fft sigma.p3, D.fft sigma.p4⟩
  let nums := ((zip4 wires).zip D.elements).map (slowNum beta gamma)
  let dens := ((zip4 wires).zip (zip4 sm)).map (slowDen beta gamma)
  let nc := coeffsOf nums
  let dc := coeffsOf dens
  assertR (dc.length = D.size + 1)
  assertR (nc.length = D.size + 1)
  let a := nc.getLastD 0
  assertR (a ≠ 0)
  let b := dc.getLastD 0
  assertR (b ≠ 0)
  let bi ← invR b
  assertR (a * bi = 1)
  let z ← ((nc.eraseIdx D.size).zip (dc.eraseIdx D.size)).mapM fun e => do
    let i ← invR e.2
    return e.1 * i
  assertR (z.length = D.size)
  return (z, nums, dens)

/-- The eight components of a row, permutation/mod.rs:527. -/
structure Oct (F : Type) where
  c1 : F
  c2 : F
  c3 : F
  c4 : F
  c5 : F
  c6 : F
  c7 : F
  c8 : F

/-- The components of one row, permutation/mod.rs:489-528. -/
def fastRow (beta gamma : F) (e : F × (F × F × F × F) × (F × F × F × F)) : Except Err (Oct F) := do
  let root := e.1 * beta
  let s := e.2.1
  let w := e.2.2
  let ac5 ← invR (w.1 + gamma + s.1 * beta)
  let ac6 ← invR (w.2.1 + gamma + s.2.1 * beta)
  let ac7 ← invR (w.2.2.1 + gamma + s.2.2.1 * beta)
  let ac8 ← invR (w.2.2.2 + gamma + s.2.2.2 * beta)
  return ⟨w.1 + gamma + root, w.2.1 + gamma + root * K1, w.2.2.1 + gamma + root * K2,
    w.2.2.2 + gamma + root * K3, ac5, ac6, ac7, ac8⟩

/-- `prev.i *= current.i`, permutation/mod.rs:562-569. -/
def octMul (p q : Oct F) : Oct F := ⟨p.c1 * q.c1, p.c2 * q.c2, p.c3 * q.c3, p.c4 * q.c4,
  p.c5 * q.c5, p.c6 * q.c6, p.c7 * q.c7, p.c8 * q.c8⟩

/-- The eight ones, permutation/mod.rs:534-541 and 551-558. -/
def octOnes : Oct F := ⟨1, 1, 1, 1, 1, 1, 1, 1⟩

/-- The stateful `map` over the components, permutation/mod.rs:560-573. -/
def fastScan (prev : Oct F) : List (Oct F) → List (Oct F)
  | [] => []
  | x :: l => octMul prev x :: fastScan (octMul prev x) l

/-- The product of the eight components, permutation/mod.rs:585-597. -/
def octProd (x : Oct F) : F :=
  1 * x.c1 * x.c2 * x.c3 * x.c4 * x.c5 * x.c6 * x.c7 * x.c8

/-- `compute_fast_permutation_poly`, permutation/mod.rs:390-605: the values of the accumulator. -/
def computeFastPermutationPoly (D : Dom F) (wires : Quad F) (beta gamma : F) (sigma : Quad F) :
    Except Err (List F) := do
  let sm : Quad F := ⟨D.fft sigma.p1, D.fft sigma.p2, D.fft sigma.p3, D.fft sigma.p4⟩
  let rows ← (D.elements.zip ((zip4 sm).zip (zip4 wires))).mapM (fastRow beta gamma)
  let z := (fastScan octOnes (octOnes :: rows)).map octProd
  assertR (D.size < z.length)
  let z := z.eraseIdx D.size
  assertR (z.length = D.size)
  return z

end VO.Plonk
