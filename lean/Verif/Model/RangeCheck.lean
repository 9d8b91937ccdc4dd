import Verif.Model.Snark

/-
Model of `/repo/voproof/src/snarks/range_check.rs` and `/repo/voproof/src/cs/range.rs`.
`maxshift` (line 228) is the literal 0 throughout.  As in the model of the Fibonacci SNARK, vectors
that the prover computes twice under different names are named once, and evaluation caches are left
out (C06).
-/

namespace VO

variable {F G1 G2 GT : Type} [Field F] [DecidableEq F]
  [AddCommGroup G1] [Module F G1] [DecidableEq G1] [AddCommGroup G2] [Module F G2]
  [AddCommGroup GT] [Module F GT] [DecidableEq GT]

/-- `RangeCheck` and `RangeCheckSize`, cs/range.rs:3-36. -/
structure RangeCheck where
  lookupSize : ℕ
  range : ℕ

/-- `max!(nsize, range)`: `get_max_degree` (range_check.rs:47-49) and `n` (line 142). -/
def RangeCheck.n (cs : RangeCheck) : ℕ := max cs.lookupSize cs.range

/-- `RangeCheckVerifierKey`, range_check.rs:12-18. -/
structure RcVK (G1 G2 : Type) where
  cmT : G1
  kzgVk : VerifierKey G1 G2
  size : RangeCheck
  degreeBound : ℕ

/-- `RangeCheckProverKey`, range_check.rs:4-10. -/
structure RcPK (F G1 G2 : Type) where
  vk : RcVK G1 G2
  powers : List G1
  maxDegree : ℕ
  t : List F

/-- `RangeCheckProof`, range_check.rs:20-35. -/
structure RcProof (F G1 : Type) where
  cmW : G1
  cmM : G1
  cmR : G1
  cmS : G1
  cmRt : G1
  cmT1 : G1
  cmH1 : G1
  cmH2 : G1
  y : F
  y1 : F
  y2 : F
  capW : G1
  capW1 : G1
  deriving DecidableEq

/-- `t_vec`, range_check.rs:80-85.  Simplification: `to_field` panics on an integer above the
modulus of the field; such a range is not representable. -/
def rcTable (range : ℕ) : List F := (List.range range).map (fun (x : ℕ) => (x : F))

/-- `index`, range_check.rs:65-115. -/
def rcIndex (pp : UniversalParams G1 G2) (cs : RangeCheck) :
    Res (RcPK F G1 G2 × RcVK G1 G2) := do
  let maxDegree := cs.n
  let capD := pp.powersOfG.length
  assertR (capD > maxDegree)
  let t : List F := rcTable cs.range
  let cmT ← commitVector pp.powersOfG t cs.lookupSize
  let kzgVk ← vkOf pp
  let vk : RcVK G1 G2 := ⟨cmT, kzgVk, cs, capD⟩
  return (⟨vk, pp.powersOfG, maxDegree, t⟩, vk)

/-- `w_vec`, range_check.rs:141-143. -/
def rcW (rng : ℕ → F) (n : ℕ) (w : List F) : Res (List F) :=
  zeroPadAndConcat w n (sampleVec rng 0 1)

/-- The counts of `m_vec`, range_check.rs:150-160.  Simplification: indexing outside a vector, which
does not happen with keys made by `index`, reads zero. -/
def rcCounts (cs : RangeCheck) (w t : List F) : List F :=
  (List.range cs.range).map (fun i =>
    (List.range cs.lookupSize).foldl
      (fun acc j => if w.getD j 0 = t.getD i 0 then acc + 1 else acc) 0)

/-- `m_vec`, range_check.rs:150-161. -/
def rcM (rng : ℕ → F) (cs : RangeCheck) (w t : List F) : Res (List F) :=
  zeroPadAndConcat (rcCounts cs w t) cs.n (sampleVec rng 1 1)

/-- `r_vec`, range_check.rs:169-178. -/
def rcR (rng : ℕ → F) (cs : RangeCheck) (beta : F) (w : List F) : Res (List F) :=
  zeroPadAndConcat (batchInversion ((w.take cs.lookupSize).map (fun x => x + beta))) cs.n
    (sampleVec rng 2 1)

/-- `s_vec`, range_check.rs:185-198. -/
def rcS (rng : ℕ → F) (cs : RangeCheck) (beta : F) (t m : List F) : Res (List F) :=
  zeroPadAndConcat (hadamardVector (batchInversion ((t.take cs.range).map (fun x => x + beta))) m)
    cs.n (sampleVec rng 3 1)

/-- `r_vec_tilde`, range_check.rs:214-226. -/
def rcRt (rng : ℕ → F) (cs : RangeCheck) (beta1 : F) (r s : List F) : List F :=
  accumulateVectorPlus 0 cs.n (fun i => powerLinearCombination beta1
    [vectorIndex r i * rangeIndex 1 cs.lookupSize i - vectorIndex s i * rangeIndex 1 cs.range i])
    ++ sampleVec rng 4 1

/-- `t_vec_1`, range_check.rs:239-266. -/
def rcT1 (rng : ℕ → F) (cs : RangeCheck) (alpha beta : F) (w t m r s rt : List F) : List F :=
  sampleVec rng 5 1 ++ expressionVector (0 + 2) (fun i =>
    alpha * vectorIndex s (minusI64 (i + cs.n) 1)
        * (beta * rangeIndex 1 cs.range (minusI64 (i + cs.n) 1)
          + vectorIndex t (minusI64 (i + cs.n) 1))
      + -alpha * vectorIndex m (minusI64 (i + cs.n) 1) * rangeIndex 1 cs.range (i + cs.n)
      + power alpha 2 * vectorIndex r (minusI64 (i + cs.n) 1) * rangeIndex 1 cs.lookupSize (i + cs.n)
      + -power alpha 2 * rangeIndex 1 cs.n (minusI64 (i + cs.n) 1)
        * (vectorIndex rt (minusI64 (i + cs.n) 1) - vectorIndex rt (minusI64 (i + cs.n) 2))
      + -power alpha 2 * vectorIndex s (minusI64 (i + cs.n) 1) * rangeIndex 1 cs.range (i + cs.n)
      + vectorIndex r (minusI64 (i + cs.n) 1)
        * (beta * rangeIndex 1 cs.lookupSize (minusI64 (i + cs.n) 1)
          + vectorIndex w (minusI64 (i + cs.n) 1))
      - rangeIndex 1 cs.lookupSize (minusI64 (i + cs.n) 1) * rangeIndex 1 cs.lookupSize (i + cs.n))

/-- The sizes, challenges and vectors of a run of the prover. -/
structure RcRun (F : Type) where
  cs : RangeCheck
  alpha : F
  beta : F
  omega : F
  w : List F
  t : List F
  m : List F
  r : List F
  s : List F
  rt : List F
  t1 : List F

/-- The nine pairs of vectors whose Hadamard products are summed, as functions of the 1-based
index: range_check.rs:284-291, 329-336, 364-371, 415-422, 448-455, 479-486, 510-517, 574-581,
606-613 for `sum_vec`, again in every `abnaive_vec`, in `h_osum` (664-756) and in the evaluations
(864-1125). -/
def RcRun.pairs (s : RcRun F) : List ((ℤ → F) × (ℤ → F)) :=
  [ (fun i => vectorIndex s.r (minusI64 i 1),
     fun i => s.beta * rangeIndex 1 s.cs.lookupSize (minusI64 i 1)
       + vectorIndex s.w (minusI64 i 1)),
    (fun i => -rangeIndex 1 s.cs.lookupSize (minusI64 i 1),
     fun i => rangeIndex 1 s.cs.lookupSize (minusI64 i 1)),
    (fun i => s.alpha * vectorIndex s.s (minusI64 i 1),
     fun i => s.beta * rangeIndex 1 s.cs.range (minusI64 i 1) + vectorIndex s.t (minusI64 i 1)),
    (fun i => -s.alpha * vectorIndex s.m (minusI64 i 1),
     fun i => rangeIndex 1 s.cs.range (minusI64 i 1)),
    (fun i => power s.alpha 2 * vectorIndex s.r (minusI64 i 1),
     fun i => rangeIndex 1 s.cs.lookupSize (minusI64 i 1)),
    (fun i => -power s.alpha 2 * vectorIndex s.s (minusI64 i 1),
     fun i => rangeIndex 1 s.cs.range (minusI64 i 1)),
    (fun i => -power s.alpha 2 * rangeIndex 1 s.cs.n (minusI64 i 1),
     fun i => vectorIndex s.rt (minusI64 i 1) - vectorIndex s.rt (minusI64 i 2)),
    (fun i => power s.alpha 3 * delta i s.cs.n,
     fun i => vectorIndex s.rt (minusI64 i 1)),
    (fun i => -rangeIndex 1 (0 + 1) (minusI64 i (s.cs.n + 1)),
     fun i => vectorIndex s.t1 (minusI64 i s.cs.n)) ]

/-- The derived vectors: `v_vec` (`_15`), `v_vec_2` (`_10`, `_20`), `v_vec_4` (`_17`), `v_vec_6`
(`_12`, `_21`), `v_vec_8` (`_22`), `v_vec_13` (`_23`), `v_vec_14` (`_24`), `v_vec_3` (`_25`);
range_check.rs:292-304, 337-338, 372-386, 423-424, 456-457, 487-488, 518, 614, 635-663. -/
structure RcDerived (F : Type) where
  vrw : List F
  vr1 : List F
  vst : List F
  vs1 : List F
  vm1 : List F
  vrt : List F
  vt1 : List F
  vNN : List F

/-- Computation of the derived vectors (see `RcDerived`); only the FFT products can panic.
Simplification: computed before the convolution checks. -/
def RcRun.derive (fft : FftParams F) (s : RcRun F) : Res (RcDerived F) := do
  let vrw ← vectorPolyMul fft s.r s.w s.omega
  let vst ← vectorPolyMul fft s.s s.t s.omega
  return ⟨vrw, vectorPowerMul (vectorReverseOmega s.r s.omega) 1 s.cs.lookupSize, vst,
    vectorPowerMul (vectorReverseOmega s.s s.omega) 1 s.cs.range,
    vectorPowerMul (vectorReverseOmega s.m s.omega) 1 s.cs.range,
    vectorPowerMul s.rt (power s.omega (-1)) s.cs.n, vectorPowerMul s.t1 (power s.omega (-1)) 1,
    powerPowerMul (power s.omega (-1)) s.cs.lookupSize 1 s.cs.lookupSize⟩

/-- The nine `atimesb` expressions, as functions of `i - maxshift - n`: range_check.rs:305-311,
341-346, 389-395, 427-432, 459-464, 490-495, 522-537, 585-590, 617-622. -/
def RcRun.atimesb (s : RcRun F) (d : RcDerived F) : List (ℤ → F) :=
  let lr := shiftMinusOne s.r
  let ls := shiftMinusOne s.s
  let lm := shiftMinusOne s.m
  [ fun i => s.beta * vectorIndex d.vr1 (minusI64 i (1 - lr))
      + vectorIndex d.vrw (minusI64 i (1 - lr)),
    fun i => -power s.omega (s.cs.lookupSize - 1)
      * vectorIndex d.vNN (minusI64 i (2 - s.cs.lookupSize)),
    fun i => s.alpha * vectorIndex d.vst (minusI64 i (1 - ls))
      + (s.alpha * s.beta) * vectorIndex d.vs1 (minusI64 i (1 - ls)),
    fun i => -s.alpha * vectorIndex d.vm1 (minusI64 i (1 - lm)),
    fun i => power s.alpha 2 * vectorIndex d.vr1 (minusI64 i (1 - lr)),
    fun i => -power s.alpha 2 * vectorIndex d.vs1 (minusI64 i (1 - ls)),
    fun i => (-power s.alpha 2 * power s.omega (s.cs.n - 1))
        * vectorIndex d.vrt (minusI64 i (2 - s.cs.n))
      + (power s.alpha 2 * power s.omega (s.cs.n - 1))
        * vectorIndex d.vrt (minusI64 i (3 - s.cs.n)),
    fun i => (power s.alpha 3 * power s.omega (s.cs.n - 1))
      * vectorIndex s.rt (minusI64 i (2 - s.cs.n)),
    fun i => -power s.omega s.cs.n * vectorIndex d.vt1 (minusI64 i 0) ]

/-- The expression of `h_vec` (range_check.rs:765-789), `h_vec_1` (791-815), `h_vec_2` (816-831) and
the assertion at 837-851, as a function of `i - maxshift - n`, `i - maxshift - n`, `i + 1` and
`1`. -/
def RcRun.hAt (s : RcRun F) (d : RcDerived F) (i : ℤ) : F :=
  let lr := shiftMinusOne s.r
  let ls := shiftMinusOne s.s
  let lm := shiftMinusOne s.m
  let c10 := power s.alpha 2 + s.beta
  let c11 := s.alpha * (-s.alpha + s.beta)
  s.alpha * vectorIndex d.vst (minusI64 i (1 - ls))
    + -s.alpha * vectorIndex d.vm1 (minusI64 i (1 - lm))
    + c10 * vectorIndex d.vr1 (minusI64 i (1 - lr))
    + c11 * vectorIndex d.vs1 (minusI64 i (1 - ls))
    + -power s.omega (s.cs.lookupSize - 1) * vectorIndex d.vNN (minusI64 i (2 - s.cs.lookupSize))
    + (-power s.alpha 2 * power s.omega (s.cs.n - 1)) * vectorIndex d.vrt (minusI64 i (2 - s.cs.n))
    + (power s.alpha 2 * power s.omega (s.cs.n - 1)) * vectorIndex d.vrt (minusI64 i (3 - s.cs.n))
    + (power s.alpha 3 * power s.omega (s.cs.n - 1)) * vectorIndex s.rt (minusI64 i (2 - s.cs.n))
    + -power s.omega s.cs.n * vectorIndex d.vt1 (minusI64 i 0)
    + vectorIndex d.vrw (minusI64 i (1 - lr))

/-- The closed forms of the nine left-hand evaluations at `ω/z`: range_check.rs:865, 882, 901, 918,
933, 948, 963-964, 991, 1012.  Simplification: `c_24` (976-980) is the negative of the seventh. -/
def RcRun.closedEvals (s : RcRun F) (z y y1 y2 : F) : Res (List F) := do
  let oz ← divR s.omega z
  let e2 ← divR (1 * z * (1 - power oz s.cs.lookupSize)) (s.omega - 1 * z)
  let e7 ← divR (power s.alpha 2 * 1 * z * (1 - power oz s.cs.n)) (s.omega - 1 * z)
  return [1 * y, e2, s.alpha * 1 * y1, -s.alpha * 1 * y2, power s.alpha 2 * 1 * y,
    -power s.alpha 2 * 1 * y1, e7, power s.alpha 3 * power oz (s.cs.n - 1), -power oz s.cs.n]

/-- `c_14`, `c_15`, `c_19`, `c_25`, `c_28`, `c_29`, `c_30`. -/
structure RcCoeffs (F : Type) where
  c14 : F
  c15 : F
  c19 : F
  c25 : F
  c28 : F
  c29 : F
  c30 : F

/-- The coefficients of the final combination: range_check.rs:1126-1156 (prover) and 1353-1383
(verifier). -/
def rcCoeffs (cs : RangeCheck) (capD : ℕ) (alpha beta omega z y y1 y2 : F) :
    Res (RcCoeffs F) := do
  let oz ← divR omega z
  let c15 ← divR
    (power 1 2 * (z * (1 - power z cs.lookupSize) * (1 - power oz cs.lookupSize)
      + (omega - 1 * z)
        * (power alpha 2 * (y * (1 - power z cs.lookupSize) - y1 * (1 - power z cs.range))
          + alpha * (beta * y1 * (1 - power z cs.range) - y2 * (1 - power z cs.range))
          + beta * y * (1 - power z cs.lookupSize))))
    ((omega - 1 * z) * (1 - z))
  let c25 ← divR
    (power alpha 2 * 1 * (alpha * power oz (cs.n - 1) * (omega - 1 * z)
      + z * (1 - z) * (1 - power oz cs.n)))
    (omega - 1 * z)
  return ⟨power 1 2 * y, c15, alpha * power 1 2 * y1, c25, -power z (cs.n - 1) * power oz cs.n,
    -power z (-capD), -z⟩

/-- `g_vec`, range_check.rs:1157-1180. -/
def rcG (n capD : ℕ) (w t rt t1 h1 h2 : List F) (k : RcCoeffs F) : Res (List F) :=
  addToFirstItem (expressionVector capD (fun i =>
    linearCombination 0 [(k.c14, vectorIndex w i), (k.c19, vectorIndex t i),
      (k.c25, vectorIndex rt i), (k.c28, vectorIndex t1 i),
      (k.c29, vectorIndex h1 (-capD + i + 0 + n)), (k.c30, vectorIndex h2 i)])) k.c15

/-- `cm_g`, range_check.rs:1181-1197 (prover) and 1384-1400 (verifier). -/
def rcCmG (g : G1) (cmW cmT cmRt cmT1 cmH1 cmH2 : G1) (k : RcCoeffs F) : G1 :=
  commitmentLinearCombination k.c15 g
    [(cmW, k.c14), (cmT, k.c19), (cmRt, k.c25), (cmT1, k.c28), (cmH1, k.c29), (cmH2, k.c30)]

/-- The items hashed for `beta`, range_check.rs:168 and 1309. -/
def rcBeta (env : Env F G1 G2 GT) (cmT cmW cmM : G1) : F :=
  env.hash [.fld 1, .cm cmT, .cm cmW, .cm cmM]

/-- The items hashed for `beta_1`, range_check.rs:205-213 and 1310-1318. -/
def rcBeta1 (env : Env F G1 G2 GT) (cmT cmW cmM cmR cmS : G1) : F :=
  env.hash [.fld 1, .cm cmT, .cm cmW, .cm cmM, .cm cmR, .cm cmS]

/-- The items hashed for `alpha`, range_check.rs:229-238 and 1319-1328. -/
def rcAlpha (env : Env F G1 G2 GT) (cmT cmW cmM cmR cmS cmRt : G1) : F :=
  env.hash [.fld 1, .cm cmT, .cm cmW, .cm cmM, .cm cmR, .cm cmS, .cm cmRt]

/-- The items hashed for `omega`, range_check.rs:268-278 and 1329-1339. -/
def rcOmega (env : Env F G1 G2 GT) (cmT cmW cmM cmR cmS cmRt cmT1 : G1) : F :=
  env.hash [.fld 1, .cm cmT, .cm cmW, .cm cmM, .cm cmR, .cm cmS, .cm cmRt, .cm cmT1]

/-- The items hashed for `z`, range_check.rs:854-866 and 1340-1352. -/
def rcZ (env : Env F G1 G2 GT) (cmT cmW cmM cmR cmS cmRt cmT1 cmH1 cmH2 : G1) : F :=
  env.hash [.fld 1, .cm cmT, .cm cmW, .cm cmM, .cm cmR, .cm cmS, .cm cmRt, .cm cmT1, .cm cmH1,
    .cm cmH2]

/-- The items hashed for `rand_xi` (`first = 1`) and `rand_xi_2` (`first = 2`),
range_check.rs:1213-1250 and 1403-1440. -/
def rcXi (env : Env F G1 G2 GT) (first : F) (cmT cmW cmM cmR cmS cmRt cmT1 cmH1 cmH2 cmG : G1)
    (oz y y1 y2 z : F) : F :=
  env.hash [.fld first, .cm cmT, .cm cmW, .cm cmM, .cm cmR, .cm cmS, .cm cmRt, .cm cmT1, .cm cmH1,
    .cm cmH2, .cm cmG, .fld oz, .fld y, .fld y1, .fld y2, .fld z]

/-- `prove`, range_check.rs:116-1283; the instance carries no data. -/
def rcProve (env : Env F G1 G2 GT) (pk : RcPK F G1 G2) (w : List F) : Res (RcProof F G1) := do
  let cs := pk.vk.size
  let n := cs.n
  let capD := pk.vk.degreeBound
  let cmT := pk.vk.cmT
  let wv ← rcW env.rngF n w
  let cmW ← commitVector pk.powers wv (n + 1)
  let mv ← rcM env.rngF cs wv pk.t
  let cmM ← commitVector pk.powers mv (n + 1)
  let beta := rcBeta env cmT cmW cmM
  let rv ← rcR env.rngF cs beta wv
  let cmR ← commitVector pk.powers rv (n + 1)
  let sv ← rcS env.rngF cs beta pk.t mv
  let cmS ← commitVector pk.powers sv (n + 1)
  let rt := rcRt env.rngF cs (rcBeta1 env cmT cmW cmM cmR cmS) rv sv
  let cmRt ← commitVector pk.powers rt (n + 1)
  let alpha := rcAlpha env cmT cmW cmM cmR cmS cmRt
  let t1 := rcT1 env.rngF cs alpha beta wv pk.t mv rv sv rt
  let cmT1 ← commitVector pk.powers t1 (0 + 2)
  let omega := rcOmega env cmT cmW cmM cmR cmS cmRt cmT1
  let s : RcRun F := ⟨cs, alpha, beta, omega, wv, pk.t, mv, rv, sv, rt, t1⟩
  let d ← s.derive env.fft
  debugChecks1 n omega s.pairs (s.atimesb d) (s.hAt d)
  let h1 := hVec1 n (s.hAt d)
  let h2 := hVec2 n (s.hAt d)
  let cmH1 ← commitVector pk.powers h1 capD
  let cmH2 ← commitVector pk.powers h2 n
  let z := rcZ env cmT cmW cmM cmR cmS cmRt cmT1 cmH1 cmH2
  let oz ← divR omega z
  let y := evalVectorExpression oz (n + 1) (fun i => vectorIndex rv i)
  let y1 := evalVectorExpression oz (n + 1) (fun i => vectorIndex sv i)
  let y2 := evalVectorExpression oz (n + 1) (fun i => vectorIndex mv i)
  let evals ← s.closedEvals z y y1 y2
  debugChecks2 n s.pairs (hVec n (s.hAt d)) z oz evals
  let k ← rcCoeffs cs capD alpha beta omega z y y1 y2
  let gv ← rcG n capD wv pk.t rt t1 h1 h2 k
  let cmG := rcCmG pk.vk.kzgVk.g cmW cmT cmRt cmT1 cmH1 cmH2 k
  let cmG' ← commitVector pk.powers gv capD
  assertR (cmG = cmG')
  checkPolyEval (polyFromVec (naiveG n capD z evals s.pairs h1 h2)) z 0
  checkPolyEval (polyFromVec gv) z 0
  let xi := rcXi env 1 cmT cmW cmM cmR cmS cmRt cmT1 cmH1 cmH2 cmG oz y y1 y2 z
  let xi2 := rcXi env 2 cmT cmW cmM cmR cmS cmRt cmT1 cmH1 cmH2 cmG oz y y1 y2 z
  let (capW, capW1) ← batchOpen pk.powers [polyFromVec rv, polyFromVec sv, polyFromVec mv]
    [polyFromVec gv] oz z xi xi2
  return ⟨cmW, cmM, cmR, cmS, cmRt, cmT1, cmH1, cmH2, y, y1, y2, capW, capW1⟩

/-- `verify`, range_check.rs:1284-1460; the instance carries no data. -/
def rcVerify (env : Env F G1 G2 GT) (vk : RcVK G1 G2) (π : RcProof F G1) : Res Unit := do
  let beta := rcBeta env vk.cmT π.cmW π.cmM
  let alpha := rcAlpha env vk.cmT π.cmW π.cmM π.cmR π.cmS π.cmRt
  let omega := rcOmega env vk.cmT π.cmW π.cmM π.cmR π.cmS π.cmRt π.cmT1
  let z := rcZ env vk.cmT π.cmW π.cmM π.cmR π.cmS π.cmRt π.cmT1 π.cmH1 π.cmH2
  let k ← rcCoeffs vk.size vk.degreeBound alpha beta omega z π.y π.y1 π.y2
  let cmG := rcCmG vk.kzgVk.g π.cmW vk.cmT π.cmRt π.cmT1 π.cmH1 π.cmH2 k
  let oz ← divR omega z
  let xi := rcXi env 1 vk.cmT π.cmW π.cmM π.cmR π.cmS π.cmRt π.cmT1 π.cmH1 π.cmH2 cmG oz
    π.y π.y1 π.y2 z
  let xi2 := rcXi env 2 vk.cmT π.cmW π.cmM π.cmR π.cmS π.cmRt π.cmT1 π.cmH1 π.cmH2 cmG oz
    π.y π.y1 π.y2 z
  if batchCheck env.e vk.kzgVk [π.cmR, π.cmS, π.cmM] [cmG] oz z xi xi2 [π.y, π.y1, π.y2] [0]
      π.capW π.capW1 env.rngU128 then .ok ()
  else .error .verificationFail

end VO
