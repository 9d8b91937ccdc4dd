import Verif.Model.Snark

/-
Model of `/repo/voproof/src/snarks/fibonacci.rs` and `/repo/voproof/src/cs/fibonacci.rs`.
`maxshift` (line 145) is the literal 2 throughout.  The prover computes several vectors twice
under different names (for the convolution checks and for `h`); the model names each once.
-/

namespace VO

variable {F G1 G2 GT : Type} [Field F] [DecidableEq F]
  [AddCommGroup G1] [Module F G1] [DecidableEq G1] [AddCommGroup G2] [Module F G2]
  [AddCommGroup GT] [Module F GT] [DecidableEq GT]

/-- `Fibonacci`, cs/fibonacci.rs:3-26; `get_size` is the field `n`. -/
structure Fibonacci (F : Type) where
  n : ℕ
  t : List F

/-- `FibonacciInstance`, cs/fibonacci.rs:28-33. -/
structure FibInstance (F : Type) where
  a : F
  b : F
  c : F

/-- `FibonacciVerifierKey`, fibonacci.rs:12-18. -/
structure FibVK (G1 G2 : Type) where
  cmT : G1
  kzgVk : VerifierKey G1 G2
  n : ℕ
  degreeBound : ℕ

/-- `FibonacciProverKey`, fibonacci.rs:4-10. -/
structure FibPK (F G1 G2 : Type) where
  vk : FibVK G1 G2
  powers : List G1
  maxDegree : ℕ
  t : List F

/-- `FibonacciProof`, fibonacci.rs:20-32. -/
structure FibProof (F G1 : Type) where
  cmW : G1
  cmR : G1
  cmT1 : G1
  cmH1 : G1
  cmH2 : G1
  y : F
  y1 : F
  y2 : F
  capW : G1
  capW1 : G1
  deriving DecidableEq

/-- `get_max_degree`, fibonacci.rs:43-45. -/
def fibMaxDegree (n : ℕ) : ℕ := n + 2

/-- `index`, fibonacci.rs:62-105. -/
def fibIndex (pp : UniversalParams G1 G2) (cs : Fibonacci F) :
    Res (FibPK F G1 G2 × FibVK G1 G2) := do
  let maxDegree := fibMaxDegree cs.n
  let capD := pp.powersOfG.length
  assertR (capD > maxDegree)
  let cmT ← commitVector pp.powersOfG cs.t cs.n
  let kzgVk ← vkOf pp
  let vk : FibVK G1 G2 := ⟨cmT, kzgVk, cs.n, capD⟩
  return (⟨vk, pp.powersOfG, maxDegree, cs.t⟩, vk)

/-- `w_vec`, fibonacci.rs:118-120: the witness padded to `n` with one randomizer appended. -/
def fibW (rng : ℕ → F) (n : ℕ) (w : List F) : Res (List F) :=
  zeroPadAndConcat w n (sampleVec rng 0 1)

/-- `r_vec`, fibonacci.rs:127-138. -/
def fibR (rng : ℕ → F) (n : ℕ) (w t : List F) : Res (List F) :=
  zeroPadAndConcat ((((0 :: w).take n).zip t).map (fun p => p.1 * p.2)) n (sampleVec rng 1 1)

/-- `t_vec_1`, fibonacci.rs:147-159. -/
def fibT1 (rng : ℕ → F) (n : ℕ) (alpha : F) (w r t : List F) : List F :=
  sampleVec rng 2 1 ++ expressionVector (2 + 2) (fun i =>
    alpha * vectorIndex r (minusI64 (i + n) 1) * rangeIndex 1 n (i + n)
      + -alpha * vectorIndex w (minusI64 (i + n) 2) * vectorIndex t (i + n))

/-- The instance, challenges and vectors of a run of the prover. -/
structure FibRun (F : Type) where
  n : ℕ
  a : F
  b : F
  c : F
  alpha : F
  omega : F
  w : List F
  t : List F
  r : List F
  t1 : List F

/-- The seven pairs of vectors whose Hadamard products are summed, as functions of the index
(1-based): fibonacci.rs:174-183, 213-220, 246-253, 295-304, 335-342, 370-379, 423-430 for
`sum_vec`, and again in every `abnaive_vec`, in `h_osum` (479-547) and in the evaluations
(658-863). -/
def FibRun.pairs (s : FibRun F) : List ((ℤ → F) × (ℤ → F)) :=
  [ (fun i => -s.a * delta i 1 + -s.b * vectorIndex s.t (minusI64 i 1)
        + vectorIndex s.w (minusI64 i 1),
     fun i => delta i 1),
    (fun i => s.alpha * vectorIndex s.r (minusI64 i 1),
     fun i => rangeIndex 1 s.n (minusI64 i 1)),
    (fun i => -s.alpha * vectorIndex s.w (minusI64 i 2),
     fun i => vectorIndex s.t (minusI64 i 1)),
    (fun i => -power s.alpha 2 * s.b * delta i 2 + power s.alpha 2 * vectorIndex s.w (minusI64 i 1)
        + -power s.alpha 2 * vectorIndex s.r (minusI64 i 1),
     fun i => delta i 2),
    (fun i => -power s.alpha 3 * s.c * delta i s.n
        + power s.alpha 3 * vectorIndex s.w (minusI64 i 1),
     fun i => delta i s.n),
    (fun i => power s.alpha 4 * vectorIndex s.w (minusI64 i 1)
        + -power s.alpha 4 * vectorIndex s.r (minusI64 i 1)
        + -power s.alpha 4 * vectorIndex s.w (minusI64 i 3),
     fun i => rangeIndex 1 s.n (minusI64 i 1) - delta i 2 - delta i 1),
    (fun i => -rangeIndex 1 (2 + 1) (minusI64 i (s.n + 1)),
     fun i => vectorIndex s.t1 (minusI64 i s.n)) ]

/-- The derived vectors: `v_vec` (also `_5`, `_7`, `_8`, `_13`), `v_vec_1` (`_14`), `v_vec_2`
(`_6`, `_9`, `_15`), `v_vec_3` (`_11`, `_18`), `v_vec_4` (`_16`), `v_vec_10` (`_17`), `v_vec_12`
(`_19`); fibonacci.rs:184-185, 221-222, 256-264, 305-306, 343, 380-383, 432, 461-477. -/
structure FibDerived (F : Type) where
  vw : List F
  vt : List F
  vr : List F
  vr1 : List F
  vwt : List F
  vw1 : List F
  vt1 : List F

/-- Computation of the derived vectors (see `FibDerived`); only the FFT product can panic.
Simplification: computed before the convolution checks. -/
def FibRun.derive (fft : FftParams F) (s : FibRun F) : Res (FibDerived F) := do
  let vwt ← vectorPolyMul fft s.w s.t s.omega
  let vw := vectorReverseOmega s.w s.omega
  let vr := vectorReverseOmega s.r s.omega
  return ⟨vw, vectorReverseOmega s.t s.omega, vr, vectorPowerMul vr 1 s.n, vwt,
    vectorPowerMul vw 1 s.n, vectorPowerMul s.t1 (power s.omega (-1)) 3⟩

/-- The seven `atimesb` expressions, as functions of `i - maxshift - n`: fibonacci.rs:187-194,
224-229, 267-272, 308-315, 345-351, 387-400, 435-440. -/
def FibRun.atimesb (s : FibRun F) (d : FibDerived F) : List (ℤ → F) :=
  let lw := shiftMinusOne s.w
  let lt := shiftMinusOne s.t
  let lr := shiftMinusOne s.r
  let c7 := power s.alpha 4
  let c8 := -power s.alpha 4
  let c9 := power s.alpha 4 * power s.omega 2
  let c10 := -power s.alpha 4 * power s.omega 2
  [ fun i => -s.a * delta i 1 + -s.b * vectorIndex d.vt (minusI64 i (1 - lt))
      + vectorIndex d.vw (minusI64 i (1 - lw)),
    fun i => s.alpha * vectorIndex d.vr1 (minusI64 i (1 - lr)),
    fun i => (-s.alpha * s.omega) * vectorIndex d.vwt (minusI64 i (-lw)),
    fun i => -power s.alpha 2 * s.b * s.omega * delta i 1
      + power s.alpha 2 * vectorIndex d.vw (minusI64 i (2 - lw))
      + -power s.alpha 2 * vectorIndex d.vr (minusI64 i (2 - lr)),
    fun i => -power s.alpha 3 * s.c * power s.omega (s.n - 1) * delta i 1
      + power s.alpha 3 * vectorIndex d.vw (minusI64 i (s.n - lw)),
    fun i => c10 * vectorIndex d.vw1 (minusI64 i (-lw - 1))
      + c7 * vectorIndex d.vr (minusI64 i (1 - lr))
      + c7 * vectorIndex d.vr (minusI64 i (2 - lr))
      + c7 * vectorIndex d.vw1 (minusI64 i (1 - lw))
      + c8 * vectorIndex d.vw (minusI64 i (1 - lw))
      + c8 * vectorIndex d.vw (minusI64 i (2 - lw))
      + c8 * vectorIndex d.vr1 (minusI64 i (1 - lr))
      + c9 * vectorIndex d.vw (minusI64 i (-lw - 1))
      + c9 * vectorIndex d.vw (minusI64 i (-lw)),
    fun i => -power s.omega (s.n + 2) * vectorIndex d.vt1 (minusI64 i (-2)) ]

/-- The expression of `h_vec` (fibonacci.rs:558-577), `h_vec_1` (579-598), `h_vec_2` (599-618) and
the assertion at 624-641, as a function of `i - maxshift - n`, `i - maxshift - n`, `i + 1` and
`1`. -/
def FibRun.hAt (s : FibRun F) (d : FibDerived F) (i : ℤ) : F :=
  let lw := shiftMinusOne s.w
  let lt := shiftMinusOne s.t
  let lr := shiftMinusOne s.r
  let c2 := -s.b
  let c3 := -s.alpha * s.omega
  let c6 := power s.alpha 3
  let c7 := power s.alpha 4
  let c9 := power s.alpha 4 * power s.omega 2
  let c10 := -power s.alpha 4 * power s.omega 2
  let c12 := -power s.omega (s.n + 2)
  let c13 := 1 - power s.alpha 4
  let c14 := -power s.alpha 4 + power s.alpha 2
  let c15 := power s.alpha 4 - power s.alpha 2
  let c16 := -power s.alpha 4 + s.alpha
  c10 * vectorIndex d.vw1 (minusI64 i (-lw - 1))
    + c12 * vectorIndex d.vt1 (minusI64 i (-2))
    + c13 * vectorIndex d.vw (minusI64 i (1 - lw))
    + c14 * vectorIndex d.vw (minusI64 i (2 - lw))
    + c15 * vectorIndex d.vr (minusI64 i (2 - lr))
    + c16 * vectorIndex d.vr1 (minusI64 i (1 - lr))
    + c2 * vectorIndex d.vt (minusI64 i (1 - lt))
    + c3 * vectorIndex d.vwt (minusI64 i (-lw))
    + c6 * vectorIndex d.vw (minusI64 i (s.n - lw))
    + c7 * vectorIndex d.vr (minusI64 i (1 - lr))
    + c7 * vectorIndex d.vw1 (minusI64 i (1 - lw))
    + c9 * vectorIndex d.vw (minusI64 i (-lw - 1))
    + c9 * vectorIndex d.vw (minusI64 i (-lw))
    - delta i 1 * (s.a + power s.alpha 3 * s.c * power s.omega (s.n - 1)
        + power s.alpha 2 * s.b * s.omega)

/-- The closed forms of the seven left-hand evaluations at `ω/z`: fibonacci.rs:659, 671, 682, 697,
713, 727-729, 758-759. -/
def FibRun.closedEvals (s : FibRun F) (z y y1 y2 : F) : Res (List F) := do
  let oz ← divR s.omega z
  let e3 ← divR (-s.alpha * s.omega * y) z
  let e4 ← divR (power s.alpha 2 * (-s.b * s.omega + 1 * z * (y - y2))) z
  let e6 ← divR (power s.alpha 4 * (-1 * y2 * power z 2 - y * (power s.omega 2 - 1 * power z 2)))
    (power z 2)
  let e7 ← divR (power oz s.n * (-power s.omega 3 + 1 * power z 3))
    (power z 2 * (s.omega - 1 * z))
  return [1 * (-s.a - s.b * y1 + y), s.alpha * 1 * y2, e3, e4,
    power s.alpha 3 * (-s.c * power oz (s.n - 1) + 1 * y), e6, e7]

/-- `c_17`, `c_20`, `c_23`, `c_24`, `c_25`: fibonacci.rs:866-886 (prover) and 1015-1035
(verifier). -/
def fibCoeffs (n : ℕ) (capD : ℕ) (x : FibInstance F) (alpha omega z y y1 y2 : F) :
    Res (F × F × F × F × F) := do
  let oz ← divR omega z
  let c17 ← divR
    (power alpha 4 * (1 * y2 * power z 2 + y * (power omega 2 - 1 * power z 2))
        * (1 * (1 - z) - 1 * (1 - power z n) + z * (1 - z))
      + alpha * power 1 2 * y2 * power z 2 * (1 - power z n)
      + power z 2 * (1 - z)
        * (power alpha 3 * power z (n - 1) * (-x.c * power oz (n - 1) + 1 * y)
          + power alpha 2 * (-x.b * omega + 1 * z * (y - y2))
          + power 1 2 * (-x.a - x.b * y1 + y)))
    (power z 2 * (1 - z))
  let c20 ← divR (-alpha * omega * 1 * y) z
  let c23 ← divR (power z (n - 3) * power oz n * (-power omega 3 + 1 * power z 3)) (omega - 1 * z)
  return (c17, c20, c23, -power z (-capD), -z)

/-- `g_vec`, fibonacci.rs:887-904. -/
def fibG (n capD : ℕ) (t t1 h1 h2 : List F) (k : F × F × F × F × F) : Res (List F) :=
  addToFirstItem (expressionVector capD (fun i =>
    linearCombination 0 [(k.2.1, vectorIndex t i), (k.2.2.1, vectorIndex t1 i),
      (k.2.2.2.1, vectorIndex h1 (-capD + i + 2 + n)), (k.2.2.2.2, vectorIndex h2 i)])) k.1

/-- The items hashed for `alpha`, fibonacci.rs:145 and 1003. -/
def fibAlpha (env : Env F G1 G2 GT) (cmT cmW cmR : G1) : F :=
  env.hash [.fld 1, .cm cmT, .cm cmW, .cm cmR]

/-- The items hashed for `omega`, fibonacci.rs:160-167 and 1004. -/
def fibOmega (env : Env F G1 G2 GT) (cmT cmW cmR cmT1 : G1) : F :=
  env.hash [.fld 1, .cm cmT, .cm cmW, .cm cmR, .cm cmT1]

/-- The items hashed for `z`, fibonacci.rs:644-653 and 1005-1014. -/
def fibZ (env : Env F G1 G2 GT) (cmT cmW cmR cmT1 cmH1 cmH2 : G1) : F :=
  env.hash [.fld 1, .cm cmT, .cm cmW, .cm cmR, .cm cmT1, .cm cmH1, .cm cmH2]

/-- The items hashed for `rand_xi` (`first = 1`) and `rand_xi_2` (`first = 2`),
fibonacci.rs:933-964 and 1051-1082. -/
def fibXi (env : Env F G1 G2 GT) (first : F) (cmT cmW cmR cmT1 cmH1 cmH2 cmG : G1)
    (oz y y1 y2 z : F) : F :=
  env.hash [.fld first, .cm cmT, .cm cmW, .cm cmR, .cm cmT1, .cm cmH1, .cm cmH2, .cm cmG,
    .fld oz, .fld y, .fld y1, .fld y2, .fld z]

/-- `prove`, fibonacci.rs:106-981. -/
def fibProve (env : Env F G1 G2 GT) (pk : FibPK F G1 G2) (x : FibInstance F) (w : List F) :
    Res (FibProof F G1) := do
  let n := pk.vk.n
  let capD := pk.vk.degreeBound
  let cmT := pk.vk.cmT
  let wv ← fibW env.rngF n w
  let cmW ← commitVector pk.powers wv (n + 1)
  let rv ← fibR env.rngF n wv pk.t
  let cmR ← commitVector pk.powers rv (n + 1)
  let alpha := fibAlpha env cmT cmW cmR
  let t1 := fibT1 env.rngF n alpha wv rv pk.t
  let cmT1 ← commitVector pk.powers t1 (2 + 2)
  let omega := fibOmega env cmT cmW cmR cmT1
  let s : FibRun F := ⟨n, x.a, x.b, x.c, alpha, omega, wv, pk.t, rv, t1⟩
  let d ← s.derive env.fft
  debugChecks1 (2 + n) omega s.pairs (s.atimesb d) (s.hAt d)
  let h1 := hVec1 (2 + n) (s.hAt d)
  let h2 := hVec2 (2 + n) (s.hAt d)
  let cmH1 ← commitVector pk.powers h1 capD
  let cmH2 ← commitVector pk.powers h2 (2 + n)
  let z := fibZ env cmT cmW cmR cmT1 cmH1 cmH2
  let oz ← divR omega z
  let y := evalVectorExpression oz (n + 1) (fun i => vectorIndex wv i)
  let y1 := evalVectorExpression oz (n + 1) (fun i => vectorIndex pk.t i)
  let y2 := evalVectorExpression oz (n + 1) (fun i => vectorIndex rv i)
  let evals ← s.closedEvals z y y1 y2
  debugChecks2 (2 + n) s.pairs (hVec (2 + n) (s.hAt d)) z oz evals
  let k ← fibCoeffs n capD x alpha omega z y y1 y2
  let gv ← fibG n capD pk.t t1 h1 h2 k
  let cmG := commitmentLinearCombination k.1 pk.vk.kzgVk.g
    [(cmT, k.2.1), (cmT1, k.2.2.1), (cmH1, k.2.2.2.1), (cmH2, k.2.2.2.2)]
  let cmG' ← commitVector pk.powers gv capD
  assertR (cmG = cmG')
  checkPolyEval (polyFromVec (naiveG (2 + n) capD z evals s.pairs h1 h2)) z 0
  checkPolyEval (polyFromVec gv) z 0
  let xi := fibXi env 1 cmT cmW cmR cmT1 cmH1 cmH2 cmG oz y y1 y2 z
  let xi2 := fibXi env 2 cmT cmW cmR cmT1 cmH1 cmH2 cmG oz y y1 y2 z
  let (capW, capW1) ← batchOpen pk.powers [polyFromVec wv, polyFromVec pk.t, polyFromVec rv]
    [polyFromVec gv] oz z xi xi2
  return ⟨cmW, cmR, cmT1, cmH1, cmH2, y, y1, y2, capW, capW1⟩

/-- `verify`, fibonacci.rs:982-1107. -/
def fibVerify (env : Env F G1 G2 GT) (vk : FibVK G1 G2) (x : FibInstance F)
    (π : FibProof F G1) : Res Unit := do
  let alpha := fibAlpha env vk.cmT π.cmW π.cmR
  let omega := fibOmega env vk.cmT π.cmW π.cmR π.cmT1
  let z := fibZ env vk.cmT π.cmW π.cmR π.cmT1 π.cmH1 π.cmH2
  let k ← fibCoeffs vk.n vk.degreeBound x alpha omega z π.y π.y1 π.y2
  let cmG := commitmentLinearCombination k.1 vk.kzgVk.g
    [(vk.cmT, k.2.1), (π.cmT1, k.2.2.1), (π.cmH1, k.2.2.2.1), (π.cmH2, k.2.2.2.2)]
  let oz ← divR omega z
  let xi := fibXi env 1 vk.cmT π.cmW π.cmR π.cmT1 π.cmH1 π.cmH2 cmG oz π.y π.y1 π.y2 z
  let xi2 := fibXi env 2 vk.cmT π.cmW π.cmR π.cmT1 π.cmH1 π.cmH2 cmG oz π.y π.y1 π.y2 z
  if batchCheck env.e vk.kzgVk [π.cmW, vk.cmT, π.cmR] [cmG] oz z xi xi2 [π.y, π.y1, π.y2] [0]
      π.capW π.capW1 env.rngU128 then .ok ()
  else .error .verificationFail

end VO
