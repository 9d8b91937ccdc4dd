import Verif.Model.R1csSnark

/-
Model of `/repo/voproof/src/snarks/voproof_hpr.rs`.  `cap_h` and `cap_k` are the numbers of rows and
columns, `cap_s_a + cap_s_b + cap_s_c + cap_s_d` (also `ell`) is the number of listed entries as
reported by `get_size`, and `vovectorsize` is `3 cap_k` plus that number plus 1; `init_size!` makes
them `i64`, and they are integers here.  The polynomial multiplications through
`vector_poly_mul_shift!` with their caches are `vectorPolyMul` (see Model/CacheRun for the caches).
-/

namespace VO

variable {F G1 G2 GT : Type} [Field F] [DecidableEq F]
  [AddCommGroup G1] [Module F G1] [DecidableEq G1] [AddCommGroup G2] [Module F G2]
  [AddCommGroup GT] [Module F GT] [DecidableEq GT]

/-- `HPRVerifierKey`, voproof_hpr.rs:16-25. -/
structure HprVK (G1 G2 : Type) where
  cmU : G1
  cmW : G1
  cmV : G1
  cmY : G1
  kzgVk : VerifierKey G1 G2
  size : HPRSize
  degreeBound : ℕ

/-- `HPRProverKey`, voproof_hpr.rs:4-14. -/
structure HprPK (F G1 G2 : Type) where
  vk : HprVK G1 G2
  powers : List G1
  maxDegree : ℕ
  mat : SparseMat F
  u : List F
  w : List F
  v : List F
  y : List F

/-- `HPRProof`, voproof_hpr.rs:27-40. -/
structure HprProof (F G1 : Type) where
  cmW1 : G1
  cmS : G1
  cmH : G1
  cmR : G1
  cmT : G1
  cmH2 : G1
  cmH3 : G1
  y : F
  y1 : F
  capW : G1
  capW1 : G1
  deriving DecidableEq

/-- `cap_s_a + cap_s_b + cap_s_c + cap_s_d`, e.g. voproof_hpr.rs:176. -/
def HPRSize.total (s : HPRSize) : ℕ := s.adensity + s.bdensity + s.cdensity + s.ddensity

/-- `get_max_degree`, voproof_hpr.rs:51-58. -/
def hprMaxDegree (s : HPRSize) : ℕ :=
  5 * s.ncols + 2 * s.adensity + 2 * s.bdensity + 2 * s.cdensity + 2 * s.ddensity + 2

/-- `index`, voproof_hpr.rs:75-150, with `define_matrix_vectors!` (tools/mod.rs:822-828). -/
def hprIndex (gamma : F) (pp : UniversalParams G1 G2) (cs : HPR F) :
    Res (HprPK F G1 G2 × HprVK G1 G2) := do
  let size ← cs.getSize
  let maxDegree := hprMaxDegree size
  let capD := pp.powersOfG.length
  assertR (capD > maxDegree)
  let mat := concatMatrixHorizontally size.ncols cs.a cs.b cs.c cs.drows cs.dvals
  let u := intArrayToPowerVector mat.rows gamma
  let w := intArrayToPowerVector mat.cols gamma
  let v := mat.vals
  let y := hadamardVector u w
  let cmU ← commitVector pp.powersOfG u size.total
  let cmW ← commitVector pp.powersOfG w size.total
  let cmV ← commitVector pp.powersOfG v size.total
  let cmY ← commitVector pp.powersOfG y size.total
  let kzgVk ← vkOf pp
  let vk : HprVK G1 G2 := ⟨cmU, cmW, cmV, cmY, kzgVk, size, capD⟩
  return (⟨vk, pp.powersOfG, maxDegree, mat, u, w, v, y⟩, vk)

/-- `w_vec_1`, voproof_hpr.rs:166-174, the concatenation of the three parts of the witness with the
padding of `redefine_zero_pad_concat_vector!`. -/
def hprW1 (rng : ℕ → F) (capK capS : ℕ) (w1 w2 w3 : List F) : Res (List F) :=
  zeroPadAndConcat (w1 ++ w2 ++ w3) (3 * capK + capS + 1) (sampleVec rng 0 1)

/-- `s_vec`, voproof_hpr.rs:187-194. -/
def hprS (gamma mu : F) (mat : SparseMat F) (capH capK : ℕ) : Res (List F) := do
  let r := expressionVectorInverse capH (fun i => mu - powerVectorIndex gamma capH i)
  let c ← leftSparseMvp mat r capH (3 * capK + 1)
  return concatNegVector r c

/-- `h_vec`, voproof_hpr.rs:207-213, with `define_concat_uwinverse_vector!`
(tools/mod.rs:903-918). -/
def hprH (gamma mu nu : F) (u w : List F) (capK : ℕ) : List F :=
  expressionVectorInverse (3 * capK + 1) (fun i => nu - powerVectorIndex gamma (3 * capK + 1) i)
    ++ uwinverseVector mu u nu w

/-- `r_vec_tilde`, voproof_hpr.rs:227-251. -/
def hprR (rng : ℕ → F) (beta : F) (x w1 s h v : List F) (capH capK capS : ℕ) : List F :=
  accumulateVectorPlus 0 (3 * capK + capS + 1) (fun i =>
      powerLinearCombination beta
        [(vectorIndex x (minusI64 i 1) + vectorIndex w1 (minusI64 i (capH + 2)) + delta i (capH + 1))
            * vectorIndex s i,
         -vectorIndex h (minusI64 i (capH + 1)) * vectorIndex s i
           - vectorIndex h i * vectorIndex v (minusI64 i (3 * capK + 2))])
    ++ sampleVec rng 1 1

/-- The data of a run of the prover: sizes, generator, challenges and vectors. -/
structure HprRun (F : Type) where
  H : ℕ
  K : ℕ
  S : ℕ
  gamma : F
  mu : F
  nu : F
  beta : F
  alpha : F
  omega : F
  x : List F
  u : List F
  w : List F
  v : List F
  y : List F
  w1 : List F
  s : List F
  h : List F
  r : List F
  t : List F

/-- The expression of `t_vec`, voproof_hpr.rs:286-342 (constants 270-281), as a function of
`i + vovectorsize`. -/
def HprRun.tAt (a : HprRun F) (j : ℤ) : F :=
  let n : ℤ := 3 * a.K + a.S + 1
  let c := a.alpha * a.nu
  let c1 := -a.alpha
  let c2 := power a.alpha 4
  let c3 := -a.mu
  let c4 := a.mu * a.nu
  let c5 := -a.nu
  let c6 := -power a.alpha 4
  let c7 := power a.alpha 5
  let c8 := -power a.alpha 5
  let c9 := power a.alpha 6
  let c10 := -power a.alpha 6 * a.beta
  let c11 := -power a.alpha 6
  c1 * rangeIndex 1 (3 * a.K + 1) (minusI64 j 1) * rangeIndex 1 (3 * a.K + 1) j
    + c10 * vectorIndex a.h (minusI64 j 1) * vectorIndex a.v (minusI64 j (3 * a.K + 2))
    + c10 * vectorIndex a.h (minusI64 j (a.H + 1)) * vectorIndex a.s j
    + c11 * rangeIndex 1 n (minusI64 j 1)
      * (vectorIndex a.r (minusI64 j 1) - vectorIndex a.r (minusI64 j 2))
    + c2 * vectorIndex a.h (minusI64 j 1)
      * (c3 * vectorIndex a.w (minusI64 j (3 * a.K + 2))
        + c4 * rangeIndex 1 a.S (minusI64 j (3 * a.K + 2))
        + c5 * vectorIndex a.u (minusI64 j (3 * a.K + 2))
        + vectorIndex a.y (minusI64 j (3 * a.K + 2)))
    + c6 * power (rangeIndex 1 a.S (minusI64 j (3 * a.K + 2))) 2
    + c7 * vectorIndex a.w1 (minusI64 j (-a.K + n + 1))
      * vectorIndex a.w1 (minusI64 j (-2 * a.K + n + 1))
    + c8 * rangeIndex 1 a.K (minusI64 j (-a.K + n + 1))
      * vectorIndex a.w1 (minusI64 j (-3 * a.K + n + 1))
    + vectorIndex a.h j
      * (c * rangeIndex 1 (3 * a.K + 1) (minusI64 j 1)
        + c1 * powerVectorIndex a.gamma (3 * a.K + 1) (minusI64 j 1))
    - rangeIndex 1 a.H (minusI64 j 1) * rangeIndex 1 a.H j
    + vectorIndex a.s j
      * (a.mu * rangeIndex 1 a.H (minusI64 j 1) - powerVectorIndex a.gamma a.H (minusI64 j 1))
    + vectorIndex a.s j
      * (power a.alpha 6 * delta j (a.H + 1) + c9 * vectorIndex a.x (minusI64 j 1)
        + c9 * vectorIndex a.w1 (minusI64 j (a.H + 2)))

/-- `t_vec`, voproof_hpr.rs:282-346; `maxshift` is `2 cap_k + ell + 1` (lines 253-256). -/
def HprRun.mkT (rng : ℕ → F) (a : HprRun F) : List F :=
  sampleVec rng 2 1
    ++ expressionVector (2 * a.K + a.S + 1 + 2) (fun i => a.tAt (i + (3 * a.K + a.S + 1)))

/-- The derived vectors `v_vec_1` … `v_vec_22`, voproof_hpr.rs:364-483. -/
structure HprDerived (F : Type) where
  v1 : List F
  v2 : List F
  v3 : List F
  v4 : List F
  v5 : List F
  v6 : List F
  v7 : List F
  v8 : List F
  v9 : List F
  v10 : List F
  v11 : List F
  v12 : List F
  v13 : List F
  v14 : List F
  v15 : List F
  v16 : List F
  v17 : List F
  v18 : List F
  v19 : List F
  v20 : List F
  v21 : List F
  v22 : List F

/-- Computation of the derived vectors with `c_12` and `c_13`, voproof_hpr.rs:362-483. -/
def HprRun.derive (fft : FftParams F) (a : HprRun F) : Res (HprDerived F) := do
  let c12 := power a.omega (-1)
  let c13 ← divR 1 (a.gamma * a.omega)
  let v1 ← vectorPolyMul fft a.h a.w a.omega
  let v2 := vectorReverseOmega a.h a.omega
  let v3 ← vectorPolyMul fft a.h a.u a.omega
  let v4 ← vectorPolyMul fft a.h a.y a.omega
  let v5 ← vectorPolyMul fft a.w1 a.w1 a.omega
  let v6 ← vectorPolyMul fft a.x a.s a.omega
  let v7 ← vectorPolyMul fft a.w1 a.s a.omega
  let v8 ← vectorPolyMul fft a.h a.s a.omega
  let v9 ← vectorPolyMul fft a.h a.v a.omega
  return ⟨v1, v2, v3, v4, v5, v6, v7, v8, v9, vectorPowerMul a.s c12 a.H,
    vectorPowerMul a.s c13 a.H, vectorPowerMul a.s c12 (-a.H + a.S),
    vectorPowerMul a.h c12 (3 * a.K + 1), vectorPowerMul a.h c13 (3 * a.K + 1),
    vectorPowerMul a.h c12 0, vectorPowerMul v2 1 a.S, vectorPowerMul a.w1 c12 a.K,
    vectorPowerMul a.r c12 (3 * a.K + a.S + 1), vectorPowerMul a.t c12 (2 * a.K + a.S + 2),
    powerPowerMul c12 a.H 1 a.H, powerPowerMul c12 (3 * a.K + 1) 1 (3 * a.K + 1),
    powerPowerMul c12 a.S 1 a.S⟩

/-- The expression of `h_vec_2` (voproof_hpr.rs:535-658, at `i - maxshift - vovectorsize`) and of
`h_vec_3` (659-719, at `i + 1`), with the constants of lines 270-281 and 484-534. -/
def HprRun.hAt (a : HprRun F) (d : HprDerived F) (i : ℤ) : F :=
  let n : ℤ := 3 * a.K + a.S + 1
  let lh := shiftMinusOne a.h
  let lw := shiftMinusOne a.w1
  let lx := shiftMinusOne a.x
  let c2 := power a.alpha 4
  let c9 := power a.alpha 6
  let c10 := -power a.alpha 6 * a.beta
  let c14 := power a.alpha 6 * power a.omega a.H
  let c15 := -power a.alpha 4 * a.mu
  let c16 := -power a.alpha 4 * a.nu
  let c17 := power a.alpha 5 * power a.omega (2 * a.K + a.S + 1)
  let c18 := power a.alpha 6 * power a.omega (a.H + 1)
  let c19 := -power a.alpha 6 * a.beta * power a.omega a.H
  let c20 := power a.alpha 7 * power a.omega (3 * a.K + a.S)
  let c21 := a.mu * power a.omega (a.H - 1)
  let c22 := -power (a.gamma * a.omega) (a.H - 1)
  let c23 := power a.alpha 2 * power a.omega (3 * a.K + a.S)
  let c24 := a.alpha * a.nu * power a.omega (3 * a.K)
  let c25 := -a.alpha * power (a.gamma * a.omega) (3 * a.K)
  let c26 := power a.alpha 3 * power a.omega (3 * a.K + a.S)
  let c27 := power a.alpha 4 * a.mu * a.nu
  let c28 := -power a.alpha 5 * power a.omega (3 * a.K + a.S)
  let c29 := -power a.alpha 6 * power a.omega (3 * a.K + a.S)
  let c30 := power a.alpha 6 * power a.omega (3 * a.K + a.S)
  let c31 := -power a.omega (5 * a.K + 2 * a.S + 2)
  let c32 := -power a.omega (a.H - 1)
  let c33 := -a.alpha * power a.omega (3 * a.K)
  let c34 := -power a.alpha 4 * power a.omega (3 * a.K + a.S)
  c10 * vectorIndex d.v9 (minusI64 i (3 * a.K - lh + 2))
    + c14 * vectorIndex a.s (minusI64 i (1 - a.H))
    + c15 * vectorIndex d.v1 (minusI64 i (3 * a.K - lh + 2))
    + c16 * vectorIndex d.v3 (minusI64 i (3 * a.K - lh + 2))
    + c17 * vectorIndex d.v5 (minusI64 i (-a.K - lw + 1))
    + c18 * vectorIndex d.v7 (minusI64 i (-a.H - lw))
    + c19 * vectorIndex d.v8 (minusI64 i (-a.H - lh + 1))
    + c2 * vectorIndex d.v4 (minusI64 i (3 * a.K - lh + 2))
    + c20 * vectorIndex a.r (minusI64 i (2 - n))
    + c21 * vectorIndex d.v10 (minusI64 i (2 - a.H))
    + c22 * vectorIndex d.v11 (minusI64 i (2 - a.H))
    + c23 * vectorIndex d.v12 (minusI64 i (-3 * a.K - a.S + 1))
    + c24 * vectorIndex d.v13 (minusI64 i (1 - 3 * a.K))
    + c25 * vectorIndex d.v14 (minusI64 i (1 - 3 * a.K))
    + c26 * vectorIndex d.v15 (minusI64 i (-3 * a.K - a.S + 1))
    + c27 * vectorIndex d.v16 (minusI64 i (3 * a.K - lh + 2))
    + c28 * vectorIndex d.v17 (minusI64 i (2 - 3 * a.K))
    + c29 * vectorIndex d.v18 (minusI64 i (-3 * a.K - a.S + 1))
    + c30 * vectorIndex d.v18 (minusI64 i (-3 * a.K - a.S + 2))
    + c31 * vectorIndex d.v19 (minusI64 i (-2 * a.K - a.S - 1))
    + c32 * vectorIndex d.v20 (minusI64 i (2 - a.H))
    + c33 * vectorIndex d.v21 (minusI64 i (1 - 3 * a.K))
    + c34 * vectorIndex d.v22 (minusI64 i (-a.S + 2))
    + c9 * vectorIndex d.v6 (minusI64 i (1 - lx))

/-- `c_35` … `c_46`: voproof_hpr.rs:746-854 (prover) and 1084-1192 (verifier), as a function of `y`,
`y_1` and the value `y_2` of the instance vector at `omega / z`. -/
def hprCoeffs (sz : HPRSize) (capD : ℕ) (gamma mu nu beta alpha omega z y y1 y2 : F) :
    Res (R1csCoeffs F) := do
  let H : ℤ := sz.nrows
  let K : ℤ := sz.ncols
  let S : ℤ := sz.total
  let n : ℤ := 3 * K + S + 1
  let oz ← divR omega z
  let goz ← divR (gamma * omega) z
  let c35 ← divR
    (1 * (power alpha 6 * (omega - 1 * z) * (gamma * omega - 1 * z)
        * (-beta * y * power oz H + 1 * y2 + y1 * power oz (H + 1) + power oz H)
      - power alpha 2 * z * power oz (H + 3 * K + 1) * (1 - power oz (-H + S))
        * (gamma * omega - 1 * z)
      - 1 * z * (mu * (1 - power oz H) * (gamma * omega - 1 * z)
        - (omega - 1 * z) * (1 - power goz H))))
    ((omega - 1 * z) * (gamma * omega - 1 * z))
  let c36 ← divR
    (power alpha 4
        * (mu * nu * 1 * y * power z (3 * K + 1) * (omega - 1 * z) * (1 - power z S)
          + power z (3 * K + 2) * power oz (3 * K + 1) * (1 - power z S) * (1 - power oz S))
      + alpha * power 1 2 * z * (1 - power z (3 * K + 1)) * (1 - power oz (3 * K + 1))
      + power 1 2 * z * (1 - power z H) * (1 - power oz H))
    ((omega - 1 * z) * (1 - z))
  let c37 ← divR
    (-alpha * power 1 2 * z
      * (nu * (1 - power oz (3 * K + 1)) * (gamma * omega - 1 * z)
        - (omega - 1 * z) * (1 - power goz (3 * K + 1))))
    ((omega - 1 * z) * (gamma * omega - 1 * z))
  let c41 ← divR
    (power alpha 5 * power oz (2 * K + S + 1)
      * (y1 * power z (-2 * K + n) * (omega - 1 * z)
        + power z (-3 * K + n + 1) * (1 - power oz K)))
    (omega - 1 * z)
  let c43 ← divR
    (power alpha 6 * 1
      * (alpha * power oz (3 * K + S) * (omega - 1 * z)
        + z * (1 - z) * (1 - power oz (3 * K + S + 1))))
    (omega - 1 * z)
  let c44 ← divR (power z n * power oz (3 * K + S + 1) * (1 - power oz (2 * K + S + 2)))
    (omega - 1 * z)
  return ⟨c35, c36, c37, -power alpha 4 * mu * 1 * y * power z (3 * K + 1),
    -power alpha 4 * nu * 1 * y * power z (3 * K + 1),
    power alpha 4 * 1 * y * power z (3 * K + 1), c41,
    -power alpha 6 * beta * 1 * y * power z (3 * K + 1), c43, c44, -power z (-capD), -z⟩

/-- `prove`, voproof_hpr.rs:152-979.  The combination `g_vec` (855-886), its commitment `cm_g`
(887-913), the first items of every hash and the items for `rand_xi` and `rand_xi_2` (920-961) are
those of voproof_r1cs.rs with `w_vec_1` in the place of `u_vec_1`: `r1csG`, `r1csCmG`, `r1csPrefix`
and `r1csXiItems`. -/
def hprProve (env : Env F G1 G2 GT) (pk : HprPK F G1 G2) (x : List F)
    (wit : List F × List F × List F) : Res (HprProof F G1) := do
  let sz := pk.vk.size
  let capD := pk.vk.degreeBound
  let pre := fun first : F =>
    r1csPrefix (G1 := G1) first x pk.vk.cmU pk.vk.cmW pk.vk.cmV pk.vk.cmY
  let w1 ← hprW1 env.rngF sz.ncols sz.total wit.1 wit.2.1 wit.2.2
  let n := 3 * sz.ncols + sz.total + 1
  let cmW1 ← commitVector pk.powers w1 (n + 1)
  let mu := env.hash (pre 1 ++ [.cm cmW1])
  let s ← hprS env.gamma mu pk.mat sz.nrows sz.ncols
  let cmS ← commitVector pk.powers s (sz.nrows + 3 * sz.ncols + 1)
  let nu := env.hash (pre 1 ++ [.cm cmW1, .cm cmS])
  let h := hprH env.gamma mu nu pk.u pk.w sz.ncols
  let cmH ← commitVector pk.powers h (3 * sz.ncols + sz.total + 1)
  let beta := env.hash (pre 1 ++ [.cm cmW1, .cm cmS, .cm cmH])
  let r := hprR env.rngF beta x w1 s h pk.v sz.nrows sz.ncols sz.total
  let cmR ← commitVector pk.powers r (n + 1)
  let alpha := env.hash (pre 1 ++ [.cm cmW1, .cm cmS, .cm cmH, .cm cmR])
  let a0 : HprRun F := ⟨sz.nrows, sz.ncols, sz.total, env.gamma, mu, nu, beta, alpha,
    0, x, pk.u, pk.w, pk.v, pk.y, w1, s, h, r, []⟩
  let t := a0.mkT env.rngF
  let maxshift := 2 * sz.ncols + sz.total + 1
  let cmT ← commitVector pk.powers t (maxshift + 2)
  let omega := env.hash (pre 1 ++ [.cm cmW1, .cm cmS, .cm cmH, .cm cmR, .cm cmT])
  let a : HprRun F := { a0 with omega := omega, t := t }
  let d ← a.derive env.fft
  let h2 := hVec1 (maxshift + n) (a.hAt d)
  let h3 := hVec2 (maxshift + n) (a.hAt d)
  let cmH2 ← commitVector pk.powers h2 capD
  let cmH3 ← commitVector pk.powers h3 (maxshift + n)
  let z := env.hash (pre 1 ++ [.cm cmW1, .cm cmS, .cm cmH, .cm cmR, .cm cmT, .cm cmH2, .cm cmH3])
  let oz ← divR omega z
  let y := evalVectorExpression oz (n + 1 : ℕ) (fun i => vectorIndex h i)
  let y1 := evalVectorExpression oz (n + 1 : ℕ) (fun i => vectorIndex w1 i)
  let k ← hprCoeffs sz capD env.gamma mu nu beta alpha omega z y y1 (evalVectorAsPoly x oz)
  let gv ← r1csG maxshift n capD s h pk.w pk.u pk.y w1 pk.v r t h2 h3 k
  let cmG := r1csCmG pk.vk.kzgVk.g k cmS cmH pk.vk.cmW pk.vk.cmU pk.vk.cmY cmW1 pk.vk.cmV cmR cmT
    cmH2 cmH3
  checkPolyEval (polyFromVec gv) z 0
  let xi := env.hash (pre 1 ++ r1csXiItems cmW1 cmS cmH cmR cmT cmH2 cmH3 cmG oz y y1 z)
  let xi2 := env.hash (pre 2 ++ r1csXiItems cmW1 cmS cmH cmR cmT cmH2 cmH3 cmG oz y y1 z)
  let (capW, capW1) ← batchOpen pk.powers [polyFromVec h, polyFromVec w1] [polyFromVec gv] oz z
    xi xi2
  return ⟨cmW1, cmS, cmH, cmR, cmT, cmH2, cmH3, y, y1, capW, capW1⟩

/-- `verify`, voproof_hpr.rs:980-1288; the instance is not checked for its length. -/
def hprVerify (env : Env F G1 G2 GT) (vk : HprVK G1 G2) (x : List F) (π : HprProof F G1) :
    Res Unit := do
  let pre := fun first : F => r1csPrefix (G1 := G1) first x vk.cmU vk.cmW vk.cmV vk.cmY
  let mu := env.hash (pre 1 ++ [.cm π.cmW1])
  let nu := env.hash (pre 1 ++ [.cm π.cmW1, .cm π.cmS])
  let beta := env.hash (pre 1 ++ [.cm π.cmW1, .cm π.cmS, .cm π.cmH])
  let alpha := env.hash (pre 1 ++ [.cm π.cmW1, .cm π.cmS, .cm π.cmH, .cm π.cmR])
  let omega := env.hash (pre 1 ++ [.cm π.cmW1, .cm π.cmS, .cm π.cmH, .cm π.cmR, .cm π.cmT])
  let z := env.hash (pre 1 ++ [.cm π.cmW1, .cm π.cmS, .cm π.cmH, .cm π.cmR, .cm π.cmT, .cm π.cmH2,
    .cm π.cmH3])
  let oz ← divR omega z
  let k ← hprCoeffs vk.size vk.degreeBound env.gamma mu nu beta alpha omega z π.y π.y1
    (evalVectorAsPoly x oz)
  let cmG := r1csCmG vk.kzgVk.g k π.cmS π.cmH vk.cmW vk.cmU vk.cmY π.cmW1 vk.cmV π.cmR π.cmT
    π.cmH2 π.cmH3
  let xi := env.hash (pre 1 ++ r1csXiItems π.cmW1 π.cmS π.cmH π.cmR π.cmT π.cmH2 π.cmH3 cmG oz π.y
    π.y1 z)
  let xi2 := env.hash (pre 2 ++ r1csXiItems π.cmW1 π.cmS π.cmH π.cmR π.cmT π.cmH2 π.cmH3 cmG oz π.y
    π.y1 z)
  if batchCheck env.e vk.kzgVk [π.cmH, π.cmW1] [cmG] oz z xi xi2 [π.y, π.y1] [0] π.capW π.capW1
      env.rngU128 then .ok ()
  else .error .verificationFail

end VO
