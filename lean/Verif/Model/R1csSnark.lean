import Verif.Model.Snark

/-
Model of `/repo/voproof/src/snarks/voproof_r1cs.rs`.  `cap_h`, `cap_k`, `ell` are the numbers of
rows, columns and public inputs, `cap_s = cap_s_a + cap_s_b + cap_s_c` (also `ell_1`) the number of
listed matrix entries, and `vovectorsize` is `cap_k + cap_s`; `init_size!` makes them `i64`, and
they are integers here.
-/

namespace VO

variable {F G1 G2 GT : Type} [Field F] [DecidableEq F]
  [AddCommGroup G1] [Module F G1] [DecidableEq G1] [AddCommGroup G2] [Module F G2]
  [AddCommGroup GT] [Module F GT] [DecidableEq GT]

/-- `R1CSVerifierKey`, voproof_r1cs.rs:16-25. -/
structure R1csVK (G1 G2 : Type) where
  cmU : G1
  cmW : G1
  cmV : G1
  cmY : G1
  kzgVk : VerifierKey G1 G2
  size : R1CSSize
  degreeBound : ℕ

/-- `R1CSProverKey`, voproof_r1cs.rs:4-14. -/
structure R1csPK (F G1 G2 : Type) where
  vk : R1csVK G1 G2
  powers : List G1
  maxDegree : ℕ
  mat : SparseMat F
  u : List F
  w : List F
  v : List F
  y : List F

/-- `R1CSProof`, voproof_r1cs.rs:27-40. -/
structure R1csProof (F G1 : Type) where
  cmU1 : G1
  cmS : G1
  cmH : G1
  cmR : G1
  cmT : G1
  cmH2 : G1
  cmH3 : G1
  y : F
  y1 : F
  capW : G1
  capW1 : G1
  deriving DecidableEq

/-- `cap_s_a + cap_s_b + cap_s_c`, e.g. voproof_r1cs.rs:169. -/
def R1CSSize.total (s : R1CSSize) : ℕ := s.adensity + s.bdensity + s.cdensity

/-- `get_max_degree`, voproof_r1cs.rs:51-57.  The cast of a negative number wraps to a huge one, on
which the assertion of `index` fails; it is modelled by 0 and only used for non-negative values. -/
def r1csMaxDegree (s : R1CSSize) : ℕ :=
  (-(s.nrows : ℤ) + 2 * s.ncols + 2 * s.adensity + 2 * s.bdensity + 2 * s.cdensity).toNat

/-- `index`, voproof_r1cs.rs:74-130, with `define_matrix_vectors!` (tools/mod.rs:822-828). -/
def r1csIndex (gamma : F) (pp : UniversalParams G1 G2) (cs : R1CS F) :
    Res (R1csPK F G1 G2 × R1csVK G1 G2) := do
  let size ← cs.getSize
  let maxDegree := r1csMaxDegree size
  let capD := pp.powersOfG.length
  assertR (capD > maxDegree)
  let mat := concatMatrixVertically size.nrows cs.a cs.b cs.c
  let u := intArrayToPowerVector mat.rows gamma
  let w := intArrayToPowerVector mat.cols gamma
  let v := mat.vals
  let y := hadamardVector u w
  let cmU ← commitVector pp.powersOfG u size.total
  let cmW ← commitVector pp.powersOfG w size.total
  let cmV ← commitVector pp.powersOfG v size.total
  let cmY ← commitVector pp.powersOfG y size.total
  let kzgVk ← vkOf pp
  let vk : R1csVK G1 G2 := ⟨cmU, cmW, cmV, cmY, kzgVk, size, capD⟩
  return (⟨vk, pp.powersOfG, maxDegree, mat, u, w, v, y⟩, vk)

/-- `u_vec_1`, voproof_r1cs.rs:155-163, with `define_sparse_mvp_concat_vector!`
(tools/mod.rs:983-989) and `concat_and_one!` (711-715). -/
def r1csU1 (rng : ℕ → F) (mat : SparseMat F) (capH capK capS : ℕ) (x w : List F) :
    Res (List F) := do
  let m ← sparseMvp (3 * capH) capK mat (1 :: (x ++ w))
  zeroPadAndConcat (m ++ (1 :: (x ++ w))) (capK + capS) (sampleVec rng 0 1)

/-- `s_vec`, voproof_r1cs.rs:176-183. -/
def r1csS (gamma mu : F) (mat : SparseMat F) (capH capK : ℕ) : Res (List F) := do
  let r := expressionVectorInverse (3 * capH)
    (fun i => mu - powerVectorIndex gamma (3 * capH) i)
  let c ← leftSparseMvp mat r (3 * capH) capK
  return concatNegVector r c

/-- `h_vec`, voproof_r1cs.rs:196-202, with `define_concat_uwinverse_vector!`
(tools/mod.rs:903-918). -/
def r1csH (gamma mu nu : F) (u w : List F) (capK : ℕ) : List F :=
  expressionVectorInverse capK (fun i => nu - powerVectorIndex gamma capK i)
    ++ uwinverseVector mu u nu w

/-- `r_vec_tilde`, voproof_r1cs.rs:215-232. -/
def r1csR (rng : ℕ → F) (beta : F) (u1 s h v : List F) (capH capK capS : ℕ) : List F :=
  accumulateVectorPlus 0 (capK + capS) (fun i =>
      powerLinearCombination beta
        [vectorIndex u1 i * vectorIndex s i,
         -vectorIndex h (minusI64 i (3 * capH + 1)) * vectorIndex s i
           - vectorIndex h i * vectorIndex v (minusI64 i (capK + 1))])
    ++ sampleVec rng 1 1

/-- The data of a run of the prover: sizes, generator, challenges and vectors. -/
structure R1csRun (F : Type) where
  H : ℕ
  K : ℕ
  S : ℕ
  ell : ℕ
  gamma : F
  mu : F
  nu : F
  beta : F
  alpha : F
  omega : F
  x : List F
  u : List F
  w : List F
  v : List F
  y : List F
  u1 : List F
  s : List F
  h : List F
  r : List F
  t : List F

/-- The expression of `t_vec`, voproof_r1cs.rs:248-331 (constants 248-259), as a function of
`i + vovectorsize`. -/
def R1csRun.tAt (a : R1csRun F) (j : ℤ) : F :=
  let n : ℤ := a.K + a.S
  let c := a.alpha * a.nu
  let c1 := -a.alpha
  let c2 := power a.alpha 4
  let c3 := -a.mu
  let c4 := a.mu * a.nu
  let c5 := -a.nu
  let c6 := -power a.alpha 4
  let c7 := power a.alpha 5
  let c8 := -power a.alpha 5
  let c9 := power a.alpha 7
  let c10 := -power a.alpha 7 * a.beta
  let c11 := -power a.alpha 7
  c1 * rangeIndex 1 a.K j * rangeIndex 1 a.K (minusI64 j 1)
    + c10 * vectorIndex a.h (minusI64 j 1) * vectorIndex a.v (minusI64 j (a.K + 1))
    + c10 * vectorIndex a.h (minusI64 j (3 * a.H + 1)) * vectorIndex a.s j
    + c11 * rangeIndex 1 n (minusI64 j 1)
      * (vectorIndex a.r (minusI64 j 1) - vectorIndex a.r (minusI64 j 2))
    + c2 * vectorIndex a.h (minusI64 j 1)
      * (c3 * vectorIndex a.w (minusI64 j (a.K + 1))
        + c4 * rangeIndex 1 a.S (minusI64 j (a.K + 1))
        + c5 * vectorIndex a.u (minusI64 j (a.K + 1))
        + vectorIndex a.y (minusI64 j (a.K + 1)))
    + c6 * power (rangeIndex 1 a.S (minusI64 j (a.K + 1))) 2
    + c7 * vectorIndex a.u1 (minusI64 j (-a.H + n + 1))
      * vectorIndex a.u1 (minusI64 j (-2 * a.H + n + 1))
    + c8 * rangeIndex 1 a.H (minusI64 j (-a.H + n + 1))
      * vectorIndex a.u1 (minusI64 j (-3 * a.H + n + 1))
    + c9 * vectorIndex a.u1 (minusI64 j 1) * vectorIndex a.s j
    - rangeIndex 1 (3 * a.H) (minusI64 j 1) * rangeIndex 1 (3 * a.H) j
    + vectorIndex a.s j
      * (a.mu * rangeIndex 1 (3 * a.H) (minusI64 j 1)
        - powerVectorIndex a.gamma (3 * a.H) (minusI64 j 1))
    + vectorIndex a.h j
      * (c * rangeIndex 1 a.K (minusI64 j 1) + c1 * powerVectorIndex a.gamma a.K (minusI64 j 1))

/-- `t_vec`, voproof_r1cs.rs:260-333; `maxshift` is
`-cap_h + cap_k + cap_s_a + cap_s_b + cap_s_c` (line 234). -/
def R1csRun.mkT (rng : ℕ → F) (a : R1csRun F) : List F :=
  sampleVec rng 2 1
    ++ expressionVector (-a.H + a.K + a.S + 2) (fun i => a.tAt (i + (a.K + a.S)))

/-- The derived vectors `v_vec_1` … `v_vec_23`, voproof_r1cs.rs:351-446. -/
structure R1csDerived (F : Type) where
  v1 : List F
  v2 : List F
  v3 : List F
  v4 : List F
  v5 : List F
  v6 : List F
  v7 : List F
  v8 : List F
  v9 : List F
  v10 : List F
  v11 : List F
  v12 : List F
  v13 : List F
  v14 : List F
  v15 : List F
  v16 : List F
  v17 : List F
  v18 : List F
  v19 : List F
  v20 : List F
  v21 : List F
  v22 : List F
  v23 : List F

/-- Computation of the derived vectors with `c_12` and `c_13`, voproof_r1cs.rs:349-446. -/
def R1csRun.derive (fft : FftParams F) (a : R1csRun F) : Res (R1csDerived F) := do
  let c12 := power a.omega (-1)
  let c13 ← divR 1 (a.gamma * a.omega)
  let v1 ← vectorPolyMul fft a.h a.w a.omega
  let v2 := vectorReverseOmega a.h a.omega
  let v3 ← vectorPolyMul fft a.h a.u a.omega
  let v4 ← vectorPolyMul fft a.h a.y a.omega
  let v5 ← vectorPolyMul fft a.u1 a.u1 a.omega
  let v6 ← vectorPolyMul fft a.u1 a.s a.omega
  let v7 ← vectorPolyMul fft a.h a.s a.omega
  let v8 ← vectorPolyMul fft a.h a.v a.omega
  return ⟨v1, v2, v3, v4, v5, v6, v7, v8, vectorPowerMul a.s c12 (3 * a.H),
    vectorPowerMul a.s c13 (3 * a.H), vectorPowerMul a.s c12 (-3 * a.H + a.S),
    vectorPowerMul a.h c12 a.K, vectorPowerMul a.h c13 a.K, vectorPowerMul a.h c12 0,
    vectorPowerMul v2 1 a.S, vectorPowerMul a.u1 c12 a.H, vectorPowerMul a.u1 c12 (a.ell + 1),
    vectorPowerMul a.x c12 (a.ell + 1), vectorPowerMul a.r c12 (a.K + a.S),
    vectorPowerMul a.t c12 (-a.H + a.K + a.S + 1),
    powerPowerMul c12 (3 * a.H) 1 (3 * a.H), powerPowerMul c12 a.K 1 a.K,
    powerPowerMul c12 a.S 1 a.S⟩

/-- The expression of `h_vec_2` (voproof_r1cs.rs:504-640, at `i - maxshift - vovectorsize`) and of
`h_vec_3` (641-698, at `i + 1`), with the constants of lines 248-259 and 447-503. -/
def R1csRun.hAt (a : R1csRun F) (d : R1csDerived F) (i : ℤ) : F :=
  let n : ℤ := a.K + a.S
  let l1 := shiftMinusOne a.h
  let l5 := shiftMinusOne a.u1
  let c2 := power a.alpha 4
  let c9 := power a.alpha 7
  let c10 := -power a.alpha 7 * a.beta
  let c12 := power a.omega (-1)
  let c14 := -power a.alpha 4 * a.mu
  let c15 := -power a.alpha 4 * a.nu
  let c16 := power a.alpha 5 * power a.omega (-a.H + a.K + a.S)
  let c17 := -power a.alpha 7 * a.beta * power a.omega (3 * a.H)
  let c18 := power a.alpha 8 * power a.omega (a.K + a.S - 1)
  let c19 := -power a.alpha 6 * power a.omega (3 * a.H + a.ell)
  let c20 := a.mu * power a.omega (3 * a.H - 1)
  let c21 := -power (a.gamma * a.omega) (3 * a.H - 1)
  let c22 := power a.alpha 2 * power a.omega (a.K + a.S - 1)
  let c23 := a.alpha * a.nu * power a.omega (a.K - 1)
  let c24 := -a.alpha * power (a.gamma * a.omega) (a.K - 1)
  let c25 := power a.alpha 3 * power a.omega (a.K + a.S - 1)
  let c26 := power a.alpha 4 * a.mu * a.nu
  let c27 := -power a.alpha 5 * power a.omega (a.K + a.S - 1)
  let c28 := power a.alpha 6 * power a.omega (3 * a.H + a.ell)
  let c29 := -power a.alpha 7 * power a.omega (a.K + a.S - 1)
  let c30 := power a.alpha 7 * power a.omega (a.K + a.S - 1)
  let c31 := -power a.omega (-a.H + 2 * a.K + 2 * a.S)
  let c32 := -power a.omega (3 * a.H - 1)
  let c33 := -a.alpha * power a.omega (a.K - 1)
  let c34 := -power a.alpha 4 * power a.omega (a.K + a.S - 1)
  c10 * vectorIndex d.v8 (minusI64 i (a.K - l1 + 1))
    + c14 * vectorIndex d.v1 (minusI64 i (a.K - l1 + 1))
    + c15 * vectorIndex d.v3 (minusI64 i (a.K - l1 + 1))
    + c16 * vectorIndex d.v5 (minusI64 i (-a.H - l5 + 1))
    + c17 * vectorIndex d.v7 (minusI64 i (-3 * a.H - l1 + 1))
    + c18 * vectorIndex a.r (minusI64 i (2 - n))
    + c19 * powerVectorIndex c12 (a.ell + 1) (minusI64 i (1 - a.ell))
    + c19 * vectorIndex d.v18 (minusI64 i (2 - a.ell))
    + c2 * vectorIndex d.v4 (minusI64 i (a.K - l1 + 1))
    + c20 * vectorIndex d.v9 (minusI64 i (2 - 3 * a.H))
    + c21 * vectorIndex d.v10 (minusI64 i (2 - 3 * a.H))
    + c22 * vectorIndex d.v11 (minusI64 i (-a.K - a.S + 2))
    + c23 * vectorIndex d.v12 (minusI64 i (2 - a.K))
    + c24 * vectorIndex d.v13 (minusI64 i (2 - a.K))
    + c25 * vectorIndex d.v14 (minusI64 i (-a.K - a.S + 2))
    + c26 * vectorIndex d.v15 (minusI64 i (a.K - l1 + 1))
    + c27 * vectorIndex d.v16 (minusI64 i (2 - 3 * a.H))
    + c28 * vectorIndex d.v17 (minusI64 i (-3 * a.H - a.ell + 1))
    + c29 * vectorIndex d.v19 (minusI64 i (-a.K - a.S + 2))
    + c30 * vectorIndex d.v19 (minusI64 i (-a.K - a.S + 3))
    + c31 * vectorIndex d.v20 (minusI64 i (a.H - a.K - a.S))
    + c32 * vectorIndex d.v21 (minusI64 i (2 - 3 * a.H))
    + c33 * vectorIndex d.v22 (minusI64 i (2 - a.K))
    + c34 * vectorIndex d.v23 (minusI64 i (-a.S + 2))
    + c9 * vectorIndex d.v6 (minusI64 i (1 - l5))

/-- The coefficients `c_35` … `c_46` of the final combination. -/
structure R1csCoeffs (F : Type) where
  c35 : F
  c36 : F
  c37 : F
  c38 : F
  c39 : F
  c40 : F
  c41 : F
  c42 : F
  c43 : F
  c44 : F
  c45 : F
  c46 : F

/-- `c_35` … `c_46`: voproof_r1cs.rs:727-825 (prover) and 1030-1128 (verifier), as a function of
`y`, `y_1` and the value of the instance vector at `z`. -/
def r1csCoeffs (sz : R1CSSize) (capD : ℕ) (gamma mu nu beta alpha omega z y y1 xz : F) :
    Res (R1csCoeffs F) := do
  let H : ℤ := sz.nrows
  let K : ℤ := sz.ncols
  let S : ℤ := sz.total
  let ell : ℤ := sz.inputSize
  let n : ℤ := K + S
  let oz ← divR omega z
  let goz ← divR (gamma * omega) z
  let c35 ← divR
    (1 * (power alpha 7 * (omega - 1 * z) * (gamma * omega - 1 * z)
        * (-beta * y * power oz (3 * H) + 1 * y1)
      - power alpha 2 * z * power oz (3 * H + K) * (1 - power oz (-3 * H + S))
        * (gamma * omega - 1 * z)
      - 1 * z * (mu * (1 - power oz (3 * H)) * (gamma * omega - 1 * z)
        - (omega - 1 * z) * (1 - power goz (3 * H)))))
    ((omega - 1 * z) * (gamma * omega - 1 * z))
  let c36 ← divR
    (power alpha 6 * power oz (3 * H) * (1 - z)
        * (-xz * power z (3 * H + 1) * (omega * power oz ell - 1 * z)
          + power z (3 * H) * (-omega * power oz ell + 1 * z))
      + power alpha 4
        * (mu * nu * 1 * y * power z K * (omega - 1 * z) * (1 - power z S)
          + power z (K + 1) * power oz K * (1 - power z S) * (1 - power oz S))
      + alpha * power 1 2 * z * (1 - power z K) * (1 - power oz K)
      + power 1 2 * z * (1 - power z (3 * H)) * (1 - power oz (3 * H)))
    ((omega - 1 * z) * (1 - z))
  let c37 ← divR
    (-alpha * power 1 2 * z
      * (nu * (1 - power oz K) * (gamma * omega - 1 * z)
        - (omega - 1 * z) * (1 - power goz K)))
    ((omega - 1 * z) * (gamma * omega - 1 * z))
  let c41 ← divR
    (power alpha 5
      * (alpha * 1 * power oz (3 * H) * (omega * power oz ell - 1 * z)
        + y1 * power z (-2 * H + n) * power oz (-H + K + S) * (omega - 1 * z)
        + power z (-3 * H + n + 1) * power oz (-H + K + S) * (1 - power oz H)))
    (omega - 1 * z)
  let c43 ← divR
    (power alpha 7 * 1
      * (alpha * power oz (K + S - 1) * (omega - 1 * z)
        + z * (1 - z) * (1 - power oz (K + S))))
    (omega - 1 * z)
  let c44 ← divR (power z n * power oz (K + S) * (1 - power oz (-H + K + S + 1)))
    (omega - 1 * z)
  return ⟨c35, c36, c37, -power alpha 4 * mu * 1 * y * power z K,
    -power alpha 4 * nu * 1 * y * power z K, power alpha 4 * 1 * y * power z K, c41,
    -power alpha 7 * beta * 1 * y * power z K, c43, c44, -power z (-capD), -z⟩

/-- `g_vec`, voproof_r1cs.rs:826-858. -/
def r1csG (maxshift n : ℤ) (capD : ℕ) (s h w u y u1 v r t h2 h3 : List F) (k : R1csCoeffs F) :
    Res (List F) :=
  addToFirstItem (expressionVector capD (fun i =>
    linearCombination 0 [(k.c35, vectorIndex s i), (k.c37, vectorIndex h i),
      (k.c38, vectorIndex w i), (k.c39, vectorIndex u i), (k.c40, vectorIndex y i),
      (k.c41, vectorIndex u1 i), (k.c42, vectorIndex v i), (k.c43, vectorIndex r i),
      (k.c44, vectorIndex t i), (k.c45, vectorIndex h2 (-capD + i + maxshift + n)),
      (k.c46, vectorIndex h3 i)])) k.c36

/-- The first items of every hash: voproof_r1cs.rs:166-175 and so on. -/
def r1csPrefix (first : F) (x : List F) (cmU cmW cmV cmY : G1) : List (Item F G1) :=
  [.fld first, .flds x, .cm cmU, .cm cmW, .cm cmV, .cm cmY]

/-- `cm_g`, voproof_r1cs.rs:859-885 and 1129-1155. -/
def r1csCmG (g : G1) (k : R1csCoeffs F) (cmS cmH cmW cmU cmY cmU1 cmV cmR cmT cmH2 cmH3 : G1) :
    G1 :=
  commitmentLinearCombination k.c36 g [(cmS, k.c35), (cmH, k.c37), (cmW, k.c38), (cmU, k.c39),
    (cmY, k.c40), (cmU1, k.c41), (cmV, k.c42), (cmR, k.c43), (cmT, k.c44), (cmH2, k.c45),
    (cmH3, k.c46)]

/-- The items hashed for `rand_xi` and `rand_xi_2`: voproof_r1cs.rs:892-931 and 1158-1197. -/
def r1csXiItems (cmU1 cmS cmH cmR cmT cmH2 cmH3 cmG : G1) (oz y y1 z : F) : List (Item F G1) :=
  [.cm cmU1, .cm cmS, .cm cmH, .cm cmR, .cm cmT, .cm cmH2, .cm cmH3, .cm cmG, .fld oz, .fld y,
    .fld y1, .fld z]

/-- `prove`, voproof_r1cs.rs:131-927. -/
def r1csProve (env : Env F G1 G2 GT) (pk : R1csPK F G1 G2) (x w : List F) :
    Res (R1csProof F G1) := do
  let sz := pk.vk.size
  let capD := pk.vk.degreeBound
  let pre := fun first : F =>
    r1csPrefix (G1 := G1) first x pk.vk.cmU pk.vk.cmW pk.vk.cmV pk.vk.cmY
  let u1 ← r1csU1 env.rngF pk.mat sz.nrows sz.ncols sz.total x w
  let n := sz.ncols + sz.total
  let cmU1 ← commitVector pk.powers u1 (n + 1)
  let mu := env.hash (pre 1 ++ [.cm cmU1])
  let s ← r1csS env.gamma mu pk.mat sz.nrows sz.ncols
  let cmS ← commitVector pk.powers s (3 * sz.nrows + sz.ncols)
  let nu := env.hash (pre 1 ++ [.cm cmU1, .cm cmS])
  let h := r1csH env.gamma mu nu pk.u pk.w sz.ncols
  let cmH ← commitVector pk.powers h n
  let beta := env.hash (pre 1 ++ [.cm cmU1, .cm cmS, .cm cmH])
  let r := r1csR env.rngF beta u1 s h pk.v sz.nrows sz.ncols sz.total
  let cmR ← commitVector pk.powers r (n + 1)
  let alpha := env.hash (pre 1 ++ [.cm cmU1, .cm cmS, .cm cmH, .cm cmR])
  let a0 : R1csRun F := ⟨sz.nrows, sz.ncols, sz.total, sz.inputSize, env.gamma, mu, nu, beta, alpha,
    0, x, pk.u, pk.w, pk.v, pk.y, u1, s, h, r, []⟩
  let t := a0.mkT env.rngF
  let maxshift : ℤ := -sz.nrows + sz.ncols + sz.total
  let cmT ← commitVector pk.powers t (maxshift + 2).toNat
  let omega := env.hash (pre 1 ++ [.cm cmU1, .cm cmS, .cm cmH, .cm cmR, .cm cmT])
  let a : R1csRun F := { a0 with omega := omega, t := t }
  let d ← a.derive env.fft
  let h2 := hVec1 (maxshift + n).toNat (a.hAt d)
  let h3 := hVec2 (maxshift + n).toNat (a.hAt d)
  let cmH2 ← commitVector pk.powers h2 capD
  let cmH3 ← commitVector pk.powers h3 (maxshift + n).toNat
  let z := env.hash (pre 1 ++ [.cm cmU1, .cm cmS, .cm cmH, .cm cmR, .cm cmT, .cm cmH2, .cm cmH3])
  let oz ← divR omega z
  let y := evalVectorExpression oz (n + 1 : ℕ) (fun i => vectorIndex h i)
  let y1 := evalVectorExpression oz (n + 1 : ℕ) (fun i => vectorIndex u1 i)
  let k ← r1csCoeffs sz capD env.gamma mu nu beta alpha omega z y y1 (evalVectorAsPoly x z)
  let gv ← r1csG maxshift n capD s h pk.w pk.u pk.y u1 pk.v r t h2 h3 k
  let cmG := r1csCmG pk.vk.kzgVk.g k cmS cmH pk.vk.cmW pk.vk.cmU pk.vk.cmY cmU1 pk.vk.cmV cmR cmT
    cmH2 cmH3
  checkPolyEval (polyFromVec gv) z 0
  let xi := env.hash (pre 1 ++ r1csXiItems cmU1 cmS cmH cmR cmT cmH2 cmH3 cmG oz y y1 z)
  let xi2 := env.hash (pre 2 ++ r1csXiItems cmU1 cmS cmH cmR cmT cmH2 cmH3 cmG oz y y1 z)
  let (capW, capW1) ← batchOpen pk.powers [polyFromVec h, polyFromVec u1] [polyFromVec gv] oz z
    xi xi2
  return ⟨cmU1, cmS, cmH, cmR, cmT, cmH2, cmH3, y, y1, capW, capW1⟩

/-- `verify`, voproof_r1cs.rs:928-1228. -/
def r1csVerify (env : Env F G1 G2 GT) (vk : R1csVK G1 G2) (x : List F) (π : R1csProof F G1) :
    Res Unit := do
  let pre := fun first : F => r1csPrefix (G1 := G1) first x vk.cmU vk.cmW vk.cmV vk.cmY
  let mu := env.hash (pre 1 ++ [.cm π.cmU1])
  let nu := env.hash (pre 1 ++ [.cm π.cmU1, .cm π.cmS])
  let beta := env.hash (pre 1 ++ [.cm π.cmU1, .cm π.cmS, .cm π.cmH])
  let alpha := env.hash (pre 1 ++ [.cm π.cmU1, .cm π.cmS, .cm π.cmH, .cm π.cmR])
  let omega := env.hash (pre 1 ++ [.cm π.cmU1, .cm π.cmS, .cm π.cmH, .cm π.cmR, .cm π.cmT])
  let z := env.hash (pre 1 ++ [.cm π.cmU1, .cm π.cmS, .cm π.cmH, .cm π.cmR, .cm π.cmT, .cm π.cmH2,
    .cm π.cmH3])
  let k ← r1csCoeffs vk.size vk.degreeBound env.gamma mu nu beta alpha omega z π.y π.y1
    (evalVectorAsPoly x z)
  let cmG := r1csCmG vk.kzgVk.g k π.cmS π.cmH vk.cmW vk.cmU vk.cmY π.cmU1 vk.cmV π.cmR π.cmT
    π.cmH2 π.cmH3
  let oz ← divR omega z
  let xi := env.hash (pre 1 ++ r1csXiItems π.cmU1 π.cmS π.cmH π.cmR π.cmT π.cmH2 π.cmH3 cmG oz π.y
    π.y1 z)
  let xi2 := env.hash (pre 2 ++ r1csXiItems π.cmU1 π.cmS π.cmH π.cmR π.cmT π.cmH2 π.cmH3 cmG oz π.y
    π.y1 z)
  if batchCheck env.e vk.kzgVk [π.cmH, π.cmU1] [cmG] oz z xi xi2 [π.y, π.y1] [0] π.capW π.capW1
      env.rngU128 then .ok ()
  else .error .verificationFail

end VO
