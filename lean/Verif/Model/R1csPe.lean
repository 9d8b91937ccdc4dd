import Verif.Model.R1csSnark

/-
Model of `/repo/voproof/src/snarks/voproof_r1cs_prover_efficient.rs`, the variant of the R1CS SNARK
in which the prover commits to the vectors of the linear check one by one.  `cap_h`, `cap_k`, `ell`
are the numbers of rows, columns and public inputs, `n = ell_1 = cap_s_a + cap_s_b + cap_s_c` the
number of listed matrix entries; `maxshift` is `2 * cap_h` (line 259).  `init_size!` makes them `i64`,
and they are integers here.
-/

namespace VO

variable {F G1 G2 GT : Type} [Field F] [DecidableEq F]
  [AddCommGroup G1] [Module F G1] [DecidableEq G1] [AddCommGroup G2] [Module F G2]
  [AddCommGroup GT] [Module F GT] [DecidableEq GT]

/-- `R1CSProverEfficientVerifierKey`, voproof_r1cs_prover_efficient.rs:16-25: the fields of
`R1CSVerifierKey`. -/
abbrev R1csPeVK (G1 G2 : Type) := R1csVK G1 G2

/-- `R1CSProverEfficientProverKey`, voproof_r1cs_prover_efficient.rs:4-14: the fields of
`R1CSProverKey`. -/
abbrev R1csPePK (F G1 G2 : Type) := R1csPK F G1 G2

/-- `R1CSProverEfficientProof`, voproof_r1cs_prover_efficient.rs:27-44. -/
structure R1csPeProof (F G1 : Type) where
  cmY1 : G1
  cmW : G1
  cmR : G1
  cmC : G1
  cmRnu : G1
  cmT : G1
  cmRt : G1
  cmT1 : G1
  cmH1 : G1
  cmH2 : G1
  y : F
  y1 : F
  y2 : F
  capW : G1
  capW1 : G1
  deriving DecidableEq

/-- `get_max_degree`, voproof_r1cs_prover_efficient.rs:55-60. -/
def r1csPeMaxDegree (s : R1CSSize) : ℕ := 2 * s.nrows + s.adensity + s.bdensity + s.cdensity

/-- `index`, voproof_r1cs_prover_efficient.rs:77-139: as for the other R1CS SNARK, but the matrices
are stacked in the order A, C, B (lines 100-103). -/
def r1csPeIndex (gamma : F) (pp : UniversalParams G1 G2) (cs : R1CS F) :
    Res (R1csPePK F G1 G2 × R1csPeVK G1 G2) := do
  let size ← cs.getSize
  let maxDegree := r1csPeMaxDegree size
  let capD := pp.powersOfG.length
  assertR (capD > maxDegree)
  let mat := concatMatrixVertically size.nrows cs.a cs.c cs.b
  let u := intArrayToPowerVector mat.rows gamma
  let w := intArrayToPowerVector mat.cols gamma
  let v := mat.vals
  let y := hadamardVector u w
  let cmU ← commitVector pp.powersOfG u size.total
  let cmW ← commitVector pp.powersOfG w size.total
  let cmV ← commitVector pp.powersOfG v size.total
  let cmY ← commitVector pp.powersOfG y size.total
  let kzgVk ← vkOf pp
  let vk : R1csPeVK G1 G2 := ⟨cmU, cmW, cmV, cmY, kzgVk, size, capD⟩
  return (⟨vk, pp.powersOfG, maxDegree, mat, u, w, v, y⟩, vk)

/-- `y_vec_1`, voproof_r1cs_prover_efficient.rs:166-173. -/
def r1csPeY1 (rng : ℕ → F) (mat : SparseMat F) (capH capK capS : ℕ) (x w : List F) :
    Res (List F) := do
  let m ← sparseMvp (3 * capH) capK mat (1 :: (x ++ w))
  zeroPadAndConcat m capS (sampleVec rng 0 1)

/-- The padded `w_vec`, voproof_r1cs_prover_efficient.rs:175. -/
def r1csPeW (rng : ℕ → F) (capS : ℕ) (w : List F) : Res (List F) :=
  zeroPadAndConcat w capS (sampleVec rng 1 1)

/-- `r_vec` and `rnu_vec`, voproof_r1cs_prover_efficient.rs:190-195 and 212-217. -/
def r1csPeR (gamma mu : F) (n : ℕ) : List F :=
  expressionVectorInverse n (fun i => mu - powerVectorIndex gamma n i)

/-- `r_vec_tilde`, voproof_r1cs_prover_efficient.rs:236-257, with the terms `r_vec_1` in place. -/
def r1csPeRt (rng : ℕ → F) (beta : F) (ell capS : ℕ) (x wv c y1 r rnu t v : List F) : List F :=
  accumulateVectorPlus 0 capS (fun i =>
      powerLinearCombination beta
        [vectorIndex c i * (vectorIndex x (minusI64 i 2) + delta i 1
            + vectorIndex wv (minusI64 i (ell + 2))) - vectorIndex y1 i * vectorIndex r i,
         vectorIndex c i * vectorIndex rnu i - vectorIndex t i * vectorIndex v i])
    ++ sampleVec rng 2 1

/-- The data of a run of the prover: sizes, generator, challenges and vectors (`u`, `w`, `v`, `y` are
those of the key, `wv` is the padded witness, `rt` is `r_vec_tilde`). -/
structure R1csPeRun (F : Type) where
  H : ℕ
  K : ℕ
  S : ℕ
  ell : ℕ
  gamma : F
  mu : F
  nu : F
  beta : F
  alpha : F
  omega : F
  x : List F
  u : List F
  w : List F
  v : List F
  y : List F
  y1 : List F
  wv : List F
  r : List F
  c : List F
  rnu : List F
  t : List F
  rt : List F
  t1 : List F

/-- The expression of `t_vec_1`, voproof_r1cs_prover_efficient.rs:289-331 (constants 276-288), as a
function of `i + n`. -/
def R1csPeRun.t1At (a : R1csPeRun F) (j : ℤ) : F :=
  let n : ℤ := a.S
  let c := a.alpha * a.nu
  let c1 := -a.alpha
  let c2 := power a.alpha 6
  let c3 := -a.mu
  let c4 := a.mu * a.nu
  let c5 := -a.nu
  let c6 := -power a.alpha 6
  let c7 := power a.alpha 8
  let c8 := -power a.alpha 8
  let c9 := power a.alpha 9
  let c10 := -power a.alpha 9
  let c11 := power a.alpha 9 * a.beta
  let c12 := -power a.alpha 9 * a.beta
  c1 * rangeIndex 1 a.K j * rangeIndex 1 a.K (minusI64 j 1)
    + c10 * vectorIndex a.y1 (minusI64 j 1) * vectorIndex a.r j
    + c10 * rangeIndex 1 n (minusI64 j 1)
      * (vectorIndex a.rt (minusI64 j 1) - vectorIndex a.rt (minusI64 j 2))
    + c11 * vectorIndex a.rnu j * vectorIndex a.c (minusI64 j 1)
    + c12 * vectorIndex a.t (minusI64 j 1) * vectorIndex a.v j
    + c2 * vectorIndex a.t (minusI64 j 1)
      * (c3 * vectorIndex a.w (minusI64 j 1) + c4 * rangeIndex 1 n (minusI64 j 1)
        + c5 * vectorIndex a.u (minusI64 j 1) + vectorIndex a.y (minusI64 j 1))
    + c6 * rangeIndex 1 n (minusI64 j 1) * rangeIndex 1 n j
    + c7 * vectorIndex a.y1 (minusI64 j (2 * a.H + 1)) * vectorIndex a.y1 j
    + c8 * rangeIndex 1 a.H (minusI64 j (2 * a.H + 1)) * vectorIndex a.y1 (minusI64 j (a.H + 1))
    + c9 * vectorIndex a.c (minusI64 j 1)
      * (vectorIndex a.x (minusI64 j 2) + delta j 1 + vectorIndex a.wv (minusI64 j (a.ell + 2)))
    + vectorIndex a.rnu j
      * (c * rangeIndex 1 a.K (minusI64 j 1) + c1 * powerVectorIndex a.gamma a.K (minusI64 j 1))
    - rangeIndex 1 (3 * a.H) (minusI64 j 1) * rangeIndex 1 (3 * a.H) j
    + vectorIndex a.r j
      * (a.mu * rangeIndex 1 (3 * a.H) (minusI64 j 1)
        - powerVectorIndex a.gamma (3 * a.H) (minusI64 j 1))

/-- `t_vec_1`, voproof_r1cs_prover_efficient.rs:289-331. -/
def R1csPeRun.mkT1 (rng : ℕ → F) (a : R1csPeRun F) : List F :=
  sampleVec rng 3 1 ++ expressionVector (2 * a.H + 2) (fun i => a.t1At (i + a.S))

/-- The derived vectors `v_vec_1` … `v_vec_27`, voproof_r1cs_prover_efficient.rs:352-482. -/
structure R1csPeDerived (F : Type) where
  v1 : List F
  v2 : List F
  v3 : List F
  v4 : List F
  v5 : List F
  v6 : List F
  v7 : List F
  v8 : List F
  v9 : List F
  v10 : List F
  v11 : List F
  v12 : List F
  v13 : List F
  v14 : List F
  v15 : List F
  v16 : List F
  v17 : List F
  v18 : List F
  v19 : List F
  v20 : List F
  v21 : List F
  v22 : List F
  v23 : List F
  v24 : List F
  v25 : List F
  v26 : List F
  v27 : List F

/-- Computation of the derived vectors with `c_13` and `c_14`,
voproof_r1cs_prover_efficient.rs:350-482; `omega.inverse().unwrap()` panics on zero. -/
def R1csPeRun.derive (fft : FftParams F) (a : R1csPeRun F) : Res (R1csPeDerived F) := do
  let c13 ← inverseR a.omega
  let c14 ← divR 1 (a.gamma * a.omega)
  let v1 ← vectorPolyMul fft a.t a.w a.omega
  let v2 := vectorReverseOmega a.t a.omega
  let v3 ← vectorPolyMul fft a.t a.u a.omega
  let v4 ← vectorPolyMul fft a.t a.y a.omega
  let v5 ← vectorPolyMul fft a.y1 a.y1 a.omega
  let v6 ← vectorPolyMul fft a.c a.x a.omega
  let v7 := vectorReverseOmega a.c a.omega
  let v8 ← vectorPolyMul fft a.c a.wv a.omega
  let v9 ← vectorPolyMul fft a.y1 a.r a.omega
  let v10 ← vectorPolyMul fft a.c a.rnu a.omega
  let v11 ← vectorPolyMul fft a.t a.v a.omega
  return ⟨v1, v2, v3, v4, v5, v6, v7, v8, v9, v10, v11, vectorPowerMul a.r c13 (3 * a.H),
    vectorPowerMul a.r c14 (3 * a.H), vectorPowerMul a.r c13 (-3 * a.H + a.S),
    vectorPowerMul a.rnu c13 a.K, vectorPowerMul a.rnu c14 a.K,
    vectorPowerMul a.rnu c13 (-a.K + a.S), vectorPowerMul a.c c13 (-a.K + a.S),
    vectorPowerMul a.t c13 0, vectorPowerMul v2 1 a.S, vectorPowerMul a.y1 c13 (-3 * a.H + a.S),
    vectorPowerMul a.y1 c13 a.H, vectorPowerMul a.rt c13 a.S,
    vectorPowerMul a.t1 c13 (2 * a.H + 1),
    powerPowerMul c13 (3 * a.H) 1 (3 * a.H), powerPowerMul c13 a.K 1 a.K,
    powerPowerMul c13 a.S 1 a.S⟩

/-- The expression of `h_vec_1` (voproof_r1cs_prover_efficient.rs:531-599, at `i - maxshift - n`) and
of `h_vec_2` (600-666, at `i + 1`), with the constants of lines 276-288 and 483-530. -/
def R1csPeRun.hAt (a : R1csPeRun F) (d : R1csPeDerived F) (i : ℤ) : F :=
  let n : ℤ := a.S
  let l := shiftMinusOne a.t
  let l1 := shiftMinusOne a.t
  let l2 := shiftMinusOne a.t
  let l3 := shiftMinusOne a.t
  let l4 := shiftMinusOne a.y1
  let l5 := shiftMinusOne a.c
  let l6 := shiftMinusOne a.c
  let l7 := shiftMinusOne a.c
  let l8 := shiftMinusOne a.y1
  let l9 := shiftMinusOne a.c
  let l10 := shiftMinusOne a.t
  let c2 := power a.alpha 6
  let c9 := power a.alpha 9
  let c10 := -power a.alpha 9
  let c11 := power a.alpha 9 * a.beta
  let c12 := -power a.alpha 9 * a.beta
  let c15 := -power a.alpha 6 * a.mu
  let c16 := -power a.alpha 6 * a.nu
  let c17 := power a.alpha 8 * power a.omega (2 * a.H)
  let c18 := power a.alpha 10 * power a.omega (n - 1)
  let c19 := a.mu * power a.omega (3 * a.H - 1)
  let c20 := -power (a.gamma * a.omega) (3 * a.H - 1)
  let c21 := power a.alpha 2 * power a.omega (n - 1)
  let c22 := a.alpha * a.nu * power a.omega (a.K - 1)
  let c23 := -a.alpha * power (a.gamma * a.omega) (a.K - 1)
  let c24 := power a.alpha 3 * power a.omega (n - 1)
  let c25 := power a.alpha 4 * power a.omega (n - 1)
  let c26 := power a.alpha 5 * power a.omega (n - 1)
  let c27 := power a.alpha 6 * a.mu * a.nu
  let c28 := power a.alpha 7 * power a.omega (n - 1)
  let c29 := -power a.alpha 8 * power a.omega (3 * a.H - 1)
  let c30 := -power a.alpha 9 * power a.omega (n - 1)
  let c31 := power a.alpha 9 * power a.omega (n - 1)
  let c32 := -power a.omega (2 * a.H + n)
  let c33 := -power a.omega (3 * a.H - 1)
  let c34 := -a.alpha * power a.omega (a.K - 1)
  let c35 := -power a.alpha 6 * power a.omega (n - 1)
  c10 * vectorIndex d.v9 (minusI64 i (1 - l8))
    + c11 * vectorIndex d.v10 (minusI64 i (1 - l9))
    + c12 * vectorIndex d.v11 (minusI64 i (1 - l10))
    + c15 * vectorIndex d.v1 (minusI64 i (1 - l))
    + c16 * vectorIndex d.v3 (minusI64 i (1 - l2))
    + c17 * vectorIndex d.v5 (minusI64 i (-2 * a.H - l4 + 1))
    + c18 * vectorIndex a.rt (minusI64 i (2 - n))
    + c19 * vectorIndex d.v12 (minusI64 i (2 - 3 * a.H))
    + c2 * vectorIndex d.v4 (minusI64 i (1 - l3))
    + c20 * vectorIndex d.v13 (minusI64 i (2 - 3 * a.H))
    + c21 * vectorIndex d.v14 (minusI64 i (-n + 2))
    + c22 * vectorIndex d.v15 (minusI64 i (2 - a.K))
    + c23 * vectorIndex d.v16 (minusI64 i (2 - a.K))
    + c24 * vectorIndex d.v17 (minusI64 i (-n + 2))
    + c25 * vectorIndex d.v18 (minusI64 i (-n + 2))
    + c26 * vectorIndex d.v19 (minusI64 i (2 - n))
    + c27 * vectorIndex d.v20 (minusI64 i (1 - l1))
    + c28 * vectorIndex d.v21 (minusI64 i (-n + 2))
    + c29 * vectorIndex d.v22 (minusI64 i (2 - 2 * a.H))
    + c30 * vectorIndex d.v23 (minusI64 i (-n + 2))
    + c31 * vectorIndex d.v23 (minusI64 i (-n + 3))
    + c32 * vectorIndex d.v24 (minusI64 i (-2 * a.H))
    + c33 * vectorIndex d.v25 (minusI64 i (2 - 3 * a.H))
    + c34 * vectorIndex d.v26 (minusI64 i (2 - a.K))
    + c35 * vectorIndex d.v27 (minusI64 i (-n + 2))
    + c9 * vectorIndex d.v6 (minusI64 i (2 - l5))
    + c9 * vectorIndex d.v7 (minusI64 i (1 - l6))
    + c9 * vectorIndex d.v8 (minusI64 i (a.ell - l7 + 2))

/-- The coefficients `c_36` … `c_49` of the final combination. -/
structure R1csPeCoeffs (F : Type) where
  c36 : F
  c37 : F
  c38 : F
  c39 : F
  c40 : F
  c41 : F
  c42 : F
  c43 : F
  c44 : F
  c45 : F
  c46 : F
  c47 : F
  c48 : F
  c49 : F

/-- `c_36` … `c_49`: voproof_r1cs_prover_efficient.rs:685-788 (prover) and 1060-1159 (verifier), as a
function of `y`, `y_1`, `y_2` and the value of the instance vector at `z`. -/
def r1csPeCoeffs (sz : R1CSSize) (capD : ℕ) (gamma mu nu beta alpha omega z y y1 y2 xz : F) :
    Res (R1csPeCoeffs F) := do
  let H : ℤ := sz.nrows
  let K : ℤ := sz.ncols
  let S : ℤ := sz.total
  let ell : ℤ := sz.inputSize
  let oz ← divR omega z
  let goz ← divR (gamma * omega) z
  let c36 ← divR
    (1 * (-power alpha 9 * 1 * y1 * (omega - 1 * z) * (gamma * omega - 1 * z)
      - power alpha 2 * z * power oz (3 * H) * (1 - power oz (-3 * H + S)) * (gamma * omega - 1 * z)
      - 1 * z * (mu * (1 - power oz (3 * H)) * (gamma * omega - 1 * z)
        - (omega - 1 * z) * (1 - power goz (3 * H)))))
    ((omega - 1 * z) * (gamma * omega - 1 * z))
  let c37 ← divR
    (1 * (power alpha 9 * y2 * (omega - 1 * z) * (1 - z) * (1 + xz * z)
      + power alpha 6 * mu * nu * 1 * y * (omega - 1 * z) * (1 - power z S)
      + 1 * z * (power alpha 6 * (1 - power z S) * (1 - power oz S)
        + alpha * (1 - power z K) * (1 - power oz K)
        + (1 - power z (3 * H)) * (1 - power oz (3 * H)))))
    ((omega - 1 * z) * (1 - z))
  let c38 ← divR
    (alpha * 1 * (power alpha 8 * beta * 1 * y2 * (omega - 1 * z) * (gamma * omega - 1 * z)
      - power alpha 2 * z * power oz K * (1 - power oz (-K + S)) * (gamma * omega - 1 * z)
      - 1 * z * (nu * (1 - power oz K) * (gamma * omega - 1 * z)
        - (omega - 1 * z) * (1 - power goz K))))
    ((omega - 1 * z) * (gamma * omega - 1 * z))
  let c39 ← divR (power alpha 4 * 1 * z * power oz K * (1 - power oz (-K + S))) (-omega + 1 * z)
  let c43 ← divR
    (power alpha 7 * power oz (2 * H)
      * (alpha * (1 * y1 * (omega - 1 * z) + power z (H + 1) * (1 - power oz H))
        - 1 * z * power oz H * (1 - power oz (-3 * H + S))))
    (omega - 1 * z)
  let c46 ← divR
    (power alpha 9 * 1
      * (alpha * power oz (S - 1) * (omega - 1 * z) + z * (1 - z) * (1 - power oz S)))
    (omega - 1 * z)
  let c47 ← divR (power z S * power oz S * (1 - power oz (2 * H + 1))) (omega - 1 * z)
  return ⟨c36, c37, c38, c39, -power alpha 6 * mu * power 1 2 * y,
    -power alpha 6 * nu * power 1 2 * y, power alpha 6 * power 1 2 * y, c43,
    power alpha 9 * 1 * y2 * power z (ell + 1), -power alpha 9 * beta * power 1 2 * y, c46, c47,
    -power z (-capD), -z⟩

/-- `g_vec`, voproof_r1cs_prover_efficient.rs:789-824. -/
def r1csPeG (maxshift n : ℤ) (capD : ℕ) (r rnu c w u y y1 wv v rt t1 h1 h2 : List F)
    (k : R1csPeCoeffs F) : Res (List F) :=
  addToFirstItem (expressionVector capD (fun i =>
    linearCombination 0 [(k.c36, vectorIndex r i), (k.c38, vectorIndex rnu i),
      (k.c39, vectorIndex c i), (k.c40, vectorIndex w i), (k.c41, vectorIndex u i),
      (k.c42, vectorIndex y i), (k.c43, vectorIndex y1 i), (k.c44, vectorIndex wv i),
      (k.c45, vectorIndex v i), (k.c46, vectorIndex rt i), (k.c47, vectorIndex t1 i),
      (k.c48, vectorIndex h1 (-capD + i + maxshift + n)), (k.c49, vectorIndex h2 i)])) k.c37

/-- `cm_g`, voproof_r1cs_prover_efficient.rs:825-855 and 1160-1190. -/
def r1csPeCmG (g : G1) (k : R1csPeCoeffs F)
    (cmR cmRnu cmC vkW vkU vkY cmY1 cmW vkV cmRt cmT1 cmH1 cmH2 : G1) : G1 :=
  commitmentLinearCombination k.c37 g [(cmR, k.c36), (cmRnu, k.c38), (cmC, k.c39), (vkW, k.c40),
    (vkU, k.c41), (vkY, k.c42), (cmY1, k.c43), (cmW, k.c44), (vkV, k.c45), (cmRt, k.c46),
    (cmT1, k.c47), (cmH1, k.c48), (cmH2, k.c49)]

/-- The items hashed for `rand_xi` and `rand_xi_2`: voproof_r1cs_prover_efficient.rs:863-912 and
1193-1242. -/
def r1csPeXiItems (cmY1 cmW cmR cmC cmRnu cmT cmRt cmT1 cmH1 cmH2 cmG : G1) (oz y y1 y2 z : F) :
    List (Item F G1) :=
  [.cm cmY1, .cm cmW, .cm cmR, .cm cmC, .cm cmRnu, .cm cmT, .cm cmRt, .cm cmT1, .cm cmH1, .cm cmH2,
    .cm cmG, .fld oz, .fld y, .fld y1, .fld y2, .fld z]

/-- `prove`, voproof_r1cs_prover_efficient.rs:140-934. -/
def r1csPeProve (env : Env F G1 G2 GT) (pk : R1csPePK F G1 G2) (x w : List F) :
    Res (R1csPeProof F G1) := do
  let sz := pk.vk.size
  let capD := pk.vk.degreeBound
  let pre := fun first : F =>
    r1csPrefix (G1 := G1) first x pk.vk.cmU pk.vk.cmW pk.vk.cmV pk.vk.cmY
  let n := sz.total
  let y1v ← r1csPeY1 env.rngF pk.mat sz.nrows sz.ncols n x w
  let cmY1 ← commitVector pk.powers y1v (n + 1)
  let wv ← r1csPeW env.rngF n w
  let cmW ← commitVector pk.powers wv (n + 1)
  let mu := env.hash (pre 1 ++ [.cm cmY1, .cm cmW])
  let r := r1csPeR env.gamma mu (3 * sz.nrows)
  let c ← leftSparseMvp pk.mat r (3 * sz.nrows) sz.ncols
  let cmR ← commitVector pk.powers r (3 * sz.nrows)
  let cmC ← commitVector pk.powers c sz.ncols
  let nu := env.hash (pre 1 ++ [.cm cmY1, .cm cmW, .cm cmR, .cm cmC])
  let rnu := r1csPeR env.gamma nu sz.ncols
  let t := uwinverseVector mu pk.u nu pk.w
  let cmRnu ← commitVector pk.powers rnu sz.ncols
  let cmT ← commitVector pk.powers t n
  let beta := env.hash (pre 1 ++ [.cm cmY1, .cm cmW, .cm cmR, .cm cmC, .cm cmRnu, .cm cmT])
  let rt := r1csPeRt env.rngF beta sz.inputSize n x wv c y1v r rnu t pk.v
  let cmRt ← commitVector pk.powers rt (n + 1)
  let alpha := env.hash (pre 1 ++ [.cm cmY1, .cm cmW, .cm cmR, .cm cmC, .cm cmRnu, .cm cmT, .cm cmRt])
  let a0 : R1csPeRun F := ⟨sz.nrows, sz.ncols, n, sz.inputSize, env.gamma, mu, nu, beta, alpha,
    0, x, pk.u, pk.w, pk.v, pk.y, y1v, wv, r, c, rnu, t, rt, []⟩
  let t1 := a0.mkT1 env.rngF
  let maxshift : ℕ := 2 * sz.nrows
  let cmT1 ← commitVector pk.powers t1 (maxshift + 2)
  let omega := env.hash (pre 1 ++ [.cm cmY1, .cm cmW, .cm cmR, .cm cmC, .cm cmRnu, .cm cmT, .cm cmRt,
    .cm cmT1])
  let a : R1csPeRun F := { a0 with omega := omega, t1 := t1 }
  let d ← a.derive env.fft
  let h1 := hVec1 (maxshift + n) (a.hAt d)
  let h2 := hVec2 (maxshift + n) (a.hAt d)
  let cmH1 ← commitVector pk.powers h1 capD
  let cmH2 ← commitVector pk.powers h2 (maxshift + n)
  let z := env.hash (pre 1 ++ [.cm cmY1, .cm cmW, .cm cmR, .cm cmC, .cm cmRnu, .cm cmT, .cm cmRt,
    .cm cmT1, .cm cmH1, .cm cmH2])
  let oz ← divR omega z
  let y := evalVectorExpression oz (n + 1 : ℕ) (fun i => vectorIndex t i)
  let y1 := evalVectorExpression oz (n + 1 : ℕ) (fun i => vectorIndex y1v i)
  let y2 := evalVectorExpression oz (n + 1 : ℕ) (fun i => vectorIndex c i)
  let k ← r1csPeCoeffs sz capD env.gamma mu nu beta alpha omega z y y1 y2 (evalVectorAsPoly x z)
  let gv ← r1csPeG maxshift n capD r rnu c pk.w pk.u pk.y y1v wv pk.v rt t1 h1 h2 k
  let cmG := r1csPeCmG pk.vk.kzgVk.g k cmR cmRnu cmC pk.vk.cmW pk.vk.cmU pk.vk.cmY cmY1 cmW pk.vk.cmV
    cmRt cmT1 cmH1 cmH2
  checkPolyEval (polyFromVec gv) z 0
  let items := r1csPeXiItems cmY1 cmW cmR cmC cmRnu cmT cmRt cmT1 cmH1 cmH2 cmG oz y y1 y2 z
  let xi := env.hash (pre 1 ++ items)
  let xi2 := env.hash (pre 2 ++ items)
  let (capW, capW1) ← batchOpen pk.powers [polyFromVec t, polyFromVec y1v, polyFromVec c]
    [polyFromVec gv] oz z xi xi2
  return ⟨cmY1, cmW, cmR, cmC, cmRnu, cmT, cmRt, cmT1, cmH1, cmH2, y, y1, y2, capW, capW1⟩

/-- `verify`, voproof_r1cs_prover_efficient.rs:935-1267. -/
def r1csPeVerify (env : Env F G1 G2 GT) (vk : R1csPeVK G1 G2) (x : List F)
    (π : R1csPeProof F G1) : Res Unit := do
  let pre := fun first : F => r1csPrefix (G1 := G1) first x vk.cmU vk.cmW vk.cmV vk.cmY
  let mu := env.hash (pre 1 ++ [.cm π.cmY1, .cm π.cmW])
  let nu := env.hash (pre 1 ++ [.cm π.cmY1, .cm π.cmW, .cm π.cmR, .cm π.cmC])
  let beta := env.hash (pre 1 ++ [.cm π.cmY1, .cm π.cmW, .cm π.cmR, .cm π.cmC, .cm π.cmRnu, .cm π.cmT])
  let alpha := env.hash (pre 1 ++ [.cm π.cmY1, .cm π.cmW, .cm π.cmR, .cm π.cmC, .cm π.cmRnu, .cm π.cmT,
    .cm π.cmRt])
  let omega := env.hash (pre 1 ++ [.cm π.cmY1, .cm π.cmW, .cm π.cmR, .cm π.cmC, .cm π.cmRnu, .cm π.cmT,
    .cm π.cmRt, .cm π.cmT1])
  let z := env.hash (pre 1 ++ [.cm π.cmY1, .cm π.cmW, .cm π.cmR, .cm π.cmC, .cm π.cmRnu, .cm π.cmT,
    .cm π.cmRt, .cm π.cmT1, .cm π.cmH1, .cm π.cmH2])
  let k ← r1csPeCoeffs vk.size vk.degreeBound env.gamma mu nu beta alpha omega z π.y π.y1 π.y2
    (evalVectorAsPoly x z)
  let cmG := r1csPeCmG vk.kzgVk.g k π.cmR π.cmRnu π.cmC vk.cmW vk.cmU vk.cmY π.cmY1 π.cmW vk.cmV π.cmRt
    π.cmT1 π.cmH1 π.cmH2
  let oz ← divR omega z
  let items := r1csPeXiItems π.cmY1 π.cmW π.cmR π.cmC π.cmRnu π.cmT π.cmRt π.cmT1 π.cmH1 π.cmH2 cmG oz
    π.y π.y1 π.y2 z
  let xi := env.hash (pre 1 ++ items)
  let xi2 := env.hash (pre 2 ++ items)
  if batchCheck env.e vk.kzgVk [π.cmT, π.cmY1, π.cmC] [cmG] oz z xi xi2 [π.y, π.y1, π.y2] [0] π.capW
      π.capW1 env.rngU128 then .ok ()
  else .error .verificationFail

end VO
