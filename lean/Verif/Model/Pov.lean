import Verif.Model.Snark

/-
Model of `/repo/voproof/src/snarks/voproof_pov.rs`.  `vovectorsize` is `3 * cap_c_total`; the
sizes are converted to `i64` by `init_size!` and are integers here.
-/

namespace VO

variable {F G1 G2 GT : Type} [Field F] [DecidableEq F]
  [AddCommGroup G1] [Module F G1] [DecidableEq G1] [AddCommGroup G2] [Module F G2]
  [AddCommGroup GT] [Module F GT] [DecidableEq GT]

/-- `POVVerifierKey`, voproof_pov.rs:13-20. -/
structure PovVK (G1 G2 : Type) where
  cmSigma : G1
  cmD : G1
  kzgVk : VerifierKey G1 G2
  size : POVSize
  degreeBound : ℕ

/-- `POVProverKey`, voproof_pov.rs:4-11. -/
structure PovPK (F G1 G2 : Type) where
  vk : PovVK G1 G2
  powers : List G1
  maxDegree : ℕ
  sigma : List F
  d : List F

/-- `POVProof`, voproof_pov.rs:22-33. -/
structure PovProof (F G1 : Type) where
  cmW : G1
  cmR : G1
  cmT1 : G1
  cmH1 : G1
  cmH2 : G1
  y : F
  y2 : F
  capW : G1
  capW1 : G1
  deriving DecidableEq

/-- `get_max_degree`, voproof_pov.rs:44-46.  The cast of a negative number wraps to a huge one, on
which the assertion of `index` fails; it is modelled by 0 since `nmul ≤ n` in every size. -/
def povMaxDegree (s : POVSize) : ℕ := (-(s.nmul : ℤ) + 6 * s.n).toNat

/-- `index`, voproof_pov.rs:63-111. -/
def povIndex (gamma : F) (pp : UniversalParams G1 G2) (cs : POV F) :
    Res (PovPK F G1 G2 × PovVK G1 G2) := do
  let maxDegree := povMaxDegree cs.getSize
  let capD := pp.powersOfG.length
  assertR (capD > maxDegree)
  let size := cs.getSize
  let sigma ← permutationVectorFromWires gamma cs.wires (3 * size.n)
  let cmSigma ← commitVector pp.powersOfG sigma (3 * size.n)
  let cmD ← commitVector pp.powersOfG cs.consts (-(size.nadd : ℤ) - size.nmul + size.n).toNat
  let kzgVk ← vkOf pp
  let vk : PovVK G1 G2 := ⟨cmSigma, cmD, kzgVk, size, capD⟩
  return (⟨vk, pp.powersOfG, maxDegree, sigma, cs.consts⟩, vk)

/-- `w_vec`, voproof_pov.rs:123-129. -/
def povW (rng : ℕ → F) (c : ℕ) (w : POVWitness F) : Res (List F) :=
  zeroPadAndConcat (w.w0 ++ w.w1 ++ w.w2) (3 * c) (sampleVec rng 0 1)

/-- `accumulate_vector_mul!` (tools/mod.rs:602-608, 638-654) with initial value one on terms that
may panic. -/
def accumulateVectorMulR (n : ℤ) (f : ℤ → Res F) : Res (List F) := do
  let l ← (List.range n.toNat).mapM (fun (k : ℕ) => f ((k : ℤ) + 1))
  return scanAcc (· * ·) 1 l

/-- `r_vec`, voproof_pov.rs:150-165. -/
def povR (rng : ℕ → F) (c : ℕ) (gamma zeta zeta1 : F) (w sigma : List F) : Res (List F) := do
  let r ← accumulateVectorMulR (3 * c) (fun i => do
    let inv ← inverseR (vectorIndex w (minusI64 i 1)
      + rangeIndex 1 (3 * c) (minusI64 i 1) * zeta1 + vectorIndex sigma (minusI64 i 1) * zeta)
    return (vectorIndex w (minusI64 i 1) + powerVectorIndex gamma (3 * c) (minusI64 i 1) * zeta
      + rangeIndex 1 (3 * c) (minusI64 i 1) * zeta1) * inv)
  zeroPadAndConcat r (3 * c) (sampleVec rng 1 1)

/-- The data of a run of the prover: sizes (`cap_c_total`, `cap_c_a`, `cap_c_m`), generator,
challenges and vectors. -/
structure PovRun (F : Type) where
  c : ℕ
  ca : ℕ
  cm : ℕ
  gamma : F
  zeta : F
  zeta1 : F
  alpha : F
  omega : F
  w : List F
  x : List F
  t : List F
  sigma : List F
  d : List F
  r : List F
  t1 : List F

/-- The expression of `t_vec_1`, voproof_pov.rs:178-243, as a function of `i + vovectorsize`. -/
def PovRun.t1At (s : PovRun F) (j : ℤ) : F :=
  let n : ℤ := 3 * s.c
  power s.alpha 3 * vectorIndex s.t (minusI64 j 1)
      * (vectorIndex s.w (minusI64 j 1) - vectorIndex s.x (minusI64 j 1))
    + -power s.alpha 4 * vectorIndex s.r (minusI64 j (-3 * s.c + n + 1))
      * (vectorIndex s.w (minusI64 j (-3 * s.c + n + 1))
        + rangeIndex 1 (3 * s.c) (minusI64 j (-3 * s.c + n + 1)) * s.zeta1
        + vectorIndex s.sigma (minusI64 j (-3 * s.c + n + 1)) * s.zeta)
    + vectorIndex s.w (minusI64 j (-s.cm + n + 1))
      * vectorIndex s.w (minusI64 j (-s.cm - s.c + n + 1))
    - rangeIndex 1 s.cm (minusI64 j (-s.cm + n + 1))
      * vectorIndex s.w (minusI64 j (-s.cm - 2 * s.c + n + 1))
    + (power s.alpha 4 * delta j (-3 * s.c + n + 1)
        + power s.alpha 4 * vectorIndex s.r (minusI64 j (-3 * s.c + n + 2)))
      * (vectorIndex s.w (minusI64 j (-3 * s.c + n + 1))
        + powerVectorIndex s.gamma (3 * s.c) (minusI64 j (-3 * s.c + n + 1)) * s.zeta
        + rangeIndex 1 (3 * s.c) (minusI64 j (-3 * s.c + n + 1)) * s.zeta1)

/-- `t_vec_1`, voproof_pov.rs:181-247; `maxshift` is `-cap_c_m + 3 * cap_c_total` (line 167). -/
def PovRun.mkT1 (rng : ℕ → F) (s : PovRun F) : List F :=
  sampleVec rng 2 1
    ++ expressionVector (-s.cm + 3 * s.c + 2) (fun i => s.t1At (i + 3 * s.c))

/-- The derived vectors `v_vec` … `v_vec_12`, voproof_pov.rs:260-321. -/
structure PovDerived (F : Type) where
  v : List F
  v1 : List F
  v2 : List F
  v3 : List F
  v4 : List F
  v5 : List F
  v6 : List F
  v7 : List F
  v8 : List F
  v9 : List F
  v10 : List F
  v11 : List F
  v12 : List F

/-- Computation of the derived vectors, voproof_pov.rs:260-321. -/
def PovRun.derive (fft : FftParams F) (s : PovRun F) : Res (PovDerived F) := do
  let c3 := power s.omega (-1)
  let v ← vectorPolyMul fft s.w s.w s.omega
  let v1 ← vectorPolyMul fft s.t s.w s.omega
  let v2 ← vectorPolyMul fft s.t s.x s.omega
  let v3 ← vectorPolyMul fft s.r s.w s.omega
  let v4 := vectorReverseOmega s.r s.omega
  let v5 ← vectorPolyMul fft s.r s.sigma s.omega
  return ⟨v, v1, v2, v3, v4, v5, vectorPowerMul s.w c3 s.cm, vectorPowerMul s.w c3 s.ca,
    vectorPowerMul s.w c3 (-s.ca - s.cm + s.c), vectorPowerMul s.d c3 (-s.ca - s.cm + s.c),
    vectorPowerMul v4 s.gamma (3 * s.c), vectorPowerMul v4 1 (3 * s.c),
    vectorPowerMul s.t1 c3 (-s.cm + 3 * s.c + 1)⟩

/-- The expression of `h_vec_1` (voproof_pov.rs:344-456, at `i - maxshift - vovectorsize`) and of
`h_vec_2` (457-494, at `i + 1`), with the constants of lines 178-180 and 322-343. -/
def PovRun.hAt (s : PovRun F) (d : PovDerived F) (i : ℤ) : F :=
  let l := shiftMinusOne s.w
  let l1 := shiftMinusOne s.t
  let l2 := shiftMinusOne s.t
  let l3 := shiftMinusOne s.r
  let l4 := shiftMinusOne s.r
  let l5 := shiftMinusOne s.r
  let c := power s.alpha 3
  let c1 := power s.alpha 4
  let c2 := -power s.alpha 4
  let c4 := power s.omega (-s.cm + 3 * s.c)
  let c5 := -power s.alpha 3
  let c6 := power s.alpha 4 * s.omega
  let c7 := power s.alpha 5
  let c8 := -power s.alpha 4 * s.zeta
  let c9 := power s.alpha 4 * s.zeta
  let c10 := power s.alpha 4 * s.zeta1
  let c11 := -power s.omega (3 * s.c - 1)
  let c12 := s.alpha * power s.omega (s.ca + s.cm + 2 * s.c - 1)
  let c13 := -s.alpha * power s.omega (s.ca + s.cm + 2 * s.c - 1)
  let c14 := power s.alpha 2 * power s.omega (3 * s.c - 1)
  let c15 := -power s.alpha 2 * power s.omega (3 * s.c - 1)
  let c16 := power s.alpha 4 * s.omega * s.zeta
  let c17 := power s.alpha 4 * s.omega * s.zeta1
  let c18 := -power s.alpha 4 * s.zeta1
  let c19 := -power s.omega (-s.cm + 6 * s.c);
  -power s.alpha 5 * power s.omega (3 * s.c - 1) * delta i 1
    + c * vectorIndex d.v1 (minusI64 i (1 - l1))
    + c1 * vectorIndex s.w (minusI64 i 1)
    + c10 * rangeIndex 1 (3 * s.c) (minusI64 i 1)
    + c11 * vectorIndex d.v6 (minusI64 i (-s.cm - 2 * s.c + 2))
    + c12 * vectorIndex d.v7 (minusI64 i (-s.ca - s.cm + 2))
    + c12 * vectorIndex d.v7 (minusI64 i (-s.ca - s.cm - s.c + 2))
    + c13 * vectorIndex d.v7 (minusI64 i (-s.ca - s.cm - 2 * s.c + 2))
    + c14 * vectorIndex d.v8 (minusI64 i (2 - 3 * s.c))
    + c15 * vectorIndex d.v9 (minusI64 i (s.ca + s.cm - s.c + 2))
    + c16 * vectorIndex d.v10 (minusI64 i (-l4))
    + c17 * vectorIndex d.v11 (minusI64 i (-l4))
    + c18 * vectorIndex d.v11 (minusI64 i (1 - l4))
    + c19 * vectorIndex d.v12 (minusI64 i (s.cm - 3 * s.c))
    + c2 * vectorIndex d.v3 (minusI64 i (1 - l3))
    + c4 * vectorIndex d.v (minusI64 i (-s.c - l + 1))
    + c5 * vectorIndex d.v2 (minusI64 i (1 - l2))
    + c6 * vectorIndex d.v3 (minusI64 i (-l3))
    + c7 * vectorIndex d.v4 (minusI64 i (3 * s.c - l4))
    + c8 * vectorIndex d.v5 (minusI64 i (1 - l5))
    + c9 * powerVectorIndex s.gamma (3 * s.c) (minusI64 i 1)

/-- The coefficients `c_20` … `c_26` of the final combination. -/
structure PovCoeffs (F : Type) where
  c20 : F
  c21 : F
  c22 : F
  c23 : F
  c24 : F
  c25 : F
  c26 : F

/-- `c_20` … `c_26`: voproof_pov.rs:513-578 (prover) and 748-813 (verifier), as a function of
`y`, `y_1`, `y_2` and the value of the instance vector at `z`. -/
def povCoeffs (sz : POVSize) (capD : ℕ) (gamma zeta zeta1 alpha omega z y y1 y2 xz : F) :
    Res (PovCoeffs F) := do
  let c : ℤ := sz.n
  let ca : ℤ := sz.nadd
  let cm : ℤ := sz.nmul
  let n : ℤ := 3 * c
  let oz ← divR omega z
  let c20 ← divR
    (power alpha 4 * 1 * (omega - 1 * z) * (omega * y2 + 1 * z)
      + z * (omega - 1 * z)
        * (-power alpha 4 * power 1 2 * y2 + power alpha 3 * power 1 2 * y1
          + y * power z (-cm - c + n) * power oz (-cm + 3 * c))
      + z * (-power alpha 2 * 1 * z * power oz (ca + cm + 2 * c) * (1 - power oz (-ca - cm + c))
        - alpha * power oz (cm + 2 * c) * (1 - power oz ca)
          * (-1 * z + power z (c + 1) + power z (2 * c + 1))
        + power z (-cm - 2 * c + n + 1) * power oz (-cm + 3 * c) * (1 - power oz cm)))
    (z * (omega - 1 * z))
  let c21 ← divR (power alpha 2 * power z (ca + cm + 2 * c + 1) * power oz (ca + cm + 2 * c)
      * (1 - power oz (-ca - cm + c))) (omega - 1 * z)
  let c22 ← divR
    (power alpha 3
      * (alpha * (-power 1 2 * y2 * z * zeta1 * (1 - power z (3 * c)) * (gamma * z - 1)
          - 1 * (omega * y2 + 1 * z)
            * (zeta * (1 - z) * (1 - power (gamma * z) (3 * c))
              - zeta1 * (1 - power z (3 * c)) * (gamma * z - 1)))
        + z * (1 - z) * (gamma * z - 1)
          * (power alpha 2 * power z (3 * c - 1) * (1 * y2 - power oz (3 * c - 1))
            - power 1 2 * xz * y1)))
    (z * (1 - z) * (gamma * z - 1))
  let c24 ← divR (power z n * power oz (3 * c) * (1 - power oz (-cm + 3 * c + 1)))
    (omega - 1 * z)
  return ⟨c20, c21, c22, -power alpha 4 * power 1 2 * y2 * zeta, c24, -power z (-capD), -z⟩

/-- `g_vec`, voproof_pov.rs:579-600. -/
def povG (maxshift n : ℤ) (capD : ℕ) (w d sigma t1 h1 h2 : List F) (k : PovCoeffs F) :
    Res (List F) :=
  addToFirstItem (expressionVector capD (fun i =>
    linearCombination 0 [(k.c20, vectorIndex w i), (k.c21, vectorIndex d i),
      (k.c23, vectorIndex sigma i), (k.c24, vectorIndex t1 i),
      (k.c25, vectorIndex h1 (-capD + i + maxshift + n)), (k.c26, vectorIndex h2 i)])) k.c22

/-- The first items of every hash: voproof_pov.rs:132-140 and so on. -/
def povPrefix (first : F) (x : POVInstance F) (cmSigma cmD : G1) : List (Item F G1) :=
  [.fld first, .nats x.idx, .flds x.vals, .cm cmSigma, .cm cmD]

/-- `cm_g`, voproof_pov.rs:601-617 and 814-830. -/
def povCmG (g : G1) (k : PovCoeffs F) (cmW cmD cmSigma cmT1 cmH1 cmH2 : G1) : G1 :=
  commitmentLinearCombination k.c22 g [(cmW, k.c20), (cmD, k.c21), (cmSigma, k.c23), (cmT1, k.c24),
    (cmH1, k.c25), (cmH2, k.c26)]

/-- The items hashed for `rand_xi` and `rand_xi_2`: voproof_pov.rs:624-659 and 833-868. -/
def povXiItems (cmW cmR cmT1 cmH1 cmH2 cmG : G1) (oz y y2 z : F) : List (Item F G1) :=
  [.cm cmW, .cm cmR, .cm cmT1, .cm cmH1, .cm cmH2, .cm cmG, .fld oz, .fld y, .fld y2, .fld z]

/-- `prove`, voproof_pov.rs:112-675. -/
def povProve (env : Env F G1 G2 GT) (pk : PovPK F G1 G2) (x : POVInstance F) (w : POVWitness F) :
    Res (PovProof F G1) := do
  let sz := pk.vk.size
  let c := sz.n
  let capD := pk.vk.degreeBound
  let pre := fun first : F => povPrefix (G1 := G1) first x pk.vk.cmSigma pk.vk.cmD
  let xv ← sparseVector x.idx x.vals (3 * c)
  let wv ← povW env.rngF c w
  let cmW ← commitVector pk.powers wv (3 * c + 1)
  let t ← sparseZeroOneVector x.idx (3 * c)
  let zeta := env.hash (pre 1 ++ [.cm cmW])
  let zeta1 := env.hash (pre 2 ++ [.cm cmW])
  let rv ← povR env.rngF c env.gamma zeta zeta1 wv pk.sigma
  let cmR ← commitVector pk.powers rv (3 * c + 1)
  let alpha := env.hash (pre 1 ++ [.cm cmW, .cm cmR])
  let s0 : PovRun F := ⟨c, sz.nadd, sz.nmul, env.gamma, zeta, zeta1, alpha, 0, wv, xv, t, pk.sigma,
    pk.d, rv, []⟩
  let t1 := s0.mkT1 env.rngF
  let maxshift : ℤ := -sz.nmul + 3 * c
  let cmT1 ← commitVector pk.powers t1 (maxshift + 2).toNat
  let omega := env.hash (pre 1 ++ [.cm cmW, .cm cmR, .cm cmT1])
  let s : PovRun F := { s0 with omega := omega, t1 := t1 }
  let d ← s.derive env.fft
  let h1 := hVec1 (maxshift + 3 * c).toNat (s.hAt d)
  let h2 := hVec2 (maxshift + 3 * c).toNat (s.hAt d)
  let cmH1 ← commitVector pk.powers h1 capD
  let cmH2 ← commitVector pk.powers h2 (maxshift + 3 * c).toNat
  let z := env.hash (pre 1 ++ [.cm cmW, .cm cmR, .cm cmT1, .cm cmH1, .cm cmH2])
  let oz ← divR omega z
  let y := evalVectorExpression oz (3 * c + 1) (fun i => vectorIndex wv i)
  let y1 := evalSparseZeroOneVector oz x.idx
  let y2 := evalVectorExpression oz (3 * c + 1) (fun i => vectorIndex rv i)
  let k ← povCoeffs sz capD env.gamma zeta zeta1 alpha omega z y y1 y2
    (evalSparseVector z x.idx x.vals)
  let gv ← povG maxshift (3 * c) capD wv pk.d pk.sigma t1 h1 h2 k
  let cmG := povCmG pk.vk.kzgVk.g k cmW pk.vk.cmD pk.vk.cmSigma cmT1 cmH1 cmH2
  checkPolyEval (polyFromVec gv) z 0
  let xi := env.hash (pre 1 ++ povXiItems cmW cmR cmT1 cmH1 cmH2 cmG oz y y2 z)
  let xi2 := env.hash (pre 2 ++ povXiItems cmW cmR cmT1 cmH1 cmH2 cmG oz y y2 z)
  let (capW, capW1) ← batchOpen pk.powers [polyFromVec wv, polyFromVec rv] [polyFromVec gv] oz z
    xi xi2
  return ⟨cmW, cmR, cmT1, cmH1, cmH2, y, y2, capW, capW1⟩

/-- `verify`, voproof_pov.rs:676-893. -/
def povVerify (env : Env F G1 G2 GT) (vk : PovVK G1 G2) (x : POVInstance F) (π : PovProof F G1) :
    Res Unit := do
  let pre := fun first : F => povPrefix (G1 := G1) first x vk.cmSigma vk.cmD
  let zeta := env.hash (pre 1 ++ [.cm π.cmW])
  let zeta1 := env.hash (pre 2 ++ [.cm π.cmW])
  let alpha := env.hash (pre 1 ++ [.cm π.cmW, .cm π.cmR])
  let omega := env.hash (pre 1 ++ [.cm π.cmW, .cm π.cmR, .cm π.cmT1])
  let z := env.hash (pre 1 ++ [.cm π.cmW, .cm π.cmR, .cm π.cmT1, .cm π.cmH1, .cm π.cmH2])
  let oz ← divR omega z
  let k ← povCoeffs vk.size vk.degreeBound env.gamma zeta zeta1 alpha omega z π.y
    (evalSparseZeroOneVector oz x.idx) π.y2 (evalSparseVector z x.idx x.vals)
  let cmG := povCmG vk.kzgVk.g k π.cmW vk.cmD vk.cmSigma π.cmT1 π.cmH1 π.cmH2
  let xi := env.hash (pre 1 ++ povXiItems π.cmW π.cmR π.cmT1 π.cmH1 π.cmH2 cmG oz π.y π.y2 z)
  let xi2 := env.hash (pre 2 ++ povXiItems π.cmW π.cmR π.cmT1 π.cmH1 π.cmH2 cmG oz π.y π.y2 z)
  if batchCheck env.e vk.kzgVk [π.cmW, π.cmR] [cmG] oz z xi xi2 [π.y, π.y2] [0] π.capW π.capW1
      env.rngU128 then .ok ()
  else .error .verificationFail

end VO
