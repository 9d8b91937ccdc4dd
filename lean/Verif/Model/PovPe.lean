import Verif.Model.Pov

/-
Model of `/repo/voproof/src/snarks/voproof_pov_prover_efficient.rs`, the variant of the POV SNARK in
which the prover commits to the left inputs and the right inputs of the multiplication gates in one
vector `u` and to the remaining right inputs and the outputs in a second vector `v`.  `n` is
`3 * cap_c_total`; `maxshift` is `cap_c_m + cap_c_total` (line 207).
-/

namespace VO

variable {F G1 G2 GT : Type} [Field F] [DecidableEq F]
  [AddCommGroup G1] [Module F G1] [DecidableEq G1] [AddCommGroup G2] [Module F G2]
  [AddCommGroup GT] [Module F GT] [DecidableEq GT]

/-- `POVProverEfficientVerifierKey`, voproof_pov_prover_efficient.rs:13-20: the fields of
`POVVerifierKey`. -/
abbrev PovPeVK (G1 G2 : Type) := PovVK G1 G2

/-- `POVProverEfficientProverKey`, voproof_pov_prover_efficient.rs:4-11: the fields of
`POVProverKey`. -/
abbrev PovPePK (F G1 G2 : Type) := PovPK F G1 G2

/-- `POVProverEfficientProof`, voproof_pov_prover_efficient.rs:22-34. -/
structure PovPeProof (F G1 : Type) where
  cmU : G1
  cmV : G1
  cmR : G1
  cmT1 : G1
  cmH1 : G1
  cmH2 : G1
  y : F
  y2 : F
  capW : G1
  capW1 : G1
  deriving DecidableEq

/-- `get_max_degree`, voproof_pov_prover_efficient.rs:45-47. -/
def povPeMaxDegree (s : POVSize) : ℕ := s.nmul + 4 * s.n

/-- `index`, voproof_pov_prover_efficient.rs:64-118. -/
def povPeIndex (gamma : F) (pp : UniversalParams G1 G2) (cs : POV F) :
    Res (PovPePK F G1 G2 × PovPeVK G1 G2) := do
  let maxDegree := povPeMaxDegree cs.getSize
  let capD := pp.powersOfG.length
  assertR (capD > maxDegree)
  let size := cs.getSize
  let sigma ← permutationVectorFromWires gamma cs.wires (3 * size.n)
  let cmSigma ← commitVector pp.powersOfG sigma (3 * size.n)
  let cmD ← commitVector pp.powersOfG cs.consts (-(size.nadd : ℤ) - size.nmul + size.n).toNat
  let kzgVk ← vkOf pp
  let vk : PovPeVK G1 G2 := ⟨cmSigma, cmD, kzgVk, size, capD⟩
  return (⟨vk, pp.powersOfG, maxDegree, sigma, cs.consts⟩, vk)

/-- `u_vec`, voproof_pov_prover_efficient.rs:145, 155. -/
def povPeU (rng : ℕ → F) (c cm : ℕ) (w : POVWitness F) : Res (List F) := do
  let u ← concatSubvec w.w0 0 c w.w1 0 cm
  zeroPadAndConcat u (3 * c) (sampleVec rng 0 1)

/-- `v_vec`, voproof_pov_prover_efficient.rs:146-154, 157. -/
def povPeV (rng : ℕ → F) (c ca cm : ℕ) (w : POVWitness F) : Res (List F) := do
  let v ← concatSubvec w.w1 cm c w.w2 0 (ca + cm)
  zeroPadAndConcat v (3 * c) (sampleVec rng 1 1)

/-- `r_vec`, voproof_pov_prover_efficient.rs:180-205. -/
def povPeR (rng : ℕ → F) (c ca cm : ℕ) (gamma zeta zeta1 : F) (u v d sigma : List F) :
    Res (List F) := do
  let r ← accumulateVectorMulR (3 * c) (fun i => do
    let inv ← inverseR (vectorIndex u (minusI64 i 1) + vectorIndex v (minusI64 i (cm + c + 1))
      + vectorIndex d (minusI64 i (ca + cm + 2 * c + 1))
      + rangeIndex 1 (3 * c) (minusI64 i 1) * zeta1 + vectorIndex sigma (minusI64 i 1) * zeta)
    return (vectorIndex u (minusI64 i 1) + vectorIndex v (minusI64 i (cm + c + 1))
      + vectorIndex d (minusI64 i (ca + cm + 2 * c + 1))
      + powerVectorIndex gamma (3 * c) (minusI64 i 1) * zeta
      + rangeIndex 1 (3 * c) (minusI64 i 1) * zeta1) * inv)
  zeroPadAndConcat r (3 * c) (sampleVec rng 2 1)

/-- The data of a run of the prover: sizes (`cap_c_total`, `cap_c_a`, `cap_c_m`), generator,
challenges and vectors. -/
structure PovPeRun (F : Type) where
  c : ℕ
  ca : ℕ
  cm : ℕ
  gamma : F
  zeta : F
  zeta1 : F
  alpha : F
  omega : F
  u : List F
  v : List F
  x : List F
  t : List F
  sigma : List F
  d : List F
  r : List F
  t1 : List F

/-- The expression of `t_vec_1`, voproof_pov_prover_efficient.rs:226-268, as a function of
`i + n`. -/
def PovPeRun.t1At (s : PovPeRun F) (j : ℤ) : F :=
  let n : ℤ := 3 * s.c
  power s.alpha 2 * vectorIndex s.t (minusI64 j 1)
      * (vectorIndex s.u (minusI64 j 1) + vectorIndex s.v (minusI64 j (s.cm + s.c + 1))
        - vectorIndex s.x (minusI64 j 1))
    + -power s.alpha 3 * vectorIndex s.r (minusI64 j (-3 * s.c + n + 1))
      * (vectorIndex s.u (minusI64 j (-3 * s.c + n + 1))
        + vectorIndex s.v (minusI64 j (s.cm - 2 * s.c + n + 1))
        + vectorIndex s.d (minusI64 j (s.ca + s.cm - s.c + n + 1))
        + rangeIndex 1 (3 * s.c) (minusI64 j (-3 * s.c + n + 1)) * s.zeta1
        + vectorIndex s.sigma (minusI64 j (-3 * s.c + n + 1)) * s.zeta)
    - vectorIndex s.v (minusI64 j (s.cm + 1)) * rangeIndex 1 s.cm (minusI64 j (s.c + 1))
    + vectorIndex s.u (minusI64 j (s.c + 1)) * vectorIndex s.u j
    + (power s.alpha 3 * delta j (-3 * s.c + n + 1)
        + power s.alpha 3 * vectorIndex s.r (minusI64 j (-3 * s.c + n + 2)))
      * (vectorIndex s.u (minusI64 j (-3 * s.c + n + 1))
        + vectorIndex s.v (minusI64 j (s.cm - 2 * s.c + n + 1))
        + vectorIndex s.d (minusI64 j (s.ca + s.cm - s.c + n + 1))
        + powerVectorIndex s.gamma (3 * s.c) (minusI64 j (-3 * s.c + n + 1)) * s.zeta
        + rangeIndex 1 (3 * s.c) (minusI64 j (-3 * s.c + n + 1)) * s.zeta1)

/-- `t_vec_1`, voproof_pov_prover_efficient.rs:222-272. -/
def PovPeRun.mkT1 (rng : ℕ → F) (s : PovPeRun F) : List F :=
  sampleVec rng 3 1
    ++ expressionVector (s.cm + s.c + 2) (fun i => s.t1At (i + 3 * s.c))

/-- The derived vectors `v_vec_1` … `v_vec_15`, voproof_pov_prover_efficient.rs:286-374. -/
structure PovPeDerived (F : Type) where
  v1 : List F
  v2 : List F
  v3 : List F
  v4 : List F
  v5 : List F
  v6 : List F
  v7 : List F
  v8 : List F
  v9 : List F
  v10 : List F
  v11 : List F
  v12 : List F
  v13 : List F
  v14 : List F
  v15 : List F

/-- Computation of the derived vectors, voproof_pov_prover_efficient.rs:285-374;
`omega.inverse().unwrap()` panics on zero. -/
def PovPeRun.derive (fft : FftParams F) (s : PovPeRun F) : Res (PovPeDerived F) := do
  let c3 ← inverseR s.omega
  let v1 ← vectorPolyMul fft s.u s.u s.omega
  let v2 ← vectorPolyMul fft s.t s.u s.omega
  let v3 ← vectorPolyMul fft s.t s.v s.omega
  let v4 ← vectorPolyMul fft s.t s.x s.omega
  let v5 ← vectorPolyMul fft s.r s.u s.omega
  let v6 ← vectorPolyMul fft s.r s.v s.omega
  let v7 ← vectorPolyMul fft s.r s.d s.omega
  let v8 := vectorReverseOmega s.r s.omega
  let v9 ← vectorPolyMul fft s.r s.sigma s.omega
  return ⟨v1, v2, v3, v4, v5, v6, v7, v8, v9, vectorPowerMul s.v c3 s.cm,
    vectorPowerMul s.v c3 s.ca, vectorPowerMul s.u c3 s.ca, vectorPowerMul v8 s.gamma (3 * s.c),
    vectorPowerMul v8 1 (3 * s.c), vectorPowerMul s.t1 c3 (s.cm + s.c + 1)⟩

/-- The expression of `h_vec_1` (voproof_pov_prover_efficient.rs:389-473, at `i - maxshift - n`) and
of `h_vec_2` (474-535, at `i + 1`), with the constants of lines 219-221 and 375-388. -/
def PovPeRun.hAt (s : PovPeRun F) (d : PovPeDerived F) (i : ℤ) : F :=
  let l := shiftMinusOne s.u
  let l1 := shiftMinusOne s.t
  let l2 := shiftMinusOne s.t
  let l3 := shiftMinusOne s.t
  let l4 := shiftMinusOne s.r
  let l5 := shiftMinusOne s.r
  let l6 := shiftMinusOne s.r
  let l7 := shiftMinusOne s.r
  let l8 := shiftMinusOne s.r
  let c := power s.alpha 2
  let c1 := power s.alpha 3
  let c2 := -power s.alpha 3
  let c4 := power s.omega s.c
  let c5 := -power s.alpha 2
  let c6 := power s.alpha 3 * s.omega
  let c7 := power s.alpha 4
  let c8 := -power s.alpha 3 * s.zeta
  let c9 := power s.alpha 3 * s.zeta
  let c10 := power s.alpha 3 * s.zeta1
  let c11 := -power s.omega (s.cm + s.c - 1)
  let c12 := s.alpha * power s.omega (s.ca + s.c - 1)
  let c13 := -s.alpha * power s.omega (s.ca + s.c - 1)
  let c14 := power s.alpha 3 * s.omega * s.zeta
  let c15 := power s.alpha 3 * s.omega * s.zeta1
  let c16 := -power s.alpha 3 * s.zeta1
  let c17 := -power s.omega (s.cm + 4 * s.c);
  -power s.alpha 4 * power s.omega (3 * s.c - 1) * delta i 1
    + c * vectorIndex d.v2 (minusI64 i (1 - l1))
    + c * vectorIndex d.v3 (minusI64 i (s.cm + s.c - l2 + 1))
    + c1 * vectorIndex s.v (minusI64 i (s.cm + s.c + 1))
    + c1 * vectorIndex s.u (minusI64 i 1)
    + c1 * vectorIndex s.d (minusI64 i (s.ca + s.cm + 2 * s.c + 1))
    + c10 * rangeIndex 1 (3 * s.c) (minusI64 i 1)
    + c11 * vectorIndex d.v10 (minusI64 i (2 - s.c))
    + c12 * vectorIndex d.v11 (minusI64 i (2 - s.ca))
    + c12 * vectorIndex d.v12 (minusI64 i (-s.ca - s.cm + 2))
    + c13 * vectorIndex d.v11 (minusI64 i (-s.ca - s.c + 2))
    + c14 * vectorIndex d.v13 (minusI64 i (-l7))
    + c15 * vectorIndex d.v14 (minusI64 i (-l7))
    + c16 * vectorIndex d.v14 (minusI64 i (1 - l7))
    + c17 * vectorIndex d.v15 (minusI64 i (-s.cm - s.c))
    + c2 * vectorIndex d.v5 (minusI64 i (1 - l4))
    + c2 * vectorIndex d.v6 (minusI64 i (s.cm + s.c - l5 + 1))
    + c2 * vectorIndex d.v7 (minusI64 i (s.ca + s.cm + 2 * s.c - l6 + 1))
    + c4 * vectorIndex d.v1 (minusI64 i (-s.c - l + 1))
    + c5 * vectorIndex d.v4 (minusI64 i (1 - l3))
    + c6 * vectorIndex d.v5 (minusI64 i (-l4))
    + c6 * vectorIndex d.v6 (minusI64 i (s.cm + s.c - l5))
    + c6 * vectorIndex d.v7 (minusI64 i (s.ca + s.cm + 2 * s.c - l6))
    + c7 * vectorIndex d.v8 (minusI64 i (3 * s.c - l7))
    + c8 * vectorIndex d.v9 (minusI64 i (1 - l8))
    + c9 * powerVectorIndex s.gamma (3 * s.c) (minusI64 i 1)

/-- The coefficients `c_18` … `c_25` of the final combination. -/
structure PovPeCoeffs (F : Type) where
  c18 : F
  c19 : F
  c20 : F
  c21 : F
  c22 : F
  c23 : F
  c24 : F
  c25 : F

/-- `c_18` … `c_25`: voproof_pov_prover_efficient.rs:551-621 (prover) and 804-874 (verifier), as a
function of `y`, `y_1`, `y_2` and the value of the instance vector at `z`. -/
def povPeCoeffs (sz : POVSize) (capD : ℕ) (gamma zeta zeta1 alpha omega z y y1 y2 xz : F) :
    Res (PovPeCoeffs F) := do
  let c : ℤ := sz.n
  let ca : ℤ := sz.nadd
  let cm : ℤ := sz.nmul
  let n : ℤ := 3 * c
  let oz ← divR omega z
  let c18 ← divR
    (power alpha 3 * 1 * (omega - 1 * z) * (omega * y2 + 1 * z)
      - alpha * power z (-cm + c + 2) * power oz c * (1 - power oz ca)
      + 1 * z * (omega - 1 * z)
        * (-power alpha 3 * 1 * y2 + power alpha 2 * 1 * y1 + y * power oz c))
    (z * (omega - 1 * z))
  let c19 ← divR
    (power alpha 2 * (omega - 1 * z)
        * (alpha * (-1 * y2 * power z (cm - 2 * c + n)
            + power z (cm - 2 * c + n - 1) * (omega * y2 + 1 * z))
          + 1 * y1 * power z (cm + c))
      + alpha * power oz c * (1 - power oz ca) * (1 * z - power z (c + 1))
      + power z (cm + 1) * power oz c * (1 - power oz cm))
    (omega - 1 * z)
  let c20 ← divR
    (power alpha 2
      * (alpha * (-power 1 2 * y2 * z * zeta1 * (1 - power z (3 * c)) * (gamma * z - 1)
          - 1 * (omega * y2 + 1 * z)
            * (zeta * (1 - z) * (1 - power (gamma * z) (3 * c))
              - zeta1 * (1 - power z (3 * c)) * (gamma * z - 1)))
        + z * (1 - z) * (gamma * z - 1)
          * (power alpha 2 * power z (3 * c - 1) * (1 * y2 - power oz (3 * c - 1))
            - power 1 2 * xz * y1)))
    (z * (1 - z) * (gamma * z - 1))
  let c21 := power alpha 3
    * (-1 * y2 * power z (ca + cm - c + n)
      + power z (ca + cm - c + n - 1) * (omega * y2 + 1 * z))
  let c23 ← divR (power z n * power oz (3 * c) * (1 - power oz (cm + c + 1))) (omega - 1 * z)
  return ⟨c18, c19, c20, c21, -power alpha 3 * power 1 2 * y2 * zeta, c23, -power z (-capD), -z⟩

/-- `g_vec`, voproof_pov_prover_efficient.rs:622-645. -/
def povPeG (maxshift n : ℤ) (capD : ℕ) (u v d sigma t1 h1 h2 : List F) (k : PovPeCoeffs F) :
    Res (List F) :=
  addToFirstItem (expressionVector capD (fun i =>
    linearCombination 0 [(k.c18, vectorIndex u i), (k.c19, vectorIndex v i),
      (k.c21, vectorIndex d i), (k.c22, vectorIndex sigma i), (k.c23, vectorIndex t1 i),
      (k.c24, vectorIndex h1 (-capD + i + maxshift + n)), (k.c25, vectorIndex h2 i)])) k.c20

/-- `cm_g`, voproof_pov_prover_efficient.rs:646-664 and 875-893. -/
def povPeCmG (g : G1) (k : PovPeCoeffs F) (cmU cmV cmD cmSigma cmT1 cmH1 cmH2 : G1) : G1 :=
  commitmentLinearCombination k.c20 g [(cmU, k.c18), (cmV, k.c19), (cmD, k.c21), (cmSigma, k.c22),
    (cmT1, k.c23), (cmH1, k.c24), (cmH2, k.c25)]

/-- The items hashed for `rand_xi` and `rand_xi_2`: voproof_pov_prover_efficient.rs:671-709 and
896-934. -/
def povPeXiItems (cmU cmV cmR cmT1 cmH1 cmH2 cmG : G1) (oz y y2 z : F) : List (Item F G1) :=
  [.cm cmU, .cm cmV, .cm cmR, .cm cmT1, .cm cmH1, .cm cmH2, .cm cmG, .fld oz, .fld y, .fld y2, .fld z]

/-- `prove`, voproof_pov_prover_efficient.rs:119-725. -/
def povPeProve (env : Env F G1 G2 GT) (pk : PovPePK F G1 G2) (x : POVInstance F)
    (w : POVWitness F) : Res (PovPeProof F G1) := do
  let sz := pk.vk.size
  let c := sz.n
  let capD := pk.vk.degreeBound
  let pre := fun first : F => povPrefix (G1 := G1) first x pk.vk.cmSigma pk.vk.cmD
  let xv ← sparseVector x.idx x.vals (3 * c)
  let u ← povPeU env.rngF c sz.nmul w
  let v ← povPeV env.rngF c sz.nadd sz.nmul w
  let cmU ← commitVector pk.powers u (3 * c + 1)
  let cmV ← commitVector pk.powers v (3 * c + 1)
  let t ← sparseZeroOneVector x.idx (3 * c)
  let zeta := env.hash (pre 1 ++ [.cm cmU, .cm cmV])
  let zeta1 := env.hash (pre 2 ++ [.cm cmU, .cm cmV])
  let rv ← povPeR env.rngF c sz.nadd sz.nmul env.gamma zeta zeta1 u v pk.d pk.sigma
  let cmR ← commitVector pk.powers rv (3 * c + 1)
  let alpha := env.hash (pre 1 ++ [.cm cmU, .cm cmV, .cm cmR])
  let s0 : PovPeRun F := ⟨c, sz.nadd, sz.nmul, env.gamma, zeta, zeta1, alpha, 0, u, v, xv, t,
    pk.sigma, pk.d, rv, []⟩
  let t1 := s0.mkT1 env.rngF
  let maxshift : ℤ := sz.nmul + c
  let cmT1 ← commitVector pk.powers t1 (maxshift + 2).toNat
  let omega := env.hash (pre 1 ++ [.cm cmU, .cm cmV, .cm cmR, .cm cmT1])
  let s : PovPeRun F := { s0 with omega := omega, t1 := t1 }
  let d ← s.derive env.fft
  let h1 := hVec1 (maxshift + 3 * c).toNat (s.hAt d)
  let h2 := hVec2 (maxshift + 3 * c).toNat (s.hAt d)
  let cmH1 ← commitVector pk.powers h1 capD
  let cmH2 ← commitVector pk.powers h2 (maxshift + 3 * c).toNat
  let z := env.hash (pre 1 ++ [.cm cmU, .cm cmV, .cm cmR, .cm cmT1, .cm cmH1, .cm cmH2])
  let oz ← divR omega z
  let y := evalVectorExpression oz (3 * c + 1) (fun i => vectorIndex u i)
  let y1 := evalSparseZeroOneVector oz x.idx
  let y2 := evalVectorExpression oz (3 * c + 1) (fun i => vectorIndex rv i)
  let k ← povPeCoeffs sz capD env.gamma zeta zeta1 alpha omega z y y1 y2
    (evalSparseVector z x.idx x.vals)
  let gv ← povPeG maxshift (3 * c) capD u v pk.d pk.sigma t1 h1 h2 k
  let cmG := povPeCmG pk.vk.kzgVk.g k cmU cmV pk.vk.cmD pk.vk.cmSigma cmT1 cmH1 cmH2
  checkPolyEval (polyFromVec gv) z 0
  let xi := env.hash (pre 1 ++ povPeXiItems cmU cmV cmR cmT1 cmH1 cmH2 cmG oz y y2 z)
  let xi2 := env.hash (pre 2 ++ povPeXiItems cmU cmV cmR cmT1 cmH1 cmH2 cmG oz y y2 z)
  let (capW, capW1) ← batchOpen pk.powers [polyFromVec u, polyFromVec rv] [polyFromVec gv] oz z
    xi xi2
  return ⟨cmU, cmV, cmR, cmT1, cmH1, cmH2, y, y2, capW, capW1⟩

/-- `verify`, voproof_pov_prover_efficient.rs:726-958. -/
def povPeVerify (env : Env F G1 G2 GT) (vk : PovPeVK G1 G2) (x : POVInstance F)
    (π : PovPeProof F G1) : Res Unit := do
  let pre := fun first : F => povPrefix (G1 := G1) first x vk.cmSigma vk.cmD
  let zeta := env.hash (pre 1 ++ [.cm π.cmU, .cm π.cmV])
  let zeta1 := env.hash (pre 2 ++ [.cm π.cmU, .cm π.cmV])
  let alpha := env.hash (pre 1 ++ [.cm π.cmU, .cm π.cmV, .cm π.cmR])
  let omega := env.hash (pre 1 ++ [.cm π.cmU, .cm π.cmV, .cm π.cmR, .cm π.cmT1])
  let z := env.hash (pre 1 ++ [.cm π.cmU, .cm π.cmV, .cm π.cmR, .cm π.cmT1, .cm π.cmH1,
    .cm π.cmH2])
  let oz ← divR omega z
  let k ← povPeCoeffs vk.size vk.degreeBound env.gamma zeta zeta1 alpha omega z π.y
    (evalSparseZeroOneVector oz x.idx) π.y2 (evalSparseVector z x.idx x.vals)
  let cmG := povPeCmG vk.kzgVk.g k π.cmU π.cmV vk.cmD vk.cmSigma π.cmT1 π.cmH1 π.cmH2
  let xi := env.hash (pre 1
    ++ povPeXiItems π.cmU π.cmV π.cmR π.cmT1 π.cmH1 π.cmH2 cmG oz π.y π.y2 z)
  let xi2 := env.hash (pre 2
    ++ povPeXiItems π.cmU π.cmV π.cmR π.cmT1 π.cmH1 π.cmH2 cmG oz π.y π.y2 z)
  if batchCheck env.e vk.kzgVk [π.cmU, π.cmR] [cmG] oz z xi xi2 [π.y, π.y2] [0] π.capW π.capW1
      env.rngU128 then .ok ()
  else .error .verificationFail

end VO
