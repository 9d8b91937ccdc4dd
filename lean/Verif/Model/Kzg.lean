import Mathlib.Algebra.Module.LinearMap.Defs
import Mathlib.Algebra.Module.LinearMap.End
import Verif.Model.Tools

/-
Model of `/repo/voproof/src/kzg/mod.rs`, `/repo/voproof/src/kzg/data_structures.rs` and the
commitment helpers of `/repo/voproof/src/snarks/mod.rs`.

The groups `G1`, `G2`, `GT` are vector spaces over the scalar field `F` (written additively; the
prime-order groups of a pairing-friendly curve), the pairing is a bilinear map.  Affine,
projective and "prepared" forms of a point are the same element.  A polynomial
(`DensePolynomial`) is its coefficient list without trailing zeros.
-/

namespace VO

variable {F G1 G2 GT : Type} [Field F] [DecidableEq F]
  [AddCommGroup G1] [Module F G1] [AddCommGroup G2] [Module F G2]
  [AddCommGroup GT] [Module F GT] [DecidableEq GT]

/-- `UniversalParams`, kzg/data_structures.rs:18-35. -/
structure UniversalParams (G1 G2 : Type) where
  powersOfG : List G1
  h : G2
  betaH : G2
  preparedH : G2
  preparedBetaH : G2
  deriving DecidableEq

/-- `VerifierKey`, kzg/data_structures.rs:135-151. -/
structure VerifierKey (G1 G2 : Type) where
  g : G1
  h : G2
  betaH : G2
  preparedH : G2
  preparedBetaH : G2
  deriving DecidableEq

/-- `PCUniversalParams::max_degree`, kzg/data_structures.rs:65-69 (`len() - 1` underflows on the
empty list). -/
def UniversalParams.maxDegree (pp : UniversalParams G1 G2) : Res ℕ :=
  if pp.powersOfG = [] then .error .panic else .ok (pp.powersOfG.length - 1)

/-- The loop at kzg/mod.rs:55-59: `n` pushes of the running power. -/
def powersGo (beta : F) : ℕ → F → List F
  | 0, _ => []
  | n + 1, cur => cur :: powersGo beta n (cur * beta)

/-- `KZG10::setup`, kzg/mod.rs:43-83.  `beta`, `g`, `h` are the random draws, in this order.
The fixed-base multi-scalar multiplication is modelled by its result. -/
def kzgSetup (maxDegree : ℕ) (beta : F) (g : G1) (h : G2) : Res (UniversalParams G1 G2) :=
  if maxDegree < 1 then .error .degreeIsZero
  else
    let powersOfBeta := 1 :: powersGo beta maxDegree beta
    .ok { powersOfG := powersOfBeta.map (fun b => b • g)
          h := h
          betaH := beta • h
          preparedH := h
          preparedBetaH := beta • h }

/-- `check_degree_is_too_large`, kzg/mod.rs:353-363. -/
def checkDegree (degree numPowers : ℕ) : Res Unit :=
  if degree + 1 > numPowers then .error (.tooManyCoefficients (degree + 1) numPowers) else .ok ()

/-- `skip_leading_zeros_and_convert_to_bigints(_vec)`, kzg/mod.rs:414-435. -/
def skipLeadingZeros : List F → ℕ × List F
  | [] => (0, [])
  | a :: l => if a = 0 then let r := skipLeadingZeros l; (r.1 + 1, r.2) else (0, a :: l)

/-- `VariableBaseMSM::msm_bigint` (ark-ec): over the common prefix of bases and scalars. -/
def msm (bases : List G1) (scalars : List F) : G1 :=
  ((bases.zip scalars).map (fun p => p.2 • p.1)).sum

/-- The slice `l[n..]`: panics when `n` exceeds the length. -/
def sliceFrom {α : Type} (l : List α) (n : ℕ) : Res (List α) :=
  if l.length < n then .error .panic else .ok (l.drop n)

/-- `commit_with_coefficients`, kzg/mod.rs:87-110; `coeffs.len() - 1` underflows on the empty
vector (overflow checks on). -/
def commitWithCoefficients (powers : List G1) (coeffs : List F) : Res G1 := do
  if coeffs = [] then .error .panic
  else
    checkDegree (coeffs.length - 1) powers.length
    let (nlz, plain) := skipLeadingZeros coeffs
    let bases ← sliceFrom powers nlz
    return msm bases plain

/-- `commit`, kzg/mod.rs:112-134. -/
def kzgCommit (powers : List G1) (p : List F) : Res G1 := do
  checkDegree (polyDegree p) powers.length
  let (nlz, plain) := skipLeadingZeros p
  let bases ← sliceFrom powers nlz
  return msm bases plain

/-- `commit_single`, kzg/mod.rs:136-138, and `scalar_to_commitment`, snarks/mod.rs:52-57. -/
def commitSingle (g : G1) (c : F) : G1 := c • g

/-- The synthetic division of kzg/mod.rs:150-158, on the coefficients from index 1 on:
`w_i = p_{i+1} + w_{i+1} z`, the last one `w_{d-1} = p_d`. -/
def witnessVec (z : F) : List F → List F
  | [] => []
  | a :: l => let r := witnessVec z l; (a + r.headD 0 * z) :: r

/-- `compute_witness_polynomial`, kzg/mod.rs:142-163: panics when the degree is 0
(`p.degree() - 1` underflows). -/
def computeWitness (p : List F) (z : F) : Res (List F) :=
  if polyDegree p = 0 then .error .panic
  else .ok (polyFromVec (witnessVec z p.tail))

/-- `open_with_witness_polynomial`, kzg/mod.rs:165-188. -/
def openWithWitness (powers : List G1) (q : List F) : Res G1 := do
  checkDegree (polyDegree q) powers.length
  let (nlz, plain) := skipLeadingZeros q
  let bases ← sliceFrom powers nlz
  return msm bases plain

/-- `open`, kzg/mod.rs:190-208. -/
def kzgOpen (powers : List G1) (p : List F) (z : F) : Res G1 := do
  checkDegree (polyDegree p) powers.length
  let q ← computeWitness p z
  openWithWitness powers q

/-- The loops at kzg/mod.rs:230-237: `Σ ξ^i · witness(f_i)`, from accumulator and power. -/
def batchWitness (z xi : F) : List (List F) → List F → F → Res (List F)
  | [], acc, _ => .ok acc
  | f :: fs, acc, pow => do
    let q ← computeWitness f z
    batchWitness z xi fs (polyAdd acc (polyScale q pow)) (pow * xi)

/-- The degree checks at kzg/mod.rs:220-222. -/
def checkDegrees (powers : List G1) : List (List F) → Res Unit
  | [] => .ok ()
  | f :: fs => do
    checkDegree (polyDegree f) powers.length
    checkDegrees powers fs

/-- `batch_open`, kzg/mod.rs:210-256. -/
def batchOpen (powers : List G1) (fs gs : List (List F)) (z zz xi xi2 : F) : Res (G1 × G1) := do
  checkDegrees powers (fs ++ gs)
  let wf ← batchWitness z xi fs [] 1
  let wg ← batchWitness zz xi2 gs [] 1
  let p1 ← openWithWitness powers wf
  let p2 ← openWithWitness powers wg
  return (p1, p2)

/-- `check`, kzg/mod.rs:262-283. -/
def kzgCheck (e : G1 →ₗ[F] G2 →ₗ[F] GT) (vk : VerifierKey G1 G2) (comm : G1) (point value : F)
    (proof : G1) : Bool :=
  decide (e (comm - value • vk.g) vk.h = e proof (vk.betaH - point • vk.h))

/-- The two loops of `batch_check`, kzg/mod.rs:320-324 and 327-331: `(total_q, y)` with scalars
`ξ^i · scale` on the commitments and `ξ^i` on the values. -/
def batchSum (xi scale : F) : List (G1 × F) → G1 → F → F → G1 × F
  | [], q, y, _ => (q, y)
  | (c, v) :: l, q, y, pow =>
    batchSum xi scale l (q + (pow * scale) • c) (y + pow * v) (pow * xi)

/-- `batch_check`, kzg/mod.rs:289-351.  `randomizer` is the 128-bit draw of line 314. -/
def batchCheck (e : G1 →ₗ[F] G2 →ₗ[F] GT) (vk : VerifierKey G1 G2) (fCommitments gCommitments : List G1)
    (z zz xi xi2 : F) (fValues gValues : List F) (proof proof2 : G1) (randomizer : F) : Bool :=
  let (q, y) := batchSum xi 1 (fCommitments.zip fValues) 0 0 1
  let totalQ := q - y • vk.g
  let (q2, y2) := batchSum xi2 randomizer (gCommitments.zip gValues) 0 0 1
  let totalQ2 := q2 - (y2 * randomizer) • vk.g
  let pointF := totalQ + totalQ2 + z • proof + (randomizer * zz) • proof2
  let totalW := proof + randomizer • proof2
  decide (e pointF vk.preparedH + e (-totalW) vk.preparedBetaH = 0)

/-- `AddAssign<(F, &Commitment)>`, kzg/data_structures.rs:289-296. -/
def commitmentAddAssign (self : G1) (f : F) (other : G1) : G1 := f • other + self

/-- `PreparedCommitment::prepare`, kzg/data_structures.rs:313-328, and the loop of
`PreparedVerifierKey::prepare`, 238-243: `bits` doublings. -/
def prepareTable (bits : ℕ) (c : G1) : List G1 :=
  match bits with
  | 0 => []
  | bits + 1 => c :: prepareTable bits (c + c)

/-- `PreparedVerifierKey`, kzg/data_structures.rs:221-231. -/
structure PreparedVerifierKey (G1 G2 : Type) where
  preparedG : List G1
  preparedH : G2
  preparedBetaH : G2

/-- `PreparedVerifierKey::prepare`, kzg/data_structures.rs:233-251. -/
def prepareVk (bits : ℕ) (vk : VerifierKey G1 G2) : PreparedVerifierKey G1 G2 :=
  ⟨prepareTable bits vk.g, vk.preparedH, vk.preparedBetaH⟩

/-- `vector_to_commitment`, snarks/mod.rs:36-50. -/
def vectorToCommitment (powers : List G1) (v : List F) (degree : ℕ) : Res G1 := do
  let bases ← sliceFrom powers (if degree < v.length then 0 else degree - v.length)
  commitWithCoefficients bases v

/-- The loop of `slice::binary_search` (Rust std, called at kzg/mod.rs:396): `size` candidates are
left starting at `left`; the middle one is compared with the key. -/
def binarySearchGo (l : List ℕ) (x left size : ℕ) : Bool :=
  if h : size = 0 then false
  else
    let mid := left + size / 2
    let c := l.getD mid 0
    if c < x then binarySearchGo l x (mid + 1) (size - size / 2 - 1)
    else if x < c then binarySearchGo l x left (size / 2)
    else true
  termination_by size
  decreasing_by all_goals omega

/-- `binary_search(&x).is_ok()`, kzg/mod.rs:396. -/
def binarySearchFound (l : List ℕ) (x : ℕ) : Bool := binarySearchGo l x 0 l.length

/-- `check_degrees_and_bounds`, kzg/mod.rs:386-412; the polynomial is given by its degree and
optional degree bound. -/
def checkDegreesAndBounds (supportedDegree maxDegree : ℕ) (enforced : Option (List ℕ))
    (polyDeg : ℕ) (degreeBound : Option ℕ) : Res Unit :=
  match degreeBound with
  | none => .ok ()
  | some bound =>
    match enforced with
    | none => .error (.unsupportedDegreeBound bound)
    | some bounds =>
      if ¬ binarySearchFound bounds bound then .error (.unsupportedDegreeBound bound)
      else if bound < polyDeg ∨ bound > maxDegree then
        .error (.incorrectDegreeBound polyDeg bound supportedDegree)
      else .ok ()

/-- The verifier key every `index` function derives from the universal parameters
(snarks/fibonacci.rs:86-92 and the same lines of the other five SNARKs): first power, `h`, `βh`
and their prepared forms; the indexing `powers_of_g[0]` panics on an empty list. -/
def vkOf (pp : UniversalParams G1 G2) : Res (VerifierKey G1 G2) :=
  match pp.powersOfG with
  | [] => .error .panic
  | g :: _ => .ok ⟨g, pp.h, pp.betaH, pp.preparedH, pp.preparedBetaH⟩

end VO
