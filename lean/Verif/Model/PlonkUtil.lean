import Verif.Model.PlonkCheck
import Verif.Model.Kzg

/-
Model of the exported helpers of plonk-core that the prover and the verifier do not call:
`linear_combination` and `aggregate_polynomials` (`/repo/plonk-core/src/commitment.rs`), `powers_of`,
`from_embedded_curve_scalar` and `to_embedded_curve_scalar` (`/repo/plonk-core/src/util.rs`).
-/

namespace VO.Plonk

section Combination
variable {F G1 : Type} [Field F] [DecidableEq F] [AddCommGroup G1] [Module F G1]

/-- The first `k` items of `powers_of(scalar)`, util.rs:15-20: `successors` from `p = 1`. -/
def powersFrom (scalar p : F) : ℕ → List F
  | 0 => []
  | k + 1 => p :: powersFrom scalar (p * scalar) k

/-- `powers_of(scalar).take(k)`, util.rs:15-20. -/
def powersOf (scalar : F) (k : ℕ) : List F := powersFrom scalar 1 k

/-- `linear_combination`, commitment.rs:94-115, for the KZG implementation of `multi_scalar_mul`
(commitment.rs:33-54), which is the multi-scalar multiplication of the group elements. -/
def linearCombination (evals : List F) (commitments : List G1) (challenge : F) : Res (G1 × F) := do
  assertR (evals.length = commitments.length)
  let powers := powersOf challenge evals.length
  let combinedEval := (List.zipWith (fun eval power => eval * power) evals powers).sum
  let combinedCommitment := msm commitments powers
  return (combinedCommitment, combinedEval)

/-- `aggregate_polynomials`, commitment.rs:118-129; the infinite iterator of powers is cut to the
number of polynomials by `zip`. -/
def aggregatePolynomials (polynomials : List (List F)) (challenge : F) : List F :=
  (List.zipWith (fun c poly => polyScale poly c) (powersOf challenge polynomials.length)
    polynomials).foldl polyAdd []

end Combination

section Embedded

/-- What the two conversions use of a prime field: `into_bigint`, `MODULUS` and the number of 64-bit
limbs of `BigInt`. -/
structure PrimeRep (K : Type) where
  toNat : K → ℕ
  modulus : ℕ
  limbs : ℕ

/-- `BigInt::to_bits_le` (ark-ff): all `64 * limbs` bits. -/
def limbBits (limbs x : ℕ) : List Bool := (List.range (64 * limbs)).map (fun i => x.testBit i)

/-- `BigInt::from_bits_le` (ark-ff): bits beyond the limbs are dropped. -/
def limbsOfBits (limbs : ℕ) (bits : List Bool) : ℕ := fromBitsLe (bits.take (64 * limbs))

/-- `BigInt::num_bits` (ark-ff). -/
def numBitsOf (x : ℕ) : ℕ := Nat.size x

/-- `BigInt::to_bytes_le` (ark-ff): all `8 * limbs` bytes. -/
def limbBytes (limbs x : ℕ) : List ℕ := (List.range (8 * limbs)).map (fun i => x / 256 ^ i % 256)

/-- The integer of little-endian bytes. -/
def ofBytesLe : List ℕ → ℕ
  | [] => 0
  | b :: l => b + 256 * ofBytesLe l

/-- `from_embedded_curve_scalar`, util.rs:92-116, with `S` the scalar field of the embedded curve and
`T` the base field, and `to_embedded_curve_scalar`, util.rs:122-145, with the two exchanged: the two
bodies are the same up to the names of the fields. `from_le_bytes_mod_order` reduces the integer of the
bytes. -/
def convertScalar {K L : Type} [Field L] (S : PrimeRep K) (T : PrimeRep L) (x : K) : Res L := do
  let scalarRepr := S.toNat x
  let modulus := T.modulus
  if numBitsOf modulus ≥ numBitsOf scalarRepr then
    let s := limbsOfBits T.limbs (limbBits S.limbs scalarRepr)
    assertR (s < modulus)
  else
    let m := limbsOfBits S.limbs (limbBits T.limbs modulus)
    assertR (scalarRepr < m)
  return ((ofBytesLe (limbBytes S.limbs scalarRepr) : ℕ) : L)

/-- `from_embedded_curve_scalar`, util.rs:92-116. -/
def fromEmbeddedCurveScalar {K F : Type} [Field F] (S : PrimeRep K) (T : PrimeRep F) (x : K) : Res F :=
  convertScalar S T x

/-- `to_embedded_curve_scalar`, util.rs:122-145. -/
def toEmbeddedCurveScalar {K F : Type} [Field K] (S : PrimeRep K) (T : PrimeRep F) (x : F) : Res K :=
  convertScalar T S x

end Embedded

end VO.Plonk
