import Verif.Model.Kzg
import Verif.Model.Cs

/-
Parts shared by the models of the SNARKs in `/repo/voproof/src/snarks`.

Hashing a transcript to the field (`get_randomness_from_hash!`) is an arbitrary function of the
list of hashed items; the serialization to bytes and SHA-256 are not modelled.  The deterministic
generator `test_rng()` is an arbitrary sequence.  Evaluation caches are left out (C06).
-/

namespace VO

variable {F G1 G2 GT : Type} [Field F] [DecidableEq F]
  [AddCommGroup G1] [Module F G1] [AddCommGroup G2] [Module F G2]
  [AddCommGroup GT] [Module F GT] [DecidableEq GT]

/-- An argument of `get_randomness_from_hash!` (tools/mod.rs:1022-1028): a field element, a
commitment, a vector of field elements, a vector of integers or one integer. -/
inductive Item (F G1 : Type) where
  | fld (a : F)
  | cm (c : G1)
  | flds (l : List F)
  | nats (l : List ℕ)
  | nat (n : ℕ)
  deriving DecidableEq

/-- What the SNARK functions take from their environment: the hash to the field
(`hash_to_field`, tools/mod.rs:124-129, after `to_bytes!`), the pairing, the FFT constants and the
generator of the field, the field elements drawn from a fresh `test_rng()` by
`sample_randomizers!` (tools/mod.rs:112-122, 498-502) and the 128-bit randomizer that
`batch_check` draws from a fresh `test_rng()` in `verify` (kzg/mod.rs:314). -/
structure Env (F G1 G2 GT : Type) [Field F] [AddCommGroup G1] [Module F G1] [AddCommGroup G2]
    [Module F G2] [AddCommGroup GT] [Module F GT] where
  hash : List (Item F G1) → F
  e : G1 →ₗ[F] G2 →ₗ[F] GT
  fft : FftParams F
  gamma : F
  rngF : ℕ → F
  rngU128 : F

/-- `.unwrap()`, also of `commit_vector!` (tools/mod.rs:845-852): any error becomes a panic. -/
def unwrapC {α : Type} (r : Res α) : Res α :=
  match r with
  | .ok a => .ok a
  | .error _ => .error .panic

/-- `commit_vector!`, tools/mod.rs:845-852. -/
def commitVector (powers : List G1) (v : List F) (deg : ℕ) : Res G1 :=
  unwrapC (vectorToCommitment powers v deg)

/-- `commitment_linear_combination!`, tools/mod.rs:443-455, with `sum!` (742-747) and
`commit_scalar!` (snarks/mod.rs:59-66); the variadic arguments are a list. -/
def commitmentLinearCombination (one : F) (g : G1) (l : List (G1 × F)) : G1 :=
  l.foldr (fun p s => p.2 • p.1 + s) (commitSingle g one)

/-- `add_to_first_item!`, tools/mod.rs:1155-1159: panics on the empty vector. -/
def addToFirstItem (v : List F) (e : F) : Res (List F) :=
  match v with
  | [] => .error .panic
  | a :: l => .ok ((a + e) :: l)

/-- `define_shift_minus_one!`, tools/mod.rs:335-339. -/
def shiftMinusOne (v : List F) : ℤ := (v.length : ℤ) - 1

/-- `sample_vec`, tools/mod.rs:112-118: `k` draws starting at position `start` of the sequence. -/
def sampleVec (rng : ℕ → F) (start k : ℕ) : List F := (List.range k).map (fun i => rng (start + i))

/-! ### Consistency checks inside the Fibonacci and range-check provers

`M` is `maxshift + n_1`; the pairs of vectors are given as functions of the 1-based index. -/

/-- An `abnaive_vec`: the product of a pair computed without FFT (e.g. fibonacci.rs:195-206,
range_check.rs:309-322). -/
def naiveProduct (M : ℕ) (omega : F) (p : (ℤ → F) × (ℤ → F)) : List F :=
  vectorPolyMulNoDict (expressionVector (M + 1) p.1) (expressionVector (M + 1) p.2) omega

/-- The convolution checks with the running `hcheck_vec`: fibonacci.rs:207-212 and the same steps
after each of the products; range_check.rs:323-328 and so on. -/
def convChecks (M : ℕ) (omega : F) :
    List (((ℤ → F) × (ℤ → F)) × (ℤ → F)) → List F → Res (List F)
  | [], hcheck => .ok hcheck
  | (p, f) :: l, hcheck => do
    let ab := naiveProduct M omega p
    let padded ← zeroPad ab (2 * M + 1)
    checkVectorEq (expressionVector (2 * M + 1) (fun i => f (i - M))) padded
    convChecks M omega l (addVectorToVector hcheck ab)

/-- `sum_vec`: fibonacci.rs:168 and the `add_expression_vector_to_vector!` steps;
range_check.rs:283 likewise. -/
def sumVec (M : ℕ) (pairs : List ((ℤ → F) × (ℤ → F))) : List F :=
  pairs.foldl (fun acc p => addExpressionVectorToVector acc (fun i => p.1 i * p.2 i))
    (List.replicate (M + 1) 0)

/-- `h_osum`: fibonacci.rs:479-547, range_check.rs:664-756. -/
def hOsum (M : ℕ) (omega : F) (pairs : List ((ℤ → F) × (ℤ → F))) : F :=
  pairs.foldl (fun acc p =>
    acc + evalVectorExpression omega (M + 1) (fun i => p.1 i * p.2 i)) 0

/-- `h_vec_1`, e.g. fibonacci.rs:579-598; `hAt` is the expression of `h_vec` as a function of
`i - M`. -/
def hVec1 (M : ℕ) (hAt : ℤ → F) : List F := expressionVector M (fun i => hAt (i - M))

/-- `h_vec_2`, e.g. fibonacci.rs:599-618. -/
def hVec2 (M : ℕ) (hAt : ℤ → F) : List F := expressionVector M (fun i => hAt (i + 1))

/-- `h_vec`, e.g. fibonacci.rs:558-577. -/
def hVec (M : ℕ) (hAt : ℤ → F) : List F := expressionVector (2 * M + 1) (fun i => hAt (i - M))

/-- All checks before the commitments to `h`: fibonacci.rs:207-641, range_check.rs:323-856.
`atimesb` are the vectors computed with the FFT, as functions of `i - M`. -/
def debugChecks1 (M : ℕ) (omega : F) (pairs : List ((ℤ → F) × (ℤ → F)))
    (atimesb : List (ℤ → F)) (hAt : ℤ → F) : Res Unit := do
  let hcheck ← convChecks M omega (pairs.zip atimesb) (List.replicate (2 * M + 1) 0)
  assertR (hOsum M omega pairs = 0)
  checkVectorEq (sumVec M pairs) (List.replicate (M + 1) 0)
  checkVectorEq (hVec M hAt) hcheck
  checkVectorEq (hVec M hAt) (hVec1 M hAt ++ [0] ++ hVec2 M hAt)
  assertR (hAt 1 = 0)

/-- `naive_vec_g`, fibonacci.rs:657-785, range_check.rs:863-1028: each closed form times the
right vector of its pair, minus `h`.  Simplification: some products are written in the source with
the division by a power of `z` outside and the factors in another order. -/
def naiveG (M capD : ℕ) (z : F) (evals : List F) (pairs : List ((ℤ → F) × (ℤ → F)))
    (h1 h2 : List F) : List F :=
  let g := (evals.zip pairs).foldl
    (fun acc p => addExpressionVectorToVector acc (fun i => p.1 * p.2.2 i))
    (List.replicate capD 0)
  let g := addExpressionVectorToVector g (fun i =>
    vectorIndex h1 (minusI64 i (capD - M + 1)) * -power z (-capD))
  addExpressionVectorToVector g (fun i => vectorIndex h2 i * -z)

/-- The evaluation asserts at `ω/z` and the product identity at `z`: fibonacci.rs:658-863,
range_check.rs:864-1125. -/
def debugChecks2 (M : ℕ) (pairs : List ((ℤ → F) × (ℤ → F))) (h : List F) (z oz : F)
    (evals : List F) : Res Unit := do
  assertR (evals = pairs.map (fun p => evalVectorExpression oz (M + 1) p.1))
  assertR ((pairs.map (fun p => evalVectorExpression oz (M + 1) p.1
      * evalVectorExpression z (M + 1) p.2)).foldl (· + ·) 0
    = evalVectorAsPoly h z * power z (-M))

end VO
