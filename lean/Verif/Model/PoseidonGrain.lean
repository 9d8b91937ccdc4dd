import Verif.Model.Basic
import Mathlib.Data.Nat.Notation

/-
Model of `/repo/plonk-hashing/src/poseidon/round_constant.rs`. Bytes are natural numbers below 256, a
`VecDeque<bool>` is a list. Loops without a bound have a number of steps; `none` says that the steps are used
up. `F::from_random_bytes` is a parameter.
-/

namespace VO.Poseidon

/-- `append_bits`, round_constant.rs:76-81. -/
def appendBits (vec : List Bool) (n val : ℕ) : List Bool :=
  vec ++ (List.range n).reverse.map fun i => ((val >>> i) &&& 1) != 0

/-- `GrainLFSR::bit`, round_constant.rs:115-117. The state has 80 bits and the index is below 80, so the
index is never out of range; see `C119_new` and `C119_bit`. -/
def grainBit (state : List Bool) (i : ℕ) : Bool := state.getD i false

/-- `generate_new_bit`, round_constant.rs:107-113: the bit and the new state. -/
def generateNewBit (state : List Bool) : Bool × List Bool :=
  let newBit := ((((grainBit state 62 ^^ grainBit state 51) ^^ grainBit state 38) ^^ grainBit state 23) ^^
    grainBit state 13) ^^ grainBit state 0
  (newBit, state.tail ++ [newBit])

/-- The same step `n` times, for the effect on the state, round_constant.rs:100-102. -/
def skipBits : ℕ → List Bool → List Bool
  | 0, s => s
  | n + 1, s => skipBits n (generateNewBit s).2

/-- `GrainLFSR::new`, round_constant.rs:90-105. -/
def grainNew (initial : List Bool) : Res (List Bool) :=
  if initial.length = 80 then
    let s := skipBits 160 initial
    if s.length = 80 then .ok s else .error .panic
  else .error .panic

/-- The loop of `next`, round_constant.rs:158-161: the state when `new_bit` is true. -/
def nextLoop : ℕ → Bool → List Bool → Option (List Bool)
  | _, true, s => some s
  | 0, false, _ => none
  | n + 1, false, s =>
    let s := (generateNewBit s).2
    let r := generateNewBit s
    nextLoop n r.1 r.2

/-- `next`, round_constant.rs:156-164. -/
def grainNext (fuel : ℕ) (s : List Bool) : Option (Bool × List Bool) := do
  let r := generateNewBit s
  let s ← nextLoop fuel r.1 r.2
  pure (generateNewBit s)

/-- The loop of `next_byte`, round_constant.rs:123-128; `acc <<= 1` drops the top bit. -/
def byteLoop (fuel : ℕ) : ℕ → ℕ → List Bool → Option (ℕ × List Bool)
  | 0, acc, s => some (acc, s)
  | n + 1, acc, s => do
    let r ← grainNext fuel s
    byteLoop fuel n ((2 * acc) % 256 + (if r.1 then 1 else 0)) r.2

/-- `next_byte`, round_constant.rs:119-131. -/
def nextByte (fuel bitCount : ℕ) (s : List Bool) : Option (ℕ × List Bool) := byteLoop fuel bitCount 0 s

/-- The loop of `get_next_bytes`, round_constant.rs:146-148: this many bytes. -/
def bytesLoop (fuel : ℕ) : ℕ → List Bool → Option (List ℕ × List Bool)
  | 0, s => some ([], s)
  | n + 1, s => do
    let r ← nextByte fuel 8 s
    let q ← bytesLoop fuel n r.2
    pure (r.1 :: q.1, q.2)

/-- `get_next_bytes`, round_constant.rs:133-149, for a slice of `len + 1` bytes. -/
def getNextBytes (fuel fieldSize len : ℕ) (s : List Bool) : Option (List ℕ × List Bool) := do
  let remainder := fieldSize % 8
  let r ← nextByte fuel (if 0 < remainder then remainder else 8) s
  let q ← bytesLoop fuel len r.2
  pure (r.1 :: q.1, q.2)

/-- The `while` loop for one constant, round_constant.rs:43-66: 32 bytes are drawn until they are accepted. -/
def drawLoop {F : Type} (fromRandomBytes : List ℕ → Option F) (fuel fieldSize : ℕ) :
    ℕ → List Bool → Option (F × List Bool)
  | 0, _ => none
  | n + 1, s => do
    let r ← getNextBytes fuel fieldSize 31 s
    match fromRandomBytes r.1.reverse with
    | some f => pure (f, r.2)
    | none => drawLoop fromRandomBytes fuel fieldSize n r.2

/-- The `for` loop, round_constant.rs:42-67: this many constants. -/
def constantsLoop {F : Type} (fromRandomBytes : List ℕ → Option F) (fuel fieldSize : ℕ) :
    ℕ → List Bool → Option (List F × List Bool)
  | 0, s => some ([], s)
  | n + 1, s => do
    let r ← drawLoop fromRandomBytes fuel fieldSize fuel s
    let q ← constantsLoop fromRandomBytes fuel fieldSize n r.2
    pure (r.1 :: q.1, q.2)

/-- The initial sequence of `generate_constants`, round_constant.rs:28-35. -/
def initialSequence (field sbox fieldSize t rf rp : ℕ) : List Bool :=
  let s := appendBits [] 2 field
  let s := appendBits s 4 sbox
  let s := appendBits s 12 fieldSize
  let s := appendBits s 12 t
  let s := appendBits s 10 rf
  let s := appendBits s 10 rp
  appendBits s 30 0b111111111111111111111111111111

/-- `generate_constants`, round_constant.rs:12-72. `sizeInBits` is that of the field. The numbers are `u16`;
an overflow is a panic, as in a build with overflow checks. `none` says that the steps are used up. -/
def generateConstants {F : Type} (fromRandomBytes : List ℕ → Option F) (sizeInBits fuel : ℕ)
    (field sbox fieldSize t rf rp : ℕ) : Res (Option (List F)) := do
  let nBytes := (sizeInBits + 8 - 1) / 8
  assertR (nBytes = 32)
  assertR ((fieldSize + 7) / 8 = nBytes)
  assertR (rf + rp < 2 ^ 16)
  assertR ((rf + rp) * t < 2 ^ 16)
  let grain ← grainNew (initialSequence field sbox fieldSize t rf rp)
  assertR (field = 1)
  pure ((constantsLoop fromRandomBytes fuel fieldSize ((rf + rp) * t) grain).map Prod.fst)

end VO.Poseidon
