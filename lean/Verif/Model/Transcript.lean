import Verif.Model.Serialize
import Verif.Model.Snark
import Mathlib.Data.Nat.Size

/-
Bytes of a transcript and the hash to the field (`/repo/voproof/src/tools/mod.rs:119-129, 1001-1028`), which
`Model/Snark` leaves out: there a hash is a function of the list of hashed items.
-/

namespace VO

variable {F G1 : Type}

/-- The writer of one argument of `to_bytes!` (`serialize_uncompressed`, tools/mod.rs:1003-1011): the codecs of
field elements and commitments are parameters; vectors start with their length (`Vec<T>` of ark-serialize);
integers are `u64`. -/
def itemBytes (cf : Codec F) (cg : Codec G1) : Item F G1 → List UInt8
  | .fld a => cf.enc a
  | .cm c => cg.enc c
  | .flds l => (vecCodec cf).enc l
  | .nats l => encU64 l.length ++ l.flatMap encU64
  | .nat n => encU64 n

/-- `to_bytes!` with `push_to_vec!`, tools/mod.rs:1001-1019: all arguments are written to one buffer. -/
def toBytes (cf : Codec F) (cg : Codec G1) : List (Item F G1) → List UInt8
  | [] => []
  | i :: l => itemBytes cf cg i ++ toBytes cf cg l

/-- `Field::from_le_bytes_mod_order` on the digest, tools/mod.rs:128: the number with these bytes, the lowest
first, as an element of the prime field with `p` elements. -/
def fromLeBytesModOrder (p : ℕ) (b : List UInt8) : ZMod p := ((b.foldr (fun x acc => x.toNat + 256 * acc) 0 : ℕ) : ZMod p)

/-- `hash_to_field`, tools/mod.rs:124-129; SHA-256 is a parameter. -/
def hashToField (p : ℕ) (sha : List UInt8 → List UInt8) (b : List UInt8) : ZMod p :=
  fromLeBytesModOrder p (sha b)

/-- The size of the buffer of `challenge_scalar`, plonk-core/src/transcript.rs:40-41: `size_in_bits() / 8` bytes. -/
def challengeSize (p : ℕ) : ℕ := Nat.size p / 8

/-- `challenge_scalar`, plonk-core/src/transcript.rs:34-44, on the bytes `b` that the Merlin transcript gives:
`from_random_bytes` reads them as a number, the lowest byte first, drops the bits above the length of the modulus,
and is `None` when the number is not below the modulus; `unwrap` panics then. -/
def challengeScalar (p : ℕ) (b : List UInt8) : Res (ZMod p) :=
  let x := b.foldr (fun x acc => x.toNat + 256 * acc) 0 % 2 ^ Nat.size p
  if x < p then .ok (x : ZMod p) else .error .panic

end VO
