import Verif.Model.Kzg

/-
Model of the hand-written (de)serialization of KZG keys
(`/repo/voproof/src/kzg/data_structures.rs:71-114, 153-201`) on top of the element codecs of
`ark-serialize`, which are parameters.  The compression and validation modes are fixed.
-/

namespace VO

/-- An element codec of ark-serialize: writer, reader (value and remaining input, `none` for any
error) and declared size. -/
structure Codec (α : Type) where
  enc : α → List UInt8
  dec : List UInt8 → Option (α × List UInt8)
  size : α → ℕ

/-- `u64` in 8 little-endian bytes (ark-serialize). -/
def encU64 (n : ℕ) : List UInt8 := (List.range 8).map (fun i => UInt8.ofNat (n / 256 ^ i))

/-- Reader of `encU64`. -/
def decU64 (b : List UInt8) : Option (ℕ × List UInt8) :=
  if b.length < 8 then none
  else some ((b.take 8).foldr (fun x acc => x.toNat + 256 * acc) 0, b.drop 8)

/-- Reads `n` elements one after the other. -/
def decMany {α : Type} (c : Codec α) : ℕ → List UInt8 → Option (List α × List UInt8)
  | 0, b => some ([], b)
  | n + 1, b => do
    let (a, b) ← c.dec b
    let (l, b) ← decMany c n b
    return (a :: l, b)

/-- `Vec<T>` (ark-serialize): the length as `u64`, then the elements. -/
def vecCodec {α : Type} (c : Codec α) : Codec (List α) where
  enc l := encU64 l.length ++ l.flatMap c.enc
  dec b := do
    let (n, b) ← decU64 b
    decMany c n b
  size l := 8 + (l.map c.size).sum

variable {G1 G2 : Type}

/-- `UniversalParams::serialize_with_mode`, kzg/data_structures.rs:78-88. -/
def encParams (c1 : Codec G1) (c2 : Codec G2) (pp : UniversalParams G1 G2) : List UInt8 :=
  (vecCodec c1).enc pp.powersOfG ++ c2.enc pp.h ++ c2.enc pp.betaH

/-- `UniversalParams::serialized_size`, kzg/data_structures.rs:72-76. -/
def sizeParams (c1 : Codec G1) (c2 : Codec G2) (pp : UniversalParams G1 G2) : ℕ :=
  (vecCodec c1).size pp.powersOfG + c2.size pp.h + c2.size pp.betaH

/-- `UniversalParams::deserialize_with_mode`, kzg/data_structures.rs:91-114: the prepared points are
recomputed from the points read. -/
def decParams (c1 : Codec G1) (c2 : Codec G2) (b : List UInt8) :
    Option (UniversalParams G1 G2 × List UInt8) := do
  let (powersOfG, b) ← (vecCodec c1).dec b
  let (h, b) ← c2.dec b
  let (betaH, b) ← c2.dec b
  return (⟨powersOfG, h, betaH, h, betaH⟩, b)

/-- `VerifierKey::serialize_with_mode`, kzg/data_structures.rs:154-162. -/
def encVk (c1 : Codec G1) (c2 : Codec G2) (vk : VerifierKey G1 G2) : List UInt8 :=
  c1.enc vk.g ++ c2.enc vk.h ++ c2.enc vk.betaH

/-- `VerifierKey::serialized_size`, kzg/data_structures.rs:164-168. -/
def sizeVk (c1 : Codec G1) (c2 : Codec G2) (vk : VerifierKey G1 G2) : ℕ :=
  c1.size vk.g + c2.size vk.h + c2.size vk.betaH

/-- `VerifierKey::deserialize_with_mode`, kzg/data_structures.rs:182-201. -/
def decVk (c1 : Codec G1) (c2 : Codec G2) (b : List UInt8) :
    Option (VerifierKey G1 G2 × List UInt8) := do
  let (g, b) ← c1.dec b
  let (h, b) ← c2.dec b
  let (betaH, b) ← c2.dec b
  return (⟨g, h, betaH, h, betaH⟩, b)

end VO
