import Verif.Model.PlonkTranscript

/-
Serialization of PLONK proofs, verifier keys and public inputs: the implementations derived with
`CanonicalSerialize` and `CanonicalDeserialize` (`/repo/plonk-core/src/proof_system/proof.rs:40-113`,
`linearisation_poly.rs:29-158`, `widget/mod.rs:136-174`, `widget/arithmetic.rs:106-138`, `widget/lookup.rs:215-231`,
`permutation.rs:298-313`, `pi.rs:28-36`, `circuit.rs:24-41`) write and read the fields in the order of their
declaration. The codecs of field elements, commitments and opening proofs are parameters. Declared sizes are not
modelled.
-/

namespace VO.Plonk

variable {F C O : Type}

/-- `u8`. -/
def decByte : List UInt8 → Option (UInt8 × List UInt8)
  | [] => none
  | b :: l => some (b, l)

/-- `String` (ark-serialize): its UTF-8 bytes as a vector; reading fails for other bytes. -/
def encStr (s : String) : List UInt8 := encU64 s.toUTF8.data.toList.length ++ s.toUTF8.data.toList

/-- Reader of `encStr`. -/
def decStr (b : List UInt8) : Option (String × List UInt8) := do
  let (n, b) ← decU64 b
  let (l, b) ← decMany ⟨fun x => [x], decByte, fun _ => 1⟩ n b
  let s ← String.fromUTF8? ⟨l.toArray⟩
  return (s, b)

/-- A pair `(String, F)`, linearisation_poly.rs:111. -/
def customCodec (cf : Codec F) : Codec (String × F) where
  enc e := encStr e.1 ++ cf.enc e.2
  dec b := do
    let (s, b) ← decStr b
    let (x, b) ← cf.dec b
    return ((s, x), b)
  size e := 8 + e.1.toUTF8.data.toList.length + cf.size e.2

/-- An entry of a `BTreeMap<usize, F>`, pi.rs:34-35; `usize` is written as `u64`. -/
def entryCodec (cf : Codec F) : Codec (ℕ × F) where
  enc e := encU64 e.1 ++ cf.enc e.2
  dec b := do
    let (k, b) ← decU64 b
    let (x, b) ← cf.dec b
    return ((k, x), b)
  size e := 8 + cf.size e.2

/-- `BTreeMap::insert`, on the list of entries in key order; the value of a key that is present is replaced. -/
def btreePut (pos : ℕ) (val : F) : List (ℕ × F) → List (ℕ × F)
  | [] => [(pos, val)]
  | (k, x) :: l =>
    if pos < k then (pos, val) :: (k, x) :: l
    else if pos = k then (k, val) :: l
    else (k, x) :: btreePut pos val l

/-- Reader of `PublicInputs` (pi.rs:28-36; ark-serialize for `BTreeMap`): the entries are inserted one after the
other. -/
def decPi (cf : Codec F) (b : List UInt8) : Option (List (ℕ × F) × List UInt8) := do
  let (n, b) ← decU64 b
  let (l, b) ← decMany (entryCodec cf) n b
  return (l.foldl (fun m e => btreePut e.1 e.2 m) [], b)

/-- Four values: `WireEvaluations`, linearisation_poly.rs:31-46, `permutation::VerifierKey`, permutation.rs:298-313,
and the table columns, widget/lookup.rs:223-230. -/
def encWit (c : Codec C) (w : WitVals C) : List UInt8 := c.enc w.a ++ c.enc w.b ++ c.enc w.c ++ c.enc w.d

/-- Reader of `encWit`. -/
def decWit (c : Codec C) (b : List UInt8) : Option (WitVals C × List UInt8) := do
  let (x1, b) ← c.dec b
  let (x2, b) ← c.dec b
  let (x3, b) ← c.dec b
  let (x4, b) ← c.dec b
  return (⟨x1, x2, x3, x4⟩, b)

/-- `ProofEvaluations`, linearisation_poly.rs:29-158: wires, `PermutationEvaluations`, `LookupEvaluations`,
`CustomEvaluations`. -/
def encEvals (cf : Codec F) (e : Evals F) : List UInt8 :=
  encWit cf e.w ++ encWit cf ⟨e.s1, e.s2, e.s3, e.perm⟩
    ++ (cf.enc e.qLookup ++ cf.enc e.z2Next ++ cf.enc e.h1 ++ cf.enc e.h1Next ++ cf.enc e.h2 ++ cf.enc e.f
      ++ cf.enc e.table ++ cf.enc e.tableNext)
    ++ (vecCodec (customCodec cf)).enc e.custom

/-- Reader of `encEvals`. -/
def decEvals (cf : Codec F) (b : List UInt8) : Option (Evals F × List UInt8) := do
  let (w, b) ← decWit cf b
  let (s, b) ← decWit cf b
  let (qLookup, b) ← cf.dec b
  let (z2Next, b) ← cf.dec b
  let (h1, b) ← cf.dec b
  let (h1Next, b) ← cf.dec b
  let (h2, b) ← cf.dec b
  let (f, b) ← cf.dec b
  let (table, b) ← cf.dec b
  let (tableNext, b) ← cf.dec b
  let (custom, b) ← (vecCodec (customCodec cf)).dec b
  return (⟨w, s.a, s.b, s.c, s.d, qLookup, z2Next, h1, h1Next, h2, f, table, tableNext, custom⟩, b)

/-- `Proof`, proof.rs:40-113. -/
def encProof {P : PCS F} (cf : Codec F) (cg : Codec P.Comm) (co : Codec P.OProof) (p : PlonkProof P) : List UInt8 :=
  cg.enc p.a ++ cg.enc p.b ++ cg.enc p.c ++ cg.enc p.d ++ cg.enc p.z ++ cg.enc p.f ++ cg.enc p.h1 ++ cg.enc p.h2
    ++ cg.enc p.z2 ++ (cg.enc (p.t 0) ++ cg.enc (p.t 1) ++ cg.enc (p.t 2) ++ cg.enc (p.t 3) ++ cg.enc (p.t 4)
      ++ cg.enc (p.t 5) ++ cg.enc (p.t 6) ++ cg.enc (p.t 7))
    ++ co.enc p.aw ++ co.enc p.saw ++ encEvals cf p.ev

/-- Reader of `encProof`. -/
def decProof {P : PCS F} (cf : Codec F) (cg : Codec P.Comm) (co : Codec P.OProof) (b : List UInt8) :
    Option (PlonkProof P × List UInt8) := do
  let (xa, b) ← cg.dec b
  let (xb, b) ← cg.dec b
  let (xc, b) ← cg.dec b
  let (xd, b) ← cg.dec b
  let (z, b) ← cg.dec b
  let (f, b) ← cg.dec b
  let (h1, b) ← cg.dec b
  let (h2, b) ← cg.dec b
  let (z2, b) ← cg.dec b
  let (t1, b) ← cg.dec b
  let (t2, b) ← cg.dec b
  let (t3, b) ← cg.dec b
  let (t4, b) ← cg.dec b
  let (t5, b) ← cg.dec b
  let (t6, b) ← cg.dec b
  let (t7, b) ← cg.dec b
  let (t8, b) ← cg.dec b
  let (aw, b) ← co.dec b
  let (saw, b) ← co.dec b
  let (ev, b) ← decEvals cf b
  return (⟨xa, xb, xc, xd, z, f, h1, h2, z2, ![t1, t2, t3, t4, t5, t6, t7, t8], aw, saw, ev⟩, b)

/-- `VerifierKey`, widget/mod.rs:145-174, with `arithmetic::VerifierKey` (widget/arithmetic.rs:106-138), the keys for
the permutation (permutation.rs:298-313) and the lookups (widget/lookup.rs:215-231). -/
def encVKey {P : PCS F} (cg : Codec P.Comm) (vk : VKey P) : List UInt8 :=
  encU64 vk.n
    ++ (cg.enc vk.sel.m ++ cg.enc vk.sel.l ++ cg.enc vk.sel.r ++ cg.enc vk.sel.o ++ cg.enc vk.sel.q4 ++ cg.enc vk.sel.c
      ++ cg.enc vk.sel.hl ++ cg.enc vk.sel.hr ++ cg.enc vk.sel.h4 ++ cg.enc vk.sel.arith)
    ++ cg.enc vk.sel.range ++ cg.enc vk.sel.logic ++ cg.enc vk.sel.fixed ++ cg.enc vk.sel.var
    ++ encWit cg vk.sig ++ (cg.enc vk.sel.lookup ++ encWit cg vk.tab)

/-- Reader of `encVKey`. -/
def decVKey {P : PCS F} (cg : Codec P.Comm) (b : List UInt8) : Option (VKey P × List UInt8) := do
  let (n, b) ← decU64 b
  let (m, b) ← cg.dec b
  let (l, b) ← cg.dec b
  let (r, b) ← cg.dec b
  let (o, b) ← cg.dec b
  let (q4, b) ← cg.dec b
  let (c, b) ← cg.dec b
  let (hl, b) ← cg.dec b
  let (hr, b) ← cg.dec b
  let (h4, b) ← cg.dec b
  let (arith, b) ← cg.dec b
  let (range, b) ← cg.dec b
  let (logic, b) ← cg.dec b
  let (fixed, b) ← cg.dec b
  let (var, b) ← cg.dec b
  let (sig, b) ← decWit cg b
  let (lookup, b) ← cg.dec b
  let (tab, b) ← decWit cg b
  return (⟨n, { m, l, r, o, q4, c, hl, hr, h4, arith, range, logic, fixed, var, lookup }, sig, tab⟩, b)

/-- `VerifierData`, circuit.rs:31-41. -/
def encVData {P : PCS F} (cf : Codec F) (cg : Codec P.Comm) (vk : VKey P) (pi : List (ℕ × F)) : List UInt8 :=
  encVKey cg vk ++ piBytes cf pi

/-- Reader of `encVData`. -/
def decVData {P : PCS F} (cf : Codec F) (cg : Codec P.Comm) (b : List UInt8) :
    Option ((VKey P × List (ℕ × F)) × List UInt8) := do
  let (vk, b) ← decVKey cg b
  let (pi, b) ← decPi cf b
  return ((vk, pi), b)

end VO.Plonk
