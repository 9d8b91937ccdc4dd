import Verif.Model.PlonkProof

/-
Model of the public input map `/repo/plonk-core/src/proof_system/pi.rs` and of the circuit interface
`/repo/plonk-core/src/circuit.rs`.
-/

namespace VO.Plonk

variable {F : Type} [Field F] [DecidableEq F]

/-! ### `pi.rs` -/

/-- What `to_field_elements` of an item returns (trait `ToConstraintField` of ark-ff). -/
abbrev PiItem (F : Type) := Option (List F)

/-- The inner loop of `extend`, pi.rs:91-97. -/
def piInsertAll (pi : List (ℕ × F)) (pos : ℕ) : List F → Res (List (ℕ × F))
  | [] => .ok pi
  | x :: xs => do
    let pi ← piInsert pi pos x
    piInsertAll pi (pos + 1) xs

/-- `extend`, pi.rs:79-99, from the item reached with `count`. Returns the map and the count. When
it fails the map is lost to the callers in pi.rs and in the composer: a single item fails before
anything is stored, and `from_val_pos` drops the map. `init_pos + count` does not wrap. -/
def piExtend (pi : List (ℕ × F)) (pos count : ℕ) : List (PiItem F) → Except PErr (List (ℕ × F) × ℕ)
  | [] => .ok (pi, count)
  | none :: _ => .error .invalidPublicInputValue
  | some l :: items => do
    let pi ← liftP (piInsertAll pi (pos + count) l)
    piExtend pi pos (count + l.length) items

/-- `add_input`, pi.rs:67-72. -/
def piAddInput (pi : List (ℕ × F)) (pos : ℕ) (item : PiItem F) : Except PErr (List (ℕ × F) × ℕ) :=
  piExtend pi pos 0 [item]

/-- `from_val_pos`, pi.rs:123-135. `zip_eq` panics when it reaches the end of one list only, after
the common part was processed. -/
def piFromValPos (pos : List ℕ) (vals : List (PiItem F)) : Except PErr (List (ℕ × F)) := do
  let pi ← (pos.zip vals).foldlM (fun pi e => do
    let r ← piAddInput pi e.1 e.2
    return r.1) []
  if pos.length = vals.length then .ok pi else .error .panic

/-- `get_pos`, pi.rs:138-140. -/
def piGetPos (pi : List (ℕ × F)) : List ℕ := pi.map (·.1)

/-- `get_vals`, pi.rs:143-145. -/
def piGetVals (pi : List (ℕ × F)) : List F := pi.map (·.2)

/-! ### `circuit.rs` -/

/-- A value of a type that implements `Circuit`, circuit.rs:209-289: the gadget (it can panic, or
return an error) and the padded size. Simplified: running the gadget does not change the value. -/
structure Circ (F : Type) where
  gadget : CM F (Except PErr Unit)
  size : ℕ

/-- The committer key after `PC::trim(u_params, s, 0, None)`: polynomials of degree at most `s`, that
is at most `s + 1` coefficients up to leading zeros. The verifier key does not depend on `s` (no
degree bounds are used). -/
def trimmed (P : PCS F) (s : ℕ) : PCS F where
  Comm := P.Comm
  OProof := P.OProof
  commit := fun p => if (polyFromVec p).length ≤ s + 1 then P.commit p else .error .pcError
  msm := P.msm
  openAt := fun ps x ξ =>
    if ps.all (fun p => decide ((polyFromVec p).length ≤ s + 1)) then P.openAt ps x ξ
    else .error .pcError
  check := P.check

/-- Whether trimming works: the universal parameters have degree `m`. -/
def trimOk (m s : ℕ) : Except PErr Unit := if s ≤ m then .ok () else .error .pcError

/-- A verifier key used with another trimming (the type does not change in the code). -/
def VKey.retrim {P : PCS F} {s : ℕ} (s' : ℕ) (v : VKey (trimmed P s)) : VKey (trimmed P s') :=
  ⟨v.n, v.sel, v.sig, v.tab⟩

/-- A proof used with another trimming (the type does not change in the code). -/
def PlonkProof.retrim {P : PCS F} {s : ℕ} (s' : ℕ) (p : PlonkProof (trimmed P s)) :
    PlonkProof (trimmed P s') :=
  ⟨p.a, p.b, p.c, p.d, p.z, p.f, p.h1, p.h2, p.z2, p.t, p.aw, p.saw, p.ev⟩

/-- A new composer filled by the gadget, circuit.rs:238-239, 243-244, 277-279, with the randomness
of the composer. -/
def runGadget (C : Circ F) (r : (F × F × F × F) × (F × F × F × F)) : Except PErr (Composer F) := do
  let c ← liftP (newComposer r.1 r.2)
  match C.gadget c with
  | .error _ => .error .panic
  | .ok (.error e, _) => .error e
  | .ok (.ok _, c') => .ok c'

/-- `compile`, circuit.rs:224-257. -/
def circuitCompile (K : PField F) (P : PCS F) (m : ℕ) (C : Circ F)
    (rp rv : (F × F × F × F) × (F × F × F × F)) :
    Except PErr (PKey F × VKey (trimmed P C.size) × List ℕ) := do
  trimOk m C.size
  let cp ← runGadget C rp
  let p ← Prover.preprocess K (P := trimmed P C.size) ⟨none, cp, [.init "CircuitCompilation"]⟩
  let cv ← runGadget C rv
  let v ← Verifier.preprocess K (P := trimmed P C.size) ⟨none, cv, [.init "CircuitCompilation"]⟩
  match p.key, v.key with
  | some pk, some vk => .ok (pk, vk, v.cs.intended_pi_pos)
  | _, _ => .error .panic

/-- `gen_proof`, circuit.rs:262-285. The key is set, so nothing is preprocessed and the transcript
holds only the label. -/
def circuitProve (K : PField F) (E : EdCurve F) (P : PCS F) (ro : Transcript F P.Comm → F) (m : ℕ)
    (C : Circ F) (pk : PKey F) (label : String) (r r' : (F × F × F × F) × (F × F × F × F)) :
    Except PErr (PlonkProof (trimmed P C.size) × List (ℕ × F)) := do
  trimOk m C.size
  let c ← runGadget C r
  let pi := c.public_inputs
  let (pr, _) ← Prover.prove K E (P := trimmed P C.size) ro ⟨some pk, c, [.init label]⟩ r'.1 r'.2
  return (pr, pi)

/-- `verify_proof`, circuit.rs:293-312; `padded_circuit_size` of a verifier key is the
next power of two of its `n` (widget/mod.rs:246-248). -/
def circuitVerify (K : PField F) (E : EdCurve F) (P : PCS F) (ro : Transcript F P.Comm → F) (m : ℕ)
    {s s' : ℕ} (vk : VKey (trimmed P s)) (pr : PlonkProof (trimmed P s')) (pi : List (ℕ × F))
    (label : String) (r : (F × F × F × F) × (F × F × F × F)) : Except PErr Unit := do
  let c ← liftP (newComposer r.1 r.2)
  let size := 2 ^ Nat.clog 2 vk.n
  trimOk m size
  Verifier.verify K E (P := trimmed P size) ro ⟨some (vk.retrim size), c, [.init label]⟩
    (pr.retrim size) pi

end VO.Plonk
