import Verif.Model.PlonkCircuit

/-
Model of the rest of `/repo/plonk-core/src/proof_system/prover.rs` and `verifier.rs` (keyed transcripts,
clearing, reuse of a prover) and of the end-to-end tester of gadgets,
`/repo/plonk-core/src/constraint_system/helper.rs`.
-/

namespace VO.Plonk

variable {F : Type} [Field F] [DecidableEq F]

/-- `Prover::key_transcript`, prover.rs:148-150. -/
def Prover.keyTranscript {P : PCS F} (s : Prover P) (label message : String) : Prover P :=
  { s with tr := s.tr ++ [.user label message] }

/-- `Verifier::key_transcript`, verifier.rs:101-103. -/
def Verifier.keyTranscript {P : PCS F} (s : Verifier P) (label message : String) : Verifier P :=
  { s with tr := s.tr ++ [.user label message] }

/-- `Prover::clear_witness`, prover.rs:129-131, with the randomness of the new composer. -/
def Prover.clearWitness {P : PCS F} (s : Prover P) (r1 r2 : F × F × F × F) : Res (Prover P) := do
  let c ← newComposer r1 r2
  return { s with cs := c }

/-- `Prover::clear`, prover.rs:137-141: the label given to `new` is not kept. -/
def Prover.clear {P : PCS F} (s : Prover P) (r1 r2 : F × F × F × F) : Res (Prover P) := do
  let s ← s.clearWitness r1 r2
  return { s with key := none, tr := [.init "plonk"] }

/-- `Prover::default`, prover.rs:650-652. -/
def Prover.default (P : PCS F) (r1 r2 : F × F × F × F) : Res (Prover P) := Prover.new P "plonk" r1 r2

/-- `Verifier::default`, verifier.rs:128-130. -/
def Verifier.default (P : PCS F) (r1 r2 : F × F × F × F) : Res (Verifier P) :=
  Verifier.new P "plonk" r1 r2

/-- A gadget on the composer of a new prover or verifier (helper.rs:58 and 83, `gadget(prover.mut_cs())`),
with the randomness of the composer. -/
def fill (g : CM F Unit) (r : (F × F × F × F) × (F × F × F × F)) : Except PErr (Composer F) := do
  let c ← liftP (newComposer r.1 r.2)
  match g c with
  | .error _ => .error .panic
  | .ok (_, c') => .ok c'

/-- The prover of `gadget_tester`, helper.rs:52-72, on the filled composer, with a commitment key for
degree `s`. -/
def testerProve (K : PField F) (E : EdCurve F) (P : PCS F) (ro : Transcript F P.Comm → F) (m s : ℕ)
    (c : Composer F) (r : (F × F × F × F) × (F × F × F × F)) :
    Except PErr (PlonkProof (trimmed P s) × List (ℕ × F)) := do
  trimOk m s
  let p ← Prover.preprocess K (P := trimmed P s)
    (Prover.keyTranscript ⟨none, c, [.init "demo"]⟩ "key" "additional seed information")
  let pi := p.cs.public_inputs
  let (pr, _) ← Prover.prove K E (P := trimmed P s) ro p r.1 r.2
  return (pr, pi)

/-- The verifier of `gadget_tester`, helper.rs:77-93, on the filled composer, with a commitment key for
degree `s'`. -/
def testerVerify (K : PField F) (E : EdCurve F) (P : PCS F) (ro : Transcript F P.Comm → F) (m s' : ℕ)
    {s : ℕ} (c : Composer F) (pr : PlonkProof (trimmed P s)) (pi : List (ℕ × F)) : Except PErr Unit := do
  trimOk m s'
  let v ← Verifier.preprocess K (P := trimmed P s')
    (Verifier.keyTranscript ⟨none, c, [.init "demo"]⟩ "key" "additional seed information")
  Verifier.verify K E (P := trimmed P s') ro v (pr.retrim s') pi

/-- `gadget_tester`, helper.rs:36-95, with parameters `P` of degree `2 * n` and the randomness of the
composers. The gadget is run twice and could do something else the second time: `g'`. -/
def gadgetTester (K : PField F) (E : EdCurve F) (P : PCS F) (ro : Transcript F P.Comm → F)
    (g g' : CM F Unit) (n : ℕ) (rp rp' rv : (F × F × F × F) × (F × F × F × F)) :
    Except PErr ((s : ℕ) × PlonkProof (trimmed P s)) := do
  let c ← fill g rp
  let (pr, pi) ← testerProve K E P ro (2 * n) (circuitBound c) c rp'
  let cv ← fill g' rv
  testerVerify K E P ro (2 * n) (circuitBound cv) cv pr pi
  return ⟨circuitBound c, pr⟩

/-- The loop of `dummy_gadget`, helper.rs:27-30. -/
def dummyLoop (one : Var) : ℕ → CM F Unit
  | 0 => pure ()
  | k + 1 => do
    let _ ← arithmeticGate ⟨some (one, one, none), none, 0, (1, 1), -1, 0, none⟩
    dummyLoop one k

/-- `dummy_gadget`, helper.rs:20-31. -/
def dummyGadget (n : ℕ) : CM F Unit := do
  let one ← addInput 1
  dummyLoop one n

end VO.Plonk
