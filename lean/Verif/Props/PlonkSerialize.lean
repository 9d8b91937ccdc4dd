import Verif.Model.PlonkSerialize
import Verif.Props.PlonkTranscript
import Verif.Props.PlonkCircuit
import Verif.Props.PlonkHiding

/-
Property theorems C157: PLONK proofs, verifier keys and public inputs survive serialization
(`/repo/plonk-core/src/proof_system/proof.rs:40-113`, `widget/mod.rs:136-174`, `pi.rs:28-36`, `circuit.rs:24-41`).
-/

set_option linter.unusedSectionVars false

namespace VO.Plonk
open VO VO.Spec

variable {F C : Type} {cf : Codec F} {cg : Codec C}

theorem decMany_mem {α : Type} (c : Codec α) : ∀ (l : List α)
    (_ : ∀ a ∈ l, ∀ rest, c.dec (c.enc a ++ rest) = some (a, rest)) (rest : List UInt8),
    decMany c l.length (l.flatMap c.enc ++ rest) = some (l, rest)
  | [], _, _ => rfl
  | a :: l, h, rest => by
    rw [List.length_cons, decMany, List.flatMap_cons, List.append_assoc, h a (by simp)]
    simp only [Option.bind_eq_bind, Option.bind_some, decMany_mem c l (fun x hx => h x (by simp [hx]))]
    rfl

theorem dec_bind {α β : Type} {c : Codec α} (hc : Lawful c) (a : α) (r : List UInt8)
    (f : α × List UInt8 → Option β) : (c.dec (c.enc a ++ r) >>= f) = f (a, r) := by
  rw [hc]
  rfl

theorem decStr_encStr (s : String) (hs : s.utf8ByteSize < 2 ^ 64) (rest : List UInt8) :
    decStr (encStr s ++ rest) = some (s, rest) := by
  have hl : s.toUTF8.data.toList.length = s.utf8ByteSize := rfl
  have h1 := decMany_mem (⟨fun x => [x], decByte, fun _ => 1⟩ : Codec UInt8) s.toUTF8.data.toList
    (fun a _ r => rfl) rest
  have h2 : String.fromUTF8? ⟨s.toUTF8.data.toList.toArray⟩ = some s := by
    rw [Array.toArray_toList]
    exact dif_pos s.isValidUTF8
  have h3 : s.toUTF8.data.toList.flatMap (fun x => [x]) = s.toUTF8.data.toList := List.flatMap_singleton' _
  simp only [h3] at h1
  unfold decStr encStr
  rw [List.append_assoc, decU64_encU64 _ (hl ▸ hs)]
  simp only [Option.bind_eq_bind, Option.bind_some, h1, h2]
  rfl

theorem customCodec_ok (hf : Lawful cf) (e : String × F) (he : e.1.utf8ByteSize < 2 ^ 64) (rest : List UInt8) :
    (customCodec cf).dec ((customCodec cf).enc e ++ rest) = some (e, rest) := by
  simp only [customCodec, List.append_assoc, decStr_encStr _ he, Option.bind_eq_bind, Option.bind_some, hf _ _]
  rfl

theorem entryCodec_ok (hf : Lawful cf) (e : ℕ × F) (he : e.1 < 2 ^ 64) (rest : List UInt8) :
    (entryCodec cf).dec ((entryCodec cf).enc e ++ rest) = some (e, rest) := by
  simp only [entryCodec, List.append_assoc, decU64_encU64 _ he, Option.bind_eq_bind, Option.bind_some, hf _ _]
  rfl

theorem btreePut_last (k : ℕ) (v : F) : ∀ (l : List (ℕ × F)) (_ : ∀ e ∈ l, e.1 < k), btreePut k v l = l ++ [(k, v)]
  | [], _ => rfl
  | (k', x) :: l, h => by
    have := h (k', x) (by simp)
    simp only at this
    rw [btreePut, if_neg (by omega), if_neg (by omega), btreePut_last k v l (fun e he => h e (by simp [he]))]
    rfl

theorem foldl_put : ∀ (l acc : List (ℕ × F)) (_ : (acc ++ l).Pairwise fun a b => a.1 < b.1),
    l.foldl (fun m e => btreePut e.1 e.2 m) acc = acc ++ l
  | [], acc, _ => by simp
  | e :: l, acc, h => by
    rw [List.foldl_cons, btreePut_last _ _ _ fun a ha => (List.pairwise_append.1 h).2.2 a ha e (by simp),
      foldl_put l _ (by simpa using h)]
    simp

/-- Reading what was written for a map with positions below `2^64`. -/
theorem decPi_piBytes (hf : Lawful cf) {x : List (ℕ × F)} (hs : x.Pairwise fun a b => a.1 < b.1)
    (hl : x.length < 2 ^ 64) (hx : ∀ e ∈ x, e.1 < 2 ^ 64) (rest : List UInt8) :
    decPi cf (piBytes cf x ++ rest) = some (x, rest) := by
  have h1 := decMany_mem (entryCodec cf) x (fun a ha r => entryCodec_ok hf a (hx a ha) r) rest
  unfold decPi piBytes
  rw [List.append_assoc, decU64_encU64 _ hl]
  have h2 : (x.flatMap fun e => encU64 e.1 ++ cf.enc e.2) = x.flatMap (entryCodec cf).enc := rfl
  simp only [Option.bind_eq_bind, Option.bind_some, h2, h1, foldl_put x [] (by simpa using hs)]
  rfl

theorem decWit_ok (hg : Lawful cg) (w : WitVals C) (rest : List UInt8) :
    decWit cg (encWit cg w ++ rest) = some (w, rest) := by
  simp only [decWit, encWit, List.append_assoc, hg _ _, Option.bind_eq_bind, Option.bind_some]
  rfl

/-- The names in a proof and their number fit into a `u64`. -/
def NamesFit (e : Evals F) : Prop := e.custom.length < 2 ^ 64 ∧ ∀ x ∈ e.custom, x.1.utf8ByteSize < 2 ^ 64

theorem decEvals_ok (hf : Lawful cf) (e : Evals F) (he : NamesFit e) (rest : List UInt8) :
    decEvals cf (encEvals cf e ++ rest) = some (e, rest) := by
  have h1 : ∀ r, (vecCodec (customCodec cf)).dec ((vecCodec (customCodec cf)).enc e.custom ++ r)
      = some (e.custom, r) := by
    intro r
    simp only [vecCodec, List.append_assoc, decU64_encU64 _ he.1, Option.bind_eq_bind, Option.bind_some]
    exact decMany_mem _ _ (fun a ha r => customCodec_ok hf a (he.2 a ha) r) r
  simp only [decEvals, encEvals, List.append_assoc, decWit_ok hf, hf _ _, h1, Option.bind_eq_bind, Option.bind_some]
  rfl

end VO.Plonk

namespace VO
open Plonk Spec Spec.Plonk

variable {F : Type} {P : PCS F} {cf : Codec F} {cg : Codec P.Comm} {co : Codec P.OProof}

/-- **C157.** Reading a written proof gives the proof back and leaves what follows. -/
theorem C157_proof (hf : Lawful cf) (hg : Lawful cg) (ho : Lawful co) (p : PlonkProof P) (hp : NamesFit p.ev)
    (rest : List UInt8) : decProof cf cg co (encProof cf cg co p ++ rest) = some (p, rest) := by
  have ht : ![p.t 0, p.t 1, p.t 2, p.t 3, p.t 4, p.t 5, p.t 6, p.t 7] = p.t := by
    funext i
    fin_cases i <;> rfl
  simp only [encProof, List.append_assoc]
  unfold decProof
  refine (dec_bind hg _ _ _).trans ?_
  refine (dec_bind hg _ _ _).trans ?_
  refine (dec_bind hg _ _ _).trans ?_
  refine (dec_bind hg _ _ _).trans ?_
  refine (dec_bind hg _ _ _).trans ?_
  refine (dec_bind hg _ _ _).trans ?_
  refine (dec_bind hg _ _ _).trans ?_
  refine (dec_bind hg _ _ _).trans ?_
  refine (dec_bind hg _ _ _).trans ?_
  refine (dec_bind hg _ _ _).trans ?_
  refine (dec_bind hg _ _ _).trans ?_
  refine (dec_bind hg _ _ _).trans ?_
  refine (dec_bind hg _ _ _).trans ?_
  refine (dec_bind hg _ _ _).trans ?_
  refine (dec_bind hg _ _ _).trans ?_
  refine (dec_bind hg _ _ _).trans ?_
  refine (dec_bind hg _ _ _).trans ?_
  refine (dec_bind ho _ _ _).trans ?_
  refine (dec_bind ho _ _ _).trans ?_
  dsimp only
  rw [decEvals_ok hf _ hp, ht]
  rfl

/-- **C157.** The same for verifier keys. -/
theorem C157_key (hg : Lawful cg) (vk : VKey P) (hn : vk.n < 2 ^ 64) (rest : List UInt8) :
    decVKey cg (encVKey cg vk ++ rest) = some (vk, rest) := by
  simp only [encVKey, List.append_assoc]
  unfold decVKey
  rw [decU64_encU64 _ hn]
  refine (Option.bind_some _ _).trans ?_
  refine (dec_bind hg _ _ _).trans ?_
  refine (dec_bind hg _ _ _).trans ?_
  refine (dec_bind hg _ _ _).trans ?_
  refine (dec_bind hg _ _ _).trans ?_
  refine (dec_bind hg _ _ _).trans ?_
  refine (dec_bind hg _ _ _).trans ?_
  refine (dec_bind hg _ _ _).trans ?_
  refine (dec_bind hg _ _ _).trans ?_
  refine (dec_bind hg _ _ _).trans ?_
  refine (dec_bind hg _ _ _).trans ?_
  refine (dec_bind hg _ _ _).trans ?_
  refine (dec_bind hg _ _ _).trans ?_
  refine (dec_bind hg _ _ _).trans ?_
  refine (dec_bind hg _ _ _).trans ?_
  dsimp only
  rw [decWit_ok hg]
  refine (Option.bind_some _ _).trans ?_
  refine (dec_bind hg _ _ _).trans ?_
  dsimp only
  rw [decWit_ok hg]
  rfl

variable [Field F] [DecidableEq F]

/-- **C157.** Public inputs that were made with the public functions. -/
theorem C157_public_inputs (hf : Lawful cf) {pi : List (ℕ × F)} (h : PiReach pi) (hl : pi.length < 2 ^ 64)
    (hx : ∀ e ∈ pi, e.1 < 2 ^ 64) (rest : List UInt8) : decPi cf (piBytes cf pi ++ rest) = some (pi, rest) :=
  decPi_piBytes hf (C109_canonical h).1 hl hx rest

/-- **C157.** `VerifierData`. -/
theorem C157_verifier_data (hf : Lawful cf) (hg : Lawful cg) (vk : VKey P) (hn : vk.n < 2 ^ 64) {pi : List (ℕ × F)}
    (h : PiReach pi) (hl : pi.length < 2 ^ 64) (hx : ∀ e ∈ pi, e.1 < 2 ^ 64) (rest : List UInt8) :
    decVData cf cg (encVData cf cg vk pi ++ rest) = some ((vk, pi), rest) := by
  simp only [decVData, encVData, List.append_assoc, C157_key hg vk hn, C157_public_inputs hf h hl hx,
    Option.bind_eq_bind, Option.bind_some]
  rfl

/-- **C157.** Every proof that a prover returns can be written and read. -/
theorem C157_proved (hf : Lawful cf) (hg : Lawful cg) (ho : Lawful co) {K : PField F} {E : EdCurve F}
    {ro : Transcript F P.Comm → F} {s s' : Prover P} {r1 r2 : F × F × F × F} {p : PlonkProof P}
    (h : Prover.prove K E ro s r1 r2 = .ok (p, s')) (rest : List UInt8) :
    decProof cf cg co (encProof cf cg co p ++ rest) = some (p, rest) := by
  obtain ⟨pk, c1, h1, -⟩ := prove_inv h
  refine C157_proof hf hg ho p ?_ rest
  unfold proveWithPreprocessed at h1
  obtain ⟨D, -, h1⟩ := bind_okE h1
  obtain ⟨_, -, h1⟩ := bind_okE h1
  obtain ⟨_, -, h1⟩ := bind_okE h1
  obtain ⟨_, -, h1⟩ := bind_okE h1
  obtain ⟨⟨t, tC⟩, -, h1⟩ := bind_okE h1
  obtain ⟨⟨lin, e⟩, h2, h1⟩ := bind_okE h1
  obtain ⟨⟨_, _⟩, -, h1⟩ := bind_okE h1
  obtain rfl := Except.ok.inj h1
  unfold linearisation at h2
  obtain ⟨_, -, h2⟩ := bind_okE h2
  obtain ⟨_, -, h2⟩ := bind_okE h2
  obtain ⟨_, -, h2⟩ := bind_okE h2
  obtain ⟨rfl, rfl⟩ := Prod.mk.inj (Except.ok.inj h2)
  constructor
  · simp
  · intro x hx
    have hn : x.1 ∈ ["q_arith_eval", "q_c_eval", "q_l_eval", "q_r_eval", "q_hl_eval", "q_hr_eval", "q_h4_eval",
        "a_next_eval", "b_next_eval", "d_next_eval"] := by
      have := List.mem_map_of_mem (f := Prod.fst) hx
      simpa using this
    have : ∀ y ∈ ["q_arith_eval", "q_c_eval", "q_l_eval", "q_r_eval", "q_hl_eval", "q_hr_eval", "q_h4_eval",
        "a_next_eval", "b_next_eval", "d_next_eval"], y.utf8ByteSize < 20 := by decide +kernel
    exact lt_trans (this _ hn) (by norm_num)

/-- **C157.** So a verifier that gets key, public inputs and proof as bytes decides as one that gets the values. -/
theorem C157_verify (hf : Lawful cf) (hg : Lawful cg) (ho : Lawful co) (K : PField F) (E : EdCurve F)
    (ro : Transcript F P.Comm → F) (tr : Transcript F P.Comm) (vk : VKey P) (hn : vk.n < 2 ^ 64)
    {pi : List (ℕ × F)} (h : PiReach pi) (hl : pi.length < 2 ^ 64) (hx : ∀ e ∈ pi, e.1 < 2 ^ 64)
    (p : PlonkProof P) (hp : NamesFit p.ev) :
    (do
      let (d, _) ← decVData (P := P) cf cg (encVData cf cg vk pi)
      let (p, _) ← decProof (P := P) cf cg co (encProof cf cg co p)
      return plonkVerify K E P ro d.1 tr d.2 p) = some (plonkVerify K E P ro vk tr pi p) := by
  have h1 := C157_verifier_data hf hg vk hn h hl hx []
  have h2 := C157_proof hf hg ho p hp []
  rw [List.append_nil] at h1 h2
  simp only [h1, h2, Option.bind_eq_bind, Option.bind_some]
  rfl

/-! Concrete cases. -/

example : (customCodec codec97).enc ("ab", 5) = [2, 0, 0, 0, 0, 0, 0, 0, 97, 98, 5] := by decide +kernel

/-- Bytes that are not UTF-8 are not a name. -/
example : decStr [1, 0, 0, 0, 0, 0, 0, 0, 255] = none := by decide +kernel

/-- A proof with one name, over any commitment scheme whose commitments and openings have a codec. -/
example (p : PlonkProof pcs97) (co : Codec pcs97.OProof) (ho : Lawful co) :
    let q : PlonkProof pcs97 := { p with ev := { p.ev with custom := [("q_arith_eval", 5)] } }
    decProof codec97 codecPcs97 co (encProof codec97 codecPcs97 co q ++ [1, 2]) = some (q, [1, 2]) :=
  C157_proof codec97_faithful.1 codecPcs97_lawful ho _
    (by
      refine ⟨by simp, fun x hx => ?_⟩
      rw [List.mem_singleton.1 hx]
      exact lt_trans (show _ < 20 by decide +kernel) (by norm_num)) _

/-- Public inputs with a value, made by the public function. -/
example : decPi codec97 (piBytes codec97 [(2, 5), (7, 1)] ++ [9]) = some ([(2, 5), (7, 1)], [9]) := by decide +kernel

/-- Reading can give maps that the public functions never make: with a zero value; and other bytes for a map, with
positions in another order or repeated. -/
example : decPi codec97 (piBytes codec97 [(2, 0)]) = some ([(2, 0)], []) ∧ ¬ Canonical [(2, (0 : K97))] ∧
    decPi codec97 (piBytes codec97 [(7, 1), (2, 3), (2, 5)]) = some ([(2, 5), (7, 1)], []) := by
  refine ⟨by decide +kernel, fun h => h.2 (2, 0) (by simp) rfl, by decide +kernel⟩

end VO
