import Verif.Lemmas.PlonkTranscript
import Verif.Props.Transcript
import Verif.Spec.PlonkKzg

/-
Property theorems C156: the messages given to Merlin determine the transcript of a PLONK proof
(`/repo/plonk-core/src/transcript.rs:28-50`, `proof_system/prover.rs:175-560`, `proof_system/proof.rs:139-400`).
-/

set_option linter.unusedSectionVars false

namespace VO.Plonk
open VO VO.Spec VO.Spec.Plonk

variable {F : Type} [Field F] [DecidableEq F]

/-- The types of the operations of prover and verifier up to the first evaluation. -/
def protocol : List PKind :=
  .pi :: List.replicate 4 .comm ++ List.replicate 2 .sc ++ List.replicate 3 .comm ++ List.replicate 8 .sc ++ [.comm]
    ++ List.replicate 12 .sc ++ List.replicate 8 .comm ++ List.replicate 2 .sc

section step
variable {C : Type} {cf : Codec F} {cg : Codec C} {size : ℕ} {tr0 tr : Transcript F C} {ks rest : List PKind}
  {ro ro' : Transcript F C → F}

theorem efits_pi {x : List (ℕ × F)} (h1 : x.length < 2 ^ 64) (h2 : ∀ e ∈ x, e.1 < 2 ^ 64) :
    ∀ i ∈ [(.pi "pi" x : TEntry F C)], EFits i := by
  intro i hi
  rw [List.mem_singleton] at hi
  subst hi
  exact ⟨h1, h2⟩

theorem challengeAppend_agree (hro : ∀ tr rest, Sh tr0 ks rest tr → ro' tr = ro tr)
    (h : Sh tr0 ks (.sc :: .sc :: rest) tr) (l l' : String) :
    challengeAppend ro' tr l l' = challengeAppend ro tr l l' ∧
      Sh tr0 ks rest (challengeAppend ro tr l l').2 := by
  have h1 : Sh tr0 ks (.sc :: rest) (tr ++ [.chal l]) := h.append (rest' := .sc :: rest) rfl (by simp [EFits])
  refine ⟨by simp only [challengeAppend, challenge, hro _ _ h1], ?_⟩
  exact h1.append (l := [.scalar l' (ro (tr ++ [.chal l]))]) rfl (by simp [EFits])

theorem challenge_agree (hro : ∀ tr rest, Sh tr0 ks rest tr → ro' tr = ro tr) (h : Sh tr0 ks [] tr) (l : String) :
    challenge ro' tr l = challenge ro tr l ∧ Sh tr0 ks [] (challenge ro tr l).2 := by
  have h1 : Sh tr0 ks [] (tr ++ [.chal l]) := h.tail (by simp [pkind])
  exact ⟨by simp only [challenge, hro _ _ h1], h1⟩

theorem appendEvals_sh (h : Sh tr0 ks [] tr) (e : Evals F) : Sh tr0 ks [] (appendEvals tr e) := by
  unfold appendEvals
  refine (h.tail (by simp [pkind])).tail ?_
  intro i hi
  obtain ⟨x, -, rfl⟩ := List.mem_map.1 hi
  rfl

end step

section
variable {P : PCS F} {tr0 tr : Transcript F P.Comm} {ks : List PKind} {ro ro' : Transcript F P.Comm → F}

theorem verifierChals_agree (hro : ∀ tr rest, Sh tr0 ks rest tr → ro' tr = ro tr)
    (h : Sh tr0 ks protocol tr) {pi : List (ℕ × F)} (h1 : pi.length < 2 ^ 64) (h2 : ∀ e ∈ pi, e.1 < 2 ^ 64)
    (pr : PlonkProof P) : verifierChals ro' tr pi pr = verifierChals ro tr pi pr := by
  have hs := (h.append (l := [.pi "pi" pi]) rfl (efits_pi h1 h2)).append
    (l := [.comm "w_l" pr.a, .comm "w_r" pr.b, .comm "w_o" pr.c, .comm "w_4" pr.d]) rfl (by simp [EFits])
  unfold verifierChals
  dsimp only
  obtain ⟨e, hs⟩ := challengeAppend_agree hro hs "zeta" "zeta"
  rw [e]
  generalize challengeAppend ro _ "zeta" "zeta" = q at hs ⊢
  obtain ⟨zeta, tr⟩ := q
  have hs := (hs.append (l := [.comm "f" pr.f]) rfl (by simp [EFits])).append
    (l := [.comm "h1" pr.h1, .comm "h2" pr.h2]) rfl (by simp [EFits])
  obtain ⟨e, hs⟩ := challengeAppend_agree hro hs "beta" "beta"
  dsimp only
  rw [e]
  generalize challengeAppend ro _ "beta" "beta" = q at hs ⊢
  obtain ⟨beta, tr⟩ := q
  obtain ⟨e, hs⟩ := challengeAppend_agree hro hs "gamma" "gamma"
  dsimp only at e hs ⊢
  rw [e]
  generalize challengeAppend ro _ "gamma" "gamma" = q at hs ⊢
  obtain ⟨gamma, tr⟩ := q
  obtain ⟨e, hs⟩ := challengeAppend_agree hro hs "delta" "delta"
  dsimp only at e hs ⊢
  rw [e]
  generalize challengeAppend ro _ "delta" "delta" = q at hs ⊢
  obtain ⟨delta, tr⟩ := q
  obtain ⟨e, hs⟩ := challengeAppend_agree hro hs "epsilon" "epsilon"
  dsimp only at e hs ⊢
  rw [e]
  generalize challengeAppend ro _ "epsilon" "epsilon" = q at hs ⊢
  obtain ⟨epsilon, tr⟩ := q
  have hs := hs.append (l := [.comm "z" pr.z]) rfl (by simp [EFits])
  obtain ⟨e, hs⟩ := challengeAppend_agree hro hs "alpha" "alpha"
  dsimp only at e hs ⊢
  rw [e]
  generalize challengeAppend ro _ "alpha" "alpha" = q at hs ⊢
  obtain ⟨alpha, tr⟩ := q
  obtain ⟨e, hs⟩ := challengeAppend_agree hro hs "range separation challenge" "range seperation challenge"
  dsimp only at e hs ⊢
  rw [e]
  generalize challengeAppend ro _ "range separation challenge" "range seperation challenge" = q at hs ⊢
  obtain ⟨range, tr⟩ := q
  obtain ⟨e, hs⟩ := challengeAppend_agree hro hs "logic separation challenge" "logic seperation challenge"
  dsimp only at e hs ⊢
  rw [e]
  generalize challengeAppend ro _ "logic separation challenge" "logic seperation challenge" = q at hs ⊢
  obtain ⟨logic, tr⟩ := q
  obtain ⟨e, hs⟩ := challengeAppend_agree hro hs "fixed base separation challenge" "fixed base separation challenge"
  dsimp only at e hs ⊢
  rw [e]
  generalize challengeAppend ro _ "fixed base separation challenge" "fixed base separation challenge" = q at hs ⊢
  obtain ⟨fixed, tr⟩ := q
  obtain ⟨e, hs⟩ := challengeAppend_agree hro hs "variable base separation challenge"
    "variable base separation challenge"
  dsimp only at e hs ⊢
  rw [e]
  generalize challengeAppend ro _ "variable base separation challenge" "variable base separation challenge" = q at hs ⊢
  obtain ⟨var, tr⟩ := q
  obtain ⟨e, hs⟩ := challengeAppend_agree hro hs "lookup separation challenge" "lookup separation challenge"
  dsimp only at e hs ⊢
  rw [e]
  generalize challengeAppend ro _ "lookup separation challenge" "lookup separation challenge" = q at hs ⊢
  obtain ⟨lookup, tr⟩ := q
  have hs := hs.append (l := [.comm "t_1" (pr.t 0), .comm "t_2" (pr.t 1), .comm "t_3" (pr.t 2),
    .comm "t_4" (pr.t 3), .comm "t_5" (pr.t 4), .comm "t_6" (pr.t 5), .comm "t_7" (pr.t 6),
    .comm "t_8" (pr.t 7)]) rfl (by simp [EFits])
  obtain ⟨e, hs⟩ := challengeAppend_agree hro hs "z" "z"
  dsimp only at e hs ⊢
  rw [e]
  generalize challengeAppend ro _ "z" "z" = q at hs ⊢
  obtain ⟨z, tr⟩ := q
  have hs := appendEvals_sh hs pr.ev
  obtain ⟨e, hs⟩ := challenge_agree hro hs "aggregate_witness"
  dsimp only at e hs ⊢
  rw [e]
  generalize challenge ro _ "aggregate_witness" = q at hs ⊢
  obtain ⟨aw, tr⟩ := q
  obtain ⟨e, hs⟩ := challenge_agree hro hs "aggregate_witness"
  dsimp only at e hs ⊢
  rw [e]

/-- The prover takes the same challenges as well. -/
theorem prove_agree (hro : ∀ tr rest, Sh tr0 ks rest tr → ro' tr = ro tr)
    (h : Sh tr0 ks protocol tr) (K : PField F) (E : EdCurve F) (c : Composer F) (pk : PKey F)
    (h1 : c.public_inputs.length < 2 ^ 64) (h2 : ∀ e ∈ c.public_inputs, e.1 < 2 ^ 64) :
    proveWithPreprocessed K E P ro' c pk tr = proveWithPreprocessed K E P ro c pk tr := by
  have hs := h.append (l := [.pi "pi" c.public_inputs]) rfl (efits_pi h1 h2)
  unfold proveWithPreprocessed
  refine bind_congr fun D => ?_
  refine bind_congr fun r1 => ?_
  have hs := hs.append
    (l := [.comm "w_l" r1.c.a, .comm "w_r" r1.c.b, .comm "w_o" r1.c.c, .comm "w_4" r1.c.d]) rfl (by simp [EFits])
  obtain ⟨e, hs⟩ := challengeAppend_agree hro hs "zeta" "zeta"
  dsimp only at e hs ⊢
  rw [e]
  generalize challengeAppend ro _ "zeta" "zeta" = q at hs ⊢
  obtain ⟨zeta, tr⟩ := q
  refine bind_congr fun r2 => ?_
  have hs := (hs.append (l := [.comm "f" r2.fC]) rfl (by simp [EFits])).append
    (l := [.comm "h1" r2.h1C, .comm "h2" r2.h2C]) rfl (by simp [EFits])
  obtain ⟨e, hs⟩ := challengeAppend_agree hro hs "beta" "beta"
  dsimp only at e hs ⊢
  rw [e]
  generalize challengeAppend ro _ "beta" "beta" = q at hs ⊢
  obtain ⟨beta, tr⟩ := q
  obtain ⟨e, hs⟩ := challengeAppend_agree hro hs "gamma" "gamma"
  dsimp only at e hs ⊢
  rw [e]
  generalize challengeAppend ro _ "gamma" "gamma" = q at hs ⊢
  obtain ⟨gamma, tr⟩ := q
  obtain ⟨e, hs⟩ := challengeAppend_agree hro hs "delta" "delta"
  dsimp only at e hs ⊢
  rw [e]
  generalize challengeAppend ro _ "delta" "delta" = q at hs ⊢
  obtain ⟨delta, tr⟩ := q
  obtain ⟨e, hs⟩ := challengeAppend_agree hro hs "epsilon" "epsilon"
  dsimp only at e hs ⊢
  rw [e]
  generalize challengeAppend ro _ "epsilon" "epsilon" = q at hs ⊢
  obtain ⟨epsilon, tr⟩ := q
  refine bind_congr fun r3 => ?_
  have hs := hs.append (l := [.comm "z" r3.zC]) rfl (by simp [EFits])
  obtain ⟨e, hs⟩ := challengeAppend_agree hro hs "alpha" "alpha"
  dsimp only at e hs ⊢
  rw [e]
  generalize challengeAppend ro _ "alpha" "alpha" = q at hs ⊢
  obtain ⟨alpha, tr⟩ := q
  obtain ⟨e, hs⟩ := challengeAppend_agree hro hs "range separation challenge" "range seperation challenge"
  dsimp only at e hs ⊢
  rw [e]
  generalize challengeAppend ro _ "range separation challenge" "range seperation challenge" = q at hs ⊢
  obtain ⟨range, tr⟩ := q
  obtain ⟨e, hs⟩ := challengeAppend_agree hro hs "logic separation challenge" "logic seperation challenge"
  dsimp only at e hs ⊢
  rw [e]
  generalize challengeAppend ro _ "logic separation challenge" "logic seperation challenge" = q at hs ⊢
  obtain ⟨logic, tr⟩ := q
  obtain ⟨e, hs⟩ := challengeAppend_agree hro hs "fixed base separation challenge" "fixed base separation challenge"
  dsimp only at e hs ⊢
  rw [e]
  generalize challengeAppend ro _ "fixed base separation challenge" "fixed base separation challenge" = q at hs ⊢
  obtain ⟨fixed, tr⟩ := q
  obtain ⟨e, hs⟩ := challengeAppend_agree hro hs "variable base separation challenge" "variable base separation challenge"
  dsimp only at e hs ⊢
  rw [e]
  generalize challengeAppend ro _ "variable base separation challenge" "variable base separation challenge" = q at hs ⊢
  obtain ⟨var, tr⟩ := q
  obtain ⟨e, hs⟩ := challengeAppend_agree hro hs "lookup separation challenge" "lookup separation challenge"
  dsimp only at e hs ⊢
  rw [e]
  generalize challengeAppend ro _ "lookup separation challenge" "lookup separation challenge" = q at hs ⊢
  obtain ⟨lookup, tr⟩ := q
  refine bind_congr fun t => ?_
  obtain ⟨t, tC⟩ := t
  have hs := hs.append (l := [.comm "t_1" (tC 0), .comm "t_2" (tC 1), .comm "t_3" (tC 2), .comm "t_4" (tC 3),
    .comm "t_5" (tC 4), .comm "t_6" (tC 5), .comm "t_7" (tC 6), .comm "t_8" (tC 7)]) rfl (by simp [EFits])
  obtain ⟨e, hs⟩ := challengeAppend_agree hro hs "z" "z"
  dsimp only at e hs ⊢
  rw [e]
  generalize challengeAppend ro _ "z" "z" = q at hs ⊢
  obtain ⟨z, tr⟩ := q
  refine bind_congr fun q => ?_
  obtain ⟨lin, ev⟩ := q
  have hs := appendEvals_sh hs ev
  obtain ⟨e, hs⟩ := challenge_agree hro hs "aggregate_witness"
  dsimp only at e hs ⊢
  rw [e]
  generalize challenge ro _ "aggregate_witness" = q at hs ⊢
  obtain ⟨aw, tr⟩ := q
  obtain ⟨e, hs⟩ := challenge_agree hro hs "aggregate_witness"
  dsimp only at e hs ⊢
  rw [e]

end

theorem verify_agree {P : PCS F} {tr0 tr : Transcript F P.Comm} {ks : List PKind} {ro ro' : Transcript F P.Comm → F}
    (hro : ∀ tr rest, Sh tr0 ks rest tr → ro' tr = ro tr) (h : Sh tr0 ks protocol tr) (K : PField F) (E : EdCurve F)
    (vk : VKey P) {pi : List (ℕ × F)} (h1 : pi.length < 2 ^ 64) (h2 : ∀ e ∈ pi, e.1 < 2 ^ 64)
    (pr : PlonkProof P) : plonkVerify K E P ro' vk tr pi pr = plonkVerify K E P ro vk tr pi pr := by
  unfold plonkVerify
  rw [verifierChals_agree hro h h1 h2]

theorem seed_sh {P : PCS F} (tr0 : Transcript F P.Comm) (ks : List PKind) (vk : VKey P) (hn : vk.n < 2 ^ 64) :
    Sh tr0 (List.replicate 18 .comm ++ [.dom] ++ ks) ks (seedTranscript vk tr0) := by
  refine (Sh.start tr0 _).append ?_ ?_
  · rfl
  · simp only [List.mem_cons, List.not_mem_nil, or_false, forall_eq_or_imp, forall_eq, EFits, true_and]
    exact hn

end VO.Plonk

namespace VO
open Plonk Spec Spec.Plonk

variable {F : Type} [Field F] [DecidableEq F]

/-- **C156.** Whatever challenge is assigned to each transcript that starts with given messages `tr0` of the user
(those that the user appends with `key_transcript` included), there is a function of the messages given to Merlin
with which prover and verifier do the same: no two different transcripts, at whatever step of the prover or the
verifier, for whatever circuits, keys, public inputs and proofs, consist of the same messages. Here for a prover
and verifier whose keys are given and that have not preprocessed a circuit (as in `gen_proof` and
`verify_proof`). -/
theorem C156_key_given (P : PCS F) (cf : Codec F) (cg : Codec P.Comm) (hf : Lawful cf) (hg : Lawful cg) (size : ℕ)
    (tr0 : Transcript F P.Comm) (ro : Transcript F P.Comm → F) : ∃ H : List MOp → F,
      let ro' := fun tr => H (Transcript.ops cf cg size tr)
      ∀ (K : PField F) (E : EdCurve F),
        (∀ (vk : VKey P) (pi : List (ℕ × F)) (pr : PlonkProof P), pi.length < 2 ^ 64 → (∀ e ∈ pi, e.1 < 2 ^ 64) →
          plonkVerify K E P ro' vk tr0 pi pr = plonkVerify K E P ro vk tr0 pi pr) ∧
        ∀ (c : Composer F) (pk : PKey F), c.public_inputs.length < 2 ^ 64 → (∀ e ∈ c.public_inputs, e.1 < 2 ^ 64) →
          proveWithPreprocessed K E P ro' c pk tr0 = proveWithPreprocessed K E P ro c pk tr0 := by
  obtain ⟨H, hH⟩ := exists_onOps hf hg size tr0 protocol ro
  refine ⟨H, fun K E => ⟨fun vk pi pr h1 h2 => ?_, fun c pk h1 h2 => ?_⟩⟩
  · exact verify_agree (ro' := fun tr => H (Transcript.ops cf cg size tr)) hH (Sh.start tr0 _) K E vk h1 h2 pr
  · exact prove_agree (ro' := fun tr => H (Transcript.ops cf cg size tr)) hH (Sh.start tr0 _) K E c pk h1 h2

/-- **C156.** The same when the circuit was preprocessed, so that the verifier key is in the transcript: different
keys give different messages, too. -/
theorem C156_preprocessed (P : PCS F) (cf : Codec F) (cg : Codec P.Comm) (hf : Lawful cf) (hg : Lawful cg) (size : ℕ)
    (tr0 : Transcript F P.Comm) (ro : Transcript F P.Comm → F) : ∃ H : List MOp → F,
      let ro' := fun tr => H (Transcript.ops cf cg size tr)
      ∀ (K : PField F) (E : EdCurve F) (vk : VKey P), vk.n < 2 ^ 64 →
        (∀ (pi : List (ℕ × F)) (pr : PlonkProof P), pi.length < 2 ^ 64 → (∀ e ∈ pi, e.1 < 2 ^ 64) →
          plonkVerify K E P ro' vk (seedTranscript vk tr0) pi pr
            = plonkVerify K E P ro vk (seedTranscript vk tr0) pi pr) ∧
        ∀ (c : Composer F) (pk : PKey F), c.public_inputs.length < 2 ^ 64 → (∀ e ∈ c.public_inputs, e.1 < 2 ^ 64) →
          proveWithPreprocessed K E P ro' c pk (seedTranscript vk tr0)
            = proveWithPreprocessed K E P ro c pk (seedTranscript vk tr0) := by
  obtain ⟨H, hH⟩ := exists_onOps hf hg size tr0 (List.replicate 18 .comm ++ [.dom] ++ protocol) ro
  refine ⟨H, fun K E vk hn => ⟨fun pi pr h1 h2 => ?_, fun c pk h1 h2 => ?_⟩⟩
  · exact verify_agree (ro' := fun tr => H (Transcript.ops cf cg size tr)) hH (seed_sh tr0 _ vk hn) K E vk h1 h2 pr
  · exact prove_agree (ro' := fun tr => H (Transcript.ops cf cg size tr)) hH (seed_sh tr0 _ vk hn) K E c pk h1 h2

/-- **C156.** Two transcripts that continue the same one with operations of the same types, as far as they go,
are equal when they consist of the same messages. Scalars and challenges need not be at the same places, so that
the evaluations with names of the prover's choice are included. -/
theorem C156_messages {C : Type} (cf : Codec F) (cg : Codec C) (hf : Lawful cf) (hg : Lawful cg) (size : ℕ)
    (tr0 : Transcript F C) (ks : List PKind) (l l' : Transcript F C) (h : l.map pkind <+: ks)
    (h' : l'.map pkind <+: ks) (hl : ∀ i ∈ l, EFits i) (hl' : ∀ i ∈ l', EFits i)
    (hm : Transcript.ops cf cg size (tr0 ++ l) = Transcript.ops cf cg size (tr0 ++ l')) : l = l' := by
  simp only [Transcript.ops, List.flatMap_append, List.append_cancel_left_eq] at hm
  exact ops_inj hf hg ks h h' hl hl' hm

/-- **C156.** The `Circuit` interface: with a hash of the messages, `gen_proof` and `verify_proof` do what they do
with any assignment of challenges to transcripts with the given label. -/
theorem C156_circuit (P : PCS F) (cf : Codec F) (cg : Codec P.Comm) (hf : Lawful cf) (hg : Lawful cg) (size : ℕ)
    (label : String) (ro : Transcript F P.Comm → F) : ∃ H : List MOp → F,
      let ro' := fun tr => H (Transcript.ops cf cg size tr)
      ∀ (K : PField F) (E : EdCurve F) (m : ℕ),
        (∀ (C : Circ F) (pk : PKey F) (r r' : (F × F × F × F) × (F × F × F × F)),
          (∀ c, runGadget C r = .ok c → c.public_inputs.length < 2 ^ 64 ∧ ∀ e ∈ c.public_inputs, e.1 < 2 ^ 64) →
          circuitProve K E P ro' m C pk label r r' = circuitProve K E P ro m C pk label r r') ∧
        ∀ (s s' : ℕ) (vk : VKey (trimmed P s)) (pr : PlonkProof (trimmed P s')) (pi : List (ℕ × F))
          (r : (F × F × F × F) × (F × F × F × F)), pi.length < 2 ^ 64 → (∀ e ∈ pi, e.1 < 2 ^ 64) →
          circuitVerify K E P ro' m vk pr pi label r = circuitVerify K E P ro m vk pr pi label r := by
  obtain ⟨H, hH⟩ := exists_onOps hf hg size [.init label] protocol ro
  refine ⟨H, fun K E m => ⟨fun C pk r r' hc => ?_, fun s s' vk pr pi r h1 h2 => ?_⟩⟩
  · unfold circuitProve
    refine bind_congr fun _ => ?_
    cases hg : runGadget C r with
    | error e => rfl
    | ok c =>
      have hp := prove_agree (P := trimmed P C.size) (ro' := fun tr => H (Transcript.ops cf cg size tr)) (ro := ro)
        hH (Sh.start _ _) K E c pk (hc c hg).1 (hc c hg).2
      exact congrArg (fun x : Except PErr (PlonkProof (trimmed P C.size)) => do
        let q ← (do
          let pr ← x
          let c' ← liftP (newComposer r'.1 r'.2)
          pure (pr, (⟨some pk, c', [.init label]⟩ : Prover (trimmed P C.size))))
        pure (q.1, c.public_inputs)) hp
  · unfold circuitVerify
    refine bind_congr fun _ => bind_congr fun _ => ?_
    exact verify_agree (P := trimmed P (2 ^ Nat.clog 2 vk.n)) (ro' := fun tr => H (Transcript.ops cf cg size tr))
      hH (Sh.start _ _) K E _ h1 h2 _

/-! Concrete cases. -/

example : Transcript.ops codec97 codec97 1 [.init "x", .pi "pi" [(2, 5)], .comm "w_l" 7, .chal "zeta", .scalar "zeta" 9]
    = [.msg "dom-sep" [120], .msg "pi" [1, 0, 0, 0, 0, 0, 0, 0, 2, 0, 0, 0, 0, 0, 0, 0, 5], .msg "w_l" [7],
      .bytes "zeta" 1, .msg "zeta" [9]] := by decide +kernel

/-- Types matter: a message of the user can look like a commitment, and a commitment like a scalar with the same
label ("z" is used for both). -/
example : Transcript.ops codec97 codec97 1 [.user "w_l" "A"] = Transcript.ops codec97 codec97 1 [.comm "w_l" 65] ∧
    Transcript.ops codec97 codec97 1 [.comm "z" 65] = Transcript.ops codec97 codec97 1 [.scalar "z" 65] := by
  decide +kernel

/-- KZG over the field with 97 elements. -/
noncomputable def pcs97 : PCS K97 := kzgPcs (LinearMap.mul K97 K97) (1 : K97) (1 : K97) 7 (5 : K97)

def codecPcs97 : Codec pcs97.Comm := codec97

theorem codecPcs97_lawful : Lawful codecPcs97 := codec97_faithful.1

/-- One byte for scalars and commitments: a hash of messages for challenges that are sums of the scalars appended so
far. -/
example : ∃ H : List MOp → K97, ∀ (K : PField K97) (E : EdCurve K97) (vk : VKey pcs97) (pr : PlonkProof pcs97),
    plonkVerify K E pcs97 (fun tr => H (Transcript.ops codec97 codecPcs97 1 tr)) vk [.init "demo"] [(3, 5)] pr
      = plonkVerify K E pcs97 (fun tr => (tr.map fun | .scalar _ x => x | _ => 1).sum) vk [.init "demo"] [(3, 5)]
        pr := by
  obtain ⟨H, hH⟩ := C156_key_given pcs97 codec97 codecPcs97 codec97_faithful.1 codecPcs97_lawful 1 [.init "demo"]
    (fun tr => (tr.map fun | .scalar _ x => x | _ => 1).sum)
  refine ⟨H, fun K E vk pr => (hH K E).1 vk [(3, 5)] pr ?_ ?_⟩
  · rw [List.length_singleton]; norm_num
  · intro e he
    rw [List.mem_singleton.1 he]
    norm_num

end VO
