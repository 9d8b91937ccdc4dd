import Verif.Props.PlonkPublicBytes
import Verif.Lemmas.PlonkVerifyIff
import Verif.Spec.PlonkKzg
import Verif.Props.Fields

/-
Property theorems C161: what `verify` returns and when it panics (`/repo/plonk-core/src/proof_system/proof.rs:122-430`,
`linearisation_poly.rs:118-126`).
-/

set_option linter.unusedSectionVars false

namespace VO.Spec.Plonk
open VO VO.Plonk

variable {F : Type} [Field F]

/-- The names of the values that `verify` looks up in a proof. -/
def verifierNames : List String :=
  ["q_arith_eval", "q_l_eval", "q_r_eval", "q_c_eval", "a_next_eval", "b_next_eval", "d_next_eval"]

/-- What `verify` takes for granted, for a domain of `n` rows: of the public inputs, of the proof and of the
challenges. -/
structure VerifyRuns (n : ℕ) (pi : List (ℕ × F)) (ev : Evals F) (ch : Chals F) : Prop where
  positions : ∀ e ∈ pi, e.1 < n
  names : ∀ s ∈ verifierNames, ∃ x, (s, x) ∈ ev.custom
  distinct : [ch.beta, ch.gamma, ch.delta, ch.epsilon].Nodup
  zeta : ch.zeta ≠ 0 ∧ ch.zeta ≠ 1
  z : ch.z ≠ 1

end VO.Spec.Plonk

namespace VO.Plonk
open VO VO.Spec VO.Spec.Plonk

variable {F : Type}

/-- The only error is a panic. -/
def Panicky {α : Type} (x : Except PErr α) : Prop := ∀ e, x = .error e → e = .panic

theorem panicky_cases {α : Type} {x : Except PErr α} (h : Panicky x) : (∃ a, x = .ok a) ∨ x = .error .panic := by
  cases x with
  | ok a => exact .inl ⟨a, rfl⟩
  | error e => exact .inr (by rw [h e rfl])

theorem panicky_bind {α β : Type} {x : Except PErr α} {f : α → Except PErr β} (hx : Panicky x)
    (hf : ∀ a, x = .ok a → Panicky (f a)) : Panicky (x >>= f) := by
  intro e h
  cases x with
  | error e' => exact hx e (by injection h with h; rw [h])
  | ok a => exact hf a rfl e h

theorem panicky_ok {α : Type} (a : α) : Panicky (.ok a : Except PErr α) := by
  intro e h
  cases h

theorem panicky_pure {α : Type} (a : α) : Panicky (pure a : Except PErr α) := panicky_ok a

theorem panicky_liftP {α : Type} (x : Res α) : Panicky (liftP x) := by
  intro e h
  cases x with
  | ok a => cases h
  | error e' => cases h; rfl

theorem panicky_get (l : List (String × F)) (s : String) : Panicky (customGet l s) := by
  intro e h
  unfold customGet at h
  split at h
  · cases h
  · cases h; rfl

theorem customGet_ok {l : List (String × F)} {s : String} : (∃ x, customGet l s = .ok x) ↔ ∃ x, (s, x) ∈ l := by
  unfold customGet
  cases h : l.find? (fun e => e.1 == s) with
  | none =>
    refine ⟨fun ⟨x, hx⟩ => (by cases hx), fun ⟨x, hx⟩ => ?_⟩
    have := List.find?_eq_none.1 h (s, x) hx
    simp at this
  | some e =>
    refine ⟨fun _ => ⟨e.2, ?_⟩, fun _ => ⟨e.2, rfl⟩⟩
    have h1 : e.1 = s := by simpa using List.find?_some h
    rw [← h1]
    exact List.mem_of_find?_eq_some h

/-- If the first step can only panic and the whole does not, it succeeds. -/
theorem bind_np {α β : Type} {x : Except PErr α} {f : α → Except PErr β} (hx : Panicky x)
    (h : (x >>= f) ≠ .error .panic) : ∃ a, x = .ok a ∧ f a ≠ .error .panic := by
  rcases panicky_cases hx with ⟨a, rfl⟩ | rfl
  · exact ⟨a, rfl, h⟩
  · exact absurd rfl h

variable [Field F] [DecidableEq F]

theorem asEvals_all {pi : List (ℕ × F)} {n : ℕ} (hn : 2 ^ Nat.log 2 n = n) (h : ∀ e ∈ pi, e.1 < n) :
    ∃ v, asEvals pi n = .ok v := by
  have : ∀ (pi : List (ℕ × F)) (l : List F), (∀ e ∈ pi, e.1 < l.length) →
      ∃ v, pi.foldlM (fun (l : List F) e => do assertR (e.1 < l.length); return l.set e.1 e.2) l
        = (.ok v : Res (List F)) := by
    intro pi
    induction pi with
    | nil => exact fun l _ => ⟨l, rfl⟩
    | cons a pi ih =>
      intro l hl
      obtain ⟨v, hv⟩ := ih (l.set a.1 a.2) fun e he => by rw [List.length_set]; exact hl e (by simp [he])
      refine ⟨v, ?_⟩
      rw [List.foldlM_cons]
      simp only [assertR, hl a (by simp), if_true, ok_bind, pure, Except.pure]
      exact hv
  obtain ⟨v, hv⟩ := this pi (List.replicate n 0) (by simpa using h)
  refine ⟨v, ?_⟩
  unfold asEvals
  simp only [assertR, hn, if_true, ok_bind]
  exact hv

theorem panicky_lagrange (D : Dom F) (a z : F) : Panicky (firstLagrangeEval D a z) := by
  intro e h
  unfold firstLagrangeEval at h
  simp only at h
  split_ifs at h
  cases h; rfl

theorem panicky_custom (l : List (String × F)) : Panicky (customVals l) := by
  unfold customVals
  exact panicky_bind (panicky_get _ _) fun _ _ => panicky_bind (panicky_get _ _) fun _ _ =>
    panicky_bind (panicky_get _ _) fun _ _ => panicky_bind (panicky_get _ _) fun _ _ =>
    panicky_bind (panicky_get _ _) fun _ _ => panicky_bind (panicky_get _ _) fun _ _ => panicky_pure _

theorem panicky_lin (P : PCS F) (E : EdCurve F) (D : Dom F) (vk : VKey P) (pr : PlonkProof P) (ch : Chals F) (l1 : F) :
    Panicky (linCommitment P E D vk pr ch l1) := by
  unfold linCommitment arithLinC lookupLinC
  exact panicky_bind (panicky_bind (panicky_get _ _) fun _ _ => panicky_pure _) fun _ _ =>
    panicky_bind (panicky_custom _) fun _ _ =>
    panicky_bind (panicky_bind (panicky_liftP _) fun _ _ => panicky_pure _) fun _ _ => panicky_pure _

theorem customVals_ok {l : List (String × F)} : (∃ v, customVals l = .ok v) ↔
    ∀ s ∈ ["a_next_eval", "b_next_eval", "d_next_eval", "q_l_eval", "q_r_eval", "q_c_eval"], ∃ x, (s, x) ∈ l := by
  simp only [List.forall_mem_cons, List.not_mem_nil, false_imp_iff, implies_true, and_true, ← customGet_ok]
  constructor
  · rintro ⟨v, h⟩
    unfold customVals at h
    obtain ⟨a1, h1, h⟩ := bind_okE h
    obtain ⟨a2, h2, h⟩ := bind_okE h
    obtain ⟨a3, h3, h⟩ := bind_okE h
    obtain ⟨a4, h4, h⟩ := bind_okE h
    obtain ⟨a5, h5, h⟩ := bind_okE h
    obtain ⟨a6, h6, h⟩ := bind_okE h
    exact ⟨⟨a1, h1⟩, ⟨a2, h2⟩, ⟨a3, h3⟩, ⟨a4, h4⟩, ⟨a5, h5⟩, ⟨a6, h6⟩⟩
  · rintro ⟨⟨a1, h1⟩, ⟨a2, h2⟩, ⟨a3, h3⟩, ⟨a4, h4⟩, ⟨a5, h5⟩, ⟨a6, h6⟩⟩
    refine ⟨⟨a1, a2, a3, a4, a5, a6⟩, ?_⟩
    unfold customVals
    simp only [h1, h2, h3, h4, h5, h6, ok_bind]
    rfl

/-- The conditions of `VPre`, spelled out. -/
theorem runs_iff {D : Dom F} (hD : 2 ^ Nat.log 2 D.size = D.size) (hn : (D.size : F) ≠ 0) {pi : List (ℕ × F)}
    {ev : Evals F} {ch : Chals F} : VerifyRuns D.size pi ev ch ↔
      ∃ l1 pe q v aN bN dN, VPre D ch pi ev l1 pe q v aN bN dN := by
  constructor
  · rintro ⟨h1, h2, h3, h4, h5⟩
    simp only [verifierNames, List.forall_mem_cons, List.not_mem_nil, false_imp_iff, implies_true, and_true] at h2
    simp only [List.nodup_cons, List.mem_cons, List.not_mem_nil, or_false, not_or, List.nodup_nil, not_false_eq_true,
      and_true] at h3
    obtain ⟨n1, n2, n3, n4, n5, n6, n7⟩ := h2
    obtain ⟨q, hq⟩ := customGet_ok.2 n1
    obtain ⟨a, ha⟩ := customGet_ok.2 n5
    obtain ⟨b, hb⟩ := customGet_ok.2 n6
    obtain ⟨d, hd⟩ := customGet_ok.2 n7
    obtain ⟨v, hv⟩ := (customVals_ok (l := ev.custom)).2
      (by simpa only [List.forall_mem_cons, List.not_mem_nil, false_imp_iff, implies_true, and_true]
            using ⟨n5, n6, n7, n2, n3, n4⟩)
    obtain ⟨pe, hp⟩ := asEvals_all hD h1
    have hl : firstLagrangeEval D (vanishAt D ch.z) ch.z
        = .ok (vanishAt D ch.z * ((D.size : F) * (ch.z - 1))⁻¹) := by
      unfold firstLagrangeEval
      exact if_neg (mul_ne_zero hn (sub_ne_zero.2 h5))
    exact ⟨_, pe, q, v, a, b, d, h3.1.1, h3.1.2.1, h3.1.2.2, h3.2.1.1, h3.2.1.2, h3.2.2, hl, hp, hq, hv, h4.1, h4.2, ha,
      hb, hd⟩
  · rintro ⟨l1, pe, q, v, aN, bN, dN, h⟩
    have hc := customVals_ok.1 ⟨v, h.v⟩
    simp only [List.forall_mem_cons, List.not_mem_nil, false_imp_iff, implies_true, and_true] at hc
    refine ⟨(asEvals_inv h.pe).2, ?_, ?_, ⟨h.z0, h.z1⟩, fun hz => ?_⟩
    · simp only [verifierNames, List.forall_mem_cons, List.not_mem_nil, false_imp_iff, implies_true, and_true]
      exact ⟨customGet_ok.1 ⟨q, h.q⟩, hc.2.2.2.1, hc.2.2.2.2.1, hc.2.2.2.2.2, hc.1, hc.2.1, hc.2.2.1⟩
    · simp [h.c1, h.c2, h.c3, h.c4, h.c5, h.c6]
    · have := h.l1
      unfold firstLagrangeEval at this
      rw [if_pos (by rw [hz]; ring)] at this
      cases this

theorem runs_of_np {E : EdCurve F} {P : PCS F} {D : Dom F} {vk : VKey P} {pi : List (ℕ × F)}
    {pr : PlonkProof P} {ch : Chals F} (h : verifyWith E P D vk pi pr ch ≠ .error .panic) :
    ∃ l1 pe q v aN bN dN, VPre D ch pi pr.ev l1 pe q v aN bN dN := by
  unfold verifyWith at h
  obtain ⟨_, c1, h⟩ := bind_np (panicky_liftP _) h
  obtain ⟨_, c2, h⟩ := bind_np (panicky_liftP _) h
  obtain ⟨_, c3, h⟩ := bind_np (panicky_liftP _) h
  obtain ⟨_, c4, h⟩ := bind_np (panicky_liftP _) h
  obtain ⟨_, c5, h⟩ := bind_np (panicky_liftP _) h
  obtain ⟨_, c6, h⟩ := bind_np (panicky_liftP _) h
  obtain ⟨l1, hl1, h⟩ := bind_np (panicky_lagrange _ _ _) h
  obtain ⟨pe, hpe, h⟩ := bind_np (panicky_liftP _) h
  obtain ⟨lc', hlin, h⟩ := bind_np (panicky_lin _ _ _ _ _ _ _) h
  obtain ⟨aN, haN, h⟩ := bind_np (panicky_get _ _) h
  obtain ⟨bN, hbN, h⟩ := bind_np (panicky_get _ _) h
  obtain ⟨dN, hdN, h⟩ := bind_np (panicky_get _ _) h
  unfold linCommitment at hlin
  obtain ⟨ar, har, hlin⟩ := bind_okE hlin
  obtain ⟨v, hv, hlin⟩ := bind_okE hlin
  obtain ⟨lo, hlo, -⟩ := bind_okE hlin
  unfold arithLinC at har
  obtain ⟨q, hq, -⟩ := bind_okE har
  unfold lookupLinC at hlo
  obtain ⟨ct, hct, -⟩ := bind_okE hlo
  have hzeta : ch.zeta ≠ 0 ∧ ch.zeta ≠ 1 := by
    have := liftP_okE hct
    unfold lc at this
    obtain ⟨_, e1, this⟩ := bind_okE this
    obtain ⟨_, e2, this⟩ := bind_okE this
    exact ⟨assertR_okE e1, assertR_okE e2⟩
  exact ⟨l1, pe, q, v, aN, bN, dN, ⟨assertR_okE (liftP_okE c1), assertR_okE (liftP_okE c2),
    assertR_okE (liftP_okE c3), assertR_okE (liftP_okE c4), assertR_okE (liftP_okE c5),
    assertR_okE (liftP_okE c6), hl1, liftP_okE hpe, hq, hv, hzeta.1, hzeta.2, haN, hbN, hdN⟩⟩

theorem verifyWith_run {E : EdCurve F} {P : PCS F} {D : Dom F} {vk : VKey P} {pi : List (ℕ × F)}
    {pr : PlonkProof P} {ch : Chals F} {l1 : F} {pe : List F} {q : F} {v : CustomVals F} {aN bN dN : F}
    (hp : VPre D ch pi pr.ev l1 pe q v aN bN dN) :
    verifyWith E P D vk pi pr ch = (do
      checkResult (P.check ((open1 P E D vk pr ch l1 pe q v).map (·.1)) ch.z
        ((open1 P E D vk pr ch l1 pe q v).map (·.2)) pr.aw ch.aw)
      checkResult (P.check ((open2 P vk pr ch aN bN dN).map (·.1)) (ch.z * D.omega)
        ((open2 P vk pr ch aN bN dN).map (·.2)) pr.saw ch.saw)) := by
  unfold verifyWith
  simp only [assertR, hp.c1, hp.c2, hp.c3, hp.c4, hp.c5, hp.c6, ne_eq, not_false_eq_true,
    if_true, liftP, ok_bind, hp.l1, hp.pe, linCommitment_eq hp.q hp.v hp.z0 hp.z1, hp.a, hp.b, hp.d]
  rfl

end VO.Plonk

namespace VO
open Plonk Spec Spec.Plonk

variable {F : Type} [Field F] [DecidableEq F]

/-- **C161.** With a commitment scheme whose check always decides, `verify` returns `InvalidEvalDomainSize` when the
field has no domain of the size in the key; else it panics exactly when the public inputs, the proof or the challenges
are not as it takes for granted; else it returns `Ok` or `ProofVerificationError`. -/
theorem C161_verify {K : PField F} (hK : PFieldOk K) (E : EdCurve F) {P : PCS F}
    (hP : ∀ cs z vs p a, ∃ b, P.check cs z vs p a = .ok b) (ro : Transcript F P.Comm → F) (vk : VKey P)
    (tr : Transcript F P.Comm) (pi : List (ℕ × F)) (pr : PlonkProof P) :
    let n := 2 ^ Nat.clog 2 vk.n
    let r := plonkVerify K E P ro vk tr pi pr
    let runs := VerifyRuns n pi pr.ev (verifierChals ro tr pi pr)
    (K.fft.twoAdicity < Nat.clog 2 vk.n → r = .error .invalidEvalDomainSize) ∧
    (Nat.clog 2 vk.n ≤ K.fft.twoAdicity → (r = .error .panic ↔ ¬ runs) ∧
      (runs → r = .ok () ∨ r = .error .proofVerificationError)) := by
  intro n r runs
  constructor
  · intro h
    show plonkVerify K E P ro vk tr pi pr = _
    unfold plonkVerify newDom Dom.new
    rw [if_neg (by omega)]
    rfl
  · intro h
    have hr := hK.root _ h
    have hn : ((n : ℕ) : F) ≠ 0 := natCast_ne_zero_of_primitive hr (by positivity)
    have h2 : 2 ^ Nat.log 2 n = n := by
      show 2 ^ Nat.log 2 (2 ^ Nat.clog 2 vk.n) = 2 ^ Nat.clog 2 vk.n
      rw [Nat.log_pow (by norm_num)]
    have hv : r = verifyWith E P ⟨n, K.fft.root (Nat.clog 2 vk.n)⟩ vk pi pr (verifierChals ro tr pi pr) := by
      show plonkVerify K E P ro vk tr pi pr = _
      unfold plonkVerify newDom Dom.new
      rw [if_pos h]
      rfl
    have hiff : runs ↔ _ := runs_iff (D := ⟨n, K.fft.root (Nat.clog 2 vk.n)⟩) h2 hn
    have key : runs → r = .ok () ∨ r = .error .proofVerificationError := by
      intro hruns
      obtain ⟨l1, pe, q, v, aN, bN, dN, hp⟩ := hiff.1 hruns
      rw [hv, verifyWith_run hp]
      obtain ⟨b1, e1⟩ := hP ((open1 P E ⟨n, K.fft.root (Nat.clog 2 vk.n)⟩ vk pr (verifierChals ro tr pi pr) l1 pe q
        v).map (·.1)) (verifierChals ro tr pi pr).z _ pr.aw (verifierChals ro tr pi pr).aw
      obtain ⟨b2, e2⟩ := hP ((open2 P vk pr (verifierChals ro tr pi pr) aN bN dN).map (·.1)) _
        ((open2 P vk pr (verifierChals ro tr pi pr) aN bN dN).map (·.2)) pr.saw (verifierChals ro tr pi pr).saw
      rw [e1, e2]
      cases b1
      · exact .inr rfl
      · cases b2
        · exact .inr rfl
        · exact .inl rfl
    refine ⟨⟨fun hpan hruns => ?_, fun hno => ?_⟩, key⟩
    · rcases key hruns with h | h <;> rw [h] at hpan <;> cases hpan
    · by_contra hc
      exact hno (hiff.2 (runs_of_np (by rw [← hv]; exact hc)))

/-- **C161.** In particular for KZG commitments. -/
theorem C161_kzg {G1 G2 GT : Type} [AddCommGroup G1] [Module F G1] [DecidableEq G1] [AddCommGroup G2] [Module F G2]
    [AddCommGroup GT] [Module F GT] {K : PField F} (hK : PFieldOk K) (E : EdCurve F) (e : G1 →ₗ[F] G2 →ₗ[F] GT) (g : G1)
    (h : G2) (D : ℕ) (τ : F) (ro : Transcript F G1 → F) (vk : VKey (kzgPcs e g h D τ)) (tr : Transcript F G1)
    (pi : List (ℕ × F)) (pr : PlonkProof (kzgPcs e g h D τ)) (hs : Nat.clog 2 vk.n ≤ K.fft.twoAdicity) :
    plonkVerify K E (kzgPcs e g h D τ) ro vk tr pi pr = .error .panic ↔
      ¬ VerifyRuns (2 ^ Nat.clog 2 vk.n) pi pr.ev (verifierChals (P := kzgPcs e g h D τ) ro tr pi pr) :=
  ((C161_verify hK E (P := kzgPcs e g h D τ) (fun _ _ _ _ _ => ⟨_, rfl⟩) ro vk tr pi pr).2 hs).1

/-- **C161.** A proof that lacks one of the names makes `verify` panic, under every scheme, hash function and key with
a domain. -/
theorem C161_missing_name {K : PField F} (E : EdCurve F) {P : PCS F} (ro : Transcript F P.Comm → F) (vk : VKey P)
    (hs : Nat.clog 2 vk.n ≤ K.fft.twoAdicity) (tr : Transcript F P.Comm) (pi : List (ℕ × F)) (pr : PlonkProof P)
    (s : String) (hn : s ∈ verifierNames) (hm : ∀ x, (s, x) ∉ pr.ev.custom) :
    plonkVerify K E P ro vk tr pi pr = .error .panic := by
  by_contra hc
  have hv : plonkVerify K E P ro vk tr pi pr = verifyWith E P ⟨2 ^ Nat.clog 2 vk.n, K.fft.root (Nat.clog 2 vk.n)⟩ vk pi
      pr (verifierChals ro tr pi pr) := by
    unfold plonkVerify newDom Dom.new
    rw [if_pos hs]
    rfl
  rw [hv] at hc
  obtain ⟨l1, pe, q, v, aN, bN, dN, h⟩ := runs_of_np hc
  have h1 := customVals_ok.1 ⟨v, h.v⟩
  have h2 := customGet_ok.1 ⟨q, h.q⟩
  have : ∃ x, (s, x) ∈ pr.ev.custom := by
    simp only [List.forall_mem_cons, List.not_mem_nil, false_imp_iff, implies_true, and_true] at h1
    simp only [verifierNames, List.mem_cons, List.not_mem_nil, or_false] at hn
    rcases hn with rfl | rfl | rfl | rfl | rfl | rfl | rfl
    · exact h2
    · exact h1.2.2.2.1
    · exact h1.2.2.2.2.1
    · exact h1.2.2.2.2.2
    · exact h1.1
    · exact h1.2.1
    · exact h1.2.2.1
  exact this.elim fun x hx => hm x hx

/-- **C161.** Hence from every proof bytes can be made that are read as a proof without an error and make `verify`
panic. -/
theorem C161_bytes {K : PField F} (E : EdCurve F) {P : PCS F} {cf : Codec F} {cg : Codec P.Comm} {co : Codec P.OProof}
    (hf : Lawful cf) (hg : Lawful cg) (ho : Lawful co) (ro : Transcript F P.Comm → F) (vk : VKey P)
    (hs : Nat.clog 2 vk.n ≤ K.fft.twoAdicity) (tr : Transcript F P.Comm) (pi : List (ℕ × F)) (pr : PlonkProof P) :
    ∃ b p, decProof cf cg co b = some (p, []) ∧ p.a = pr.a ∧ p.ev.w = pr.ev.w ∧
      plonkVerify K E P ro vk tr pi p = .error .panic := by
  refine ⟨encProof cf cg co { pr with ev := { pr.ev with custom := [] } }, { pr with ev := { pr.ev with custom := [] } },
    ?_, rfl, rfl, C161_missing_name E ro vk hs tr pi _ "q_l_eval" (by simp [verifierNames]) (by simp)⟩
  have := C157_proof hf hg ho { pr with ev := { pr.ev with custom := [] } } ⟨by simp, by simp⟩ []
  rwa [List.append_nil] at this

/-! Concrete cases, over BLS12-381 with a hash that counts what was appended. -/

/-- A proof that has the names, public inputs in the rows: no panic. -/
example (vk : VKey (kzgPcs (LinearMap.mul Fr381 Fr381) (1 : Fr381) (1 : Fr381) 7 (5 : Fr381))) (hn : vk.n = 4)
    (pr : PlonkProof (kzgPcs (LinearMap.mul Fr381 Fr381) (1 : Fr381) (1 : Fr381) 7 (5 : Fr381)))
    (he : pr.ev.custom = verifierNames.map fun s => (s, 1)) (E : EdCurve Fr381) :
    plonkVerify (pfieldOf r381 7 32) E _ (fun tr => (tr.length : Fr381)) vk [.init "demo"] [(3, 5)] pr
      ≠ .error .panic := by
  have hc : Nat.clog 2 4 = 2 := by decide +kernel
  intro h
  refine (C161_kzg C126_plonk_field.1 E _ _ _ _ _ _ vk _ _ _ (by rw [hn, hc]; decide)).1 h ⟨?_, ?_, ?_, ?_, ?_⟩
  · simp [hn, hc]
  · intro s hs
    exact ⟨1, by rw [he]; exact List.mem_map.2 ⟨s, hs, rfl⟩⟩
  · show [((12 : ℕ) : Fr381), ((14 : ℕ) : Fr381), ((16 : ℕ) : Fr381), ((18 : ℕ) : Fr381)].Nodup
    decide +kernel
  · refine ⟨ne_of_eq_of_ne (b := ((7 : ℕ) : Fr381)) rfl ?_, ne_of_eq_of_ne (b := ((7 : ℕ) : Fr381)) rfl ?_⟩ <;>
      decide +kernel
  · refine ne_of_eq_of_ne (b := ((41 : ℕ) : Fr381)) ?_ (by decide +kernel)
    simp only [verifierChals, challengeAppend, challenge, List.length_append, List.length_cons, List.length_nil]

/-- The same proof without its last name. -/
example (vk : VKey (kzgPcs (LinearMap.mul Fr381 Fr381) (1 : Fr381) (1 : Fr381) 7 (5 : Fr381))) (hn : vk.n = 4)
    (pr : PlonkProof (kzgPcs (LinearMap.mul Fr381 Fr381) (1 : Fr381) (1 : Fr381) 7 (5 : Fr381)))
    (he : pr.ev.custom = verifierNames.dropLast.map fun s => (s, 1)) (E : EdCurve Fr381) :
    plonkVerify (pfieldOf r381 7 32) E _ (fun tr => (tr.length : Fr381)) vk [.init "demo"] [(3, 5)] pr
      = .error .panic := by
  have hc : Nat.clog 2 4 = 2 := by decide +kernel
  refine C161_missing_name E _ vk (by rw [hn, hc]; decide) _ _ pr "d_next_eval" (by simp [verifierNames]) fun x hx => ?_
  rw [he] at hx
  simp [verifierNames] at hx

end VO
