import Verif.Lemmas.PlonkSound

/-
When the PLONK verifier accepts, exactly: conditions on what does not involve commitments, and the two
opening checks.
-/

set_option linter.unusedSectionVars false

namespace VO.Plonk

open VO.Spec VO.Spec.Plonk Polynomial

variable {F : Type} [Field F] [DecidableEq F]

/-- What the verifier computes without commitments. -/
structure VPre (D : Dom F) (ch : Chals F) (pi : List (ℕ × F)) (ev : Evals F) (l1 : F) (pe : List F)
    (q : F) (v : CustomVals F) (aN bN dN : F) : Prop where
  c1 : ch.beta ≠ ch.gamma
  c2 : ch.beta ≠ ch.delta
  c3 : ch.beta ≠ ch.epsilon
  c4 : ch.gamma ≠ ch.delta
  c5 : ch.gamma ≠ ch.epsilon
  c6 : ch.delta ≠ ch.epsilon
  l1 : firstLagrangeEval D (vanishAt D ch.z) ch.z = .ok l1
  pe : asEvals pi D.size = .ok pe
  q : customGet ev.custom "q_arith_eval" = .ok q
  v : customVals ev.custom = .ok v
  z0 : ch.zeta ≠ 0
  z1 : ch.zeta ≠ 1
  a : customGet ev.custom "a_next_eval" = .ok aN
  b : customGet ev.custom "b_next_eval" = .ok bN
  d : customGet ev.custom "d_next_eval" = .ok dN

/-- The commitment to the linearisation. -/
def linC (P : PCS F) (E : EdCurve F) (D : Dom F) (vk : VKey P) (pr : PlonkProof P) (ch : Chals F)
    (l1 q : F) (v : CustomVals F) : P.Comm :=
  P.msm ((linTerms E ch D.size l1 pr.ev q v vk.sel vk.sig.d pr.z pr.z2 pr.h1 pr.t).map (·.2))
    ((linTerms E ch D.size l1 pr.ev q v vk.sel vk.sig.d pr.z pr.z2 pr.h1 pr.t).map (·.1))

/-- The commitment to the compressed table. -/
def tabC (P : PCS F) (vk : VKey P) (zeta : F) : P.Comm :=
  P.msm [vk.tab.a, vk.tab.b, vk.tab.c, vk.tab.d] [1, zeta, zeta * zeta, zeta * zeta * zeta]

/-- The first opening: commitments and values. -/
def open1 (P : PCS F) (E : EdCurve F) (D : Dom F) (vk : VKey P) (pr : PlonkProof P) (ch : Chals F)
    (l1 : F) (pe : List F) (q : F) (v : CustomVals F) : List (P.Comm × F) :=
  [(linC P E D vk pr ch l1 q v, -computeR0 D pe ch l1 pr.ev), (vk.sig.a, pr.ev.s1), (vk.sig.b, pr.ev.s2),
    (vk.sig.c, pr.ev.s3), (pr.f, pr.ev.f), (pr.h2, pr.ev.h2), (tabC P vk ch.zeta, pr.ev.table),
    (pr.a, pr.ev.w.a), (pr.b, pr.ev.w.b), (pr.c, pr.ev.w.c), (pr.d, pr.ev.w.d)]

/-- The second. -/
def open2 (P : PCS F) (vk : VKey P) (pr : PlonkProof P) (ch : Chals F) (aN bN dN : F) :
    List (P.Comm × F) :=
  [(pr.z, pr.ev.perm), (pr.a, aN), (pr.b, bN), (pr.d, dN), (pr.h1, pr.ev.h1Next), (pr.z2, pr.ev.z2Next),
    (tabC P vk ch.zeta, pr.ev.tableNext)]

theorem checkResult_iff {r : Except PErr Bool} : checkResult r = .ok () ↔ r = .ok true := by
  refine ⟨checkResult_okE, fun h => ?_⟩
  subst h
  rfl

theorem verifyWith_iff {E : EdCurve F} {P : PCS F} {D : Dom F} {vk : VKey P} {pi : List (ℕ × F)}
    {pr : PlonkProof P} {ch : Chals F} :
    verifyWith E P D vk pi pr ch = .ok () ↔ ∃ l1 pe q v aN bN dN,
      VPre D ch pi pr.ev l1 pe q v aN bN dN ∧
      P.check ((open1 P E D vk pr ch l1 pe q v).map (·.1)) ch.z
        ((open1 P E D vk pr ch l1 pe q v).map (·.2)) pr.aw ch.aw = .ok true ∧
      P.check ((open2 P vk pr ch aN bN dN).map (·.1)) (ch.z * D.omega)
        ((open2 P vk pr ch aN bN dN).map (·.2)) pr.saw ch.saw = .ok true := by
  constructor
  · intro h
    unfold verifyWith at h
    obtain ⟨_, c1, h⟩ := bind_okE h
    obtain ⟨_, c2, h⟩ := bind_okE h
    obtain ⟨_, c3, h⟩ := bind_okE h
    obtain ⟨_, c4, h⟩ := bind_okE h
    obtain ⟨_, c5, h⟩ := bind_okE h
    obtain ⟨_, c6, h⟩ := bind_okE h
    obtain ⟨l1, hl1, h⟩ := bind_okE h
    obtain ⟨pe, hpe, h⟩ := bind_okE h
    obtain ⟨lc', hlin, h⟩ := bind_okE h
    obtain ⟨aN, haN, h⟩ := bind_okE h
    obtain ⟨bN, hbN, h⟩ := bind_okE h
    obtain ⟨dN, hdN, h⟩ := bind_okE h
    obtain ⟨u1, hc1, hc2⟩ := bind_okE h
    have hlin' := hlin
    unfold linCommitment at hlin'
    obtain ⟨ar, har, hlin'⟩ := bind_okE hlin'
    obtain ⟨v, hv, hlin'⟩ := bind_okE hlin'
    obtain ⟨lo, hlo, -⟩ := bind_okE hlin'
    unfold arithLinC at har
    obtain ⟨q, hq, -⟩ := bind_okE har
    unfold lookupLinC at hlo
    obtain ⟨ct, hct, -⟩ := bind_okE hlo
    have hzeta : ch.zeta ≠ 0 ∧ ch.zeta ≠ 1 := by
      have := liftP_okE hct
      unfold lc at this
      obtain ⟨_, e1, this⟩ := bind_okE this
      obtain ⟨_, e2, this⟩ := bind_okE this
      exact ⟨assertR_okE e1, assertR_okE e2⟩
    rw [linCommitment_eq hq hv hzeta.1 hzeta.2] at hlin
    simp only [Except.ok.injEq] at hlin
    subst hlin
    exact ⟨l1, pe, q, v, aN, bN, dN, ⟨assertR_okE (liftP_okE c1), assertR_okE (liftP_okE c2),
      assertR_okE (liftP_okE c3), assertR_okE (liftP_okE c4), assertR_okE (liftP_okE c5),
      assertR_okE (liftP_okE c6), hl1, liftP_okE hpe, hq, hv, hzeta.1, hzeta.2, haN, hbN, hdN⟩,
      checkResult_okE hc1, checkResult_okE hc2⟩
  · rintro ⟨l1, pe, q, v, aN, bN, dN, hp, h1, h2⟩
    unfold verifyWith
    simp only [assertR, hp.c1, hp.c2, hp.c3, hp.c4, hp.c5, hp.c6, ne_eq, not_false_eq_true,
      if_true, liftP, ok_bind, hp.l1, hp.pe, linCommitment_eq hp.q hp.v hp.z0 hp.z1, hp.a, hp.b, hp.d]
    have h1 := checkResult_iff.2 h1
    have h2 := checkResult_iff.2 h2
    simp only [open1, open2, List.map_cons, List.map_nil, linC, tabC] at h1 h2
    rw [h1, ok_bind]
    exact h2

/-- It is determined. -/
theorem VPre.uniq {D : Dom F} {ch : Chals F} {pi : List (ℕ × F)} {ev : Evals F} {l1 l1' : F}
    {pe pe' : List F} {q q' : F} {v v' : CustomVals F} {aN bN dN aN' bN' dN' : F}
    (h : VPre D ch pi ev l1 pe q v aN bN dN) (h' : VPre D ch pi ev l1' pe' q' v' aN' bN' dN') :
    l1 = l1' ∧ pe = pe' ∧ q = q' ∧ v = v' ∧ aN = aN' ∧ bN = bN' ∧ dN = dN' := by
  have inj : ∀ {ε α : Type} {x : Except ε α} {a b : α}, x = .ok a → x = .ok b → a = b := by
    intro ε α x a b h1 h2
    rw [h1] at h2
    injection h2
  exact ⟨inj h.l1 h'.l1, inj h.pe h'.pe, inj h.q h'.q, inj h.v h'.v, inj h.a h'.a, inj h.b h'.b,
    inj h.d h'.d⟩

/-- The challenges of the openings are not used for it. -/
theorem VPre.aw {D : Dom F} {ch : Chals F} {pi : List (ℕ × F)} {ev : Evals F} {l1 : F}
    {pe : List F} {q : F} {v : CustomVals F} {aN bN dN : F} (a b : F)
    (h : VPre D ch pi ev l1 pe q v aN bN dN) :
    VPre D { ch with aw := a, saw := b } pi ev l1 pe q v aN bN dN :=
  ⟨h.c1, h.c2, h.c3, h.c4, h.c5, h.c6, h.l1, h.pe, h.q, h.v, h.z0, h.z1, h.a, h.b, h.d⟩

end VO.Plonk
