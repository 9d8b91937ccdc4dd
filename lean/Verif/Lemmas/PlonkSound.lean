import Verif.Lemmas.PlonkRun4

/-
Soundness of the PLONK argument: from a violated row to a rejected proof.
-/

set_option linter.unusedSectionVars false

namespace VO.Plonk

open VO.Spec VO.Spec.Plonk Polynomial

variable {F : Type} [Field F] [DecidableEq F]

/-- One row: if a gate is violated or one of the five other terms is not zero, the sum of all terms
is not zero. -/
theorem row_mostly (E : EdCurve F) (g : Gate F) (r : Row F) (p c0 c1 d0 d1 d2 : F)
    (h : ¬ (GatesOk E g r p ∧ c0 = 0 ∧ c1 = 0 ∧ d0 = 0 ∧ d1 = 0 ∧ d2 = 0)) :
    Mostly 2 fun alpha : F => Mostly 7 fun sr : F => Mostly 9 fun sl : F => Mostly 7 fun sf : F =>
      Mostly 5 fun sv : F => Mostly 3 fun s : F =>
        gateQuotient E sr sl sf sv g (witOf r) (custOf g r) p + alpha * c0 + alpha ^ 2 * c1
          + (s * d0 + s ^ 2 * d1 + s ^ 3 * d2) ≠ 0 := by
  have cub : ∀ A alpha : F, (A + alpha * c0 + alpha ^ 2 * c1 ≠ 0 ∨ d0 ≠ 0 ∨ d1 ≠ 0 ∨ d2 ≠ 0) →
      Mostly 3 fun s : F => A + alpha * c0 + alpha ^ 2 * c1
        + (s * d0 + s ^ 2 * d1 + s ^ 3 * d2) ≠ 0 := by
    intro A alpha ha
    refine (mostly_cubic _ _ _ _ ha).mono le_rfl fun s hs hc => hs ?_
    linear_combination hc
  by_cases hd : d0 ≠ 0 ∨ d1 ≠ 0 ∨ d2 ≠ 0
  · exact .of_forall _ fun _ => .of_forall _ fun _ => .of_forall _ fun _ => .of_forall _ fun _ =>
      .of_forall _ fun _ => cub _ _ (.inr hd)
  · push Not at hd
    have hq : Mostly 2 fun alpha : F => ¬ (alpha * c0 + alpha ^ 2 * c1
        + (arithQuotient g (witOf r) + p) = 0 ∧ (g.range ≠ 0 → RangeOk r)
        ∧ (g.logic ≠ 0 → LogicOk g r) ∧ (g.fixed ≠ 0 → FixedOk E g r) ∧ (g.var ≠ 0 → VarOk E r)) := by
      by_cases hA : arithQuotient g (witOf r) + p ≠ 0 ∨ c0 ≠ 0 ∨ c1 ≠ 0
      · refine (mostly_quadratic _ _ _ hA).mono le_rfl fun a ha hc => ha ?_
        linear_combination hc.1
      · push Not at hA
        refine .of_forall _ fun a hc => h ⟨⟨(arith_iff g r p).2 hA.1, hc.2.1, hc.2.2.1, hc.2.2.2.1,
          hc.2.2.2.2⟩, hA.2.1, hA.2.2, hd⟩
    refine hq.mono le_rfl fun alpha ha => ?_
    refine (custom_mostly E g r p _ ha).mono le_rfl fun sr h1 => h1.mono le_rfl fun sl h2 =>
      h2.mono le_rfl fun sf h3 => h3.mono le_rfl fun sv h4 => cub _ _ (.inl fun hc => h4 ?_)
    linear_combination hc

/-- What the committed polynomials say on the rows; the five terms besides the gates. -/
structure RowsHold {D : Dom F} (E : EdCurve F) (sel : Gate F[X]) (sig : Quad F) (w : WitVals F[X])
    (z z2 pi f t h1 h2 : F[X]) (zeta beta gamma delta epsilon : F) : Prop where
  gates : ∀ i < D.size, GatesOk E (sel.map (Polynomial.eval (D.omega ^ i)))
    (rowAt D.size (polyW D.omega w) i) (pi.eval (D.omega ^ i))
  perm : PermCheck sig D.size D.omega beta gamma (polyW D.omega w) (onDom D.omega z)
  query : ∀ i < D.size, (sel.lookup.eval (D.omega ^ i)) * (compressRow zeta
    (polyW D.omega w (.left i), polyW D.omega w (.right i), polyW D.omega w (.output i),
      polyW D.omega w (.fourth i)) - onDom D.omega f i) = 0
  look : LookupCheck D.size delta epsilon (onDom D.omega f) (onDom D.omega t) (onDom D.omega h1)
    (onDom D.omega h2) (onDom D.omega z2)

/-- If the rows do not hold, the numerator does not vanish on the domain. -/
theorem numerator_mostly {D : Dom F} (hD : DomOk D) (E : EdCurve F) (sel : Gate F[X]) (sig : Quad F)
    (w : WitVals F[X]) (z z2 pi f t h1 h2 : F[X]) (zeta beta gamma delta epsilon : F)
    (h : ¬ RowsHold (D := D) E sel sig w z z2 pi f t h1 h2 zeta beta gamma delta epsilon) :
    Mostly 2 fun alpha : F => Mostly 7 fun range : F => Mostly 9 fun logic : F =>
      Mostly 7 fun fixed : F => Mostly 5 fun var : F => Mostly 3 fun lookup : F =>
      ∃ i < D.size, ∀ zz aw saw, (numerator E ⟨zeta, beta, gamma, delta, epsilon, alpha, range, logic,
        fixed, var, lookup, zz, aw, saw⟩ (polyRow D.omega sel (sigPolys sig) w z z2 pi f t h1 h2
          (polyOf (firstLagrange D 1)))).eval (D.omega ^ i) ≠ 0 := by
  have hbad : ∃ i < D.size, ¬ (GatesOk E (sel.map (Polynomial.eval (D.omega ^ i)))
      (rowAt D.size (polyW D.omega w) i) (pi.eval (D.omega ^ i))
    ∧ onDom D.omega z i * ownFactor D.omega beta gamma (polyW D.omega w) i
          - onDom D.omega z ((i + 1) % D.size)
            * sigFactor sig D.omega beta gamma (polyW D.omega w) i = 0
    ∧ (onDom D.omega z i - 1) * (if i = 0 then 1 else 0) = 0
    ∧ (sel.lookup.eval (D.omega ^ i)) * (compressRow zeta
        (polyW D.omega w (.left i), polyW D.omega w (.right i), polyW D.omega w (.output i),
          polyW D.omega w (.fourth i)) - onDom D.omega f i) = 0
    ∧ lookAcc D.size delta epsilon (onDom D.omega f) (onDom D.omega t)
              (onDom D.omega h1) (onDom D.omega h2) (onDom D.omega z2) i = 0
    ∧ (onDom D.omega z2 i - 1) * (if i = 0 then 1 else 0) = 0) := by
    by_contra hc
    push Not at hc
    apply h
    refine ⟨fun i hi => (hc i hi).1, ⟨?_, fun i hi => ?_⟩, fun i hi => (hc i hi).2.2.2.1, ⟨?_, fun i hi => ?_⟩⟩
    · have := (hc 0 hD.pos).2.2.1
      simpa [sub_eq_zero] using this
    · have := (hc i hi).2.1
      linear_combination -this
    · have := (hc 0 hD.pos).2.2.2.2.2
      simpa [sub_eq_zero] using this
    · have := (hc i hi).2.2.2.2.1
      unfold lookAcc at this
      linear_combination -this
  obtain ⟨i, hi, hb⟩ := hbad
  refine (row_mostly E _ _ _ _ _ _ _ _ hb).mono le_rfl fun alpha h1 => h1.mono le_rfl fun a h2 =>
    h2.mono le_rfl fun b h3 => h3.mono le_rfl fun c h4 => h4.mono le_rfl fun d h5 =>
    h5.mono le_rfl fun e h6 => ⟨i, hi, fun zz aw saw => ?_⟩
  rw [rowTerm_row hD _ _ _ _ _ _ _ _ _ _ _ _ hi]
  exact h6

/-- Wires that do not satisfy the circuit: whatever is committed to afterwards, some row does not
hold. -/
theorem rows_mostly {K : PField F} {D : Dom F} {c : Composer F} (hD : CDom K c D) (hw : WF c)
    (E : EdCurve F) {sel : Gate F[X]}
    (hsel : ∀ i < D.size, sel.map (Polynomial.eval (D.omega ^ i)) = gateAt c i) {sig : Quad F}
    (hsig : computeSigmaPolynomials c.perm D.size D = .ok sig) {pi : F[X]} {pub : ℕ → F}
    (hpi : ∀ i < D.size, pi.eval (D.omega ^ i) = pub i)
    (hpub : ∀ i < c.n, i ∉ c.intended_pi_pos → pub i = 0) {t : F → F[X]}
    (ht : ∀ zeta, ∀ i < D.size, (t zeta).eval (D.omega ^ i)
      = (compressedTable c D.size zeta).getD i 0)
    (w : WitVals F[X])
    (h : ¬ ∃ v, Sat E (padRows c.lookup_table D.size) D.size c pub (polyW D.omega w) v) :
    Mostly (3 * D.size) fun zeta : F => ∀ f h1 h2, Mostly (4 * D.size) fun beta : F =>
      Mostly (4 * D.size) fun gamma : F => Mostly (4 * D.size + 1) fun delta : F =>
      Mostly (2 * D.size) fun epsilon : F => ∀ z z2,
        ¬ RowsHold (D := D) E sel sig w z z2 pi f (t zeta) h1 h2 zeta beta gamma delta epsilon := by
  have triv : (∀ zeta f h1 h2 beta gamma delta epsilon z z2, ¬ RowsHold (D := D) E sel sig w z z2 pi
      f (t zeta) h1 h2 zeta beta gamma delta epsilon) →
      Mostly (3 * D.size) fun zeta : F => ∀ f h1 h2, Mostly (4 * D.size) fun beta : F =>
      Mostly (4 * D.size) fun gamma : F => Mostly (4 * D.size + 1) fun delta : F =>
      Mostly (2 * D.size) fun epsilon : F => ∀ z z2,
        ¬ RowsHold (D := D) E sel sig w z z2 pi f (t zeta) h1 h2 zeta beta gamma delta epsilon :=
    fun hh => .of_forall _ fun _ _ _ _ => .of_forall _ fun _ => .of_forall _ fun _ =>
      .of_forall _ fun _ => .of_forall _ fun _ _ _ => hh _ _ _ _ _ _ _ _ _ _
  by_cases hg : ∀ i < c.n, GatesOk E (gateAt c i) (rowAt D.size (polyW D.omega w) i) (pub i)
  swap
  · push Not at hg
    obtain ⟨i, hi, hb⟩ := hg
    have hi' := lt_of_lt_of_le hi hD.n
    refine triv fun _ _ _ _ _ _ _ _ _ _ hr => hb ?_
    have := hr.gates i hi'
    rwa [hsel i hi', hpi i hi'] at this
  by_cases hcopy : CopyOk c (polyW D.omega w)
  swap
  · refine .of_forall _ fun zeta f h1 h2 => (perm_sound hD.ok hw (List.Perm.refl _) hD.n hsig
      hcopy).mono le_rfl fun beta hb => hb.mono le_rfl fun gamma hp => .of_forall _ fun _ =>
      .of_forall _ fun _ z z2 hr => hp _ hr.perm
  have hl : ∃ i < c.n, (gateAt c i).lookup ≠ 0 ∧ (polyW D.omega w (.left i),
      polyW D.omega w (.right i), polyW D.omega w (.output i), polyW D.omega w (.fourth i))
      ∉ padRows c.lookup_table D.size := by
    by_contra hc
    push Not at hc
    apply h
    classical
    refine ⟨fun x => if hx : ∃ p, OnWire c x p then polyW D.omega w hx.choose else 0, hD.n, hpub,
      fun i hi => ?_, fun x p hp => ?_⟩
    · obtain ⟨g1, g2, g3, g4, g5⟩ := hg i hi
      exact ⟨g1, g2, g3, g4, g5, fun hq => hc i hi hq⟩
    · have hx : ∃ p, OnWire c x p := ⟨p, hp⟩
      rw [dif_pos hx]
      exact hcopy x p _ hp hx.choose_spec
  obtain ⟨i, hi, hq, hnot⟩ := hl
  have hi' := lt_of_lt_of_le hi hD.n
  have hlen := padRows_length hD.tab hD.ok.pos
  refine (compress_notin _ hnot).mono (by rw [hlen]) fun zeta hz f h1 h2 => ?_
  refine .of_forall _ fun beta => .of_forall _ fun gamma => ?_
  by_cases hf : compressRow zeta (polyW D.omega w (.left i), polyW D.omega w (.right i),
    polyW D.omega w (.output i), polyW D.omega w (.fourth i)) = onDom D.omega f i
  swap
  · refine .of_forall _ fun _ => .of_forall _ fun _ z z2 hr => ?_
    have h1 := hr.query i hi'
    have h2 := congrArg Gate.lookup (hsel i hi')
    simp only [Gate.map] at h2
    rw [h2] at h1
    rcases mul_eq_zero.1 h1 with h1 | h1
    · exact hq h1
    · exact hf (sub_eq_zero.1 h1)
  · refine (lookup_sound (f := onDom D.omega f) (t := onDom D.omega (t zeta)) hi' (fun j hj hc => ?_)
      (onDom D.omega h1) (onDom D.omega h2)).mono le_rfl fun delta hd => hd.mono le_rfl
      fun epsilon he z z2 hr => he _ hr.look
    apply hz
    rw [hf, ← hc]
    show onDom D.omega (t zeta) j ∈ compressedTable c D.size zeta
    unfold onDom
    rw [ht zeta j hj, List.getD_eq_getElem _ _ (by rw [table_length hD]; exact hj)]
    exact List.getElem_mem _

/-! ### The verifier -/

section
variable {K : PField F} {P : PCS F} {d : ℕ} (hS : PcsSound P d) {c : Composer F} {D : Dom F}
  {sel : Gate (List F)} {sig tab : Quad F} {vk : VKey P}
include hS

theorem ext_sel (h : PreOk P c D sel sig tab vk) : vk.sel.map hS.ext = sel.map polyOf := by
  obtain ⟨h1, h2, h3, h4, h5, h6, h7, h8, h9, h10, h11, h12, h13, h14, h15⟩ := commitGate_inv h.selC
  simp only [Gate.map, hS.commit _ _ h1, hS.commit _ _ h2, hS.commit _ _ h3, hS.commit _ _ h4,
    hS.commit _ _ h5, hS.commit _ _ h6, hS.commit _ _ h7, hS.commit _ _ h8, hS.commit _ _ h9,
    hS.commit _ _ h10, hS.commit _ _ h11, hS.commit _ _ h12, hS.commit _ _ h13, hS.commit _ _ h14,
    hS.commit _ _ h15]

theorem ext_sig (h : PreOk P c D sel sig tab vk) : vk.sig.map hS.ext = sigPolys sig := by
  obtain ⟨h1, h2, h3, h4⟩ := commitQuad_inv h.sigC
  simp only [WitVals.map, hS.commit _ _ h1, hS.commit _ _ h2, hS.commit _ _ h3, hS.commit _ _ h4,
    sigPolys]

/-- The polynomial of the table commitment the verifier puts together. -/
theorem ext_table (hD : CDom K c D) (h : PreOk P c D sel sig tab vk) (zeta : F) {i : ℕ}
    (hi : i < D.size) :
    (hS.ext (P.msm [vk.tab.a, vk.tab.b, vk.tab.c, vk.tab.d]
      [1, zeta, zeta * zeta, zeta * zeta * zeta])).eval (D.omega ^ i)
      = (compressedTable c D.size zeta).getD i 0 := by
  obtain ⟨h1, h2, h3, h4⟩ := commitQuad_inv h.tabC
  have hm := hS.msm [(1, vk.tab.a), (zeta, vk.tab.b), (zeta * zeta, vk.tab.c),
    (zeta * zeta * zeta, vk.tab.d)]
  simp only [List.map_cons, List.map_nil] at hm
  rw [hm, hS.commit _ _ h1, hS.commit _ _ h2, hS.commit _ _ h3, hS.commit _ _ h4]
  have hp := padRows_length hD.tab hD.ok.pos
  have hi' : i < (padRows c.lookup_table D.size).length := by rw [hp]; exact hi
  simp only [List.sum_cons, List.sum_nil, eval_add, eval_mul, eval_C, eval_zero, tabPolys]
  rw [ifft_eval hD.ok (by simp [tabQuad, hp]) hi, ifft_eval hD.ok (by simp [tabQuad, hp]) hi,
    ifft_eval hD.ok (by simp [tabQuad, hp]) hi, ifft_eval hD.ok (by simp [tabQuad, hp]) hi]
  simp only [tabQuad, compressedTable, List.getD_eq_getElem?_getD, List.getElem?_map,
    List.getElem?_eq_getElem hi', Option.map_some, Option.getD_some, compressRow]
  ring

end

theorem checkResult_okE {r : Except PErr Bool} {u : Unit} (h : checkResult r = .ok u) :
    r = .ok true := by
  unfold checkResult at h
  split at h
  · rfl
  · cases h
  · cases h

/-- What an accepted proof has shown at the evaluation point. -/
theorem verify_accept {E : EdCurve F} {P : PCS F} {d : ℕ} (hS : PcsSound P d) {D : Dom F}
    (hD : DomOk D) {vk : VKey P} {pi : List (ℕ × F)} {pe : List F} {pr : PlonkProof P} {ch : Chals F}
    (hpe : asEvals pi D.size = .ok pe) (hl : pe.length = D.size) (hz : ch.z ^ D.size ≠ 1)
    (h : verifyWith E P D vk pi pr ch = .ok ()) :
    ∃ q v, customGet pr.ev.custom "q_arith_eval" = .ok q ∧ customVals pr.ev.custom = .ok v ∧
      ((q = (hS.ext vk.sel.arith).eval ch.z ∧ v.ql = (hS.ext vk.sel.l).eval ch.z ∧
        v.qr = (hS.ext vk.sel.r).eval ch.z ∧ v.qc = (hS.ext vk.sel.c).eval ch.z) →
      (numerator E ch (polyRow D.omega (vk.sel.map hS.ext) (vk.sig.map hS.ext)
        ⟨hS.ext pr.a, hS.ext pr.b, hS.ext pr.c, hS.ext pr.d⟩ (hS.ext pr.z) (hS.ext pr.z2)
        (polyOf (D.ifft pe)) (hS.ext pr.f)
        (hS.ext (P.msm [vk.tab.a, vk.tab.b, vk.tab.c, vk.tab.d]
          [1, ch.zeta, ch.zeta * ch.zeta, ch.zeta * ch.zeta * ch.zeta]))
        (hS.ext pr.h1) (hS.ext pr.h2) (polyOf (firstLagrange D 1)))).eval ch.z
      = (ch.z ^ D.size - 1) * ((List.finRange 8).map fun k : Fin 8 =>
          (hS.ext (pr.t k)).eval ch.z * (ch.z ^ D.size) ^ (k : ℕ)).sum) := by
  have hz1 : ch.z ≠ 1 := fun h => hz (by rw [h, one_pow])
  unfold verifyWith at h
  obtain ⟨_, -, h⟩ := bind_okE h
  obtain ⟨_, -, h⟩ := bind_okE h
  obtain ⟨_, -, h⟩ := bind_okE h
  obtain ⟨_, -, h⟩ := bind_okE h
  obtain ⟨_, -, h⟩ := bind_okE h
  obtain ⟨_, -, h⟩ := bind_okE h
  simp only [firstLagrangeEval_ok hD hz1, ok_bind, hpe, liftP] at h
  obtain ⟨linC, hlin, h⟩ := bind_okE h
  obtain ⟨aN, haN, h⟩ := bind_okE h
  obtain ⟨bN, hbN, h⟩ := bind_okE h
  obtain ⟨dN, hdN, h⟩ := bind_okE h
  obtain ⟨u1, hc1, h⟩ := bind_okE h
  have k1 := hS.check _ _ _ _ _ (checkResult_okE hc1)
  have k2 := hS.check _ _ _ _ _ (checkResult_okE h)
  simp only [List.zip_cons_cons, List.zip_nil_right, List.zip_nil_left, List.mem_cons, List.not_mem_nil,
    or_false, forall_eq_or_imp, forall_eq] at k1 k2
  obtain ⟨a0, a1, a2, a3, a4, a5, a6, a7, a8, a9, a10⟩ := k1
  obtain ⟨b0, b1, b2, b3, b4, b5, b6⟩ := k2
  have hlin' := hlin
  unfold linCommitment at hlin'
  obtain ⟨ar, har, hlin'⟩ := bind_okE hlin'
  obtain ⟨v, hv, hlin'⟩ := bind_okE hlin'
  obtain ⟨lo, hlo, -⟩ := bind_okE hlin'
  unfold arithLinC at har
  obtain ⟨q, hq, -⟩ := bind_okE har
  unfold lookupLinC at hlo
  obtain ⟨ct, hct, -⟩ := bind_okE hlo
  have hzeta : ch.zeta ≠ 0 ∧ ch.zeta ≠ 1 := by
    have := liftP_okE hct
    unfold lc at this
    obtain ⟨_, e1, this⟩ := bind_okE this
    obtain ⟨_, e2, this⟩ := bind_okE this
    exact ⟨assertR_okE e1, assertR_okE e2⟩
  refine ⟨q, v, hq, hv, fun hown => ?_⟩
  obtain ⟨o1, o2, o3, o4⟩ := hown
  have hvv : v = ⟨aN, bN, dN, v.ql, v.qr, v.qc⟩ := by
    unfold customVals at hv
    simp only [haN, hbN, hdN, ok_bind] at hv
    obtain ⟨_, -, hv⟩ := bind_okE hv
    obtain ⟨_, -, hv⟩ := bind_okE hv
    obtain ⟨_, -, hv⟩ := bind_okE hv
    simp only [pure, Except.pure, Except.ok.injEq] at hv
    rw [← hv]
  rw [linCommitment_eq hq hv hzeta.1 hzeta.2] at hlin
  simp only [Except.ok.injEq] at hlin
  subst hlin
  rw [hS.msm] at a0
  set r := (polyRow D.omega (vk.sel.map hS.ext) (vk.sig.map hS.ext)
        ⟨hS.ext pr.a, hS.ext pr.b, hS.ext pr.c, hS.ext pr.d⟩ (hS.ext pr.z) (hS.ext pr.z2)
        (polyOf (D.ifft pe)) (hS.ext pr.f)
        (hS.ext (P.msm [vk.tab.a, vk.tab.b, vk.tab.c, vk.tab.d]
          [1, ch.zeta, ch.zeta * ch.zeta, ch.zeta * ch.zeta * ch.zeta]))
        (hS.ext pr.h1) (hS.ext pr.h2) (polyOf (firstLagrange D 1))) with hr
  have hag : RowAgree pr.ev q v ch ((polyOf (firstLagrange D 1)).eval ch.z)
      (r.map (Polynomial.eval ch.z)) := by
    constructor <;> simp only [hr, polyRow, RowVals.map, WitVals.map, Gate.map, shiftP_eval, eval_X,
      a1, a2, a3, a4, a5, a6, a7, a8, a9, a10, b0, b1, b2, b3, b4, b5, b6, o1]
    rw [hvv, o2, o3, o4]
  have key := lin_identity E ch hag (fun k => (hS.ext (pr.t k)).eval ch.z) (D := D) (piEvals := pe)
    (by rw [barycentric_eval hD hl hz]; rfl)
  have e1 : ((linTerms E ch D.size ((polyOf (firstLagrange D 1)).eval ch.z) pr.ev q v vk.sel vk.sig.d
      pr.z pr.z2 pr.h1 pr.t).map fun e : F × P.Comm => C e.1 * hS.ext e.2).sum.eval ch.z
      = ((linTerms E ch D.size ((polyOf (firstLagrange D 1)).eval ch.z) pr.ev q v
        (r.map (Polynomial.eval ch.z)).g (r.map (Polynomial.eval ch.z)).s.d
        (r.map (Polynomial.eval ch.z)).z (r.map (Polynomial.eval ch.z)).z2
        (r.map (Polynomial.eval ch.z)).h1 (fun k => (hS.ext (pr.t k)).eval ch.z)).map
          fun x => x.1 * x.2).sum := by
    have e2 := linTerms_map (fun c => (hS.ext c).eval ch.z) E ch D.size
      ((polyOf (firstLagrange D 1)).eval ch.z) pr.ev q v vk.sel vk.sig.d pr.z pr.z2 pr.h1 pr.t
    have e3 : (r.map (Polynomial.eval ch.z)).g = vk.sel.map fun c => (hS.ext c).eval ch.z := rfl
    have e4 : (r.map (Polynomial.eval ch.z)).s.d = (hS.ext vk.sig.d).eval ch.z := rfl
    have e5 : (r.map (Polynomial.eval ch.z)).z = (hS.ext pr.z).eval ch.z := rfl
    have e6 : (r.map (Polynomial.eval ch.z)).z2 = (hS.ext pr.z2).eval ch.z := rfl
    have e7 : (r.map (Polynomial.eval ch.z)).h1 = (hS.ext pr.h1).eval ch.z := rfl
    rw [e3, e4, e5, e6, e7, ← e2, List.map_map, ← Polynomial.coe_evalRingHom, map_list_sum,
      List.map_map]
    congr 1
    refine List.map_congr_left fun x _ => ?_
    simp
  rw [e1] at a0
  rw [a0, neg_add_cancel] at key
  rw [numerator_eval]
  linear_combination -key

/-! ### Degrees -/

theorem dg_lt {p : F[X]} {d m : ℕ} (h : p.degree < (d : WithBot ℕ)) (hm : d ≤ m) : Dg m 1 p := by
  unfold Dg
  rw [one_mul]
  refine le_trans ?_ hm
  by_cases h0 : p = 0
  · simp [h0]
  · rw [degree_eq_natDegree h0] at h
    exact_mod_cast h.le

theorem dg_shift' {p : F[X]} {m : ℕ} (omega : F) (h : Dg m 1 p) : Dg m 1 (shiftP omega p) :=
  le_trans (shiftP_natDegree_le _ _) h

theorem sum_natDegree_le (l : List F[X]) (k : ℕ) (h : ∀ p ∈ l, p.natDegree ≤ k) :
    l.sum.natDegree ≤ k := by
  induction l with
  | nil => simp
  | cons a l ih =>
    rw [List.sum_cons]
    exact le_trans (natDegree_add_le _ _) (max_le (h a (by simp)) (ih fun p hp => h p (by simp [hp])))

/-- A row of polynomials that does not vanish everywhere on the domain is not matched by a quotient,
at most points. -/
theorem point_mostly {P : PCS F} {d : ℕ} (hS : PcsSound P d) {D : Dom F} (hD : DomOk D)
    (E : EdCurve F) (vk : VKey P) (a b c e z z2 f tb h1 h2 : P.Comm) {pe : List F}
    (hl : pe.length = D.size) (ch : Chals F) (t : Fin 8 → P.Comm)
    (h : ∃ i < D.size, ∀ zz aw saw, (numerator E { ch with z := zz, aw := aw, saw := saw }
      (polyRow D.omega (vk.sel.map hS.ext) (vk.sig.map hS.ext)
        ⟨hS.ext a, hS.ext b, hS.ext c, hS.ext e⟩ (hS.ext z) (hS.ext z2)
        (polyOf (D.ifft pe)) (hS.ext f) (hS.ext tb)
        (hS.ext h1) (hS.ext h2) (polyOf (firstLagrange D 1)))).eval (D.omega ^ i) ≠ 0) :
    Mostly (10 * max d D.size) fun zz : F => zz ^ D.size ≠ 1 ∧ ∀ aw saw,
      (numerator E { ch with z := zz, aw := aw, saw := saw }
      (polyRow D.omega (vk.sel.map hS.ext) (vk.sig.map hS.ext)
        ⟨hS.ext a, hS.ext b, hS.ext c, hS.ext e⟩ (hS.ext z) (hS.ext z2)
        (polyOf (D.ifft pe)) (hS.ext f) (hS.ext tb)
        (hS.ext h1) (hS.ext h2) (polyOf (firstLagrange D 1)))).eval zz
      ≠ (zz ^ D.size - 1) * ((List.finRange 8).map fun k : Fin 8 =>
          (hS.ext (t k)).eval zz * (zz ^ D.size) ^ (k : ℕ)).sum := by
  set m := max d D.size with hm
  set r := (polyRow D.omega (vk.sel.map hS.ext) (vk.sig.map hS.ext)
        ⟨hS.ext a, hS.ext b, hS.ext c, hS.ext e⟩ (hS.ext z) (hS.ext z2)
        (polyOf (D.ifft pe)) (hS.ext f) (hS.ext tb)
        (hS.ext h1) (hS.ext h2) (polyOf (firstLagrange D 1))) with hr
  have same : ∀ zz aw saw, numerator E { ch with z := zz, aw := aw, saw := saw } r
      = numerator E ch r := fun _ _ _ => rfl
  simp only [same] at h ⊢
  obtain ⟨i, hi, h⟩ := h
  have h := h 0 0 0
  have e1 : ∀ c, Dg m 1 (hS.ext c) := fun c => dg_lt (hS.deg c) (le_max_left _ _)
  have e2 : ∀ {p : F[X]}, p.degree < (D.size : WithBot ℕ) → Dg m 1 p :=
    fun hp => dg_lt hp (le_max_right _ _)
  have hm1 : 1 ≤ m := le_trans hD.pos (le_max_right _ _)
  have hX : Dg m 1 (X : F[X]) := by
    unfold Dg; rw [natDegree_X]; omega
  have hdeg : r.Deg m := by
    constructor <;> simp only [hr, polyRow, Gate.map, WitVals.map] <;>
      first
        | with_reducible exact e1 _
        | with_reducible exact dg_shift' _ (e1 _)
        | with_reducible exact hX
        | with_reducible exact e2 (ifft_degree hD hl)
        | with_reducible exact e2 (firstLagrange_degree hD 1)
  have hN : (numerator E ch r).natDegree ≤ 7 * m := rowTerm_degree hdeg E ch
  set T : F[X] := ((List.finRange 8).map fun k : Fin 8 => hS.ext (t k) * (X ^ D.size) ^ (k : ℕ)).sum
    with hT
  have hTe : ∀ x, T.eval x = ((List.finRange 8).map fun k : Fin 8 =>
      (hS.ext (t k)).eval x * (x ^ D.size) ^ (k : ℕ)).sum := by
    intro x
    rw [hT, ← Polynomial.coe_evalRingHom, map_list_sum, List.map_map]
    congr 1
    refine List.map_congr_left fun k _ => ?_
    simp
  have hTd : T.natDegree ≤ 8 * m := by
    rw [hT]
    refine sum_natDegree_le _ _ fun p hp => ?_
    obtain ⟨k, -, rfl⟩ := List.mem_map.1 hp
    refine le_trans natDegree_mul_le ?_
    have g1 := e1 (t k)
    unfold Dg at g1
    have g2 : ((X ^ D.size : F[X]) ^ (k : ℕ)).natDegree ≤ 7 * m := by
      rw [← pow_mul, natDegree_X_pow]
      have := k.2
      calc D.size * (k : ℕ) ≤ m * 7 := Nat.mul_le_mul (le_max_right _ _) (by omega)
        _ = 7 * m := by ring
    omega
  have hQ : (numerator E ch r - (X ^ D.size - 1) * T).natDegree ≤ 9 * m := by
    refine le_trans (natDegree_sub_le _ _) (max_le (by omega) ?_)
    refine le_trans natDegree_mul_le ?_
    have : (X ^ D.size - 1 : F[X]).natDegree = D.size := natDegree_X_pow_sub_C (r := 1)
    have := le_max_right d D.size
    omega
  have hQ0 : numerator E ch r - (X ^ D.size - 1) * T ≠ 0 := by
    intro h0
    apply h
    rw [sub_eq_zero.1 h0, eval_mul, eval_sub, eval_pow, eval_X, eval_one, ← pow_mul, mul_comm i,
      pow_mul, hD.root.pow_eq_one, one_pow, sub_self, zero_mul]
  have m1 : Mostly (9 * m) fun zz : F => (numerator E ch r - (X ^ D.size - 1) * T).eval zz ≠ 0 :=
    mostly_of_poly_ne _ _ hQ0 hQ fun x hx => hx
  have m2 : Mostly D.size fun zz : F => zz ^ D.size ≠ 1 := by
    refine mostly_of_poly_ne (X ^ D.size - C 1) _ (X_pow_sub_C_ne_zero hD.pos 1)
      (by rw [natDegree_X_pow_sub_C]) fun x hx h => hx ?_
    simp [h]
  refine (m1.and m2).mono (by have := le_max_right d D.size; omega) fun zz hzz => ⟨hzz.2, fun _ _ hc => hzz.1 ?_⟩
  rw [eval_sub, eval_mul, hTe, hc]
  simp

end VO.Plonk
