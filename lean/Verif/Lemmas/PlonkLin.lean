import Verif.Lemmas.PlonkQuot

/-
The linearised equation the verifier checks at the evaluation challenge.
-/

set_option linter.unusedSectionVars false

namespace VO.Plonk

open VO.Spec VO.Spec.Plonk Polynomial

variable {F : Type} [Field F] [DecidableEq F]

/-- The terms of the linearisation, scalars and what they multiply (commitments, polynomials or
values). -/
def linTerms {A : Type} (E : EdCurve F) (ch : Chals F) (n : ℕ) (l1 : F) (e : Evals F) (q : F)
    (v : CustomVals F) (sel : Gate A) (s4 z z2 h1 : A) (t : Fin 8 → A) : List (F × A) :=
  [(e.w.a * e.w.b * q, sel.m), (e.w.a * q, sel.l), (e.w.b * q, sel.r), (e.w.d * q, sel.q4),
    (e.w.c * q, sel.o), (e.w.a ^ 5 * q, sel.hl), (e.w.b ^ 5 * q, sel.hr), (e.w.d ^ 5 * q, sel.h4),
    (q, sel.c),
    (rangeConstraints ch.range e.w v, sel.range), (logicConstraints ch.logic e.w v, sel.logic),
    (fixedConstraints E ch.fixed e.w v, sel.fixed), (curveConstraints E ch.var e.w v, sel.var),
    ((lc4 e.w.a e.w.b e.w.c e.w.d ch.zeta - e.f) * ch.lookup, sel.lookup),
    ((1 + ch.delta) * (ch.epsilon + e.f)
        * (ch.epsilon * (1 + ch.delta) + e.table + ch.delta * e.tableNext) * (ch.lookup * ch.lookup)
      + l1 * (ch.lookup * ch.lookup * ch.lookup), z2),
    (-e.z2Next * (ch.lookup * ch.lookup)
      * (ch.epsilon * (1 + ch.delta) + e.h2 + ch.delta * e.h1Next), h1),
    ((e.w.a + ch.beta * ch.z + ch.gamma) * (e.w.b + ch.beta * K1 * ch.z + ch.gamma)
        * (e.w.c + ch.beta * K2 * ch.z + ch.gamma)
        * ((e.w.d + ch.beta * K3 * ch.z + ch.gamma) * ch.alpha) + l1 * (ch.alpha * ch.alpha), z),
    (-((e.w.a + ch.beta * e.s1 + ch.gamma) * (e.w.b + ch.beta * e.s2 + ch.gamma)
        * (e.w.c + ch.beta * e.s3 + ch.gamma) * (ch.beta * e.perm * ch.alpha)), s4)]
  ++ (List.finRange 8).map fun k : Fin 8 =>
    (-(ch.z ^ n - 1) * (ch.z ^ n - 1 + 1) ^ (k : ℕ), t k)

theorem linTerms_map {A B : Type} (φ : A → B) (E : EdCurve F) (ch : Chals F) (n : ℕ) (l1 : F)
    (e : Evals F) (q : F) (v : CustomVals F) (sel : Gate A) (s4 z z2 h1 : A) (t : Fin 8 → A) :
    (linTerms E ch n l1 e q v sel s4 z z2 h1 t).map (fun x => (x.1, φ x.2))
      = linTerms E ch n l1 e q v (sel.map φ) (φ s4) (φ z) (φ z2) (φ h1) (fun k => φ (t k)) := by
  simp [linTerms, Gate.map]

/-- The verifier commits to the terms. -/
theorem linCommitment_eq {P : PCS F} {E : EdCurve F} {D : Dom F} {vk : VKey P} {pr : PlonkProof P}
    {ch : Chals F} {l1 q : F} {v : CustomVals F} (hq : customGet pr.ev.custom "q_arith_eval" = .ok q)
    (hv : customVals pr.ev.custom = .ok v) (h0 : ch.zeta ≠ 0) (h1 : ch.zeta ≠ 1) :
    linCommitment P E D vk pr ch l1 = .ok
      (P.msm ((linTerms E ch D.size l1 pr.ev q v vk.sel vk.sig.d pr.z pr.z2 pr.h1 pr.t).map (·.2))
        ((linTerms E ch D.size l1 pr.ev q v vk.sel vk.sig.d pr.z pr.z2 pr.h1 pr.t).map (·.1))) := by
  unfold linCommitment arithLinC lookupLinC
  simp only [hq, hv, lc_four h0 h1, ok_bind, liftP, pure, Except.pure]
  rfl

/-- A row of values agrees with the evaluations of a proof. -/
structure RowAgree (e : Evals F) (q : F) (v : CustomVals F) (ch : Chals F) (l1 : F)
    (r : RowVals F) : Prop where
  w : e.w = r.w
  s1 : e.s1 = r.s.a
  s2 : e.s2 = r.s.b
  s3 : e.s3 = r.s.c
  perm : e.perm = r.zN
  z2Next : e.z2Next = r.z2N
  h1Next : e.h1Next = r.h1N
  h2 : e.h2 = r.h2
  f : e.f = r.f
  table : e.table = r.t
  tableNext : e.tableNext = r.tN
  q : q = r.g.arith
  v : v = ⟨r.aN, r.bN, r.dN, r.g.l, r.g.r, r.g.c⟩
  x : ch.z = r.x
  l1 : l1 = r.l1

/-- The value of the linearisation plus `r0` is the row term minus the vanishing polynomial times
the quotient. -/
theorem lin_identity (E : EdCurve F) (ch : Chals F) {D : Dom F} {l1 : F} {e : Evals F} {q : F}
    {v : CustomVals F} {r : RowVals F} (h : RowAgree e q v ch l1 r) (t : Fin 8 → F)
    {piEvals : List F} (hpi : barycentric D piEvals ch.z = r.pi) :
    ((linTerms E ch D.size l1 e q v r.g r.s.d r.z r.z2 r.h1 t).map fun x => x.1 * x.2).sum
        + computeR0 D piEvals ch l1 e
      = rowTerm E ch r
        - (ch.z ^ D.size - 1) * ((List.finRange 8).map fun k : Fin 8 => t k * (ch.z ^ D.size) ^ (k : ℕ)).sum := by
  obtain ⟨w, s1, s2, s3, perm, z2Next, h1Next, h2, f, table, tableNext, hq, hv, hx, hl1⟩ := h
  have hts : ((List.finRange 8).map fun k : Fin 8 =>
      (-(ch.z ^ D.size - 1) * (ch.z ^ D.size - 1 + 1) ^ (k : ℕ), t k)).map (fun x => x.1 * x.2)
      = (List.finRange 8).map fun k : Fin 8 =>
        -(ch.z ^ D.size - 1) * (t k * (ch.z ^ D.size) ^ (k : ℕ)) := by
    rw [List.map_map]
    apply List.map_congr_left
    intro k _
    simp only [Function.comp_apply, sub_add_cancel]
    ring
  unfold linTerms computeR0
  rw [List.map_append, List.sum_append, hts, List.sum_map_mul_left, hpi]
  simp only [List.map_cons, List.map_nil, List.sum_cons, List.sum_nil]
  subst hq hv
  rw [w, s1, s2, s3, perm, z2Next, h1Next, h2, f, table, tableNext, hx, hl1]
  simp only [rowTerm, gateQuotient, arithQuotient, permQuotient, permIdentity, permCopy,
    lookupQuotient]
  ring

end VO.Plonk
