import Verif.Lemmas.PlonkSound

/-
Proofs made by hand: when the verifier accepts, and what can be chosen after the evaluation point.
-/

set_option linter.unusedSectionVars false

namespace VO.Plonk

open VO.Spec VO.Spec.Plonk Polynomial

variable {F : Type} [Field F] [DecidableEq F]

/-- Every polynomial has a list of coefficients. -/
theorem exists_polyOf (p : F[X]) : ∃ l : List F, polyOf l = p := by
  refine ⟨(List.range (p.natDegree + 1)).map p.coeff, ?_⟩
  ext i
  rw [coeff_polyOf, List.getD_eq_getElem?_getD, List.getElem?_map]
  by_cases h : i < p.natDegree + 1
  · rw [List.getElem?_range h]; rfl
  · rw [List.getElem?_eq_none (by simpa using h), coeff_eq_zero_of_natDegree_lt (by omega)]; rfl

/-- Openings of polynomials. -/
theorem open_polys {P : PCS F} {d : ℕ} (hP : PcsComplete P d) (ps : List F[X])
    (h : ∀ p ∈ ps, p.degree < d) (x ξ : F) :
    ∃ π, P.check (ps.map hP.rep) x (ps.map fun p => p.eval x) π ξ = .ok true := by
  obtain ⟨ls, hls⟩ : ∃ ls : List (List F), ls.map polyOf = ps := by
    induction ps with
    | nil => exact ⟨[], rfl⟩
    | cons p ps ih =>
      obtain ⟨ls, e⟩ := ih fun q hq => h q (by simp [hq])
      obtain ⟨l, e'⟩ := exists_polyOf p
      exact ⟨l :: ls, by simp [e, e']⟩
  subst hls
  obtain ⟨π, -, e⟩ := hP.openAt ls x ξ fun p hp => h _ (List.mem_map_of_mem hp)
  refine ⟨π, ?_⟩
  rw [List.map_map, List.map_map]
  simpa [Function.comp_def, polyEval_eq] using e

/-- The polynomials of a dishonest proof. -/
structure FPolys (F : Type) [Field F] where
  w : WitVals F[X]
  z : F[X]
  z2 : F[X]
  f : F[X]
  h1 : F[X]
  h2 : F[X]
  t : Fin 8 → F[X]

/-- Degrees below `d`. -/
structure FPolys.Lt (p : FPolys F) (d : ℕ) : Prop where
  a : p.w.a.degree < d
  b : p.w.b.degree < d
  c : p.w.c.degree < d
  e : p.w.d.degree < d
  z : p.z.degree < d
  z2 : p.z2.degree < d
  f : p.f.degree < d
  h1 : p.h1.degree < d
  h2 : p.h2.degree < d
  t : ∀ k, (p.t k).degree < d

/-- A property of the four components. -/
def WitAll {α : Type} (p : α → Prop) (w : WitVals α) : Prop := p w.a ∧ p w.b ∧ p w.c ∧ p w.d

/-- The table polynomial. -/
noncomputable def tabPoly (tab : WitVals F[X]) (zeta : F) : F[X] :=
  C 1 * tab.a + (C zeta * tab.b + (C (zeta * zeta) * tab.c + (C (zeta * zeta * zeta) * tab.d + 0)))

/-- The evaluations: true values, and four selector values chosen freely. -/
noncomputable def forgedEvals (omega zeta zz : F) (sig tab : WitVals F[X]) (p : FPolys F)
    (q ql qr qc : F) : Evals F :=
  { w := p.w.map (Polynomial.eval zz)
    s1 := sig.a.eval zz, s2 := sig.b.eval zz, s3 := sig.c.eval zz, perm := p.z.eval (zz * omega)
    qLookup := 0, z2Next := p.z2.eval (zz * omega), h1 := 0, h1Next := p.h1.eval (zz * omega)
    h2 := p.h2.eval zz, f := p.f.eval zz, table := (tabPoly tab zeta).eval zz
    tableNext := (tabPoly tab zeta).eval (zz * omega)
    custom := [("q_arith_eval", q), ("q_c_eval", qc), ("q_l_eval", ql), ("q_r_eval", qr),
      ("a_next_eval", p.w.a.eval (zz * omega)), ("b_next_eval", p.w.b.eval (zz * omega)),
      ("d_next_eval", p.w.d.eval (zz * omega))] }

/-- The custom values. -/
noncomputable def forgedCustom (omega zz : F) (p : FPolys F) (ql qr qc : F) : CustomVals F :=
  ⟨p.w.a.eval (zz * omega), p.w.b.eval (zz * omega), p.w.d.eval (zz * omega), ql, qr, qc⟩

/-- Polynomials behind a verifier key. -/
structure KeyPolys {P : PCS F} {d : ℕ} (hP : PcsComplete P d) (vk : VKey P) (sel : Gate F[X])
    (sig tab : WitVals F[X]) : Prop where
  selC : vk.sel = sel.map hP.rep
  sigC : vk.sig = sig.map hP.rep
  tabC : vk.tab = tab.map hP.rep
  selD : GateAll (fun p => p.degree < (d : WithBot ℕ)) sel
  sigD : WitAll (fun p => p.degree < (d : WithBot ℕ)) sig
  tabD : WitAll (fun p => p.degree < (d : WithBot ℕ)) tab

/-- The conditions on the challenges. -/
structure GoodCh (D : Dom F) (ch : Chals F) : Prop where
  d1 : ch.beta ≠ ch.gamma
  d2 : ch.beta ≠ ch.delta
  d3 : ch.beta ≠ ch.epsilon
  d4 : ch.gamma ≠ ch.delta
  d5 : ch.gamma ≠ ch.epsilon
  d6 : ch.delta ≠ ch.epsilon
  z0 : ch.zeta ≠ 0
  z1 : ch.zeta ≠ 1
  z : ch.z ^ D.size ≠ 1

/-- The left side of the verifier's equation, as a number. -/
noncomputable def linValue (E : EdCurve F) (D : Dom F) (ch : Chals F) (pe : List F) (sel : Gate F[X])
    (sig : WitVals F[X]) (e : Evals F) (q : F) (v : CustomVals F) (z z2 h1 : F) (t : Fin 8 → F) : F :=
  ((linTerms E ch D.size ((polyOf (firstLagrange D 1)).eval ch.z) e q v
    (sel.map (Polynomial.eval ch.z)) (sig.d.eval ch.z) z z2 h1 t).map fun x => x.1 * x.2).sum
  + computeR0 D pe ch ((polyOf (firstLagrange D 1)).eval ch.z) e

/-- If the equation holds, openings can be made and the verifier accepts. -/
theorem forge_accept {P : PCS F} {d : ℕ} (hP : PcsComplete P d) {E : EdCurve F} {D : Dom F}
    (hD : DomOk D) {vk : VKey P} {sel : Gate F[X]} {sig tab : WitVals F[X]}
    (hk : KeyPolys hP vk sel sig tab) {pi : List (ℕ × F)} {pe : List F}
    (hpe : asEvals pi D.size = .ok pe) {ch : Chals F} (hg : GoodCh D ch) {p : FPolys F} (hp : p.Lt d)
    (q ql qr qc : F)
    (heq : linValue E D ch pe sel sig (forgedEvals D.omega ch.zeta ch.z sig tab p q ql qr qc) q
      (forgedCustom D.omega ch.z p ql qr qc) (p.z.eval ch.z) (p.z2.eval ch.z) (p.h1.eval ch.z)
      (fun k => (p.t k).eval ch.z) = 0) :
    ∃ o1 o2, verifyWith E P D vk pi ⟨hP.rep p.w.a, hP.rep p.w.b, hP.rep p.w.c, hP.rep p.w.d,
      hP.rep p.z, hP.rep p.f, hP.rep p.h1, hP.rep p.h2, hP.rep p.z2, fun k => hP.rep (p.t k), o1, o2,
      forgedEvals D.omega ch.zeta ch.z sig tab p q ql qr qc⟩ ch = .ok () := by
  have hz' : ch.z ≠ 1 := fun h => hg.z (by rw [h, one_pow])
  set e := forgedEvals D.omega ch.zeta ch.z sig tab p q ql qr qc with he
  set v := forgedCustom D.omega ch.z p ql qr qc with hv
  set l1 := (polyOf (firstLagrange D 1)).eval ch.z with hl1
  set L : F[X] := ((linTerms E ch D.size l1 e q v sel sig.d p.z p.z2 p.h1 p.t).map
    fun x => C x.1 * x.2).sum with hL
  have hall : ∀ x ∈ linTerms E ch D.size l1 e q v sel sig.d p.z p.z2 p.h1 p.t, x.2.degree < d :=
    linTerms_all hP (p := fun q : F[X] => q.degree < d) hk.selD hk.sigD.2.2.2 hp.z hp.z2 hp.h1 hp.t
  have hLd : L.degree < d := sum_degree hP _ hall
  have hLe : L.eval ch.z = -computeR0 D pe ch l1 e := by
    have e2 := linTerms_map (Polynomial.eval ch.z) E ch D.size l1 e q v sel sig.d p.z p.z2 p.h1 p.t
    rw [← sub_eq_zero, sub_neg_eq_add, ← heq]
    unfold linValue
    rw [← e2, List.map_map, hL, ← Polynomial.coe_evalRingHom, map_list_sum, List.map_map]
    congr 2
    refine List.map_congr_left fun x _ => ?_
    simp
  have hLc : P.msm ((linTerms E ch D.size l1 e q v vk.sel vk.sig.d (hP.rep p.z) (hP.rep p.z2)
        (hP.rep p.h1) (fun k => hP.rep (p.t k))).map (·.2))
      ((linTerms E ch D.size l1 e q v vk.sel vk.sig.d (hP.rep p.z) (hP.rep p.z2)
        (hP.rep p.h1) (fun k => hP.rep (p.t k))).map (·.1)) = hP.rep L := by
    rw [hk.selC, hk.sigC]
    simp only [WitVals.map]
    rw [← linTerms_map hP.rep, List.map_map, List.map_map, hL]
    exact hP.msm _ hall
  have htd : (tabPoly tab ch.zeta).degree < (d : WithBot ℕ) := by
    have := sum_degree (n := d) hP [(1, tab.a), (ch.zeta, tab.b), (ch.zeta * ch.zeta, tab.c),
      (ch.zeta * ch.zeta * ch.zeta, tab.d)] (by
        obtain ⟨t1, t2, t3, t4⟩ := hk.tabD
        simp only [List.mem_cons, List.not_mem_nil, or_false]
        rintro x (rfl | rfl | rfl | rfl) <;> with_reducible assumption)
    simpa [tabPoly] using this
  have htc : P.msm [vk.tab.a, vk.tab.b, vk.tab.c, vk.tab.d] [1, ch.zeta, ch.zeta * ch.zeta,
      ch.zeta * ch.zeta * ch.zeta] = hP.rep (tabPoly tab ch.zeta) := by
    rw [hk.tabC]
    exact hP.msm [(1, tab.a), (ch.zeta, tab.b), (ch.zeta * ch.zeta, tab.c),
      (ch.zeta * ch.zeta * ch.zeta, tab.d)] (by
        obtain ⟨t1, t2, t3, t4⟩ := hk.tabD
        simp only [List.mem_cons, List.not_mem_nil, or_false]
        rintro x (rfl | rfl | rfl | rfl) <;> with_reducible assumption)
  obtain ⟨s1, s2, s3, s4⟩ := hk.sigD
  obtain ⟨o1, ho1⟩ := open_polys hP [L, sig.a, sig.b, sig.c, p.f, p.h2, tabPoly tab ch.zeta, p.w.a,
    p.w.b, p.w.c, p.w.d] (by
      obtain ⟨⟩ := hp
      simp only [List.mem_cons, List.not_mem_nil, or_false]
      rintro x (rfl | rfl | rfl | rfl | rfl | rfl | rfl | rfl | rfl | rfl | rfl) <;>
        with_reducible assumption) ch.z ch.aw
  obtain ⟨o2, ho2⟩ := open_polys hP [p.z, p.w.a, p.w.b, p.w.d, p.h1, p.z2, tabPoly tab ch.zeta] (by
      obtain ⟨⟩ := hp
      simp only [List.mem_cons, List.not_mem_nil, or_false]
      rintro x (rfl | rfl | rfl | rfl | rfl | rfl | rfl) <;>
        with_reducible assumption) (ch.z * D.omega) ch.saw
  refine ⟨o1, o2, ?_⟩
  have hq : customGet e.custom "q_arith_eval" = .ok q := by
    simp [he, forgedEvals, customGet, List.find?]
  have hvv : customVals e.custom = .ok v := by
    simp [he, hv, forgedEvals, forgedCustom, customVals, customGet, List.find?, ok_bind, pure,
      Except.pure]
  have ha : customGet e.custom "a_next_eval" = .ok (p.w.a.eval (ch.z * D.omega)) := by
    simp [he, forgedEvals, customGet, List.find?]
  have hb : customGet e.custom "b_next_eval" = .ok (p.w.b.eval (ch.z * D.omega)) := by
    simp [he, forgedEvals, customGet, List.find?]
  have hdn : customGet e.custom "d_next_eval" = .ok (p.w.d.eval (ch.z * D.omega)) := by
    simp [he, forgedEvals, customGet, List.find?]
  unfold verifyWith
  simp only [liftP, assertR, hg.d1, hg.d2, hg.d3, hg.d4, hg.d5, hg.d6, ne_eq, not_false_eq_true,
      if_true, ok_bind, firstLagrangeEval_ok hD hz', hpe]
  rw [linCommitment_eq (q := q) (v := v) hq hvv hg.z0 hg.z1]
  simp only [ok_bind, hLc, htc, ha, hb, hdn, ← hl1, ← hLe]
  rw [hk.sigC]
  have c1 : P.check [hP.rep L, (sig.map hP.rep).a, (sig.map hP.rep).b, (sig.map hP.rep).c,
      hP.rep p.f, hP.rep p.h2, hP.rep (tabPoly tab ch.zeta), hP.rep p.w.a, hP.rep p.w.b,
      hP.rep p.w.c, hP.rep p.w.d] ch.z [L.eval ch.z, e.s1, e.s2, e.s3, e.f, e.h2, e.table, e.w.a,
      e.w.b, e.w.c, e.w.d] o1 ch.aw = .ok true := ho1
  have c2 : P.check [hP.rep p.z, hP.rep p.w.a, hP.rep p.w.b, hP.rep p.w.d, hP.rep p.h1,
      hP.rep p.z2, hP.rep (tabPoly tab ch.zeta)] (ch.z * D.omega) [e.perm,
      p.w.a.eval (ch.z * D.omega), p.w.b.eval (ch.z * D.omega), p.w.d.eval (ch.z * D.omega),
      e.h1Next, e.z2Next, e.tableNext] o2 ch.saw = .ok true := ho2
  rw [c1]
  simp only [checkResult, ok_bind]
  rw [c2]

/-! ### What can be chosen late -/

/-- The factor of the lookup accumulator in the verifier's equation. -/
def z2Coeff (ch : Chals F) (l1 f t tN : F) : F :=
  (1 + ch.delta) * (ch.epsilon + f) * (ch.epsilon * (1 + ch.delta) + t + ch.delta * tN)
    * (ch.lookup * ch.lookup) + l1 * (ch.lookup * ch.lookup * ch.lookup)

/-- The equation is linear in the value of the accumulator. -/
theorem linValue_z2 (E : EdCurve F) (D : Dom F) (ch : Chals F) (pe : List F) (sel : Gate F[X])
    (sig : WitVals F[X]) (e : Evals F) (q : F) (v : CustomVals F) (z y h1 : F) (t : Fin 8 → F) :
    linValue E D ch pe sel sig e q v z y h1 t = linValue E D ch pe sel sig e q v z 0 h1 t
      + z2Coeff ch ((polyOf (firstLagrange D 1)).eval ch.z) e.f e.table e.tableNext * y := by
  unfold linValue linTerms z2Coeff
  simp only [List.map_append, List.map_cons, List.map_nil, List.sum_append, List.sum_cons,
    List.sum_nil]
  ring

/-- The factor of the unchecked selector value. -/
def arithCoeff (g : Gate F) (a b c d : F) : F :=
  g.m * a * b + g.l * a + g.r * b + g.o * c + g.q4 * d + g.hl * a ^ 5 + g.hr * b ^ 5 + g.h4 * d ^ 5
    + g.c

/-- The equation is linear in that value. -/
theorem linValue_q (E : EdCurve F) (D : Dom F) (ch : Chals F) (pe : List F) (sel : Gate F[X])
    (sig : WitVals F[X]) (e : Evals F) (q : F) (v : CustomVals F) (z y h1 : F) (t : Fin 8 → F) :
    linValue E D ch pe sel sig e q v z y h1 t = linValue E D ch pe sel sig e 0 v z y h1 t
      + arithCoeff (sel.map (Polynomial.eval ch.z)) e.w.a e.w.b e.w.c e.w.d * q := by
  unfold linValue linTerms arithCoeff
  simp only [List.map_append, List.map_cons, List.map_nil, List.sum_append, List.sum_cons,
    List.sum_nil]
  ring

theorem linValue_custom (E : EdCurve F) (D : Dom F) (ch : Chals F) (pe : List F) (sel : Gate F[X])
    (sig : WitVals F[X]) (e : Evals F) (l : List (String × F)) (q : F) (v : CustomVals F)
    (z y h1 : F) (t : Fin 8 → F) :
    linValue E D ch pe sel sig { e with custom := l } q v z y h1 t
      = linValue E D ch pe sel sig e q v z y h1 t := rfl

end VO.Plonk
