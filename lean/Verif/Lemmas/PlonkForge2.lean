import Verif.Lemmas.PlonkForge
import Verif.Lemmas.PlonkGadget3
import Verif.Lemmas.PlonkReach
import Verif.Props.PlonkSnark

/-
The two ways to make a proof by hand: choose the lookup accumulator, or the value of a selector,
after the evaluation point.
-/

set_option linter.unusedSectionVars false

namespace VO.Plonk

open VO.Spec VO.Spec.Plonk Polynomial

variable {F : Type} [Field F] [DecidableEq F]

/-- The polynomials behind the key of a preprocessed circuit. -/
theorem keyPolys_pre {K : PField F} {P : PCS F} {d : ℕ} (hP : PcsComplete P d) {c : Composer F}
    (hw : WF c) {D : Dom F} (hD : CDom K c D) (hd : D.size ≤ d) {sel : Gate (List F)} {sig tab : Quad F}
    {vk : VKey P} (h : PreOk P c D sel sig tab vk) :
    KeyPolys hP vk (sel.map polyOf) (sigPolys sig) (sigPolys (tabPolys D c.lookup_table)) := by
  have hv := vkFor_pre hP hw hD hd (pk := ⟨D.size, sel, sel, sig, sig, [], [], tab⟩) h
  have lt : ∀ {p : List F}, (polyOf p).degree < D.size → (polyOf p).degree < d :=
    fun h => lt_of_lt_of_le h (by exact_mod_cast hd)
  obtain ⟨s1, s2, s3, s4⟩ := sig_degree hD.ok hw hD.n h.sigEq
  obtain ⟨t1, t2, t3, t4⟩ := tab_degree hD
  refine ⟨hv.sel, hv.sig, hv.tab, ?_, ⟨lt s1, lt s2, lt s3, lt s4⟩, ⟨lt t1, lt t2, lt t3, lt t4⟩⟩
  rw [h.selEq]
  obtain ⟨h1, h2, h3, h4, h5, h6, h7, h8, h9, h10, h11, h12, h13, h14, h15⟩ := selector_degree hD hw
  exact ⟨lt h1, lt h2, lt h3, lt h4, lt h5, lt h6, lt h7, lt h8, lt h9, lt h10, lt h11, lt h12,
    lt h13, lt h14, lt h15⟩

/-- What a commitment stands for. -/
theorem ext_rep {P : PCS F} {d : ℕ} (hP : PcsComplete P d) (hS : PcsSound P d) {p : F[X]}
    (h : p.degree < d) : hS.ext (hP.rep p) = p := by
  obtain ⟨l, rfl⟩ := exists_polyOf p
  exact hS.commit _ _ (hP.commit l h)

theorem tabPoly_degree {tab : WitVals F[X]} {d : ℕ} (h : WitAll (fun p => p.degree < (d : WithBot ℕ)) tab)
    (zeta : F) : (tabPoly tab zeta).natDegree ≤ d := by
  have nd : ∀ {p : F[X]}, p.degree < (d : WithBot ℕ) → p.natDegree ≤ d := fun h =>
    natDegree_le_of_degree_le h.le
  obtain ⟨h1, h2, h3, h4⟩ := h
  unfold tabPoly
  refine natDegree_add_le_of_degree_le ((natDegree_C_mul_le _ _).trans (nd h1)) ?_
  refine natDegree_add_le_of_degree_le ((natDegree_C_mul_le _ _).trans (nd h2)) ?_
  refine natDegree_add_le_of_degree_le ((natDegree_C_mul_le _ _).trans (nd h3)) ?_
  refine natDegree_add_le_of_degree_le ((natDegree_C_mul_le _ _).trans (nd h4)) ?_
  simp

/-- For most points the factor of the accumulator is not zero. -/
theorem z2Coeff_mostly {D : Dom F} (hD : DomOk D) (hn : 2 ≤ D.size) {d : ℕ} (hd : D.size ≤ d)
    {f T : F[X]} (hf : f.degree < d) (hT : T.natDegree ≤ d) (ch : Chals F) (hs : ch.lookup ≠ 0)
    (hdl : ch.delta ≠ -1) (h1 : ch.epsilon ≠ -f.eval D.omega)
    (h2 : ch.epsilon ≠ -((T.eval D.omega + ch.delta * T.eval (D.omega * D.omega)) / (1 + ch.delta))) :
    Mostly (2 * d) fun zz : F => z2Coeff ch ((polyOf (firstLagrange D 1)).eval zz) (f.eval zz)
      (T.eval zz) (T.eval (zz * D.omega)) ≠ 0 := by
  have hdl' : 1 + ch.delta ≠ 0 := fun h => hdl (by linear_combination h)
  have hf' : f.natDegree ≤ d := natDegree_le_of_degree_le hf.le
  let Q : F[X] := C (1 + ch.delta) * (C ch.epsilon + f)
      * (C (ch.epsilon * (1 + ch.delta)) + T + C ch.delta * shiftP D.omega T)
      * C (ch.lookup * ch.lookup)
    + polyOf (firstLagrange D 1) * C (ch.lookup * ch.lookup * ch.lookup)
  have hQ : ∀ zz, Q.eval zz = z2Coeff ch ((polyOf (firstLagrange D 1)).eval zz) (f.eval zz)
      (T.eval zz) (T.eval (zz * D.omega)) := by
    intro zz
    simp only [Q, z2Coeff, eval_add, eval_mul, eval_C, shiftP_eval]
  have hL : (polyOf (firstLagrange D 1)).eval D.omega = 0 := by
    have := firstLagrange_row hD (i := 1) (by omega)
    simpa using this
  refine mostly_of_poly_ne Q (2 * d) ?_ ?_ fun zz hz => by rwa [hQ] at hz
  · intro h0
    have e := hQ D.omega
    rw [h0, eval_zero, hL, z2Coeff] at e
    have e : (1 + ch.delta) * (ch.epsilon + f.eval D.omega) * (ch.epsilon * (1 + ch.delta)
      + T.eval D.omega + ch.delta * T.eval (D.omega * D.omega)) * (ch.lookup * ch.lookup) = 0 := by
      rw [e]; ring
    rcases mul_eq_zero.1 e with e | e
    · rcases mul_eq_zero.1 e with e | e
      · rcases mul_eq_zero.1 e with e | e
        · exact hdl' e
        · exact h1 (by linear_combination e)
      · refine h2 ?_
        rw [← neg_div, eq_div_iff hdl']
        linear_combination e
    · exact hs (by simpa using e)
  · have hlag : (polyOf (firstLagrange D 1)).natDegree ≤ d :=
      natDegree_le_of_degree_le ((firstLagrange_degree hD 1).le.trans (by exact_mod_cast hd))
    refine natDegree_add_le_of_degree_le ((natDegree_mul_C_le _ _).trans ?_)
      ((natDegree_mul_C_le _ _).trans (hlag.trans (by omega)))
    refine natDegree_mul_le.trans ?_
    have a1 : (C (1 + ch.delta) * (C ch.epsilon + f)).natDegree ≤ d :=
      (natDegree_C_mul_le _ _).trans (natDegree_add_le_of_degree_le (by simp) hf')
    have a2 : (C (ch.epsilon * (1 + ch.delta)) + T + C ch.delta * shiftP D.omega T).natDegree ≤ d :=
      natDegree_add_le_of_degree_le (natDegree_add_le_of_degree_le ((natDegree_C _).le.trans (Nat.zero_le _)) hT)
        ((natDegree_C_mul_le _ _).trans ((shiftP_natDegree_le _ _).trans hT))
    omega

/-- A late accumulator. -/
theorem late_z2 {P : PCS F} {d : ℕ} (hP : PcsComplete P d) (E : EdCurve F) {D : Dom F}
    (hD : DomOk D) (hn : 2 ≤ D.size) (hd : D.size ≤ d) {vk : VKey P} {sel : Gate F[X]}
    {sig tab : WitVals F[X]} (hk : KeyPolys hP vk sel sig tab) {pi : List (ℕ × F)} {pe : List F}
    (hpe : asEvals pi D.size = .ok pe) {ch : Chals F} (hg : GoodCh D ch) {p : FPolys F} (hp : p.Lt d)
    (hz0 : ch.z ≠ 0)
    (hc : z2Coeff ch ((polyOf (firstLagrange D 1)).eval ch.z) (p.f.eval ch.z)
      ((tabPoly tab ch.zeta).eval ch.z) ((tabPoly tab ch.zeta).eval (ch.z * D.omega)) ≠ 0)
    (q ql qr qc : F) :
    ∃ z2 : F[X], z2.degree < d ∧ ∀ aw saw, ∃ o1 o2, verifyWith E P D vk pi ⟨hP.rep p.w.a,
      hP.rep p.w.b, hP.rep p.w.c, hP.rep p.w.d, hP.rep p.z, hP.rep p.f, hP.rep p.h1, hP.rep p.h2,
      hP.rep z2, fun k => hP.rep (p.t k), o1, o2,
      forgedEvals D.omega ch.zeta ch.z sig tab { p with z2 := 0 } q ql qr qc⟩
      { ch with aw := aw, saw := saw } = .ok () := by
  have hom : D.omega ≠ 1 := by
    intro h
    have := hD.root.eq_orderOf
    rw [h, orderOf_one] at this
    omega
  set e := forgedEvals D.omega ch.zeta ch.z sig tab { p with z2 := 0 } q ql qr qc with he
  set A := linValue E D ch pe sel sig e q (forgedCustom D.omega ch.z p ql qr qc) (p.z.eval ch.z) 0
    (p.h1.eval ch.z) (fun k => (p.t k).eval ch.z) with hA
  set B := z2Coeff ch ((polyOf (firstLagrange D 1)).eval ch.z) (p.f.eval ch.z)
      ((tabPoly tab ch.zeta).eval ch.z) ((tabPoly tab ch.zeta).eval (ch.z * D.omega)) with hB
  let kap := -A / (B * (ch.z * (1 - D.omega)))
  have h1om : 1 - D.omega ≠ 0 := fun h => hom (by linear_combination -h)
  let z2 : F[X] := C kap * (X - C (ch.z * D.omega))
  have hz2 : z2.degree < d := by
    refine lt_of_le_of_lt (degree_le_of_natDegree_le ((natDegree_C_mul_le _ _).trans
      (natDegree_X_sub_C_le _))) ?_
    exact_mod_cast (show 1 < d by omega)
  refine ⟨z2, hz2, fun aw saw => ?_⟩
  have hev : z2.eval (ch.z * D.omega) = 0 := by simp [z2]
  have hfe : forgedEvals D.omega ch.zeta ch.z sig tab { p with z2 := z2 } q ql qr qc = e := by
    simp only [forgedEvals, he, hev, eval_zero]
  have hp' : ({ p with z2 := z2 } : FPolys F).Lt d :=
    ⟨hp.a, hp.b, hp.c, hp.e, hp.z, hz2, hp.f, hp.h1, hp.h2, hp.t⟩
  have hg' : GoodCh D { ch with aw := aw, saw := saw } :=
    ⟨hg.d1, hg.d2, hg.d3, hg.d4, hg.d5, hg.d6, hg.z0, hg.z1, hg.z⟩
  obtain ⟨o1, o2, h⟩ := forge_accept hP (E := E) hD hk hpe hg' hp' q ql qr qc (by
    simp only [hfe]
    have := linValue_z2 E D ch pe sel sig e q (forgedCustom D.omega ch.z p ql qr qc)
      (p.z.eval ch.z) (z2.eval ch.z) (p.h1.eval ch.z) (fun k => (p.t k).eval ch.z)
    refine Eq.trans this ?_
    change A + B * z2.eval ch.z = 0
    simp only [z2, eval_mul, eval_C, eval_sub, eval_X, kap]
    have : ch.z - ch.z * D.omega = ch.z * (1 - D.omega) := by ring
    rw [this]
    field_simp
    ring)
  refine ⟨o1, o2, ?_⟩
  rw [← hfe]
  exact h

/-- A late selector value. -/
theorem late_q {P : PCS F} {d : ℕ} (hP : PcsComplete P d) (E : EdCurve F) {D : Dom F}
    (hD : DomOk D) {vk : VKey P} {sel : Gate F[X]}
    {sig tab : WitVals F[X]} (hk : KeyPolys hP vk sel sig tab) {pi : List (ℕ × F)} {pe : List F}
    (hpe : asEvals pi D.size = .ok pe) {ch : Chals F} (hg : GoodCh D ch) {p : FPolys F} (hp : p.Lt d)
    (hc : arithCoeff (sel.map (Polynomial.eval ch.z)) (p.w.a.eval ch.z) (p.w.b.eval ch.z)
      (p.w.c.eval ch.z) (p.w.d.eval ch.z) ≠ 0) (ql qr qc : F) :
    ∃ q : F, ∀ aw saw, ∃ o1 o2, verifyWith E P D vk pi ⟨hP.rep p.w.a,
      hP.rep p.w.b, hP.rep p.w.c, hP.rep p.w.d, hP.rep p.z, hP.rep p.f, hP.rep p.h1, hP.rep p.h2,
      hP.rep p.z2, fun k => hP.rep (p.t k), o1, o2,
      forgedEvals D.omega ch.zeta ch.z sig tab p q ql qr qc⟩
      { ch with aw := aw, saw := saw } = .ok () := by
  set e0 := forgedEvals D.omega ch.zeta ch.z sig tab p 0 ql qr qc with he
  set A := linValue E D ch pe sel sig e0 0 (forgedCustom D.omega ch.z p ql qr qc) (p.z.eval ch.z)
    (p.z2.eval ch.z) (p.h1.eval ch.z) (fun k => (p.t k).eval ch.z) with hA
  set B := arithCoeff (sel.map (Polynomial.eval ch.z)) (p.w.a.eval ch.z) (p.w.b.eval ch.z)
      (p.w.c.eval ch.z) (p.w.d.eval ch.z) with hB
  refine ⟨-A / B, fun aw saw => ?_⟩
  have hg' : GoodCh D { ch with aw := aw, saw := saw } :=
    ⟨hg.d1, hg.d2, hg.d3, hg.d4, hg.d5, hg.d6, hg.z0, hg.z1, hg.z⟩
  refine forge_accept hP (E := E) hD hk hpe hg' hp (-A / B) ql qr qc ?_
  have h1 := linValue_custom E D ch pe sel sig e0 (forgedEvals D.omega ch.zeta ch.z sig tab p (-A / B)
    ql qr qc).custom (-A / B) (forgedCustom D.omega ch.z p ql qr qc)
      (p.z.eval ch.z) (p.z2.eval ch.z) (p.h1.eval ch.z) (fun k => (p.t k).eval ch.z)
  refine Eq.trans h1 ?_
  rw [linValue_q]
  change A + B * (-A / B) = 0
  field_simp
  ring

/-- For most points the factor of the selector value is not zero, if the equation fails at a row. -/
theorem arithCoeff_mostly {D : Dom F} (hD : DomOk D) {d : ℕ} (hd : D.size ≤ d)
    {sel : Gate F[X]} {a b c e : F[X]}
    (hs : GateAll (fun p => p.degree < (d : WithBot ℕ)) sel) (ha : a.degree < d) (hb : b.degree < d)
    (hc : c.degree < d) (he : e.degree < d) {i : ℕ}
    (h : arithCoeff (sel.map (Polynomial.eval (D.omega ^ i))) (a.eval (D.omega ^ i))
      (b.eval (D.omega ^ i)) (c.eval (D.omega ^ i)) (e.eval (D.omega ^ i)) ≠ 0) :
    Mostly (6 * d) fun zz : F => arithCoeff (sel.map (Polynomial.eval zz)) (a.eval zz) (b.eval zz)
      (c.eval zz) (e.eval zz) ≠ 0 := by
  have nd : ∀ {p : F[X]}, p.degree < (d : WithBot ℕ) → p.natDegree ≤ d := fun h =>
    natDegree_le_of_degree_le h.le
  let Q : F[X] := sel.m * a * b + sel.l * a + sel.r * b + sel.o * c + sel.q4 * e + sel.hl * a ^ 5
    + sel.hr * b ^ 5 + sel.h4 * e ^ 5 + sel.c
  have hQ : ∀ zz, Q.eval zz = arithCoeff (sel.map (Polynomial.eval zz)) (a.eval zz) (b.eval zz)
      (c.eval zz) (e.eval zz) := by
    intro zz
    simp only [Q, arithCoeff, eval_add, eval_mul, eval_pow, Gate.map]
  refine mostly_of_poly_ne Q (6 * d) ?_ ?_ fun zz hz => by rwa [hQ] at hz
  · intro h0
    exact h (by rw [← hQ, h0, eval_zero])
  · obtain ⟨g1, g2, g3, g4, g5, g6, g7, g8, g9, -⟩ := hs
    have mul2 : ∀ {p q : F[X]}, p.degree < (d : WithBot ℕ) → q.degree < (d : WithBot ℕ) →
        (p * q).natDegree ≤ 6 * d := fun hp hq => natDegree_mul_le.trans (by
          have := nd hp; have := nd hq; omega)
    have mul6 : ∀ {p q : F[X]}, p.degree < (d : WithBot ℕ) → q.degree < (d : WithBot ℕ) →
        (p * q ^ 5).natDegree ≤ 6 * d := fun {p q} hp hq => natDegree_mul_le.trans (by
          have := nd hp; have := nd hq; have := natDegree_pow_le (p := q) (n := 5); omega)
    have mul3 : (sel.m * a * b).natDegree ≤ 6 * d := natDegree_mul_le.trans (by
      have := natDegree_mul_le (p := sel.m) (q := a)
      have := nd ha; have := nd hb; have := nd g1; omega)
    refine natDegree_add_le_of_degree_le (natDegree_add_le_of_degree_le
      (natDegree_add_le_of_degree_le (natDegree_add_le_of_degree_le (natDegree_add_le_of_degree_le
      (natDegree_add_le_of_degree_le (natDegree_add_le_of_degree_le (natDegree_add_le_of_degree_le
      mul3 ?_) ?_) ?_) ?_) ?_) ?_) ?_) ?_
    all_goals first
      | (apply mul2 <;> with_reducible assumption)
      | (apply mul6 <;> with_reducible assumption)
      | skip
    have : sel.c.natDegree ≤ d := nd (by with_reducible assumption)
    omega

/-- The first row of every circuit binds the zero variable. -/
theorem _root_.VO.Spec.Plonk.Reach.row0 {R : FieldRep F} {E : EdCurve F} {c : Composer F}
    (h : Reach R E c) : gateAt c 0 = gateAt (seedComposer (F := F)) 0 := by
  induction h with
  | new h =>
    obtain ⟨c', h1, -, -, he, h2, -⟩ := newComposer_ok (F := F) _ _
    rw [h] at h1
    cases h1
    exact he.gate 0 Nat.zero_lt_one
  | call hr hm h ih => rw [(Method.post hm (Reach.wf hr) h).2.gate 0 (by have := hr.four; omega), ih]

end VO.Plonk
