import Verif.Lemmas.PlonkRun2

/-
The last rounds of the honest prover and the verifier on its proof.
-/

set_option linter.unusedSectionVars false

namespace VO.Plonk

open VO.Spec VO.Spec.Plonk Polynomial

variable {F : Type} [Field F] [DecidableEq F]

theorem fin8 {α : Type} {f : Fin 8 → α} {a0 a1 a2 a3 a4 a5 a6 a7 : α} (h0 : a0 = f 0)
    (h1 : a1 = f 1) (h2 : a2 = f 2) (h3 : a3 = f 3) (h4 : a4 = f 4) (h5 : a5 = f 5) (h6 : a6 = f 6)
    (h7 : a7 = f 7) : ![a0, a1, a2, a3, a4, a5, a6, a7] = f := by
  subst h0 h1 h2 h3 h4 h5 h6 h7
  funext k
  fin_cases k <;> rfl

section
variable {K : PField F} {E : EdCurve F} {P : PCS F} {d : ℕ} (hP : PcsComplete P d)
  {c : Composer F} {D D8 : Dom F} {pk : PKey F} {vk : VKey P} {r2 : LookRound P} {r3 : AccRound P}
  {ch : Chals F}
include hP

theorem round4_run (hD : CDom K c D) (hd : D.size ≤ d) (h8 : Dom8 K D D8) (h2n : 2 ≤ D.size)
    (hw : WF c) (hs : OwnSat E c) (hk : PkFor K c D D8 pk) (h2 : LookOk c D hP.rep ch.zeta r2)
    (h3 : AccOk c D hP.rep pk.sig r2 ch.beta ch.gamma ch.delta ch.epsilon r3)
    (hc : Contiguous r2.ct) (hz0 : ch.zeta ≠ 0) (hz1 : ch.zeta ≠ 1) :
    ∃ tp, proveRound4 K E P D pk (honestPolys c D r2 r3) ch
        = .ok (splitTx D.size tp, fun k => hP.rep (polyOf (splitTx D.size tp k))) ∧
      (polyOf tp).degree < (8 * D.size : ℕ) ∧
      numerator E ch (proverRow D pk (honestPolys c D r2 r3)) = (X ^ D.size - 1) * polyOf tp := by
  obtain ⟨tp, t1, t2, t3⟩ := quotient_run hD h8 h2n hw hs hk h2 h3 hc hz0 hz1
  refine ⟨tp, ?_, t2, t3⟩
  have hk : ∀ k, P.commit (splitTx D.size tp k) = .ok (hP.rep (polyOf (splitTx D.size tp k))) :=
    fun k => commit_lt hP hd (splitTx_degree _ _ _)
  unfold proveRound4
  simp only [t1, hk, ok_bind, pure, Except.pure]
  congr 2
  exact fin8 rfl rfl rfl rfl rfl rfl rfl rfl

theorem sum_degree {n : ℕ} (l : List (F × F[X])) (h : ∀ x ∈ l, x.2.degree < (n : WithBot ℕ)) :
    (l.map fun x => C x.1 * x.2).sum.degree < (n : WithBot ℕ) := by
  induction l with
  | nil => simp
  | cons a l ih =>
    simp only [List.map_cons, List.sum_cons]
    refine lt_of_le_of_lt (degree_add_le _ _) (max_lt ?_ (ih fun x hx => h x (by simp [hx])))
    have ha := h a (by simp)
    by_cases h0 : a.1 = 0
    · rw [h0]; simp
    · rw [degree_C_mul h0]; exact ha

theorem linTerms_all {A : Type} {p : A → Prop} {e : Evals F} {n : ℕ} {l1 q : F} {v : CustomVals F}
    {sel : Gate A} {s4 z z2 h1 : A} {t : Fin 8 → A} (hs : GateAll p sel) (h4 : p s4) (hz : p z)
    (hz2 : p z2) (hh : p h1) (ht : ∀ k, p (t k)) :
    ∀ x ∈ linTerms E ch n l1 e q v sel s4 z z2 h1 t, p x.2 := by
  obtain ⟨g1, g2, g3, g4, g5, g6, g7, g8, g9, g10, g11, g12, g13, g14, g15⟩ := hs
  intro x hx
  simp only [linTerms, List.mem_append, List.mem_cons, List.not_mem_nil, or_false, List.mem_map] at hx
  rcases hx with hx | ⟨k, -, rfl⟩
  · rcases hx with rfl | rfl | rfl | rfl | rfl | rfl | rfl | rfl | rfl | rfl | rfl | rfl | rfl | rfl
      | rfl | rfl | rfl | rfl <;> assumption
  · exact ht k

/-- The linearisation polynomial and its value. -/
theorem lin_run (hD : CDom K c D) (hw : WF c) (hk : PkFor K c D D8 pk)
    (h2 : LookOk c D hP.rep ch.zeta r2)
    (h3 : AccOk c D hP.rep pk.sig r2 ch.beta ch.gamma ch.delta ch.epsilon r3)
    (hz0 : ch.zeta ≠ 0) (hz1 : ch.zeta ≠ 1) (hz : ch.z ≠ 1) {tp : List F}
    (ht : (polyOf tp).degree < (8 * D.size : ℕ))
    (hN : numerator E ch (proverRow D pk (honestPolys c D r2 r3)) = (X ^ D.size - 1) * polyOf tp) :
    ∃ lin, linearisation E D pk (honestPolys c D r2 r3) (splitTx D.size tp) ch
        = .ok (lin, honestEvals D pk (honestPolys c D r2 r3) ch.z) ∧
      (polyOf lin).degree < D.size ∧
      polyOf lin = ((linTerms E ch D.size ((polyOf (firstLagrange D 1)).eval ch.z)
        (honestEvals D pk (honestPolys c D r2 r3) ch.z) (polyEval pk.sel.arith ch.z)
        (honestCustom D pk (honestPolys c D r2 r3) ch.z)
        (pk.sel.map polyOf) (polyOf pk.sig.p4) (polyOf r3.z) (polyOf r3.z2) (polyOf r2.h1)
        (fun k => polyOf (splitTx D.size tp k))).map fun x => C x.1 * x.2).sum ∧
      (ch.z ^ D.size ≠ 1 → ∀ e, asEvals c.public_inputs D.size = .ok e →
        polyEval lin ch.z = - computeR0 D e ch ((polyOf (firstLagrange D 1)).eval ch.z)
          (honestEvals D pk (honestPolys c D r2 r3) ch.z)) := by
  obtain ⟨lin, l1, l2⟩ := linearisation_run (E := E) hD.ok pk (honestPolys c D r2 r3)
    (splitTx D.size tp) ch hz0 hz1 hz
  have hs4 := (hk.sigDeg hD hw).2.2.2
  have hl2 := h2.deg hD.ok
  refine ⟨lin, l1, ?_, l2, ?_⟩
  · rw [l2]
    refine sum_degree hP _ (linTerms_all hP (p := fun q : F[X] => q.degree < D.size) ?_ hs4 h3.zdeg
      h3.z2deg hl2.2.2.1 fun k => splitTx_degree _ _ _)
    exact hk.selDeg hD hw
  · intro hzn e he
    obtain ⟨e', e1, e2, e3, e4⟩ := h3.pi
    rw [he] at e1
    simp only [Except.ok.injEq] at e1
    subst e1
    have id := lin_identity E ch (honest_agree (D := D) pk (honestPolys c D r2 r3) ch)
      (fun k => (polyOf (splitTx D.size tp k)).eval ch.z) (piEvals := e) (by
        rw [barycentric_eval hD.ok e2 hzn, ← e4]
        rfl)
    have hsum : polyEval lin ch.z = ((linTerms E ch D.size ((polyOf (firstLagrange D 1)).eval ch.z)
        (honestEvals D pk (honestPolys c D r2 r3) ch.z) (polyEval pk.sel.arith ch.z)
        (honestCustom D pk (honestPolys c D r2 r3) ch.z)
        ((pk.sel.map polyOf).map (Polynomial.eval ch.z)) ((polyOf pk.sig.p4).eval ch.z)
        ((polyOf r3.z).eval ch.z) ((polyOf r3.z2).eval ch.z) ((polyOf r2.h1).eval ch.z)
        (fun k => (polyOf (splitTx D.size tp k)).eval ch.z)).map fun x => x.1 * x.2).sum := by
      rw [polyEval_eq, l2, ← linTerms_map (Polynomial.eval ch.z)]
      rw [← coe_evalRingHom, map_list_sum, List.map_map, List.map_map]
      congr 1
      refine List.map_congr_left fun x _ => ?_
      simp [coe_evalRingHom]
    have hrow := numerator_eval E ch (proverRow D pk (honestPolys c D r2 r3)) ch.z
    rw [← hrow, hN, eval_mul, splitTx_sum ht] at id
    rw [hsum]
    have key : (eval ch.z (X ^ D.size - 1 : F[X])) = ch.z ^ D.size - 1 := by simp
    rw [key, sub_self] at id
    exact eq_neg_of_add_eq_zero_left id

/-- What the two openings are. -/
theorem openings_run (hD : CDom K c D) (hd : D.size ≤ d) (hw : WF c) (hk : PkFor K c D D8 pk)
    {zeta beta gamma delta epsilon : F} (h2 : LookOk c D hP.rep zeta r2)
    (h3 : AccOk c D hP.rep pk.sig r2 beta gamma delta epsilon r3) {lin : List F}
    (hl : (polyOf lin).degree < D.size) :
    ∃ aw saw, proveOpenings P D pk (honestPolys c D r2 r3) lin ch = .ok (aw, saw) ∧
      P.check ([lin, pk.sig.p1, pk.sig.p2, pk.sig.p3, r2.f, r2.h2, r2.table, (wpolys c D).p1,
          (wpolys c D).p2, (wpolys c D).p3, (wpolys c D).p4].map fun p => hP.rep (polyOf p)) ch.z
        ([lin, pk.sig.p1, pk.sig.p2, pk.sig.p3, r2.f, r2.h2, r2.table, (wpolys c D).p1,
          (wpolys c D).p2, (wpolys c D).p3, (wpolys c D).p4].map fun p => polyEval p ch.z)
        aw ch.aw = .ok true ∧
      P.check ([r3.z, (wpolys c D).p1, (wpolys c D).p2, (wpolys c D).p4, r2.h1, r3.z2,
          r2.table].map fun p => hP.rep (polyOf p)) (ch.z * D.omega)
        ([r3.z, (wpolys c D).p1, (wpolys c D).p2, (wpolys c D).p4, r2.h1, r3.z2,
          r2.table].map fun p => polyEval p (ch.z * D.omega)) saw ch.saw = .ok true := by
  obtain ⟨s1, s2, s3, s4⟩ := hk.sigDeg hD hw
  obtain ⟨w1, w2, w3, w4⟩ := wpolys_degree hD.ok c
  obtain ⟨l1, l2, l3, l4⟩ := h2.deg hD.ok
  have lt : ∀ {p : List F}, (polyOf p).degree < D.size → (polyOf p).degree < d :=
    fun h => lt_of_lt_of_le h (by exact_mod_cast hd)
  obtain ⟨aw, a1, a2⟩ := hP.openAt [lin, pk.sig.p1, pk.sig.p2, pk.sig.p3, r2.f, r2.h2, r2.table,
    (wpolys c D).p1, (wpolys c D).p2, (wpolys c D).p3, (wpolys c D).p4] ch.z ch.aw (by
      simp only [List.mem_cons, List.not_mem_nil, or_false]
      rintro p (rfl | rfl | rfl | rfl | rfl | rfl | rfl | rfl | rfl | rfl | rfl) <;>
        exact lt (by with_reducible assumption))
  have z1 := h3.zdeg
  have z2 := h3.z2deg
  obtain ⟨saw, b1, b2⟩ := hP.openAt [r3.z, (wpolys c D).p1, (wpolys c D).p2, (wpolys c D).p4, r2.h1,
    r3.z2, r2.table] (ch.z * D.omega) ch.saw (by
      simp only [List.mem_cons, List.not_mem_nil, or_false]
      rintro p (rfl | rfl | rfl | rfl | rfl | rfl | rfl) <;>
        exact lt (by with_reducible assumption))
  refine ⟨aw, saw, ?_, a2, b2⟩
  have m1 : [lin, pk.sig.p1, pk.sig.p2, pk.sig.p3, r2.f, r2.h2, r2.table].mapM P.commit = .ok _ :=
    mapM_okE (g := fun p => hP.rep (polyOf p)) _ (by
      simp only [List.mem_cons, List.not_mem_nil, or_false]
      rintro p (rfl | rfl | rfl | rfl | rfl | rfl | rfl) <;>
        exact commit_lt hP hd (by with_reducible assumption))
  have m2 : [r3.z, (wpolys c D).p1, (wpolys c D).p2, (wpolys c D).p4, r2.h1,
    r3.z2, r2.table].mapM P.commit = .ok _ :=
    mapM_okE (g := fun p => hP.rep (polyOf p)) _ (by
      simp only [List.mem_cons, List.not_mem_nil, or_false]
      rintro p (rfl | rfl | rfl | rfl | rfl | rfl | rfl) <;>
        exact commit_lt hP hd (by with_reducible assumption))
  unfold proveOpenings
  simp only [honestPolys, m1, m2, ok_bind, List.cons_append, List.nil_append, a1, b1]
  rfl

/-- The verifier key of a composer, as commitments. -/
structure VkFor (c : Composer F) (D : Dom F) (pk : PKey F) (vk : VKey P) : Prop where
  n : vk.n = D.size
  sel : vk.sel = pk.sel.map fun p => hP.rep (polyOf p)
  sig : vk.sig = (sigPolys pk.sig).map hP.rep
  tab : vk.tab = (sigPolys (tabPolys D c.lookup_table)).map hP.rep

/-- The commitment to the compressed table. -/
theorem table_comm (hD : CDom K c D) (hd : D.size ≤ d) (hv : VkFor hP c D pk vk) {zeta : F}
    (h2 : LookOk c D hP.rep zeta r2) :
    P.msm [vk.tab.a, vk.tab.b, vk.tab.c, vk.tab.d] [1, zeta, zeta * zeta, zeta * zeta * zeta]
      = hP.rep (polyOf r2.table) := by
  obtain ⟨t1, t2, t3, t4⟩ := tab_degree hD
  have lt : ∀ {p : List F}, (polyOf p).degree < D.size → (polyOf p).degree < d :=
    fun h => lt_of_lt_of_le h (by exact_mod_cast hd)
  have hm := hP.msm [(1, polyOf (tabPolys D c.lookup_table).p1),
    (zeta, polyOf (tabPolys D c.lookup_table).p2), (zeta * zeta, polyOf (tabPolys D c.lookup_table).p3),
    (zeta * zeta * zeta, polyOf (tabPolys D c.lookup_table).p4)] (by
      simp only [List.mem_cons, List.not_mem_nil, or_false]
      rintro p (rfl | rfl | rfl | rfl) <;> exact lt (by with_reducible assumption))
  rw [hv.tab]
  simp only [WitVals.map, sigPolys]
  refine hm.trans ?_
  congr 1
  refine poly_ext_dom hD.ok (sum_degree hP _ ?_) (h2.deg hD.ok).2.1 fun i hi => ?_
  · simp only [List.mem_cons, List.not_mem_nil, or_false]
    rintro p (rfl | rfl | rfl | rfl) <;> with_reducible assumption
  · have hp := padRows_length hD.tab hD.ok.pos
    have hi' : i < (padRows c.lookup_table D.size).length := by rw [hp]; exact hi
    rw [h2.table, ifft_eval hD.ok h2.lct hi, h2.ct]
    simp only [List.map_cons, List.map_nil, List.sum_cons, List.sum_nil, eval_add, eval_mul, eval_C,
      eval_zero, tabPolys]
    rw [ifft_eval hD.ok (by simp [tabQuad, hp]) hi, ifft_eval hD.ok (by simp [tabQuad, hp]) hi,
      ifft_eval hD.ok (by simp [tabQuad, hp]) hi, ifft_eval hD.ok (by simp [tabQuad, hp]) hi]
    simp only [tabQuad, compressedTable, List.getD_eq_getElem?_getD, List.getElem?_map,
      List.getElem?_eq_getElem hi', Option.map_some, Option.getD_some, compressRow]
    ring

/-- The verifier accepts the honest proof. -/
theorem verify_run (hD : CDom K c D) (hd : D.size ≤ d) (hw : WF c) (hk : PkFor K c D D8 pk)
    (hv : VkFor hP c D pk vk) (h2 : LookOk c D hP.rep ch.zeta r2)
    (h3 : AccOk c D hP.rep pk.sig r2 ch.beta ch.gamma ch.delta ch.epsilon r3)
    (hg : Good3 D c pk.sig r2.h1v r2.h2v ch.beta ch.gamma ch.delta ch.epsilon)
    (hz0 : ch.zeta ≠ 0) (hz1 : ch.zeta ≠ 1) (hz : ch.z ^ D.size ≠ 1) {tp : List F}
    (ht : (polyOf tp).degree < (8 * D.size : ℕ))
    (hN : numerator E ch (proverRow D pk (honestPolys c D r2 r3)) = (X ^ D.size - 1) * polyOf tp) :
    ∃ lin aw saw, linearisation E D pk (honestPolys c D r2 r3) (splitTx D.size tp) ch
        = .ok (lin, honestEvals D pk (honestPolys c D r2 r3) ch.z) ∧
      proveOpenings P D pk (honestPolys c D r2 r3) lin ch = .ok (aw, saw) ∧
      verifyWith E P D vk c.public_inputs
        ⟨hP.rep (wP c D).a, hP.rep (wP c D).b, hP.rep (wP c D).c, hP.rep (wP c D).d, r3.zC, r2.fC,
          r2.h1C, r2.h2C, r3.z2C, fun k => hP.rep (polyOf (splitTx D.size tp k)), aw, saw,
          honestEvals D pk (honestPolys c D r2 r3) ch.z⟩ ch = .ok () := by
  have hz' : ch.z ≠ 1 := fun h => hz (by rw [h, one_pow])
  obtain ⟨lin, l1, l2, l3, l4⟩ := lin_run (E := E) hP hD hw hk h2 h3 hz0 hz1 hz' ht hN
  obtain ⟨aw, saw, o1, o2, o3⟩ := openings_run (ch := ch) hP hD hd hw hk h2 h3 l2
  refine ⟨lin, aw, saw, l1, o1, ?_⟩
  obtain ⟨e, e1, -, -, -⟩ := h3.pi
  have l4 := l4 hz e e1
  have lt : ∀ {p : F[X]}, p.degree < D.size → p.degree < d :=
    fun h => lt_of_lt_of_le h (by exact_mod_cast hd)
  have hs4 := (hk.sigDeg hD hw).2.2.2
  have hl2 := h2.deg hD.ok
  unfold verifyWith
  simp only [liftP, assertR, hg.d1, hg.d2, hg.d3, hg.d4, hg.d5, hg.d6, ne_eq, not_false_eq_true,
      if_true, ok_bind, firstLagrangeEval_ok hD.ok hz', e1]
  rw [linCommitment_eq (q := polyEval pk.sel.arith ch.z)
    (v := honestCustom D pk (honestPolys c D r2 r3) ch.z) (honest_qArith ..) (honest_customVals ..)
    hz0 hz1]
  have hlin : P.msm ((linTerms E ch D.size ((polyOf (firstLagrange D 1)).eval ch.z)
        (honestEvals D pk (honestPolys c D r2 r3) ch.z) (polyEval pk.sel.arith ch.z)
        (honestCustom D pk (honestPolys c D r2 r3) ch.z) vk.sel vk.sig.d r3.zC r3.z2C r2.h1C
        (fun k => hP.rep (polyOf (splitTx D.size tp k)))).map (·.2))
      ((linTerms E ch D.size ((polyOf (firstLagrange D 1)).eval ch.z)
        (honestEvals D pk (honestPolys c D r2 r3) ch.z) (polyEval pk.sel.arith ch.z)
        (honestCustom D pk (honestPolys c D r2 r3) ch.z) vk.sel vk.sig.d r3.zC r3.z2C r2.h1C
        (fun k => hP.rep (polyOf (splitTx D.size tp k)))).map (·.1)) = hP.rep (polyOf lin) := by
    have hsel : vk.sel = (pk.sel.map polyOf).map hP.rep := hv.sel
    have hs : vk.sig.d = hP.rep (polyOf pk.sig.p4) := by rw [hv.sig]; rfl
    rw [h3.zC, h3.z2C, h2.h1C, hsel, hs, ← linTerms_map hP.rep, List.map_map, List.map_map, l3]
    refine hP.msm _ (linTerms_all hP (p := fun q : F[X] => q.degree < d) ?_ (lt hs4) (lt h3.zdeg)
      (lt h3.z2deg) (lt hl2.2.2.1) fun k => lt (splitTx_degree _ _ _))
    obtain ⟨g1, g2, g3, g4, g5, g6, g7, g8, g9, g10, g11, g12, g13, g14, g15⟩ := hk.selDeg hD hw
    exact ⟨lt g1, lt g2, lt g3, lt g4, lt g5, lt g6, lt g7, lt g8, lt g9, lt g10, lt g11, lt g12,
      lt g13, lt g14, lt g15⟩
  have htab := table_comm hP hD hd hv h2
  have hca : customGet (honestEvals D pk (honestPolys c D r2 r3) ch.z).custom "a_next_eval"
      = .ok (polyEval (wpolys c D).p1 (ch.z * D.omega)) := by
    simp [honestEvals, customGet, List.find?, honestPolys]
  have hcb : customGet (honestEvals D pk (honestPolys c D r2 r3) ch.z).custom "b_next_eval"
      = .ok (polyEval (wpolys c D).p2 (ch.z * D.omega)) := by
    simp [honestEvals, customGet, List.find?, honestPolys]
  have hcd : customGet (honestEvals D pk (honestPolys c D r2 r3) ch.z).custom "d_next_eval"
      = .ok (polyEval (wpolys c D).p4 (ch.z * D.omega)) := by
    simp [honestEvals, customGet, List.find?, honestPolys]
  simp only [ok_bind, hlin, htab, hca, hcb, hcd, ← l4]
  rw [hv.sig, h2.fC, h2.h2C, h3.zC, h2.h1C, h3.z2C]
  have o2' : P.check [hP.rep (polyOf lin), ((sigPolys pk.sig).map hP.rep).a,
      ((sigPolys pk.sig).map hP.rep).b, ((sigPolys pk.sig).map hP.rep).c, hP.rep (polyOf r2.f),
      hP.rep (polyOf r2.h2), hP.rep (polyOf r2.table), hP.rep (wP c D).a, hP.rep (wP c D).b,
      hP.rep (wP c D).c, hP.rep (wP c D).d] ch.z [polyEval lin ch.z,
      (honestEvals D pk (honestPolys c D r2 r3) ch.z).s1, (honestEvals D pk (honestPolys c D r2 r3) ch.z).s2,
      (honestEvals D pk (honestPolys c D r2 r3) ch.z).s3, (honestEvals D pk (honestPolys c D r2 r3) ch.z).f,
      (honestEvals D pk (honestPolys c D r2 r3) ch.z).h2, (honestEvals D pk (honestPolys c D r2 r3) ch.z).table,
      (honestEvals D pk (honestPolys c D r2 r3) ch.z).w.a, (honestEvals D pk (honestPolys c D r2 r3) ch.z).w.b,
      (honestEvals D pk (honestPolys c D r2 r3) ch.z).w.c, (honestEvals D pk (honestPolys c D r2 r3) ch.z).w.d]
      aw ch.aw = .ok true := o2
  rw [o2']
  simp only [checkResult, ok_bind]
  have o3' : P.check [hP.rep (polyOf r3.z), hP.rep (wP c D).a, hP.rep (wP c D).b, hP.rep (wP c D).d,
      hP.rep (polyOf r2.h1), hP.rep (polyOf r3.z2), hP.rep (polyOf r2.table)] (ch.z * D.omega)
      [(honestEvals D pk (honestPolys c D r2 r3) ch.z).perm, polyEval (wpolys c D).p1 (ch.z * D.omega),
      polyEval (wpolys c D).p2 (ch.z * D.omega), polyEval (wpolys c D).p4 (ch.z * D.omega),
      (honestEvals D pk (honestPolys c D r2 r3) ch.z).h1Next,
      (honestEvals D pk (honestPolys c D r2 r3) ch.z).z2Next,
      (honestEvals D pk (honestPolys c D r2 r3) ch.z).tableNext] saw ch.saw = .ok true := o3
  rw [o3']

end

end VO.Plonk
