import Verif.Lemmas.PlonkRing
import Verif.Lemmas.PlonkLookup3

/-
The quotient polynomial: evaluation on the coset, division, interpolation.
-/

set_option linter.unusedSectionVars false

namespace VO.Plonk

open VO.Spec VO.Spec.Plonk Polynomial

variable {F : Type} [Field F] [DecidableEq F]

theorem mapM_okE {ε α β : Type} {f : α → Except ε β} {g : α → β} (l : List α)
    (h : ∀ a ∈ l, f a = .ok (g a)) : l.mapM f = .ok (l.map g) := by
  induction l with
  | nil => rfl
  | cons a l ih =>
    rw [List.mapM_cons, h a (by simp), ih fun b hb => h b (by simp [hb])]
    rfl

/-! ### The first Lagrange polynomial -/

theorem polyOf_replicate_zero (n : ℕ) : polyOf (List.replicate n (0 : F)) = 0 := by
  ext i
  rw [coeff_polyOf, coeff_zero]
  simp [List.getD_eq_getElem?_getD, List.getElem?_replicate]
  split_ifs <;> rfl

theorem firstLagrange_eq (D : Dom F) (h : 0 < D.size) (s : F) :
    firstLagrange D s = polyFromVec ((List.range D.size).map fun _ => (D.size : F)⁻¹ * s) := by
  unfold firstLagrange Dom.ifft idft
  congr 1
  apply List.map_congr_left
  intro j _
  congr 1
  obtain ⟨n, hn⟩ := Nat.exists_eq_succ_of_ne_zero h.ne'
  rw [hn, Nat.succ_eq_add_one, List.replicate_succ, List.set_cons_zero, polyEval_eq, polyOf_cons,
    polyOf_replicate_zero]
  simp

theorem polyOf_firstLagrange (D : Dom F) (h : 0 < D.size) (s : F) :
    polyOf (firstLagrange D s) = polyOf (firstLagrange D 1) * C s := by
  rw [firstLagrange_eq D h, firstLagrange_eq D h, polyOf_polyFromVec, polyOf_polyFromVec,
    ← polyOf_map_mul_right]
  congr 1
  simp

theorem firstLagrange_degree {D : Dom F} (hD : DomOk D) (s : F) :
    (polyOf (firstLagrange D s)).degree < D.size :=
  ifft_degree hD (by simp)

theorem firstLagrange_row {D : Dom F} (hD : DomOk D) {i : ℕ} (hi : i < D.size) :
    (polyOf (firstLagrange D 1)).eval (D.omega ^ i) = if i = 0 then 1 else 0 := by
  unfold firstLagrange
  rw [ifft_eval hD (by simp) hi, List.getD_eq_getElem?_getD, List.getElem?_set]
  by_cases h : i = 0
  · subst h; simp [hD.pos]
  · simp [h, Ne.symm h, hi]

theorem firstLagrange_eval {D : Dom F} (h : 0 < D.size) {x : F} (hx : x ≠ 1) :
    (polyOf (firstLagrange D 1)).eval x = (x ^ D.size - 1) * ((D.size : F) * (x - 1))⁻¹ := by
  rw [firstLagrange_eq D h, polyOf_polyFromVec, eval_eq_sum_lt _ D.size
    (lt_of_lt_of_eq (degree_polyOf_lt _) (by simp))]
  have : ∀ k ∈ Finset.range D.size, (polyOf ((List.range D.size).map
      fun _ => (D.size : F)⁻¹ * 1)).coeff k * x ^ k = (D.size : F)⁻¹ * x ^ k := by
    intro k hk
    rw [coeff_polyOf, List.getD_eq_getElem _ _ (by simpa using hk)]
    simp
  rw [Finset.sum_congr rfl this, ← Finset.mul_sum, geom_sum_eq hx, mul_inv]
  have : x - 1 ≠ 0 := sub_ne_zero.2 hx
  field_simp

/-! ### Cosets -/

theorem cosetFft_length (K : PField F) (D : Dom F) (p : List F) : (cosetFft K D p).length = D.size := by
  simp [cosetFft]

theorem cosetFft_getD (K : PField F) (D : Dom F) (p : List F) {i : ℕ} (hi : i < D.size) :
    (cosetFft K D p).getD i 0 = (polyOf p).eval (K.gen * D.omega ^ i) := by
  rw [List.getD_eq_getElem _ _ (by simpa [cosetFft] using hi)]
  simp [cosetFft, polyEval_eq]

theorem ext8_getD (K : PField F) (D : Dom F) (p : List F) {i : ℕ} (hi : i < D.size) :
    (ext8 (cosetFft K D p)).getD i 0 = (polyOf p).eval (K.gen * D.omega ^ i) := by
  unfold ext8
  rw [List.getD_append _ _ _ _ (by rw [cosetFft_length]; exact hi), cosetFft_getD K D p hi]

theorem ext8_getD_next (K : PField F) (D : Dom F) (p : List F) {i : ℕ} (hi : i < D.size)
    (h8 : 8 ≤ D.size) (h1 : D.omega ^ D.size = 1) :
    (ext8 (cosetFft K D p)).getD (i + 8) 0
      = (polyOf p).eval (K.gen * D.omega ^ i * D.omega ^ 8) := by
  by_cases h : i + 8 < D.size
  · rw [ext8_getD K D p h, pow_add, mul_assoc]
  · unfold ext8
    rw [List.getD_append_right _ _ _ _ (by rw [cosetFft_length]; omega), cosetFft_length,
      List.getD_eq_getElem?_getD, List.getElem?_take, if_pos (by omega),
      ← List.getD_eq_getElem?_getD, cosetFft_getD K D p (by omega), mul_assoc, ← pow_add]
    have : i + 8 = (i + 8 - D.size) + D.size := by omega
    conv_rhs => rw [this, pow_add, h1, mul_one]

theorem cosetIfft_values {K : PField F} (hg : K.gen ≠ 0) {D : Dom F}
    (hr : IsPrimitiveRoot D.omega D.size) (hs : 0 < D.size) {T : F[X]} (hT : T.degree < D.size)
    {e : List F} (he : e.length = D.size)
    (hv : ∀ i < D.size, e.getD i 0 = T.eval (K.gen * D.omega ^ i)) :
    polyOf (cosetIfft K D e) = T := by
  have key : polyOf (D.ifft e) = T.comp (C K.gen * X) := by
    refine idft_values hr hs (natCast_ne_zero_of_primitive hr hs) _ ?_ e he fun i hi => ?_
    · by_cases h0 : T = 0
      · subst h0; simpa using hs
      · rw [degree_eq_natDegree h0] at hT
        refine lt_of_le_of_lt degree_le_natDegree ?_
        rw [natDegree_comp]
        have : (C K.gen * X : F[X]).natDegree = 1 := natDegree_C_mul_X _ hg
        rw [this, mul_one]
        exact hT
    · rw [hv i hi, eval_comp]; simp
  unfold cosetIfft
  rw [polyOf_polyFromVec]
  ext j
  have hj := congrArg (fun p => p.coeff j) key
  simp only [coeff_polyOf] at hj
  rw [coeff_polyOf]
  have hc : (T.comp (C K.gen * X)).coeff j = T.coeff j * K.gen ^ j := by
    rw [comp_C_mul_X_coeff]
  rw [hc] at hj
  have : ((D.ifft e).mapIdx fun i x => x * (K.gen ^ i)⁻¹).getD j 0
      = (D.ifft e).getD j 0 * (K.gen ^ j)⁻¹ := by
    rw [List.getD_eq_getElem?_getD, List.getElem?_mapIdx, List.getD_eq_getElem?_getD]
    cases (D.ifft e)[j]? <;> simp
  rw [this, hj]
  field_simp

/-! ### Rows of polynomials -/

/-- The polynomial at the next row. -/
noncomputable def shiftP (omega : F) (p : F[X]) : F[X] := p.comp (C omega * X)

theorem shiftP_eval (omega : F) (p : F[X]) (x : F) : (shiftP omega p).eval x = p.eval (x * omega) := by
  unfold shiftP
  rw [eval_comp, eval_mul, eval_C, eval_X, mul_comm]

theorem shiftP_natDegree_le (omega : F) (p : F[X]) : (shiftP omega p).natDegree ≤ p.natDegree := by
  unfold shiftP
  refine le_trans natDegree_comp_le ?_
  calc p.natDegree * (C omega * X).natDegree ≤ p.natDegree * 1 :=
        Nat.mul_le_mul_left _ (le_trans (natDegree_C_mul_le _ _) natDegree_X_le)
    _ = p.natDegree := mul_one _

/-- The polynomials as `RowVals`: selectors, sigmas, wires, accumulators and lookup polynomials. -/
noncomputable def polyRow (omega : F) (sel : Gate F[X]) (sig w : WitVals F[X])
    (z z2 pi f t h1 h2 l1 : F[X]) : RowVals F[X] :=
  ⟨sel, sig, w, shiftP omega w.a, shiftP omega w.b, shiftP omega w.d, X, z, shiftP omega z, pi, f, t,
   shiftP omega t, h1, shiftP omega h1, h2, z2, shiftP omega z2, l1⟩

/-- The row of a prover's polynomials. -/
noncomputable def proverRow (D : Dom F) (pk : PKey F) (p : ProverPolys F) : RowVals F[X] :=
  polyRow D.omega (pk.sel.map polyOf)
    ⟨polyOf pk.sig.p1, polyOf pk.sig.p2, polyOf pk.sig.p3, polyOf pk.sig.p4⟩
    ⟨polyOf p.w.p1, polyOf p.w.p2, polyOf p.w.p3, polyOf p.w.p4⟩
    (polyOf p.z) (polyOf p.z2) (polyOf p.pi) (polyOf p.f) (polyOf p.table) (polyOf p.h1)
    (polyOf p.h2) (polyOf (firstLagrange D 1))

/-- The numerator of the quotient. -/
noncomputable def numerator (E : EdCurve F) (ch : Chals F) (r : RowVals F[X]) : F[X] :=
  rowTerm E.toPoly (ch.map C) r

theorem chals_map_id (ch : Chals F) (x : F) : (ch.map C).map (Polynomial.eval x) = ch := by
  simp [Chals.map]

theorem numerator_eval (E : EdCurve F) (ch : Chals F) (r : RowVals F[X]) (x : F) :
    (numerator E ch r).eval x = rowTerm E ch (r.map (Polynomial.eval x)) := by
  unfold numerator
  have := rowTerm_map (Polynomial.evalRingHom x) (E := E.toPoly) (E' := E) (by simp [EdCurve.toPoly])
    (by simp [EdCurve.toPoly]) (ch.map C) r
  rw [coe_evalRingHom, chals_map_id] at this
  exact this

/-- The prover key that belongs to polynomials. -/
structure PKeyOk (K : PField F) (D D8 : Dom F) (pk : PKey F) : Prop where
  selE : pk.selE = pk.sel.map (cosetFft K D8)
  sigE : pk.sigE = ⟨cosetFft K D8 pk.sig.p1, cosetFft K D8 pk.sig.p2, cosetFft K D8 pk.sig.p3,
    cosetFft K D8 pk.sig.p4⟩
  linE : pk.linE = cosetFft K D8 [0, 1]
  vH : pk.vH = (List.range D8.size).map fun i => K.gen ^ D.size * D8.omega ^ (D.size * i) - 1

theorem lc_four {zeta : F} (h0 : zeta ≠ 0) (h1 : zeta ≠ 1) (a b c d : F) :
    lc [a, b, c, d] zeta = .ok (lc4 a b c d zeta) := by
  simp [lc, lc4, assertR, h0, h1]
  rfl

theorem polyOf_X : polyOf ([0, 1] : List F) = X := by
  rw [polyOf_cons, polyOf_cons]
  have : polyOf ([] : List F) = 0 := by ext i; rw [coeff_polyOf]; simp
  rw [this]; simp

theorem quotient_row {K : PField F} {E : EdCurve F} {D D8 : Dom F} {pk : PKey F}
    (hs : D8.size = 8 * D.size) (hpos : 0 < D.size) (hw : D8.omega ^ 8 = D.omega)
    (h1 : D8.omega ^ D8.size = 1) (hpk : PKeyOk K D D8 pk) (p : ProverPolys F) (ch : Chals F)
    {i : ℕ} (hi : i < D8.size) :
    let ev := cosetFft K D8
    let w : WitVals F := ⟨(ext8 (ev p.w.p1)).getD i 0, (ext8 (ev p.w.p2)).getD i 0,
      (ev p.w.p3).getD i 0, (ext8 (ev p.w.p4)).getD i 0⟩
    let g := gateRow pk.selE i
    gateQuotient E ch.range ch.logic ch.fixed ch.var g w
      ⟨(ext8 (ev p.w.p1)).getD (i + 8) 0, (ext8 (ev p.w.p2)).getD (i + 8) 0,
        (ext8 (ev p.w.p4)).getD (i + 8) 0, g.l, g.r, g.c⟩ ((ev p.pi).getD i 0)
    + permQuotient (pk.linE.getD i 0)
      ⟨pk.sigE.p1.getD i 0, pk.sigE.p2.getD i 0, pk.sigE.p3.getD i 0, pk.sigE.p4.getD i 0⟩ w
      ((ext8 (ev p.z)).getD i 0) ((ext8 (ev p.z)).getD (i + 8) 0) ch.alpha
      ((ev (firstLagrange D (ch.alpha * ch.alpha))).getD i 0) ch.beta ch.gamma
    + lookupQuotient g.lookup (lc4 w.a w.b w.c w.d ch.zeta) ((ev p.f).getD i 0)
      ((ext8 (ev p.table)).getD i 0) ((ext8 (ev p.table)).getD (i + 8) 0)
      ((ext8 (ev p.h1)).getD i 0) ((ext8 (ev p.h1)).getD (i + 8) 0) ((ev p.h2).getD i 0)
      ((ext8 (ev p.z2)).getD i 0) ((ext8 (ev p.z2)).getD (i + 8) 0)
      ((ev (firstLagrange D 1)).getD i 0) ch.delta ch.epsilon ch.lookup
    = (numerator E ch (proverRow D pk p)).eval (K.gen * D8.omega ^ i) := by
  have h8 : 8 ≤ D8.size := by omega
  intro ev w g
  have eg : g = (pk.sel.map polyOf).map (Polynomial.eval (K.gen * D8.omega ^ i)) := by
    simp only [g, gateRow, hpk.selE, Gate.map, cosetFft_getD K D8 _ hi]
  simp only [w, ev, ext8_getD K D8 _ hi, cosetFft_getD K D8 _ hi,
    ext8_getD_next K D8 _ hi h8 h1, hw, hpk.linE, hpk.sigE, polyOf_firstLagrange D hpos
    (ch.alpha * ch.alpha), polyOf_X, eval_X, eval_mul, eval_C]
  rw [numerator_eval, eg]
  simp only [rowTerm, proverRow, polyRow, RowVals.map, WitVals.map, Gate.map, shiftP_eval, eval_X]

/-- `quotient_poly::compute` divides exactly: if the vanishing polynomial times `T` is the numerator
and `T` fits in the large domain, the result is `T`. -/
theorem quotientPoly_run {K : PField F} {E : EdCurve F} {D D8 : Dom F} {pk : PKey F}
    (hD8 : newDom K (8 * D.size) = .ok D8)
    (hs : D8.size = 8 * D.size) (hpos : 0 < D.size) (hw : D8.omega ^ 8 = D.omega)
    (hr : IsPrimitiveRoot D8.omega D8.size) (hg : K.gen ≠ 0) (hg8 : K.gen ^ D8.size ≠ 1)
    (hpk : PKeyOk K D D8 pk) (p : ProverPolys F) (ch : Chals F) (hz0 : ch.zeta ≠ 0)
    (hz1 : ch.zeta ≠ 1) {T : F[X]} (hT : T.degree < D8.size)
    (hN : numerator E ch (proverRow D pk p) = (X ^ D.size - 1) * T) :
    ∃ tp, quotientPoly K E D pk p ch = .ok tp ∧ polyOf tp = T := by
  have den : ∀ i < D8.size, pk.vH.getD i 0 = (K.gen * D8.omega ^ i) ^ D.size - 1 := by
    intro i hi
    rw [hpk.vH, List.getD_eq_getElem _ _ (by simpa using hi)]
    simp only [List.getElem_map, List.getElem_range]
    rw [mul_pow, ← pow_mul, mul_comm i]
  have den0 : ∀ i < D8.size, pk.vH.getD i 0 ≠ 0 := by
    intro i hi h0
    rw [den i hi, sub_eq_zero] at h0
    apply hg8
    have := congrArg (· ^ 8) h0
    simp only [one_pow] at this
    rw [← pow_mul, mul_comm D.size, ← hs, mul_pow, ← pow_mul, mul_comm i, pow_mul, hr.pow_eq_one,
      one_pow, mul_one] at this
    exact this
  unfold quotientPoly
  rw [hD8]
  simp only [ok_bind, lc_four hz0 hz1, liftP]
  rw [mapM_okE (g := fun i => T.eval (K.gen * D8.omega ^ i))]
  · simp only [ok_bind]
    refine ⟨_, rfl, ?_⟩
    refine cosetIfft_values hg hr (by omega) hT (by simp) fun i hi => ?_
    rw [List.getD_eq_getElem _ _ (by simpa using hi)]
    simp
  · intro i hi
    have hi : i < D8.size := by simpa using hi
    rw [if_neg (den0 i hi)]
    congr 1
    have := quotient_row (E := E) hs hpos hw hr.pow_eq_one hpk p ch hi
    simp only at this
    rw [this, hN, eval_mul]
    have d0 := den0 i hi
    rw [den i hi] at d0 ⊢
    simp only [eval_sub, eval_pow, eval_X, eval_one]
    field_simp

end VO.Plonk
