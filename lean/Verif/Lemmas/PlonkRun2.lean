import Verif.Lemmas.PlonkRun

/-
The quotient, the linearisation and the openings of the honest prover, and the verifier on them.
-/

set_option linter.unusedSectionVars false

namespace VO.Plonk

open VO.Spec VO.Spec.Plonk Polynomial

variable {F : Type} [Field F] [DecidableEq F]

/-- The prover key of a composer. -/
structure PkFor (K : PField F) (c : Composer F) (D D8 : Dom F) (pk : PKey F) : Prop where
  sel : pk.sel = selectorPolys D (padComposer c (D.size - c.n))
  sig : computeSigmaPolynomials c.perm D.size D = .ok pk.sig
  tab : pk.tab = tabQuad c.lookup_table D.size
  ok : PKeyOk K D D8 pk

/-- The polynomials of the honest prover. -/
def honestPolys {P : PCS F} (c : Composer F) (D : Dom F) (r2 : LookRound P) (r3 : AccRound P) :
    ProverPolys F :=
  ⟨wpolys c D, r3.z, r3.z2, r3.pi, r2.f, r2.table, r2.h1, r2.h2⟩

theorem gateAt_out {c : Composer F} (hw : WF c) {i : ℕ} (hi : c.n ≤ i) : gateAt c i = gate0 := by
  have key : ∀ l : List F, l.length = c.n → l.getD i 0 = 0 := by
    intro l hl
    rw [List.getD_eq_getElem?_getD, List.getElem?_eq_none (by omega)]
    rfl
  have s := hw.sel
  simp only [gateAt, gate0, key _ s.q_m, key _ s.q_l, key _ s.q_r,
    key _ s.q_o, key _ s.q_4, key _ s.q_c, key _ s.q_hl, key _ s.q_hr, key _ s.q_h4, key _ s.q_arith,
    key _ s.q_range, key _ s.q_logic, key _ s.q_fixed, key _ s.q_var, key _ s.q_lookup]

theorem ownPub_out {c : Composer F} (hw : WF c) {i : ℕ} (hi : c.n ≤ i) : ownPub c i = 0 := by
  rw [ownPub_eq]
  refine pubOf_absent fun e he h => ?_
  have := hw.int _ (hw.pis e he)
  omega

theorem own_gates {E : EdCurve F} {c : Composer F} (hw : WF c) (hs : OwnSat E c) {n : ℕ}
    (hn : c.n ≤ n) (i : ℕ) : GatesOk E (gateAt c i) (rowAt n (ownW c) i) (ownPub c i) := by
  by_cases hi : i < c.n
  · have := (hs n hn).rows i hi
    exact ⟨this.arith, this.range, this.logic, this.fixed, this.var⟩
  · rw [gateAt_out hw (by omega), ownPub_out hw (by omega)]
    refine ⟨?_, fun h => absurd rfl h, fun h => absurd rfl h, fun h => absurd rfl h,
      fun h => absurd rfl h⟩
    simp [ArithOk, gate0]

theorem row_own {D : Dom F} (hD : DomOk D) (c : Composer F) {i : ℕ} (hi : i < D.size) :
    rowAt D.size (polyW D.omega (wP c D)) i = rowAt D.size (ownW c) i := by
  have hn : (i + 1) % D.size < D.size := Nat.mod_lt _ hD.pos
  unfold rowAt
  rw [polyW_own hD c (p := .left i) hi, polyW_own hD c (p := .right i) hi,
    polyW_own hD c (p := .output i) hi, polyW_own hD c (p := .fourth i) hi,
    polyW_own hD c (p := .left _) hn, polyW_own hD c (p := .right _) hn,
    polyW_own hD c (p := .fourth _) hn]

theorem factors_own {D : Dom F} (hD : DomOk D) (sig : Quad F) (beta gamma : F) (c : Composer F)
    {i : ℕ} (hi : i < D.size) :
    sigFactor sig D.omega beta gamma (polyW D.omega (wP c D)) i
        = sigFactor sig D.omega beta gamma (ownW c) i ∧
      ownFactor D.omega beta gamma (polyW D.omega (wP c D)) i
        = ownFactor D.omega beta gamma (ownW c) i := by
  unfold sigFactor ownFactor
  rw [polyW_own hD c (p := .left i) hi, polyW_own hD c (p := .right i) hi,
    polyW_own hD c (p := .output i) hi, polyW_own hD c (p := .fourth i) hi]
  exact ⟨rfl, rfl⟩

section
variable {K : PField F} {E : EdCurve F} {P : PCS F} {rep : F[X] → P.Comm} {c : Composer F}
  {D D8 : Dom F} {pk : PKey F} {r2 : LookRound P} {r3 : AccRound P} {ch : Chals F}

/-- The numerator vanishes on the domain. -/
theorem numerator_zero (hD : CDom K c D) (hw : WF c) (hs : OwnSat E c) (hk : PkFor K c D D8 pk)
    (h2 : LookOk c D rep ch.zeta r2)
    (h3 : AccOk c D rep pk.sig r2 ch.beta ch.gamma ch.delta ch.epsilon r3) (hc : Contiguous r2.ct)
    {i : ℕ} (hi : i < D.size) :
    (numerator E ch (proverRow D pk (honestPolys c D r2 r3))).eval (D.omega ^ i) = 0 := by
  have hi' : (i + 1) % D.size < D.size := Nat.mod_lt _ hD.ok.pos
  have hrow : proverRow D pk (honestPolys c D r2 r3) = polyRow D.omega (pk.sel.map polyOf)
      (sigPolys pk.sig) (wP c D) (polyOf r3.z) (polyOf r3.z2) (polyOf r3.pi) (polyOf r2.f)
      (polyOf r2.table) (polyOf r2.h1) (polyOf r2.h2) (polyOf (firstLagrange D 1)) := rfl
  obtain ⟨e, -, e2, e3, e4⟩ := h3.pi
  have vpi : (polyOf r3.pi).eval (D.omega ^ i) = ownPub c i := by
    rw [e4, ifft_eval hD.ok e2 hi, e3]
  have vf : ∀ j < D.size, onDom D.omega (polyOf r2.f) j = r2.cf.getD j 0 := fun j hj => by
    unfold onDom; rw [h2.f, ifft_eval hD.ok h2.lcf hj]
  have vt : ∀ j < D.size, onDom D.omega (polyOf r2.table) j = r2.ct.getD j 0 := fun j hj => by
    unfold onDom; rw [h2.table, ifft_eval hD.ok h2.lct hj]
  have vh1 : ∀ j < D.size, onDom D.omega (polyOf r2.h1) j = r2.h1v.getD j 0 := fun j hj => by
    unfold onDom; rw [h2.h1, ifft_eval hD.ok h2.lh1 hj]
  have vh2 : ∀ j < D.size, onDom D.omega (polyOf r2.h2) j = r2.h2v.getD j 0 := fun j hj => by
    unfold onDom; rw [h2.h2, ifft_eval hD.ok h2.lh2 hj]
  have hsel : (pk.sel.map polyOf).map (Polynomial.eval (D.omega ^ i)) = gateAt c i := by
    rw [hk.sel]; exact selector_rows hD hw hi
  have hlk : (pk.sel.map polyOf).lookup.eval (D.omega ^ i) = c.q_lookup.getD i 0 := by
    have := congrArg Gate.lookup hsel
    exact this
  rw [hrow, rowTerm_row hD.ok E ch _ _ _ _ _ _ _ _ _ _ hi, hsel, row_own hD.ok c hi, vpi,
    gates_zero (own_gates hw hs hD.n i), (factors_own hD.ok pk.sig ch.beta ch.gamma c hi).1,
    (factors_own hD.ok pk.sig ch.beta ch.gamma c hi).2, hlk,
    polyW_own hD.ok c (p := .left i) hi, polyW_own hD.ok c (p := .right i) hi,
    polyW_own hD.ok c (p := .output i) hi, polyW_own hD.ok c (p := .fourth i) hi]
  have p1 : onDom D.omega (polyOf r3.z) i * ownFactor D.omega ch.beta ch.gamma (ownW c) i
      - onDom D.omega (polyOf r3.z) ((i + 1) % D.size)
        * sigFactor pk.sig D.omega ch.beta ch.gamma (ownW c) i = 0 := by
    rw [h3.perm.2 i hi]; ring
  have p2 : (onDom D.omega (polyOf r3.z) i - 1) * (if i = 0 then 1 else 0) = 0 := by
    split_ifs with h
    · rw [h, h3.perm.1]; ring
    · ring
  have hl := h3.look hc
  have p3 : (onDom D.omega (polyOf r3.z2) i - 1) * (if i = 0 then 1 else 0) = 0 := by
    split_ifs with h
    · rw [h, hl.1]; ring
    · ring
  have p4 : lookAcc D.size ch.delta ch.epsilon (onDom D.omega (polyOf r2.f))
      (onDom D.omega (polyOf r2.table)) (onDom D.omega (polyOf r2.h1)) (onDom D.omega (polyOf r2.h2))
      (onDom D.omega (polyOf r3.z2)) i = 0 := by
    unfold lookAcc
    rw [vf i hi, vt i hi, vt _ hi', vh1 i hi, vh2 i hi, vh1 _ hi', hl.2 i hi]
    ring
  have p5 : c.q_lookup.getD i 0 * (compressRow ch.zeta (ownW c (.left i), ownW c (.right i),
      ownW c (.output i), ownW c (.fourth i)) - onDom D.omega (polyOf r2.f) i) = 0 := by
    rw [vf i hi, h2.cf]
    by_cases h : c.q_lookup.getD i 0 = 0
    · rw [h, zero_mul]
    · have : (queries c D.size ch.zeta).getD i 0 = compressRow ch.zeta (ownW c (.left i),
          ownW c (.right i), ownW c (.output i), ownW c (.fourth i)) := by
        unfold queries
        rw [List.getD_eq_getElem?_getD, List.getElem?_map, List.getElem?_range hi]
        simp only [Option.map_some, Option.getD_some]
        rw [if_neg h]
      rw [this, sub_self, mul_zero]
  rw [p1, p2, p3, p4, p5]
  ring

theorem dg_of_lt {n : ℕ} {p : F[X]} (h : p.degree < n) : Dg (n - 1) 1 p := by
  unfold Dg
  rw [one_mul]
  by_cases h0 : p = 0
  · rw [h0]; simp
  · have := (natDegree_lt_iff_degree_lt h0).2 h
    omega

theorem dg_shift {n : ℕ} {p : F[X]} (omega : F) (h : p.degree < n) : Dg (n - 1) 1 (shiftP omega p) := by
  have := dg_of_lt h
  unfold Dg at this ⊢
  exact le_trans (shiftP_natDegree_le omega p) this

theorem LookOk.deg (hD : DomOk D) {zeta : F} (h : LookOk c D rep zeta r2) :
    (polyOf r2.f).degree < D.size ∧ (polyOf r2.table).degree < D.size ∧
      (polyOf r2.h1).degree < D.size ∧ (polyOf r2.h2).degree < D.size := by
  rw [h.f, h.table, h.h1, h.h2]
  exact ⟨ifft_degree hD h.lcf, ifft_degree hD h.lct, ifft_degree hD h.lh1, ifft_degree hD h.lh2⟩

theorem AccOk.piDeg (hD : DomOk D) {sig : Quad F} {beta gamma delta epsilon : F}
    (h : AccOk c D rep sig r2 beta gamma delta epsilon r3) : (polyOf r3.pi).degree < D.size := by
  obtain ⟨e, -, e2, -, e4⟩ := h.pi
  rw [e4]; exact ifft_degree hD e2

theorem PkFor.selDeg (hD : CDom K c D) (hw : WF c) (hk : PkFor K c D D8 pk) :
    GateAll (fun p => (polyOf p).degree < D.size) pk.sel := by
  rw [hk.sel]; exact selector_degree hD hw

theorem PkFor.sigDeg (hD : CDom K c D) (hw : WF c) (hk : PkFor K c D D8 pk) :
    (polyOf pk.sig.p1).degree < D.size ∧ (polyOf pk.sig.p2).degree < D.size ∧
      (polyOf pk.sig.p3).degree < D.size ∧ (polyOf pk.sig.p4).degree < D.size :=
  sig_degree hD.ok hw hD.n hk.sig

theorem honest_deg (hD : CDom K c D) (h2n : 2 ≤ D.size) (hw : WF c) (hk : PkFor K c D D8 pk)
    {zeta : F} (h2 : LookOk c D rep zeta r2) {beta gamma delta epsilon : F}
    (h3 : AccOk c D rep pk.sig r2 beta gamma delta epsilon r3) :
    (proverRow D pk (honestPolys c D r2 r3)).Deg (D.size - 1) := by
  obtain ⟨g1, g2, g3, g4, g5, g6, g7, g8, g9, g10, g11, g12, g13, g14, g15⟩ := hk.selDeg hD hw
  obtain ⟨s1, s2, s3, s4⟩ := hk.sigDeg hD hw
  obtain ⟨w1, w2, w3, w4⟩ := wpolys_degree hD.ok c
  obtain ⟨l1, l2, l3, l4⟩ := h2.deg hD.ok
  have hX : Dg (D.size - 1) 1 (X : F[X]) := by
    unfold Dg
    rw [natDegree_X]
    omega
  exact ⟨dg_of_lt g1, dg_of_lt g2, dg_of_lt g3, dg_of_lt g4, dg_of_lt g5, dg_of_lt g6, dg_of_lt g7,
    dg_of_lt g8, dg_of_lt g9, dg_of_lt g10, dg_of_lt g11, dg_of_lt g12, dg_of_lt g13, dg_of_lt g14,
    dg_of_lt g15, dg_of_lt s1, dg_of_lt s2, dg_of_lt s3, dg_of_lt s4, dg_of_lt w1, dg_of_lt w2,
    dg_of_lt w3, dg_of_lt w4, dg_shift _ w1, dg_shift _ w2, dg_shift _ w4, hX, dg_of_lt h3.zdeg,
    dg_shift _ h3.zdeg, dg_of_lt (h3.piDeg hD.ok), dg_of_lt l1, dg_of_lt l2, dg_shift _ l2,
    dg_of_lt l3, dg_shift _ l3, dg_of_lt l4, dg_of_lt h3.z2deg, dg_shift _ h3.z2deg,
    dg_of_lt (firstLagrange_degree hD.ok 1)⟩

/-- The quotient of the honest prover. -/
theorem quotient_run (hD : CDom K c D) (h8 : Dom8 K D D8) (h2n : 2 ≤ D.size) (hw : WF c)
    (hs : OwnSat E c) (hk : PkFor K c D D8 pk) (h2 : LookOk c D rep ch.zeta r2)
    (h3 : AccOk c D rep pk.sig r2 ch.beta ch.gamma ch.delta ch.epsilon r3) (hc : Contiguous r2.ct)
    (hz0 : ch.zeta ≠ 0) (hz1 : ch.zeta ≠ 1) :
    ∃ tp, quotientPoly K E D pk (honestPolys c D r2 r3) ch = .ok tp ∧
      (polyOf tp).degree < (8 * D.size : ℕ) ∧
      numerator E ch (proverRow D pk (honestPolys c D r2 r3)) = (X ^ D.size - 1) * polyOf tp := by
  obtain ⟨T, hT⟩ := vanish_dvd hD.ok fun i hi => numerator_zero hD hw hs hk h2 h3 hc hi
  have hdeg := rowTerm_degree (honest_deg hD h2n hw hk h2 h3) E ch
  have hTd := quotient_degree hD.ok.pos hT hdeg
  obtain ⟨tp, t1, t2⟩ := quotientPoly_run (E := E) h8.new h8.size hD.ok.pos h8.omega h8.root h8.gen0
    h8.gen hk.ok (honestPolys c D r2 r3) ch hz0 hz1 (T := T) (by rw [h8.size]; exact hTd) hT
  exact ⟨tp, t1, by rw [t2]; exact hTd, by rw [t2]; exact hT⟩

end

end VO.Plonk
