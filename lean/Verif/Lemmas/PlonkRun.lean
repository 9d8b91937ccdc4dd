import Verif.Lemmas.PlonkPi

/-
The rounds of the honest prover.
-/

set_option linter.unusedSectionVars false

namespace VO.Plonk

open VO.Spec VO.Spec.Plonk Polynomial

variable {F : Type} [Field F] [DecidableEq F]

/-! ### Round 1 -/

theorem wireScalars_gen {c : Composer F} {n : ℕ} {ws : List ℕ} (hl : ws.length = c.w_l.length)
    (hn : c.w_l.length ≤ n) (hv : ∀ x ∈ ws, x < c.variables.length) :
    wireScalars c n ws = .ok ((List.range n).map fun i => (ws[i]?).elim 0 (ownV c)) := by
  unfold wireScalars
  have h1 : ws.mapM (fun x => (c.variables[x]?).elim (.error .panic) .ok)
      = (.ok (ws.map (ownV c)) : Res (List F)) := by
    refine mapM_ok ws fun x hx => ?_
    rw [List.getElem?_eq_getElem (hv x hx)]
    simp [ownV, List.getD_eq_getElem?_getD, hv x hx]
  simp only [assertR, hn, if_true, ok_bind, h1, pure, Except.pure]
  congr 1
  refine List.ext_getElem? fun i => ?_
  rw [List.getElem?_append]
  simp only [List.length_map, List.getElem?_map]
  by_cases hi : i < ws.length
  · rw [if_pos hi, List.getElem?_eq_getElem hi, List.getElem?_eq_getElem (by simp; omega)]
    simp [hi]
  · rw [if_neg hi, List.getElem?_replicate]
    by_cases hi2 : i < n
    · rw [if_pos (by omega), List.getElem?_eq_getElem (by simpa using hi2)]
      simp [hi]
    · rw [if_neg (by omega), List.getElem?_eq_none (by simp; omega)]
      rfl

/-- The columns of wire values. -/
def wcols (c : Composer F) (n : ℕ) : Quad F :=
  ⟨(List.range n).map fun i => ownW c (.left i), (List.range n).map fun i => ownW c (.right i),
   (List.range n).map fun i => ownW c (.output i), (List.range n).map fun i => ownW c (.fourth i)⟩

/-- Their polynomials. -/
def wpolys (c : Composer F) (D : Dom F) : Quad F :=
  ⟨D.ifft (wcols c D.size).p1, D.ifft (wcols c D.size).p2, D.ifft (wcols c D.size).p3,
   D.ifft (wcols c D.size).p4⟩

theorem elim_own (c : Composer F) (o : Option Var) :
    o.elim 0 (ownV c) = match o with | some x => ownV c x | none => 0 := by
  cases o <;> rfl

theorem wires_run {c : Composer F} (hw : WF c) {n : ℕ} (hn : c.n ≤ n) :
    wireScalars c n c.w_l = .ok (wcols c n).p1 ∧ wireScalars c n c.w_r = .ok (wcols c n).p2 ∧
    wireScalars c n c.w_o = .ok (wcols c n).p3 ∧ wireScalars c n c.w_4 = .ok (wcols c n).p4 := by
  have hl : c.w_l.length ≤ n := by rw [hw.w_l]; exact hn
  have mem : ∀ (ws : List ℕ) (f : ℕ → WireData), (∀ i, wireVar c (f i) = ws[i]?) →
      ∀ x ∈ ws, x < c.variables.length := by
    intro ws f hf x hx
    obtain ⟨i, hi⟩ := List.mem_iff_getElem?.1 hx
    exact hw.valid (f i) x (by rw [hf, hi])
  refine ⟨?_, ?_, ?_, ?_⟩
  · rw [wireScalars_gen rfl hl (mem _ .left fun _ => rfl)]
    simp only [elim_own]; rfl
  · rw [wireScalars_gen (by rw [hw.w_l, hw.w_r]) hl (mem _ .right fun _ => rfl)]
    simp only [elim_own]; rfl
  · rw [wireScalars_gen (by rw [hw.w_l, hw.w_o]) hl (mem _ .output fun _ => rfl)]
    simp only [elim_own]; rfl
  · rw [wireScalars_gen (by rw [hw.w_l, hw.w_4]) hl (mem _ .fourth fun _ => rfl)]
    simp only [elim_own]; rfl

theorem wires_pad {c : Composer F} (hw : WF c) (hz : ownV c c.zero_var = 0) {n : ℕ} (hn : c.n ≤ n) :
    let c' := padComposer c (n - c.n)
    wireScalars c' n c'.w_l = wireScalars c n c.w_l ∧ wireScalars c' n c'.w_r = wireScalars c n c.w_r ∧
    wireScalars c' n c'.w_o = wireScalars c n c.w_o ∧ wireScalars c' n c'.w_4 = wireScalars c n c.w_4 := by
  have hl : c.w_l.length ≤ n := by rw [hw.w_l]; exact hn
  have hl' : (padComposer c (n - c.n)).w_l.length ≤ n := by
    simp only [padComposer, List.length_append, List.length_replicate, hw.w_l]
    omega
  have mem : ∀ (ws : List ℕ) (f : ℕ → WireData), (∀ i, wireVar c (f i) = ws[i]?) →
      ∀ x ∈ ws, x < c.variables.length := by
    intro ws f hf x hx
    obtain ⟨i, hi⟩ := List.mem_iff_getElem?.1 hx
    exact hw.valid (f i) x (by rw [hf, hi])
  have key : ∀ ws : List ℕ, ws.length = c.w_l.length → (∀ x ∈ ws, x < c.variables.length) →
      wireScalars (padComposer c (n - c.n)) n (ws ++ List.replicate (n - c.n) c.zero_var)
        = wireScalars c n ws := by
    intro ws hws hv
    rw [wireScalars_gen hws hl hv, wireScalars_gen (by simp [padComposer, hws]) hl' (by
      intro x hx
      rcases List.mem_append.1 hx with hx | hx
      · exact hv x hx
      · rw [List.eq_of_mem_replicate hx]; exact hw.zero)]
    congr 1
    refine List.map_congr_left fun i _ => ?_
    have ho : ownV (padComposer c (n - c.n)) = ownV c := rfl
    rw [ho, List.getElem?_append, List.getElem?_replicate]
    split_ifs with h1 h2
    · rfl
    · rw [List.getElem?_eq_none (l := ws) (by omega)]
      exact hz
    · rw [List.getElem?_eq_none (l := ws) (by omega)]
  exact ⟨key _ rfl (mem _ .left fun _ => rfl),
    key _ (by rw [hw.w_l, hw.w_r]) (mem _ .right fun _ => rfl),
    key _ (by rw [hw.w_l, hw.w_o]) (mem _ .output fun _ => rfl),
    key _ (by rw [hw.w_l, hw.w_4]) (mem _ .fourth fun _ => rfl)⟩

theorem wcols_len (c : Composer F) (n : ℕ) : QLen (wcols c n) n :=
  ⟨by simp [wcols], by simp [wcols], by simp [wcols], by simp [wcols]⟩

theorem wcols_quad {c : Composer F} {n : ℕ} {p : WireData} (hp : posRow p < n) :
    quadW (wcols c n) p = ownW c p := by
  cases p <;> simp only [posRow] at hp <;>
    simp [quadW, wcols, List.getD_eq_getElem?_getD, List.getElem?_map, List.getElem?_range hp]

theorem wpolys_degree {D : Dom F} (hD : DomOk D) (c : Composer F) :
    (polyOf (wpolys c D).p1).degree < D.size ∧ (polyOf (wpolys c D).p2).degree < D.size ∧
    (polyOf (wpolys c D).p3).degree < D.size ∧ (polyOf (wpolys c D).p4).degree < D.size := by
  have := wcols_len c D.size
  exact ⟨ifft_degree hD this.l1, ifft_degree hD this.l2, ifft_degree hD this.l3,
    ifft_degree hD this.l4⟩

/-- Wire polynomials. -/
noncomputable def wP (c : Composer F) (D : Dom F) : WitVals F[X] :=
  ⟨polyOf (wpolys c D).p1, polyOf (wpolys c D).p2, polyOf (wpolys c D).p3, polyOf (wpolys c D).p4⟩

theorem polyW_own {D : Dom F} (hD : DomOk D) (c : Composer F) {p : WireData} (hp : posRow p < D.size) :
    polyW D.omega (wP c D) p = ownW c p := by
  rw [← wcols_quad hp]
  have := wcols_len c D.size
  cases p <;> simp only [posRow] at hp <;> simp only [polyW, wP, wpolys, quadW]
  · exact ifft_eval hD this.l1 hp
  · exact ifft_eval hD this.l2 hp
  · exact ifft_eval hD this.l3 hp
  · exact ifft_eval hD this.l4 hp

section
variable {P : PCS F} {d : ℕ} (hP : PcsComplete P d)
include hP

theorem commit_lt {n : ℕ} (hd : n ≤ d) {p : List F} (h : (polyOf p).degree < n) :
    P.commit p = .ok (hP.rep (polyOf p)) :=
  hP.commit p (lt_of_lt_of_le h (by exact_mod_cast hd))

/-- The result of round 1. -/
noncomputable def wround (c : Composer F) (D : Dom F) : WitRound P :=
  ⟨wcols c D.size, wpolys c D, (wP c D).map hP.rep⟩

theorem round1_run {D : Dom F} (hD : DomOk D) (hd : D.size ≤ d) {c : Composer F} (hw : WF c)
    (hn : c.n ≤ D.size) : proveRound1 P D c = .ok (wround hP c D) := by
  obtain ⟨h1, h2, h3, h4⟩ := wires_run hw hn
  obtain ⟨d1, d2, d3, d4⟩ := wpolys_degree hD c
  unfold proveRound1
  simp only [h1, h2, h3, h4, liftP, ok_bind]
  have := commitQuad_run (P := P) (q := wpolys c D) (r := fun p => hP.rep (polyOf p))
    (commit_lt hP hd d1) (commit_lt hP hd d2) (commit_lt hP hd d3) (commit_lt hP hd d4)
  unfold wpolys at this
  simp only [this, ok_bind]
  rfl

end

theorem round1_pad {P : PCS F} {D : Dom F} {c : Composer F} (hw : WF c)
    (hz : ownV c c.zero_var = 0) (hn : c.n ≤ D.size) :
    proveRound1 P D (padComposer c (D.size - c.n)) = proveRound1 P D c := by
  obtain ⟨h1, h2, h3, h4⟩ := wires_pad hw hz hn
  unfold proveRound1
  rw [h1, h2, h3, h4]

/-! ### Round 2 -/

theorem round2_pad {P : PCS F} {D : Dom F} {c : Composer F} (hw : WF c) (hn : c.n ≤ D.size)
    (pk : PKey F) (r1 : WitRound P) (zeta : F) :
    proveRound2 P D (padComposer c (D.size - c.n)) pk r1 zeta = proveRound2 P D c pk r1 zeta := by
  have : (padComposer c (D.size - c.n)).q_lookup
      ++ List.replicate (D.size - (padComposer c (D.size - c.n)).q_lookup.length) 0
      = c.q_lookup ++ List.replicate (D.size - c.q_lookup.length) 0 := by
    have h := hw.sel.q_lookup
    simp only [padComposer, List.length_append, List.length_replicate, h]
    rw [show D.size - (c.n + (D.size - c.n)) = 0 by omega]
    simp
  unfold proveRound2
  rw [this]

/-- The compressed queries. -/
def queries (c : Composer F) (n : ℕ) (zeta : F) : List F :=
  (List.range n).map fun i => if c.q_lookup.getD i 0 = 0 then (compressedTable c n zeta).getD 0 0
    else compressRow zeta (ownW c (.left i), ownW c (.right i), ownW c (.output i), ownW c (.fourth i))

theorem table_length {K : PField F} {c : Composer F} {D : Dom F} (hD : CDom K c D) (zeta : F) :
    (compressedTable c D.size zeta).length = D.size := by
  simp [compressedTable, padRows_length hD.tab hD.ok.pos]

theorem queries_length (c : Composer F) (n : ℕ) (zeta : F) : (queries c n zeta).length = n := by
  simp [queries]

theorem queries_mem {K : PField F} {E : EdCurve F} {c : Composer F} {D : Dom F} (hD : CDom K c D)
    (hw : WF c) (hs : OwnSat E c) (zeta : F) :
    ∀ x ∈ queries c D.size zeta, x ∈ compressedTable c D.size zeta := by
  intro x hx
  simp only [queries, List.mem_map, List.mem_range] at hx
  obtain ⟨i, hi, rfl⟩ := hx
  split_ifs with h
  · have := table_length hD zeta
    have h0 : 0 < (compressedTable c D.size zeta).length := by rw [this]; exact hD.ok.pos
    rw [List.getD_eq_getElem?_getD, List.getElem?_eq_getElem h0]
    simp
  · have hic : i < c.n := by
      by_contra hc
      apply h
      rw [List.getD_eq_getElem?_getD, List.getElem?_eq_none (by rw [hw.sel.q_lookup]; omega)]
      rfl
    have hr := ((hs D.size hD.n).rows i hic).lookup h
    have hT : c.lookup_table ≠ [] := by
      intro h0
      rw [h0] at hr
      simp at hr
    exact List.mem_map_of_mem ((mem_padRows hT).2 hr)

/-- The rows of the queries. -/
theorem query_rows {K : PField F} {c : Composer F} {D : Dom F} (hD : CDom K c D) (hw : WF c) :
    (c.q_lookup ++ List.replicate (D.size - c.q_lookup.length) 0).zip
      ((wcols c D.size).p1.zip ((wcols c D.size).p2.zip ((wcols c D.size).p3.zip (wcols c D.size).p4)))
    = (List.range D.size).map fun i => (c.q_lookup.getD i 0, ownW c (.left i), ownW c (.right i),
        ownW c (.output i), ownW c (.fourth i)) := by
  have h := hw.sel.q_lookup
  have hn := hD.n
  refine List.ext_getElem? fun i => ?_
  by_cases hi : i < D.size
  · have hq : (c.q_lookup ++ List.replicate (D.size - c.q_lookup.length) 0)[i]?
        = some (c.q_lookup.getD i 0) := by
      rw [List.getElem?_append, List.getElem?_replicate]
      split_ifs with h1 h2
      · rw [List.getD_eq_getElem?_getD, List.getElem?_eq_getElem h1]; rfl
      · rw [List.getD_eq_getElem?_getD, List.getElem?_eq_none (by omega)]; rfl
      · omega
    simp [List.getElem?_zip_eq_some, List.zip, List.getElem?_zipWith, hq, wcols,
      List.getElem?_map, List.getElem?_range hi]
  · rw [List.getElem?_eq_none (by simp [wcols]; omega), List.getElem?_eq_none (by simp; omega)]

/-- The result of round 2. -/
structure LookOk {P : PCS F} (c : Composer F) (D : Dom F) (rep : F[X] → P.Comm) (zeta : F)
    (r : LookRound P) : Prop where
  ct : r.ct = compressedTable c D.size zeta
  cf : r.cf = queries c D.size zeta
  h1v : r.h1v = evens (grouped r.ct r.cf)
  h2v : r.h2v = odds (grouped r.ct r.cf)
  table : r.table = D.ifft r.ct
  f : r.f = D.ifft r.cf
  h1 : r.h1 = D.ifft r.h1v
  h2 : r.h2 = D.ifft r.h2v
  fC : r.fC = rep (polyOf r.f)
  h1C : r.h1C = rep (polyOf r.h1)
  h2C : r.h2C = rep (polyOf r.h2)
  lct : r.ct.length = D.size
  lcf : r.cf.length = D.size
  lh1 : r.h1v.length = D.size
  lh2 : r.h2v.length = D.size
  mem : ∀ x ∈ r.cf, x ∈ r.ct

theorem round2_panic {P : PCS F} {D : Dom F} {c : Composer F} {pk : PKey F}
    (ht : pk.tab = tabQuad c.lookup_table D.size) (r1 : WitRound P) {zeta : F}
    (hz : zeta = 0 ∨ zeta = 1) : proveRound2 P D c pk r1 zeta = .error .panic := by
  unfold proveRound2
  rw [ht]
  simp only [tabQuad, compress_rows, if_pos hz, liftP, error_bind]

theorem round2_run {K : PField F} {E : EdCurve F} {P : PCS F} {d : ℕ} (hP : PcsComplete P d)
    {c : Composer F} {D : Dom F} (hD : CDom K c D) (hd : D.size ≤ d) (hw : WF c) (hs : OwnSat E c)
    {pk : PKey F} (ht : pk.tab = tabQuad c.lookup_table D.size) {zeta : F} (h0 : zeta ≠ 0)
    (h1 : zeta ≠ 1) :
    ∃ r, proveRound2 P D c pk (wround hP c D) zeta = .ok r ∧ LookOk c D hP.rep zeta r := by
  have hz : ¬ (zeta = 0 ∨ zeta = 1) := by tauto
  have lct := table_length hD zeta
  have lcf := queries_length c D.size zeta
  have mem := queries_mem hD hw hs zeta
  have hl : (grouped (compressedTable c D.size zeta) (queries c D.size zeta)).length = 2 * D.size := by
    rw [(grouped_perm mem).length_eq, List.length_append, lct, lcf]; ring
  have l1 : (evens (grouped (compressedTable c D.size zeta) (queries c D.size zeta))).length = D.size := by
    rw [(evens_length _).1, hl]; omega
  have l2 : (odds (grouped (compressedTable c D.size zeta) (queries c D.size zeta))).length = D.size := by
    rw [(evens_length _).2, hl]; omega
  have hct0 : (compressedTable c D.size zeta)[0]? = some ((compressedTable c D.size zeta).getD 0 0) := by
    rw [List.getD_eq_getElem?_getD, List.getElem?_eq_getElem (by rw [lct]; exact hD.ok.pos)]
    rfl
  have c1 := commit_lt hP hd (ifft_degree hD.ok lcf)
  have c2 := commit_lt hP hd (ifft_degree hD.ok l1)
  have c3 := commit_lt hP hd (ifft_degree hD.ok l2)
  have e1 : msCompress [pk.tab.p1, pk.tab.p2, pk.tab.p3, pk.tab.p4] zeta
      = .ok (compressedTable c D.size zeta) := by
    rw [ht]
    simp only [tabQuad, compress_rows, if_neg hz]
    rfl
  have e2 : msCompress (queryCols ((compressedTable c D.size zeta).getD 0 0)
      ((c.q_lookup ++ List.replicate (D.size - c.q_lookup.length) 0).zip
      ((wcols c D.size).p1.zip ((wcols c D.size).p2.zip
        ((wcols c D.size).p3.zip (wcols c D.size).p4))))) zeta = .ok (queries c D.size zeta) := by
    rw [query_eq, if_neg hz, query_rows hD hw, List.map_map]
    rfl
  have e3 := (combineSplit_eq (compressedTable c D.size zeta) (queries c D.size zeta)).trans
    (if_pos mem)
  refine ⟨⟨compressedTable c D.size zeta, queries c D.size zeta,
    evens (grouped (compressedTable c D.size zeta) (queries c D.size zeta)),
    odds (grouped (compressedTable c D.size zeta) (queries c D.size zeta)),
    D.ifft (compressedTable c D.size zeta), D.ifft (queries c D.size zeta),
    D.ifft (evens (grouped (compressedTable c D.size zeta) (queries c D.size zeta))),
    D.ifft (odds (grouped (compressedTable c D.size zeta) (queries c D.size zeta))),
    hP.rep (polyOf (D.ifft (queries c D.size zeta))),
    hP.rep (polyOf (D.ifft (evens (grouped (compressedTable c D.size zeta) (queries c D.size zeta))))),
    hP.rep (polyOf (D.ifft (odds (grouped (compressedTable c D.size zeta) (queries c D.size zeta)))))⟩,
    ?_, ⟨rfl, rfl, rfl, rfl, rfl, rfl, rfl, rfl, rfl, rfl,
    rfl, lct, lcf, l1, l2, mem⟩⟩
  unfold proveRound2
  simp only [wround, e1, liftP, ok_bind, hct0, Option.elim, e2, c1, e3, unwrapP, c2, c3]
  rfl

/-! ### Round 3 -/

/-- The challenges of round 3 are distinct and no denominator vanishes. -/
structure Good3 (D : Dom F) (c : Composer F) (sig : Quad F) (h1v h2v : List F)
    (beta gamma delta epsilon : F) : Prop where
  d1 : beta ≠ gamma
  d2 : beta ≠ delta
  d3 : beta ≠ epsilon
  d4 : gamma ≠ delta
  d5 : gamma ≠ epsilon
  d6 : delta ≠ epsilon
  sig : ∀ i < D.size, sigFactor sig D.omega beta gamma (ownW c) i ≠ 0
  half : ∀ i < D.size, halfFactor D.size delta epsilon (fun i => h1v.getD i 0)
    (fun i => h2v.getD i 0) i ≠ 0

/-- The result of round 3. -/
structure AccOk {P : PCS F} (c : Composer F) (D : Dom F) (rep : F[X] → P.Comm) (sig : Quad F)
    (r2 : LookRound P) (beta gamma delta epsilon : F) (r : AccRound P) : Prop where
  zdeg : (polyOf r.z).degree < D.size
  z2deg : (polyOf r.z2).degree < D.size
  pi : ∃ e, asEvals c.public_inputs D.size = .ok e ∧ e.length = D.size ∧
    (∀ i, e.getD i 0 = ownPub c i) ∧ r.pi = D.ifft e
  zC : r.zC = rep (polyOf r.z)
  z2C : r.z2C = rep (polyOf r.z2)
  perm : PermCheck sig D.size D.omega beta gamma (ownW c) (onDom D.omega (polyOf r.z))
  look : Contiguous r2.ct → LookupCheck D.size delta epsilon (fun i => r2.cf.getD i 0)
    (fun i => r2.ct.getD i 0) (fun i => r2.h1v.getD i 0) (fun i => r2.h2v.getD i 0)
    (onDom D.omega (polyOf r.z2))

theorem factors_quad (sig : Quad F) (omega beta gamma : F) (c : Composer F) {n i : ℕ} (hi : i < n) :
    sigFactor sig omega beta gamma (quadW (wcols c n)) i = sigFactor sig omega beta gamma (ownW c) i ∧
    ownFactor omega beta gamma (quadW (wcols c n)) i = ownFactor omega beta gamma (ownW c) i := by
  have l := wcols_quad (c := c) (p := .left i) hi
  have r := wcols_quad (c := c) (p := .right i) hi
  have o := wcols_quad (c := c) (p := .output i) hi
  have f := wcols_quad (c := c) (p := .fourth i) hi
  unfold sigFactor ownFactor
  rw [l, r, o, f]
  exact ⟨rfl, rfl⟩

theorem ownSat_copy {E : EdCurve F} {c : Composer F} (hs : OwnSat E c) : CopyOk c (ownW c) := by
  intro x p q hp hq
  have := (hs c.n le_rfl).copy
  rw [this x p hp, this x q hq]

theorem pi_run {K : PField F} {c : Composer F} {D : Dom F} (hD : CDom K c D) (hw : WF c)
    (hp : PiSorted c) : ∃ e, asEvals c.public_inputs D.size = .ok e ∧ e.length = D.size ∧
      (∀ i, e.getD i 0 = ownPub c i) ∧ piPoly K c.public_inputs D.size = .ok (D.ifft e) := by
  obtain ⟨k, hk⟩ := hD.pow
  obtain ⟨e, h1, h2, h3⟩ := asEvals_run (pow2_ok hk) hp fun x hx =>
    lt_of_lt_of_le (hw.int _ (hw.pis x hx)) hD.n
  refine ⟨e, h1, h2, h3, ?_⟩
  have hs := hD.self
  unfold newDom at hs
  unfold piPoly
  cases hd : Dom.new K.fft D.size with
  | none => rw [hd] at hs; cases hs
  | some D' =>
    rw [hd] at hs
    simp only [Except.ok.injEq] at hs
    subst hs
    simp only [h1, liftP, ok_bind]
    rfl

theorem round3_run {K : PField F} {E : EdCurve F} {P : PCS F} {d : ℕ} (hP : PcsComplete P d)
    {c : Composer F} {D : Dom F} (hD : CDom K c D) (hd : D.size ≤ d) (hw : WF c) (hp : PiSorted c)
    (hs : OwnSat E c) {pk : PKey F} (hsig : computeSigmaPolynomials c.perm D.size D = .ok pk.sig)
    {r2 : LookRound P} {zeta : F} (h2 : LookOk c D hP.rep zeta r2) {beta gamma delta epsilon : F}
    (hg : Good3 D c pk.sig r2.h1v r2.h2v beta gamma delta epsilon) :
    ∃ r, proveRound3 K P D c pk (wround hP c D) r2 beta gamma delta epsilon = .ok r ∧
      AccOk c D hP.rep pk.sig r2 beta gamma delta epsilon r := by
  obtain ⟨s, sig', e1, e2, hsg⟩ := sigmaPolys_run hD.ok hw (List.Perm.refl _) hD.n
  rw [hsig] at e2
  simp only [Except.ok.injEq] at e2
  subst e2
  obtain ⟨z, z1, z2, z3⟩ := permPoly_run hD.ok (wcols_len c D.size) pk.sig beta gamma fun i hi => by
    rw [(factors_quad pk.sig D.omega beta gamma c hi).1]; exact hg.sig i hi
  obtain ⟨y, y1, y2, y3⟩ := lookupPoly_run hD.ok h2.lcf h2.lct h2.lh1 h2.lh2 delta epsilon hg.half
  obtain ⟨e, p1, p2, p3, p4⟩ := pi_run hD hw hp
  refine ⟨⟨z, y, D.ifft e, hP.rep (polyOf z), hP.rep (polyOf y)⟩, ?_, z2, y2, ⟨e, p1, p2, p3, rfl⟩,
    rfl, rfl, ?_, fun hc => ?_⟩
  · unfold proveRound3
    simp only [liftP, assertR, hg.d1, hg.d2, hg.d3, hg.d4, hg.d5, hg.d6, ne_eq, not_false_eq_true,
      if_true, ok_bind]
    simp only [wround, z1, y1, ok_bind, commit_lt hP hd z2, commit_lt hP hd y2, p4]
    rfl
  · refine permCheck_of_run hD.ok.pos hg.sig (fun i hi => ?_)
      (perm_prod_eq hw (List.Perm.refl _) hD.n e1 hsg (ownSat_copy hs) beta gamma)
    have := z3 i hi
    rw [polyEval_eq] at this
    unfold onDom
    rw [this]
    refine Finset.prod_congr rfl fun j hj => ?_
    have hj' : j < D.size := lt_trans (Finset.mem_range.1 hj) hi
    rw [(factors_quad pk.sig D.omega beta gamma c hj').1, (factors_quad pk.sig D.omega beta gamma c hj').2]
  · refine lookupCheck_of_run hD.ok.pos hg.half (fun i hi => ?_) ?_
    · have := y3 i hi
      rw [polyEval_eq] at this
      exact this
    · rw [h2.h1v, h2.h2v]
      exact lookup_prod_eq h2.lct h2.lcf h2.mem hc delta epsilon

theorem round3_inv {K : PField F} {P : PCS F} {d : ℕ} (hP : PcsComplete P d)
    {c : Composer F} {D : Dom F} {pk : PKey F}
    {r2 : LookRound P} {zeta : F} (h2 : LookOk c D hP.rep zeta r2) {beta gamma delta epsilon : F}
    {r : AccRound P}
    (h : proveRound3 K P D c pk (wround hP c D) r2 beta gamma delta epsilon = .ok r) :
    Good3 D c pk.sig r2.h1v r2.h2v beta gamma delta epsilon := by
  unfold proveRound3 at h
  obtain ⟨_, a1, h⟩ := bind_okE h
  obtain ⟨_, a2, h⟩ := bind_okE h
  obtain ⟨_, a3, h⟩ := bind_okE h
  obtain ⟨_, a4, h⟩ := bind_okE h
  obtain ⟨_, a5, h⟩ := bind_okE h
  obtain ⟨_, a6, h⟩ := bind_okE h
  obtain ⟨z, hz, h⟩ := bind_okE h
  obtain ⟨zC, hzC, h⟩ := bind_okE h
  obtain ⟨y, hy, h⟩ := bind_okE h
  refine ⟨assertR_okE (liftP_okE a1), assertR_okE (liftP_okE a2), assertR_okE (liftP_okE a3),
    assertR_okE (liftP_okE a4), assertR_okE (liftP_okE a5), assertR_okE (liftP_okE a6),
    fun i hi hc => ?_, fun i hi hc => ?_⟩
  · rw [show (wround hP c D).v = wcols c D.size from rfl, permPoly_panic (wcols_len c D.size) _ _ _ ⟨i, hi, by
      rw [(factors_quad pk.sig D.omega beta gamma c hi).1]; exact hc⟩] at hz
    cases hz
  · rw [lookupPoly_panic h2.lcf h2.lct h2.lh1 h2.lh2 _ _ ⟨i, hi, hc⟩] at hy
    cases hy

end VO.Plonk
