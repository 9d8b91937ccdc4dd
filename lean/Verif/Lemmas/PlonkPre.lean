import Verif.Lemmas.PlonkRows

/-
Preprocessing: domains, keys, transcripts.
-/

set_option linter.unusedSectionVars false

namespace VO.Plonk

open VO.Spec VO.Spec.Plonk Polynomial

variable {F : Type} [Field F] [DecidableEq F]

theorem bind_okE {ε α β : Type} {x : Except ε α} {f : α → Except ε β} {b : β}
    (h : (x >>= f) = .ok b) : ∃ a, x = .ok a ∧ f a = .ok b := by
  cases x with
  | error e => cases h
  | ok a => exact ⟨a, rfl, h⟩

theorem liftP_okE {α : Type} {x : Res α} {a : α} (h : liftP x = .ok a) : x = .ok a := by
  cases x with
  | error e => cases h
  | ok b => simp only [liftP, Except.ok.injEq] at h; rw [h]

theorem unwrapP_okE {α : Type} {x : Except PErr α} {a : α} (h : unwrapP x = .ok a) : x = .ok a := by
  cases x with
  | error e => cases h
  | ok b => simp only [unwrapP, Except.ok.injEq] at h; rw [h]

theorem assertR_okE {p : Prop} [Decidable p] {a : Unit} (h : assertR p = .ok a) : p := by
  unfold assertR at h
  by_contra hc
  rw [if_neg hc] at h
  cases h

/-! ### Domains -/

theorem newDom_inv {K : PField F} {k : ℕ} {D : Dom F} (h : newDom K k = .ok D) :
    Nat.clog 2 k ≤ K.fft.twoAdicity ∧ D = ⟨2 ^ Nat.clog 2 k, K.fft.root (Nat.clog 2 k)⟩ := by
  unfold newDom Dom.new at h
  split_ifs at h with hc
  · simp only [Except.ok.injEq] at h
    exact ⟨hc, h.symm⟩

theorem newDom_run {K : PField F} {k : ℕ} (h : Nat.clog 2 k ≤ K.fft.twoAdicity) :
    newDom K k = .ok ⟨2 ^ Nat.clog 2 k, K.fft.root (Nat.clog 2 k)⟩ := by
  unfold newDom Dom.new
  rw [if_pos h]

theorem domOk_new {K : PField F} (hK : PFieldOk K) {k : ℕ} {D : Dom F} (h : newDom K k = .ok D) :
    DomOk D := by
  obtain ⟨hc, rfl⟩ := newDom_inv h
  exact ⟨by positivity, hK.root _ hc, hK.nz, hK.k1 _ hc, hK.k2 _ hc, hK.k3 _ hc, hK.k12 _ hc,
    hK.k13 _ hc, hK.k23 _ hc⟩

theorem root_pow {K : PField F} (hK : PFieldOk K) (e j : ℕ) (h : e + j ≤ K.fft.twoAdicity) :
    K.fft.root (e + j) ^ 2 ^ j = K.fft.root e := by
  induction j with
  | zero => simp
  | succ j ih =>
    rw [pow_succ, mul_comm, pow_mul, ← add_assoc, hK.step (e + j) (by omega), ih (by omega)]

theorem clog_eight (e : ℕ) : Nat.clog 2 (8 * 2 ^ e) = e + 3 := by
  have : 8 * 2 ^ e = 2 ^ (e + 3) := by rw [pow_add]; ring
  rw [this, Nat.clog_pow 2 _ (by norm_num)]

/-- The domain of eight times the size. -/
structure Dom8 (K : PField F) (D D8 : Dom F) : Prop where
  new : newDom K (8 * D.size) = .ok D8
  size : D8.size = 8 * D.size
  omega : D8.omega ^ 8 = D.omega
  root : IsPrimitiveRoot D8.omega D8.size
  gen0 : K.gen ≠ 0
  gen : K.gen ^ D8.size ≠ 1

theorem dom8_new {K : PField F} (hK : PFieldOk K) {k : ℕ} {D D8 : Dom F} (h : newDom K k = .ok D)
    (h8 : newDom K (8 * D.size) = .ok D8) : Dom8 K D D8 := by
  refine ⟨h8, ?_, ?_, ?_, hK.gen0, ?_⟩ <;> obtain ⟨hc, rfl⟩ := newDom_inv h <;>
    obtain ⟨hc8, rfl⟩ := newDom_inv h8 <;> simp only [clog_eight] at hc8 ⊢
  · rw [pow_add]; ring
  · exact root_pow hK _ 3 hc8
  · exact hK.root _ hc8
  · exact hK.gen _ hc8

theorem bound_le (c : Composer F) : c.n ≤ circuitBound c ∧ c.lookup_table.length ≤ circuitBound c := by
  unfold circuitBound
  have := Nat.le_pow_clog (b := 2) (by norm_num) (max c.n c.lookup_table.length)
  exact ⟨le_trans (le_max_left _ _) this, le_trans (le_max_right _ _) this⟩

/-- The facts about the domain of a composer. -/
structure CDom (K : PField F) (c : Composer F) (D : Dom F) : Prop where
  new : newDom K (circuitBound c) = .ok D
  ok : DomOk D
  n : c.n ≤ D.size
  tab : c.lookup_table.length ≤ D.size
  pow : ∃ e, D.size = 2 ^ e
  self : newDom K D.size = .ok D
  eq : D.size = circuitBound c

theorem cdom_new {K : PField F} (hK : PFieldOk K) {c : Composer F} {D : Dom F}
    (h : newDom K (circuitBound c) = .ok D) : CDom K c D := by
  have hs : D.size = circuitBound c := by
    obtain ⟨-, rfl⟩ := newDom_inv h
    unfold circuitBound
    rw [Nat.clog_pow 2 _ (by norm_num)]
  refine ⟨h, domOk_new hK h, ?_, ?_, ?_, ?_, hs⟩
  · rw [hs]; exact (bound_le c).1
  · rw [hs]; exact (bound_le c).2
  · rw [hs]; exact ⟨_, rfl⟩
  · rw [hs]; exact h

theorem pow2_ok {n e : ℕ} (h : n = 2 ^ e) : 2 ^ Nat.log 2 n = n := by
  subst h
  rw [Nat.log_pow (by norm_num)]

theorem circuitBound_pad {c : Composer F} {n : ℕ} (h : n = circuitBound c) :
    circuitBound (padComposer c (n - c.n)) = n := by
  have h1 := (bound_le c).1
  have h2 := (bound_le c).2
  rw [← h] at h1 h2
  have : max (padComposer c (n - c.n)).n (padComposer c (n - c.n)).lookup_table.length = n := by
    simp only [padComposer]
    omega
  unfold circuitBound
  rw [this, h]
  unfold circuitBound
  rw [Nat.clog_pow 2 _ (by norm_num)]

/-! ### Selectors -/

theorem getD_pad (l : List F) (k i : ℕ) : (l ++ List.replicate k 0).getD i 0 = l.getD i 0 := by
  rw [List.getD_eq_getElem?_getD, List.getElem?_append, List.getD_eq_getElem?_getD]
  split_ifs with h
  · rfl
  · rw [List.getElem?_eq_none (l := l) (by omega), List.getElem?_replicate]
    split_ifs <;> rfl

/-- The selector polynomials take the selectors of the rows. -/
theorem selector_rows {K : PField F} {c : Composer F} {D : Dom F} (hD : CDom K c D) (hw : WF c)
    {i : ℕ} (hi : i < D.size) :
    ((selectorPolys D (padComposer c (D.size - c.n))).map polyOf).map
      (Polynomial.eval (D.omega ^ i)) = gateAt c i := by
  have key : ∀ l : List F, l.length = c.n →
      (polyOf (D.ifft (l ++ List.replicate (D.size - c.n) 0))).eval (D.omega ^ i) = l.getD i 0 := by
    intro l hl
    have := hD.n
    rw [ifft_eval hD.ok (by simp; omega) hi, getD_pad]
  have s := hw.sel
  simp only [selectorPolys, padComposer, Gate.map, gateAt, key _ s.q_m, key _ s.q_l, key _ s.q_r,
    key _ s.q_o, key _ s.q_4, key _ s.q_c, key _ s.q_hl, key _ s.q_hr, key _ s.q_h4, key _ s.q_arith,
    key _ s.q_range, key _ s.q_logic, key _ s.q_fixed, key _ s.q_var, key _ s.q_lookup]

/-- A property of all components. -/
def GateAll {α : Type} (p : α → Prop) (g : Gate α) : Prop :=
  p g.m ∧ p g.l ∧ p g.r ∧ p g.o ∧ p g.q4 ∧ p g.c ∧ p g.hl ∧ p g.hr ∧ p g.h4 ∧ p g.arith ∧ p g.range ∧
    p g.logic ∧ p g.fixed ∧ p g.var ∧ p g.lookup

theorem selector_degree {K : PField F} {c : Composer F} {D : Dom F} (hD : CDom K c D) (hw : WF c) :
    GateAll (fun p => (polyOf p).degree < D.size)
      (selectorPolys D (padComposer c (D.size - c.n))) := by
  have key : ∀ l : List F, l.length = c.n →
      (polyOf (D.ifft (l ++ List.replicate (D.size - c.n) 0))).degree < D.size := by
    intro l hl
    have := hD.n
    exact ifft_degree hD.ok (by simp; omega)
  have s := hw.sel
  exact ⟨key _ s.q_m, key _ s.q_l, key _ s.q_r, key _ s.q_o, key _ s.q_4, key _ s.q_c, key _ s.q_hl,
    key _ s.q_hr, key _ s.q_h4, key _ s.q_arith, key _ s.q_range, key _ s.q_logic, key _ s.q_fixed,
    key _ s.q_var, key _ s.q_lookup⟩

/-! ### Commitments of records -/

theorem commitGate_inv {P : PCS F} {g : Gate (List F)} {c : Gate P.Comm}
    (h : commitGate P g = .ok c) :
    P.commit g.m = .ok c.m ∧ P.commit g.l = .ok c.l ∧ P.commit g.r = .ok c.r ∧
    P.commit g.o = .ok c.o ∧ P.commit g.q4 = .ok c.q4 ∧ P.commit g.c = .ok c.c ∧
    P.commit g.hl = .ok c.hl ∧ P.commit g.hr = .ok c.hr ∧ P.commit g.h4 = .ok c.h4 ∧
    P.commit g.arith = .ok c.arith ∧ P.commit g.range = .ok c.range ∧
    P.commit g.logic = .ok c.logic ∧ P.commit g.lookup = .ok c.lookup ∧
    P.commit g.fixed = .ok c.fixed ∧ P.commit g.var = .ok c.var := by
  unfold commitGate at h
  obtain ⟨m, hm, h⟩ := bind_okE h
  obtain ⟨l, hl, h⟩ := bind_okE h
  obtain ⟨r, hr, h⟩ := bind_okE h
  obtain ⟨o, ho, h⟩ := bind_okE h
  obtain ⟨q4, hq4, h⟩ := bind_okE h
  obtain ⟨cc, hc, h⟩ := bind_okE h
  obtain ⟨hl', hhl, h⟩ := bind_okE h
  obtain ⟨hr', hhr, h⟩ := bind_okE h
  obtain ⟨h4', hh4, h⟩ := bind_okE h
  obtain ⟨ar, har, h⟩ := bind_okE h
  obtain ⟨ra, hra, h⟩ := bind_okE h
  obtain ⟨lo, hlo, h⟩ := bind_okE h
  obtain ⟨lk, hlk, h⟩ := bind_okE h
  obtain ⟨fi, hfi, h⟩ := bind_okE h
  obtain ⟨va, hva, h⟩ := bind_okE h
  simp only [pure, Except.pure, Except.ok.injEq] at h
  subst h
  exact ⟨hm, hl, hr, ho, hq4, hc, hhl, hhr, hh4, har, hra, hlo, hlk, hfi, hva⟩

theorem commitQuad_inv {P : PCS F} {q : Quad F} {c : WitVals P.Comm} (h : commitQuad P q = .ok c) :
    P.commit q.p1 = .ok c.a ∧ P.commit q.p2 = .ok c.b ∧ P.commit q.p3 = .ok c.c ∧
      P.commit q.p4 = .ok c.d := by
  unfold commitQuad at h
  obtain ⟨a, ha, h⟩ := bind_okE h
  obtain ⟨b, hb, h⟩ := bind_okE h
  obtain ⟨cc, hc, h⟩ := bind_okE h
  obtain ⟨d, hd, h⟩ := bind_okE h
  simp only [pure, Except.pure, Except.ok.injEq] at h
  subst h
  exact ⟨ha, hb, hc, hd⟩

theorem commitGate_run {P : PCS F} {g : Gate (List F)} {r : List F → P.Comm}
    (h : GateAll (fun p => P.commit p = .ok (r p)) g) : commitGate P g = .ok (g.map r) := by
  obtain ⟨h1, h2, h3, h4, h5, h6, h7, h8, h9, h10, h11, h12, h13, h14, h15⟩ := h
  unfold commitGate
  simp only [h1, h2, h3, h4, h5, h6, h7, h8, h9, h10, h11, h12, h13, h14, h15, ok_bind]
  rfl

theorem commitQuad_run {P : PCS F} {q : Quad F} {r : List F → P.Comm}
    (h1 : P.commit q.p1 = .ok (r q.p1)) (h2 : P.commit q.p2 = .ok (r q.p2))
    (h3 : P.commit q.p3 = .ok (r q.p3)) (h4 : P.commit q.p4 = .ok (r q.p4)) :
    commitQuad P q = .ok ⟨r q.p1, r q.p2, r q.p3, r q.p4⟩ := by
  unfold commitQuad
  simp only [h1, h2, h3, h4, ok_bind]
  rfl

/-! ### Preprocessing -/

/-- The padded columns of a table. -/
def tabQuad (T : Table F) (n : ℕ) : Quad F :=
  ⟨(padRows T n).map (·.1), (padRows T n).map (·.2.1), (padRows T n).map (·.2.2.1),
   (padRows T n).map (·.2.2.2)⟩

/-- The polynomials of the columns. -/
def tabPolys (D : Dom F) (T : Table F) : Quad F :=
  ⟨D.ifft (tabQuad T D.size).p1, D.ifft (tabQuad T D.size).p2, D.ifft (tabQuad T D.size).p3,
   D.ifft (tabQuad T D.size).p4⟩

/-- What preprocessing makes of a composer. -/
structure PreOk (P : PCS F) (c : Composer F) (D : Dom F) (sel : Gate (List F)) (sig : Quad F)
    (tab : Quad F) (vk : VKey P) : Prop where
  n : vk.n = D.size
  selEq : sel = selectorPolys D (padComposer c (D.size - c.n))
  sigEq : computeSigmaPolynomials c.perm D.size D = .ok sig
  tabEq : tab = tabQuad c.lookup_table D.size
  selC : commitGate P sel = .ok vk.sel
  sigC : commitQuad P sig = .ok vk.sig
  tabC : commitQuad P (tabPolys D c.lookup_table) = .ok vk.tab

theorem pad_n {K : PField F} {c : Composer F} {D : Dom F} (hD : CDom K c D) :
    (padComposer c (D.size - c.n)).n = D.size := by
  have := hD.n
  simp only [padComposer]
  omega

theorem preprocessShared_inv {K : PField F} (hK : PFieldOk K) {P : PCS F} {c c' : Composer F}
    {tr tr' : Transcript F P.Comm} {vk : VKey P} {sel : Gate (List F)} {sig tab : Quad F} {D : Dom F}
    (h : preprocessShared K P c tr = .ok (c', vk, sel, sig, D, tab, tr')) :
    CDom K c D ∧ c' = padComposer c (D.size - c.n) ∧ PreOk P c D sel sig tab vk ∧
      tr' = seedTranscript vk tr := by
  unfold preprocessShared at h
  obtain ⟨D', hD, h⟩ := bind_okE h
  have hC := cdom_new hK hD
  obtain ⟨cols, hcols, h⟩ := bind_okE h
  obtain ⟨tabC, htabC, h⟩ := bind_okE h
  by_cases hs : polySameLen c
  swap
  · simp [hs] at h
    cases h
  simp only [hs, Bool.not_true, Bool.false_eq_true, if_false] at h
  obtain ⟨sig', hsig, h⟩ := bind_okE h
  obtain ⟨selC, hselC, h⟩ := bind_okE h
  obtain ⟨sigC, hsigC, h⟩ := bind_okE h
  simp only [pure, Except.pure, Except.ok.injEq, Prod.mk.injEq] at h
  obtain ⟨rfl, rfl, rfl, rfl, rfl, rfl, rfl⟩ := h
  have hcols := liftP_okE hcols
  obtain ⟨e, he⟩ := hC.pow
  rw [preprocess_eq _ (pow2_ok he)] at hcols
  simp only [Except.ok.injEq] at hcols
  subst hcols
  have hsig := liftP_okE hsig
  rw [pad_n hC] at hsig
  exact ⟨hC, rfl, ⟨pad_n hC, rfl, hsig, rfl, hselC, hsigC, unwrapP_okE (liftP_okE htabC)⟩, rfl⟩

theorem polySameLen_wf {c : Composer F} (hw : WF c) : polySameLen c = true := by
  have s := hw.sel
  simp [polySameLen, s.q_m, s.q_l, s.q_r, s.q_o, s.q_4, s.q_c, s.q_hl, s.q_hr, s.q_h4, s.q_arith,
    s.q_range, s.q_logic, s.q_fixed, s.q_var, s.q_lookup, hw.w_l, hw.w_r, hw.w_o, hw.w_4]

theorem sig_degree {D : Dom F} (hD : DomOk D) {c : Composer F} (hw : WF c) (hn : c.n ≤ D.size)
    {sig : Quad F} (h : computeSigmaPolynomials c.perm D.size D = .ok sig) :
    (polyOf sig.p1).degree < D.size ∧ (polyOf sig.p2).degree < D.size ∧
      (polyOf sig.p3).degree < D.size ∧ (polyOf sig.p4).degree < D.size := by
  obtain ⟨s, sig', -, h2, hs⟩ := sigmaPolys_run hD hw (List.Perm.refl _) hn
  rw [h] at h2
  simp only [Except.ok.injEq] at h2
  subst h2
  exact ⟨hs.d1, hs.d2, hs.d3, hs.d4⟩

theorem tab_degree {K : PField F} {c : Composer F} {D : Dom F} (hD : CDom K c D) :
    (polyOf (tabPolys D c.lookup_table).p1).degree < D.size ∧
    (polyOf (tabPolys D c.lookup_table).p2).degree < D.size ∧
    (polyOf (tabPolys D c.lookup_table).p3).degree < D.size ∧
    (polyOf (tabPolys D c.lookup_table).p4).degree < D.size := by
  have := padRows_length hD.tab hD.ok.pos
  refine ⟨?_, ?_, ?_, ?_⟩ <;> exact ifft_degree hD.ok (by simp [tabQuad, this])

/-- Preprocessing a reachable circuit succeeds if it fits in the field and in the commitment key. -/
theorem preprocessShared_run {K : PField F} {P : PCS F} {d : ℕ} (hP : PcsComplete P d)
    {c : Composer F} (hw : WF c) {D : Dom F} (hD : CDom K c D) (hd : D.size ≤ d)
    (tr : Transcript F P.Comm) : ∃ r, preprocessShared K P c tr = .ok r := by
  have lt : ∀ p : List F, (polyOf p).degree < D.size → P.commit p = .ok (hP.rep (polyOf p)) :=
    fun p hp => hP.commit p (lt_of_lt_of_le hp (by exact_mod_cast hd))
  obtain ⟨e, he⟩ := hD.pow
  obtain ⟨s, sig, -, hsig, -⟩ := sigmaPolys_run hD.ok hw (List.Perm.refl _) hD.n
  obtain ⟨s1, s2, s3, s4⟩ := sig_degree hD.ok hw hD.n hsig
  obtain ⟨t1, t2, t3, t4⟩ := tab_degree hD
  have hg : GateAll (fun p => P.commit p = .ok (hP.rep (polyOf p)))
      (selectorPolys D (padComposer c (D.size - c.n))) := by
    obtain ⟨h1, h2, h3, h4, h5, h6, h7, h8, h9, h10, h11, h12, h13, h14, h15⟩ := selector_degree hD hw
    exact ⟨lt _ h1, lt _ h2, lt _ h3, lt _ h4, lt _ h5, lt _ h6, lt _ h7, lt _ h8, lt _ h9, lt _ h10,
      lt _ h11, lt _ h12, lt _ h13, lt _ h14, lt _ h15⟩
  have ht : commitQuad P (tabPolys D c.lookup_table) = _ :=
    commitQuad_run (r := fun p => hP.rep (polyOf p)) (lt _ t1) (lt _ t2) (lt _ t3) (lt _ t4)
  unfold tabPolys tabQuad at ht
  unfold preprocessShared
  rw [hD.new]
  simp only [ok_bind, preprocess_eq _ (pow2_ok he), liftP, vecToMultiset, List.getD_cons_zero,
    List.getD_cons_succ]
  simp only [ht, unwrapP, ok_bind, polySameLen_wf hw, Bool.not_true, Bool.false_eq_true, if_false]
  simp only [pad_n hD]
  have hp : (padComposer c (D.size - c.n)).perm = c.perm := rfl
  rw [hp, hsig]
  simp only [ok_bind, liftP, commitGate_run hg,
    commitQuad_run (r := fun p => hP.rep (polyOf p)) (lt _ s1) (lt _ s2) (lt _ s3) (lt _ s4)]
  exact ⟨_, rfl⟩

end VO.Plonk
