import Verif.Lemmas.PlonkEcc6

/-
Fixed-base multiplication: summary.
-/

set_option linter.unusedSectionVars false

namespace VO.Plonk

open VO.Spec.Plonk

variable {F : Type} [Field F] [DecidableEq F]
variable {E : EdCurve F} {G : Type} [AddCommGroup G] {pt : G → F × F}

theorem fixedBase_fwd {R : FieldRep F} {c c' : Composer F} (hw : WF c) {x : Var} {base : F × F}
    {r : Point} (h : fixedBaseScalarMul R E x base c = .ok (r, c')) :
    0 < R.modBits ∧ x < c.variables.length ∧
      (wnaf (R.bigBits + 1) (R.toNat (ownV c x))).length ≤ R.modBits ∧
      ∃ c0 c1 rs l, FixedShape R E x base c c' r c0 c1 rs l := by
  have hk : 0 < R.modBits ∧ x < c.variables.length ∧
      (wnaf (R.bigBits + 1) (R.toNat (ownV c x))).length ≤ R.modBits := by
    unfold fixedBaseScalarMul at h
    obtain ⟨u, d1, a1, b1⟩ := bindC_ok.1 h
    obtain ⟨hm, rfl⟩ := assertC_ok.1 a1
    obtain ⟨s, d2, a2, b2⟩ := bindC_ok.1 b1
    obtain ⟨hs, rfl⟩ := valueOfVar_ok.1 a2
    obtain ⟨u', d3, a3, b3⟩ := bindC_ok.1 b2
    obtain ⟨hl, rfl⟩ := assertC_ok.1 a3
    rw [ownV_of_some hs]
    exact ⟨hm, (List.getElem?_eq_some_iff.1 hs).1, hl⟩
  obtain ⟨r', c2, c0, c1, rs, l, h2, hsh⟩ := fixedBase_shape (E := E) hw base hk.1 hk.2.1 hk.2.2
  rw [h] at h2
  cases h2
  exact ⟨hk.1, hk.2.1, hk.2.2, c0, c1, rs, l, hsh⟩

variable {R : FieldRep F} {x : Var} {base : F × F} {c c' c0 c1 : Composer F} {r : Point}
  {rs : List (BRow F)} {l : BRow F}

theorem FixedShape.wf1 (h : FixedShape R E x base c c' r c0 c1 rs l) : WF c1 := by
  refine h.block.wf' (List.getLast?_concat ..) ?_
  rw [h.lg]
  simp [UsesNext, closeG, gate0]

theorem FixedShape.len (h : FixedShape R E x base c c' r c0 c1 rs l)
    (hd : (wnaf (R.bigBits + 1) (R.toNat (ownV c x))).length ≤ R.modBits) :
    rs.length = R.modBits := by
  have := h.rounds.length_eq
  rw [← this]
  have hgen : ∀ (ds : List Int) (Ms : List (F × F)) (s : F) (P : F × F), ds.length = Ms.length →
      (VO.Plonk.rounds E ds Ms s P).length = ds.length := by
    intro ds
    induction ds with
    | nil => intro Ms s P _; cases Ms <;> rfl
    | cons d ds ih =>
      intro Ms s P hl
      cases Ms with
      | nil => simp at hl
      | cons M Ms => rw [VO.Plonk.rounds, List.length_cons, List.length_cons, ih Ms _ _ (by simpa using hl)]
  rw [hgen]
  · unfold fixedDigits; simp; omega
  · unfold fixedDigits fixedMults
    rw [List.length_reverse, pointMultiples_length]
    simp; omega

theorem fixedBase_struct (hw : WF c) (h : fixedBaseScalarMul R E x base c = .ok (r, c')) :
    WF c' ∧ Ext c c' ∧ r.x < c'.variables.length ∧ r.y < c'.variables.length ∧
      c'.n = c.n + R.modBits + 5 := by
  obtain ⟨hm, hx, hl, c0, c1, rs, l, hsh⟩ := fixedBase_fwd hw h
  obtain ⟨P, v⟩ := assertEqual_fwd hsh.wf1 hsh.eq
  refine ⟨P.wf, (hsh.ext0.trans hsh.block.ext).trans P.ext, ?_, ?_, ?_⟩
  · rw [hsh.res, v]; exact (List.getElem?_eq_some_iff.1 hsh.la).1
  · rw [hsh.res, v]; exact (List.getElem?_eq_some_iff.1 hsh.lb).1
  · rw [P.n, hsh.block.n, hsh.n0, List.length_append, hsh.len hl]
    simp; omega

theorem isChain_getElem {α : Type} {P : α → α → Prop} {l : List α}
    (h : ∀ (j : ℕ) a b, l[j]? = some a → l[j + 1]? = some b → P a b) : List.IsChain P l := by
  rw [List.isChain_iff_getElem]
  intro i hi
  exact h i _ _ (List.getElem?_eq_getElem (by omega)) (List.getElem?_eq_getElem hi)

theorem isChain_get {α : Type} {P : α → α → Prop} {l : List α} (h : List.IsChain P l)
    (j : ℕ) (a b : α) (ha : l[j]? = some a) (hb : l[j + 1]? = some b) : P a b := by
  obtain ⟨h1, rfl⟩ := List.getElem?_eq_some_iff.1 hb
  obtain ⟨h2, rfl⟩ := List.getElem?_eq_some_iff.1 ha
  exact List.isChain_iff_getElem.1 h j h1

theorem fixedMults_eq (hG : CurveGroup E G pt) (g : G) :
    fixedMults R E (pt g) = mults pt g R.modBits := by
  unfold fixedMults mults
  rw [pointMultiples_eq hG]

theorem rounds_gates (E : EdCurve F) : ∀ (ds : List Int) (Ms : List (F × F)) (s : F) (P : F × F)
    (vs : List F) (rs : List (BRow F)), ds.length = Ms.length →
    List.Forall₂ (RoundOk vs) (rounds E ds Ms s P) rs →
    List.Forall₂ (fun (r : BRow F) M => r.g = fixedG M) rs Ms
  | [], [], _, _, _, rs, _, h => by
    simp only [rounds, List.forall₂_nil_left_iff] at h
    subst h; exact List.Forall₂.nil
  | [], _ :: _, _, _, _, _, h, _ => by simp at h
  | _ :: _, [], _, _, _, _, h, _ => by simp at h
  | e :: es, M :: Ms, s, P, vs, rs, hl, h => by
    rw [rounds] at h
    obtain ⟨r, rs', hr, hrs, rfl⟩ := List.forall₂_cons_left_iff.1 h
    exact List.Forall₂.cons hr.g (rounds_gates E es Ms _ _ vs rs' (by simpa using hl) hrs)

theorem fixedBase_sound (hG : CurveGroup E G pt) (hw : WF c) {g : G}
    (h : fixedBaseScalarMul R E x (pt g) c = .ok (r, c')) {T N pub w v}
    (hs : Sat E T N c' pub w v) :
    ∃ s : Int, |s| < 2 ^ R.modBits ∧ v x = (s : F) ∧ ptV v r = pt (s • g) := by
  obtain ⟨hm, hx, hl, c0, c1, rs, l, hsh⟩ := fixedBase_fwd hw h
  obtain ⟨P, -⟩ := assertEqual_fwd hsh.wf1 hsh.eq
  have heq := assertEqual_sound hsh.wf1 hsh.eq hs
  have hs1 := P.ext.sat hs
  have hs0 := hsh.block.ext.sat hs1
  have hlen := hsh.len hl
  have hr := hsh.rounds
  rw [fixedMults_eq hG] at hr
  have hgs := rounds_gates E _ _ _ _ _ _ (by unfold fixedDigits mults; simp; omega) hr
  rw [← hlen] at hgs
  obtain ⟨f, t, hft⟩ : ∃ f t, rs = f :: t := by
    cases hrs : rs with
    | nil => rw [hrs] at hlen; simp at hlen; omega
    | cons a t => exact ⟨a, t, rfl⟩
  have hch : List.IsChain (StepOk E v) (rs ++ [l]) := by
    refine isChain_getElem ?_
    intro j a b ha hb
    have hj : j < rs.length := by
      have := (List.getElem?_eq_some_iff.1 hb).1
      simp only [List.length_append, List.length_singleton] at this
      omega
    refine (hsh.block.row hs1 ha hb).fixed ?_
    rw [List.getElem?_append_left hj] at ha
    have := (List.getElem?_eq_some_iff.1 ha).2
    have hfa := hgs.get hj (by rw [← hgs.length_eq]; exact hj)
    rw [List.get_eq_getElem, this] at hfa
    rw [hfa]
    show (1 : F) ≠ 0
    exact one_ne_zero
  obtain ⟨k1, k2, k3⟩ := hsh.start T N pub w v hs0 f (by rw [hft]; rfl)
  obtain ⟨S, j1, j2, j3⟩ := rounds_sound hG g v l rs hgs hch 0 f (by rw [hft]; rfl)
    (by rw [k1, k2, zero_mul, zero_smul, hG.zero]) (by rw [k3]; simp)
  refine ⟨S, ?_, by rw [← heq, j1], by rw [hsh.res]; exact j2⟩
  rw [abs_zero, zero_mul, zero_add, hlen] at j3
  omega

theorem fixedDigits_eval (hR : RepOk R) (s : F) : evalBe 0 (fixedDigits R s) = R.toNat s := by
  unfold fixedDigits
  rw [evalBe_pad, evalBe_reverse, wnaf_eval]
  have h1 := hR.lt s
  have h2 : 2 ^ R.modBits ≤ 2 ^ R.bigBits := Nat.pow_le_pow_right (by omega) hR.mod_le
  have h3 : 2 ^ (R.bigBits + 1 + 1) = 4 * 2 ^ R.bigBits := by rw [pow_succ, pow_succ]; ring
  omega

theorem fixedBase_own (hG : CurveGroup E G pt) (hR : RepOk R) (hw : WF c) {g : G}
    (h : fixedBaseScalarMul R E x (pt g) c = .ok (r, c')) :
    ptV (ownV c') r = pt (R.toNat (ownV c x) • g) ∧ (OwnSat E c → OwnSat E c') := by
  obtain ⟨hm, hx, hl, c0, c1, rs, l, hsh⟩ := fixedBase_fwd hw h
  obtain ⟨P, hv⟩ := assertEqual_fwd hsh.wf1 hsh.eq
  have hdl : (fixedDigits R (ownV c x)).length = R.modBits := by
    unfold fixedDigits; simp; omega
  have hdig : ∀ d ∈ fixedDigits R (ownV c x), d = 0 ∨ d = 1 ∨ d = -1 := by
    intro d hd
    unfold fixedDigits at hd
    rcases List.mem_append.1 hd with h1 | h1
    · left; exact List.eq_of_mem_replicate h1
    · exact wnaf_digit _ _ d (List.mem_reverse.1 h1)
  have e0 : pt (((0 : Int) * 2 ^ (fixedDigits R (ownV c x)).length) • g) = (0, 1) := by
    rw [zero_mul, zero_smul, hG.zero]
  have z0 : ((0 : Int) : F) = 0 := Int.cast_zero
  have hr := hsh.rounds
  have ha := hsh.la
  have hb := hsh.lb
  have hd := hsh.ld
  rw [fixedMults_eq hG, ← hdl, ← e0, ← z0] at hr ha hb hd
  obtain ⟨i1, i2, i3⟩ := rounds_own hG g c1.variables (ownV c1) (fun x s h => ownV_of_some h) l
    _ rs 0 hdig hr ha hb hd
  rw [i3] at ha hb hd
  rw [fixedDigits_eval hR] at ha hb hd
  simp only [Int.cast_natCast, natCast_zsmul] at ha hb hd
  have hva : ∀ y, ownV c' y = ownV c1 y := fun y => by unfold ownV; rw [hv]
  refine ⟨?_, ?_⟩
  · rw [hsh.res]
    unfold ptV
    simp only [hva]
    rw [ownV_of_some ha, ownV_of_some hb]
  · intro hs
    have hs1 : OwnSat E c1 := by
      refine hsh.block.own hsh.wf0 (List.getLast?_concat ..) ?_ (hsh.own0 hs) ?_ ?_
      · rw [hsh.lg]; simp [UsesNext, closeG, gate0]
      · intro j a b hja hjb
        have hj : j < rs.length := by
          have := (List.getElem?_eq_some_iff.1 hjb).1
          simp only [List.length_append, List.length_singleton] at this
          omega
        have hstep := isChain_get i2 j a b hja hjb
        have hgs := rounds_gates E _ _ _ _ _ _ (by unfold mults; simp) hr
        rw [List.getElem?_append_left hj] at hja
        have := (List.getElem?_eq_some_iff.1 hja).2
        have hfa := hgs.get hj (by rw [← hgs.length_eq]; exact hj)
        rw [List.get_eq_getElem, this] at hfa
        unfold StepOk at hstep
        rw [hfa] at hstep ⊢
        refine ⟨?_, fun h => absurd rfl h, fun h => absurd rfl h, fun _ => hstep,
          fun h => absurd rfl h, fun h => absurd rfl h⟩
        simp [ArithOk, fixedG, gate0]
      · rw [hsh.lg]
        refine ⟨?_, fun h => absurd rfl h, fun h => absurd rfl h, fun h => absurd rfl h,
          fun h => absurd rfl h, fun h => absurd rfl h⟩
        simp [ArithOk, closeG, gate0]
    refine P.own hs1 ?_
    have hxv : ownV c' x = ownV c x := ((hsh.ext0.trans hsh.block.ext).trans P.ext).ownV hx
    rw [hxv, hva, ownV_of_some hd, hR.cast]
    simp

theorem fixedBase_run_iff (hm : R.modBits ≤ R.bigBits) (hw : WF c) (base : F × F) :
    (∃ r c', fixedBaseScalarMul R E x base c = .ok (r, c')) ↔
      0 < R.modBits ∧ x < c.variables.length ∧ 3 * R.toNat (ownV c x) < 2 ^ (R.modBits + 1) := by
  constructor
  · rintro ⟨r, c', h⟩
    obtain ⟨h0, hx, hl, -⟩ := fixedBase_fwd hw h
    exact ⟨h0, hx, (wnaf_length _ _ _ (by omega)).1 hl⟩
  · rintro ⟨h0, hx, hl⟩
    obtain ⟨r, c', -, -, -, -, h, -⟩ := fixedBase_shape (E := E) hw base h0 hx
      ((wnaf_length _ _ _ (by omega)).2 hl)
    exact ⟨r, c', h⟩

end VO.Plonk
