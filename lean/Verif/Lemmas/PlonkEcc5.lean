import Verif.Lemmas.PlonkEcc4

/-
Fixed-base multiplication: the whole method.
-/

set_option linter.unusedSectionVars false

namespace VO.Plonk

open VO.Spec.Plonk

variable {F : Type} [Field F] [DecidableEq F]

/-- What the first round leaves: the composer before the first row. -/
theorem fixedFirst_run {c : Composer F} (hw : WF c) (xy : F) (M : F × F)
    (L : List ((F × (F × F)) × F × (F × F))) :
    ∃ c0 c' r rows, WF c0 ∧ Ext c c0 ∧ (∀ E, OwnSat E c → OwnSat E c0) ∧ c0.n = c.n + 3 ∧
      (∀ E T N pub w v, Sat E T N c0 pub w v → v r.a = 0 ∧ v r.b = 1 ∧ v r.d = 0) ∧
      fixedLoop true (((0, (0, 1)), xy, M) :: L) c = .ok ((), c') ∧ Block c0 c' (r :: rows) ∧
      List.Forall₂ (RoundOk c'.variables) (((0, (0, 1)), xy, M) :: L) (r :: rows) := by
  obtain ⟨c1, h1, n1⟩ := addInput_run hw (0 : F)
  obtain ⟨c2, h2, n2⟩ := addInput_run n1.wf (1 : F)
  obtain ⟨c3, h3, n3⟩ := addInput_run n2.wf (0 : F)
  have g1 : c3.variables[c.variables.length]? = some 0 := by
    rw [n3.vars, n2.vars, n1.vars]
    exact getElem?_append_some (getElem?_append_some getElem?_last)
  have g2 : c3.variables[c1.variables.length]? = some 1 := by
    rw [n3.vars, n2.vars]
    exact getElem?_append_some getElem?_last
  have g3 : c3.variables[c2.variables.length]? = some 0 := by
    rw [n3.vars]
    exact getElem?_last
  have l1 := (List.getElem?_eq_some_iff.1 g1).1
  have l2 := (List.getElem?_eq_some_iff.1 g2).1
  have l3 := (List.getElem?_eq_some_iff.1 g3).1
  obtain ⟨c4, h4⟩ := constrainToConstant_run n3.wf 0 none l1
  obtain ⟨P4, v4⟩ := constrainToConstant_fwd n3.wf h4
  obtain ⟨c5, h5⟩ := constrainToConstant_run (a := c1.variables.length) P4.wf 1 none
    (by rw [v4]; exact l2)
  obtain ⟨P5, v5⟩ := constrainToConstant_fwd P4.wf h5
  obtain ⟨c6, h6⟩ := constrainToConstant_run (a := c2.variables.length) P5.wf 0 none
    (by rw [v5, v4]; exact l3)
  obtain ⟨P6, v6⟩ := constrainToConstant_fwd P5.wf h6
  obtain ⟨c7, h7, n7⟩ := addInput_run P6.wf xy
  have v7 : c7.variables = c3.variables ++ [xy] := by rw [n7.vars, v6, v5, v4]
  have k1 : c7.variables[c.variables.length]? = some 0 := by
    rw [v7]; exact getElem?_append_some g1
  have k2 : c7.variables[c1.variables.length]? = some 1 := by
    rw [v7]; exact getElem?_append_some g2
  have k3 : c7.variables[c2.variables.length]? = some 0 := by
    rw [v7]; exact getElem?_append_some g3
  have k4 : c7.variables[c6.variables.length]? = some xy := by
    rw [n7.vars]; exact getElem?_last
  obtain ⟨c8, h8, B8, v8⟩ := (Block.nil n7.wf).push ⟨fixedG M, c.variables.length,
    c1.variables.length, c6.variables.length, c2.variables.length⟩
    (List.getElem?_eq_some_iff.1 k1).1 (List.getElem?_eq_some_iff.1 k2).1
    (List.getElem?_eq_some_iff.1 k4).1 (List.getElem?_eq_some_iff.1 k3).1
  obtain ⟨c9, rows, ts, h9, B9, v9, f9⟩ := fixedLoop_block L B8
  have e7 := P6.ext.trans n7.ext
  have e57 := P5.ext.trans e7
  have e47 := P4.ext.trans e57
  refine ⟨c7, c9, ⟨fixedG M, c.variables.length, c1.variables.length, c6.variables.length,
    c2.variables.length⟩, rows, n7.wf, ((n1.ext.trans n2.ext).trans n3.ext).trans e47, ?_,
    by rw [n7.n, P6.n, P5.n, P4.n, n3.n, n2.n, n1.n], ?_, ?_, B9, List.Forall₂.cons ?_ f9⟩
  · intro E hs
    have hs3 := n3.own E (n2.own E (n1.own E hs))
    have o1 := ownV_of_some g1
    have o2 := ownV_of_some g2
    have o3 := ownV_of_some g3
    have a4 : ∀ x, ownV c4 x = ownV c3 x := fun x => by unfold ownV; rw [v4]
    have a5 : ∀ x, ownV c5 x = ownV c3 x := fun x => by unfold ownV; rw [v5, v4]
    have a6 : ∀ x, ownV c6 x = ownV c3 x := fun x => by unfold ownV; rw [v6, v5, v4]
    have hs4 := P4.own hs3 (by rw [a4, o1]; simp)
    have hs5 := P5.own hs4 (by rw [a5, o2]; simp)
    have hs6 := P6.own hs5 (by rw [a6, o3]; simp)
    exact n7.own E hs6
  · intro E T N pub w v hs
    have t1 := P4.sound0 (e57.sat hs)
    have t2 := P5.sound0 (e7.sat hs)
    have t3 := P6.sound0 (n7.ext.sat hs)
    refine ⟨by linear_combination t1, by linear_combination t2, by linear_combination t3⟩
  · unfold fixedLoop
    exact bindC_ok.2 ⟨_, _, h1, bindC_ok.2 ⟨_, _, h2, bindC_ok.2 ⟨_, _, h3, bindC_ok.2 ⟨_, _,
      h4, bindC_ok.2 ⟨_, _, h5, bindC_ok.2 ⟨_, _, h6, bindC_ok.2 ⟨_, _, h7,
      bindC_ok.2 ⟨_, _, h8, h9⟩⟩⟩⟩⟩⟩⟩⟩
  · rw [v9, v8]
    exact RoundOk.mono ⟨rfl, k1, k2, k4, k3⟩

/-- The digits `fixed_base_scalar_mul` uses, most significant first. -/
def fixedDigits (R : FieldRep F) (s : F) : List Int :=
  List.replicate (R.modBits - (wnaf (R.bigBits + 1) (R.toNat s)).length) 0 ++
    (wnaf (R.bigBits + 1) (R.toNat s)).reverse

/-- The multiples it uses. -/
def fixedMults (R : FieldRep F) (E : EdCurve F) (base : F × F) : List (F × F) :=
  (pointMultiples E R.modBits base).reverse

theorem pointMultiples_length (E : EdCurve F) (k : ℕ) (P : F × F) :
    (pointMultiples E k P).length = k := by
  induction k generalizing P with
  | zero => rfl
  | succ k ih => rw [pointMultiples, List.length_cons, ih]

/-- The rows the method adds. -/
structure FixedShape (R : FieldRep F) (E : EdCurve F) (x : Var) (base : F × F) (c c' : Composer F)
    (r : Point) (c0 c1 : Composer F) (rs : List (BRow F)) (l : BRow F) : Prop where
  wf0 : WF c0
  ext0 : Ext c c0
  n0 : c0.n = c.n + 3
  own0 : OwnSat E c → OwnSat E c0
  start : ∀ T N pub w v, Sat E T N c0 pub w v → ∀ f, rs.head? = some f →
    v f.a = 0 ∧ v f.b = 1 ∧ v f.d = 0
  block : Block c0 c1 (rs ++ [l])
  rounds : List.Forall₂ (RoundOk c1.variables)
    (rounds E (fixedDigits R (ownV c x)) (fixedMults R E base) 0 (0, 1)) rs
  lg : l.g = closeG
  la : c1.variables[l.a]? =
    some (roundsEnd E (fixedDigits R (ownV c x)) (fixedMults R E base) 0 (0, 1)).2.1
  lb : c1.variables[l.b]? =
    some (roundsEnd E (fixedDigits R (ownV c x)) (fixedMults R E base) 0 (0, 1)).2.2
  ld : c1.variables[l.d]? =
    some (roundsEnd E (fixedDigits R (ownV c x)) (fixedMults R E base) 0 (0, 1)).1
  res : r = ⟨l.a, l.b⟩
  eq : assertEqual l.d x c1 = .ok ((), c')

theorem fixedBase_shape {R : FieldRep F} {E : EdCurve F} {c : Composer F} (hw : WF c) {x : Var}
    (base : F × F) (hm : 0 < R.modBits) (hx : x < c.variables.length)
    (hlen : (wnaf (R.bigBits + 1) (R.toNat (ownV c x))).length ≤ R.modBits) :
    ∃ r c' c0 c1 rs l, fixedBaseScalarMul R E x base c = .ok (r, c') ∧
      FixedShape R E x base c c' r c0 c1 rs l := by
  have hd : (fixedDigits R (ownV c x)).length = R.modBits := by
    unfold fixedDigits; simp; omega
  have hml : (fixedMults R E base).length = R.modBits := by
    unfold fixedMults; rw [List.length_reverse, pointMultiples_length]
  obtain ⟨hr1, hr2⟩ := rounds_eq E (fixedDigits R (ownV c x)) (fixedMults R E base) 0 (0, 1)
    (by rw [hd, hml])
  obtain ⟨e, es, hes⟩ : ∃ e es, fixedDigits R (ownV c x) = e :: es := by
    cases h : fixedDigits R (ownV c x) with
    | nil => rw [h] at hd; simp at hd; omega
    | cons e es => exact ⟨e, es, rfl⟩
  obtain ⟨M, Ms, hMs⟩ : ∃ M Ms, fixedMults R E base = M :: Ms := by
    cases h : fixedMults R E base with
    | nil => rw [h] at hml; simp at hml; omega
    | cons e es => exact ⟨e, es, rfl⟩
  obtain ⟨c0, c1, f, rows, w0, e0, o0, n0, s0, h0, B0, f0⟩ := fixedFirst_run hw
    ((digP e M).1 * (digP e M).2) M
    (rounds E es Ms (2 * 0 + digF e) (E.add (0, 1) (digP e M)))
  have hround : rounds E (fixedDigits R (ownV c x)) (fixedMults R E base) 0 (0, 1) =
      ((0, (0, 1)), (digP e M).1 * (digP e M).2, M) ::
        rounds E es Ms (2 * 0 + digF e) (E.add (0, 1) (digP e M)) := by
    rw [hes, hMs, rounds]
  set fin := roundsEnd E (fixedDigits R (ownV c x)) (fixedMults R E base) 0 (0, 1) with hfin
  obtain ⟨c2, h2, B2, v2⟩ := B0.input fin.2.1
  obtain ⟨c3, h3, B3, v3⟩ := B2.input fin.2.2
  obtain ⟨c4, h4, B4, v4⟩ := B3.input fin.1
  have g1 : c4.variables[c1.variables.length]? = some fin.2.1 := by
    rw [v4, v3, v2]
    exact getElem?_append_some (getElem?_append_some getElem?_last)
  have g2 : c4.variables[c2.variables.length]? = some fin.2.2 := by
    rw [v4, v3]
    exact getElem?_append_some getElem?_last
  have g3 : c4.variables[c3.variables.length]? = some fin.1 := by
    rw [v4]
    exact getElem?_last
  have hz4 : c3.zero_var < c4.variables.length := by
    rw [v4, List.length_append]
    have := B3.wf.zero
    omega
  obtain ⟨c5, h5, B5, v5⟩ := B4.push ⟨closeG, c1.variables.length, c2.variables.length,
    c3.zero_var, c3.variables.length⟩ (List.getElem?_eq_some_iff.1 g1).1
    (List.getElem?_eq_some_iff.1 g2).1 hz4 (List.getElem?_eq_some_iff.1 g3).1
  have hlast : ((f :: rows) ++ [(⟨closeG, c1.variables.length, c2.variables.length,
      c3.zero_var, c3.variables.length⟩ : BRow F)]).getLast? = some _ := List.getLast?_concat ..
  have hnu : ¬ UsesNext (closeG : Gate F) := by simp [UsesNext, closeG, gate0]
  have hwf := B5.wf' hlast hnu
  have hx5 : x < c5.variables.length := by
    rw [v5, v4, v3, v2]
    have := (e0.trans B0.ext).lt hx
    simp only [List.length_append]
    omega
  have g3' : c5.variables[c3.variables.length]? = some fin.1 := by rw [v5]; exact g3
  obtain ⟨c6, h6⟩ := assertEqual_run hwf (a := c3.variables.length)
    (List.getElem?_eq_some_iff.1 g3').1 hx5
  refine ⟨⟨c1.variables.length, c2.variables.length⟩, c6, c0, c5, f :: rows,
    ⟨closeG, c1.variables.length, c2.variables.length, c3.zero_var, c3.variables.length⟩, ?_, ?_⟩
  · unfold fixedBaseScalarMul
    refine bindC_ok.2 ⟨(), _, assertC_ok.2 ⟨hm, rfl⟩, bindC_ok.2 ⟨_, _, valueOfVar_run hx,
      bindC_ok.2 ⟨(), _, assertC_ok.2 ⟨hlen, rfl⟩, ?_⟩⟩⟩
    unfold fixedDigits fixedMults at hr1 hr2
    rw [hr1, hr2]
    have hround' := hround
    unfold fixedDigits fixedMults at hround'
    rw [hround']
    refine bindC_ok.2 ⟨_, _, h0, ?_⟩
    refine bindC_ok.2 ⟨_, _, h2, bindC_ok.2 ⟨_, _, h3, bindC_ok.2 ⟨_, _, rfl,
      bindC_ok.2 ⟨_, _, h4, bindC_ok.2 ⟨c3.zero_var, c5, ?_, bindC_ok.2 ⟨_, _, h6, rfl⟩⟩⟩⟩⟩⟩
    exact bindC_ok.2 ⟨_, _, rfl, bindC_ok.2 ⟨(), _, rfl, bindC_ok.2 ⟨_, _, rfl,
      bindC_ok.2 ⟨_, _, h5, rfl⟩⟩⟩⟩
  · refine ⟨w0, e0, n0, o0 E, ?_, B5, ?_, rfl, by rw [v5]; exact g1, by rw [v5]; exact g2, g3', rfl,
      h6⟩
    · intro T N pub w v hs f' hf'
      cases hf'
      exact s0 E T N pub w v hs
    · rw [hround]
      have : c5.variables = c1.variables ++ [fin.2.1, fin.2.2, fin.1] := by
        rw [v5, v4, v3, v2]; simp
      rw [this]
      exact f0.imp (fun _ _ h => h.mono)

end VO.Plonk
