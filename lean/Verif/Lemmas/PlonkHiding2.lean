import Verif.Lemmas.PlonkHiding
import Verif.Lemmas.PlonkPi

/-
What the code of the PLONK prover publishes about the wire columns, and which rows of the columns hold
random values.
-/

set_option linter.unusedSectionVars false

namespace VO.Plonk

open VO.Spec VO.Spec.Plonk Polynomial

variable {F : Type} [Field F] [DecidableEq F]

/-! ### The random rows -/

theorem blindRow_wires {c c' : Composer F} (hw : WF c) {r : F × F × F × F} {p : Var × Var}
    (h : blindRow r c = .ok (p, c')) : OnWire c' p.1 (.left c.n) ∧ OnWire c' p.2 (.right c.n) := by
  unfold blindRow at h
  obtain ⟨x1, c1, h1, g1⟩ := bindC_ok.1 h
  obtain ⟨x2, c2, h2, g2⟩ := bindC_ok.1 g1
  obtain ⟨x3, c3, h3, g3⟩ := bindC_ok.1 g2
  obtain ⟨x4, c4, h4, g4⟩ := bindC_ok.1 g3
  obtain ⟨u, c5, h5, g5⟩ := bindC_ok.1 g4
  obtain ⟨rfl, rfl⟩ := pureC_ok.1 g5
  have n1 := addInput_fwd hw h1
  have n2 := addInput_fwd n1.wf h2
  have n3 := addInput_fwd n2.wf h3
  have n4 := addInput_fwd n3.wf h4
  obtain ⟨-, ha⟩ := pushGate_fwd n4.wf (not_usesNext_arith _ _ _ _ _ _ _ _ _ _ _) h5
  have e : c4.n = c.n := by rw [n4.n, n3.n, n2.n, n1.n]
  rw [← e]
  exact ⟨ha.left, ha.right⟩

theorem blinding_wires {c c' : Composer F} (hw : WF c) {r1 r2 : F × F × F × F} {u : Unit}
    (h : addBlindingFactors r1 r2 c = .ok (u, c')) :
    ∃ x y, wireVar c' (.left (c.n + 1)) = some x ∧ wireVar c' (.left (c.n + 2)) = some x ∧
      wireVar c' (.right (c.n + 1)) = some y ∧ wireVar c' (.right (c.n + 2)) = some y := by
  unfold addBlindingFactors at h
  obtain ⟨p1, c1, h1, g1⟩ := bindC_ok.1 h
  obtain ⟨⟨y1, y2⟩, c2, h2, g2⟩ := bindC_ok.1 g1
  obtain ⟨z, c3, h3, g3⟩ := bindC_ok.1 g2
  obtain ⟨rfl, rfl⟩ := zeroVar_ok.1 h3
  obtain ⟨w1, e1, -, -, o1, m1, v1⟩ := blindRow_fwd hw h1
  obtain ⟨w2, e2, -, -, o2, m2, v2⟩ := blindRow_fwd w1 h2
  obtain ⟨l2, r2⟩ := blindRow_wires w1 h2
  obtain ⟨hw', ha⟩ := pushGate_fwd w2 (not_usesNext_arith _ _ _ _ _ _ _ _ _ _ _) g3
  have l3 := ha.left
  have r3 := ha.right
  rw [m2, m1] at l3 r3
  rw [m1] at l2 r2
  exact ⟨y1, y2, hw'.agree _ _ (ha.ext.wire _ _ l2), hw'.agree _ _ l3,
    hw'.agree _ _ (ha.ext.wire _ _ r2), hw'.agree _ _ r3⟩

theorem new_wires {r1 r2 : F × F × F × F} {c : Composer F} (h : newComposer r1 r2 = .ok c) :
    ∃ x y, wireVar c (.left 2) = some x ∧ wireVar c (.left 3) = some x ∧
      wireVar c (.right 2) = some y ∧ wireVar c (.right 3) = some y := by
  unfold newComposer at h
  split at h
  · rename_i u c1 h1
    cases h
    obtain ⟨z, c2, h2, g⟩ := bindC_ok.1 h1
    obtain ⟨z', c3, h3, g⟩ := bindC_ok.1 g
    rw [seed_eq] at h2
    cases h2
    have h4 : c3 = seedComposer := by cases h3; rfl
    subst h4
    exact blinding_wires seed_wf g
  · cases h

theorem _root_.VO.Spec.Plonk.Reach.twice {R : FieldRep F} {E : EdCurve F} {c : Composer F}
    (h : Reach R E c) : ∃ x y, wireVar c (.left 2) = some x ∧ wireVar c (.left 3) = some x ∧
      wireVar c (.right 2) = some y ∧ wireVar c (.right 3) = some y := by
  induction h with
  | new h => exact new_wires h
  | call hr hm h ih =>
    obtain ⟨x, y, h1, h2, h3, h4⟩ := ih
    have hx := (Method.post hm (Reach.wf hr) h).2
    exact ⟨x, y, hx.wv _ _ h1, hx.wv _ _ h2, hx.wv _ _ h3, hx.wv _ _ h4⟩

theorem _root_.VO.Spec.Plonk.Reach.shape {R : FieldRep F} {E : EdCurve F} {c : Composer F}
    (h : Reach R E c) (w : TwiceOpened) : ColShape w fun i => ownW c (w.pos i) := by
  obtain ⟨x, y, h1, h2, h3, h4⟩ := h.twice
  intro i hi
  cases w <;> simp only [TwiceOpened.again, List.mem_cons, List.not_mem_nil, or_false] at hi
  · rcases hi with rfl | rfl
    · rfl
    · simp only [TwiceOpened.pos, ownW, h1, h2]
  · rcases hi with rfl | rfl
    · rfl
    · simp only [TwiceOpened.pos, ownW, h3, h4]
  · subst hi; rfl

/-! ### The published values -/

/-- The commitment to a column is the commitment to its interpolation, and the published values are its
values. -/
def Published (P : PCS F) (D : Dom F) (z : F) (c : Composer F) (pr : PlonkProof P) : Prop :=
  (∀ w : TwiceOpened,
    P.commit (D.ifft ((List.range D.size).map fun i => ownW c (w.pos i))) = .ok (w.comm pr) ∧
    w.value pr = interpAt D.size D.omega (fun i => ownW c (w.pos i)) z ∧
    customGet pr.ev.custom w.label
      = .ok (interpAt D.size D.omega (fun i => ownW c (w.pos i)) (z * D.omega))) ∧
  P.commit (D.ifft ((List.range D.size).map fun i => ownW c (.output i))) = .ok pr.c ∧
  pr.ev.w.c = interpAt D.size D.omega (fun i => ownW c (.output i)) z

theorem prove_columns {K : PField F} {E : EdCurve F} {P : PCS F} {ro : Transcript F P.Comm → F}
    {c : Composer F} {pk : PKey F} {tr : Transcript F P.Comm} {D : Dom F} (hD : CDom K c D) (hw : WF c)
    {pr : PlonkProof P} (h : proveWithPreprocessed K E P ro c pk tr = .ok pr) :
    Published P D (verifierChals ro tr c.public_inputs pr).z c pr := by
  unfold proveWithPreprocessed at h
  rw [hD.new] at h
  simp only [ok_bind] at h
  obtain ⟨r1, hr1, h⟩ := bind_okE h
  obtain ⟨r2, -, h⟩ := bind_okE h
  obtain ⟨r3, -, h⟩ := bind_okE h
  obtain ⟨⟨t, tC⟩, -, h⟩ := bind_okE h
  obtain ⟨⟨lin, e⟩, hle, h⟩ := bind_okE h
  obtain ⟨⟨o1, o2⟩, -, h⟩ := bind_okE h
  simp only [pure, Except.pure, Except.ok.injEq] at h
  have hz : ∃ z, (verifierChals ro tr c.public_inputs pr).z = z := ⟨_, rfl⟩
  obtain ⟨z, hz⟩ := hz
  rw [hz]
  rw [← h] at hz
  simp only [verifierChals] at hz
  unfold linearisation at hle
  obtain ⟨l1, -, hle⟩ := bind_okE hle
  obtain ⟨v, -, hle⟩ := bind_okE hle
  obtain ⟨lk, -, hle⟩ := bind_okE hle
  simp only [pure, Except.pure, Except.ok.injEq, Prod.mk.injEq] at hle
  obtain ⟨-, hle⟩ := hle
  rw [hz] at hle
  obtain ⟨h1, h2, h3, h4⟩ := wires_run hw hD.n
  unfold proveRound1 at hr1
  simp only [h1, h2, h3, h4, liftP, ok_bind] at hr1
  obtain ⟨wC, hq, hr1⟩ := bind_okE hr1
  simp only [pure, Except.pure, Except.ok.injEq] at hr1
  obtain ⟨q1, q2, q3, q4⟩ := commitQuad_inv hq
  have ev : ∀ (u : ℕ → F) x, polyEval (D.ifft ((List.range D.size).map u)) x
      = interpAt D.size D.omega u x := by
    intro u x
    rw [polyEval_eq, interpP_ifft hD.ok, interpP_eval]
  subst hr1
  subst hle
  subst h
  refine ⟨fun w => ?_, q3, ev _ _⟩
  cases w
  · exact ⟨q1, ev _ _, congrArg _ (ev _ _)⟩
  · exact ⟨q2, ev _ _, congrArg _ (ev _ _)⟩
  · exact ⟨q4, ev _ _, congrArg _ (ev _ _)⟩

/-- The test accepts every right guess. -/
theorem confirms_right {P : PCS F} {D : Dom F} {z : F} {c : Composer F} {pr : PlonkProof P}
    (hp : Published P D z c pr) (hs : ∀ w : TwiceOpened, ColShape w fun i => ownW c (w.pos i))
    {w : TwiceOpened} {u : ℕ → F} (hu : RightGuess D.size c w u) (hd : randomDet D.size D.omega z w ≠ 0) :
    ConfirmsColumn P D z pr w u := by
  obtain ⟨h1, h2, h3⟩ := hp.1 w
  refine ⟨_, h3, ?_⟩
  rw [← h1, h2]
  congr 2
  refine List.map_congr_left fun i hi => ?_
  exact implied_right (hs w) hu hd (List.mem_range.1 hi)

end VO.Plonk
