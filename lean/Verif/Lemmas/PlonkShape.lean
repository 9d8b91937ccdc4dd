import Verif.Spec.PlonkSnark
import Verif.Lemmas.PlonkCore

/-
What a composer method appends does not depend on the values its variables hold.
-/

set_option linter.unusedSectionVars false

namespace VO.Plonk

open VO.Spec.Plonk

variable {F : Type} [Field F] [DecidableEq F]

/-- From composers of the same circuit, runs that succeed lead to composers of the same circuit, with
related results. -/
def Obl {α β : Type} (Q : α → β → Prop) (m : CM F α) (m' : CM F β) : Prop :=
  ∀ c c' a b d d', SameCircuit c c' → m c = .ok (a, d) → m' c' = .ok (b, d') →
    Q a b ∧ SameCircuit d d'

variable {α β γ δ : Type}

theorem Obl.bind {Q : α → β → Prop} {Q' : γ → δ → Prop} {m : CM F α} {m' : CM F β} {f : α → CM F γ}
    {f' : β → CM F δ} (h : Obl Q m m') (hf : ∀ a b, Q a b → Obl Q' (f a) (f' b)) :
    Obl Q' (m >>= f) (m' >>= f') := by
  intro c c' a b d d' hs h1 h2
  obtain ⟨x, e, h3, h4⟩ := bindC_ok.1 h1
  obtain ⟨y, e', h5, h6⟩ := bindC_ok.1 h2
  obtain ⟨q, s⟩ := h _ _ _ _ _ _ hs h3 h5
  exact hf x y q _ _ _ _ _ _ s h4 h6

theorem Obl.bindE {Q' : γ → δ → Prop} {m m' : CM F α} {f : α → CM F γ}
    {f' : α → CM F δ} (h : Obl Eq m m') (hf : ∀ a, Obl Q' (f a) (f' a)) :
    Obl Q' (m >>= f) (m' >>= f') :=
  h.bind fun a b e => e ▸ hf a

theorem Obl.pureE (a : α) : Obl Eq (pure a : CM F α) (pure a) := by
  intro c c' x y d d' hs h1 h2
  obtain ⟨rfl, rfl⟩ := pureC_ok.1 h1
  obtain ⟨rfl, rfl⟩ := pureC_ok.1 h2
  exact ⟨rfl, hs⟩

theorem Obl.pure {Q : α → β → Prop} {a : α} {b : β} (h : Q a b) :
    Obl Q (pure a : CM F α) (pure b) := by
  intro c c' x y d d' hs h1 h2
  obtain ⟨rfl, rfl⟩ := pureC_ok.1 h1
  obtain ⟨rfl, rfl⟩ := pureC_ok.1 h2
  exact ⟨h, hs⟩

theorem Obl.panic {Q : α → β → Prop} {m : CM F β} : Obl Q (panicC : CM F α) m := by
  intro c c' x y d d' hs h1 h2
  cases h1

theorem Obl.panic' {Q : α → β → Prop} {m : CM F α} : Obl Q m (panicC : CM F β) := by
  intro c c' x y d d' hs h1 h2
  cases h2

theorem Obl.assert {p p' : Prop} [Decidable p] [Decidable p'] :
    Obl Eq (assertC p : CM F Unit) (assertC p') := by
  intro c c' x y d d' hs h1 h2
  obtain ⟨-, rfl⟩ := assertC_ok.1 h1
  obtain ⟨-, rfl⟩ := assertC_ok.1 h2
  exact ⟨rfl, hs⟩

/-- An assertion whose condition is needed afterwards. -/
theorem Obl.assertThen {p p' : Prop} [Decidable p] [Decidable p'] {Q : α → β → Prop}
    {f : Unit → CM F α} {f' : Unit → CM F β} (h : p → p' → Obl Q (f ()) (f' ())) :
    Obl Q (assertC p >>= f) (assertC p' >>= f') := by
  intro c c' x y d d' hs h1 h2
  obtain ⟨_, e, h3, h4⟩ := bindC_ok.1 h1
  obtain ⟨_, e', h5, h6⟩ := bindC_ok.1 h2
  obtain ⟨hp, rfl⟩ := assertC_ok.1 h3
  obtain ⟨hp', rfl⟩ := assertC_ok.1 h5
  exact h hp hp' _ _ _ _ _ _ hs h4 h6

theorem Obl.value (x y : Var) : Obl (fun _ _ => True) (valueOfVar x : CM F F) (valueOfVar y) := by
  intro c c' a b d d' hs h1 h2
  obtain ⟨-, rfl⟩ := valueOfVar_ok.1 h1
  obtain ⟨-, rfl⟩ := valueOfVar_ok.1 h2
  exact ⟨trivial, hs⟩

/-- A function of the composer that looks at the circuit only. -/
theorem Obl.prim {m m' : CM F α}
    (h : ∀ (c : Composer F) (vs : List F) (ps : List (ℕ × F)) a b d d', m c = .ok (a, d) →
      m' { c with «variables» := vs, public_inputs := ps } = .ok (b, d') →
      a = b ∧ SameCircuit d d') : Obl Eq m m' := by
  intro c c' a b d d' hs h1 h2
  unfold SameCircuit at hs
  rw [hs] at h2
  exact h c _ _ a b d d' h1 h2

theorem Obl.zero : Obl Eq (zeroVar : CM F Var) zeroVar :=
  .prim fun c vs ps a b d d' h1 h2 => by cases h1; cases h2; exact ⟨rfl, rfl⟩

theorem Obl.count : Obl Eq (gateCount : CM F ℕ) gateCount :=
  .prim fun c vs ps a b d d' h1 h2 => by cases h1; cases h2; exact ⟨rfl, rfl⟩

theorem Obl.input (s s' : F) : Obl Eq (addInput s) (addInput s') :=
  .prim fun c vs ps a b d d' h1 h2 => by cases h1; cases h2; exact ⟨rfl, rfl⟩

theorem Obl.map (x : Var) (p : WireData) :
    Obl Eq (addVariableToMap x p : CM F Unit) (addVariableToMap x p) :=
  .prim fun c vs ps a b d d' h1 h2 => by
    unfold addVariableToMap at h1 h2
    simp only at h2
    split at h1
    · rename_i ws hws
      rw [hws] at h2
      cases h1; cases h2; exact ⟨rfl, rfl⟩
    · cases h1

theorem Obl.selectors (g : Gate F) : Obl Eq (pushSelectors g) (pushSelectors g) :=
  .prim fun c vs ps a b d d' h1 h2 => by cases h1; cases h2; exact ⟨rfl, rfl⟩

theorem Obl.l (x : Var) : Obl Eq (pushL x : CM F Unit) (pushL x) :=
  .prim fun c vs ps a b d d' h1 h2 => by cases h1; cases h2; exact ⟨rfl, rfl⟩
theorem Obl.r (x : Var) : Obl Eq (pushR x : CM F Unit) (pushR x) :=
  .prim fun c vs ps a b d d' h1 h2 => by cases h1; cases h2; exact ⟨rfl, rfl⟩
theorem Obl.o (x : Var) : Obl Eq (pushO x : CM F Unit) (pushO x) :=
  .prim fun c vs ps a b d d' h1 h2 => by cases h1; cases h2; exact ⟨rfl, rfl⟩
theorem Obl.w4 (x : Var) : Obl Eq (push4 x : CM F Unit) (push4 x) :=
  .prim fun c vs ps a b d d' h1 h2 => by cases h1; cases h2; exact ⟨rfl, rfl⟩
theorem Obl.bumpE (k : ℕ) : Obl Eq (bump k : CM F Unit) (bump k) :=
  .prim fun c vs ps a b d d' h1 h2 => by cases h1; cases h2; exact ⟨rfl, rfl⟩
theorem Obl.row (a b c d : F) : Obl Eq (insertRow a b c d) (insertRow a b c d) :=
  .prim fun c vs ps a b d d' h1 h2 => by cases h1; cases h2; exact ⟨rfl, rfl⟩
theorem Obl.extend (k : ℕ) : Obl Eq (extendRangeSelectors k : CM F Unit) (extendRangeSelectors k) :=
  .prim fun c vs ps a b d d' h1 h2 => by cases h1; cases h2; exact ⟨rfl, rfl⟩

theorem Obl.clear : Obl Eq (clearLastRange : CM F Unit) clearLastRange :=
  .prim fun c vs ps a b d d' h1 h2 => by
    unfold clearLastRange at h1 h2
    simp only at h2
    split at h1
    · cases h1
    · rename_i hq
      rw [if_neg hq] at h2
      cases h1; cases h2; exact ⟨rfl, rfl⟩

theorem Obl.fourth : Obl Eq (lastFourth : CM F Var) lastFourth :=
  .prim fun c vs ps a b d d' h1 h2 => by
    unfold lastFourth at h1 h2
    simp only at h2
    split at h1
    · rename_i x hq
      rw [hq] at h2
      cases h1; cases h2; exact ⟨rfl, rfl⟩
    · cases h1

theorem Obl.pi (k k' : F) : Obl Eq (addPi k) (addPi k') :=
  .prim fun c vs ps a b d d' h1 h2 => by
    unfold addPi at h1 h2
    simp only at h2
    split at h1
    · split at h2
      · cases h1; cases h2; exact ⟨rfl, rfl⟩
      · cases h2
    · cases h1

/-- Both given, or both not. -/
def SameOpt (p p' : Option F) : Prop := p.isSome = p'.isSome

theorem Obl.piOpt {p p' : Option F} (h : SameOpt p p') : Obl Eq (addPiOpt p) (addPiOpt p') := by
  cases p <;> cases p'
  · exact .pureE _
  · cases h
  · cases h
  · exact .pi _ _

theorem Obl.gate (g : Gate F) (a b c d : Var) : Obl Eq (pushGate g a b c d) (pushGate g a b c d) := by
  unfold pushGate addVariablesToMap
  refine .bindE (.l _) fun _ => .bindE (.r _) fun _ => .bindE (.o _) fun _ => .bindE (.w4 _) fun _ =>
    .bindE (.selectors _) fun _ => .bindE .count fun n => .bindE ?_ fun _ => .bumpE _
  exact .bindE (.map _ _) fun _ => .bindE (.map _ _) fun _ => .bindE (.map _ _) fun _ => .map _ _

theorem Obl.poly (a b c : Var) (qm ql qr qo qc : F) {p p' : Option F} (h : SameOpt p p') :
    Obl Eq (polyGate a b c qm ql qr qo qc p) (polyGate a b c qm ql qr qo qc p') :=
  .bindE .zero fun _ => .bindE (.piOpt h) fun _ => .gate _ _ _ _ _

theorem Obl.constrain (a : Var) (k : F) {p p' : Option F} (h : SameOpt p p') :
    Obl Eq (constrainToConstant a k p) (constrainToConstant a k p') := .poly _ _ _ _ _ _ _ _ h

theorem Obl.equal (a b : Var) : Obl Eq (assertEqual a b : CM F Unit) (assertEqual a b) :=
  .bindE .zero fun _ => .poly _ _ _ _ _ _ _ _ rfl

theorem Obl.constant (s : F) :
    Obl Eq (addWitnessToCircuitDescription s) (addWitnessToCircuitDescription s) :=
  .bindE (.input _ _) fun _ => .bindE (.constrain _ _ rfl) fun _ => .pureE _

theorem Obl.arith {g g' : ArithGate F} (h : g' = { g with pi := g'.pi }) (hp : SameOpt g.pi g'.pi) :
    Obl Eq (arithmeticGate g) (arithmeticGate g') := by
  obtain ⟨w, f, m, ad, o, k, p⟩ := g
  obtain ⟨w', f', m', ad', o', k', p'⟩ := g'
  simp only [ArithGate.mk.injEq, and_true] at h
  obtain ⟨rfl, rfl, rfl, rfl, rfl, rfl⟩ := h
  unfold arithmeticGate
  simp only
  cases w' with
  | none => exact .panic
  | some t =>
    obtain ⟨l, r, o⟩ := t
    simp only
    refine .bindE .zero fun z => ?_
    refine .bindE (.piOpt hp) fun _ => ?_
    refine .bindE ?_ fun x => .bindE (.gate _ _ _ _ _) fun _ => .pureE _
    cases o with
    | some o => exact .pureE _
    | none =>
      exact .bind (.value _ _) fun _ _ _ => .bind (.value _ _) fun _ _ _ =>
        .bind (.value _ _) fun _ _ _ => .input _ _

theorem Obl.arithE (g : ArithGate F) : Obl Eq (arithmeticGate g) (arithmeticGate g) := .arith rfl rfl

theorem Obl.boolean (a : Var) : Obl Eq (booleanGate a : CM F Var) (booleanGate a) := by
  unfold booleanGate
  exact .bindE .zero fun _ => .bindE (.gate _ _ _ _ _) fun _ => .pureE _

theorem Obl.isZero (a : Var) : Obl Eq (isZeroWithOutput a : CM F Var) (isZeroWithOutput a) := by
  unfold isZeroWithOutput
  exact .bind (.value _ _) fun _ _ _ => .bindE (.input _ _) fun _ => .bindE (.input _ _) fun _ =>
    .bindE .zero fun _ => .bindE (.arithE _) fun _ => .bindE (.arithE _) fun _ => .pureE _

theorem Obl.isEq (a b : Var) : Obl Eq (isEqWithOutput a b : CM F Var) (isEqWithOutput a b) :=
  .bindE (.arithE _) fun _ => .isZero _

theorem Obl.select (bit a b : Var) :
    Obl Eq (conditionalSelect bit a b : CM F Var) (conditionalSelect bit a b) :=
  .bindE .zero fun _ => .bindE (.arithE _) fun _ => .bindE (.arithE _) fun _ => .bindE (.arithE _)
    fun _ => .arithE _

theorem Obl.selectOne (bit a : Var) :
    Obl Eq (conditionalSelectOne bit a : CM F Var) (conditionalSelectOne bit a) :=
  .bind (.value _ _) fun _ _ _ => .bind (.value _ _) fun _ _ _ => .bindE (.input _ _) fun _ =>
    .bindE (.poly _ _ _ _ _ _ _ _ rfl) fun _ => .pureE _

theorem Obl.dummy : Obl Eq (addDummyConstraints : CM F Unit) addDummyConstraints :=
  .bindE (.input _ _) fun _ => .bindE (.input _ _) fun _ => .bindE (.input _ _) fun _ =>
    .bindE (.input _ _) fun _ => .bindE (.gate _ _ _ _ _) fun _ => .bindE .zero fun _ =>
    .gate _ _ _ _ _

theorem Obl.dummyTable : Obl Eq (addDummyLookupTable : CM F Unit) addDummyLookupTable :=
  .bindE (.row _ _ _ _) fun _ => .bindE (.row _ _ _ _) fun _ => .row _ _ _ _

theorem Obl.blindRow (r r' : F × F × F × F) : Obl Eq (blindRow r) (blindRow r') :=
  .bindE (.input _ _) fun _ => .bindE (.input _ _) fun _ => .bindE (.input _ _) fun _ =>
    .bindE (.input _ _) fun _ => .bindE (.gate _ _ _ _ _) fun _ => .pureE _

theorem Obl.blinding (r1 r2 r1' r2' : F × F × F × F) :
    Obl Eq (addBlindingFactors r1 r2) (addBlindingFactors r1' r2') :=
  .bindE (.blindRow _ _) fun _ => .bindE (.blindRow _ _) fun _ => .bindE .zero fun _ =>
    .gate _ _ _ _ _

theorem Obl.lookup (a b c : Var) (d : Option Var) {p p' : Option F} (h : SameOpt p p') :
    Obl Eq (lookupGate a b c d p) (lookupGate a b c d p') :=
  .bindE .zero fun _ => .bindE (.piOpt h) fun _ => .bindE (.gate _ _ _ _ _) fun _ => .pureE _

theorem Obl.div (x y x' y' : F) : Obl (fun _ _ => True) (divC x y) (divC x' y') := by
  unfold divC
  split
  · exact .panic
  · split
    · exact .panic'
    · exact .pure trivial

theorem Obl.fullAffine (a b c : Var) (q0 q1 q2 q3 q4 : F) :
    Obl Eq (fullAffineTransformGate a b c q0 q1 q2 q3 q4)
      (fullAffineTransformGate a b c q0 q1 q2 q3 q4) :=
  .bind (.value _ _) fun _ _ _ => .bind (.value _ _) fun _ _ _ => .bind (.value _ _) fun _ _ _ =>
    .bind (.div _ _ _ _) fun _ _ _ => .bindE (.input _ _) fun _ => .bindE (.gate _ _ _ _ _) fun _ =>
    .pureE _

theorem Obl.partialAffine (a b c : Var) (q0 q1 q2 q3 q4 : F) :
    Obl Eq (partialAffineTransformGate a b c q0 q1 q2 q3 q4)
      (partialAffineTransformGate a b c q0 q1 q2 q3 q4) :=
  .bind (.value _ _) fun _ _ _ => .bind (.value _ _) fun _ _ _ => .bind (.value _ _) fun _ _ _ =>
    .bind (.div _ _ _ _) fun _ _ _ => .bindE (.input _ _) fun _ => .bindE (.gate _ _ _ _ _) fun _ =>
    .pureE _

/-! ### Range and logic -/

theorem Obl.wire (i : ℕ) (x : Var) : Obl Eq (addWire i x : CM F Unit) (addWire i x) := by
  unfold addWire
  refine .bindE .count fun n => ?_
  simp only
  split
  · exact .bindE (.w4 _) fun _ => .map _ _
  split
  · exact .bindE (.o _) fun _ => .map _ _
  split
  · exact .bindE (.r _) fun _ => .map _ _
  · exact .bindE (.l _) fun _ => .map _ _

theorem Obl.padLoop (z : Var) : ∀ k i, Obl Eq (padLoop z i k : CM F Unit) (padLoop z i k)
  | 0, _ => .pureE _
  | k + 1, i => .bindE (.wire _ _) fun _ => Obl.padLoop z k (i + 1)

theorem Obl.accLoop (bits bits' : List Bool) (q : ℕ) :
    ∀ k i (acc acc' : F), Obl Eq (accLoop bits q i k acc) (accLoop bits' q i k acc')
  | 0, _, _, _ => .pureE _
  | k + 1, i, acc, acc' => by
    unfold VO.Plonk.accLoop
    simp only
    split
    · split
      · exact .bindE (.input _ _) fun _ => .bindE (.wire _ _) fun _ =>
          .bindE (Obl.accLoop bits bits' q k _ _ _) fun _ => .pureE _
      · exact .panic'
    · exact .panic

theorem Obl.range (R : FieldRep F) (x : Var) (k : ℕ) : Obl Eq (rangeGate R x k) (rangeGate R x k) := by
  unfold rangeGate
  refine .bindE .assert fun _ => .bind (.value _ _) fun _ _ _ => .bindE .zero fun z =>
    .bindE (.padLoop _ _ _) fun _ => .bindE (.accLoop _ _ _ _ _ _ _) fun xs => .bindE (.extend _) fun _ =>
    .bindE (.bumpE _) fun _ => .bindE .clear fun _ => .bindE (.l _) fun _ => .bindE (.r _) fun _ =>
    .bindE (.o _) fun _ => ?_
  split
  · exact .panic
  · exact .equal _ _

theorem Obl.logicLoop (a b a' b' : List Bool) (isXor : Bool) :
    ∀ k i (x y z x' y' z' : F), Obl Eq (logicLoop a b isXor i k x y z) (logicLoop a' b' isXor i k x' y' z')
  | 0, _, _, _, _, _, _, _ => .pureE _
  | k + 1, i, x, y, z, x', y', z' => by
    unfold VO.Plonk.logicLoop
    simp only
    generalize quadAt a i = p, quadAt b i = q, quadAt a' i = p', quadAt b' i = q'
    cases p <;> cases q <;> try exact .panic
    cases p' <;> cases q' <;> try exact .panic'
    exact .bindE .assert fun _ => .bindE .assert fun _ => .bindE .assert fun _ =>
          .bindE (.input _ _) fun _ => .bindE (.input _ _) fun _ => .bindE (.input _ _) fun _ =>
          .bindE (.input _ _) fun _ => .bindE .count fun _ => .bindE (.map _ _) fun _ =>
          .bindE (.map _ _) fun _ => .bindE (.map _ _) fun _ => .bindE (.map _ _) fun _ =>
          .bindE (.l _) fun _ => .bindE (.r _) fun _ => .bindE (.o _) fun _ => .bindE (.w4 _) fun _ =>
          .bindE (.bumpE _) fun _ => Obl.logicLoop a b a' b' isXor k _ _ _ _ _ _ _

theorem Obl.logicSelectors (isXor : Bool) :
    ∀ k, Obl Eq (logicSelectors isXor k : CM F Unit) (logicSelectors isXor k)
  | 0 => .pureE _
  | k + 1 => .bindE (.selectors _) fun _ => Obl.logicSelectors isXor k

theorem Obl.logic (R : FieldRep F) (a b : Var) (k : ℕ) (isXor : Bool) :
    Obl Eq (logicGate R a b k isXor) (logicGate R a b k isXor) := by
  unfold logicGate
  exact .bindE .assert fun _ => .bind (.value _ _) fun _ _ _ => .bindE .assert fun _ =>
    .bind (.value _ _) fun _ _ _ => .bindE .assert fun _ => .bindE .assert fun _ => .bindE .zero fun _ =>
    .bindE .count fun _ => .bindE (.map _ _) fun _ => .bindE (.map _ _) fun _ =>
    .bindE (.map _ _) fun _ => .bindE (.l _) fun _ => .bindE (.r _) fun _ => .bindE (.w4 _) fun _ =>
    .bindE (.bumpE _) fun _ => .bindE (.logicLoop _ _ _ _ _ _ _ _ _ _ _ _ _) fun _ =>
    .bindE .count fun _ => .bindE (.map _ _) fun _ => .bindE (.o _) fun _ =>
    .bindE (.logicSelectors _ _) fun _ => .bindE (.selectors _) fun _ => .fourth

/-! ### Points -/

theorem Obl.identity : Obl Eq (pointIdentity : CM F Point) pointIdentity :=
  .bindE (.constant _) fun _ => .bindE .zero fun _ => .pureE _

theorem Obl.affine (P P' : F × F) : Obl Eq (addAffine P) (addAffine P') :=
  .bindE (.input _ _) fun _ => .bindE (.input _ _) fun _ => .pureE _

theorem Obl.publicPoint (p : Point) (P P' : F × F) :
    Obl Eq (assertEqualPublicPoint p P) (assertEqualPublicPoint p P') :=
  .bindE (.constrain _ _ rfl) fun _ => .constrain _ _ rfl

theorem Obl.publicAffine (P P' : F × F) : Obl Eq (addPublicAffine P) (addPublicAffine P') :=
  .bindE (.affine _ _) fun _ => .bindE (.constrain _ _ rfl) fun _ => .bindE (.constrain _ _ rfl) fun _ =>
    .pureE _

theorem Obl.constantPoint (P : F × F) :
    Obl Eq (addAffineToCircuitDescription P) (addAffineToCircuitDescription P) :=
  .bindE (.constant _) fun _ => .bindE (.constant _) fun _ => .pureE _

theorem Obl.equalPoint (p q : Point) : Obl Eq (assertEqualPoint p q : CM F Unit) (assertEqualPoint p q) :=
  .bindE (.equal _ _) fun _ => .equal _ _

theorem Obl.pointSelect (p q : Point) (bit : Var) :
    Obl Eq (conditionalPointSelect p q bit : CM F Point) (conditionalPointSelect p q bit) :=
  .bindE (.select _ _ _) fun _ => .bindE (.select _ _ _) fun _ => .pureE _

theorem Obl.pointNeg (p : Point) (bit : Var) :
    Obl Eq (conditionalPointNeg bit p : CM F Point) (conditionalPointNeg bit p) :=
  .bindE .zero fun _ => .bindE (.arithE _) fun _ => .bindE (.select _ _ _) fun _ => .pureE _

theorem Obl.selectIdentity (p : Point) (bit : Var) :
    Obl Eq (conditionalSelectIdentity bit p : CM F Point) (conditionalSelectIdentity bit p) :=
  .bindE (.arithE _) fun _ => .bindE (.selectOne _ _) fun _ => .pureE _

theorem Obl.pointAdd (E : EdCurve F) (p q : Point) :
    Obl Eq (pointAdditionGate E p q) (pointAdditionGate E p q) :=
  .bind (.value _ _) fun _ _ _ => .bind (.value _ _) fun _ _ _ => .bind (.value _ _) fun _ _ _ =>
    .bind (.value _ _) fun _ _ _ => .bindE .assert fun _ => .bindE .assert fun _ =>
    .bindE (.input _ _) fun _ => .bindE (.input _ _) fun _ => .bindE (.input _ _) fun _ =>
    .bindE .zero fun _ => .bindE (.gate _ _ _ _ _) fun _ => .bindE (.gate _ _ _ _ _) fun _ => .pureE _

theorem Obl.addBits : ∀ (bs bs' : List Bool), bs.length = bs'.length →
    Obl Eq (addBits bs : CM F (List Var)) (addBits bs')
  | [], [], _ => .pureE _
  | _ :: bs, _ :: bs', h => .bindE (.input _ _) fun _ =>
      .bindE (Obl.addBits bs bs' (by simpa using h)) fun _ => .pureE _
  | [], _ :: _, h => by simp at h
  | _ :: _, [], h => by simp at h

theorem Obl.decomposeLoop : ∀ (bs : List Var) k acc,
    Obl Eq (decomposeLoop k bs acc : CM F Var) (decomposeLoop k bs acc)
  | [], _, _ => .pureE _
  | _ :: bs, k, _ => .bindE (.boolean _) fun _ => .bindE (.arithE _) fun _ =>
      Obl.decomposeLoop bs (k + 1) _

theorem Obl.decompose (R : FieldRep F) (x : Var) (s s' : F) :
    Obl Eq (scalarDecomposition R x s) (scalarDecomposition R x s') :=
  .bindE (.addBits _ _ (by simp [bitsLe])) fun _ => .bindE .assert fun _ => .bindE .zero fun _ =>
    .bindE (.decomposeLoop _ _ _) fun _ => .bindE (.equal _ _) fun _ => .pureE _

theorem Obl.doubleAdd (E : EdCurve F) (p : Point) : ∀ (bs : List Var) acc,
    Obl Eq (doubleAddLoop E p bs acc) (doubleAddLoop E p bs acc)
  | [], _ => .pureE _
  | _ :: bs, _ => .bindE (.pointAdd _ _ _) fun _ => .bindE (.selectIdentity _ _) fun _ =>
      .bindE (.pointAdd _ _ _) fun _ => Obl.doubleAdd E p bs _

theorem Obl.variableBase (R : FieldRep F) (E : EdCurve F) (x : Var) (p : Point) :
    Obl Eq (variableBaseScalarMul R E x p) (variableBaseScalarMul R E x p) :=
  .bind (.value _ _) fun _ _ _ => .bindE (.decompose _ _ _ _) fun _ => .bindE .identity fun _ =>
    .doubleAdd _ _ _ _

/-- The multiples of the two lists of rounds are the same. -/
theorem Obl.fixedLoop : ∀ (l l' : List ((F × (F × F)) × F × (F × F))) (first : Bool),
    l.map (fun t => t.2.2) = l'.map (fun t => t.2.2) →
    Obl Eq (fixedLoop first l : CM F Unit) (fixedLoop first l')
  | [], [], _, _ => .pureE _
  | ((s, P), xy, M) :: l, ((s', P'), xy', M') :: l', first, h => by
    simp only [List.map_cons, List.cons.injEq] at h
    obtain ⟨rfl, h⟩ := h
    unfold VO.Plonk.fixedLoop
    refine .bindE (.input _ _) fun _ => .bindE (.input _ _) fun _ => .bindE (.input _ _) fun _ => ?_
    cases first
    · exact .bindE (.input _ _) fun _ => .bindE (.gate _ _ _ _ _) fun _ =>
        Obl.fixedLoop l l' false h
    · exact .bindE (.constrain _ _ rfl) fun _ => .bindE (.constrain _ _ rfl) fun _ =>
        .bindE (.constrain _ _ rfl) fun _ => .bindE (.input _ _) fun _ => .bindE (.gate _ _ _ _ _) fun _ =>
        Obl.fixedLoop l l' false h
  | [], _ :: _, _, h => by simp at h
  | _ :: _, [], _, h => by simp at h

theorem wnafAccs_length (E : EdCurve F) : ∀ (es : List ℤ) (Ms : List (F × F)) s P,
    es.length = Ms.length → (wnafAccs E es Ms s P).length = Ms.length
  | [], [], _, _, _ => rfl
  | _ :: es, _ :: Ms, _, _, h => by
    simp only [wnafAccs, List.length_cons]
    rw [wnafAccs_length E es Ms _ _ (by simpa using h)]
  | [], _ :: _, _, _, h => by simp at h
  | _ :: _, [], _, _, h => by simp at h

theorem pointMultiples_length' (E : EdCurve F) : ∀ k P, (pointMultiples E k P).length = k
  | 0, _ => rfl
  | k + 1, P => by simp [pointMultiples, pointMultiples_length' E k]

theorem Obl.fixedBase (R : FieldRep F) (E : EdCurve F) (x : Var) (P : F × F) :
    Obl Eq (fixedBaseScalarMul R E x P) (fixedBaseScalarMul R E x P) := by
  unfold fixedBaseScalarMul
  refine .bindE .assert fun _ => .bind (.value _ _) fun s s' _ => .assertThen fun h1 h2 => ?_
  have hlen : ∀ t : F, (wnaf (R.bigBits + 1) (R.toNat t)).length ≤ R.modBits →
      (wnafAccs E (List.replicate (R.modBits - (wnaf (R.bigBits + 1) (R.toNat t)).length) 0
        ++ (wnaf (R.bigBits + 1) (R.toNat t)).reverse) (pointMultiples E R.modBits P).reverse 0
        (0, 1)).length = R.modBits := by
    intro t ht
    rw [wnafAccs_length]
    · simp [pointMultiples_length']
    · simp only [List.length_append, List.length_replicate, List.length_reverse,
        pointMultiples_length']
      omega
  have k1 := hlen s h1
  have k2 := hlen s' h2
  revert k1 k2
  generalize wnafAccs E (List.replicate (R.modBits - (wnaf (R.bigBits + 1) (R.toNat s)).length) 0
    ++ (wnaf (R.bigBits + 1) (R.toNat s)).reverse) (pointMultiples E R.modBits P).reverse 0
        (0, 1) = st
  generalize wnafAccs E (List.replicate (R.modBits - (wnaf (R.bigBits + 1) (R.toNat s')).length) 0
    ++ (wnaf (R.bigBits + 1) (R.toNat s')).reverse) (pointMultiples E R.modBits P).reverse 0
        (0, 1) = st'
  intro k1 k2
  refine .bindE (.fixedLoop _ _ _ ?_) fun _ => ?_
  · have hm : ∀ l : List (F × (F × F) × F), l.length = R.modBits →
        (((0, ((0 : F), (1 : F))) :: l.map (fun t => (t.1, t.2.1))).dropLast.zip
          ((l.map (fun t => t.2.2)).zip (pointMultiples E R.modBits P).reverse)).map
            (fun t => t.2.2) = (pointMultiples E R.modBits P).reverse := by
      intro l hl
      rw [show (fun t : (F × (F × F)) × F × (F × F) => t.2.2) = Prod.snd ∘ Prod.snd from rfl,
        ← List.map_map, List.map_snd_zip, List.map_snd_zip]
      · simp [pointMultiples_length', hl]
      · simp [pointMultiples_length', hl]
    rw [hm st k1, hm st' k2]
  · split
    · exact .panic
    · split
      · exact .panic'
      · exact .bindE (.input _ _) fun _ => .bindE (.input _ _) fun _ => .bindE .zero fun _ =>
          .bindE (.input _ _) fun _ => .bindE (.arithE _) fun _ => .bindE (.equal _ _) fun _ => .pureE _

theorem newComposer_same (r1 r2 r1' r2' : F × F × F × F) {c c' : Composer F}
    (h : newComposer r1 r2 = .ok c) (h' : newComposer r1' r2' = .ok c') : SameCircuit c c' := by
  have ho : Obl Eq (do
      let z ← addWitnessToCircuitDescription (0 : F)
      modify fun c => { c with zero_var := z }
      addBlindingFactors r1 r2 : CM F Unit) (do
      let z ← addWitnessToCircuitDescription (0 : F)
      modify fun c => { c with zero_var := z }
      addBlindingFactors r1' r2' : CM F Unit) := by
    refine .bindE (.constant _) fun z => .bindE ?_ fun _ => .blinding _ _ _ _
    exact .prim fun c vs ps a b d d' h1 h2 => by cases h1; cases h2; exact ⟨rfl, rfl⟩
  unfold newComposer at h h'
  split at h
  · split at h'
    · rename_i h1 _ _ _ h2
      cases h; cases h'
      exact (ho _ _ _ _ _ _ (show SameCircuit emptyComposer emptyComposer from rfl) h1 h2).2
    · cases h'
  · cases h

end VO.Plonk
