import Verif.Model.PlonkCs
import Verif.Lemmas.PlonkCore
import Verif.Lemmas.PlonkShape

/-
How many rows a composer method appends and in which of them it declares public inputs.
-/

set_option linter.unusedSectionVars false

namespace VO.Plonk

variable {F : Type} [Field F] [DecidableEq F]

/-- The method appends `k` rows, declares public inputs in those of offset `ps`, and leaves the table. -/
def Grow {α : Type} (k : ℕ) (ps : List ℕ) (m : CM F α) : Prop :=
  ∀ c a c', m c = .ok (a, c') → c'.n = c.n + k ∧ c'.lookup_table = c.lookup_table ∧
    c'.intended_pi_pos = c.intended_pi_pos ++ ps.map (c.n + ·)

variable {α β : Type}

theorem Grow.cast {k k' : ℕ} {ps ps' : List ℕ} {m : CM F α} (h : Grow k ps m) (hk : k = k')
    (hp : ps = ps') : Grow k' ps' m := by subst hk hp; exact h

theorem Grow.bindG {k k' : ℕ} {ps ps' : List ℕ} {m : CM F α} {f : α → CM F β} (h : Grow k ps m)
    (hf : ∀ a, Grow k' ps' (f a)) : Grow (k + k') (ps ++ ps'.map (k + ·)) (m >>= f) := by
  intro c a c' h1
  obtain ⟨x, d, h2, h3⟩ := bindC_ok.1 h1
  obtain ⟨a1, a2, a3⟩ := h _ _ _ h2
  obtain ⟨b1, b2, b3⟩ := hf x _ _ _ h3
  refine ⟨by omega, b2.trans a2, ?_⟩
  rw [b3, a3, a1, List.map_append, List.map_map, List.append_assoc]
  congr 3
  funext i
  simp only [Function.comp]
  omega

/-- Before the rest, a step without rows. -/
theorem Grow.skip {k : ℕ} {ps : List ℕ} {m : CM F α} {f : α → CM F β} (h : Grow 0 [] m)
    (hf : ∀ a, Grow k ps (f a)) : Grow k ps (m >>= f) :=
  (h.bindG hf).cast (by omega) (by simp)

/-- A step, then a step that appends `k'` rows without public inputs. -/
theorem Grow.thenRows {k k' : ℕ} {ps : List ℕ} {m : CM F α} {f : α → CM F β} (h : Grow k ps m)
    (hf : ∀ a, Grow k' [] (f a)) : Grow (k + k') ps (m >>= f) :=
  (h.bindG hf).cast rfl (by simp)

theorem Grow.pureG (a : α) : Grow 0 [] (pure a : CM F α) := by
  intro c x c' h
  obtain ⟨-, rfl⟩ := pureC_ok.1 h
  simp

theorem Grow.panicG {k : ℕ} {ps : List ℕ} : Grow k ps (panicC : CM F α) := by
  intro c x c' h
  cases h

theorem Grow.assertG {p : Prop} [Decidable p] : Grow 0 [] (assertC p : CM F Unit) := by
  intro c x c' h
  obtain ⟨-, rfl⟩ := assertC_ok.1 h
  simp

theorem Grow.value (x : Var) : Grow 0 [] (valueOfVar x : CM F F) := by
  intro c y c' h
  obtain ⟨-, rfl⟩ := valueOfVar_ok.1 h
  simp

theorem Grow.zero : Grow 0 [] (zeroVar : CM F Var) := by
  intro c y c' h; cases h; simp
theorem Grow.count : Grow 0 [] (gateCount : CM F ℕ) := by
  intro c y c' h; cases h; simp
theorem Grow.input (s : F) : Grow 0 [] (addInput s) := by
  intro c y c' h; cases h; simp
theorem Grow.l (x : Var) : Grow 0 [] (pushL x : CM F Unit) := by
  intro c y c' h; cases h; simp
theorem Grow.r (x : Var) : Grow 0 [] (pushR x : CM F Unit) := by
  intro c y c' h; cases h; simp
theorem Grow.o (x : Var) : Grow 0 [] (pushO x : CM F Unit) := by
  intro c y c' h; cases h; simp
theorem Grow.w4 (x : Var) : Grow 0 [] (push4 x : CM F Unit) := by
  intro c y c' h; cases h; simp
theorem Grow.selectors (g : Gate F) : Grow 0 [] (pushSelectors g) := by
  intro c y c' h; cases h; simp
theorem Grow.extend (k : ℕ) : Grow 0 [] (extendRangeSelectors k : CM F Unit) := by
  intro c y c' h; cases h; simp
theorem Grow.bumpG (k : ℕ) : Grow k [] (bump k : CM F Unit) := by
  intro c y c' h; cases h; simp

theorem Grow.clear : Grow 0 [] (clearLastRange : CM F Unit) := by
  intro c y c' h
  unfold clearLastRange at h
  split at h
  · cases h
  · cases h; simp

theorem Grow.fourth : Grow 0 [] (lastFourth : CM F Var) := by
  intro c y c' h
  unfold lastFourth at h
  split at h
  · cases h; simp
  · cases h

theorem Grow.map (x : Var) (p : WireData) : Grow 0 [] (addVariableToMap x p : CM F Unit) := by
  intro c y c' h
  unfold addVariableToMap at h
  split at h
  · cases h; simp
  · cases h

theorem Grow.pi (k : F) : Grow 0 [0] (addPi k) := by
  intro c y c' h
  unfold addPi at h
  split at h
  · cases h; simp
  · cases h

/-- The offset of the public input of a gate of one row. -/
def piOff (p : Option F) : List ℕ := if p.isSome then [0] else []

theorem Grow.piOpt (p : Option F) : Grow 0 (piOff p) (addPiOpt p) := by
  cases p
  · exact .pureG _
  · exact .pi _

theorem Grow.gate (g : Gate F) (a b c d : Var) : Grow 1 [] (pushGate g a b c d) := by
  unfold pushGate addVariablesToMap
  exact .skip (.l _) fun _ => .skip (.r _) fun _ => .skip (.o _) fun _ => .skip (.w4 _) fun _ =>
    .skip (.selectors _) fun _ => .skip .count fun _ => .skip
    (.skip (.map _ _) fun _ => .skip (.map _ _) fun _ => .skip (.map _ _) fun _ => .map _ _)
    fun _ => .bumpG _

theorem Grow.poly (a b c : Var) (qm ql qr qo qc : F) (p : Option F) :
    Grow 1 (piOff p) (polyGate a b c qm ql qr qo qc p) := by
  unfold polyGate
  exact .skip .zero fun _ => ((Grow.piOpt p).thenRows fun _ => .gate _ _ _ _ _).cast (by omega) rfl

theorem Grow.constrain (a : Var) (k : F) (p : Option F) : Grow 1 (piOff p) (constrainToConstant a k p) :=
  .poly _ _ _ _ _ _ _ _ _

theorem Grow.equal (a b : Var) : Grow 1 [] (assertEqual a b : CM F Unit) :=
  .skip .zero fun _ => .poly _ _ _ _ _ _ _ _ none

theorem Grow.arith (g : ArithGate F) : Grow 1 (piOff g.pi) (arithmeticGate g) := by
  unfold arithmeticGate
  split
  · exact .panicG
  · rename_i l r o _
    refine .skip .zero fun z => ?_
    simp only
    refine ((Grow.piOpt g.pi).thenRows (k' := 1) fun _ => ?_).cast (by omega) rfl
    refine .skip ?_ fun x => ((Grow.gate _ _ _ _ _).thenRows fun _ => .pureG _).cast rfl rfl
    split
    · exact .pureG _
    · exact .skip (.value _) fun _ => .skip (.value _) fun _ => .skip (.value _) fun _ => .input _

theorem Grow.isZero (a : Var) : Grow 2 [] (isZeroWithOutput a : CM F Var) := by
  unfold isZeroWithOutput
  exact .skip (.value _) fun _ => .skip (.input _) fun _ => .skip (.input _) fun _ => .skip .zero fun _ =>
    (Grow.arith _).thenRows (k' := 1) fun _ => (Grow.arith _).thenRows fun _ => .pureG _

theorem Grow.wire (i : ℕ) (x : Var) : Grow 0 [] (addWire i x : CM F Unit) := by
  unfold addWire
  refine .skip .count fun n => ?_
  simp only
  split
  · exact .skip (.w4 _) fun _ => .map _ _
  split
  · exact .skip (.o _) fun _ => .map _ _
  split
  · exact .skip (.r _) fun _ => .map _ _
  · exact .skip (.l _) fun _ => .map _ _

theorem Grow.padLoop (z : Var) : ∀ k i, Grow 0 [] (padLoop z i k : CM F Unit)
  | 0, _ => .pureG _
  | k + 1, i => .skip (.wire _ _) fun _ => Grow.padLoop z k (i + 1)

theorem Grow.accLoop (bits : List Bool) (q : ℕ) : ∀ k i (acc : F), Grow 0 [] (accLoop bits q i k acc)
  | 0, _, _ => .pureG _
  | k + 1, i, acc => by
    unfold VO.Plonk.accLoop
    simp only
    split
    · exact .skip (.input _) fun _ => .skip (.wire _ _) fun _ => .skip (Grow.accLoop bits q k _ _)
        fun _ => .pureG _
    · exact .panicG

/-- Rows of `range_gate`: one for each eight bits begun, one more, and the comparison. -/
theorem Grow.range (R : FieldRep F) (x : Var) (k : ℕ) :
    Grow ((k + 7) / 8 + 2) [] (rangeGate R x k) := by
  unfold rangeGate
  refine .skip .assertG fun _ => .skip (.value _) fun _ => .skip .zero fun z => .skip (.padLoop _ _ _)
    fun _ => .skip (.accLoop _ _ _ _ _) fun xs => .skip (.extend _) fun _ => ?_
  refine ((Grow.bumpG _).thenRows (k' := 1) fun _ => ?_).cast ?_ rfl
  · refine .skip .clear fun _ => .skip (.l _) fun _ => .skip (.r _) fun _ => .skip (.o _) fun _ => ?_
    split
    · exact .panicG
    · exact .equal _ _
  · split <;> omega

theorem Grow.logicLoop (a b : List Bool) (isXor : Bool) :
    ∀ k i (x y z : F), Grow k [] (logicLoop a b isXor i k x y z)
  | 0, _, _, _, _ => .pureG _
  | k + 1, i, x, y, z => by
    unfold VO.Plonk.logicLoop
    simp only
    generalize quadAt a i = p, quadAt b i = q
    cases p <;> cases q <;> try exact .panicG
    refine .skip .assertG fun _ => .skip .assertG fun _ => .skip .assertG fun _ =>
          .skip (.input _) fun _ => .skip (.input _) fun _ => .skip (.input _) fun _ =>
          .skip (.input _) fun _ => .skip .count fun _ => .skip (.map _ _) fun _ =>
          .skip (.map _ _) fun _ => .skip (.map _ _) fun _ => .skip (.map _ _) fun _ =>
          .skip (.l _) fun _ => .skip (.r _) fun _ => .skip (.o _) fun _ => .skip (.w4 _) fun _ => ?_
    exact ((Grow.bumpG 1).thenRows fun _ => Grow.logicLoop a b isXor k _ _ _ _).cast (by omega) rfl

theorem Grow.logicSelectors (isXor : Bool) : ∀ k, Grow 0 [] (logicSelectors isXor k : CM F Unit)
  | 0 => .pureG _
  | k + 1 => .skip (.selectors _) fun _ => Grow.logicSelectors isXor k

theorem Grow.logic (R : FieldRep F) (a b : Var) (k : ℕ) (isXor : Bool) :
    Grow (k / 2 + 1) [] (logicGate R a b k isXor) := by
  unfold logicGate
  refine .skip .assertG fun _ => .skip (.value _) fun _ => .skip .assertG fun _ =>
    .skip (.value _) fun _ => .skip .assertG fun _ => .skip .assertG fun _ => .skip .zero fun _ =>
    .skip .count fun _ => .skip (.map _ _) fun _ => .skip (.map _ _) fun _ =>
    .skip (.map _ _) fun _ => .skip (.l _) fun _ => .skip (.r _) fun _ => .skip (.w4 _) fun _ => ?_
  refine ((Grow.bumpG 1).thenRows (k' := k / 2) fun _ => ?_).cast (by omega) rfl
  exact ((Grow.logicLoop _ _ _ _ _ _ _ _).thenRows (k' := 0) fun _ => .skip .count fun _ =>
    .skip (.map _ _) fun _ => .skip (.o _) fun _ => .skip (.logicSelectors _ _) fun _ =>
    .skip (.selectors _) fun _ => .fourth).cast rfl rfl

theorem Grow.publicPoint (p : Point) (P : F × F) :
    Grow 2 [0, 1] (assertEqualPublicPoint p P) := by
  unfold assertEqualPublicPoint
  exact (Grow.constrain _ _ _).bindG fun _ => .constrain _ _ _

theorem Grow.fixedLoop : ∀ (l : List ((F × (F × F)) × F × (F × F))) (first : Bool),
    Grow (l.length + if first && l ≠ [] then 3 else 0) [] (fixedLoop first l : CM F Unit)
  | [], first => (Grow.pureG _).cast (by simp) rfl
  | ((s, P), xy, M) :: l, first => by
    unfold VO.Plonk.fixedLoop
    refine .skip (.input _) fun _ => .skip (.input _) fun _ => .skip (.input _) fun _ => ?_
    have rest : ∀ a b d : Var, Grow (l.length + 1) [] (do
        let xa ← addInput xy
        fixedGroupAdd a b d xa M.1 M.2 (M.1 * M.2)
        VO.Plonk.fixedLoop false l : CM F Unit) := fun a b d =>
      .skip (.input _) fun _ => ((Grow.gate _ _ _ _ _).thenRows fun _ =>
        Grow.fixedLoop l false).cast (by simp; omega) rfl
    cases first
    · exact (rest _ _ _).cast (by simp) rfl
    · refine ((Grow.constrain _ _ none).thenRows (k' := 2 + (l.length + 1)) fun _ => ?_).cast
        (by simp; omega) rfl
      refine ((Grow.constrain _ _ none).thenRows (k' := 1 + (l.length + 1)) fun _ => ?_).cast
        (by omega) rfl
      exact (Grow.constrain _ _ none).thenRows fun _ => rest _ _ _

theorem Grow.fixedBase (R : FieldRep F) (E : EdCurve F) (x : Var) (P : F × F) :
    Grow (R.modBits + 5) [] (fixedBaseScalarMul R E x P) := by
  unfold fixedBaseScalarMul
  intro c a c' h
  obtain ⟨_, d, h1, h⟩ := bindC_ok.1 h
  obtain ⟨hpos, rfl⟩ := assertC_ok.1 h1
  obtain ⟨s, d2, h2, h⟩ := bindC_ok.1 h
  obtain ⟨-, rfl⟩ := valueOfVar_ok.1 h2
  simp only at h
  obtain ⟨_, d3, h3, h⟩ := bindC_ok.1 h
  obtain ⟨hle, rfl⟩ := assertC_ok.1 h3
  revert h
  have k1 : (wnafAccs E (List.replicate (R.modBits - (wnaf (R.bigBits + 1) (R.toNat s)).length) 0
        ++ (wnaf (R.bigBits + 1) (R.toNat s)).reverse) (pointMultiples E R.modBits P).reverse 0
        (0, 1)).length = R.modBits := by
    rw [wnafAccs_length]
    · simp [pointMultiples_length']
    · simp only [List.length_append, List.length_replicate, List.length_reverse,
        pointMultiples_length']
      omega
  revert k1
  generalize wnafAccs E (List.replicate (R.modBits - (wnaf (R.bigBits + 1) (R.toNat s)).length) 0
    ++ (wnaf (R.bigBits + 1) (R.toNat s)).reverse) (pointMultiples E R.modBits P).reverse 0
        (0, 1) = st
  intro k1 h
  refine (((Grow.fixedLoop _ true).thenRows (k' := 2) fun _ => ?_).cast ?_ rfl : Grow _ _ _) _ _ _ h
  · split
    · exact .panicG
    · exact .skip (.input _) fun _ => .skip (.input _) fun _ => .skip .zero fun _ =>
        .skip (.input _) fun _ => (Grow.arith _).thenRows (k' := 1) fun _ =>
        (Grow.equal _ _).thenRows fun _ => .pureG _
  · have hl : (((0, ((0 : F), (1 : F))) :: st.map (fun t => (t.1, t.2.1))).dropLast.zip
          ((st.map (fun t => t.2.2)).zip (pointMultiples E R.modBits P).reverse)).length = R.modBits := by
      simp [pointMultiples_length', k1]
    rw [hl, if_pos]
    simp only [Bool.true_and, decide_eq_true_eq]
    intro h0
    rw [h0] at hl
    simp at hl
    omega

theorem newComposer_rows {r1 r2 : F × F × F × F} {c : Composer F} (h : newComposer r1 r2 = .ok c) :
    c.n = 4 ∧ c.lookup_table = [] ∧ c.intended_pi_pos = [] := by
  have hg : Grow 4 [] (do
      let z ← addWitnessToCircuitDescription (0 : F)
      modify fun c => { c with zero_var := z }
      addBlindingFactors r1 r2 : CM F Unit) := by
    refine ((show Grow 1 [] (addWitnessToCircuitDescription (0 : F)) from
      .skip (.input _) fun _ => (Grow.constrain _ _ none).thenRows fun _ => .pureG _).thenRows
      (k' := 3) fun z => .skip ?_ fun _ => ?_)
    · intro c y c' h; cases h; simp
    · have hb : ∀ r : F × F × F × F, Grow 1 [] (blindRow r) := fun r =>
        .skip (.input _) fun _ => .skip (.input _) fun _ => .skip (.input _) fun _ => .skip (.input _) fun _ =>
        (Grow.gate _ _ _ _ _).thenRows fun _ => .pureG _
      exact (hb r1).thenRows (k' := 2) fun _ => (hb r2).thenRows (k' := 1) fun _ => .skip .zero fun _ =>
        .gate _ _ _ _ _
  unfold newComposer at h
  split at h
  · rename_i h1
    cases h
    obtain ⟨a, b, d⟩ := hg _ _ _ h1
    exact ⟨a.trans rfl, b.trans rfl, d.trans rfl⟩
  · cases h

end VO.Plonk
