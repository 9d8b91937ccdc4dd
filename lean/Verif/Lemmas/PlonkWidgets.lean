import Mathlib.Tactic.LinearCombination
import Mathlib.Tactic.ComputeDegree
import Verif.Spec.PlonkProof
import Verif.Props.Hadamard

/-
The gate polynomials of the PLONK prover say what the gate kinds mean.
-/

set_option linter.unusedSectionVars false

namespace VO.Plonk

open Polynomial VO.Spec.Plonk

variable {F : Type} [Field F] [DecidableEq F]

theorem mostly_of_poly {P : F → Prop} (p : F[X]) (k d : ℕ) (hk : p.coeff k ≠ 0)
    (hd : p.natDegree ≤ d) (h : ∀ x, p.eval x ≠ 0 → P x) : Mostly d P := by
  obtain ⟨bad, b1, b2⟩ := bad_of_coeff p k d hk hd
  exact ⟨bad, b1, fun x hx => h x (b2 x hx)⟩

theorem mostly_of_poly_ne {P : F → Prop} (p : F[X]) (d : ℕ) (hk : p ≠ 0)
    (hd : p.natDegree ≤ d) (h : ∀ x, p.eval x ≠ 0 → P x) : Mostly d P := by
  obtain ⟨k, hk⟩ : ∃ k, p.coeff k ≠ 0 := by
    by_contra hc
    push Not at hc
    exact hk (Polynomial.ext (by simpa using hc))
  exact mostly_of_poly p k d hk hd h

theorem _root_.VO.Spec.Plonk.Mostly.mono {P Q : F → Prop} {k l : ℕ} (h : Mostly k P) (hkl : k ≤ l)
    (hPQ : ∀ x, P x → Q x) : Mostly l Q := by
  obtain ⟨bad, b1, b2⟩ := h
  exact ⟨bad, b1.trans hkl, fun x hx => hPQ x (b2 x hx)⟩

theorem _root_.VO.Spec.Plonk.Mostly.of_forall {P : F → Prop} (k : ℕ) (h : ∀ x, P x) : Mostly k P :=
  ⟨∅, by simp, fun x _ => h x⟩

theorem _root_.VO.Spec.Plonk.Mostly.and {P Q : F → Prop} {k l : ℕ} (h : Mostly k P) (h' : Mostly l Q) :
    Mostly (k + l) fun x => P x ∧ Q x := by
  obtain ⟨b, b1, b2⟩ := h
  obtain ⟨b', b1', b2'⟩ := h'
  refine ⟨b ∪ b', (Finset.card_union_le _ _).trans (by omega), fun x hx => ?_⟩
  rw [Finset.mem_union, not_or] at hx
  exact ⟨b2 x hx.1, b2' x hx.2⟩

theorem mostly_odd9 (A c0 c1 c2 c3 c4 : F)
    (h : c0 ≠ 0 ∨ c1 ≠ 0 ∨ c2 ≠ 0 ∨ c3 ≠ 0 ∨ c4 ≠ 0) :
    Mostly 9 fun s : F => A + (c0 * s + c1 * s ^ 3 + c2 * s ^ 5 + c3 * s ^ 7 + c4 * s ^ 9) ≠ 0 := by
  let p : F[X] := C A + (C c0 * X + C c1 * X ^ 3 + C c2 * X ^ 5 + C c3 * X ^ 7 + C c4 * X ^ 9)
  have hp : p ≠ 0 := by
    intro hp
    have e : ∀ k, p.coeff k = 0 := fun k => by rw [hp]; simp
    have e1 := e 1; have e3 := e 3; have e5 := e 5; have e7 := e 7; have e9 := e 9
    simp [p, coeff_X, coeff_X_pow, coeff_C] at e1 e3 e5 e7 e9
    tauto
  refine mostly_of_poly_ne p 9 hp ?_ ?_
  · simp only [p]; compute_degree
  · intro x hx; simpa [p] using hx

theorem mostly_odd7 (A c0 c1 c2 c3 : F) (h : c0 ≠ 0 ∨ c1 ≠ 0 ∨ c2 ≠ 0 ∨ c3 ≠ 0) :
    Mostly 7 fun s : F => A + (c0 * s + c1 * s ^ 3 + c2 * s ^ 5 + c3 * s ^ 7) ≠ 0 := by
  let p : F[X] := C A + (C c0 * X + C c1 * X ^ 3 + C c2 * X ^ 5 + C c3 * X ^ 7)
  have hp : p ≠ 0 := by
    intro hp
    have e : ∀ k, p.coeff k = 0 := fun k => by rw [hp]; simp
    have e1 := e 1; have e3 := e 3; have e5 := e 5; have e7 := e 7
    simp [p, coeff_X, coeff_X_pow, coeff_C] at e1 e3 e5 e7
    tauto
  refine mostly_of_poly_ne p 7 hp ?_ ?_
  · simp only [p]; compute_degree
  · intro x hx; simpa [p] using hx

theorem mostly_odd5 (A c0 c1 c2 : F) (h : c0 ≠ 0 ∨ c1 ≠ 0 ∨ c2 ≠ 0) :
    Mostly 5 fun s : F => A + (c0 * s + c1 * s ^ 3 + c2 * s ^ 5) ≠ 0 := by
  let p : F[X] := C A + (C c0 * X + C c1 * X ^ 3 + C c2 * X ^ 5)
  have hp : p ≠ 0 := by
    intro hp
    have e : ∀ k, p.coeff k = 0 := fun k => by rw [hp]; simp
    have e1 := e 1; have e3 := e 3; have e5 := e 5
    simp [p, coeff_X, coeff_X_pow, coeff_C] at e1 e3 e5
    tauto
  refine mostly_of_poly_ne p 5 hp ?_ ?_
  · simp only [p]; compute_degree
  · intro x hx; simpa [p] using hx

theorem mostly_cubic (A c0 c1 c2 : F) (h : A ≠ 0 ∨ c0 ≠ 0 ∨ c1 ≠ 0 ∨ c2 ≠ 0) :
    Mostly 3 fun s : F => A + (c0 * s + c1 * s ^ 2 + c2 * s ^ 3) ≠ 0 := by
  let p : F[X] := C A + (C c0 * X + C c1 * X ^ 2 + C c2 * X ^ 3)
  have hp : p ≠ 0 := by
    intro hp
    have e : ∀ k, p.coeff k = 0 := fun k => by rw [hp]; simp
    have e0 := e 0; have e1 := e 1; have e3 := e 2; have e5 := e 3
    simp [p, coeff_X, coeff_X_pow, coeff_C] at e0 e1 e3 e5
    tauto
  refine mostly_of_poly_ne p 3 hp ?_ ?_
  · simp only [p]; compute_degree
  · intro x hx; simpa [p] using hx

theorem mostly_quadratic (A c0 c1 : F) (h : A ≠ 0 ∨ c0 ≠ 0 ∨ c1 ≠ 0) :
    Mostly 2 fun s : F => A + (c0 * s + c1 * s ^ 2) ≠ 0 := by
  let p : F[X] := C A + (C c0 * X + C c1 * X ^ 2)
  have hp : p ≠ 0 := by
    intro hp
    have e : ∀ k, p.coeff k = 0 := fun k => by rw [hp]; simp
    have e0 := e 0; have e1 := e 1; have e3 := e 2
    simp [p, coeff_X, coeff_X_pow, coeff_C] at e0 e1 e3
    tauto
  refine mostly_of_poly_ne p 2 hp ?_ ?_
  · simp only [p]; compute_degree
  · intro x hx; simpa [p] using hx

theorem delta4_eq_zero (x : F) : delta4 x = 0 ↔ IsQuad x := by
  simp only [delta4, IsQuad, mul_eq_zero, sub_eq_zero, or_assoc]

theorem range_iff (r : Row F) : RangeOk r ↔ delta4 (r.c - 4 * r.d) = 0 ∧
    delta4 (r.b - 4 * r.c) = 0 ∧ delta4 (r.a - 4 * r.b) = 0 ∧ delta4 (r.dNext - 4 * r.a) = 0 := by
  simp only [RangeOk, delta4_eq_zero]

theorem logic_iff (g : Gate F) (r : Row F) : LogicOk g r ↔ delta4 (r.aNext - 4 * r.a) = 0 ∧
    delta4 (r.bNext - 4 * r.b) = 0 ∧ delta4 (r.dNext - 4 * r.d) = 0 ∧
    r.c - (r.aNext - 4 * r.a) * (r.bNext - 4 * r.b) = 0 ∧
    deltaXorAnd (r.aNext - 4 * r.a) (r.bNext - 4 * r.b) r.c (r.dNext - 4 * r.d) g.c = 0 := by
  simp only [LogicOk, delta4_eq_zero, sub_eq_zero]
  have : ∀ a b w o q : F, xorAndPoly a b w o q = deltaXorAnd a b w o q := by
    intro a b w o q
    simp only [xorAndPoly, deltaXorAnd]; ring
  rw [this]

theorem bit_iff (t : F) : (t = 0 ∨ t = 1 ∨ t = -1) ↔ checkBitConsistency t = 0 := by
  simp only [checkBitConsistency, mul_eq_zero, sub_eq_zero, or_assoc, add_eq_zero_iff_eq_neg]

/-- The four equations of a fixed-base row. -/
def fixedEqs (E : EdCurve F) (g : Gate F) (r : Row F) : F × F × F × F :=
  let t := r.dNext - r.d - r.d
  (checkBitConsistency t, t * g.c - r.c,
    (r.aNext + r.aNext * r.c * r.a * r.b * E.d)
      - (g.l * t * r.b + (t * t * (g.r - 1) + 1) * r.a),
    (r.bNext - r.bNext * r.c * r.a * r.b * E.d)
      - ((t * t * (g.r - 1) + 1) * r.b - E.a * (g.l * t) * r.a))

theorem fixed_iff (E : EdCurve F) (g : Gate F) (r : Row F) : FixedOk E g r ↔
    (fixedEqs E g r).1 = 0 ∧ (fixedEqs E g r).2.1 = 0 ∧ (fixedEqs E g r).2.2.1 = 0 ∧
      (fixedEqs E g r).2.2.2 = 0 := by
  have ht : r.dNext - r.d - r.d = r.dNext - 2 * r.d := by ring
  simp only [FixedOk, fixedEqs, ht, ← bit_iff]
  refine and_congr Iff.rfl (and_congr ?_ (and_congr ?_ ?_))
  · constructor <;> intro h <;> linear_combination -h
  · constructor <;> intro h <;> linear_combination h
  · constructor <;> intro h <;> linear_combination h

theorem var_iff (E : EdCurve F) (r : Row F) : VarOk E r ↔
    r.a * r.d - r.dNext = 0 ∧
    (r.dNext + r.b * r.c) - (r.aNext + r.aNext * E.d * r.dNext * (r.b * r.c)) = 0 ∧
    (r.b * r.d - E.a * (r.a * r.c)) - (r.bNext - r.bNext * E.d * r.dNext * (r.b * r.c)) = 0 := by
  simp only [VarOk, EdSum]
  constructor
  · rintro ⟨h, h1, h2⟩
    refine ⟨by rw [h]; ring, ?_, ?_⟩
    · rw [h]; linear_combination -h1
    · rw [h]; linear_combination -h2
  · rintro ⟨h, h1, h2⟩
    have h' : r.dNext = r.a * r.d := by linear_combination -h
    rw [h'] at h1 h2
    exact ⟨h', by linear_combination -h1, by linear_combination -h2⟩

theorem range_eq (sep : F) (g : Gate F) (r : Row F) :
    rangeConstraints sep (witOf r) (custOf g r) =
      delta4 (r.c - 4 * r.d) * sep + delta4 (r.b - 4 * r.c) * sep ^ 3
        + delta4 (r.a - 4 * r.b) * sep ^ 5 + delta4 (r.dNext - 4 * r.a) * sep ^ 7 := by
  simp only [rangeConstraints, witOf, custOf]; ring

theorem logic_eq (sep : F) (g : Gate F) (r : Row F) :
    logicConstraints sep (witOf r) (custOf g r) =
      delta4 (r.aNext - 4 * r.a) * sep + delta4 (r.bNext - 4 * r.b) * sep ^ 3
        + delta4 (r.dNext - 4 * r.d) * sep ^ 5
        + (r.c - (r.aNext - 4 * r.a) * (r.bNext - 4 * r.b)) * sep ^ 7
        + deltaXorAnd (r.aNext - 4 * r.a) (r.bNext - 4 * r.b) r.c (r.dNext - 4 * r.d) g.c
          * sep ^ 9 := by
  simp only [logicConstraints, witOf, custOf]; ring

theorem fixed_eq (E : EdCurve F) (sep : F) (g : Gate F) (r : Row F) :
    fixedConstraints E sep (witOf r) (custOf g r) =
      (fixedEqs E g r).1 * sep + (fixedEqs E g r).2.1 * sep ^ 3
        + (fixedEqs E g r).2.2.1 * sep ^ 5 + (fixedEqs E g r).2.2.2 * sep ^ 7 := by
  simp only [fixedConstraints, fixedEqs, witOf, custOf, extractBit]; ring

theorem var_eq (E : EdCurve F) (sep : F) (g : Gate F) (r : Row F) :
    curveConstraints E sep (witOf r) (custOf g r) =
      (r.a * r.d - r.dNext) * sep
      + ((r.dNext + r.b * r.c) - (r.aNext + r.aNext * E.d * r.dNext * (r.b * r.c))) * sep ^ 3
      + ((r.b * r.d - E.a * (r.a * r.c))
          - (r.bNext - r.bNext * E.d * r.dNext * (r.b * r.c))) * sep ^ 5 := by
  simp only [curveConstraints, witOf, custOf]; ring

theorem arith_iff (g : Gate F) (r : Row F) (p : F) :
    ArithOk g r p ↔ arithQuotient g (witOf r) + p = 0 := by
  simp only [ArithOk, arithQuotient, witOf]
  constructor <;> intro h <;> linear_combination h

theorem range_zero {r : Row F} (h : RangeOk r) (g : Gate F) (sep : F) :
    rangeConstraints sep (witOf r) (custOf g r) = 0 := by
  obtain ⟨h1, h2, h3, h4⟩ := (range_iff r).1 h
  rw [range_eq, h1, h2, h3, h4]; ring

theorem logic_zero {g : Gate F} {r : Row F} (h : LogicOk g r) (sep : F) :
    logicConstraints sep (witOf r) (custOf g r) = 0 := by
  obtain ⟨h1, h2, h3, h4, h5⟩ := (logic_iff g r).1 h
  rw [logic_eq, h1, h2, h3, h4, h5]; ring

theorem fixed_zero {E : EdCurve F} {g : Gate F} {r : Row F} (h : FixedOk E g r) (sep : F) :
    fixedConstraints E sep (witOf r) (custOf g r) = 0 := by
  obtain ⟨h1, h2, h3, h4⟩ := (fixed_iff E g r).1 h
  rw [fixed_eq, h1, h2, h3, h4]; ring

theorem var_zero {E : EdCurve F} {r : Row F} (h : VarOk E r) (g : Gate F) (sep : F) :
    curveConstraints E sep (witOf r) (custOf g r) = 0 := by
  obtain ⟨h1, h2, h3⟩ := (var_iff E r).1 h
  rw [var_eq, h1, h2, h3]; ring

theorem range_mostly {r : Row F} (h : ¬ RangeOk r) (g : Gate F) (A q : F) (hq : q ≠ 0) :
    Mostly 7 fun s : F => A + q * rangeConstraints s (witOf r) (custOf g r) ≠ 0 := by
  rw [range_iff] at h
  refine (mostly_odd7 A _ _ _ _ (?_ : q * delta4 (r.c - 4 * r.d) ≠ 0 ∨
    q * delta4 (r.b - 4 * r.c) ≠ 0 ∨ q * delta4 (r.a - 4 * r.b) ≠ 0 ∨
    q * delta4 (r.dNext - 4 * r.a) ≠ 0)).mono le_rfl ?_
  · simp only [mul_ne_zero_iff, ne_eq, hq, not_false_eq_true, true_and]; tauto
  · intro s hs; rw [range_eq]; convert hs using 1; ring

theorem logic_mostly {g : Gate F} {r : Row F} (h : ¬ LogicOk g r) (A q : F) (hq : q ≠ 0) :
    Mostly 9 fun s : F => A + q * logicConstraints s (witOf r) (custOf g r) ≠ 0 := by
  rw [logic_iff] at h
  refine (mostly_odd9 A _ _ _ _ _ (?_ : q * delta4 (r.aNext - 4 * r.a) ≠ 0 ∨
    q * delta4 (r.bNext - 4 * r.b) ≠ 0 ∨ q * delta4 (r.dNext - 4 * r.d) ≠ 0 ∨
    q * (r.c - (r.aNext - 4 * r.a) * (r.bNext - 4 * r.b)) ≠ 0 ∨
    q * deltaXorAnd (r.aNext - 4 * r.a) (r.bNext - 4 * r.b) r.c (r.dNext - 4 * r.d) g.c
      ≠ 0)).mono le_rfl ?_
  · simp only [mul_ne_zero_iff, ne_eq, hq, not_false_eq_true, true_and]; tauto
  · intro s hs; rw [logic_eq]; convert hs using 1; ring

theorem fixed_mostly {E : EdCurve F} {g : Gate F} {r : Row F} (h : ¬ FixedOk E g r) (A q : F)
    (hq : q ≠ 0) :
    Mostly 7 fun s : F => A + q * fixedConstraints E s (witOf r) (custOf g r) ≠ 0 := by
  rw [fixed_iff] at h
  refine (mostly_odd7 A _ _ _ _ (?_ : q * (fixedEqs E g r).1 ≠ 0 ∨
    q * (fixedEqs E g r).2.1 ≠ 0 ∨ q * (fixedEqs E g r).2.2.1 ≠ 0 ∨
    q * (fixedEqs E g r).2.2.2 ≠ 0)).mono le_rfl ?_
  · simp only [mul_ne_zero_iff, ne_eq, hq, not_false_eq_true, true_and]; tauto
  · intro s hs; rw [fixed_eq]; convert hs using 1; ring

theorem var_mostly {E : EdCurve F} {r : Row F} (h : ¬ VarOk E r) (g : Gate F) (A q : F)
    (hq : q ≠ 0) :
    Mostly 5 fun s : F => A + q * curveConstraints E s (witOf r) (custOf g r) ≠ 0 := by
  rw [var_iff] at h
  refine (mostly_odd5 A _ _ _ (?_ : q * (r.a * r.d - r.dNext) ≠ 0 ∨
    q * ((r.dNext + r.b * r.c) - (r.aNext + r.aNext * E.d * r.dNext * (r.b * r.c))) ≠ 0 ∨
    q * ((r.b * r.d - E.a * (r.a * r.c))
      - (r.bNext - r.bNext * E.d * r.dNext * (r.b * r.c))) ≠ 0)).mono le_rfl ?_
  · simp only [mul_ne_zero_iff, ne_eq, hq, not_false_eq_true, true_and]; tauto
  · intro s hs; rw [var_eq]; convert hs using 1; ring

/-- Everything but the constant part `A`: the four custom gates in nested challenges. If some
switched-on custom gate fails, or if `A ≠ 0` while all hold, the sum is not zero. -/
theorem custom_mostly (E : EdCurve F) (g : Gate F) (r : Row F) (p A : F)
    (h : ¬ (A + (arithQuotient g (witOf r) + p) = 0 ∧ (g.range ≠ 0 → RangeOk r)
      ∧ (g.logic ≠ 0 → LogicOk g r) ∧ (g.fixed ≠ 0 → FixedOk E g r) ∧ (g.var ≠ 0 → VarOk E r))) :
    Mostly 7 fun sr : F => Mostly 9 fun sl : F => Mostly 7 fun sf : F => Mostly 5 fun sv : F =>
      A + gateQuotient E sr sl sf sv g (witOf r) (custOf g r) p ≠ 0 := by
  have v0 : ∀ sv, (g.var ≠ 0 → VarOk E r) →
      g.var * curveConstraints E sv (witOf r) (custOf g r) = 0 := by
    intro sv hv
    by_cases h0 : g.var = 0
    · rw [h0, zero_mul]
    · rw [var_zero (hv h0), mul_zero]
  have f0 : ∀ s, (g.fixed ≠ 0 → FixedOk E g r) →
      g.fixed * fixedConstraints E s (witOf r) (custOf g r) = 0 := by
    intro s hv
    by_cases h0 : g.fixed = 0
    · rw [h0, zero_mul]
    · rw [fixed_zero (hv h0), mul_zero]
  have l0 : ∀ s, (g.logic ≠ 0 → LogicOk g r) →
      g.logic * logicConstraints s (witOf r) (custOf g r) = 0 := by
    intro s hv
    by_cases h0 : g.logic = 0
    · rw [h0, zero_mul]
    · rw [logic_zero (hv h0), mul_zero]
  have r0 : ∀ s, (g.range ≠ 0 → RangeOk r) →
      g.range * rangeConstraints s (witOf r) (custOf g r) = 0 := by
    intro s hv
    by_cases h0 : g.range = 0
    · rw [h0, zero_mul]
    · rw [range_zero (hv h0), mul_zero]
  by_cases hv : g.var ≠ 0 → VarOk E r
  swap
  · push Not at hv
    refine .of_forall _ fun sr => .of_forall _ fun sl => .of_forall _ fun sf => ?_
    refine (var_mostly hv.2 g (A + (arithQuotient g (witOf r) + p
      + g.range * rangeConstraints sr (witOf r) (custOf g r)
      + g.logic * logicConstraints sl (witOf r) (custOf g r)
      + g.fixed * fixedConstraints E sf (witOf r) (custOf g r))) _ hv.1).mono le_rfl ?_
    intro s hs; simp only [gateQuotient]; convert hs using 1; ring
  by_cases hf : g.fixed ≠ 0 → FixedOk E g r
  swap
  · push Not at hf
    refine .of_forall _ fun sr => .of_forall _ fun sl => ?_
    refine (fixed_mostly hf.2 (A + (arithQuotient g (witOf r) + p
      + g.range * rangeConstraints sr (witOf r) (custOf g r)
      + g.logic * logicConstraints sl (witOf r) (custOf g r))) _ hf.1).mono le_rfl ?_
    intro s hs
    refine .of_forall _ fun sv => ?_
    simp only [gateQuotient, v0 sv hv]; convert hs using 1; ring
  by_cases hl : g.logic ≠ 0 → LogicOk g r
  swap
  · push Not at hl
    refine .of_forall _ fun sr => ?_
    refine (logic_mostly hl.2 (A + (arithQuotient g (witOf r) + p
      + g.range * rangeConstraints sr (witOf r) (custOf g r))) _ hl.1).mono le_rfl ?_
    intro s hs
    refine .of_forall _ fun sf => .of_forall _ fun sv => ?_
    simp only [gateQuotient, v0 sv hv, f0 sf hf]; convert hs using 1; ring
  by_cases hr : g.range ≠ 0 → RangeOk r
  swap
  · push Not at hr
    refine (range_mostly hr.2 g (A + (arithQuotient g (witOf r) + p)) _ hr.1).mono le_rfl ?_
    intro s hs
    refine .of_forall _ fun sl => .of_forall _ fun sf => .of_forall _ fun sv => ?_
    simp only [gateQuotient, v0 sv hv, f0 sf hf, l0 sl hl]; convert hs using 1; ring
  refine .of_forall _ fun sr => .of_forall _ fun sl => .of_forall _ fun sf => .of_forall _ fun sv => ?_
  simp only [gateQuotient, v0 sv hv, f0 sf hf, l0 sl hl, r0 sr hr, add_zero]
  intro h0
  exact h ⟨h0, hr, hl, hf, hv⟩

theorem gates_zero {E : EdCurve F} {g : Gate F} {r : Row F} {p : F} (h : GatesOk E g r p)
    (sr sl sf sv : F) : gateQuotient E sr sl sf sv g (witOf r) (custOf g r) p = 0 := by
  have e1 := (arith_iff g r p).1 h.arith
  have e2 : g.range * rangeConstraints sr (witOf r) (custOf g r) = 0 := by
    by_cases h0 : g.range = 0
    · rw [h0, zero_mul]
    · rw [range_zero (h.range h0), mul_zero]
  have e3 : g.logic * logicConstraints sl (witOf r) (custOf g r) = 0 := by
    by_cases h0 : g.logic = 0
    · rw [h0, zero_mul]
    · rw [logic_zero (h.logic h0), mul_zero]
  have e4 : g.fixed * fixedConstraints E sf (witOf r) (custOf g r) = 0 := by
    by_cases h0 : g.fixed = 0
    · rw [h0, zero_mul]
    · rw [fixed_zero (h.fixed h0), mul_zero]
  have e5 : g.var * curveConstraints E sv (witOf r) (custOf g r) = 0 := by
    by_cases h0 : g.var = 0
    · rw [h0, zero_mul]
    · rw [var_zero (h.var h0), mul_zero]
  simp only [gateQuotient, e1, e2, e3, e4, e5, add_zero]

theorem lc_eq (vs : List F) (ch : F) :
    lc vs ch = if ch = 0 ∨ ch = 1 ∨ vs = [] then .error .panic
      else .ok (∑ i ∈ Finset.range vs.length, vs.getD i 0 * ch ^ i) := by
  have horner : ∀ (l : List F) (k : F),
      l.foldl (fun acc v => acc * ch + v) k
        = k * ch ^ l.length + ∑ i ∈ Finset.range l.length, l.reverse.getD i 0 * ch ^ i := by
    intro l
    induction l with
    | nil => intro k; simp
    | cons a l ih =>
      intro k
      rw [List.foldl_cons, ih, List.length_cons, Finset.sum_range_succ, List.reverse_cons]
      have e : ∀ i ∈ Finset.range l.length, (l.reverse ++ [a]).getD i 0 * ch ^ i
          = l.reverse.getD i 0 * ch ^ i := by
        intro i hi
        rw [List.getD_append _ _ _ _ (by simpa using hi)]
      rw [Finset.sum_congr rfl e, List.getD_append_right _ _ _ _ (by simp)]
      simp
      ring
  unfold lc assertR
  by_cases h0 : ch = 0
  · simp [h0]; rfl
  by_cases h1 : ch = 1
  · simp [h1]; rfl
  simp only [ne_eq, h0, h1, not_false_eq_true, if_true, false_or]
  rcases hv : vs.reverse with _ | ⟨k, rest⟩
  · have : vs = [] := by simpa using hv
    simp [this]; rfl
  · have e : vs = rest.reverse ++ [k] := by
      have := congrArg List.reverse hv
      simpa using this
    have hne : vs ≠ [] := by rw [e]; simp
    rw [if_neg hne]
    show Except.ok _ = _
    rw [horner, e]
    congr 1
    rw [List.length_append, List.length_reverse, List.length_singleton, Finset.sum_range_succ,
      List.getD_append_right _ _ _ _ (by simp), add_comm]
    congr 1
    · refine Finset.sum_congr rfl fun i hi => ?_
      rw [List.getD_append _ _ _ _ (by simpa using hi)]
    · simp

end VO.Plonk
