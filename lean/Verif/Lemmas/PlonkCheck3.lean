import Mathlib.Data.List.GetD
import Mathlib.Tactic.LinearCombination
import Verif.Lemmas.PlonkCheck2

/-
The run of `check_circuit_satisfied` on a reachable composer.
-/

set_option linter.unusedSectionVars false

namespace VO.Plonk

open VO.Spec.Plonk
open VO.Poseidon (getR)

variable {F : Type} [Field F] [DecidableEq F]

theorem getR_getD {l : List F} {i : ℕ} (h : i < l.length) : getR l i = .ok (l.getD i 0) := by
  unfold getR
  rw [List.getElem?_eq_getElem h, List.getD_eq_getElem _ _ h]

theorem mapM_getR {v : List F} {w : List ℕ} (h : ∀ x ∈ w, x < v.length) :
    w.mapM (getR v) = (.ok (w.map fun x => v.getD x 0) : Res (List F)) := by
  induction w with
  | nil => rfl
  | cons x w ih =>
    rw [List.mapM_cons, getR_getD (h x (by simp)), ih fun y hy => h y (by simp [hy])]
    rfl

theorem forM_ok {n : ℕ} {f : ℕ → Res Unit} :
    (List.range n).forM f = .ok () ↔ ∀ i < n, f i = .ok () := by
  have : ∀ l : List ℕ, l.forM f = .ok () ↔ ∀ i ∈ l, f i = .ok () := by
    intro l
    induction l with
    | nil => simp [pure, Except.pure]
    | cons x l ih =>
      show (f x >>= fun _ => l.forM f) = .ok () ↔ _
      cases hx : f x with
      | error e => simp [error_bind, hx]
      | ok u => simp only [ok_bind, List.mem_cons, forall_eq_or_imp, hx, true_and]; exact ih
  simpa using this (List.range n)

theorem forM_panic {n : ℕ} {f : ℕ → Res Unit}
    (hf : ∀ i < n, f i = .ok () ∨ f i = .error .panic) :
    (List.range n).forM f = .ok () ∨ (List.range n).forM f = .error .panic := by
  have : ∀ l : List ℕ, (∀ i ∈ l, f i = .ok () ∨ f i = .error .panic) →
      l.forM f = .ok () ∨ l.forM f = .error .panic := by
    intro l
    induction l with
    | nil => exact fun _ => Or.inl rfl
    | cons x l ih =>
      intro hl
      show (f x >>= fun _ => l.forM f) = .ok () ∨ (f x >>= fun _ => l.forM f) = .error .panic
      rcases hl x (by simp) with hx | hx
      · rw [hx, ok_bind]
        exact ih fun i hi => hl i (by simp [hi])
      · rw [hx, error_bind]
        exact Or.inr rfl
  exact this _ (by simpa using hf)

theorem fromBitsLe_testBit (n m : ℕ) :
    fromBitsLe ((List.range n).map fun i => m.testBit i) = m % 2 ^ n := by
  induction n generalizing m with
  | zero => simp [fromBitsLe, Nat.mod_one]
  | succ n ih =>
    rw [List.range_succ_eq_map, List.map_cons, List.map_map]
    have : ((fun i => m.testBit i) ∘ Nat.succ) = fun i => (m / 2).testBit i := by
      funext i
      simp [Nat.testBit_succ]
    unfold fromBitsLe
    rw [this, ih, pow_succ, mul_comm (2 ^ n) 2, Nat.mod_mul, Nat.testBit_zero]
    congr 1
    rcases Nat.mod_two_eq_zero_or_one m with h | h <;> simp [h]

theorem zipWith_bits {R : FieldRep F} {a b : F} {x : Bool} :
    List.zipWith (fun y z => if x then y ^^ z else y && z) (bitsLe R a) (bitsLe R b)
      = (List.range R.bigBits).map fun i => (opN x (R.toNat a) (R.toNat b)).testBit i := by
  unfold bitsLe
  rw [List.zipWith_map_left, List.zipWith_map_right, List.zipWith_self]
  refine List.map_congr_left fun i _ => ?_
  unfold opN
  cases x
  · simp
  · simp

theorem checkLogicBits_ok {R : FieldRep F} (hrep : RepOk R) (h2 : (2 : F) ≠ 0) {x : Bool}
    {A B : ℕ} (hA : A < 2 ^ (R.modBits - 1)) (hB : B < 2 ^ (R.modBits - 1)) :
    checkLogicBits R (if x then -1 else 1) (A : F) (B : F) ((opN x A B : ℕ) : F) = .ok 0 := by
  have hne : (1 : F) ≠ -1 := fun h => h2 (by linear_combination h)
  have hz := zipWith_bits (R := R) (a := (A : F)) (b := (B : F)) (x := x)
  rw [hrep.own A hA, hrep.own B hB] at hz
  have hO : opN x A B < 2 ^ (R.modBits - 1) := opN_lt x hA hB
  have hO' : opN x A B < 2 ^ R.bigBits := lt_of_lt_of_le hO
    (Nat.pow_le_pow_right (by norm_num) (le_trans (Nat.sub_le _ _) hrep.mod_le))
  have hbig : fromBigint R (fromBitsLe ((List.range R.bigBits).map fun i =>
      (opN x A B).testBit i)) = .ok ((opN x A B : ℕ) : F) := by
    rw [fromBitsLe_testBit, Nat.mod_eq_of_lt hO']
    unfold fromBigint
    rw [if_pos (hrep.own _ hO)]
  unfold checkLogicBits
  cases x
  · simp only [Bool.false_eq_true, if_false] at hz ⊢
    rw [decide_eq_true trivial, decide_eq_false hne]
    simp only [hz, hbig, ok_bind, sub_self, pure, Except.pure]
  · simp only [if_true] at hz ⊢
    rw [decide_eq_false hne.symm, decide_eq_true trivial]
    simp only [hz, hbig, ok_bind, sub_self, pure, Except.pure]

theorem checkDelta_quad {x : F} (h : IsQuad x) : checkDelta x = 0 := by
  unfold checkDelta
  rcases h with rfl | rfl | rfl | rfl <;> ring

theorem own_col {c : Composer F} {w : List ℕ} {i : ℕ} (hi : i < w.length)
    (P : ℕ → WireData) (hP : wireVar c (P i) = w[i]?) :
    getR (w.map fun x => c.variables.getD x 0) i = .ok (ownW c (P i)) := by
  unfold getR ownW
  rw [hP, List.getElem?_map, List.getElem?_eq_getElem hi]
  rfl

theorem assertR_iff {p : Prop} [Decidable p] : assertR p = .ok () ↔ p := by
  unfold assertR
  split_ifs with h <;> simp [h]

/-- The check of one row. -/
theorem checkGate_run {R : FieldRep F} {c : Composer F} (hrep : RepOk R) (h2 : (2 : F) ≠ 0)
    (hw : WF c) {i : ℕ} (hi : i < c.n) (hh : HonRow R c i) {pis : List F}
    (hl : i < pis.length) (hpi : pis.getD i 0 = ownPub c i) :
    (checkGate R c (c.w_l.map fun x => c.variables.getD x 0)
        (c.w_r.map fun x => c.variables.getD x 0) (c.w_o.map fun x => c.variables.getD x 0)
        (c.w_4.map fun x => c.variables.getD x 0) pis i = .ok () ↔ ((gateAt c i).arith ≠ 0 →
          ArithOk (gateAt c i) (rowAt c.n (ownW c) i) (ownPub c i))) ∧
    (checkGate R c (c.w_l.map fun x => c.variables.getD x 0)
        (c.w_r.map fun x => c.variables.getD x 0) (c.w_o.map fun x => c.variables.getD x 0)
        (c.w_4.map fun x => c.variables.getD x 0) pis i = .ok () ∨
      checkGate R c (c.w_l.map fun x => c.variables.getD x 0)
        (c.w_r.map fun x => c.variables.getD x 0) (c.w_o.map fun x => c.variables.getD x 0)
        (c.w_4.map fun x => c.variables.getD x 0) pis i = .error .panic) := by
  have hj : (i + 1) % c.n < c.n := Nat.mod_lt _ (by omega)
  have s := hw.sel
  unfold checkGate
  rw [getR_getD (by rw [s.q_m]; exact hi), getR_getD (by rw [s.q_l]; exact hi),
    getR_getD (by rw [s.q_r]; exact hi), getR_getD (by rw [s.q_o]; exact hi),
    getR_getD (by rw [s.q_c]; exact hi), getR_getD (by rw [s.q_4]; exact hi),
    getR_getD (by rw [s.q_arith]; exact hi), getR_getD (by rw [s.q_range]; exact hi),
    getR_getD (by rw [s.q_logic]; exact hi), getR_getD (by rw [s.q_fixed]; exact hi),
    getR_getD (by rw [s.q_var]; exact hi), getR_getD (by rw [s.q_hl]; exact hi),
    getR_getD (by rw [s.q_hr]; exact hi), getR_getD (by rw [s.q_h4]; exact hi), getR_getD hl,
    own_col (by rw [hw.w_l]; exact hi) .left rfl, own_col (by rw [hw.w_l]; exact hj) .left rfl,
    own_col (by rw [hw.w_r]; exact hi) .right rfl, own_col (by rw [hw.w_r]; exact hj) .right rfl,
    own_col (by rw [hw.w_o]; exact hi) .output rfl, own_col (by rw [hw.w_4]; exact hi) .fourth rfl,
    own_col (by rw [hw.w_4]; exact hj) .fourth rfl, hpi]
  simp only [ok_bind]
  -- the range part
  have hrange : (gateAt c i).range * (checkDelta (ownW c (.output i) - 4 * ownW c (.fourth i))
      + checkDelta (ownW c (.right i) - 4 * ownW c (.output i))
      + checkDelta (ownW c (.left i) - 4 * ownW c (.right i))
      + checkDelta (ownW c (.fourth ((i + 1) % c.n)) - 4 * ownW c (.left i))) = 0 := by
    by_cases hr : (gateAt c i).range = 0
    · rw [hr, zero_mul]
    · obtain ⟨-, q1, q2, q3, q4⟩ := hh.range hr
      unfold rowAt at q1 q2 q3 q4
      simp only at q1 q2 q3 q4
      rw [checkDelta_quad q1, checkDelta_quad q2, checkDelta_quad q3, checkDelta_quad q4]
      ring
  -- the logic part
  obtain ⟨bits, hbits, hlogic⟩ : ∃ bits, checkLogicBits R (gateAt c i).logic (ownW c (.left i))
        (ownW c (.right i)) (ownW c (.fourth i)) = .ok bits ∧
      (gateAt c i).logic * ((checkDelta (ownW c (.left ((i + 1) % c.n)) - 4 * ownW c (.left i))
        - checkDelta (ownW c (.right ((i + 1) % c.n)) - 4 * ownW c (.right i))) * ownW c (.output i)
        + checkDelta (ownW c (.left ((i + 1) % c.n)) - 4 * ownW c (.left i))
        + checkDelta (ownW c (.right ((i + 1) % c.n)) - 4 * ownW c (.right i))
        + checkDelta (ownW c (.fourth ((i + 1) % c.n)) - 4 * ownW c (.fourth i)) + bits) = 0 := by
    by_cases hr : (gateAt c i).logic = 0
    · refine ⟨0, ?_, by rw [hr, zero_mul]⟩
      unfold checkLogicBits
      rw [hr, decide_eq_false (by simp), decide_eq_false (by simp)]
    · obtain ⟨-, ⟨q1, q2, q3, -⟩, x, A, B, e, hA, hB, ea, eb, ed⟩ := hh.logic hr
      unfold rowAt at q1 q2 q3 ea eb ed
      simp only at q1 q2 q3 ea eb ed
      refine ⟨0, ?_, ?_⟩
      · rw [e, ea, eb, ed]
        exact checkLogicBits_ok hrep h2 hA hB
      · rw [checkDelta_quad q1, checkDelta_quad q2, checkDelta_quad q3]
        ring
  rw [show c.q_logic.getD i 0 = (gateAt c i).logic from rfl, hbits, ok_bind]
  refine ⟨?_, ?_⟩
  swap
  · unfold assertR
    split_ifs
    · exact Or.inl rfl
    · exact Or.inr rfl
  rw [assertR_iff]
  have hA : ∀ p q r : F, q = 0 → r = 0 → (p + q + r = 0 ↔ p = 0) := by
    intro p q r hq hr; rw [hq, hr, add_zero, add_zero]
  refine (hA _ _ _ hlogic hrange).trans ?_
  unfold ArithOk rowAt
  simp only
  rcases hh.arith with h0 | h1
  · have : c.q_arith.getD i 0 = 0 := h0
    rw [this, zero_mul]
    exact ⟨fun _ h => absurd h0 h, fun _ => rfl⟩
  · have : c.q_arith.getD i 0 = 1 := h1
    rw [this, h1]
    simp only [one_mul, ne_eq, one_ne_zero, not_false_eq_true, forall_const]
    constructor
    · intro h
      refine Eq.trans ?_ h
      simp only [gateAt]
      ring
    · intro h
      refine Eq.trans ?_ h
      simp only [gateAt]
      ring

theorem circuitBound_pow (c : Composer F) : 2 ^ Nat.log 2 (circuitBound c) = circuitBound c := by
  unfold circuitBound
  rw [Nat.log_pow (by norm_num)]

/-- The whole check. -/
theorem check_run {R : FieldRep F} {E : EdCurve F} {c : Composer F} (hrep : RepOk R)
    (h2 : (2 : F) ≠ 0) (h : Reach R E c) :
    (checkCircuitSatisfied R c = .ok () ↔ ∀ i < c.n, (gateAt c i).arith ≠ 0 →
      ArithOk (gateAt c i) (rowAt c.n (ownW c) i) (ownPub c i)) ∧
    (checkCircuitSatisfied R c = .ok () ∨ checkCircuitSatisfied R c = .error .panic) := by
  have hw := Reach.wf h
  have hc := hw.consistent
  obtain ⟨pis, e1, e2, e3⟩ := asEvals_run (circuitBound_pow c) h.sorted fun e he =>
    lt_of_lt_of_le (hc.declaredRow _ (hc.declared e he)) (bound_le c).1
  have key : checkCircuitSatisfied R c = (List.range c.n).forM (checkGate R c
      (c.w_l.map fun x => c.variables.getD x 0) (c.w_r.map fun x => c.variables.getD x 0)
      (c.w_o.map fun x => c.variables.getD x 0) (c.w_4.map fun x => c.variables.getD x 0) pis) := by
    unfold checkCircuitSatisfied
    rw [mapM_getR (hc.wires c.w_l (by simp)).2, mapM_getR (hc.wires c.w_r (by simp)).2,
      mapM_getR (hc.wires c.w_o (by simp)).2, mapM_getR (hc.wires c.w_4 (by simp)).2, e1]
    rfl
  have hrow : ∀ i < c.n, _ := fun i hi =>
    checkGate_run hrep h2 hw hi (reach_hon hrep h i hi)
      (by rw [e2]; exact lt_of_lt_of_le hi (bound_le c).1) (e3 i)
  refine ⟨?_, ?_⟩
  · rw [key, forM_ok]
    exact forall_congr' fun i => forall_congr' fun hi => (hrow i hi).1
  · rw [key]
    exact forM_panic fun i hi => (hrow i hi).2

/-- A range gate adds no other kind of row than range and arithmetic. -/
theorem rangeGate_kinds {R : FieldRep F} {c c' : Composer F} (hw : WF c) {x : Var} {numBits : ℕ}
    {u : Unit} (h : rangeGate R x numBits c = .ok (u, c')) (i : ℕ) (h1 : c.n ≤ i) (h2 : i < c'.n) :
    (gateAt c' i).fixed = 0 ∧ (gateAt c' i).var = 0 ∧ (gateAt c' i).lookup = 0 := by
  obtain ⟨-, -, -, -, g, pad, ys, c1, last, hpk, hpad, hyl, hR, hlast, hassert, -⟩ :=
    rangeGate_parts hw h
  have hlen : (List.replicate pad c.zero_var ++ ys).length = 4 * g + 1 := by
    simp only [List.length_append, List.length_replicate]; omega
  obtain ⟨hwE, hextE, hwire⟩ := rangeEnd_facts hw hR hlen
  have hn : (rangeEnd c1 g c.zero_var).n = c.n + (g + 1) := by
    show c1.n + (g + 1) = _
    rw [hR.n]
  have hsel : Lens c1 c.n := by
    rw [hR.eq]
    exact ⟨hw.sel.1, hw.sel.2, hw.sel.3, hw.sel.4, hw.sel.5, hw.sel.6, hw.sel.7, hw.sel.8,
      hw.sel.9, hw.sel.10, hw.sel.11, hw.sel.12, hw.sel.13, hw.sel.14, hw.sel.15⟩
  unfold assertEqual polyGate at hassert
  obtain ⟨z, d0, a0, hassert⟩ := bindC_ok.1 hassert
  obtain ⟨rfl, rfl⟩ := zeroVar_ok.1 a0
  obtain ⟨z, d0, a0, hassert⟩ := bindC_ok.1 hassert
  obtain ⟨rfl, rfl⟩ := zeroVar_ok.1 a0
  obtain ⟨-, hA⟩ := addedGate_fwd hwE (by simp [UsesNext, gate0]) hassert
  rcases Nat.lt_or_ge i (c.n + (g + 1)) with hlt | hge
  · rw [hA.ext.gate i (by rw [hn]; exact hlt), gateAt_rangeEnd hsel, if_neg (by omega)]
    split_ifs <;> exact ⟨rfl, rfl, rfl⟩
  · have : i = (rangeEnd c1 g c.zero_var).n := by rw [hA.n, hn] at h2; omega
    rw [this, hA.gate]
    exact ⟨rfl, rfl, rfl⟩

end VO.Plonk
