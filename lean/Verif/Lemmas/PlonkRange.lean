import Mathlib.Data.Nat.Bitwise
import Mathlib.Tactic.IntervalCases
import Verif.Lemmas.PlonkGadget3

/-
The range gate: laying accumulators over the wires, four to a row.
-/

set_option linter.unusedSectionVars false

namespace VO.Plonk

open VO.Spec.Plonk

variable {F : Type} [Field F] [DecidableEq F]

/-- Where the `j`-th accumulator goes, from row `n0` on. -/
def wpos (n0 j : ℕ) : WireData :=
  if j % 4 = 0 then .fourth (n0 + j / 4)
  else if j % 4 = 1 then .output (n0 + j / 4)
  else if j % 4 = 2 then .right (n0 + j / 4)
  else .left (n0 + j / 4)

/-- The composer while accumulators `xs` have been laid, starting from `c0`. -/
structure RInv (c0 : Composer F) (xs : List Var) (c : Composer F) : Prop where
  eq : c = { c0 with
    w_l := c.w_l, w_r := c.w_r, w_o := c.w_o, w_4 := c.w_4, «variables» := c.variables,
    perm := c.perm }
  l4 : c.w_4.length = c0.n + (xs.length + 3) / 4
  lo : c.w_o.length = c0.n + (xs.length + 2) / 4
  lr : c.w_r.length = c0.n + (xs.length + 1) / 4
  ll : c.w_l.length = c0.n + xs.length / 4
  vars : c0.variables <+: c.variables
  permLen : c.perm.length = c.variables.length
  wv : ∀ p x, wireVar c0 p = some x → wireVar c p = some x
  new : ∀ (j : ℕ) x, xs[j]? = some x → wireVar c (wpos c0.n j) = some x
  on : ∀ y q, OnWire c y q ↔ OnWire c0 y q ∨ ∃ j, xs[j]? = some y ∧ q = wpos c0.n j
  valid : ∀ p x, wireVar c p = some x → x < c.variables.length
  xsv : ∀ (j : ℕ) x, xs[j]? = some x → x < c.variables.length
  old : ∀ y q, OnWire c0 y q → q.row < c0.n
  nod : NodP c.perm

theorem RInv.n {c0 c : Composer F} {xs : List Var} (h : RInv c0 xs c) : c.n = c0.n := by
  rw [h.eq]

theorem RInv.zero {c0 c : Composer F} {xs : List Var} (h : RInv c0 xs c) :
    c.zero_var = c0.zero_var := by
  rw [h.eq]

theorem RInv.start {c0 : Composer F} (hw : WF c0) : RInv c0 [] c0 where
  eq := rfl
  l4 := by simp [hw.w_4]
  lo := by simp [hw.w_o]
  lr := by simp [hw.w_r]
  ll := by simp [hw.w_l]
  vars := List.prefix_refl _
  permLen := hw.permLen
  wv := fun _ _ h => h
  new := fun j x h => by simp at h
  on := fun y q => by simp
  valid := hw.valid
  xsv := fun j x h => by simp at h
  old := hw.rowLt
  nod := hw.nod

theorem RInv.input {c0 c : Composer F} {xs : List Var} (h : RInv c0 xs c) (s : F) :
    ∃ c', addInput s c = .ok (c.variables.length, c') ∧ RInv c0 xs c' ∧
      c'.variables = c.variables ++ [s] := by
  refine ⟨{ c with perm := c.perm ++ [[]], «variables» := c.variables ++ [s] }, ?_, ?_, rfl⟩
  · unfold addInput
    rw [h.permLen]
  refine ⟨?_, h.l4, h.lo, h.lr, h.ll, h.vars.trans (List.prefix_append _ _), ?_, h.wv, h.new, ?_,
    ?_, ?_, h.old, h.nod.input⟩
  · conv_lhs => rw [h.eq]
  · simp [h.permLen]
  · intro y q
    rw [← h.on]
    exact onP_append_nil y q
  · intro p x hp
    have := h.valid p x hp
    simp only [List.length_append, List.length_singleton]
    omega
  · intro j x hx
    have := h.xsv j x hx
    simp only [List.length_append, List.length_singleton]
    omega

theorem getElem?_snoc {α : Type} {l : List α} {x y : α} {i : ℕ}
    (h : (l ++ [x])[i]? = some y) : l[i]? = some y ∨ (i = l.length ∧ y = x) := by
  rw [List.getElem?_append] at h
  split at h
  · exact Or.inl h
  · right
    rw [List.getElem?_singleton] at h
    split at h
    · next h1 h2 =>
      refine ⟨by omega, ?_⟩
      simpa [eq_comm] using h
    · cases h

theorem RInv.wire {c0 c : Composer F} {xs : List Var} (h : RInv c0 xs c) {x : Var}
    (hx : x < c.variables.length) :
    ∃ c', addWire xs.length x c = .ok ((), c') ∧ RInv c0 (xs ++ [x]) c' ∧
      c'.variables = c.variables := by
  have hxp : x < c.perm.length := by rw [h.permLen]; exact hx
  have hon : ∀ y q, OnP (permAdd c.perm x (wpos c0.n xs.length)) y q ↔
      OnWire c0 y q ∨ ∃ j, (xs ++ [x])[j]? = some y ∧ q = wpos c0.n j := by
    intro y q
    rw [onP_permAdd hxp, ← onWire_iff c, h.on]
    constructor
    · rintro ((h1 | ⟨j, h1, h2⟩) | ⟨h1, h2⟩)
      · exact Or.inl h1
      · exact Or.inr ⟨j, getElem?_append_some h1, h2⟩
      · subst h1
        exact Or.inr ⟨xs.length, by simp, h2⟩
    · rintro (h1 | ⟨j, h1, h2⟩)
      · exact Or.inl (Or.inl h1)
      · rcases getElem?_snoc h1 with h3 | ⟨h3, h4⟩
        · exact Or.inl (Or.inr ⟨j, h3, h2⟩)
        · rw [h3] at h2
          exact Or.inr ⟨h4, h2⟩
  have hnod : NodP (permAdd c.perm x (wpos c0.n xs.length)) := by
    refine h.nod.add ?_
    rw [← onWire_iff c, h.on]
    rintro (h1 | ⟨j, h1, h2⟩)
    · have := h.old _ _ h1
      revert this
      unfold wpos
      split_ifs <;> simp [WireData.row]
    · have hj := (List.getElem?_eq_some_iff.1 h1).1
      revert h2
      unfold wpos
      split_ifs <;> simp only [reduceCtorEq, false_imp_iff, WireData.left.injEq,
        WireData.right.injEq, WireData.output.injEq, WireData.fourth.injEq] <;> omega
  have hxsv : ∀ (j : ℕ) y, (xs ++ [x])[j]? = some y → y < c.variables.length := by
    intro j y hy
    rcases getElem?_snoc hy with h3 | ⟨-, h4⟩
    · exact h.xsv j y h3
    · omega
  have hn := h.n
  have hcase : xs.length % 4 = 0 ∨ xs.length % 4 = 1 ∨ xs.length % 4 = 2 ∨ xs.length % 4 = 3 := by
    omega
  -- the four columns
  have fin : ∀ c' : Composer F, c' = { c with
        w_l := c'.w_l, w_r := c'.w_r, w_o := c'.w_o, w_4 := c'.w_4, perm := c'.perm } →
      c'.perm = permAdd c.perm x (wpos c0.n xs.length) →
      (∀ p y, wireVar c p = some y → wireVar c' p = some y) →
      wireVar c' (wpos c0.n xs.length) = some x →
      (∀ p y, wireVar c' p = some y → wireVar c p = some y ∨ y = x) →
      c'.w_4.length = c0.n + ((xs ++ [x]).length + 3) / 4 →
      c'.w_o.length = c0.n + ((xs ++ [x]).length + 2) / 4 →
      c'.w_r.length = c0.n + ((xs ++ [x]).length + 1) / 4 →
      c'.w_l.length = c0.n + (xs ++ [x]).length / 4 →
      RInv c0 (xs ++ [x]) c' ∧ c'.variables = c.variables := by
    intro c' e1 e2 e3 e4 e5 e6 e7 e8 e9
    have ev : c'.variables = c.variables := by rw [e1]
    refine ⟨⟨?_, e6, e7, e8, e9, ?_, ?_, ?_, ?_, ?_, ?_, ?_, h.old, e2 ▸ hnod⟩, ev⟩
    · conv_lhs => rw [e1, h.eq]
      rw [ev]
    · rw [ev]; exact h.vars
    · rw [e2, ev, permAdd_length, h.permLen]
    · intro p y hy
      exact e3 p y (h.wv p y hy)
    · intro j y hy
      rcases getElem?_snoc hy with h3 | ⟨h3, h4⟩
      · exact e3 _ _ (h.new j y h3)
      · rw [h3, h4]; exact e4
    · intro y q
      rw [onWire_iff, e2]
      exact hon y q
    · intro p y hy
      rw [ev]
      rcases e5 p y hy with h3 | h3
      · exact h.valid p y h3
      · omega
    · rw [ev]; exact hxsv
  have hend : ∀ {l : List ℕ} {k : ℕ}, l.length = k → (l ++ [x])[k]? = some x := by
    intro l k hk
    rw [← hk]; simp
  have hback : ∀ {l : List ℕ} {i y : ℕ}, (l ++ [x])[i]? = some y → l[i]? = some y ∨ y = x := by
    intro l i y hy
    rcases getElem?_snoc hy with h3 | ⟨-, h4⟩
    · exact Or.inl h3
    · exact Or.inr h4
  rcases hcase with hm | hm | hm | hm
  · have hp : wpos c0.n xs.length = .fourth (c0.n + xs.length / 4) := by simp [wpos, hm]
    refine ⟨{ c with w_4 := c.w_4 ++ [x], perm := permAdd c.perm x (wpos c0.n xs.length) }, ?_,
      fin _ rfl rfl ?_ ?_ ?_ ?_ ?_ ?_ ?_⟩
    · unfold addWire
      refine bindC_ok.2 ⟨c.n, c, rfl, ?_⟩
      rw [if_pos hm]
      refine bindC_ok.2 ⟨(), _, rfl, ?_⟩
      rw [hp, ← hn]
      exact addVariableToMap_run hxp
    · intro p y hy; cases p <;> first | exact hy | exact getElem?_append_some hy
    · rw [hp]
      exact hend (by rw [h.l4]; omega)
    · intro p y hy
      cases p <;> first | exact Or.inl hy | exact hback hy
    · simp only [List.length_append, List.length_singleton, h.l4]; omega
    · simp only [List.length_append, List.length_singleton, h.lo]; omega
    · simp only [List.length_append, List.length_singleton, h.lr]; omega
    · simp only [List.length_append, List.length_singleton, h.ll]; omega
  · have hp : wpos c0.n xs.length = .output (c0.n + xs.length / 4) := by simp [wpos, hm]
    refine ⟨{ c with w_o := c.w_o ++ [x], perm := permAdd c.perm x (wpos c0.n xs.length) }, ?_,
      fin _ rfl rfl ?_ ?_ ?_ ?_ ?_ ?_ ?_⟩
    · unfold addWire
      refine bindC_ok.2 ⟨c.n, c, rfl, ?_⟩
      rw [if_neg (by omega), if_pos hm]
      refine bindC_ok.2 ⟨(), _, rfl, ?_⟩
      rw [hp, ← hn]
      exact addVariableToMap_run hxp
    · intro p y hy; cases p <;> first | exact hy | exact getElem?_append_some hy
    · rw [hp]
      exact hend (by rw [h.lo]; omega)
    · intro p y hy
      cases p <;> first | exact Or.inl hy | exact hback hy
    · simp only [List.length_append, List.length_singleton, h.l4]; omega
    · simp only [List.length_append, List.length_singleton, h.lo]; omega
    · simp only [List.length_append, List.length_singleton, h.lr]; omega
    · simp only [List.length_append, List.length_singleton, h.ll]; omega
  · have hp : wpos c0.n xs.length = .right (c0.n + xs.length / 4) := by simp [wpos, hm]
    refine ⟨{ c with w_r := c.w_r ++ [x], perm := permAdd c.perm x (wpos c0.n xs.length) }, ?_,
      fin _ rfl rfl ?_ ?_ ?_ ?_ ?_ ?_ ?_⟩
    · unfold addWire
      refine bindC_ok.2 ⟨c.n, c, rfl, ?_⟩
      rw [if_neg (by omega), if_neg (by omega), if_pos hm]
      refine bindC_ok.2 ⟨(), _, rfl, ?_⟩
      rw [hp, ← hn]
      exact addVariableToMap_run hxp
    · intro p y hy; cases p <;> first | exact hy | exact getElem?_append_some hy
    · rw [hp]
      exact hend (by rw [h.lr]; omega)
    · intro p y hy
      cases p <;> first | exact Or.inl hy | exact hback hy
    · simp only [List.length_append, List.length_singleton, h.l4]; omega
    · simp only [List.length_append, List.length_singleton, h.lo]; omega
    · simp only [List.length_append, List.length_singleton, h.lr]; omega
    · simp only [List.length_append, List.length_singleton, h.ll]; omega
  · have hp : wpos c0.n xs.length = .left (c0.n + xs.length / 4) := by simp [wpos, hm]
    refine ⟨{ c with w_l := c.w_l ++ [x], perm := permAdd c.perm x (wpos c0.n xs.length) }, ?_,
      fin _ rfl rfl ?_ ?_ ?_ ?_ ?_ ?_ ?_⟩
    · unfold addWire
      refine bindC_ok.2 ⟨c.n, c, rfl, ?_⟩
      rw [if_neg (by omega), if_neg (by omega), if_neg (by omega)]
      refine bindC_ok.2 ⟨(), _, rfl, ?_⟩
      rw [hp, ← hn]
      exact addVariableToMap_run hxp
    · intro p y hy; cases p <;> first | exact hy | exact getElem?_append_some hy
    · rw [hp]
      exact hend h.ll
    · intro p y hy
      cases p <;> first | exact Or.inl hy | exact hback hy
    · simp only [List.length_append, List.length_singleton, h.l4]; omega
    · simp only [List.length_append, List.length_singleton, h.lo]; omega
    · simp only [List.length_append, List.length_singleton, h.lr]; omega
    · simp only [List.length_append, List.length_singleton, h.ll]; omega

theorem RInv.pad {c0 : Composer F} {z : Var} (k : ℕ) :
    ∀ {c : Composer F} {xs : List Var} (_ : RInv c0 xs c) (_ : z < c.variables.length),
    ∃ c', padLoop z xs.length k c = .ok ((), c') ∧ RInv c0 (xs ++ List.replicate k z) c' ∧
      c'.variables = c.variables := by
  induction k with
  | zero =>
    intro c xs h hz
    exact ⟨c, rfl, by simpa using h, rfl⟩
  | succ k ih =>
    intro c xs h hz
    obtain ⟨c1, h1, h2, h3⟩ := h.wire hz
    obtain ⟨c2, h4, h5, h6⟩ := ih h2 (by rw [h3]; exact hz)
    refine ⟨c2, bindC_ok.2 ⟨_, _, h1, ?_⟩, ?_, h6.trans h3⟩
    · simpa using h4
    · rw [List.replicate_succ]
      simpa using h5

/-- The quad the loop reads. -/
theorem quad_eq (m q : ℕ) :
    (m.testBit (2 * q)).toNat + 2 * (m.testBit (2 * q + 1)).toNat = m / 4 ^ q % 4 := by
  rw [Nat.toNat_testBit, Nat.toNat_testBit, pow_succ, ← Nat.div_div_eq_div_mul,
    show (4 : ℕ) ^ q = 2 ^ (2 * q) by rw [pow_mul]; norm_num]
  omega

theorem isQuad_nat {n : ℕ} (h : n < 4) : IsQuad ((n : ℕ) : F) := by
  unfold IsQuad
  interval_cases n <;> simp

theorem isQuad_iff {x : F} : IsQuad x ↔ ∃ n < 4, x = ((n : ℕ) : F) := by
  constructor
  · rintro (h | h | h | h)
    · exact ⟨0, by norm_num, by simp [h]⟩
    · exact ⟨1, by norm_num, by simp [h]⟩
    · exact ⟨2, by norm_num, by simp [h]⟩
    · exact ⟨3, by norm_num, by simp [h]⟩
  · rintro ⟨n, h, rfl⟩
    exact isQuad_nat h

/-- The accumulator loop, on the bits of a number `m`. -/
theorem RInv.acc {c0 : Composer F} {bits : List Bool} {numQuads : ℕ} (k : ℕ) :
    ∀ {c : Composer F} {xs : List Var} {acc : F} (_ : RInv c0 xs c)
      (_ : xs.length + k = numQuads + 1) (_ : 2 * (numQuads - xs.length) + 1 < bits.length),
    ∃ ys c', accLoop bits numQuads xs.length k acc c = .ok (ys, c') ∧
      RInv c0 (xs ++ ys) c' ∧ ys.length = k ∧ c.variables <+: c'.variables ∧
      ∀ m : ℕ, (∀ i < 2 * (numQuads + 1 - xs.length), bits[i]? = some (m.testBit i)) →
        acc = ((m / 4 ^ (numQuads + 1 - xs.length) : ℕ) : F) →
        ∀ (j : ℕ) x, ys[j]? = some x →
          c'.variables[x]? = some ((m / 4 ^ (numQuads - (xs.length + j)) : ℕ) : F) := by
  induction k with
  | zero =>
    intro c xs acc h _ _
    exact ⟨[], c, rfl, by simpa using h, rfl, List.prefix_refl _, fun m _ _ j x hx => by simp at hx⟩
  | succ k ih =>
    intro c xs acc h hlen hb
    have hq : numQuads - xs.length = numQuads - xs.length := rfl
    obtain ⟨b0, hb0⟩ : ∃ b, bits[(numQuads - xs.length) * 2]? = some b :=
      ⟨_, List.getElem?_eq_getElem (by omega)⟩
    obtain ⟨b1, hb1⟩ : ∃ b, bits[(numQuads - xs.length) * 2 + 1]? = some b :=
      ⟨_, List.getElem?_eq_getElem (by omega)⟩
    obtain ⟨c1, e1, r1, v1⟩ := h.input (4 * acc + ((b0.toNat + 2 * b1.toNat : ℕ) : F))
    have hx1 : c.variables.length < c1.variables.length := by rw [v1]; simp
    obtain ⟨c2, e2, r2, v2⟩ := r1.wire hx1
    obtain ⟨ys, c3, e3, r3, hl, hv, hval⟩ :=
      ih (acc := 4 * acc + ((b0.toNat + 2 * b1.toNat : ℕ) : F)) r2
        (by simp only [List.length_append, List.length_singleton]; omega)
        (by simp only [List.length_append, List.length_singleton]; omega)
    refine ⟨c.variables.length :: ys, c3, ?_, ?_, by simp [hl], ?_, ?_⟩
    · unfold accLoop
      simp only [hb0, hb1]
      refine bindC_ok.2 ⟨_, _, e1, bindC_ok.2 ⟨_, _, e2, bindC_ok.2 ⟨_, _, ?_, rfl⟩⟩⟩
      simpa using e3
    · simpa using r3
    · have : c.variables <+: c1.variables := by rw [v1]; exact List.prefix_append _ _
      rw [← v2] at this
      exact this.trans hv
    · intro m hm hacc
      have hlen' : xs.length ≤ numQuads := by omega
      have hq0 : b0 = m.testBit (2 * (numQuads - xs.length)) := by
        have := hm ((numQuads - xs.length) * 2) (by omega)
        rw [hb0] at this
        rw [mul_comm]
        simpa using this
      have hq1 : b1 = m.testBit (2 * (numQuads - xs.length) + 1) := by
        have := hm ((numQuads - xs.length) * 2 + 1) (by omega)
        rw [hb1] at this
        rw [mul_comm 2]
        simpa using this
      have hnew : 4 * acc + ((b0.toNat + 2 * b1.toNat : ℕ) : F)
          = ((m / 4 ^ (numQuads - xs.length) : ℕ) : F) := by
        rw [hacc, hq0, hq1, quad_eq]
        have e : numQuads + 1 - xs.length = (numQuads - xs.length) + 1 := by omega
        rw [e, pow_succ, ← Nat.div_div_eq_div_mul]
        have := Nat.div_add_mod (m / 4 ^ (numQuads - xs.length)) 4
        conv_rhs => rw [← this]
        push_cast
        ring
      have hrec := hval m (fun i hi => hm i (by
        simp only [List.length_append, List.length_singleton] at hi; omega)) (by
        rw [hnew]
        simp only [List.length_append, List.length_singleton]
        congr 3
        omega)
      intro j x hx
      cases j with
      | zero =>
        simp only [List.getElem?_cons_zero, Option.some.injEq] at hx
        subst hx
        obtain ⟨t, ht⟩ := hv
        rw [← ht, v2, v1]
        rw [List.getElem?_append_left (by simp), List.getElem?_append_right (le_refl _),
          Nat.sub_self, List.getElem?_cons_zero, hnew, add_zero]
      | succ j =>
        have hx' : ys[j]? = some x := by simpa using hx
        have := hrec j x hx'
        rw [this]
        simp only [List.length_append, List.length_singleton]
        congr 4
        omega

theorem accLoop_bits {bits : List Bool} {numQuads i k : ℕ} {acc : F} {c c' : Composer F}
    {ys : List Var} (h : accLoop bits numQuads i (k + 1) acc c = .ok (ys, c')) :
    2 * (numQuads - i) + 1 < bits.length := by
  unfold accLoop at h
  simp only at h
  cases h0 : bits[(numQuads - i) * 2]? with
  | none => rw [h0] at h; exact (panicC_ok.1 h).elim
  | some b0 =>
    cases h1 : bits[(numQuads - i) * 2 + 1]? with
    | none => rw [h0, h1] at h; exact (panicC_ok.1 h).elim
    | some b1 =>
      have := (List.getElem?_eq_some_iff.1 h1).1
      omega

/-- The composer after the range rows are closed. -/
def rangeEnd (c : Composer F) (g : ℕ) (z : Var) : Composer F :=
  { c with
    n := c.n + (g + 1)
    w_l := c.w_l ++ [z], w_r := c.w_r ++ [z], w_o := c.w_o ++ [z]
    q_m := c.q_m ++ List.replicate (g + 1) 0, q_l := c.q_l ++ List.replicate (g + 1) 0
    q_r := c.q_r ++ List.replicate (g + 1) 0, q_o := c.q_o ++ List.replicate (g + 1) 0
    q_4 := c.q_4 ++ List.replicate (g + 1) 0, q_c := c.q_c ++ List.replicate (g + 1) 0
    q_hl := c.q_hl ++ List.replicate (g + 1) 0, q_hr := c.q_hr ++ List.replicate (g + 1) 0
    q_h4 := c.q_h4 ++ List.replicate (g + 1) 0, q_arith := c.q_arith ++ List.replicate (g + 1) 0
    q_range := c.q_range ++ List.replicate g 1 ++ [0]
    q_logic := c.q_logic ++ List.replicate (g + 1) 0
    q_fixed_group_add := c.q_fixed_group_add ++ List.replicate (g + 1) 0
    q_variable_group_add := c.q_variable_group_add ++ List.replicate (g + 1) 0
    q_lookup := c.q_lookup ++ List.replicate (g + 1) 0 }

theorem rangeEnd_run (c : Composer F) (g : ℕ) (z : Var) :
    (do extendRangeSelectors (g + 1); bump (g + 1); clearLastRange; pushL z; pushR z; pushO z :
      CM F Unit) c = .ok ((), rangeEnd c g z) := by
  refine bindC_ok.2 ⟨(), _, rfl, bindC_ok.2 ⟨(), _, rfl, bindC_ok.2 ⟨(),
    { rangeEnd c g z with w_l := c.w_l, w_r := c.w_r, w_o := c.w_o }, ?_, bindC_ok.2
    ⟨(), _, rfl, bindC_ok.2 ⟨(), _, rfl, ?_⟩⟩⟩⟩⟩
  · unfold clearLastRange
    rw [if_neg (by simp)]
    simp only [List.replicate_succ' (n := g) (a := (1 : F)), ← List.append_assoc,
      List.dropLast_concat]
    rfl
  · rfl

theorem getD_append_zeros {l : List F} {k i : ℕ} :
    (l ++ List.replicate k (0 : F)).getD i 0 = l.getD i 0 := by
  simp only [List.getD_eq_getElem?_getD, List.getElem?_append]
  split
  · rfl
  · next h =>
    rw [List.getElem?_eq_none (l := l) (by omega)]
    rw [List.getElem?_replicate]
    split <;> rfl

theorem gateAt_rangeEnd {c : Composer F} {z : Var} {g n0 i : ℕ} (hl : Lens c n0) :
    gateAt (rangeEnd c g z) i =
      if i < n0 then gateAt c i
      else if i < n0 + g then { (gate0 : Gate F) with range := 1 } else gate0 := by
  have hz : ∀ l : List F, l.length = n0 → ¬ i < n0 → l.getD i 0 = 0 := by
    intro l h hi
    rw [List.getD_eq_getElem?_getD, List.getElem?_eq_none (by omega)]
    rfl
  have hr : (c.q_range ++ List.replicate g (1 : F) ++ [0]).getD i 0 =
      if i < n0 then c.q_range.getD i 0 else if i < n0 + g then 1 else 0 := by
    have := hl.q_range
    simp only [List.getD_eq_getElem?_getD, List.append_assoc, List.getElem?_append,
      List.length_replicate, hl.q_range]
    split
    · rfl
    · split
      · next h1 h2 =>
        rw [if_pos (by omega), List.getElem?_replicate, if_pos h2]
        rfl
      · next h1 h2 =>
        rw [if_neg (by omega)]
        rw [List.getElem?_singleton]
        split <;> rfl
  unfold gateAt rangeEnd
  simp only [getD_append_zeros, hr]
  split
  · rfl
  · next hi =>
    rw [hz _ hl.q_m hi, hz _ hl.q_l hi, hz _ hl.q_r hi, hz _ hl.q_o hi, hz _ hl.q_4 hi,
      hz _ hl.q_c hi, hz _ hl.q_hl hi, hz _ hl.q_hr hi, hz _ hl.q_h4 hi, hz _ hl.q_arith hi,
      hz _ hl.q_logic hi, hz _ hl.q_fixed hi, hz _ hl.q_var hi, hz _ hl.q_lookup hi]
    split <;> rfl

/-- The rows laid by the loops, closed. -/
theorem rangeEnd_facts {c0 c : Composer F} (hw : WF c0) {xs : List Var} (h : RInv c0 xs c) {g : ℕ}
    (hlen : xs.length = 4 * g + 1) :
    WF (rangeEnd c g c0.zero_var) ∧ Ext c0 (rangeEnd c g c0.zero_var) ∧
    (∀ (j : ℕ) x, xs[j]? = some x → OnWire (rangeEnd c g c0.zero_var) x (wpos c0.n j)) := by
  have hsel : Lens c c0.n := by
    rw [h.eq]
    exact ⟨hw.sel.1, hw.sel.2, hw.sel.3, hw.sel.4, hw.sel.5, hw.sel.6, hw.sel.7, hw.sel.8,
      hw.sel.9, hw.sel.10, hw.sel.11, hw.sel.12, hw.sel.13, hw.sel.14, hw.sel.15⟩
  have hg0 : ∀ i, gateAt c i = gateAt c0 i := by intro i; rw [h.eq]; rfl
  have hint : c.intended_pi_pos = c0.intended_pi_pos := by rw [h.eq]
  have hpis : c.public_inputs = c0.public_inputs := by rw [h.eq]
  have hn := h.n
  have hzl : c0.zero_var < c.variables.length := lt_of_lt_of_le hw.zero h.vars.length_le
  have hwv : ∀ p x, wireVar c p = some x → wireVar (rangeEnd c g c0.zero_var) p = some x := by
    intro p x hp
    cases p <;> first | exact hp | exact getElem?_append_some hp
  have hext : Ext c0 (rangeEnd c g c0.zero_var) := by
    refine ⟨?_, ?_, ?_, ?_, ?_, h.vars, ?_, ?_, ?_, ?_, ?_⟩
    · show c0.n ≤ c.n + (g + 1)
      omega
    · intro i hi
      rw [gateAt_rangeEnd hsel, if_pos hi, hg0]
    · show c.zero_var = c0.zero_var
      exact h.zero
    · intro x p hp
      exact (h.on x p).2 (Or.inl hp)
    · intro p x hp
      exact hwv p x (h.wv p x hp)
    · show c0.perm.length ≤ c.perm.length
      rw [h.permLen, hw.permLen]
      exact h.vars.length_le
    · intro t ht
      show t ∈ c.lookup_table
      rw [h.eq]; exact ht
    · intro i _
      show i ∈ c.intended_pi_pos ↔ _
      rw [hint]
    · intro i _
      show pubOf c.public_inputs i = pubOf c0.public_inputs i
      rw [hpis]
    · intro x p hp
      rcases (h.on x p).1 hp with h1 | ⟨j, -, rfl⟩
      · exact Or.inl h1
      · right
        unfold wpos
        split_ifs <;> simp [WireData.row]
  refine ⟨?_, hext, fun j x hx => (h.on x _).2 (Or.inr ⟨j, hx, rfl⟩)⟩
  refine ⟨?_, ?_, ?_, ?_, ?_, h.permLen, ?_, ?_, ?_, ?_, ?_, ?_, ?_, h.nod⟩
  · constructor <;> simp [rangeEnd, hsel.1, hsel.2, hsel.3, hsel.4, hsel.5, hsel.6, hsel.7,
      hsel.8, hsel.9, hsel.10, hsel.11, hsel.12, hsel.13, hsel.14, hsel.15, hn, add_assoc]
  · simp only [rangeEnd, List.length_append, List.length_singleton, h.ll, hlen, hn]; omega
  · simp only [rangeEnd, List.length_append, List.length_singleton, h.lr, hlen, hn]; omega
  · simp only [rangeEnd, List.length_append, List.length_singleton, h.lo, hlen, hn]; omega
  · simp only [rangeEnd, h.l4, hlen, hn]; omega
  · show c.zero_var < c.variables.length
    rw [h.zero]; exact hzl
  · intro x p hp
    apply hwv
    rcases (h.on x p).1 hp with h1 | ⟨j, h1, rfl⟩
    · exact h.wv p x (hw.agree x p h1)
    · exact h.new j x h1
  · intro p x hp
    show x < c.variables.length
    cases p with
    | left i => rcases getElem?_snoc hp with h1 | ⟨-, h1⟩; exacts [h.valid (.left i) x h1, by omega]
    | right i =>
      rcases getElem?_snoc hp with h1 | ⟨-, h1⟩; exacts [h.valid (.right i) x h1, by omega]
    | output i =>
      rcases getElem?_snoc hp with h1 | ⟨-, h1⟩; exacts [h.valid (.output i) x h1, by omega]
    | fourth i => exact h.valid (.fourth i) x hp
  · intro i hi
    have hi' : i ∈ c0.intended_pi_pos := by rw [← hint]; exact hi
    have := hw.int i hi'
    show i < c.n + (g + 1)
    omega
  · intro e he
    show e.1 ∈ c.intended_pi_pos
    rw [hint]
    exact hw.pis e (by rw [← hpis]; exact he)
  · intro i hi
    have hi' : i = c0.n + g := by
      have : i + 1 = c.n + (g + 1) := hi
      omega
    rw [gateAt_rangeEnd hsel, if_neg (by omega), if_neg (by omega)]
    exact not_usesNext_arith _ _ _ _ _ _ _ _ _ _ _
  · intro E T N pub w v hs
    have hz : (rangeEnd c g c0.zero_var).zero_var = c0.zero_var := h.zero
    rw [hz]
    exact hw.zeroSound E T N pub w v (hext.sat hs)

end VO.Plonk
