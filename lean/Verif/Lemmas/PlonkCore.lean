import Mathlib.Data.List.Basic
import Mathlib.Tactic.Ring
import Mathlib.Tactic.LinearCombination
import Verif.Spec.Plonk

/-
Bookkeeping of the composer: what one gate adds, and what survives adding gates.
-/

set_option linter.unusedSectionVars false

namespace VO.Plonk

open VO.Spec.Plonk

section Monad
variable {F α β : Type}

theorem bindC_ok {x : CM F α} {f : α → CM F β} {c c' : Composer F} {b : β} :
    (x >>= f) c = .ok (b, c') ↔ ∃ a c1, x c = .ok (a, c1) ∧ f a c1 = .ok (b, c') := by
  simp only [bind, StateT.bind, Except.bind]
  cases h : x c with
  | error e => simp
  | ok p => obtain ⟨a, s⟩ := p; simp

theorem pureC_ok {a b : α} {c c' : Composer F} :
    (pure a : CM F α) c = .ok (b, c') ↔ b = a ∧ c = c' := by
  show (Except.ok (a, c) : Except Err _) = _ ↔ _
  simp [eq_comm (a := b)]

theorem panicC_ok {b : α} {c c' : Composer F} : (panicC : CM F α) c = .ok (b, c') ↔ False := by
  simp [panicC]

theorem assertC_ok {p : Prop} [Decidable p] {u : Unit} {c c' : Composer F} :
    (assertC p : CM F Unit) c = .ok (u, c') ↔ p ∧ c = c' := by
  unfold assertC
  split <;> simp_all

theorem valueOfVar_ok {x : Var} {s : F} {c c' : Composer F} :
    valueOfVar x c = .ok (s, c') ↔ c.variables[x]? = some s ∧ c = c' := by
  unfold valueOfVar
  cases h : c.variables[x]? <;> simp

theorem zeroVar_ok {x : Var} {c c' : Composer F} :
    (zeroVar : CM F Var) c = .ok (x, c') ↔ x = c.zero_var ∧ c = c' := by
  simp [zeroVar, eq_comm (a := x)]

theorem gateCount_ok {x : Nat} {c c' : Composer F} :
    (gateCount : CM F Nat) c = .ok (x, c') ↔ x = c.n ∧ c = c' := by
  simp [gateCount, eq_comm (a := x)]

end Monad

variable {F : Type} [Field F] [DecidableEq F]

/-- The row number of a position. -/
def WireData.row : WireData → ℕ
  | .left i => i
  | .right i => i
  | .output i => i
  | .fourth i => i

/-- `c'` continues `c`: nothing of `c` is lost or changed. -/
structure Ext (c c' : Composer F) : Prop where
  n : c.n ≤ c'.n
  gate : ∀ i < c.n, gateAt c' i = gateAt c i
  zero : c'.zero_var = c.zero_var
  wire : ∀ x p, OnWire c x p → OnWire c' x p
  wv : ∀ p x, wireVar c p = some x → wireVar c' p = some x
  vars : c.variables <+: c'.variables
  plen : c.perm.length ≤ c'.perm.length
  tab : ∀ t ∈ c.lookup_table, t ∈ c'.lookup_table
  int : ∀ i < c.n, (i ∈ c'.intended_pi_pos ↔ i ∈ c.intended_pi_pos)
  pub : ∀ i < c.n, ownPub c' i = ownPub c i
  back : ∀ x p, OnWire c' x p → OnWire c x p ∨ c.n ≤ p.row

theorem Ext.refl (c : Composer F) : Ext c c :=
  ⟨le_refl _, fun _ _ => rfl, rfl, fun _ _ h => h, fun _ _ h => h, List.prefix_refl _, le_refl _,
   fun _ h => h, fun _ _ => Iff.rfl, fun _ _ => rfl, fun _ _ h => Or.inl h⟩

theorem Ext.trans {c c1 c2 : Composer F} (h1 : Ext c c1) (h2 : Ext c1 c2) : Ext c c2 where
  n := h1.n.trans h2.n
  gate i hi := (h2.gate i (hi.trans_le h1.n)).trans (h1.gate i hi)
  zero := h2.zero.trans h1.zero
  wire x p h := h2.wire x p (h1.wire x p h)
  wv p x h := h2.wv p x (h1.wv p x h)
  vars := h1.vars.trans h2.vars
  plen := h1.plen.trans h2.plen
  tab t h := h2.tab t (h1.tab t h)
  int i hi := (h2.int i (hi.trans_le h1.n)).trans (h1.int i hi)
  pub i hi := (h2.pub i (hi.trans_le h1.n)).trans (h1.pub i hi)
  back x p h := by
    rcases h2.back x p h with h | h
    · exact h1.back x p h
    · exact Or.inr (h1.n.trans h)

theorem Ext.sat {c c' : Composer F} (h : Ext c c') {E : EdCurve F} {T : List (F × F × F × F)}
    {N : ℕ} {pub : ℕ → F} {w : WireData → F} {v : Var → F} (hs : Sat E T N c' pub w v) :
    Sat E T N c pub w v where
  fits := h.n.trans hs.fits
  pubZero i hi hn := hs.pubZero i (hi.trans_le h.n) (fun hm => hn ((h.int i hi).1 hm))
  rows i hi := by
    have := hs.rows i (hi.trans_le h.n)
    rwa [h.gate i hi] at this
  copy x p hp := hs.copy x p (h.wire x p hp)

theorem Ext.var {c c' : Composer F} (h : Ext c c') {x : Var} {s : F}
    (hx : c.variables[x]? = some s) : c'.variables[x]? = some s := by
  obtain ⟨t, ht⟩ := h.vars
  rw [← ht, List.getElem?_append_left (List.getElem?_eq_some_iff.1 hx).1]
  exact hx

theorem Ext.ownV {c c' : Composer F} (h : Ext c c') {x : Var} (hx : x < c.variables.length) :
    ownV c' x = ownV c x := by
  have h1 : c.variables[x]? = some c.variables[x] := List.getElem?_eq_getElem hx
  have h2 := h.var h1
  simp only [Spec.Plonk.ownV, List.getD_eq_getElem?_getD]
  rw [h1, h2]

/-- The gate reads the next row. -/
def UsesNext (g : Gate F) : Prop := g.range ≠ 0 ∨ g.logic ≠ 0 ∨ g.fixed ≠ 0 ∨ g.var ≠ 0

/-- The lengths of the nineteen vectors. -/
structure Lens (c : Composer F) (k : ℕ) : Prop where
  q_m : c.q_m.length = k
  q_l : c.q_l.length = k
  q_r : c.q_r.length = k
  q_o : c.q_o.length = k
  q_4 : c.q_4.length = k
  q_c : c.q_c.length = k
  q_hl : c.q_hl.length = k
  q_hr : c.q_hr.length = k
  q_h4 : c.q_h4.length = k
  q_arith : c.q_arith.length = k
  q_range : c.q_range.length = k
  q_logic : c.q_logic.length = k
  q_fixed : c.q_fixed_group_add.length = k
  q_var : c.q_variable_group_add.length = k
  q_lookup : c.q_lookup.length = k

/-- No position is listed twice under a variable. -/
def NodP (perm : List (List WireData)) : Prop :=
  ∀ (x : ℕ) (ws : List WireData), perm[x]? = some ws → ws.Nodup

/-- The composer between two calls of its public methods. -/
structure WF (c : Composer F) : Prop where
  sel : Lens c c.n
  w_l : c.w_l.length = c.n
  w_r : c.w_r.length = c.n
  w_o : c.w_o.length = c.n
  w_4 : c.w_4.length = c.n
  permLen : c.perm.length = c.variables.length
  zero : c.zero_var < c.variables.length
  agree : ∀ x p, OnWire c x p → wireVar c p = some x
  valid : ∀ p x, wireVar c p = some x → x < c.variables.length
  int : ∀ i ∈ c.intended_pi_pos, i < c.n
  pis : ∀ e ∈ c.public_inputs, e.1 ∈ c.intended_pi_pos
  lastFree : ∀ i, i + 1 = c.n → ¬ UsesNext (gateAt c i)
  zeroSound : ∀ E T N pub w v, Sat E T N c pub w v → v c.zero_var = 0
  nod : NodP c.perm

/-- As `WF`, in the middle of a method: the last row may still wait for the next one. -/
structure WFo (c : Composer F) : Prop where
  sel : Lens c c.n
  w_l : c.w_l.length = c.n
  w_r : c.w_r.length = c.n
  w_o : c.w_o.length = c.n
  w_4 : c.w_4.length = c.n
  permLen : c.perm.length = c.variables.length
  zero : c.zero_var < c.variables.length
  agree : ∀ x p, OnWire c x p → wireVar c p = some x
  valid : ∀ p x, wireVar c p = some x → x < c.variables.length
  int : ∀ i ∈ c.intended_pi_pos, i < c.n
  pis : ∀ e ∈ c.public_inputs, e.1 ∈ c.intended_pi_pos
  zeroSound : ∀ E T N pub w v, Sat E T N c pub w v → v c.zero_var = 0
  nod : NodP c.perm

theorem WF.op {c : Composer F} (h : WF c) : WFo c :=
  ⟨h.sel, h.w_l, h.w_r, h.w_o, h.w_4, h.permLen, h.zero, h.agree, h.valid, h.int, h.pis,
    h.zeroSound, h.nod⟩

theorem WFo.close {c : Composer F} (h : WFo c)
    (hl : ∀ i, i + 1 = c.n → ¬ UsesNext (gateAt c i)) : WF c :=
  ⟨h.sel, h.w_l, h.w_r, h.w_o, h.w_4, h.permLen, h.zero, h.agree, h.valid, h.int, h.pis, hl,
    h.zeroSound, h.nod⟩

theorem row_lt_of_wireVar {c : Composer F} {n : ℕ} (h1 : c.w_l.length = n) (h2 : c.w_r.length = n)
    (h3 : c.w_o.length = n) (h4 : c.w_4.length = n) {p : WireData} {x : Var}
    (h : wireVar c p = some x) : p.row < n := by
  cases p with
  | left i => have := (List.getElem?_eq_some_iff.1 h).1; simpa [WireData.row, h1] using this
  | right i => have := (List.getElem?_eq_some_iff.1 h).1; simpa [WireData.row, h2] using this
  | output i => have := (List.getElem?_eq_some_iff.1 h).1; simpa [WireData.row, h3] using this
  | fourth i => have := (List.getElem?_eq_some_iff.1 h).1; simpa [WireData.row, h4] using this

theorem WFo.rowLt {c : Composer F} (h : WFo c) (x : Var) (p : WireData) (hp : OnWire c x p) :
    p.row < c.n := row_lt_of_wireVar h.w_l h.w_r h.w_o h.w_4 (h.agree x p hp)

theorem WF.rowLt {c : Composer F} (h : WF c) (x : Var) (p : WireData) (hp : OnWire c x p) :
    p.row < c.n := h.op.rowLt x p hp

theorem WF.wire_some {c : Composer F} (h : WF c) {p : WireData} (hp : p.row < c.n) :
    ∃ x, wireVar c p = some x := by
  cases p with
  | left i => exact ⟨_, List.getElem?_eq_getElem (by rw [h.w_l]; exact hp)⟩
  | right i => exact ⟨_, List.getElem?_eq_getElem (by rw [h.w_r]; exact hp)⟩
  | output i => exact ⟨_, List.getElem?_eq_getElem (by rw [h.w_o]; exact hp)⟩
  | fourth i => exact ⟨_, List.getElem?_eq_getElem (by rw [h.w_4]; exact hp)⟩

theorem Ext.ownW {c c' : Composer F} (h : Ext c c') (hw : WF c) {p : WireData} (hp : p.row < c.n) :
    ownW c' p = ownW c p := by
  obtain ⟨x, hx⟩ := hw.wire_some hp
  simp only [Spec.Plonk.ownW, hx, h.wv p x hx]
  exact h.ownV (hw.valid p x hx)

theorem _root_.VO.Spec.Plonk.RowOk.congr_next {E : EdCurve F} {T : List (F × F × F × F)} {g : Gate F} {r r' : Row F}
    {p : F} (h : RowOk E T g r p) (hg : ¬ UsesNext g) (ha : r'.a = r.a) (hb : r'.b = r.b)
    (hc : r'.c = r.c) (hd : r'.d = r.d) : RowOk E T g r' p := by
  unfold UsesNext at hg
  push Not at hg
  refine ⟨?_, fun h' => absurd hg.1 h', fun h' => absurd hg.2.1 h', fun h' => absurd hg.2.2.1 h',
    fun h' => absurd hg.2.2.2 h', ?_⟩
  · have := h.arith
    unfold ArithOk at *
    rw [ha, hb, hc, hd]
    exact this
  · rw [ha, hb, hc, hd]
    exact h.lookup

theorem _root_.VO.Spec.Plonk.RowOk.mono {E : EdCurve F} {T T' : List (F × F × F × F)} {g : Gate F} {r : Row F} {p : F}
    (h : RowOk E T g r p) (hT : ∀ t ∈ T, t ∈ T') : RowOk E T' g r p :=
  ⟨h.arith, h.range, h.logic, h.fixed, h.var, fun hg => hT _ (h.lookup hg)⟩

/-- Extending a satisfied composer: only the new rows have to be checked. -/
theorem _root_.VO.Spec.Plonk.OwnSat.ext {E : EdCurve F} {c c' : Composer F} (hs : OwnSat E c) (hw : WF c)
    (hw' : WF c') (h : Ext c c')
    (hpz : ∀ i, i ∉ c'.intended_pi_pos → ownPub c' i = 0)
    (hnew : ∀ N, c'.n ≤ N → ∀ i, c.n ≤ i → i < c'.n →
      RowOk E c'.lookup_table (gateAt c' i) (rowAt N (ownW c') i) (ownPub c' i)) :
    OwnSat E c' := by
  intro N hN
  refine ⟨hN, fun i _ hi => hpz i hi, ?_, ?_⟩
  · intro i hi
    rcases lt_or_ge i c.n with hlt | hge
    · have h0 := ((hs N (h.n.trans hN)).rows i hlt).mono h.tab
      rw [h.gate i hlt, h.pub i hlt]
      by_cases hlast : i + 1 < c.n
      · have hm : (i + 1) % N = i + 1 := Nat.mod_eq_of_lt (lt_of_lt_of_le hlast (h.n.trans hN))
        have : rowAt N (Spec.Plonk.ownW c') i = rowAt N (Spec.Plonk.ownW c) i := by
          unfold rowAt
          rw [hm]
          congr 1 <;> exact h.ownW hw (by simpa [WireData.row])
        rwa [this]
      · have hl : i + 1 = c.n := by omega
        refine RowOk.congr_next h0 (hw.lastFree i hl) ?_ ?_ ?_ ?_ <;>
          exact h.ownW hw (by simpa [WireData.row, rowAt])
    · exact hnew N hN i hge hi
  · intro x p hp
    simp only [Spec.Plonk.ownW, hw'.agree x p hp]

theorem WF.ownPub_zero {c : Composer F} (h : WF c) {i : ℕ} (hi : i ∉ c.intended_pi_pos) :
    ownPub c i = 0 := by
  unfold Spec.Plonk.ownPub
  have : c.public_inputs.find? (fun e => e.1 == i) = none := by
    rw [List.find?_eq_none]
    intro e he
    have := h.pis e he
    simp only [beq_iff_eq]
    rintro rfl
    exact hi this
  rw [this]

end VO.Plonk
