import Verif.Lemmas.PlonkRange2

/-
Several rows added by one method, where a row may read the next one.
-/

set_option linter.unusedSectionVars false

namespace VO.Plonk

open VO.Spec.Plonk

variable {F : Type} [Field F] [DecidableEq F]

/-- A row: its selectors and the variables on its wires. -/
structure BRow (F : Type) where
  g : Gate F
  a : Var
  b : Var
  o : Var
  d : Var

/-- The values of a row followed by another. -/
def BRow.vals (r r' : BRow F) (v : Var → F) : Row F :=
  ⟨v r.a, v r.b, v r.o, v r.d, v r'.a, v r'.b, v r'.d⟩

/-- `c` is `c0` with the rows `rs` added (and any number of variables). -/
structure Block (c0 c : Composer F) (rs : List (BRow F)) : Prop where
  wf : WFo c
  ext : Ext c0 c
  n : c.n = c0.n + rs.length
  gate : ∀ (j : ℕ) r, rs[j]? = some r → gateAt c (c0.n + j) = r.g
  left : ∀ (j : ℕ) r, rs[j]? = some r → OnWire c r.a (.left (c0.n + j))
  right : ∀ (j : ℕ) r, rs[j]? = some r → OnWire c r.b (.right (c0.n + j))
  output : ∀ (j : ℕ) r, rs[j]? = some r → OnWire c r.o (.output (c0.n + j))
  fourth : ∀ (j : ℕ) r, rs[j]? = some r → OnWire c r.d (.fourth (c0.n + j))
  noPi : ∀ i ∈ c.intended_pi_pos, i < c0.n
  table : c.lookup_table = c0.lookup_table

theorem Block.nil {c0 : Composer F} (hw : WF c0) : Block c0 c0 [] where
  wf := hw.op
  ext := Ext.refl _
  n := rfl
  gate := by simp
  left := by simp
  right := by simp
  output := by simp
  fourth := by simp
  noPi := hw.int
  table := rfl

theorem addInput_runO {c : Composer F} (hw : WFo c) (s : F) :
    ∃ c', addInput s c = .ok (c.variables.length, c') ∧ WFo c' ∧ Ext c c' ∧ c'.n = c.n ∧
      c'.variables = c.variables ++ [s] ∧ c'.intended_pi_pos = c.intended_pi_pos ∧
      c'.lookup_table = c.lookup_table ∧ (∀ i, gateAt c' i = gateAt c i) := by
  refine ⟨{ c with perm := c.perm ++ [[]], «variables» := c.variables ++ [s] }, ?_, ?_, ?_, rfl,
    rfl, rfl, rfl, fun _ => rfl⟩
  · unfold addInput
    rw [hw.permLen]
  all_goals
    set c' : Composer F := { c with perm := c.perm ++ [[]], «variables» := c.variables ++ [s] }
    have hon : ∀ y q, OnWire c' y q ↔ OnWire c y q := fun y q => onP_append_nil y q
    have hext : Ext c c' :=
      ⟨le_refl _, fun _ _ => rfl, rfl, fun x p h => (hon x p).2 h, fun _ _ h => h,
        List.prefix_append _ _, by simp [c'], fun _ h => h, fun _ _ => Iff.rfl, fun _ _ => rfl,
        fun x p h => Or.inl ((hon x p).1 h)⟩
  · refine ⟨⟨hw.sel.1, hw.sel.2, hw.sel.3, hw.sel.4, hw.sel.5, hw.sel.6, hw.sel.7, hw.sel.8,
      hw.sel.9, hw.sel.10, hw.sel.11, hw.sel.12, hw.sel.13, hw.sel.14, hw.sel.15⟩, hw.w_l, hw.w_r,
      hw.w_o, hw.w_4, ?_, ?_, ?_, ?_, hw.int, hw.pis, ?_, hw.nod.input⟩
    · simp [c', hw.permLen]
    · have := hw.zero
      simp only [c', List.length_append, List.length_singleton]
      omega
    · intro x p h
      exact hw.agree x p ((hon x p).1 h)
    · intro p x h
      have := hw.valid p x h
      simp only [c', List.length_append, List.length_singleton]
      omega
    · intro E T N pub w v hs
      exact hw.zeroSound E T N pub w v (hext.sat hs)
  · exact hext

theorem Block.input {c0 c : Composer F} {rs : List (BRow F)} (h : Block c0 c rs) (s : F) :
    ∃ c', addInput s c = .ok (c.variables.length, c') ∧ Block c0 c' rs ∧
      c'.variables = c.variables ++ [s] := by
  obtain ⟨c', hr, hw, he, hn, hv, hi, ht, hg⟩ := addInput_runO h.wf s
  refine ⟨c', hr, ⟨hw, h.ext.trans he, by rw [hn, h.n], fun j r hj => by rw [hg]; exact h.gate j r hj,
    fun j r hj => he.wire _ _ (h.left j r hj), fun j r hj => he.wire _ _ (h.right j r hj),
    fun j r hj => he.wire _ _ (h.output j r hj), fun j r hj => he.wire _ _ (h.fourth j r hj),
    by rw [hi]; exact h.noPi, by rw [ht, h.table]⟩, hv⟩

theorem Block.push {c0 c : Composer F} {rs : List (BRow F)} (h : Block c0 c rs) (r : BRow F)
    (ha : r.a < c.variables.length) (hb : r.b < c.variables.length) (ho : r.o < c.variables.length)
    (hd : r.d < c.variables.length) :
    ∃ c', pushGate r.g r.a r.b r.o r.d c = .ok ((), c') ∧ Block c0 c' (rs ++ [r]) ∧
      c'.variables = c.variables := by
  obtain ⟨c', hr, hwo, hA⟩ := addedGate_runO h.wf r.g ha hb ho hd none
  refine ⟨c', hr, ?_, hA.vars⟩
  have lt : ∀ {j : ℕ} {r : BRow F}, rs[j]? = some r → c0.n + j < c.n := by
    intro j r hj
    rw [h.n]
    have := (List.getElem?_eq_some_iff.1 hj).1
    omega
  refine ⟨hwo, h.ext.trans hA.ext, by rw [hA.n, h.n]; simp; omega, ?_, ?_, ?_, ?_, ?_, ?_,
    by rw [hA.table, h.table]⟩
  · intro j r' hj
    rcases getElem?_snoc hj with h1 | ⟨rfl, rfl⟩
    · rw [hA.ext.gate _ (lt h1)]; exact h.gate j r' h1
    · rw [← h.n]; exact hA.gate
  · intro j r' hj
    rcases getElem?_snoc hj with h1 | ⟨rfl, rfl⟩
    · exact hA.ext.wire _ _ (h.left j r' h1)
    · rw [← h.n]; exact hA.left
  · intro j r' hj
    rcases getElem?_snoc hj with h1 | ⟨rfl, rfl⟩
    · exact hA.ext.wire _ _ (h.right j r' h1)
    · rw [← h.n]; exact hA.right
  · intro j r' hj
    rcases getElem?_snoc hj with h1 | ⟨rfl, rfl⟩
    · exact hA.ext.wire _ _ (h.output j r' h1)
    · rw [← h.n]; exact hA.output
  · intro j r' hj
    rcases getElem?_snoc hj with h1 | ⟨rfl, rfl⟩
    · exact hA.ext.wire _ _ (h.fourth j r' h1)
    · rw [← h.n]; exact hA.fourth
  · intro i hi
    have hi' := hwo.int i hi
    rw [hA.n] at hi'
    have hne : i ≠ c.n := by
      rintro rfl
      have := hA.int.1 hi
      simp at this
    exact h.noPi i ((hA.ext.int i (by omega)).1 hi)

theorem Block.wf' {c0 c : Composer F} {rs : List (BRow F)} (h : Block c0 c rs) {r : BRow F}
    (hl : rs.getLast? = some r) (hr : ¬ UsesNext r.g) : WF c := by
  refine h.wf.close ?_
  intro i hi
  rw [List.getLast?_eq_getElem?] at hl
  have hlen := (List.getElem?_eq_some_iff.1 hl).1
  have := h.gate _ _ hl
  have e : i = c0.n + (rs.length - 1) := by rw [h.n] at hi; omega
  rw [e, this]
  exact hr

theorem Block.pub0 {c0 c : Composer F} {rs : List (BRow F)} (h : Block c0 c rs)
    {E : EdCurve F} {T : List (F × F × F × F)}
    {N : ℕ} {pub : ℕ → F} {w : WireData → F} {v : Var → F} (hs : Sat E T N c pub w v) {j : ℕ}
    (hj : j < rs.length) : pub (c0.n + j) = 0 := by
  refine hs.pubZero _ (by rw [h.n]; omega) (fun hc => ?_)
  have := h.noPi _ hc
  omega

/-- A row of a block together with the next one, in a satisfying assignment. -/
theorem Block.row {c0 c : Composer F} {rs : List (BRow F)} (h : Block c0 c rs)
    {E : EdCurve F} {T : List (F × F × F × F)}
    {N : ℕ} {pub : ℕ → F} {w : WireData → F} {v : Var → F} (hs : Sat E T N c pub w v) {j : ℕ}
    {r r' : BRow F} (hr : rs[j]? = some r) (hr' : rs[j + 1]? = some r') :
    RowOk E T r.g (r.vals r' v) 0 := by
  have hlen := (List.getElem?_eq_some_iff.1 hr').1
  have hN := hs.fits
  rw [h.n] at hN
  have := hs.rows (c0.n + j) (by rw [h.n]; omega)
  rw [h.gate j r hr, h.pub0 hs (by omega)] at this
  have hm : (c0.n + j + 1) % N = c0.n + (j + 1) := by
    rw [Nat.mod_eq_of_lt (by omega)]; omega
  unfold rowAt at this
  rw [hm, hs.copy _ _ (h.left j r hr), hs.copy _ _ (h.right j r hr), hs.copy _ _ (h.output j r hr),
    hs.copy _ _ (h.fourth j r hr), hs.copy _ _ (h.left _ r' hr'), hs.copy _ _ (h.right _ r' hr'),
    hs.copy _ _ (h.fourth _ r' hr')] at this
  exact this

/-- Extending values over a block. -/
theorem Block.own {c0 c : Composer F} {rs : List (BRow F)} (h : Block c0 c rs) (hw : WF c0)
    {l : BRow F} (hl : rs.getLast? = some l) (hlast : ¬ UsesNext l.g) {E : EdCurve F}
    (hs : OwnSat E c0)
    (hrow : ∀ (j : ℕ) r r', rs[j]? = some r → rs[j + 1]? = some r' →
      RowOk E c.lookup_table r.g (r.vals r' (ownV c)) 0)
    (hend : RowOk E c.lookup_table l.g (l.vals l (ownV c)) 0) : OwnSat E c := by
  have hw' := h.wf' hl hlast
  have hW : ∀ x p, OnWire c x p → ownW c p = ownV c x := by
    intro x p hp
    unfold ownW
    rw [hw'.agree x p hp]
  refine hs.ext hw hw' h.ext (fun i hi => hw'.ownPub_zero hi) ?_
  intro N hN i h1 h2
  obtain ⟨j, rfl⟩ : ∃ j, i = c0.n + j := ⟨i - c0.n, by omega⟩
  rw [h.n] at h2 hN
  have hj : j < rs.length := by omega
  have hr : rs[j]? = some rs[j] := List.getElem?_eq_getElem hj
  rw [h.gate _ _ hr, hw'.ownPub_zero (fun hc => by have := h.noPi _ hc; omega)]
  have e1 := hW _ _ (h.left _ _ hr)
  have e2 := hW _ _ (h.right _ _ hr)
  have e3 := hW _ _ (h.output _ _ hr)
  have e4 := hW _ _ (h.fourth _ _ hr)
  by_cases hjl : j + 1 < rs.length
  · have hr' : rs[j + 1]? = some rs[j + 1] := List.getElem?_eq_getElem hjl
    have := hrow j _ _ hr hr'
    have hm : (c0.n + j + 1) % N = c0.n + (j + 1) := by
      rw [Nat.mod_eq_of_lt (by omega)]; omega
    unfold rowAt
    rw [hm, e1, e2, e3, e4, hW _ _ (h.left _ _ hr'), hW _ _ (h.right _ _ hr'),
      hW _ _ (h.fourth _ _ hr')]
    exact this
  · rw [List.getLast?_eq_getElem?] at hl
    have : rs[j] = l := by
      have e : rs.length - 1 = j := by omega
      rw [e, hr] at hl
      exact Option.some.inj hl
    rw [this] at e1 e2 e3 e4 ⊢
    exact hend.congr_next hlast e1 e2 e3 e4

/-- Any satisfying values of the circuit before a block extend over it, given values of the new
variables under which the new rows hold. -/
theorem Block.satExt {c0 c : Composer F} {rs : List (BRow F)} (h : Block c0 c rs) (hw : WF c0)
    {l : BRow F} (hl : rs.getLast? = some l) (hlast : ¬ UsesNext l.g) {E : EdCurve F}
    {T : List (F × F × F × F)} {N : ℕ} {pub : ℕ → F} {w : WireData → F} {v : Var → F}
    (hs : Sat E T N c0 pub w v) (hN : c.n ≤ N) (v' : Var → F)
    (hv : ∀ x < c0.variables.length, v' x = v x)
    (hrow : ∀ (j : ℕ) r r', rs[j]? = some r → rs[j + 1]? = some r' →
      RowOk E T r.g (r.vals r' v') 0)
    (hend : RowOk E T l.g (l.vals l v') 0) :
    Sat E T N c (fun i => if i < c0.n then pub i else 0)
      (fun p => if p.row < c0.n then w p else
        match wireVar c p with
        | some x => v' x
        | none => 0) v' := by
  have hw' := h.wf' hl hlast
  have hn := h.n
  set w' : WireData → F := fun p => if p.row < c0.n then w p else
        match wireVar c p with
        | some x => v' x
        | none => 0 with hw'def
  have hold : ∀ p : WireData, p.row < c0.n → w' p = w p := by
    intro p hp
    rw [hw'def]; simp only; rw [if_pos hp]
  have hW : ∀ x (p : WireData), ¬ p.row < c0.n → OnWire c x p → w' p = v' x := by
    intro x p hp hx
    rw [hw'def]; simp only; rw [if_neg hp, hw'.agree x p hx]
  refine ⟨hN, ?_, ?_, ?_⟩
  · intro i hi hni
    split
    · next hlt => exact hs.pubZero i hlt (fun hc => hni ((h.ext.int i hlt).2 hc))
    · rfl
  · intro i hi
    by_cases hlt : i < c0.n
    · rw [if_pos hlt, h.ext.gate i hlt]
      have h0 := hs.rows i hlt
      by_cases hlst : i + 1 < c0.n
      · have hm : (i + 1) % N = i + 1 := Nat.mod_eq_of_lt (by omega)
        have : rowAt N w' i = rowAt N w i := by
          unfold rowAt
          rw [hm]
          congr 1 <;> exact hold _ (by simpa [WireData.row])
        rwa [this]
      · have hl : i + 1 = c0.n := by omega
        refine RowOk.congr_next h0 (hw.lastFree i hl) ?_ ?_ ?_ ?_ <;>
          exact hold _ (by simpa [WireData.row])
    · rw [if_neg hlt]
      obtain ⟨j, rfl⟩ : ∃ j, i = c0.n + j := ⟨i - c0.n, by omega⟩
      have hj : j < rs.length := by omega
      have hr : rs[j]? = some rs[j] := List.getElem?_eq_getElem hj
      rw [h.gate _ _ hr]
      have e1 := hW _ _ (by simp [WireData.row]) (h.left _ _ hr)
      have e2 := hW _ _ (by simp [WireData.row]) (h.right _ _ hr)
      have e3 := hW _ _ (by simp [WireData.row]) (h.output _ _ hr)
      have e4 := hW _ _ (by simp [WireData.row]) (h.fourth _ _ hr)
      by_cases hjl : j + 1 < rs.length
      · have hr' : rs[j + 1]? = some rs[j + 1] := List.getElem?_eq_getElem hjl
        have := hrow j _ _ hr hr'
        have hm : (c0.n + j + 1) % N = c0.n + (j + 1) := by
          rw [Nat.mod_eq_of_lt (by omega)]; omega
        unfold rowAt
        rw [hm, e1, e2, e3, e4, hW _ _ (by simp [WireData.row]) (h.left _ _ hr'),
          hW _ _ (by simp [WireData.row]) (h.right _ _ hr'),
          hW _ _ (by simp [WireData.row]) (h.fourth _ _ hr')]
        exact this
      · rw [List.getLast?_eq_getElem?] at hl
        have : rs[j] = l := by
          have e : rs.length - 1 = j := by omega
          rw [e, hr] at hl
          exact Option.some.inj hl
        rw [this] at e1 e2 e3 e4 ⊢
        exact hend.congr_next hlast e1 e2 e3 e4
  · intro x p hp
    by_cases hlt : p.row < c0.n
    · rw [hold p hlt]
      obtain ⟨y, hy⟩ := hw.wire_some hlt
      have h1 := h.ext.wv p y hy
      rw [hw'.agree x p hp] at h1
      cases h1
      rw [hv x (hw.valid p x hy)]
      rcases h.ext.back x p hp with h2 | h2
      · exact hs.copy x p h2
      · omega
    · exact hW x p hlt hp

end VO.Plonk
