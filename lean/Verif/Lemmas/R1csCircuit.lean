import Verif.Lemmas.CircuitPov
import Verif.Lemmas.CircuitExec
import Verif.Lemmas.CircuitCache
import Verif.Lemmas.Matrix
import Verif.Spec.Cs

/-
Lemmas for the translation of R1CS to circuits (circuit/mod.rs).
-/

set_option linter.unusedSectionVars false

namespace VO
open Spec

variable {F : Type} [Field F] [DecidableEq F]

namespace Circuit

/-- All gate equations hold. -/
structure Sat (c : Circuit F) (val : ℕ → F) : Prop where
  bin : ∀ (k : Kind) (i : ℕ) (g : BinGate), (c.gates k)[i]? = some g →
    val g.output = arith k (val g.left) (val g.right)
  const : ∀ (i : ℕ) (g : ConstGate F), c.constGates[i]? = some g → val g.output = g.value

theorem Ext.sat {c c' : Circuit F} (h : Ext c c') {val : ℕ → F} (hs : Sat c' val) : Sat c val :=
  ⟨fun k i g hg => hs.bin k i g (h.gates k i g hg), fun i g hg => hs.const i g (h.consts i g hg)⟩

/-- Some gate reads the variable. -/
def Used (c : Circuit F) (v : ℕ) : Prop := ∃ w, Carries c (.input w) v

theorem Ext.used {c c' : Circuit F} (h : Ext c c') {v : ℕ} (hu : Used c v) : Used c' v := by
  obtain ⟨w, hw⟩ := hu
  exact ⟨w, h.carries hw⟩

variable {P : ℕ → Prop}

/-- Growth by gates only, which read only variables with property `P`. -/
def Grows (P : ℕ → Prop) (c c' : Circuit F) : Prop :=
  ∃ l, Builds c l c' ∧
    ∀ x ∈ l, (∃ v, x = Call.const v) ∨ ∃ k a b, x = Call.bin k a b ∧ P a ∧ P b

theorem Grows.refl (c : Circuit F) : Grows P c c := ⟨[], .nil c, by simp⟩

theorem Grows.trans {c1 c2 c3 : Circuit F} (h : Grows P c1 c2) (h' : Grows P c2 c3) : Grows P c1 c3 := by
  obtain ⟨l, b, hl⟩ := h
  obtain ⟨l', b', hl'⟩ := h'
  refine ⟨l ++ l', builds_append b b', fun x hx => ?_⟩
  rcases List.mem_append.mp hx with hx | hx
  · exact hl x hx
  · exact hl' x hx

theorem Grows.good_ext {c c' : Circuit F} (h : Grows P c c') (hg : Good c) : Good c' ∧ Ext c c' := by
  obtain ⟨l, b, hl⟩ := h
  refine builds_good b (fun x hx => ?_) hg
  rcases hl x hx with ⟨v, rfl⟩ | ⟨k, a, b, rfl, -⟩ <;> trivial

theorem Grows.numInputs {c c' : Circuit F} (h : Grows P c c') (hg : Good c) :
    c'.numInputs = c.numInputs ∧ c'.assertEquals = c.assertEquals ∧ c'.publicIo = c.publicIo ∧
      c'.outputs = c.outputs := by
  obtain ⟨l, b, hl⟩ := h
  induction b with
  | nil c => exact ⟨rfl, rfl, rfl, rfl⟩
  | @cons c c1 c2 x l hr h1 h2 ih =>
    rcases hl x (by simp) with ⟨v, rfl⟩ | ⟨k, a, b, rfl, -⟩
    · obtain ⟨r, h⟩ := map_snd_ok h1
      obtain ⟨g1, -, e1, e2, e3, e4, -⟩ := constVar_spec hg h
      obtain ⟨i1, i2, i3, i4⟩ := ih g1 (fun x hx => hl x (by simp [hx]))
      exact ⟨i1.trans e1, i2.trans e2, i3.trans e4, i4.trans e3⟩
    · obtain ⟨r, h⟩ := map_snd_ok h1
      obtain ⟨g1, -, e1, e2, e3, e4, -⟩ :=
        binVars_spec hg (hr a (by simp [refs])) (hr b (by simp [refs])) h
      obtain ⟨i1, i2, i3, i4⟩ := ih g1 (fun x hx => hl x (by simp [hx]))
      exact ⟨i1.trans e1, i2.trans e2, i3.trans e4, i4.trans e3⟩

theorem driven_ge {c : Circuit F} (hg : Good c) {w : OutputGateWire} {v : ℕ}
    (h : Carries c (.output w) v) : c.numInputs ≤ v := by
  have hv := hg.wired.range _ _ h
  have hx : c.vars[v]? = some c.vars[v] := List.getElem?_eq_getElem hv
  have h1 := (hg.wired.driver v _ hx w).mpr h
  by_contra hlt
  have := (hg.ordered.driven v _ hx).mpr (by omega)
  rw [this] at h1; cases h1

theorem binVars_unread {c c' : Circuit F} {k : Kind} {a b r : ℕ} (h : c.binVars k a b = .ok (r, c'))
    {j : ℕ} (ha : j ≠ a) (hb : j ≠ b) (hu : ¬ Used c j) : ¬ Used c' j := by
  unfold binVars at h
  have hpair : ∃ a' b', (if a < b then (a, b) else (b, a)) = (a', b') ∧
      ((a' = a ∧ b' = b) ∨ (a' = b ∧ b' = a)) := by
    by_cases hab : a < b
    · exact ⟨a, b, by rw [if_pos hab], .inl ⟨rfl, rfl⟩⟩
    · exact ⟨b, a, by rw [if_neg hab], .inr ⟨rfl, rfl⟩⟩
  obtain ⟨a', b', hp, hor⟩ := hpair
  rw [hp] at h
  simp only at h
  split at h
  · obtain ⟨rfl, rfl⟩ := Prod.mk.inj (Except.ok.inj h)
    exact hu
  · simp only [addNewVariable] at h
    rcases freshBin_spec c k a' b' with ⟨-, -, xs, h1, hl, hx⟩ | ⟨-, e, c'', h1⟩
    swap
    · simp only [addNewVariable] at h1
      rw [h1] at h; cases h
    simp only [addNewVariable] at h1
    rw [h1] at h
    simp only at h
    obtain ⟨rfl, rfl⟩ := Prod.mk.inj (Except.ok.inj h)
    rintro ⟨⟨k', i, sd⟩, g, hgi, hpt⟩
    apply hu
    simp only [gates_pushCache, gates_withVars, gates_pushGate] at hgi
    by_cases hk : k' = k
    · subst hk
      rw [if_pos rfl, getElem?_append_one] at hgi
      rcases hgi with hgi | ⟨-, rfl⟩
      · exact ⟨⟨k', i, sd⟩, g, hgi, hpt⟩
      · exfalso
        cases sd <;> simp only [port] at hpt <;> rcases hor with ⟨rfl, rfl⟩ | ⟨rfl, rfl⟩ <;>
          first
          | exact ha hpt.symm
          | exact hb hpt.symm
    · rw [if_neg hk] at hgi
      exact ⟨⟨k', i, sd⟩, g, hgi, hpt⟩

theorem constVar_unread {c c' : Circuit F} {a : F} {r : ℕ} (h : c.constVar a = .ok (r, c'))
    {j : ℕ} (hu : ¬ Used c j) : ¬ Used c' j := by
  have hg : ∀ k, c'.gates k = c.gates k := by
    unfold constVar at h
    split at h
    · obtain ⟨rfl, rfl⟩ := Prod.mk.inj (Except.ok.inj h)
      exact fun _ => rfl
    · simp only [addNewVariable, addConstGate, attachOutput, Variable.new] at h
      simp at h
      obtain ⟨-, rfl⟩ := h
      intro k; cases k <;> rfl
  rintro ⟨w, g, hgi, hp⟩
  exact hu ⟨w, g, by rw [← hg]; exact hgi, hp⟩

theorem Grows.unread {c c' : Circuit F} (h : Grows P c c') {j : ℕ} (hj : ¬ P j)
    (hu : ¬ Used c j) : ¬ Used c' j := by
  obtain ⟨l, b, hl⟩ := h
  induction b with
  | nil c => exact hu
  | @cons c c1 c2 x l hr h1 h2 ih =>
    apply ih _ (fun x hx => hl x (by simp [hx]))
    rcases hl x (by simp) with ⟨v, rfl⟩ | ⟨k, a, b, rfl, pa, pb⟩
    · obtain ⟨r, h⟩ := map_snd_ok h1
      exact constVar_unread h hu
    · obtain ⟨r, h⟩ := map_snd_ok h1
      exact binVars_unread h (fun e => hj (e ▸ pa)) (fun e => hj (e ▸ pb)) hu

theorem binVars_total {c : Circuit F} (hg : Good c) (k : Kind) {a b : ℕ}
    (ha : a < c.vars.length) (hb : b < c.vars.length) (pa : P a) (pb : P b) :
    ∃ r c', c.binVars k a b = .ok (r, c') ∧ Grows P c c' ∧ r < c'.vars.length ∧
      c.numInputs ≤ r ∧
      (∀ val, Sat c' val → val r = arith k (val a) (val b)) ∧ Used c' a ∧ Used c' b ∧
      ∃ i, Carries c' (.output (.bin k i)) r := by
  have hex : ∃ r c', c.binVars k a b = .ok (r, c') := by
    unfold binVars
    have hpair : ∃ a' b', (if a < b then (a, b) else (b, a)) = (a', b') ∧
        ((a' = a ∧ b' = b) ∨ (a' = b ∧ b' = a)) := by
      split_ifs
      · exact ⟨a, b, rfl, .inl ⟨rfl, rfl⟩⟩
      · exact ⟨b, a, rfl, .inr ⟨rfl, rfl⟩⟩
    obtain ⟨a', b', hp, hor⟩ := hpair
    rw [hp]
    simp only
    split
    · exact ⟨_, _, rfl⟩
    · rcases freshBin_spec c k a' b' with ⟨-, -, xs, h1, -, -⟩ | ⟨hn, -⟩
      · rw [show c.addNewVariable.1 = c.vars.length from rfl, h1]
        exact ⟨_, _, rfl⟩
      · exfalso; apply hn
        rcases hor with ⟨rfl, rfl⟩ | ⟨rfl, rfl⟩ <;> omega
  obtain ⟨r, c', h⟩ := hex
  obtain ⟨g1, e1, en, -, -, -, i, hi⟩ := binVars_spec hg ha hb h
  refine ⟨r, c', h, ⟨[.bin k a b], .cons (by simp [refs]; omega) (by
    show (c.binVars k a b).map Prod.snd = _; rw [h]; rfl) (.nil _), by
      intro x hx; rw [List.mem_singleton] at hx; exact .inr ⟨k, a, b, hx, pa, pb⟩⟩, ?_, ?_, ?_, ?_, ?_, i, ?_⟩
  · rcases hi with hi | hi
    · exact g1.wired.range (.output (.bin k i)) r ⟨_, hi, rfl⟩
    · exact g1.wired.range (.output (.bin k i)) r ⟨_, hi, rfl⟩
  · rw [← en]
    rcases hi with hi | hi
    · exact driven_ge g1 (w := .bin k i) ⟨_, hi, rfl⟩
    · exact driven_ge g1 (w := .bin k i) ⟨_, hi, rfl⟩
  · intro val hs
    rcases hi with hi | hi
    · exact hs.bin k i _ hi
    · rw [hs.bin k i _ hi]
      cases k
      · exact add_comm _ _
      · exact mul_comm _ _
  · rcases hi with hi | hi
    · exact ⟨⟨k, i, .left⟩, _, hi, rfl⟩
    · exact ⟨⟨k, i, .right⟩, _, hi, rfl⟩
  · rcases hi with hi | hi
    · exact ⟨⟨k, i, .right⟩, _, hi, rfl⟩
    · exact ⟨⟨k, i, .left⟩, _, hi, rfl⟩
  · rcases hi with hi | hi
    · exact ⟨_, hi, rfl⟩
    · exact ⟨_, hi, rfl⟩

theorem constVar_total {c : Circuit F} (hg : Good c) (a : F) :
    ∃ r c', c.constVar a = .ok (r, c') ∧ Grows P c c' ∧ r < c'.vars.length ∧ c.numInputs ≤ r ∧
      (∀ val, Sat c' val → val r = a) ∧ ∃ i, Carries c' (.output (.const i)) r := by
  have hex : ∃ r c', c.constVar a = .ok (r, c') := by
    unfold constVar
    split
    · exact ⟨_, _, rfl⟩
    · simp [addConstGate, attachOutput, addNewVariable, Variable.new]
  obtain ⟨r, c', h⟩ := hex
  obtain ⟨g1, e1, en, -, -, -, i, hi⟩ := constVar_spec hg h
  refine ⟨r, c', h, ⟨[.const a], .cons (by simp [refs]) (by
    show (c.constVar a).map Prod.snd = _; rw [h]; rfl) (.nil _), by simp⟩, ?_, ?_, ?_, i, ⟨_, hi, rfl⟩⟩
  · exact g1.wired.range (.output (.const i)) r ⟨_, hi, rfl⟩
  · rw [← en]; exact driven_ge g1 (w := .const i) ⟨_, hi, rfl⟩
  · intro val hs
    exact hs.const i _ hi

/-! ## The helpers of the translation -/

theorem addInputs_ok (n : ℕ) : ∀ (c : Circuit F), Good c → c.numInputs = c.vars.length →
    (∀ k, c.gates k = []) → c.constGates = [] →
    ∃ c', addInputs c n = .ok (List.range' c.vars.length n, c') ∧ Good c' ∧
      c'.numInputs = c.numInputs + n ∧ c'.vars.length = c'.numInputs ∧
      c'.assertEquals = c.assertEquals ∧ c'.publicIo = c.publicIo ∧ c'.outputs = c.outputs ∧
      Builds c (List.replicate n .input) c' := by
  induction n with
  | zero => intro c hg h1 h2 h3; exact ⟨c, rfl, hg, rfl, h1.symm, rfl, rfl, rfl, .nil _⟩
  | succ n ih =>
    intro c hg h1 h2 h3
    have hno : c.assertNoGate = .ok () := by
      unfold assertNoGate
      rw [if_pos ⟨h2 .add, h2 .mul, by rw [h3]; rfl⟩]
    obtain ⟨c1, hc1⟩ : ∃ c1, c.addGlobalInputVariable = .ok (c.vars.length, c1) := by
      unfold addGlobalInputVariable; rw [hno]; exact ⟨_, rfl⟩
    obtain ⟨g1, -, -, e1, e2, -, e3, e4, e5, e6, e7⟩ := good_newInput hg hc1
    obtain ⟨c2, i1, i2, i3, i4, i5, i6, i7, i8⟩ := ih c1 g1 (by omega) e4 e5
    refine ⟨c2, ?_, i2, by omega, i4, by rw [i5, e3], by rw [i6, e6], by rw [i7, e7], ?_⟩
    · unfold addInputs
      simp only [bind, Except.bind, hc1, i1, pure, Except.pure]
      rw [e2]; rfl
    · rw [List.replicate_succ]
      exact .cons (by simp [refs]) (by show c.addGlobalInputVariable.map Prod.snd = _; rw [hc1]; rfl) i8

theorem addConsts_ok (l : List F) : ∀ (c : Circuit F), Good c →
    ∃ xs c', addConsts c l = .ok (xs, c') ∧ Grows P c c' ∧
      (∀ x ∈ xs, x < c'.vars.length ∧ c.numInputs ≤ x) ∧
      ∀ val, Sat c' val → xs.map val = l := by
  induction l with
  | nil => intro c hg; exact ⟨[], c, rfl, Grows.refl c, by simp, by simp⟩
  | cons v l ih =>
    intro c hg
    obtain ⟨r, c1, h1, gr1, hr, hrn, hv, -⟩ := constVar_total (P := P) hg v
    obtain ⟨g1, e1⟩ := gr1.good_ext hg
    have en := (gr1.numInputs hg).1
    obtain ⟨xs, c2, h2, gr2, hx, hvs⟩ := ih c1 g1
    obtain ⟨g2, e2⟩ := gr2.good_ext g1
    refine ⟨r :: xs, c2, ?_, gr1.trans gr2, ?_, ?_⟩
    · unfold addConsts
      simp only [bind, Except.bind, h1, h2, pure, Except.pure]
    · intro x hxm
      rcases List.mem_cons.mp hxm with rfl | hxm
      · exact ⟨lt_of_lt_of_le hr e2.vars, hrn⟩
      · exact ⟨(hx x hxm).1, by rw [← en]; exact (hx x hxm).2⟩
    · intro val hs
      rw [List.map_cons, hvs val hs, hv val (e2.sat hs)]

/-- `z = (1, inputs)`. -/
def zOf (val : ℕ → F) : ℕ → F
  | 0 => 1
  | j + 1 => val j

/-- The sum of a row. -/
def rowVal (val : ℕ → F) (rows : List (List ℕ)) (i : ℕ) : F := ((rows.getD i []).map val).sum

/-- All variables of the rows exist and have property `P`, and there are `n` rows. -/
def RowsOk (P : ℕ → Prop) (n len : ℕ) (rows : Mat → List (List ℕ)) : Prop :=
  ∀ t, (rows t).length = n ∧ ∀ row ∈ rows t, ∀ v ∈ row, v < len ∧ P v

theorem pushRow_ok {n len : ℕ} {rows : Mat → List (List ℕ)} (h : RowsOk P n len rows) (t : Mat)
    {ri var : ℕ} (hr : ri < n) (hv : var < len ∧ P var) :
    ∃ rows', pushRow rows t ri var = .ok rows' ∧ RowsOk P n len rows' ∧
      (∀ val : ℕ → F, ∀ u i, rowVal val (rows' u) i
        = rowVal val (rows u) i + if u = t ∧ i = ri then val var else 0) ∧
      (∀ u i x, x ∈ (rows u).getD i [] → x ∈ (rows' u).getD i []) ∧
      var ∈ (rows' t).getD ri [] := by
  have hlt : ri < (rows t).length := by rw [(h t).1]; exact hr
  unfold pushRow
  rw [List.getElem?_eq_getElem hlt]
  refine ⟨_, rfl, ?_, ?_, ?_, ?_⟩
  · intro u
    by_cases hu : u = t
    · subst hu
      simp only [if_true]
      refine ⟨by rw [List.length_set]; exact (h u).1, ?_⟩
      intro row hrow v hvm
      rcases List.mem_or_eq_of_mem_set hrow with hrow | rfl
      · exact (h u).2 row hrow v hvm
      · rcases List.mem_append.mp hvm with hvm | hvm
        · exact (h u).2 _ (List.getElem_mem hlt) v hvm
        · rw [List.mem_singleton] at hvm; rw [hvm]; exact hv
    · simp only [if_neg hu]; exact h u
  · intro val u i
    by_cases hu : u = t
    · subst hu
      simp only [if_true, true_and]
      unfold rowVal
      by_cases hi : i = ri
      · subst hi
        rw [List.getD_eq_getElem _ _ (by rw [List.length_set]; exact hlt),
          List.getD_eq_getElem _ _ hlt]
        simp
      · simp only [List.getD, List.getElem?_set, if_neg (Ne.symm hi), if_neg hi, add_zero]
    · simp [hu]
  · intro u i x hx
    by_cases hu : u = t
    · subst hu
      simp only [if_true]
      by_cases hi : i = ri
      · subst hi
        rw [List.getD_eq_getElem _ _ hlt] at hx
        rw [List.getD_eq_getElem _ _ (by rw [List.length_set]; exact hlt)]
        simp [hx]
      · simpa only [List.getD, List.getElem?_set, if_neg (Ne.symm hi)] using hx
    · simpa only [if_neg hu] using hx
  · simp only [if_true]
    rw [List.getD_eq_getElem _ _ (by rw [List.length_set]; exact hlt)]
    simp

/-- The contribution of a list of positions with the same coefficient to row `i` of matrix `t`. -/
def posSum (val : ℕ → F) (v : F) (ps : List (ℕ × ℕ × Mat)) (t : Mat) (i : ℕ) : F :=
  (ps.map (fun p => if p.2.2 = t ∧ p.1 = i then v * zOf val p.2.1 else 0)).sum

theorem RowsOk.mono {n len len' : ℕ} {rows : Mat → List (List ℕ)} (h : RowsOk P n len rows)
    (hl : len ≤ len') : RowsOk P n len' rows :=
  fun t => ⟨(h t).1, fun row hr v hv => ⟨lt_of_lt_of_le ((h t).2 row hr v hv).1 hl, ((h t).2 row hr v hv).2⟩⟩

theorem positionsGo_ok (v : F) (hv0 : v ≠ 0) (zv n ncol : ℕ) (hP : ∀ v, ncol ≤ v → P v)
    (ps : List (ℕ × ℕ × Mat)) :
    ∀ (cvar : ℕ) (st : MulState F) (cache : List (ℕ × ℕ)), Good st.circ →
      st.circ.numInputs = ncol → ncol ≤ cvar →
      RowsOk P n st.circ.vars.length st.rows → cvar < st.circ.vars.length →
      ncol ≤ st.circ.vars.length → (∀ val, Sat st.circ val → val cvar = v) →
      (∀ j m, (j, m) ∈ cache → (m < st.circ.vars.length ∧ ncol ≤ m) ∧ Used st.circ j ∧
        ∀ val, Sat st.circ val → val m = v * val j) →
      (∀ p ∈ ps, p.1 < n ∧ p.2.1 ≤ ncol ∧ ∀ j, p.2.1 = j + 1 → P j) →
      ∃ st', positionsGo v cvar zv (List.range ncol) st cache ps = .ok st' ∧
        Grows P st.circ st'.circ ∧ RowsOk P n st'.circ.vars.length st'.rows ∧
        (∀ val, Sat st'.circ val → ∀ t i, rowVal val (st'.rows t) i
          = rowVal val (st.rows t) i + posSum val v ps t i) ∧
        (∀ t i x, x ∈ (st.rows t).getD i [] → x ∈ (st'.rows t).getD i []) ∧
        (∀ ri ci t, (ri, ci + 1, t) ∈ ps → Used st'.circ ci ∨ ci ∈ (st'.rows t).getD ri []) := by
  induction ps with
  | nil =>
    intro cvar st cache hg _ _ hr _ _ _ _ _
    exact ⟨st, rfl, Grows.refl _, hr, by simp [posSum], fun _ _ _ h => h, by simp⟩
  | cons p ps ih =>
    intro cvar st cache hg hni hcn hr hcv hnc hval hcache hps
    obtain ⟨ri, ci, t⟩ := p
    obtain ⟨hri, hci, hcp⟩ : ri < n ∧ ci ≤ ncol ∧ ∀ j, ci = j + 1 → P j := hps (ri, ci, t) (List.mem_cons_self ..)
    -- the variable chosen for this position
    have hpick : ∃ var circ cache', pickVar v cvar zv (List.range ncol) st.circ cache ci = .ok (var, circ, cache') ∧
        Grows P st.circ circ ∧ (var < circ.vars.length ∧ P var) ∧
        (∀ val, Sat circ val → val var = v * zOf val ci) ∧
        (∀ j m, (j, m) ∈ cache' → (m < circ.vars.length ∧ ncol ≤ m) ∧ Used circ j ∧
          ∀ val, Sat circ val → val m = v * val j) ∧
        (∀ cj, ci = cj + 1 → Used circ cj ∨ var = cj) := by
      unfold pickVar
      rw [if_neg hv0]
      rcases Nat.eq_zero_or_pos ci with h0 | h0
      · subst h0
        simp only [gt_iff_lt, lt_irrefl, if_false]
        refine ⟨_, _, _, rfl, Grows.refl _, ⟨hcv, hP _ hcn⟩, ?_, hcache, by intro cj h; omega⟩
        intro val hs; rw [hval val hs]; simp [zOf]
      · obtain ⟨cj, rfl⟩ : ∃ cj, ci = cj + 1 := ⟨ci - 1, by omega⟩
        rw [if_pos h0]
        simp only [Nat.add_sub_cancel]
        have hin : (List.range ncol)[cj]? = some cj := List.getElem?_range (by omega)
        rw [hin]
        by_cases hv1 : v = 1
        · rw [if_pos hv1]
          refine ⟨_, _, _, rfl, Grows.refl _, ⟨by omega, hcp cj rfl⟩, ?_, hcache, by intro c' h; right; omega⟩
          intro val _; rw [hv1]; simp [zOf]
        · rw [if_neg hv1]
          split
          · rename_i x hx
            obtain ⟨h1, h2, h3⟩ := hcache _ _ (lookup_mem _ _ _ hx)
            refine ⟨_, _, _, rfl, Grows.refl _, ⟨h1.1, hP _ h1.2⟩, fun val hs => h3 val hs, hcache, ?_⟩
            intro c' h; left; obtain rfl : cj = c' := by omega
            exact h2
          · obtain ⟨r, c', hb, gr, hrl, hrn, hva, hu1, hu2, -⟩ :=
              binVars_total hg .mul hcv (b := cj) (by omega) (hP _ hcn) (hcp cj rfl)
            simp only [hb]
            obtain ⟨g1, e1⟩ := gr.good_ext hg
            have hvr : ∀ val, Sat c' val → val r = v * val cj := by
              intro val hs
              rw [hva val hs, show arith Kind.mul (val cvar) (val cj) = val cvar * val cj from rfl,
                hval val (e1.sat hs)]
            rw [hni] at hrn
            refine ⟨_, _, _, rfl, gr, ⟨hrl, hP _ hrn⟩, fun val hs => hvr val hs, ?_, ?_⟩
            · intro j m hm
              rcases List.mem_cons.mp hm with hm | hm
              · obtain ⟨rfl, rfl⟩ := Prod.mk.inj hm
                exact ⟨⟨hrl, hrn⟩, hu2, hvr⟩
              · obtain ⟨h1, h2, h3⟩ := hcache j m hm
                exact ⟨⟨lt_of_lt_of_le h1.1 e1.vars, h1.2⟩, e1.used h2, fun val hs => h3 val (e1.sat hs)⟩
            · intro c'' h; left; obtain rfl : cj = c'' := by omega
              exact hu2
    obtain ⟨var, circ, cache', hp, gr, hvl, hvv, hc', hus⟩ := hpick
    obtain ⟨g1, e1⟩ := gr.good_ext hg
    obtain ⟨rows', hpr, ro, rv, rmono, rmem⟩ := pushRow_ok (F := F) (hr.mono e1.vars) t hri hvl
    obtain ⟨st', i1, i2, i3, i4, i5, i6⟩ := ih cvar ⟨circ, rows'⟩ cache' g1
      ((gr.numInputs hg).1.trans hni) hcn ro
      (lt_of_lt_of_le hcv e1.vars) (hnc.trans e1.vars) (fun val hs => hval val (e1.sat hs)) hc'
      (fun p hp => hps p (by simp [hp]))
    obtain ⟨g2, e2⟩ := i2.good_ext g1
    refine ⟨st', ?_, gr.trans i2, i3, ?_, ?_, ?_⟩
    · unfold positionsGo
      rw [hp]
      simp only [bind, Except.bind, hpr]
      exact i1
    · intro val hs u i
      rw [i4 val hs, rv]
      unfold posSum
      rw [List.map_cons, List.sum_cons]
      have := hvv val (e2.sat hs)
      by_cases hui : t = u ∧ ri = i
      · rw [if_pos ⟨hui.1.symm, hui.2.symm⟩, if_pos hui, this]; ring
      · rw [if_neg (fun h => hui ⟨h.1.symm, h.2.symm⟩), if_neg hui]; ring
    · intro u i x hx
      exact i5 u i x (rmono u i x hx)
    · intro rj cj u hm
      rcases List.mem_cons.mp hm with hm | hm
      · obtain ⟨h1, h2, h3⟩ : rj = ri ∧ cj + 1 = ci ∧ u = t := by simpa using hm
        subst h1; subst h2; subst h3
        rcases hus cj rfl with h | rfl
        · exact .inl (e2.used h)
        · exact .inr (i5 _ _ _ rmem)
      · exact i6 rj cj u hm

/-- A successful inner loop has all positions in range. -/
theorem positionsGo_range (v : F) (hv0 : v ≠ 0) (zv n ncol : ℕ) (ps : List (ℕ × ℕ × Mat)) :
    ∀ (cvar : ℕ) (st st' : MulState F) (cache : List (ℕ × ℕ)),
      (∀ t, (st.rows t).length = n) → (∀ j m, (j, m) ∈ cache → j < ncol) →
      positionsGo v cvar zv (List.range ncol) st cache ps = .ok st' →
      (∀ p ∈ ps, p.1 < n ∧ p.2.1 ≤ ncol) ∧ ∀ t, (st'.rows t).length = n := by
  induction ps with
  | nil =>
    intro cvar st st' cache hr _ h
    obtain rfl := Except.ok.inj h
    exact ⟨by simp, hr⟩
  | cons p ps ih =>
    intro cvar st st' cache hr hcache h
    obtain ⟨ri, ci, t⟩ := p
    unfold positionsGo at h
    simp only [bind, Except.bind] at h
    split at h
    · cases h
    · rename_i q hq
      obtain ⟨var, circ, cache'⟩ := q
      split at h
      · cases h
      · rename_i rows' hrows
        have hci : ci ≤ ncol ∧ ∀ j m, (j, m) ∈ cache' → j < ncol := by
          unfold pickVar at hq
          rw [if_neg hv0] at hq
          split_ifs at hq with h0 h1
          · split at hq
            · cases hq
            · rename_i x hx
              have := (List.getElem?_eq_some_iff.mp hx).1
              rw [List.length_range] at this
              cases hq
              exact ⟨by omega, hcache⟩
          · split at hq
            · rename_i x hx
              have := hcache _ _ (lookup_mem _ _ _ hx)
              cases hq
              exact ⟨by omega, hcache⟩
            · split at hq
              · cases hq
              · rename_i x hx
                have := (List.getElem?_eq_some_iff.mp hx).1
                rw [List.length_range] at this
                split at hq
                · cases hq
                · cases hq
                  refine ⟨by omega, ?_⟩
                  intro j m hm
                  rcases List.mem_cons.mp hm with hm | hm
                  · obtain ⟨rfl, rfl⟩ := Prod.mk.inj hm; omega
                  · exact hcache j m hm
          · cases hq
            exact ⟨by omega, hcache⟩
        have hri : ri < n ∧ ∀ u, (rows' u).length = n := by
          unfold pushRow at hrows
          split at hrows
          · cases hrows
          · rename_i row hrow
            cases hrows
            refine ⟨by rw [← hr t]; exact (List.getElem?_eq_some_iff.mp hrow).1, ?_⟩
            intro u
            simp only
            split_ifs
            · rw [List.length_set]; exact hr t
            · exact hr u
        obtain ⟨i1, i2⟩ := ih cvar ⟨circ, rows'⟩ st' cache' hri.2 hci.2 h
        refine ⟨?_, i2⟩
        intro p hp
        rcases List.mem_cons.mp hp with rfl | hp
        · exact ⟨hri.1, hci.1⟩
        · exact i1 p hp

/-- The contribution of all values. -/
def vpSum (val : ℕ → F) (vp : List (F × List (ℕ × ℕ × Mat))) (t : Mat) (i : ℕ) : F :=
  (vp.map (fun e => posSum val e.1 e.2 t i)).sum

theorem valuesGo_ok (zv n ncol : ℕ) (hP : ∀ v, ncol ≤ v → P v)
    (vp : List (F × List (ℕ × ℕ × Mat))) :
    ∀ (cvars : List ℕ) (st : MulState F), (∀ e ∈ vp, e.1 ≠ 0) → Good st.circ →
      st.circ.numInputs = ncol →
      RowsOk P n st.circ.vars.length st.rows → (∀ x ∈ cvars, x < st.circ.vars.length ∧ ncol ≤ x) →
      ncol ≤ st.circ.vars.length → cvars.length = vp.length →
      (∀ val, Sat st.circ val → cvars.map val = vp.map Prod.fst) →
      (∀ e ∈ vp, ∀ p ∈ e.2, p.1 < n ∧ p.2.1 ≤ ncol ∧ ∀ j, p.2.1 = j + 1 → P j) →
      ∃ st', valuesGo zv (List.range ncol) st (vp.zip cvars) = .ok st' ∧
        Grows P st.circ st'.circ ∧ RowsOk P n st'.circ.vars.length st'.rows ∧
        (∀ val, Sat st'.circ val → ∀ t i, rowVal val (st'.rows t) i
          = rowVal val (st.rows t) i + vpSum val vp t i) ∧
        (∀ t i x, x ∈ (st.rows t).getD i [] → x ∈ (st'.rows t).getD i []) ∧
        (∀ e ∈ vp, ∀ ri ci t, (ri, ci + 1, t) ∈ e.2 →
          Used st'.circ ci ∨ ci ∈ (st'.rows t).getD ri []) := by
  induction vp with
  | nil =>
    intro cvars st _ hg _ hr _ _ _ _ _
    exact ⟨st, by simp [valuesGo], Grows.refl _, hr, by simp [vpSum], fun _ _ _ h => h, by simp⟩
  | cons e vp ih =>
    intro cvars st hv0 hg hni hr hcl hnc hlen hval hps
    rcases cvars with _ | ⟨cvar, cvars⟩
    · simp at hlen
    obtain ⟨v, ps⟩ := e
    have hval1 : ∀ val, Sat st.circ val → val cvar = v := by
      intro val hs
      have := hval val hs
      simp only [List.map_cons, List.cons.injEq] at this
      exact this.1
    obtain ⟨st1, h1, gr1, ro1, rv1, rm1, ru1⟩ := positionsGo_ok v (hv0 (v, ps) (List.mem_cons_self ..)) zv n ncol hP ps cvar
      st [] hg hni (hcl cvar (List.mem_cons_self ..)).2 hr (hcl cvar (List.mem_cons_self ..)).1 hnc hval1 (by simp) (hps (v, ps) (by simp))
    obtain ⟨g1, e1⟩ := gr1.good_ext hg
    obtain ⟨st', i1, i2, i3, i4, i5, i6⟩ := ih cvars st1 (fun e he => hv0 e (by simp [he])) g1
      ((gr1.numInputs hg).1.trans hni) ro1
      (fun x hx => ⟨lt_of_lt_of_le (hcl x (by simp [hx])).1 e1.vars, (hcl x (by simp [hx])).2⟩) (hnc.trans e1.vars)
      (by simpa using hlen) (by
        intro val hs
        have := hval val (e1.sat hs)
        simp only [List.map_cons, List.cons.injEq] at this
        exact this.2) (fun e he => hps e (by simp [he]))
    obtain ⟨g2, e2⟩ := i2.good_ext g1
    refine ⟨st', ?_, gr1.trans i2, i3, ?_, fun t i x hx => i5 t i x (rm1 t i x hx), ?_⟩
    · rw [List.zip_cons_cons]
      unfold valuesGo
      rw [h1]
      exact i1
    · intro val hs t i
      rw [i4 val hs, rv1 val (e2.sat hs)]
      unfold vpSum
      rw [List.map_cons, List.sum_cons, add_assoc]
    · intro e he ri ci t hm
      rcases List.mem_cons.mp he with rfl | he
      · rcases ru1 ri ci t hm with h | h
        · exact .inl (e2.used h)
        · exact .inr (i5 _ _ _ h)
      · exact i6 e he ri ci t hm

theorem valuesGo_range (zv n ncol : ℕ) (vp : List (F × List (ℕ × ℕ × Mat))) :
    ∀ (cvars : List ℕ) (st st' : MulState F), (∀ e ∈ vp, e.1 ≠ 0) → cvars.length = vp.length →
      (∀ t, (st.rows t).length = n) → valuesGo zv (List.range ncol) st (vp.zip cvars) = .ok st' →
      ∀ e ∈ vp, ∀ p ∈ e.2, p.1 < n ∧ p.2.1 ≤ ncol := by
  induction vp with
  | nil => intro cvars st st' _ _ _ _ e he; cases he
  | cons e vp ih =>
    intro cvars st st' hv0 hlen hr h
    rcases cvars with _ | ⟨cvar, cvars⟩
    · simp at hlen
    obtain ⟨v, ps⟩ := e
    rw [List.zip_cons_cons] at h
    unfold valuesGo at h
    simp only [bind, Except.bind] at h
    split at h
    · cases h
    · rename_i st1 h1
      obtain ⟨r1, r2⟩ := positionsGo_range v (hv0 (v, ps) (List.mem_cons_self ..)) zv n ncol ps cvar st st1 [] hr
        (by simp) h1
      intro e he
      rcases List.mem_cons.mp he with rfl | he
      · exact r1
      · exact ih cvars st1 st' (fun e he => hv0 e (by simp [he])) (by simpa using hlen) r2 h e he

theorem sumRowGo_ok (ncol : ℕ) (hP : ∀ v, ncol ≤ v → P v) (row : List ℕ) :
    ∀ (c : Circuit F) (acc : ℕ), Good c → c.numInputs = ncol → (acc < c.vars.length ∧ P acc) →
    (∀ v ∈ row, v < c.vars.length ∧ P v) →
    ∃ r c', sumRowGo c acc row = .ok (r, c') ∧ Grows P c c' ∧ (r < c'.vars.length ∧ P r) ∧
      (∀ val, Sat c' val → val r = val acc + (row.map val).sum) ∧
      (∀ v, v = acc ∨ v ∈ row → Used c' v ∨ r = v) := by
  induction row with
  | nil =>
    intro c acc hg _ ha _
    exact ⟨acc, c, rfl, Grows.refl c, ha, by simp, by simp⟩
  | cons x row ih =>
    intro c acc hg hni ha hrow
    obtain ⟨r, c1, hb, gr, hr, hrn, hv, u1, u2, -⟩ := binVars_total hg .add ha.1
      (hrow x (by simp)).1 ha.2 (hrow x (by simp)).2
    obtain ⟨g1, e1⟩ := gr.good_ext hg
    obtain ⟨r', c2, i1, i2, i3, i4, i5⟩ := ih c1 r g1
      ((gr.numInputs hg).1.trans hni) ⟨hr, hP _ (hni ▸ hrn)⟩
      (fun v hv => ⟨lt_of_lt_of_le (hrow v (by simp [hv])).1 e1.vars, (hrow v (by simp [hv])).2⟩)
    obtain ⟨g2, e2⟩ := i2.good_ext g1
    refine ⟨r', c2, ?_, gr.trans i2, i3, ?_, ?_⟩
    · unfold sumRowGo
      rw [hb]; exact i1
    · intro val hs
      rw [i4 val hs, hv val (e2.sat hs), List.map_cons, List.sum_cons]
      show val acc + val x + _ = _
      ring
    · intro v hv
      rcases hv with rfl | hv
      · exact .inl (e2.used u1)
      rcases List.mem_cons.mp hv with rfl | hv
      · exact .inl (e2.used u2)
      · exact i5 v (.inr hv)

theorem sumRows_ok (ncol : ℕ) (hP : ∀ v, ncol ≤ v → P v) (rows : List (List ℕ)) :
    ∀ (c : Circuit F) (zv : ℕ), Good c → c.numInputs = ncol → ncol ≤ zv →
    zv < c.vars.length → (∀ val, Sat c val → val zv = 0) →
    (∀ row ∈ rows, ∀ v ∈ row, v < c.vars.length ∧ P v) →
    ∃ vs c', sumRows c zv rows = .ok (vs, c') ∧ Grows P c c' ∧ vs.length = rows.length ∧
      (∀ v ∈ vs, v < c'.vars.length ∧ P v) ∧
      (∀ val, Sat c' val → vs.map val = rows.map (fun row => (row.map val).sum)) ∧
      (∀ i v, v ∈ rows.getD i [] → Used c' v ∨ vs[i]? = some v) := by
  induction rows with
  | nil =>
    intro c zv hg _ _ hz hzv hr
    exact ⟨[], c, rfl, Grows.refl c, rfl, by simp, by simp, by simp⟩
  | cons row rows ih =>
    intro c zv hg hni hzn hz hzv hr
    have hfirst : ∃ r c1, (match row with
      | [] => Except.ok (zv, c)
      | x :: l => sumRowGo c x l : Res (ℕ × Circuit F)) = .ok (r, c1) ∧ Grows P c c1 ∧
        (r < c1.vars.length ∧ P r) ∧ (∀ val, Sat c1 val → val r = (row.map val).sum) ∧
        (∀ v ∈ row, Used c1 v ∨ r = v) := by
      rcases row with _ | ⟨x, l⟩
      · exact ⟨zv, c, rfl, Grows.refl c, ⟨hz, hP _ hzn⟩, by simpa using hzv, by simp⟩
      · obtain ⟨r, c1, h1, h2, h3, h4, h5⟩ := sumRowGo_ok ncol hP l c x hg hni (hr (x :: l) (List.mem_cons_self ..) x (List.mem_cons_self ..))
          (fun v hv => hr (x :: l) (List.mem_cons_self ..) v (List.mem_cons_of_mem _ hv))
        exact ⟨r, c1, h1, h2, h3, by simpa using h4,
          fun v hv => h5 v (List.mem_cons.mp hv)⟩
    obtain ⟨r, c1, h1, gr, hrl, hv, hu⟩ := hfirst
    obtain ⟨g1, e1⟩ := gr.good_ext hg
    obtain ⟨vs, c2, i1, i2, i0, i3, i4, i5⟩ := ih c1 zv g1 ((gr.numInputs hg).1.trans hni) hzn
      (lt_of_lt_of_le hz e1.vars)
      (fun val hs => hzv val (e1.sat hs))
      (fun row hrow v hv => ⟨lt_of_lt_of_le (hr row (by simp [hrow]) v hv).1 e1.vars,
        (hr row (by simp [hrow]) v hv).2⟩)
    obtain ⟨g2, e2⟩ := i2.good_ext g1
    refine ⟨r :: vs, c2, ?_, gr.trans i2, by rw [List.length_cons, List.length_cons, i0], ?_, ?_, ?_⟩
    · unfold sumRows
      rcases row with _ | ⟨x, l⟩
      · obtain ⟨rfl, rfl⟩ := Prod.mk.inj (Except.ok.inj h1)
        simp only [bind, Except.bind, i1, pure, Except.pure]
      · simp only at h1
        simp only [bind, Except.bind, h1, i1, pure, Except.pure]
    · intro v hvm
      rcases List.mem_cons.mp hvm with rfl | hvm
      · exact ⟨lt_of_lt_of_le hrl.1 e2.vars, hrl.2⟩
      · exact i3 v hvm
    · intro val hs
      rw [List.map_cons, List.map_cons, i4 val hs, hv val (e2.sat hs)]
    · intro i v hvm
      rcases i with _ | i
      · rcases hu v (by simpa using hvm) with h | rfl
        · exact .inl (e2.used h)
        · exact .inr rfl
      · exact i5 i v (by simpa using hvm)

end Circuit
end VO
