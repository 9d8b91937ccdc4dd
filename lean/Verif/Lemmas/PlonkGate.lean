import Verif.Lemmas.PlonkCore

/-
What `pushGate` and `addInput` do to a well-formed composer.
-/

set_option linter.unusedSectionVars false

namespace VO.Plonk

open VO.Spec.Plonk

section Perm

/-- The wire map after pushing `p` under `x`. -/
def permAdd (perm : List (List WireData)) (x : Var) (p : WireData) : List (List WireData) :=
  perm.set x (perm.getD x [] ++ [p])

/-- Position `p` is listed under `x`. -/
def OnP (perm : List (List WireData)) (x : Var) (p : WireData) : Prop :=
  ∃ ws, perm[x]? = some ws ∧ p ∈ ws

theorem permAdd_length (perm : List (List WireData)) (x : Var) (p : WireData) :
    (permAdd perm x p).length = perm.length := by simp [permAdd]

theorem onP_permAdd {perm : List (List WireData)} {x : Var} {p : WireData} (hx : x < perm.length)
    (y : Var) (q : WireData) :
    OnP (permAdd perm x p) y q ↔ OnP perm y q ∨ (y = x ∧ q = p) := by
  unfold OnP permAdd
  rw [List.getD_eq_getElem?_getD, List.getElem?_eq_getElem hx]
  by_cases hxy : x = y
  · subst hxy
    rw [List.getElem?_set_self hx, List.getElem?_eq_getElem hx]
    simp [or_comm]
  · rw [List.getElem?_set_ne hxy]
    simp [Ne.symm hxy]

theorem NodP.add {perm : List (List WireData)} (h : NodP perm) {x : Var} {p : WireData}
    (hp : ¬ OnP perm x p) : NodP (permAdd perm x p) := by
  intro y ws hy
  unfold permAdd at hy
  rw [List.getElem?_set] at hy
  split at hy
  · next hxy =>
    subst hxy
    split at hy
    · next hx =>
      rw [List.getD_eq_getElem?_getD, List.getElem?_eq_getElem hx] at hy
      simp only [Option.getD_some, Option.some.injEq] at hy
      subst hy
      have h1 := List.getElem?_eq_getElem hx
      rw [List.nodup_append]
      refine ⟨h x _ h1, by simp, ?_⟩
      intro a ha b hb hab
      rw [List.mem_singleton] at hb
      subst hb
      subst hab
      exact hp ⟨_, h1, ha⟩
    · cases hy
  · exact h y ws hy

theorem NodP.input {perm : List (List WireData)} (h : NodP perm) : NodP (perm ++ [[]]) := by
  intro y ws hy
  rw [List.getElem?_append] at hy
  split at hy
  · exact h y ws hy
  · rw [List.getElem?_singleton] at hy
    split at hy
    · simp only [Option.some.injEq] at hy
      subst hy
      simp
    · cases hy

theorem addVariableToMap_run {F : Type} {c : Composer F} {x : Var} {p : WireData}
    (hx : x < c.perm.length) :
    addVariableToMap x p c = .ok ((), { c with perm := permAdd c.perm x p }) := by
  unfold addVariableToMap permAdd
  rw [List.getD_eq_getElem?_getD, List.getElem?_eq_getElem hx]
  rfl

theorem addVariableToMap_lt {F : Type} {c c' : Composer F} {x : Var} {p : WireData} {u : Unit}
    (h : addVariableToMap x p c = .ok (u, c')) : x < c.perm.length := by
  unfold addVariableToMap at h
  cases hx : c.perm[x]? with
  | none => rw [hx] at h; cases h
  | some ws => exact (List.getElem?_eq_some_iff.1 hx).1

theorem onP_append_nil {perm : List (List WireData)} (y : Var) (q : WireData) :
    OnP (perm ++ [[]]) y q ↔ OnP perm y q := by
  unfold OnP
  rcases lt_trichotomy y perm.length with h | h | h
  · rw [List.getElem?_append_left h]
  · subst h
    simp
  · rw [List.getElem?_eq_none (by simp; omega), List.getElem?_eq_none (by omega)]

end Perm

variable {F : Type} [Field F] [DecidableEq F]

theorem onWire_iff (c : Composer F) (x : Var) (p : WireData) : OnWire c x p ↔ OnP c.perm x p :=
  Iff.rfl

theorem addVariablesToMap_run {c : Composer F} {x1 x2 x3 x4 : Var} {i : ℕ}
    (h1 : x1 < c.perm.length) (h2 : x2 < c.perm.length) (h3 : x3 < c.perm.length)
    (h4 : x4 < c.perm.length) :
    ∃ pm, addVariablesToMap x1 x2 x3 x4 i c = .ok ((), { c with perm := pm }) ∧
      pm.length = c.perm.length ∧
      (∀ y q, OnP pm y q ↔ OnP c.perm y q ∨ (y = x1 ∧ q = .left i) ∨ (y = x2 ∧ q = .right i) ∨
        (y = x3 ∧ q = .output i) ∨ (y = x4 ∧ q = .fourth i)) ∧
      (NodP c.perm → (∀ y q, OnP c.perm y q → q.row < i) → NodP pm) := by
  unfold addVariablesToMap
  refine ⟨permAdd (permAdd (permAdd (permAdd c.perm x1 (.left i)) x2 (.right i)) x3 (.output i))
    x4 (.fourth i), ?_, by simp [permAdd_length], ?_, ?_⟩
  · simp only [bindC_ok]
    refine ⟨(), _, addVariableToMap_run h1, (), _, addVariableToMap_run (by simpa [permAdd_length]),
      (), _, addVariableToMap_run (by simpa [permAdd_length]), ?_⟩
    exact addVariableToMap_run (by simpa [permAdd_length])
  · intro y q
    rw [onP_permAdd (by simpa [permAdd_length]), onP_permAdd (by simpa [permAdd_length]),
      onP_permAdd (by simpa [permAdd_length]), onP_permAdd h1]
    simp only [or_assoc]
  · intro hn hr
    have f : ∀ y q, OnP c.perm y q → q.row = i → False := fun y q h e => by
      have := hr y q h; omega
    refine NodP.add (NodP.add (NodP.add (NodP.add hn ?_) ?_) ?_) ?_
    · intro h; exact f _ _ h rfl
    · rw [onP_permAdd h1]
      rintro (h | ⟨_, h⟩)
      · exact f _ _ h rfl
      · cases h
    · rw [onP_permAdd (by simpa [permAdd_length]), onP_permAdd h1]
      rintro ((h | ⟨_, h⟩) | ⟨_, h⟩)
      · exact f _ _ h rfl
      · cases h
      · cases h
    · rw [onP_permAdd (by simpa [permAdd_length]), onP_permAdd (by simpa [permAdd_length]),
        onP_permAdd h1]
      rintro (((h | ⟨_, h⟩) | ⟨_, h⟩) | ⟨_, h⟩)
      · exact f _ _ h rfl
      · cases h
      · cases h
      · cases h

/-- The composer after a gate, given the new wire map. -/
def pushed (c : Composer F) (g : Gate F) (x1 x2 x3 x4 : Var) (pm : List (List WireData)) :
    Composer F :=
  { c with
    n := c.n + 1
    w_l := c.w_l ++ [x1], w_r := c.w_r ++ [x2], w_o := c.w_o ++ [x3], w_4 := c.w_4 ++ [x4]
    q_m := c.q_m ++ [g.m], q_l := c.q_l ++ [g.l], q_r := c.q_r ++ [g.r], q_o := c.q_o ++ [g.o]
    q_4 := c.q_4 ++ [g.q4], q_c := c.q_c ++ [g.c], q_hl := c.q_hl ++ [g.hl]
    q_hr := c.q_hr ++ [g.hr], q_h4 := c.q_h4 ++ [g.h4], q_arith := c.q_arith ++ [g.arith]
    q_range := c.q_range ++ [g.range], q_logic := c.q_logic ++ [g.logic]
    q_fixed_group_add := c.q_fixed_group_add ++ [g.fixed]
    q_variable_group_add := c.q_variable_group_add ++ [g.var]
    q_lookup := c.q_lookup ++ [g.lookup]
    perm := pm }

theorem pushGate_run {c : Composer F} {x1 x2 x3 x4 : Var} (g : Gate F)
    (h1 : x1 < c.perm.length) (h2 : x2 < c.perm.length) (h3 : x3 < c.perm.length)
    (h4 : x4 < c.perm.length) :
    ∃ pm, pushGate g x1 x2 x3 x4 c = .ok ((), pushed c g x1 x2 x3 x4 pm) ∧
      pm.length = c.perm.length ∧
      (∀ y q, OnP pm y q ↔ OnP c.perm y q ∨ (y = x1 ∧ q = .left c.n) ∨ (y = x2 ∧ q = .right c.n) ∨
        (y = x3 ∧ q = .output c.n) ∨ (y = x4 ∧ q = .fourth c.n)) ∧
      (NodP c.perm → (∀ y q, OnP c.perm y q → q.row < c.n) → NodP pm) := by
  obtain ⟨pm, hpm, hl, hon, hnd⟩ := addVariablesToMap_run (c := { c with
    w_l := c.w_l ++ [x1], w_r := c.w_r ++ [x2], w_o := c.w_o ++ [x3], w_4 := c.w_4 ++ [x4]
    q_m := c.q_m ++ [g.m], q_l := c.q_l ++ [g.l], q_r := c.q_r ++ [g.r], q_o := c.q_o ++ [g.o]
    q_4 := c.q_4 ++ [g.q4], q_c := c.q_c ++ [g.c], q_hl := c.q_hl ++ [g.hl]
    q_hr := c.q_hr ++ [g.hr], q_h4 := c.q_h4 ++ [g.h4], q_arith := c.q_arith ++ [g.arith]
    q_range := c.q_range ++ [g.range], q_logic := c.q_logic ++ [g.logic]
    q_fixed_group_add := c.q_fixed_group_add ++ [g.fixed]
    q_variable_group_add := c.q_variable_group_add ++ [g.var]
    q_lookup := c.q_lookup ++ [g.lookup] }) (i := c.n) h1 h2 h3 h4
  refine ⟨pm, ?_, hl, hon, hnd⟩
  unfold pushGate
  simp only [bindC_ok]
  exact ⟨(), _, rfl, (), _, rfl, (), _, rfl, (), _, rfl, (), _, rfl, c.n, _, rfl, (), _, hpm, rfl⟩

theorem pushGate_valid {c c' : Composer F} {x1 x2 x3 x4 : Var} {g : Gate F} {u : Unit}
    (h : pushGate g x1 x2 x3 x4 c = .ok (u, c')) :
    x1 < c.perm.length ∧ x2 < c.perm.length ∧ x3 < c.perm.length ∧ x4 < c.perm.length := by
  unfold pushGate addVariablesToMap at h
  simp only [bindC_ok] at h
  obtain ⟨_, _, e1, _, _, e2, _, _, e3, _, _, e4, _, _, e5, _, _, e6, _, _,
    ⟨_, _, a1, _, _, a2, _, _, a3, a4⟩, _⟩ := h
  cases e1; cases e2; cases e3; cases e4; cases e5; cases e6
  have h1 := addVariableToMap_lt a1
  rw [addVariableToMap_run h1] at a1
  cases a1
  have h2 := addVariableToMap_lt a2
  rw [addVariableToMap_run h2] at a2
  cases a2
  have h3 := addVariableToMap_lt a3
  rw [addVariableToMap_run h3] at a3
  cases a3
  have h4 := addVariableToMap_lt a4
  simp only [permAdd_length] at h1 h2 h3 h4
  exact ⟨h1, h2, h3, h4⟩

theorem getD_append_left' {α : Type} {l t : List α} {i : ℕ} (d : α) (h : i < l.length) :
    (l ++ t).getD i d = l.getD i d := by
  simp [List.getD_eq_getElem?_getD, List.getElem?_append_left h]

theorem getD_append_at {α : Type} {l : List α} {i : ℕ} (d x : α) (h : l.length = i) :
    (l ++ [x]).getD i d = x := by
  subst h
  simp [List.getD_eq_getElem?_getD]

theorem gateAt_pushed_lt {c : Composer F} (hl : Lens c c.n) {g : Gate F} {x1 x2 x3 x4 : Var}
    {pm : List (List WireData)} {i : ℕ} (hi : i < c.n) :
    gateAt (pushed c g x1 x2 x3 x4 pm) i = gateAt c i := by
  unfold gateAt pushed
  simp only
  rw [getD_append_left' _ (by rw [hl.q_m]; exact hi), getD_append_left' _ (by rw [hl.q_l]; exact hi),
    getD_append_left' _ (by rw [hl.q_r]; exact hi), getD_append_left' _ (by rw [hl.q_o]; exact hi),
    getD_append_left' _ (by rw [hl.q_4]; exact hi), getD_append_left' _ (by rw [hl.q_c]; exact hi),
    getD_append_left' _ (by rw [hl.q_hl]; exact hi),
    getD_append_left' _ (by rw [hl.q_hr]; exact hi),
    getD_append_left' _ (by rw [hl.q_h4]; exact hi),
    getD_append_left' _ (by rw [hl.q_arith]; exact hi),
    getD_append_left' _ (by rw [hl.q_range]; exact hi),
    getD_append_left' _ (by rw [hl.q_logic]; exact hi),
    getD_append_left' _ (by rw [hl.q_fixed]; exact hi),
    getD_append_left' _ (by rw [hl.q_var]; exact hi),
    getD_append_left' _ (by rw [hl.q_lookup]; exact hi)]

theorem gateAt_pushed_eq {c : Composer F} (hl : Lens c c.n) {g : Gate F} {x1 x2 x3 x4 : Var}
    {pm : List (List WireData)} :
    gateAt (pushed c g x1 x2 x3 x4 pm) c.n = g := by
  unfold gateAt pushed
  simp only
  rw [getD_append_at _ _ hl.q_m, getD_append_at _ _ hl.q_l, getD_append_at _ _ hl.q_r,
    getD_append_at _ _ hl.q_o, getD_append_at _ _ hl.q_4, getD_append_at _ _ hl.q_c,
    getD_append_at _ _ hl.q_hl, getD_append_at _ _ hl.q_hr, getD_append_at _ _ hl.q_h4,
    getD_append_at _ _ hl.q_arith, getD_append_at _ _ hl.q_range, getD_append_at _ _ hl.q_logic,
    getD_append_at _ _ hl.q_fixed, getD_append_at _ _ hl.q_var, getD_append_at _ _ hl.q_lookup]

/-- What a gate leaves behind. `pi` is the public input of the new row. -/
structure Added (c c' : Composer F) (g : Gate F) (x1 x2 x3 x4 : Var) (pi : Option F) :
    Prop where
  ext : Ext c c'
  n : c'.n = c.n + 1
  gate : gateAt c' c.n = g
  left : OnWire c' x1 (.left c.n)
  right : OnWire c' x2 (.right c.n)
  output : OnWire c' x3 (.output c.n)
  fourth : OnWire c' x4 (.fourth c.n)
  vars : c'.variables = c.variables
  table : c'.lookup_table = c.lookup_table
  pub : ownPub c' c.n = pi.getD 0
  int : c.n ∈ c'.intended_pi_pos ↔ pi.isSome
  valid : x1 < c.variables.length ∧ x2 < c.variables.length ∧ x3 < c.variables.length ∧
    x4 < c.variables.length

theorem getElem?_append_some {α : Type} {l t : List α} {i : ℕ} {x : α} (h : l[i]? = some x) :
    (l ++ t)[i]? = some x := by
  rw [List.getElem?_append_left (List.getElem?_eq_some_iff.1 h).1]
  exact h

/-- The public-input lookup on a list of entries. -/
def pubOf (ps : List (ℕ × F)) (i : ℕ) : F :=
  match ps.find? (fun e => e.1 == i) with
  | some e => e.2
  | none => 0

theorem ownPub_eq (c : Composer F) (i : ℕ) : ownPub c i = pubOf c.public_inputs i := rfl

theorem mem_btreeInsert {pos : ℕ} {val : F} {l : List (ℕ × F)} {e : ℕ × F} :
    e ∈ btreeInsert pos val l ↔ e = (pos, val) ∨ e ∈ l := by
  induction l with
  | nil => simp [btreeInsert]
  | cons h t ih =>
    obtain ⟨k, x⟩ := h
    unfold btreeInsert
    split
    · simp
    · simp only [List.mem_cons, ih]
      tauto

theorem pubOf_btreeInsert {pos : ℕ} {val : F} {l : List (ℕ × F)} (hl : ∀ e ∈ l, e.1 ≠ pos)
    (i : ℕ) : pubOf (btreeInsert pos val l) i = if i = pos then val else pubOf l i := by
  induction l with
  | nil =>
    unfold btreeInsert pubOf
    by_cases h : i = pos
    · subst h; simp
    · have : ¬ pos = i := fun h' => h h'.symm
      simp [h, this]
  | cons h t ih =>
    obtain ⟨k, x⟩ := h
    have ih := ih (fun e he => hl e (List.mem_cons_of_mem _ he))
    have hk : k ≠ pos := hl (k, x) (List.mem_cons_self ..)
    unfold btreeInsert
    split
    · unfold pubOf
      by_cases h : i = pos
      · subst h; simp
      · have : ¬ pos = i := fun h' => h h'.symm
        simp [h, this, List.find?_cons]
    · unfold pubOf at ih ⊢
      rw [List.find?_cons, List.find?_cons]
      by_cases h : i = pos
      · subst h
        have : (k == i) = false := by simpa using hk
        simp only [this]
        rw [ih]
        simp
      · by_cases hki : k = i
        · subst hki; simp [h]
        · have : (k == i) = false := by simpa using hki
          simp only [this]
          rw [ih]

theorem addPiOpt_run {c : Composer F} (hi : ∀ i ∈ c.intended_pi_pos, i < c.n)
    (hp : ∀ e ∈ c.public_inputs, e.1 ∈ c.intended_pi_pos) (pi : Option F) :
    ∃ ps ip, addPiOpt pi c = .ok ((), { c with public_inputs := ps, intended_pi_pos := ip }) ∧
      (∀ i, pubOf ps i = if i = c.n then pi.getD 0 else pubOf c.public_inputs i) ∧
      (∀ i, i ∈ ip ↔ i ∈ c.intended_pi_pos ∨ (pi.isSome ∧ i = c.n)) ∧
      (∀ e ∈ ps, e.1 ∈ ip) := by
  have hne : ∀ e ∈ c.public_inputs, e.1 ≠ c.n := fun e he h => by
    have := hi _ (hp e he)
    omega
  have hz : pubOf c.public_inputs c.n = 0 := by
    unfold pubOf
    have : c.public_inputs.find? (fun e => e.1 == c.n) = none := by
      rw [List.find?_eq_none]
      intro e he
      simpa using hne e he
    rw [this]
  cases pi with
  | none =>
    refine ⟨c.public_inputs, c.intended_pi_pos, rfl, ?_, by simp, hp⟩
    intro i
    split
    · next h => subst h; simpa using hz
    · rfl
  | some val =>
    have hany : (c.public_inputs.any fun e => e.1 == c.n) = false := by
      rw [List.any_eq_false]
      intro e he
      simpa using hne e he
    by_cases hv : val = 0
    · refine ⟨c.public_inputs, c.intended_pi_pos ++ [c.n], ?_, ?_, by simp, ?_⟩
      · simp [addPiOpt, addPi, piInsert, hany, hv]
      · intro i
        split
        · next h => subst h; simpa [hv] using hz
        · rfl
      · intro e he
        exact List.mem_append_left _ (hp e he)
    · refine ⟨btreeInsert c.n val c.public_inputs, c.intended_pi_pos ++ [c.n], ?_, ?_, by simp, ?_⟩
      · simp [addPiOpt, addPi, piInsert, hany, hv]
      · intro i
        rw [pubOf_btreeInsert hne]
        rfl
      · intro e he
        rcases mem_btreeInsert.1 he with rfl | he
        · simp
        · exact List.mem_append_left _ (hp e he)

/-- A gate together with the public input of its row, without the condition that the new row is
closed. -/
theorem addedGate_runO {c : Composer F} (hw : WFo c) (g : Gate F) {x1 x2 x3 x4 : Var}
    (h1 : x1 < c.variables.length) (h2 : x2 < c.variables.length) (h3 : x3 < c.variables.length)
    (h4 : x4 < c.variables.length) (pi : Option F) :
    ∃ c', (addPiOpt pi >>= fun _ => pushGate g x1 x2 x3 x4 : CM F Unit) c = .ok ((), c') ∧
      WFo c' ∧ Added c c' g x1 x2 x3 x4 pi := by
  obtain ⟨ps, ip, hrun, hps, hip, hpi⟩ := addPiOpt_run hw.int hw.pis pi
  obtain ⟨pm, hpush, hlen, hon, hnd⟩ := pushGate_run (c := { c with
    public_inputs := ps, intended_pi_pos := ip }) g (x1 := x1) (x2 := x2) (x3 := x3) (x4 := x4)
    (by rw [← hw.permLen] at h1; exact h1) (by rw [← hw.permLen] at h2; exact h2)
    (by rw [← hw.permLen] at h3; exact h3) (by rw [← hw.permLen] at h4; exact h4)
  simp only at hlen hon
  set c' := pushed { c with public_inputs := ps, intended_pi_pos := ip } g x1 x2 x3 x4 pm with hc'
  have hwv : ∀ p x, wireVar c p = some x → wireVar c' p = some x := by
    intro p x h
    cases p <;> exact getElem?_append_some h
  have hext : Ext c c' := by
    refine ⟨Nat.le_succ _, ?_, rfl, ?_, hwv, List.prefix_refl _, ?_, fun _ h => h, ?_, ?_, ?_⟩
    · intro i hi
      exact gateAt_pushed_lt (c := { c with public_inputs := ps, intended_pi_pos := ip })
        ⟨hw.sel.1, hw.sel.2, hw.sel.3, hw.sel.4, hw.sel.5, hw.sel.6, hw.sel.7, hw.sel.8, hw.sel.9,
          hw.sel.10, hw.sel.11, hw.sel.12, hw.sel.13, hw.sel.14, hw.sel.15⟩ hi
    · intro x p h
      exact (hon x p).2 (Or.inl h)
    · show c.perm.length ≤ pm.length
      omega
    · intro i hi
      show i ∈ ip ↔ _
      rw [hip]
      constructor
      · rintro (h | ⟨_, h⟩)
        · exact h
        · omega
      · exact Or.inl
    · intro i hi
      show pubOf ps i = pubOf c.public_inputs i
      rw [hps, if_neg (by omega)]
    · intro x p hp
      rcases (hon x p).1 hp with h | ⟨-, rfl⟩ | ⟨-, rfl⟩ | ⟨-, rfl⟩ | ⟨-, rfl⟩
      · exact Or.inl h
      all_goals exact Or.inr (le_refl _)
  have hgate : gateAt c' c.n = g :=
    gateAt_pushed_eq (c := { c with public_inputs := ps, intended_pi_pos := ip })
        ⟨hw.sel.1, hw.sel.2, hw.sel.3, hw.sel.4, hw.sel.5, hw.sel.6, hw.sel.7, hw.sel.8, hw.sel.9,
          hw.sel.10, hw.sel.11, hw.sel.12, hw.sel.13, hw.sel.14, hw.sel.15⟩
  have hnew : ∀ {l : List ℕ} {x : ℕ}, l.length = c.n → (l ++ [x])[c.n]? = some x := by
    intro l x h
    rw [← h]
    simp
  refine ⟨c', ?_, ?_, ⟨hext, rfl, hgate, (hon _ _).2 (by simp), (hon _ _).2 (by simp),
    (hon _ _).2 (by simp), (hon _ _).2 (by simp), rfl, rfl, ?_, ?_, h1, h2, h3, h4⟩⟩
  · rw [bindC_ok]
    exact ⟨(), _, hrun, hpush⟩
  · refine ⟨?_, by simp [hc', pushed, hw.w_l], by simp [hc', pushed, hw.w_r],
      by simp [hc', pushed, hw.w_o], by simp [hc', pushed, hw.w_4], ?_, hw.zero, ?_, ?_, ?_, hpi,
      ?_, hnd hw.nod hw.rowLt⟩
    · constructor <;> simp [hc', pushed, hw.sel.1, hw.sel.2, hw.sel.3, hw.sel.4, hw.sel.5,
        hw.sel.6, hw.sel.7, hw.sel.8, hw.sel.9, hw.sel.10, hw.sel.11, hw.sel.12, hw.sel.13,
        hw.sel.14, hw.sel.15]
    · show pm.length = c.variables.length
      rw [hlen, hw.permLen]
    · intro x p hp
      rcases (hon x p).1 hp with h | ⟨rfl, rfl⟩ | ⟨rfl, rfl⟩ | ⟨rfl, rfl⟩ | ⟨rfl, rfl⟩
      · exact hwv p x (hw.agree x p h)
      · exact hnew hw.w_l
      · exact hnew hw.w_r
      · exact hnew hw.w_o
      · exact hnew hw.w_4
    · intro p x h
      have key : ∀ {l : List ℕ} {y : ℕ} {i : ℕ}, (l ++ [y])[i]? = some x → l[i]? = some x ∨ x = y := by
        intro l y i h
        rw [List.getElem?_append] at h
        split at h
        · exact Or.inl h
        · right
          rw [List.getElem?_singleton] at h
          split at h
          · simpa [eq_comm] using h
          · cases h
      show x < c.variables.length
      cases p with
      | left i => rcases key h with h | rfl; exacts [hw.valid (.left i) x h, h1]
      | right i => rcases key h with h | rfl; exacts [hw.valid (.right i) x h, h2]
      | output i => rcases key h with h | rfl; exacts [hw.valid (.output i) x h, h3]
      | fourth i => rcases key h with h | rfl; exacts [hw.valid (.fourth i) x h, h4]
    · intro i hi
      show i < c.n + 1
      rcases (hip i).1 hi with h | ⟨_, h⟩
      · have := hw.int i h; omega
      · omega
    · intro E T N pub w v hs
      exact hw.zeroSound E T N pub w v (hext.sat hs)
  · show pubOf ps c.n = _
    rw [hps, if_pos rfl]
  · show c.n ∈ ip ↔ _
    rw [hip]
    constructor
    · rintro (h | ⟨h, _⟩)
      · have := hw.int _ h; omega
      · exact h
    · exact fun h => Or.inr ⟨h, rfl⟩

/-- A gate together with the public input of its row, without the condition that the new row is
closed. -/
theorem addedGate_run' {c : Composer F} (hw : WF c) (g : Gate F) {x1 x2 x3 x4 : Var}
    (h1 : x1 < c.variables.length) (h2 : x2 < c.variables.length) (h3 : x3 < c.variables.length)
    (h4 : x4 < c.variables.length) (pi : Option F) :
    ∃ c', (addPiOpt pi >>= fun _ => pushGate g x1 x2 x3 x4 : CM F Unit) c = .ok ((), c') ∧
      (¬ UsesNext g → WF c') ∧ Added c c' g x1 x2 x3 x4 pi := by
  obtain ⟨c', hr, hwo, ha⟩ := addedGate_runO hw.op g h1 h2 h3 h4 pi
  refine ⟨c', hr, fun hg => hwo.close ?_, ha⟩
  intro i hi
  have hi' : i = c.n := by
    rw [ha.n] at hi
    omega
  rw [hi', ha.gate]
  exact hg

theorem addPiOpt_none_bind {α : Type} (f : CM F α) :
    (addPiOpt (none : Option F) >>= fun _ => f) = f := rfl

theorem addPiOpt_perm {c c' : Composer F} {pi : Option F} {u : Unit}
    (h : addPiOpt pi c = .ok (u, c')) : c'.perm = c.perm ∧ c'.variables = c.variables ∧
      c'.zero_var = c.zero_var := by
  cases pi with
  | none => cases h; exact ⟨rfl, rfl, rfl⟩
  | some val =>
    simp only [addPiOpt, addPi] at h
    split at h
    · cases h; exact ⟨rfl, rfl, rfl⟩
    · cases h

/-- The converse of `addedGate_run'`: a gate that went through. -/
theorem addedGate_fwd {c c' : Composer F} (hw : WF c) {g : Gate F} {x1 x2 x3 x4 : Var}
    (hg : ¬ UsesNext g) {pi : Option F} {u : Unit}
    (h : (addPiOpt pi >>= fun _ => pushGate g x1 x2 x3 x4 : CM F Unit) c = .ok (u, c')) :
    WF c' ∧ Added c c' g x1 x2 x3 x4 pi := by
  obtain ⟨u1, c1, h1, h2⟩ := bindC_ok.1 h
  have hv := pushGate_valid h2
  rw [(addPiOpt_perm h1).1, hw.permLen] at hv
  obtain ⟨c2, hr, hwf, ha⟩ := addedGate_run' hw g hv.1 hv.2.1 hv.2.2.1 hv.2.2.2 pi
  rw [hr] at h
  cases h
  exact ⟨hwf hg, ha⟩

theorem pushGate_fwd {c c' : Composer F} (hw : WF c) {g : Gate F} {x1 x2 x3 x4 : Var}
    (hg : ¬ UsesNext g) {u : Unit} (h : pushGate g x1 x2 x3 x4 c = .ok (u, c')) :
    WF c' ∧ Added c c' g x1 x2 x3 x4 none :=
  addedGate_fwd hw hg (pi := none) h

theorem Added.row {c c' : Composer F} {g : Gate F} {x1 x2 x3 x4 : Var} {pi : Option F}
    (h : Added c c' g x1 x2 x3 x4 pi) {E : EdCurve F} {T : List (F × F × F × F)}
    {N : ℕ} {pub : ℕ → F} {w : WireData → F} {v : Var → F} (hs : Sat E T N c' pub w v) :
    RowOk E T g ⟨v x1, v x2, v x3, v x4, w (.left ((c.n + 1) % N)), w (.right ((c.n + 1) % N)),
      w (.fourth ((c.n + 1) % N))⟩ (pub c.n) := by
  have := hs.rows c.n (by rw [h.n]; omega)
  rw [h.gate] at this
  unfold rowAt at this
  rwa [hs.copy _ _ h.left, hs.copy _ _ h.right, hs.copy _ _ h.output, hs.copy _ _ h.fourth] at this

theorem Added.arith {c c' : Composer F} {g : Gate F} {x1 x2 x3 x4 : Var} {pi : Option F}
    (h : Added c c' g x1 x2 x3 x4 pi) {E : EdCurve F} {T : List (F × F × F × F)}
    {N : ℕ} {pub : ℕ → F} {w : WireData → F} {v : Var → F} (hs : Sat E T N c' pub w v) :
    g.arith * (g.m * v x1 * v x2 + g.l * v x1 + g.r * v x2 + g.o * v x3 + g.q4 * v x4
    + g.hl * v x1 ^ 5 + g.hr * v x2 ^ 5 + g.h4 * v x4 ^ 5 + g.c) + pub c.n = 0 :=
  (h.row hs).arith

theorem Added.pub0 {c c' : Composer F} {g : Gate F} {x1 x2 x3 x4 : Var}
    (h : Added c c' g x1 x2 x3 x4 none) {E : EdCurve F} {T : List (F × F × F × F)}
    {N : ℕ} {pub : ℕ → F} {w : WireData → F} {v : Var → F} (hs : Sat E T N c' pub w v) :
    pub c.n = 0 :=
  hs.pubZero c.n (by rw [h.n]; omega) (by rw [h.int]; simp)

theorem Added.own {c c' : Composer F} {g : Gate F} {x1 x2 x3 x4 : Var} {pi : Option F}
    (h : Added c c' g x1 x2 x3 x4 pi) (hw : WF c) (hw' : WF c') (hg : ¬ UsesNext g)
    {E : EdCurve F} (hs : OwnSat E c)
    (ha : g.arith * (g.m * ownV c x1 * ownV c x2 + g.l * ownV c x1 + g.r * ownV c x2
      + g.o * ownV c x3 + g.q4 * ownV c x4 + g.hl * ownV c x1 ^ 5 + g.hr * ownV c x2 ^ 5
      + g.h4 * ownV c x4 ^ 5 + g.c) + pi.getD 0 = 0)
    (hl : g.lookup ≠ 0 → (ownV c x1, ownV c x2, ownV c x3, ownV c x4) ∈ c.lookup_table) :
    OwnSat E c' := by
  have hv : ∀ x, ownV c' x = ownV c x := fun x => by unfold ownV; rw [h.vars]
  have hW : ∀ x p, OnWire c' x p → ownW c' p = ownV c x := by
    intro x p hp
    rw [← hv]
    unfold ownW
    rw [hw'.agree x p hp]
  refine hs.ext hw hw' h.ext (fun i hi => hw'.ownPub_zero hi) ?_
  intro N hN i h1 h2
  have hi : i = c.n := by rw [h.n] at h2; omega
  subst hi
  rw [h.gate, h.pub]
  have e1 := hW _ _ h.left
  have e2 := hW _ _ h.right
  have e3 := hW _ _ h.output
  have e4 := hW _ _ h.fourth
  unfold UsesNext at hg
  push Not at hg
  refine ⟨?_, fun h' => absurd hg.1 h', fun h' => absurd hg.2.1 h', fun h' => absurd hg.2.2.1 h',
    fun h' => absurd hg.2.2.2 h', ?_⟩
  · unfold ArithOk rowAt
    simp only [e1, e2, e3, e4]
    exact ha
  · intro h'
    unfold rowAt
    simp only [e1, e2, e3, e4, h.table]
    exact hl h'

/-- What a new variable leaves behind. -/
structure NewVar (c c' : Composer F) (x : Var) (s : F) : Prop where
  ext : Ext c c'
  wf : WF c'
  fresh : x = c.variables.length
  n : c'.n = c.n
  vars : c'.variables = c.variables ++ [s]
  val : ownV c' x = s
  table : c'.lookup_table = c.lookup_table
  own : ∀ E, OwnSat E c → OwnSat E c'

theorem addInput_run {c : Composer F} (hw : WF c) (s : F) :
    ∃ c', addInput s c = .ok (c.variables.length, c') ∧ NewVar c c' c.variables.length s := by
  refine ⟨{ c with perm := c.perm ++ [[]], «variables» := c.variables ++ [s] }, ?_, ?_⟩
  · unfold addInput
    rw [hw.permLen]
  set c' : Composer F := { c with perm := c.perm ++ [[]], «variables» := c.variables ++ [s] }
  have hon : ∀ y q, OnWire c' y q ↔ OnWire c y q := fun y q => onP_append_nil y q
  have hext : Ext c c' :=
    ⟨le_refl _, fun _ _ => rfl, rfl, fun x p h => (hon x p).2 h, fun _ _ h => h,
      List.prefix_append _ _, by simp [c'], fun _ h => h, fun _ _ => Iff.rfl, fun _ _ => rfl,
      fun x p h => Or.inl ((hon x p).1 h)⟩
  have hwf : WF c' := by
    refine ⟨⟨hw.sel.1, hw.sel.2, hw.sel.3, hw.sel.4, hw.sel.5, hw.sel.6, hw.sel.7, hw.sel.8,
      hw.sel.9, hw.sel.10, hw.sel.11, hw.sel.12, hw.sel.13, hw.sel.14, hw.sel.15⟩, hw.w_l, hw.w_r,
      hw.w_o, hw.w_4, ?_, ?_, ?_, ?_, hw.int, hw.pis, hw.lastFree, ?_, hw.nod.input⟩
    · simp [c', hw.permLen]
    · have := hw.zero
      simp only [c', List.length_append, List.length_singleton]
      omega
    · intro x p h
      exact hw.agree x p ((hon x p).1 h)
    · intro p x h
      have := hw.valid p x h
      simp only [c', List.length_append, List.length_singleton]
      omega
    · intro E T N pub w v hs
      exact hw.zeroSound E T N pub w v (hext.sat hs)
  refine ⟨hext, hwf, rfl, rfl, rfl, getD_append_at _ _ rfl, rfl, ?_⟩
  intro E hs
  refine hs.ext hw hwf hext (fun i hi => hwf.ownPub_zero hi) ?_
  intro N hN i h1 h2
  exact absurd h2 (not_lt.2 h1)

theorem addInput_fwd {c c' : Composer F} (hw : WF c) {s : F} {x : Var}
    (h : addInput s c = .ok (x, c')) : NewVar c c' x s := by
  obtain ⟨c1, h1, h2⟩ := addInput_run hw s
  rw [h1] at h
  cases h
  exact h2

theorem ownV_of_some {c : Composer F} {x : Var} {s : F} (h : c.variables[x]? = some s) :
    ownV c x = s := by
  simp [ownV, List.getD_eq_getElem?_getD, h]

theorem some_ownV {c : Composer F} {x : Var} (h : x < c.variables.length) :
    c.variables[x]? = some (ownV c x) := by
  simp [ownV, List.getD_eq_getElem?_getD, List.getElem?_eq_getElem h]

theorem valueOfVar_run {c : Composer F} {x : Var} (h : x < c.variables.length) :
    valueOfVar x c = .ok (ownV c x, c) := by
  rw [valueOfVar_ok]
  exact ⟨some_ownV h, rfl⟩

theorem WF.zeroVal {c : Composer F} (hw : WF c) {E : EdCurve F} (hs : OwnSat E c) :
    ownV c c.zero_var = 0 :=
  hw.zeroSound _ _ _ _ _ _ (hs c.n (le_refl _))

end VO.Plonk
