import Verif.Model.Circuit
import Verif.Spec.Circuit
import Verif.Lemmas.R1csTrans

/-
The translation of an R1CS leaves all variables without a value (used by C134).
-/

set_option linter.unusedSectionVars false

namespace VO
open Spec
variable {F : Type} [Field F] [DecidableEq F]

namespace Circuit

/-- No variable has a value. -/
def Blank (c : Circuit F) : Prop := ∀ x ∈ c.vars, x.value = none

theorem blank_addNewVariable {c : Circuit F} (h : Blank c) : Blank c.addNewVariable.2 := by
  intro x hx
  rcases List.mem_append.mp hx with hx | hx
  · exact h x hx
  · rw [List.mem_singleton] at hx; rw [hx]; rfl

theorem blank_set {c : Circuit F} (h : Blank c) (v : ℕ) (y : Variable F) (hy : y.value = none) :
    ∀ x ∈ c.vars.set v y, x.value = none := by
  intro x hx
  rcases List.mem_or_eq_of_mem_set hx with hx | rfl
  · exact h x hx
  · exact hy

theorem blank_attachInput {c : Circuit F} (h : Blank c) (v : ℕ) (w : InputGateWire) :
    Blank (c.attachInput v w).2 := by
  unfold attachInput
  split
  · exact h
  · rename_i x hx
    exact blank_set h _ _ (h x (List.mem_of_getElem? hx))

theorem blank_attachOutput {c : Circuit F} (h : Blank c) (v : ℕ) (w : OutputGateWire) :
    Blank (c.attachOutput v w).2 := by
  unfold attachOutput
  split
  · exact h
  · rename_i x hx
    split_ifs
    · exact h
    · exact blank_set h _ _ (h x (List.mem_of_getElem? hx))

theorem blank_pushGate {c : Circuit F} (h : Blank c) (k : Kind) (g : BinGate) : Blank (c.pushGate k g) := by
  cases k <;> exact h

theorem blank_addBinGate {c : Circuit F} (h : Blank c) (k : Kind) (a b out : ℕ) :
    Blank (c.addBinGate k a b out).2 := by
  unfold addBinGate
  have h0 := blank_pushGate h k ⟨a, b, out⟩
  simp only
  have h1 := blank_attachInput h0 a ⟨k, ((c.pushGate k ⟨a, b, out⟩).gates k).length - 1, .left⟩
  split
  · rename_i heq; rw [heq] at h1; exact h1
  · rename_i c1 heq
    rw [heq] at h1
    have h2 := blank_attachInput h1 b ⟨k, ((c.pushGate k ⟨a, b, out⟩).gates k).length - 1, .right⟩
    split
    · rename_i heq2; rw [heq2] at h2; exact h2
    · rename_i c2 heq2
      rw [heq2] at h2
      exact blank_attachOutput h2 _ _

theorem blank_binVars {c c' : Circuit F} {k : Kind} {a b r : ℕ} (h : Blank c)
    (he : c.binVars k a b = .ok (r, c')) : Blank c' := by
  unfold binVars at he
  simp only at he
  split at he
  · obtain ⟨-, rfl⟩ := Prod.mk.inj (Except.ok.inj he); exact h
  · split at he
    · cases he
    · rename_i c2 heq
      obtain ⟨-, rfl⟩ := Prod.mk.inj (Except.ok.inj he)
      have := blank_addBinGate (blank_addNewVariable h) k (if a < b then (a, b) else (b, a)).1
        (if a < b then (a, b) else (b, a)).2 c.addNewVariable.1
      rw [heq] at this
      cases k <;> exact this

theorem blank_constVar {c c' : Circuit F} {v : F} {r : ℕ} (h : Blank c)
    (he : c.constVar v = .ok (r, c')) : Blank c' := by
  unfold constVar at he
  split at he
  · obtain ⟨-, rfl⟩ := Prod.mk.inj (Except.ok.inj he); exact h
  · simp only at he
    split at he
    · cases he
    · rename_i c2 heq
      obtain ⟨-, rfl⟩ := Prod.mk.inj (Except.ok.inj he)
      unfold addConstGate at heq
      have := blank_attachOutput (c := { c.addNewVariable.2 with
        constGates := c.addNewVariable.2.constGates ++ [⟨c.addNewVariable.1, v⟩] })
        (blank_addNewVariable h) c.addNewVariable.1
        (.const ((c.addNewVariable.2.constGates ++ [(⟨c.addNewVariable.1, v⟩ : ConstGate F)]).length - 1))
      rw [heq] at this
      exact this

theorem blank_addInputs (n : ℕ) : ∀ {c c' : Circuit F} {l : List ℕ}, Blank c →
    addInputs c n = .ok (l, c') → Blank c' := by
  induction n with
  | zero => intro c c' l h he; obtain ⟨-, rfl⟩ := Prod.mk.inj (Except.ok.inj he); exact h
  | succ n ih =>
    intro c c' l h he
    unfold addInputs at he
    simp only [bind, Except.bind] at he
    split at he
    · cases he
    rename_i p hp
    split at he
    · cases he
    rename_i q hq
    obtain ⟨-, rfl⟩ := Prod.mk.inj (Except.ok.inj he)
    refine ih ?_ hq
    unfold addGlobalInputVariable at hp
    split at hp
    · cases hp
    · obtain rfl := Except.ok.inj hp
      exact blank_addNewVariable h

theorem blank_addConsts (vs : List F) : ∀ {c c' : Circuit F} {l : List ℕ}, Blank c →
    addConsts c vs = .ok (l, c') → Blank c' := by
  induction vs with
  | nil => intro c c' l h he; obtain ⟨-, rfl⟩ := Prod.mk.inj (Except.ok.inj he); exact h
  | cons v vs ih =>
    intro c c' l h he
    unfold addConsts at he
    simp only [bind, Except.bind] at he
    split at he
    · cases he
    rename_i p hp
    split at he
    · cases he
    rename_i q hq
    obtain ⟨-, rfl⟩ := Prod.mk.inj (Except.ok.inj he)
    exact ih (blank_constVar h hp) hq

theorem blank_pickVar {v : F} {cvar zv : ℕ} {inputs : List ℕ} {c c' : Circuit F} {cache cache' : List (ℕ × ℕ)}
    {ci x : ℕ} (h : Blank c) (he : pickVar v cvar zv inputs c cache ci = .ok (x, c', cache')) : Blank c' := by
  unfold pickVar at he
  split_ifs at he
  · obtain ⟨-, rfl, -⟩ := (by simpa using Except.ok.inj he : _ ∧ _ ∧ _); exact h
  · split at he
    · cases he
    · obtain ⟨-, rfl, -⟩ := (by simpa using Except.ok.inj he : _ ∧ _ ∧ _); exact h
  · split at he
    · obtain ⟨-, rfl, -⟩ := (by simpa using Except.ok.inj he : _ ∧ _ ∧ _); exact h
    · split at he
      · cases he
      · split at he
        · cases he
        · rename_i hb
          obtain ⟨-, rfl, -⟩ := (by simpa using Except.ok.inj he : _ ∧ _ ∧ _)
          exact blank_binVars h hb
  · obtain ⟨-, rfl, -⟩ := (by simpa using Except.ok.inj he : _ ∧ _ ∧ _); exact h

theorem blank_positionsGo (v : F) (cvar zv : ℕ) (inputs : List ℕ) (l : List (ℕ × ℕ × Mat)) :
    ∀ {st st' : MulState F} {cache : List (ℕ × ℕ)}, Blank st.circ →
    positionsGo v cvar zv inputs st cache l = .ok st' → Blank st'.circ := by
  induction l with
  | nil => intro st st' cache h he; obtain rfl := Except.ok.inj he; exact h
  | cons q l ih =>
    obtain ⟨ri, ci, t⟩ := q
    intro st st' cache h he
    unfold positionsGo at he
    simp only [bind, Except.bind] at he
    split at he
    · cases he
    rename_i p hp
    split at he
    · cases he
    exact ih (blank_pickVar h hp) he

theorem blank_valuesGo (zv : ℕ) (inputs : List ℕ) (l : List ((F × List (ℕ × ℕ × Mat)) × ℕ)) :
    ∀ {st st' : MulState F}, Blank st.circ → valuesGo zv inputs st l = .ok st' → Blank st'.circ := by
  induction l with
  | nil => intro st st' h he; obtain rfl := Except.ok.inj he; exact h
  | cons q l ih =>
    obtain ⟨⟨v, ps⟩, cvar⟩ := q
    intro st st' h he
    unfold valuesGo at he
    simp only [bind, Except.bind] at he
    split at he
    · cases he
    rename_i st1 hp
    exact ih (blank_positionsGo _ _ _ _ _ h hp) he

theorem blank_sumRowGo (l : List ℕ) : ∀ {c c' : Circuit F} {acc r : ℕ}, Blank c →
    sumRowGo c acc l = .ok (r, c') → Blank c' := by
  induction l with
  | nil => intro c c' acc r h he; obtain ⟨-, rfl⟩ := Prod.mk.inj (Except.ok.inj he); exact h
  | cons v l ih =>
    intro c c' acc r h he
    unfold sumRowGo at he
    simp only [bind, Except.bind] at he
    split at he
    · cases he
    rename_i p hp
    exact ih (blank_binVars h hp) he

theorem blank_sumRows (zv : ℕ) (rows : List (List ℕ)) : ∀ {c c' : Circuit F} {l : List ℕ}, Blank c →
    sumRows c zv rows = .ok (l, c') → Blank c' := by
  induction rows with
  | nil => intro c c' l h he; obtain ⟨-, rfl⟩ := Prod.mk.inj (Except.ok.inj he); exact h
  | cons row rows ih =>
    intro c c' l h he
    unfold sumRows at he
    simp only [bind, Except.bind] at he
    split at he
    · cases he
    rename_i p hp
    split at he
    · cases he
    rename_i q hq
    obtain ⟨-, rfl⟩ := Prod.mk.inj (Except.ok.inj he)
    refine ih ?_ hq
    split at hp
    · obtain rfl := Except.ok.inj hp; exact h
    · exact blank_sumRowGo _ h hp

theorem blank_rowChecks (zv : ℕ) (l : List ((ℕ × ℕ) × ℕ)) : ∀ {c c' : Circuit F}, Blank c →
    rowChecks c zv l = .ok c' → Blank c' := by
  induction l with
  | nil => intro c c' h he; obtain rfl := Except.ok.inj he; exact h
  | cons q l ih =>
    obtain ⟨⟨a, b⟩, s⟩ := q
    intro c c' h he
    unfold rowChecks at he
    simp only [bind, Except.bind] at he
    split at he
    · cases he
    rename_i p hp
    split at he
    · cases he
    rename_i q hq
    split at he
    · cases he
    · rename_i c3 h3
      refine ih ?_ he
      unfold assertEqual at h3
      split_ifs at h3
      obtain rfl := Except.ok.inj h3
      have hb : Blank q.2 := blank_binVars (blank_binVars h hp) hq
      exact hb

theorem blank_markPublics (l : List ℕ) : ∀ {c c' : Circuit F}, Blank c → markPublics c l = .ok c' → Blank c' := by
  induction l with
  | nil => intro c c' h he; obtain rfl := Except.ok.inj he; exact h
  | cons v l ih =>
    intro c c' h he
    unfold markPublics at he
    simp only [bind, Except.bind] at he
    split at he
    · cases he
    rename_i c1 h1
    refine ih ?_ he
    unfold markVariableAsPublic at h1
    split at h1
    · cases h1
    · split at h1
      · obtain rfl := Except.ok.inj h1; exact h
      · obtain rfl := Except.ok.inj h1; exact h
      · cases h1

theorem blank_markAsComplete {c : Circuit F} (h : Blank c) : Blank c.markAsComplete.2 := by
  unfold markAsComplete
  split_ifs
  · exact h
  · split
    · exact h
    · simp only
      split_ifs <;> exact h

theorem blank_ofR1CS {perm : List (F × List (ℕ × ℕ × Mat)) → List (F × List (ℕ × ℕ × Mat))} {r : R1CS F}
    {c : Circuit F} (he : ofR1CS perm r = .ok c) : Blank c := by
  unfold ofR1CS at he
  split_ifs at he
  simp only [bind, Except.bind] at he
  split at he
  · cases he
  rename_i p0 h0
  split at he
  · cases he
  rename_i p1 h1
  split at he
  · cases he
  rename_i p2 h2
  split at he
  · cases he
  rename_i st h3
  split at he
  · cases he
  rename_i p4 h4
  split at he
  · cases he
  rename_i p5 h5
  split at he
  · cases he
  rename_i p6 h6
  split at he
  · cases he
  rename_i c7 h7
  split at he
  · cases he
  rename_i c8 h8
  have b0 : Blank p0.2 := blank_addInputs _ (by intro x hx; cases hx) h0
  have b1 : Blank p1.2 := blank_constVar b0 h1
  have b2 : Blank p2.2 := blank_addConsts _ b1 h2
  have b3 : Blank st.circ := blank_valuesGo _ _ _ b2 h3
  have b4 : Blank p4.2 := blank_sumRows _ _ b3 h4
  have b5 : Blank p5.2 := blank_sumRows _ _ b4 h5
  have b6 : Blank p6.2 := blank_sumRows _ _ b5 h6
  have b7 : Blank c7 := blank_rowChecks _ _ b6 h7
  have b8 : Blank c8 := by
    have := blank_markAsComplete b7
    unfold unwrapS at h8
    split at h8
    · rename_i heq
      rw [heq] at this
      obtain rfl := Except.ok.inj h8
      exact this
    · cases h8
  exact blank_markPublics _ b8 he

end Circuit
end VO
