import Verif.Lemmas.PlonkIdeal
import Verif.Props.PlonkGates

/-
A small circuit with a table, a lookup and a public input, over a small field.
-/

namespace VO.Plonk

open VO.Spec VO.Spec.Plonk

/-- The circuit: the table holds `(1, 2, 3, 0)` and `(4, 5, 6, 0)`; the variables `s, 2, 3` are looked
up, and `s` is `3` minus the public input `k`. -/
def exProg (s k : K7681) : CM K7681 Unit := do
  insertRow 1 2 3 0
  insertRow 4 5 6 0
  let a ← addInput s
  let b ← addInput 2
  let o ← addInput 3
  let _ ← lookupGate a b o none none
  constrainToConstant a 3 (some k)

/-- Its composer. -/
def exC (s k : K7681) : Composer K7681 :=
  match newComposer (F := K7681) (1, 2, 3, 4) (5, 6, 7, 8) with
  | .error _ => emptyComposer
  | .ok c => match exProg s k c with
    | .error _ => emptyComposer
    | .ok r => r.2

theorem exC_facts (s k : K7681) : Reach R7681 E7681 (exC s k) ∧
    (s = 1 → k = 2 → OwnSat E7681 (exC s k)) := by
  obtain ⟨c0, h0, hr0, hs0, -⟩ := C85_new (R := R7681) (E := E7681) (1, 2, 3, 4) (5, 6, 7, 8)
  obtain ⟨c1, h1⟩ : ∃ c1, insertRow 1 2 3 0 c0 = .ok ((), c1) := ⟨_, rfl⟩
  have hr1 : Reach R7681 E7681 c1 := .call hr0 (.insert_row 1 2 3 0) h1
  obtain ⟨-, -, t1, o1⟩ := insertRow_fwd (Reach.wf hr0) h1
  obtain ⟨c2, h2⟩ : ∃ c2, insertRow 4 5 6 0 c1 = .ok ((), c2) := ⟨_, rfl⟩
  have hr2 : Reach R7681 E7681 c2 := .call hr1 (.insert_row 4 5 6 0) h2
  obtain ⟨-, -, t2, o2⟩ := insertRow_fwd (Reach.wf hr1) h2
  obtain ⟨c3, h3, n3⟩ := addInput_run (Reach.wf hr2) s
  have hr3 : Reach R7681 E7681 c3 := .call hr2 (.add_input s) h3
  obtain ⟨c4, h4, n4⟩ := addInput_run (Reach.wf hr3) (2 : K7681)
  have hr4 : Reach R7681 E7681 c4 := .call hr3 (.add_input 2) h4
  obtain ⟨c5, h5, n5⟩ := addInput_run (Reach.wf hr4) (3 : K7681)
  have hr5 : Reach R7681 E7681 c5 := .call hr4 (.add_input 3) h5
  have a3 : c2.variables.length < c5.variables.length := by rw [n5.vars, n4.vars, n3.vars]; simp
  have a4 : c3.variables.length < c5.variables.length := by rw [n5.vars, n4.vars]; simp
  have a5 : c4.variables.length < c5.variables.length := by rw [n5.vars]; simp
  have v3 : ownV c5 c2.variables.length = s := by
    rw [n5.ext.ownV (by rw [n4.vars, n3.vars]; simp), n4.ext.ownV (by rw [n3.vars]; simp), n3.val]
  have v4 : ownV c5 c3.variables.length = 2 := by
    rw [n5.ext.ownV (by rw [n4.vars]; simp), n4.val]
  have v5 : ownV c5 c4.variables.length = 3 := n5.val
  obtain ⟨c6, h6, -, o6⟩ := C93_lookup hr5 (d := none) a3 a4 a5 (by simp)
  have hr6 : Reach R7681 E7681 c6 := .call hr5 (.lookup_gate _ _ _ none none) h6
  obtain ⟨-, -, hA⟩ := lookupGate_fwd (Reach.wf hr5) h6
  obtain ⟨c7, h7⟩ := constrainToConstant_run (Reach.wf hr6) (3 : K7681) (some k)
    (a := c2.variables.length) (by rw [hA.vars]; exact a3)
  have hr7 : Reach R7681 E7681 c7 := .call hr6 (.constrain_to_constant _ _ _) h7
  have hp : exProg s k c0 = .ok ((), c7) := by
    unfold exProg
    refine bindC_ok.2 ⟨_, _, h1, bindC_ok.2 ⟨_, _, h2, bindC_ok.2 ⟨_, _, h3, bindC_ok.2 ⟨_, _, h4,
      bindC_ok.2 ⟨_, _, h5, bindC_ok.2 ⟨_, _, h6, h7⟩⟩⟩⟩⟩⟩
  have e : exC s k = c7 := by
    unfold exC
    rw [h0]
    simp only [hp]
  rw [e]
  refine ⟨hr7, ?_⟩
  rintro rfl rfl
  have os5 := n5.own E7681 (n4.own E7681 (n3.own E7681 (o2 E7681 (o1 E7681 hs0))))
  have os6 : OwnSat E7681 c6 := (o6 os5).2 (by
    rw [v3, v4, v5, n5.table, n4.table, n3.table, t2, t1]
    simp)
  refine (C87_constrain_to_constant hr6 h7).2.2 os6 ?_
  have : ownV c6 c2.variables.length = ownV c5 c2.variables.length := by unfold ownV; rw [hA.vars]
  rw [this, v3]
  decide +kernel

deriving instance DecidableEq for Composer

/-- The circuit does not depend on the values. -/
theorem exC_same : SameCircuit (exC 0 0) (exC 1 2) := by
  unfold SameCircuit
  decide +kernel

theorem exC_size : (exC 1 2).n = 6 ∧ (exC 1 2).lookup_table = [(1, 2, 3, 0), (4, 5, 6, 0)] ∧
    (exC 1 2).public_inputs = [(5, 2)] ∧ circuitBound (exC 1 2) = 8 := by
  decide +kernel

end VO.Plonk
