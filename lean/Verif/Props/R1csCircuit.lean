import Verif.Lemmas.R1csTrans
import Verif.Props.CircuitPov

/-
Property theorems C36: the translation of an R1CS into a circuit and into a POV system
(`/repo/voproof/src/cs/circuit/mod.rs`, `/repo/voproof/src/cs/pov.rs`).
-/

set_option linter.unusedSectionVars false

namespace VO
open Spec

variable {F : Type} [Field F] [DecidableEq F]

/-- Iteration orders of a hash map: any reordering of its entries. -/
abbrev Order (F : Type) := List (F × List (ℕ × ℕ × Mat)) → List (F × List (ℕ × ℕ × Mat))

namespace Circuit

theorem exists_unread {c : Circuit F} (hg : Good c) (h : 0 < c.vars.length) :
    ∃ v < c.vars.length, ∀ w, ¬ Carries c (.input w) v := by
  refine ⟨c.vars.length - 1, by omega, ?_⟩
  rintro ⟨k, i, sd⟩ ⟨g, hgi, hp⟩
  have h1 := hg.ordered.before k i g hgi
  have h2 := hg.wired.range (.output (.bin k i)) g.output ⟨g, hgi, rfl⟩
  cases sd <;> simp only [port] at hp <;> omega

theorem matOf_mem (r : R1CS F) (Q : SparseMat F → Prop) :
    (∀ t, Q (matOf r t)) ↔ ∀ m ∈ [r.a, r.b, r.c], Q m := by
  constructor
  · intro h m hm
    simp only [List.mem_cons, List.not_mem_nil, or_false] at hm
    rcases hm with rfl | rfl | rfl
    · exact h .A
    · exact h .B
    · exact h .C
  · intro h t
    cases t
    · exact h r.a (by simp)
    · exact h r.b (by simp)
    · exact h r.c (by simp)

/-- The whole translation. -/
theorem ofR1CS_spec (perm : Order F) (hperm : ∀ l, (perm l).Perm l) (r : R1CS F) (c : Circuit F)
    (h : ofR1CS perm r = .ok c) :
    (2 ≤ r.ncols ∧ EntriesIn r ∧ ∀ j, 1 ≤ j → j < r.ncols → ∃ t ri, Nz r t ri j) ∧
    ∃ (l : List (Call F)) (xs : List ℕ) (zv : ℕ), Builds Circuit.new l c ∧ (∀ x ∈ l, HighLevel x) ∧
      publicVars l = (List.range (r.ncols - 1)).take r.inputSize ∧ c.numInputs = r.ncols - 1 ∧
      c.outputs ≠ [] ∧ asserted l = xs.map (fun x => (x, zv)) ∧ (∀ x ∈ xs, x < c.vars.length) ∧
      zv < c.vars.length ∧
      (∀ val, Sat c val → val zv = 0 ∧ xs.map val = (List.range r.nrows).map
        (fun i => rowOf r val .A i * rowOf r val .B i - rowOf r val .C i)) ∧
      (∃ i, Carries c (.output (.const i)) zv) ∧
      (∀ x ∈ xs, ∃ i, Carries c (.output (.bin .add i)) x) := by
  obtain ⟨hn, hr⟩ := ofR1CS_range perm r (hperm _) h
  obtain ⟨c1, l, xs, zv, h1, b1, hl1, pv1, n1, o1, a1, x1, z1, v1, u1, ⟨ik, k1⟩, k2⟩ := ofR1CS_pre perm r (hperm _) hn hr
  rw [h1] at h
  simp only [bind, Except.bind] at h
  split at h
  · cases h
  rename_i c2 hc2
  obtain ⟨g1, -⟩ := builds_good b1 hl1 good_new
  obtain ⟨e2, u, hok⟩ := unwrapS_ok hc2
  obtain ⟨w1, w2⟩ := C52_complete l c1 b1 o1
  obtain ⟨q1, q2, -⟩ := w1.mp hok
  obtain ⟨outs, q3, -⟩ := w2 hok
  rw [e2] at q3
  have hlt : ∀ v, v < c1.numInputs → v < c1.vars.length := fun v hv =>
    lt_of_lt_of_le hv g1.ordered.numInputs_le
  have hused : ∀ j, j < r.ncols - 1 → Used c1 j := by
    intro j hj
    obtain ⟨w, hw⟩ := q2 j (hlt j (by omega))
    match w with
    | .input w => exact ⟨w, hw⟩
    | .output w => have := driven_ge g1 hw; omega
  have hcomp : c2.outputs ≠ [] := by
    have : c2.isComplete = true := by
      rw [← e2]
      unfold markAsComplete at hok ⊢
      split_ifs at hok ⊢
      rcases hgo : completeGo 0 c1.vars c1.outputs with ⟨res, outs'⟩
      rw [hgo] at hok
      cases res with
      | error e => simp at hok
      | ok _ =>
        simp only at hok ⊢
        split_ifs at hok with hh
        · rw [if_pos hh]; exact hh
    intro h0; unfold isComplete at this; rw [h0] at this; cases this
  have b2 : Builds c1 [.complete] c2 := .cons (by simp [refs]) hc2 (.nil _)
  obtain ⟨g2, ex2⟩ := builds_good b2 (by simp [HighLevel]) g1
  obtain ⟨c3, h3, b3, s3⟩ := markPublics_ok ((List.range (r.ncols - 1)).take r.inputSize) c2 g2 (by
    intro v hv
    have hv' := List.mem_range.mp (List.mem_of_mem_take hv)
    obtain ⟨w, hw⟩ := hused v hv'
    exact ⟨lt_of_lt_of_le (hlt v (by omega)) ex2.vars, .input w, ex2.carries hw⟩)
  have h' : Except.ok c3 = Except.ok (ε := Err) c := h3.symm.trans h
  obtain rfl := Except.ok.inj h'
  have hs3 : c3.vars = c1.vars ∧ (∀ k, c3.gates k = c1.gates k) ∧ c3.constGates = c1.constGates ∧
      c3.outputs = c2.outputs ∧ c3.numInputs = c1.numInputs := by
    rw [s3, q3]
    exact ⟨rfl, fun k => by cases k <;> rfl, rfl, rfl, rfl⟩
  have hcar : ∀ w v, Carries c1 (.output w) v → Carries c3 (.output w) v := by
    intro w v hw
    cases w with
    | bin k i => obtain ⟨g, hg, hv⟩ := hw; exact ⟨g, by rw [hs3.2.1]; exact hg, hv⟩
    | const i => obtain ⟨g, hg, hv⟩ := hw; exact ⟨g, by rw [hs3.2.2.1]; exact hg, hv⟩
  refine ⟨⟨by omega, hr, ?_⟩, l ++ ([.complete] ++
    ((List.range (r.ncols - 1)).take r.inputSize).map .markPublic), xs, zv,
    builds_append b1 (builds_append b2 b3), ?_, ?_, by rw [hs3.2.2.2.2, n1], by rw [hs3.2.2.2.1]; exact hcomp, ?_, ?_, ?_, ?_,
    ⟨ik, hcar _ _ k1⟩, fun x hx => (k2 x hx).imp fun i hi => hcar _ _ hi⟩
  · intro j hj1 hj2
    have := (u1 (j - 1) (by omega)).mp (hused (j - 1) (by omega))
    rwa [Nat.sub_add_cancel hj1] at this
  · intro x hx
    rcases List.mem_append.mp hx with hx | hx
    · exact hl1 x hx
    · rcases List.mem_append.mp hx with hx | hx
      · rw [List.mem_singleton] at hx; rw [hx]; trivial
      · obtain ⟨v, -, rfl⟩ := List.mem_map.mp hx; trivial
  · have hm : ∀ l : List ℕ, publicVars (l.map (Call.markPublic : ℕ → Call F)) = l := by
      intro l
      unfold publicVars
      rw [List.filterMap_map]
      exact List.filterMap_some
    have e := hm ((List.range (r.ncols - 1)).take r.inputSize)
    unfold publicVars at e pv1 ⊢
    rw [List.filterMap_append, List.filterMap_append, pv1, e]; rfl
  · have := builds_asserts b1
    rw [a1] at this
    have hm : ∀ l : List ℕ, asserted (l.map (Call.markPublic : ℕ → Call F)) = [] := by
      intro l; induction l with
      | nil => rfl
      | cons a l ih => exact ih
    have hsplit : ∀ l l' : List (Call F), asserted (l ++ l') = asserted l ++ asserted l' := by
      intro l l'; unfold asserted; rw [List.filterMap_append]
    rw [hsplit, hsplit, hm, this]
    simp [asserted, Circuit.new]
  · rw [hs3.1]; exact x1
  · rw [hs3.1]; exact z1
  · intro val hs
    apply v1
    exact ⟨fun k i g hg => hs.bin k i g (by rw [hs3.2.1]; exact hg),
      fun i g hg => hs.const i g (by rw [hs3.2.2.1]; exact hg)⟩

theorem ofR1CS_total (perm : Order F) (hperm : ∀ l, (perm l).Perm l) (r : R1CS F)
    (hn : 2 ≤ r.ncols) (hr : EntriesIn r) (hc : ∀ j, 1 ≤ j → j < r.ncols → ∃ t ri, Nz r t ri j) :
    ∃ c, ofR1CS perm r = .ok c := by
  obtain ⟨c1, l, xs, zv, h1, b1, hl1, pv1, n1, o1, a1, x1, z1, v1, u1, ⟨ik, k1⟩, k2⟩ := ofR1CS_pre perm r (hperm _)
    (by omega) hr
  obtain ⟨g1, -⟩ := builds_good b1 hl1 good_new
  have hused : ∀ j, j < r.ncols - 1 → Used c1 j := fun j hj =>
    (u1 j hj).mpr (hc (j + 1) (by omega) (by omega))
  have hconn : ∀ v < c1.vars.length, Connected c1 v := by
    intro v hv
    by_cases hvn : v < c1.numInputs
    · obtain ⟨w, hw⟩ := hused v (by omega)
      exact ⟨.input w, hw⟩
    · have hx : c1.vars[v]? = some c1.vars[v] := List.getElem?_eq_getElem hv
      rcases ho : c1.vars[v].outputWire with _ | w
      · exact absurd ((g1.ordered.driven v _ hx).mp ho) hvn
      · exact ⟨.output w, (g1.wired.driver v _ hx w).mp ho⟩
  obtain ⟨w1, w2⟩ := C52_complete l c1 b1 o1
  have hok := w1.mpr ⟨by omega, hconn, exists_unread g1 (by
    have := g1.ordered.numInputs_le; omega)⟩
  have hc2 : unwrapS c1.markAsComplete = .ok c1.markAsComplete.2 := by
    unfold unwrapS
    rcases hm : c1.markAsComplete with ⟨a, b⟩
    rw [hm] at hok
    simp only at hok
    rw [hok]
  have b2 : Builds c1 [.complete] c1.markAsComplete.2 := .cons (by simp [refs]) hc2 (.nil _)
  obtain ⟨g2, ex2⟩ := builds_good b2 (by simp [HighLevel]) g1
  obtain ⟨c3, h3, b3, s3⟩ := markPublics_ok ((List.range (r.ncols - 1)).take r.inputSize)
    c1.markAsComplete.2 g2 (by
    intro v hv
    have hv' := List.mem_range.mp (List.mem_of_mem_take hv)
    obtain ⟨w, hw⟩ := hused v hv'
    have := g1.ordered.numInputs_le
    exact ⟨lt_of_lt_of_le (by omega) ex2.vars, .input w, ex2.carries hw⟩)
  refine ⟨c3, ?_⟩
  rw [h1]
  simp only [bind, Except.bind, hc2, h3]

theorem _root_.VO.Spec.Execution.sat {c : Circuit F} {input : List F} {val : ℕ → F}
    (h : Execution c input val) : Sat c val := ⟨h.bin, h.const⟩

/-- With a given execution, the asserted equalities are the R1CS. -/
theorem ofR1CS_iff (r : R1CS F) (c : Circuit F) {xs : List ℕ} {zv : ℕ} {val : ℕ → F}
    (hn : 2 ≤ r.ncols) (hr : EntriesIn r) (hnum : c.numInputs = r.ncols - 1)
    (hv : ∀ val, Sat c val → val zv = 0 ∧ xs.map val = (List.range r.nrows).map
        (fun i => rowOf r val .A i * rowOf r val .B i - rowOf r val .C i)) (x w : List F)
    (hx : Execution c (x ++ w) val) (hlen : 1 + x.length + w.length = r.ncols) :
    (∀ y ∈ xs, val y = val zv) ↔ R1CSHolds r x w := by
  obtain ⟨h0, h1⟩ := hv val hx.sat
  have hz : ∀ j < r.ncols, zOf val j = (1 :: (x ++ w)).getD j 0 := by
    intro j hj
    rcases j with _ | j
    · rfl
    · have := hx.inputs j (by omega)
      show val j = _
      rw [List.getD_cons_succ, List.getD, this]; rfl
  have hrow : ∀ t i, rowOf r val t i = mulVec (matOf r t) r.ncols (1 :: (x ++ w)) i := fun t i =>
    rowOf_eq r t i val _ (fun ri ci hnz => (hr t ri ci hnz).2) hz
  have key : (∀ y ∈ xs, val y = val zv) ↔ ∀ a ∈ xs.map val, a = 0 := by
    rw [h0]; simp
  rw [key, h1]
  unfold R1CSHolds
  constructor
  · intro h i hi
    have := h _ (List.mem_map.mpr ⟨i, List.mem_range.mpr hi, rfl⟩)
    rw [hrow, hrow, hrow] at this
    exact sub_eq_zero.mp this
  · intro h a ha
    obtain ⟨i, hi, rfl⟩ := List.mem_map.mp ha
    simp only [hrow]
    exact sub_eq_zero.mpr (h i (List.mem_range.mp hi))

end Circuit

/-! ## C36 -/

/-- **C36.** Whatever the iteration order of the hash map, the translation of an R1CS into a
circuit succeeds iff there are at least two columns, all non-zero entries lie inside the matrices
and every column except the first has a non-zero entry in some matrix; otherwise it panics. -/
theorem C36_succeeds_iff (perm : Order F) (hperm : ∀ l, (perm l).Perm l) (r : R1CS F) :
    (∃ c, Circuit.ofR1CS perm r = .ok c) ↔
      2 ≤ r.ncols ∧
      (∀ m ∈ [r.a, r.b, r.c], ∀ i j, Lists m i j → i < r.nrows ∧ j < r.ncols) ∧
      ∀ j, 1 ≤ j → j < r.ncols → ∃ m ∈ [r.a, r.b, r.c], ∃ i, Lists m i j := by
  have e1 : Circuit.EntriesIn r ↔
      ∀ m ∈ [r.a, r.b, r.c], ∀ i j, Lists m i j → i < r.nrows ∧ j < r.ncols :=
    Circuit.matOf_mem r (fun m => ∀ i j, Lists m i j → i < r.nrows ∧ j < r.ncols)
  have e2 : ∀ j, (∃ t ri, Circuit.Nz r t ri j) ↔ ∃ m ∈ [r.a, r.b, r.c], ∃ i, Lists m i j := by
    intro j
    have := Circuit.matOf_mem r (fun m => ¬ ∃ i, Lists m i j)
    rw [← not_iff_not]
    push Not
    push Not at this
    exact this
  constructor
  · rintro ⟨c, h⟩
    obtain ⟨h1, h2, h3⟩ := (Circuit.ofR1CS_spec perm hperm r c h).1
    exact ⟨h1, e1.mp h2, fun j a b => (e2 j).mp (h3 j a b)⟩
  · rintro ⟨h1, h2, h3⟩
    exact Circuit.ofR1CS_total perm hperm r h1 (e1.mpr h2) (fun j a b => (e2 j).mpr (h3 j a b))

/-- **C36.** The translation equals a history of high-level calls; it makes the variables of the
public inputs public, in order, and asserts one equality per row. -/
theorem C36_history (perm : Order F) (hperm : ∀ l, (perm l).Perm l) (r : R1CS F) (c : Circuit F)
    (h : Circuit.ofR1CS perm r = .ok c) (hi : r.inputSize < r.ncols) :
    ∃ l, Builds Circuit.new l c ∧ (∀ x ∈ l, HighLevel x) ∧ publicVars l = List.range r.inputSize ∧
      (asserted l).length = r.nrows ∧ c.numInputs = r.ncols - 1 := by
  obtain ⟨⟨h1, h2, h3⟩, l, xs, zv, b, hl, pv, hn, ho, ha, hx, hz, hv, hconst⟩ :=
    Circuit.ofR1CS_spec perm hperm r c h
  refine ⟨l, b, hl, ?_, ?_, hn⟩
  · rw [pv, List.take_range, min_eq_left (by omega)]
  · have hg := (Circuit.builds_good b hl Circuit.good_new).1
    obtain ⟨c', -, val, hx, -⟩ := Circuit.evaluate_execution hg (List.replicate c.numInputs 0)
      (by unfold Circuit.isComplete; rcases hc : c.outputs with _ | _
          · exact absurd hc ho
          · rfl) (by simp)
    have := congrArg List.length (hv val hx.sat).2
    simp only [List.length_map, List.length_range] at this
    rw [ha, List.length_map, this]

/-- **C36.** The translated circuit has at least one constant gate (the constant zero). -/
theorem C36_has_constant (perm : Order F) (hperm : ∀ l, (perm l).Perm l) (r : R1CS F) (c : Circuit F)
    (h : Circuit.ofR1CS perm r = .ok c) : c.constGates ≠ [] := by
  obtain ⟨-, l, xs, zv, b, hl, pv, hn, ho, ha, hx, hz, hv, ⟨i, g, hg, -⟩, -⟩ := Circuit.ofR1CS_spec perm hperm r c h
  intro h0
  rw [h0] at hg
  cases hg

/-- **C36.** For every R1CS whose translation succeeds and every assignment of the right length,
the circuit evaluates on the assignment, and all its equality assertions hold there iff the
assignment satisfies the R1CS. -/
theorem C36_equivalent (perm : Order F) (hperm : ∀ l, (perm l).Perm l) (r : R1CS F) (c : Circuit F)
    (h : Circuit.ofR1CS perm r = .ok c) (x w : List F)
    (hlen : 1 + x.length + w.length = r.ncols) :
    ∃ c', c.evaluate (x ++ w) = .ok c' ∧
      ((∀ q ∈ c.assertEquals, valueOf c' q.1 = valueOf c' q.2) ↔ R1CSHolds r x w) := by
  obtain ⟨⟨h1, h2, h3⟩, l, xs, zv, b, hl, pv, hn, ho, ha, hxs, hz, hv, hconst⟩ :=
    Circuit.ofR1CS_spec perm hperm r c h
  have hg := (Circuit.builds_good b hl Circuit.good_new).1
  obtain ⟨c', hev, val, hx, hval⟩ := Circuit.evaluate_execution hg (x ++ w)
      (by unfold Circuit.isComplete; rcases hc : c.outputs with _ | _
          · exact absurd hc ho
          · rfl) (by rw [List.length_append, hn]; omega)
  refine ⟨c', hev, ?_⟩
  rw [← Circuit.ofR1CS_iff r c h1 h2 hn hv x w hx hlen]
  have ha' : c.assertEquals = xs.map (fun x => (x, zv)) := by
    rw [← ha, Circuit.builds_asserts b]; rfl
  rw [ha']
  simp only [List.mem_map, forall_exists_index, and_imp, forall_apply_eq_imp_iff₂]
  constructor
  · intro hh y hy
    have := hh y hy
    rw [hval _ (hxs y hy), hval _ hz] at this
    exact Option.some.inj this
  · intro hh y hy
    rw [hval _ (hxs y hy), hval _ hz, hh y hy]

/-- An R1CS over ℚ: `x * w1 = w2` and `w1 * w1 = x` (the constant column is not used). -/
def exTrans : R1CS ℚ :=
  ⟨⟨[0, 1], [1, 2], [1, 2]⟩, ⟨[0, 1], [2, 2], [3, 1]⟩, ⟨[0, 1], [3, 1], [3, 2]⟩, 2, 4, 1⟩

example : ∃ c, Circuit.ofR1CS id exTrans = .ok c := by
  have : (Circuit.ofR1CS id exTrans).isOk = true := by decide +kernel
  rcases h : Circuit.ofR1CS id exTrans with e | c
  · rw [h] at this; cases this
  · exact ⟨c, rfl⟩

/-! ### The POV system of an R1CS -/

namespace Circuit

theorem wire_var {c : Circuit F} {w : GateWire} {v : ℕ} (hc : Carries c w v) :
    c.getVarFromWire w = .ok v := by
  unfold Circuit.getVarFromWire
  match w with
  | .input ⟨k, i, .left⟩ => obtain ⟨g, h1, rfl⟩ := hc; simp only at h1; simp [h1, port]
  | .input ⟨k, i, .right⟩ => obtain ⟨g, h1, rfl⟩ := hc; simp only at h1; simp [h1, port]
  | .output (.bin k i) => obtain ⟨g, h1, rfl⟩ := hc; simp [h1]
  | .output (.const i) => obtain ⟨g, h1, rfl⟩ := hc; simp [h1]

theorem assignNoOverwrite_ok {c c' : Circuit F} {v : ℕ} {a : F}
    (h : c.assignNoOverwrite v a = .ok c') :
    SameShape c c' ∧ valueOf c v = none ∧ valueOf c' v = some a ∧
      ∀ u, u ≠ v → valueOf c' u = valueOf c u := by
  unfold assignNoOverwrite at h
  split at h
  · cases h
  · rename_i x hx
    split at h
    · rename_i hval
      have hs : c.setVar v a = .ok c' := by unfold setVar; rw [hx]; exact h
      obtain ⟨s1, -, s2, s3⟩ := setVar_ok hs
      exact ⟨s1, by unfold valueOf; rw [hx]; exact hval, s2, s3⟩
    · cases h

/-- Public values are kept: nothing is overwritten. -/
theorem assignPublicGo_values {c c' : Circuit F} (l : List (F × GateWire))
    (h : c.assignPublicGo l = .ok c') :
    (∀ u a, valueOf c u = some a → valueOf c' u = some a) ∧
    ∀ q ∈ l, ∀ v, Carries c q.2 v → valueOf c' v = some q.1 := by
  induction l generalizing c with
  | nil => obtain rfl := Except.ok.inj h; exact ⟨fun _ _ h => h, by simp⟩
  | cons q l ih =>
    obtain ⟨a, w⟩ := q
    unfold assignPublicGo at h
    simp only [bind, Except.bind] at h
    split at h
    · cases h
    rename_i v hv
    split at h
    · cases h
    rename_i c1 h1
    obtain ⟨s1, s2, s3, s4⟩ := assignNoOverwrite_ok h1
    obtain ⟨i1, i2⟩ := ih h
    have keep : ∀ u b, valueOf c u = some b → valueOf c1 u = some b := by
      intro u b hu
      by_cases huv : u = v
      · subst huv; rw [s2] at hu; cases hu
      · rw [s4 u huv]; exact hu
    refine ⟨fun u b hu => i1 u b (keep u b hu), ?_⟩
    intro q hq v' hc
    rcases List.mem_cons.mp hq with rfl | hq
    · have := wire_var hc
      rw [hv] at this
      rw [← Except.ok.inj this]
      exact i1 v a s3
    · exact i2 q hq v' ((s1.carries _ _).mpr hc)

theorem assignPublicIo_ok {c c' : Circuit F} {l : List F} (h : c.assignPublicIo l = .ok c') :
    c.outputs ≠ [] ∧ l.length = c.publicIo.length ∧ c.assignPublicGo (l.zip c.publicIo) = .ok c' := by
  unfold assignPublicIo assertIoSize getIoSize assertComplete at h
  by_cases hc : c.isComplete
  · simp only [hc, if_true, bind, Except.bind, pure, Except.pure] at h
    split_ifs at h with hl
    refine ⟨?_, by simp only at h; omega, h⟩
    intro h0; unfold isComplete at hc; rw [h0] at hc; cases hc
  · simp [hc, bind, Except.bind] at h

end Circuit

/-- **C36.** `pov_triple_from_r1cs_triple`: when the translation of the R1CS succeeds, every
assignment yields a POV triple, its instance holds the public inputs, and the POV witness
satisfies the POV system iff the assignment satisfies the R1CS. -/
theorem C36_triple (perm : Order F) (hperm : ∀ l, (perm l).Perm l) (r : R1CS F)
    (hok : ∃ c, Circuit.ofR1CS perm r = .ok c) (x w : List F) (hx : x.length = r.inputSize)
    (hlen : 1 + x.length + w.length = r.ncols) :
    ∃ p ins wit, povTripleFromR1cs perm r x w = .ok (p, ins, wit) ∧ PovShape p wit ∧
      ins.vals = x ∧ (p.satisfy ins wit = .ok true ↔ R1CSHolds r x w) := by
  obtain ⟨c, hc⟩ := hok
  obtain ⟨c', hev, hiff⟩ := C36_equivalent perm hperm r c hc x w hlen
  obtain ⟨⟨h1, h2, h3⟩, l, xs, zv, b, hl, pv, hn, ho, ha, hxs, hz, hv, hconst⟩ :=
    Circuit.ofR1CS_spec perm hperm r c hc
  have hg := (Circuit.builds_good b hl Circuit.good_new).1
  have hs := Circuit.evaluate_same hev
  have ha' : c.assertEquals = asserted l := by rw [Circuit.builds_asserts b]; rfl
  have hconn : ∀ v < c.vars.length, Connected c v := by
    obtain ⟨-, -, h3⟩ := (Circuit.ofR1CS_spec perm hperm r c hc).1
    intro v hlt
    by_cases hvn : v < c.numInputs
    · obtain ⟨c1, l1, xs1, zv1, q1, q2, q3, -, q5, q6, -, -, -, -, q7, -, -⟩ :=
        Circuit.ofR1CS_pre perm r (hperm _) (by omega) h2
      have hu := (q7 v (by omega)).mpr (h3 (v + 1) (by omega) (by omega))
      obtain ⟨wi, hwi⟩ := hu
      rw [q1] at hc
      simp only [bind, Except.bind] at hc
      split at hc
      · cases hc
      rename_i c2 hc2
      have g1 := (Circuit.builds_good q2 q3 Circuit.good_new).1
      have b2 : Builds c1 [.complete] c2 := .cons (by simp [refs]) hc2 (.nil _)
      obtain ⟨g2, e2⟩ := Circuit.builds_good b2 (by simp [HighLevel]) g1
      have hm : ∀ (l : List ℕ) (c c' : Circuit F), markPublics c l = .ok c' →
          ∀ k, c'.gates k = c.gates k := by
        intro l
        induction l with
        | nil => intro c c' h k; cases h; rfl
        | cons v l ih =>
          intro c c' h k
          unfold markPublics at h
          simp only [bind, Except.bind] at h
          split at h
          · cases h
          rename_i c1 h1
          rw [ih c1 c' h, Circuit.markVariableAsPublic_state h1]
          cases k <;> rfl
      obtain ⟨g, hgi, hp⟩ := e2.carries hwi
      exact ⟨.input wi, g, by rw [hm _ _ _ hc]; exact hgi, hp⟩
    · have hxv : c.vars[v]? = some c.vars[v] := List.getElem?_eq_getElem hlt
      rcases hov : c.vars[v].outputWire with _ | w
      · exact absurd ((hg.ordered.driven v _ hxv).mp hov) hvn
      · exact ⟨.output w, (hg.wired.driver v _ hxv w).mp hov⟩
  obtain ⟨p, hp0⟩ := (C34_system l c b).1.mpr ⟨ho, by
    intro q hq
    rw [ha, List.mem_map] at hq
    obtain ⟨y, hy, rfl⟩ := hq
    exact ⟨hconn _ (hxs y hy), hconn _ hz⟩⟩
  have hp : POV.ofCircuit c' = .ok p := by rw [(C34_system l c b).2.2 c' hs]; exact hp0
  obtain ⟨ins, wit, i1, i2, i3, -, -, i6, -, i8⟩ := C34_honest l c c' b hl (x ++ w) hev p hp
  refine ⟨p, ins, wit, ?_, i3, ?_, ?_⟩
  · unfold povTripleFromR1cs
    simp only [bind, Except.bind, hc, hev, unwrapR, i1, i2, hp, pure, Except.pure]
  · obtain ⟨-, val, hxe, hval, -⟩ := C31_values l c c' b hl (x ++ w) hev
    rw [pv, List.take_range, min_eq_left (by omega)] at i6
    have e : (List.range r.inputSize).map (valueOf c') = x.map some := by
      apply List.ext_getElem?
      intro i
      rw [List.getElem?_map, List.getElem?_map]
      by_cases hi : i < r.inputSize
      · rw [List.getElem?_range hi]
        have := hxe.inputs i (by omega)
        rw [List.getElem?_append_left (by omega)] at this
        rw [this, Option.map_some, Option.map_some, hval i (by
          have := hg.ordered.numInputs_le; omega)]
      · rw [List.getElem?_eq_none (by simp; omega), List.getElem?_eq_none (l := x) (by omega)]
        rfl
    rw [e] at i6
    exact (List.map_injective_iff.mpr (Option.some_injective F) i6).symm
  · rw [i8, ← ha']; exact hiff

/-- **C36.** Soundness of `pov_pair_from_r1cs_pair`: every witness that satisfies the POV system
and the instance made from public inputs `x`, however it was made, yields an R1CS witness for
`x`. -/
theorem C36_pair_sound (perm : Order F) (hperm : ∀ l, (perm l).Perm l) (r : R1CS F)
    (hi : r.inputSize < r.ncols) (x : List F) (p : POV F) (ins : POVInstance F)
    (h : povPairFromR1cs perm r x = .ok (p, ins)) :
    x.length = r.inputSize ∧ ins.vals = x ∧
    ∀ wit, PovShape p wit → p.satisfy ins wit = .ok true →
      ∃ w, 1 + x.length + w.length = r.ncols ∧ R1CSHolds r x w := by
  unfold povPairFromR1cs at h
  simp only [bind, Except.bind] at h
  split at h
  · cases h
  rename_i c hc
  split at h
  · cases h
  rename_i c1 hc1
  split at h
  · cases h
  rename_i ins' hins
  split at h
  · cases h
  rename_i p' hp
  simp only [pure, Except.pure, Except.ok.injEq, Prod.mk.injEq] at h
  obtain ⟨rfl, rfl⟩ := h
  have unw : ∀ {α : Type} {a : Res α} {b : α}, unwrapR a = .ok b → a = .ok b := by
    intro α a b hh
    unfold unwrapR at hh
    split at hh
    · exact hh
    · cases hh
  have hc1 := unw hc1
  have hins := unw hins
  obtain ⟨⟨h1, h2, h3⟩, l, xs, zv, b, hl, pv, hn, ho, ha, hxs, hz, hv, hconst⟩ :=
    Circuit.ofR1CS_spec perm hperm r c hc
  rw [List.take_range, min_eq_left (by omega)] at pv
  have hg := (Circuit.builds_good b hl Circuit.good_new).1
  have hs := Circuit.assignPublicIo_same hc1
  obtain ⟨ws, hpub, hf⟩ := Circuit.builds_public b hl Circuit.good_new
  rw [show (Circuit.new : Circuit F).publicIo = [] from rfl, List.nil_append] at hpub
  rw [← hpub, pv] at hf
  obtain ⟨-, hxl, hgo⟩ := Circuit.assignPublicIo_ok hc1
  have hxlen : x.length = r.inputSize := by rw [hxl, hf.length_eq, List.length_range]
  have hvals : ins'.idx = c.publicIo.map c.getWireGlobalIndex ∧ ins'.vals = x := by
    unfold Circuit.getInstance at hins
    have hm : c1.publicIo.mapM c1.getWireValue = .ok x := by
      rw [hs.publicIo]
      have hall := (Circuit.assignPublicGo_values _ hgo).2
      have key : ∀ (pio : List GateWire) (vs : List ℕ) (x : List F), List.Forall₂ (Carries c) pio vs →
          x.length = pio.length → (∀ q ∈ x.zip pio, ∀ v, Carries c q.2 v → valueOf c1 v = some q.1) →
          pio.mapM c1.getWireValue = .ok x := by
        intro pio vs x hf hlen hq
        induction hf generalizing x with
        | nil => obtain rfl := List.eq_nil_of_length_eq_zero (by simpa using hlen); rfl
        | @cons w v ws vs hwv hrest ih =>
          rcases x with _ | ⟨a, x⟩
          · simp at hlen
          rw [mapM_cons_ok]
          refine ⟨a, x, ?_, ih x (by simpa using hlen) (fun q hqm => hq q (by simp [hqm])), rfl⟩
          unfold Circuit.getWireValue
          rw [Circuit.wire_var ((hs.carries w v).mpr hwv)]
          exact (Circuit.getVarValue_ok c1 v a).mpr (hq (a, w) (by simp) v hwv)
      exact key _ _ x hf (by rw [hxl]) hall
    rw [hm] at hins
    simp only [bind, Except.bind, pure, Except.pure, Except.ok.injEq] at hins
    rw [← hins]
    refine ⟨?_, rfl⟩
    show c1.publicIo.map c1.getWireGlobalIndex = _
    rw [hs.publicIo, hs.1]
    rfl
  refine ⟨hxlen, hvals.2, ?_⟩
  intro wit hshape hsat
  have hp0 : POV.ofCircuit c = .ok p' := by rw [← (C34_system l c b).2.2 c1 hs]; exact hp
  obtain ⟨hgates, hwiring, hinst⟩ := (C27_satisfy p' ins' wit hshape).1.mp hsat
  obtain ⟨input, c', hev, -, hasr, hpubv⟩ := C35_sound l c b hl p' hp0 wit hshape hgates hwiring
  have hpv := hpubv x (by rw [pv, List.length_range, hxlen]) (by
    have : ins' = ⟨c.publicIo.map c.getWireGlobalIndex, x⟩ := by
      rcases ins' with ⟨a, b⟩
      simp only at hvals
      rw [hvals.1, hvals.2]
    rw [← this]; exact hinst)
  obtain ⟨-, val, hxe, hval, -⟩ := C31_values l c c' b hl input hev
  have hil := (Circuit.evaluate_ok_needs hev).2.1
  have hinp : input = x ++ input.drop x.length := by
    have htake : input.take x.length = x := by
      apply List.ext_getElem?
      intro i
      by_cases hi' : i < x.length
      · rw [List.getElem?_take, if_pos hi']
        rw [hxe.inputs i (by omega)]
        have := congrArg (fun l => l[i]?) hpv
        simp only [pv, List.getElem?_map, List.getElem?_range (show i < r.inputSize by omega),
          Option.map_some, List.getElem?_eq_getElem hi'] at this
        rw [hval i (by have := hg.ordered.numInputs_le; omega)] at this
        rw [List.getElem?_eq_getElem hi']
        exact Option.some.inj this
      · rw [List.getElem?_eq_none (l := x) (by omega), List.getElem?_eq_none (by simp; omega)]
    conv_lhs => rw [← List.take_append_drop x.length input, htake]
  refine ⟨input.drop x.length, ?_, ?_⟩
  · rw [List.length_drop]; omega
  · rw [hinp] at hxe
    rw [← Circuit.ofR1CS_iff r c h1 h2 hn hv x _ hxe (by rw [List.length_drop]; omega)]
    intro y hy
    have := hasr (y, zv) (by rw [ha]; exact List.mem_map.mpr ⟨y, hy, rfl⟩)
    simp only at this
    rw [hval _ (hxs y hy), hval _ hz] at this
    exact Option.some.inj this

example : ((povTripleFromR1cs id exTrans [4] [2, 8]).bind (fun t => t.1.satisfy t.2.1 t.2.2)) = .ok true ∧
    ((povTripleFromR1cs id exTrans [4] [2, 9]).bind (fun t => t.1.satisfy t.2.1 t.2.2)) = .ok false := by
  decide +kernel

/-! ### Copy constraints of translated systems -/

namespace Circuit

theorem forest_star (zv : ℕ) (xs : List ℕ) (hz : zv ∉ xs) :
    Forest (xs.map (fun x => (x, zv))) ↔ (xs.map (fun x => (x, zv))).Nodup := by
  rw [List.nodup_map_iff (fun a b h => (Prod.mk.inj h).1)]
  induction xs using List.reverseRecOn with
  | nil => simp [Forest]
  | append_singleton xs x ih =>
    have hz' : zv ∉ xs := fun h => hz (by simp [h])
    have hx : x ≠ zv := fun h => hz (by simp [h])
    rw [List.map_append, List.map_cons, List.map_nil, forest_append_iff, ih hz', List.nodup_append]
    have : Linked (xs.map (fun x => (x, zv))) x zv ↔ x ∈ xs := by
      constructor
      · intro h
        by_contra hn
        have hi : Isolated (xs.map (fun x => (x, zv))) x := by
          intro p hp
          obtain ⟨y, hy, rfl⟩ := List.mem_map.mp hp
          exact ⟨fun e => hn (e ▸ hy), fun e => hx e.symm⟩
        exact hx ((linked_isolated hi h).mp rfl).symm
      · intro h
        exact .rel _ _ (List.mem_map.mpr ⟨x, h, rfl⟩)
    rw [this]
    constructor
    · rintro ⟨h1, h2⟩
      refine ⟨h1, by simp, ?_⟩
      intro a ha b hb hab
      rw [List.mem_singleton] at hb
      exact h2 (hb ▸ hab ▸ ha)
    · rintro ⟨h1, -, h2⟩
      exact ⟨h1, fun hm => h2 x hm x (by simp) rfl⟩

theorem builds_assert_ne {c c' : Circuit F} {l : List (Call F)} (h : Builds c l c') :
    ∀ p ∈ asserted l, p.1 ≠ p.2 := by
  induction h with
  | nil c => simp [asserted]
  | @cons c c1 c2 x l hr h1 h2 ih =>
    intro p hp
    have hsplit : asserted (x :: l) = asserted [x] ++ asserted l := by
      unfold asserted; rw [← List.filterMap_append]; rfl
    rw [hsplit, List.mem_append] at hp
    rcases hp with hp | hp
    · cases x <;> simp [asserted] at hp
      subst hp
      exact (assertEqual_ok h1).1
    · exact ih p hp

end Circuit

/-- **C36.** The wire pairs of a translated R1CS form a forest (so that the permutation argument
enforces all of them, see C11) iff no equality was asserted twice, which happens when two rows
check the same product and sum. -/
theorem C36_forest (perm : Order F) (hperm : ∀ l, (perm l).Perm l) (r : R1CS F) (c : Circuit F)
    (h : Circuit.ofR1CS perm r = .ok c) (wires : List (ℕ × ℕ)) (hw : c.getWiring = .ok wires) :
    Forest wires ↔ c.assertEquals.Nodup := by
  obtain ⟨-, l, xs, zv, b, hl, -, -, -, ha, -⟩ := Circuit.ofR1CS_spec perm hperm r c h
  have ha' : c.assertEquals = asserted l := by rw [Circuit.builds_asserts b]; rfl
  rw [C33_forest l c b wires hw, ha', ha]
  apply Circuit.forest_star
  intro hz
  exact Circuit.builds_assert_ne b (zv, zv) (by rw [ha]; exact List.mem_map.mpr ⟨zv, hz, rfl⟩) rfl

/-- An R1CS that lists the constraint `x * 1 = 0` twice. -/
def dupR1CS : R1CS ℚ := ⟨⟨[0, 1], [1, 1], [1, 1]⟩, ⟨[0, 1], [0, 0], [1, 1]⟩, ⟨[], [], []⟩, 2, 2, 1⟩

/-- **C36 (deviation).** Repeating a constraint removes it from the permutation argument: for the
R1CS `x * 1 = 0` listed twice and the false statement `x = 5`, the translated POV system has a
witness that satisfies all gates and the instance and is invariant under the permutation the
SNARK is built on, although `x = 5` does not satisfy the R1CS. -/
theorem C36_repeated_row_unsound :
    ∃ p ins wit, povTripleFromR1cs id dupR1CS [5] [] = .ok (p, ins, wit) ∧ ins.vals = [5] ∧
      ¬ R1CSHolds dupR1CS [5] [] ∧ GatesHold p wit ∧ InstanceHolds wit ins ∧
      Invariant (p.wires.map (fun q => Equiv.swap q.1 q.2)).prod (fun i => (povVec wit)[i]?) := by
  have h1 : (povTripleFromR1cs id dupR1CS [5] []).map (fun t => (t.1.consts, t.1.wires, t.1.nmul,
      t.1.nadd)) = .ok ([0, 1], [(1, 10), (4, 11), (5, 8), (9, 1), (9, 1)], 1, 1) := by
    decide +kernel
  have h2 : (povTripleFromR1cs id dupR1CS [5] []).map (fun t => (t.2.1.idx, t.2.1.vals))
      = .ok ([0], [5]) := by decide +kernel
  have h3 : (povTripleFromR1cs id dupR1CS [5] []).map (fun t => (t.2.2.w0, t.2.2.w1, t.2.2.w2))
      = .ok ([5, 0, 0, 0], [1, 5, 0, 0], [5, 5, 0, 1]) := by decide +kernel
  rcases ht : povTripleFromR1cs id dupR1CS [5] [] with e | ⟨⟨consts, wires, nmul, nadd⟩, ⟨idx, vals⟩, ⟨w0, w1, w2⟩⟩
  · rw [ht] at h1; cases h1
  rw [ht] at h1 h2 h3
  simp only [Except.map, Except.ok.injEq, Prod.mk.injEq] at h1 h2 h3
  obtain ⟨rfl, rfl, rfl, rfl⟩ := h1
  obtain ⟨rfl, rfl⟩ := h2
  obtain ⟨rfl, rfl, rfl⟩ := h3
  refine ⟨_, _, _, rfl, rfl, ?_, ?_, ?_, ?_⟩
  · intro h
    have := h 0 (by decide)
    revert this
    decide +kernel
  · unfold GatesHold; decide +kernel
  · unfold InstanceHolds; decide +kernel
  · have e : ([(1, 10), (4, 11), (5, 8), (9, 1), (9, 1)].map
        (fun q : ℕ × ℕ => Equiv.swap q.1 q.2)).prod
        = ([(1, 10), (4, 11), (5, 8)].map (fun q : ℕ × ℕ => Equiv.swap q.1 q.2)).prod := by
      simp only [List.map_cons, List.map_nil, List.prod_cons, List.prod_nil, mul_one,
        Equiv.swap_mul_self]
    show Invariant _ _
    simp only [e]
    intro i
    exact C11_complete _ _ (by
      intro q hq
      simp only [List.mem_cons, List.not_mem_nil, or_false] at hq
      rcases hq with rfl | rfl | rfl <;> decide +kernel) i

end VO
