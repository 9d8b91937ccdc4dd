import Verif.Lemmas.R1csCircuit
import Verif.Props.Complete

/-
The translation of R1CS to circuits as a whole (circuit/mod.rs).
-/

set_option linter.unusedSectionVars false

namespace VO
open Spec

variable {F : Type} [Field F] [DecidableEq F]

namespace Circuit

variable {P : ℕ → Prop}

theorem rowChecks_ok (ncol : ℕ) (hP : ∀ v, ncol ≤ v → P v) (zv : ℕ) (l : List ((ℕ × ℕ) × ℕ)) :
    ∀ (c : Circuit F), Good c → c.numInputs = ncol → (∃ i, Carries c (.output (.const i)) zv) →
      (∀ q ∈ l, (q.1.1 < c.vars.length ∧ P q.1.1) ∧ (q.1.2 < c.vars.length ∧ P q.1.2) ∧
        (q.2 < c.vars.length ∧ P q.2)) →
      ∃ (c' : Circuit F) (calls : List (Call F)) (xs : List ℕ), rowChecks c zv l = .ok c' ∧ Builds c calls c' ∧ (∀ x ∈ calls, HighLevel x) ∧
        publicVars calls = [] ∧ c'.numInputs = ncol ∧ c'.outputs = c.outputs ∧
        c'.assertEquals = c.assertEquals ++ xs.map (fun x => (x, zv)) ∧
        (∀ val, Sat c' val → xs.map val = l.map (fun q => val q.1.1 * val q.1.2 + val q.2)) ∧
        (∀ q ∈ l, Used c' q.1.1 ∧ Used c' q.1.2 ∧ Used c' q.2) ∧
        (∀ j, ¬ P j → ¬ Used c j → ¬ Used c' j) ∧ (∀ x ∈ xs, x < c'.vars.length) ∧
        (∀ x ∈ xs, ∃ i, Carries c' (.output (.bin .add i)) x) := by
  induction l with
  | nil =>
    intro c hg hni _ _
    exact ⟨c, [], [], rfl, .nil c, by simp, rfl, hni, rfl, by simp, by simp, by simp,
      fun _ _ h => h, by simp, by simp⟩
  | cons q l ih =>
    intro c hg hni hz hl
    obtain ⟨⟨a, b⟩, s⟩ := q
    obtain ⟨⟨a1, a2⟩, ⟨b1, b2⟩, ⟨s1, s2⟩⟩ :
      (a < c.vars.length ∧ P a) ∧ (b < c.vars.length ∧ P b) ∧ (s < c.vars.length ∧ P s) :=
      hl ((a, b), s) (List.mem_cons_self ..)
    obtain ⟨m, c1, h1, gr1, m1, m2, mv, ua, ub, -⟩ := binVars_total hg .mul a1 b1 a2 b2
    obtain ⟨g1, e1⟩ := gr1.good_ext hg
    have n1 := gr1.numInputs hg
    obtain ⟨x, c2, h2, gr2, x1, x2, xv, -, us, ix, hx⟩ := binVars_total g1 .add m1
      (lt_of_lt_of_le s1 e1.vars) (hP _ (hni ▸ m2)) s2
    obtain ⟨g2, e2⟩ := gr2.good_ext g1
    have n2 := gr2.numInputs g1
    obtain ⟨iz, hz⟩ := hz
    have hz2 := (e1.trans e2).carries hz
    have hne : x ≠ zv := by
      rintro rfl
      have hv : c2.vars[x]? = some c2.vars[x] := List.getElem?_eq_getElem x1
      have t1 := (g2.wired.driver x _ hv _).mpr hx
      have t2 := (g2.wired.driver x _ hv _).mpr hz2
      rw [t1] at t2; cases t2
    set c3 : Circuit F := { c2 with assertEquals := c2.assertEquals ++ [(x, zv)] } with hc3
    have h3 : c2.assertEqual x zv = .ok c3 := by unfold assertEqual; rw [if_neg hne]
    have hrefs : ∀ v ∈ refs (Call.assertEq x zv : Call F), v < c2.vars.length := by
      intro v hv
      simp only [refs, List.mem_cons, List.not_mem_nil, or_false] at hv
      rcases hv with rfl | rfl
      · exact x1
      · exact g2.wired.range _ _ hz2
    obtain ⟨g3, e3⟩ := step_good (.assertEq x zv) trivial hrefs g2 h3
    obtain ⟨c', calls, xs, i1, i2, i3, i4, i5, i6, i7, i8, i9, i10, i11, i12⟩ := ih c3 g3
      (by show c2.numInputs = _; rw [n2.1, n1.1, hni]) ⟨iz, e3.carries hz2⟩ (by
        have hle : c.vars.length ≤ c3.vars.length := (e1.trans (e2.trans e3)).vars
        intro q hq
        obtain ⟨t1, t2, t3⟩ := hl q (List.mem_cons_of_mem _ hq)
        exact ⟨⟨lt_of_lt_of_le t1.1 hle, t1.2⟩, ⟨lt_of_lt_of_le t2.1 hle, t2.2⟩,
          ⟨lt_of_lt_of_le t3.1 hle, t3.2⟩⟩)
    obtain ⟨l1, bl1, hl1⟩ := gr1
    obtain ⟨l2, bl2, hl2⟩ := gr2
    obtain ⟨-, e4⟩ := builds_good i2 i3 g3
    have pv : ∀ l : List (Call F), (∀ x ∈ l, (∃ v, x = Call.const v) ∨
        ∃ k a b, x = Call.bin k a b ∧ P a ∧ P b) → publicVars l = [] ∧ ∀ x ∈ l, HighLevel x := by
      intro l hl
      constructor
      · unfold publicVars
        rw [List.filterMap_eq_nil_iff]
        intro x hx
        rcases hl x hx with ⟨v, rfl⟩ | ⟨k, a, b, rfl, -⟩ <;> rfl
      · intro x hx
        rcases hl x hx with ⟨v, rfl⟩ | ⟨k, a, b, rfl, -⟩ <;> trivial
    refine ⟨c', (l1 ++ l2) ++ (.assertEq x zv :: calls), x :: xs, ?_,
      builds_append (builds_append bl1 bl2) (.cons hrefs h3 i2), ?_, ?_, i5, ?_, ?_, ?_, ?_, ?_, ?_, ?_⟩
    · unfold rowChecks
      simp only [bind, Except.bind, h1, h2, h3, i1]
    · intro y hy
      rcases List.mem_append.mp hy with hy | hy
      · rcases List.mem_append.mp hy with hy | hy
        · exact (pv l1 hl1).2 y hy
        · exact (pv l2 hl2).2 y hy
      · rcases List.mem_cons.mp hy with rfl | hy
        · trivial
        · exact i3 y hy
    · have := (pv l1 hl1).1
      have h' := (pv l2 hl2).1
      unfold publicVars at this h' i4 ⊢
      rw [List.filterMap_append, List.filterMap_append, this, h', List.filterMap_cons, i4]
      rfl
    · rw [i6]; show c2.outputs = _; rw [n2.2.2.2, n1.2.2.2]
    · rw [i7]; show c2.assertEquals ++ [(x, zv)] ++ _ = _
      rw [n2.2.1, n1.2.1, List.map_cons, List.append_assoc]; rfl
    · intro val hs
      have hs3 := e4.sat hs
      have hs2 := e3.sat hs3
      rw [List.map_cons, List.map_cons, i8 val hs, xv val hs2]
      congr 1
      show val m + val s = _
      rw [mv val (e2.sat hs2)]; rfl
    · intro q hq
      rcases List.mem_cons.mp hq with rfl | hq
      · exact ⟨(e2.trans (e3.trans e4)).used ua, (e2.trans (e3.trans e4)).used ub,
          (e3.trans e4).used us⟩
      · exact i9 q hq
    · intro j hj hu
      apply i10 j hj
      have hu1 : ¬ Used c1 j := binVars_unread h1 (fun e => hj (e ▸ a2)) (fun e => hj (e ▸ b2)) hu
      have hu2 : ¬ Used c2 j := binVars_unread h2 (fun e => hj (e ▸ hP _ (hni ▸ m2)))
        (fun e => hj (e ▸ s2)) hu1
      rintro ⟨w, g, hgi, hp⟩
      exact hu2 ⟨w, g, by rw [← hgi]; cases w.kind <;> rfl, hp⟩
    · intro y hy
      rcases List.mem_cons.mp hy with rfl | hy
      · exact lt_of_lt_of_le x1 (e3.trans e4).vars
      · exact i11 y hy
    · intro y hy
      rcases List.mem_cons.mp hy with rfl | hy
      · exact ⟨ix, (e3.trans e4).carries hx⟩
      · exact i12 y hy

theorem markPublics_ok (l : List ℕ) : ∀ (c : Circuit F), Good c →
    (∀ v ∈ l, v < c.vars.length ∧ Connected c v) →
    ∃ c', markPublics c l = .ok c' ∧ Builds c (l.map .markPublic) c' ∧
      c' = { c with publicIo := c'.publicIo } := by
  induction l with
  | nil => intro c _ _; exact ⟨c, rfl, .nil c, rfl⟩
  | cons v l ih =>
    intro c hg hl
    obtain ⟨hv, w, hw⟩ := hl v (by simp)
    have hx : c.vars[v]? = some c.vars[v] := List.getElem?_eq_getElem hv
    obtain ⟨c1, h1⟩ : ∃ c1, c.markVariableAsPublic v = .ok c1 := by
      unfold markVariableAsPublic
      rw [hx]
      simp only
      match w with
      | .output w =>
        rw [(hg.wired.driver v _ hx w).mpr hw]; exact ⟨_, rfl⟩
      | .input w =>
        have := (hg.wired.inputs v _ hx w).mpr hw
        rcases h0 : c.vars[v].outputWire with _ | w'
        · rcases h00 : c.vars[v].inputWires with _ | ⟨w', ws⟩
          · rw [h00] at this; cases this
          · exact ⟨_, rfl⟩
        · exact ⟨_, rfl⟩
    obtain ⟨g1, e1⟩ := step_good (.markPublic v) trivial (by simpa [refs] using hv) hg h1
    obtain ⟨c', i1, i2, i3⟩ := ih c1 g1 (by
      intro u hu
      obtain ⟨h3, w', h4⟩ := hl u (by simp [hu])
      exact ⟨lt_of_lt_of_le h3 e1.vars, w', e1.carries h4⟩)
    refine ⟨c', ?_, ?_, ?_⟩
    · unfold markPublics
      rw [h1]; exact i1
    · rw [List.map_cons]
      exact .cons (by simpa [refs] using hv) h1 i2
    · rw [i3, markVariableAsPublic_state h1]

/-! ## Collecting the entries -/

/-- The matrix of a tag. -/
def matOf (r : R1CS F) : Mat → SparseMat F
  | .A => r.a
  | .B => r.b
  | .C => r.c

theorem insertPos_sum (val : ℕ → F) (m : List (F × List (ℕ × ℕ × Mat))) (v : F) (p : ℕ × ℕ × Mat)
    (t : Mat) (i : ℕ) :
    vpSum val (insertPos m v p) t i
      = vpSum val m t i + if p.2.2 = t ∧ p.1 = i then v * zOf val p.2.1 else 0 := by
  induction m with
  | nil => simp [insertPos, vpSum, posSum]
  | cons e m ih =>
    obtain ⟨u, ps⟩ := e
    unfold insertPos
    split_ifs with h1 h2 h2
    · subst h1; simp [vpSum, posSum, h2]; ring
    · subst h1; simp [vpSum, posSum, h2]
    · rw [if_pos h2] at ih
      unfold vpSum at ih ⊢
      rw [List.map_cons, List.sum_cons, ih, List.map_cons, List.sum_cons, add_assoc]
    · rw [if_neg h2] at ih
      unfold vpSum at ih ⊢
      rw [List.map_cons, List.sum_cons, ih, List.map_cons, List.sum_cons, add_assoc]

theorem insertPos_mem (m : List (F × List (ℕ × ℕ × Mat))) (v : F) (p q : ℕ × ℕ × Mat) :
    (∃ e ∈ insertPos m v p, q ∈ e.2) ↔ (∃ e ∈ m, q ∈ e.2) ∨ q = p := by
  induction m with
  | nil => simp [insertPos]
  | cons e m ih =>
    obtain ⟨u, ps⟩ := e
    unfold insertPos
    split_ifs with h1
    · simp only [List.mem_cons, exists_eq_or_imp, List.mem_append, List.not_mem_nil, or_false]
      exact or_right_comm
    · simp only [List.mem_cons, exists_eq_or_imp, ih]
      exact or_assoc.symm

theorem insertPos_keys (m : List (F × List (ℕ × ℕ × Mat))) (v : F) (p : ℕ × ℕ × Mat)
    (hv : v ≠ 0) (hm : ∀ e ∈ m, e.1 ≠ 0) : ∀ e ∈ insertPos m v p, e.1 ≠ 0 := by
  induction m with
  | nil => simpa [insertPos] using hv
  | cons e m ih =>
    obtain ⟨u, ps⟩ := e
    unfold insertPos
    split_ifs with h1
    · intro e he
      rcases List.mem_cons.mp he with rfl | he
      · exact hm (u, ps) (by simp)
      · exact hm e (by simp [he])
    · intro e he
      rcases List.mem_cons.mp he with rfl | he
      · exact hm (u, ps) (by simp)
      · exact ih (fun e he => hm e (by simp [he])) e he

theorem collectPos_spec (t : Mat) (f : F → F) (hf : ∀ v, v ≠ 0 → f v ≠ 0) (m : SparseMat F)
    (acc : List (F × List (ℕ × ℕ × Mat))) (hacc : ∀ e ∈ acc, e.1 ≠ 0) :
    (∀ e ∈ collectPos t f m acc, e.1 ≠ 0) ∧
    (∀ q, (∃ e ∈ collectPos t f m acc, q ∈ e.2) ↔ (∃ e ∈ acc, q ∈ e.2) ∨
      ∃ u, u ≠ 0 ∧ ((q.1, q.2.1), u) ∈ triples m ∧ q.2.2 = t) ∧
    (∀ val u i, vpSum val (collectPos t f m acc) u i = vpSum val acc u i +
      if t = u then ((triples m).map (fun e => if e.1.1 = i ∧ e.2 ≠ 0
        then f e.2 * zOf val e.1.2 else 0)).sum else 0) := by
  unfold collectPos triples
  generalize (m.rows.zip m.cols).zip m.vals = es
  induction es generalizing acc with
  | nil => exact ⟨hacc, by simp, by simp⟩
  | cons e es ih =>
    by_cases he : e.2 = 0
    · rw [List.filter_cons_of_neg (by simpa using he)]
      obtain ⟨i1, i2, i3⟩ := ih acc hacc
      refine ⟨i1, ?_, ?_⟩
      · intro q
        rw [i2]
        apply or_congr_right
        constructor
        · rintro ⟨u, h1, h2, h3⟩; exact ⟨u, h1, by simp [h2], h3⟩
        · rintro ⟨u, h1, h2, h3⟩
          rcases List.mem_cons.mp h2 with h2 | h2
          · rw [← h2] at he; exact absurd he h1
          · exact ⟨u, h1, h2, h3⟩
      · intro val u i
        rw [i3]; simp [he]
    · rw [List.filter_cons_of_pos (by simpa using he), List.foldl_cons]
      obtain ⟨i1, i2, i3⟩ := ih _ (insertPos_keys acc (f e.2) (e.1.1, e.1.2, t) (hf _ he) hacc)
      refine ⟨i1, ?_, ?_⟩
      · intro q
        rw [i2, insertPos_mem]
        constructor
        · rintro ((h | rfl) | ⟨u, h1, h2, h3⟩)
          · exact .inl h
          · exact .inr ⟨e.2, he, by simp, rfl⟩
          · exact .inr ⟨u, h1, by simp [h2], h3⟩
        · rintro (h | ⟨u, h1, h2, h3⟩)
          · exact .inl (.inl h)
          · rcases List.mem_cons.mp h2 with h2 | h2
            · refine .inl (.inr ?_)
              rw [← h2, ← h3]
            · exact .inr ⟨u, h1, h2, h3⟩
      · intro val u i
        rw [i3, insertPos_sum]
        by_cases ht : t = u
        · simp [ht, he]; ring
        · simp [ht]

/-- A non-zero entry of matrix `t` is listed at `(ri, ci)`. -/
def Nz (r : R1CS F) (t : Mat) (ri ci : ℕ) : Prop := Lists (matOf r t) ri ci

/-- Row `i` of matrix `t` applied to `z`. -/
def rowOf (r : R1CS F) (val : ℕ → F) (t : Mat) (i : ℕ) : F :=
  ((triples (matOf r t)).map (fun e => if e.1.1 = i ∧ e.2 ≠ 0 then e.2 * zOf val e.1.2 else 0)).sum

theorem valueToPositions_spec (r : R1CS F) :
    (∀ e ∈ valueToPositions r, e.1 ≠ 0) ∧
    (∀ ri ci t, (∃ e ∈ valueToPositions r, (ri, ci, t) ∈ e.2) ↔ Nz r t ri ci) ∧
    (∀ val i, vpSum val (valueToPositions r) .A i = rowOf r val .A i ∧
      vpSum val (valueToPositions r) .B i = rowOf r val .B i ∧
      vpSum val (valueToPositions r) .C i = - rowOf r val .C i) := by
  unfold valueToPositions
  obtain ⟨a1, a2, a3⟩ := collectPos_spec .A id (fun v h => h) r.a [] (by simp)
  obtain ⟨b1, b2, b3⟩ := collectPos_spec .B id (fun v h => h) r.b _ a1
  obtain ⟨c1, c2, c3⟩ := collectPos_spec .C (fun v => -v) (fun v h => by simpa using h) r.c _ b1
  refine ⟨c1, ?_, ?_⟩
  · intro ri ci t
    rw [c2, b2, a2]
    unfold Nz Lists
    cases t <;> simp [matOf]
  · intro val i
    refine ⟨?_, ?_, ?_⟩
    · rw [c3, b3, a3]; simp [vpSum, rowOf, matOf]
    · rw [c3, b3, a3]; simp [vpSum, rowOf, matOf]
    · rw [c3, b3, a3]
      simp only [if_true, reduceCtorEq, if_false, vpSum, List.map_nil, List.sum_nil, rowOf, matOf,
        zero_add, add_zero]
      induction triples r.c with
      | nil => simp
      | cons e es ih =>
        rw [List.map_cons, List.sum_cons, ih, List.map_cons, List.sum_cons]
        split_ifs <;> ring

theorem rowOf_eq (r : R1CS F) (t : Mat) (i : ℕ) (val : ℕ → F) (z : List F)
    (hr : ∀ ri ci, Nz r t ri ci → ci < r.ncols) (hz : ∀ j < r.ncols, zOf val j = z.getD j 0) :
    rowOf r val t i = mulVec (matOf r t) r.ncols z i := by
  have h1 : rowOf r val t i = rowSum ((triples (matOf r t)).filter (fun e => decide (e.2 ≠ 0))) z i := by
    unfold rowOf rowSum
    have : ∀ e ∈ triples (matOf r t), e.2 ≠ 0 → e.1.2 < r.ncols := by
      intro e he h0
      exact hr e.1.1 e.1.2 ⟨e.2, h0, he⟩
    revert this
    generalize triples (matOf r t) = es
    intro hes
    induction es with
    | nil => rfl
    | cons e es ih =>
      have ih := ih (fun e he => hes e (by simp [he]))
      by_cases he : e.2 = 0
      · rw [List.filter_cons_of_neg (by simpa using he), ← ih]; simp [he]
      · rw [List.filter_cons_of_pos (by simpa using he), List.map_cons, List.map_cons,
          List.sum_cons, List.sum_cons, ← ih]
        rw [hz _ (hes e (by simp) he)]
        congr 1
        simp only [he, ne_eq, not_false_iff, and_true]
        split_ifs <;> ring
  have h2 : ∀ j, entryOf ((triples (matOf r t)).filter (fun e => decide (e.2 ≠ 0))) i j
      = entryOf (triples (matOf r t)) i j := by
    intro j
    unfold entryOf
    generalize triples (matOf r t) = es
    induction es with
    | nil => rfl
    | cons e es ih =>
      by_cases he : e.2 = 0
      · rw [List.filter_cons_of_neg (by simpa using he), ih]
        by_cases hp : e.1.1 = i ∧ e.1.2 = j
        · rw [List.filter_cons_of_pos (by simpa using hp)]; simp [he]
        · rw [List.filter_cons_of_neg (by simpa using hp)]
      · rw [List.filter_cons_of_pos (by simpa using he)]
        by_cases hp : e.1.1 = i ∧ e.1.2 = j
        · rw [List.filter_cons_of_pos (by simpa using hp), List.filter_cons_of_pos (by simpa using hp),
            List.map_cons, List.map_cons, List.sum_cons, List.sum_cons, ih]
        · rw [List.filter_cons_of_neg (by simpa using hp), List.filter_cons_of_neg (by simpa using hp), ih]
  rw [h1, rowSum_eq _ z r.ncols i (by
    intro e he
    rw [List.mem_filter] at he
    exact hr e.1.1 e.1.2 ⟨e.2, by simpa using he.2, he.1⟩)]
  simp only [h2]
  rfl

theorem addConsts_length (l : List F) : ∀ (c c' : Circuit F) (xs : List ℕ),
    addConsts c l = .ok (xs, c') → xs.length = l.length := by
  induction l with
  | nil => intro c c' xs h; cases h; rfl
  | cons v l ih =>
    intro c c' xs h
    unfold addConsts at h
    simp only [bind, Except.bind, pure, Except.pure] at h
    split at h
    · cases h
    · split at h
      · cases h
      · rename_i q hq
        cases h
        rw [List.length_cons, List.length_cons, ih _ _ _ hq]

theorem vpSum_perm (val : ℕ → F) {l l' : List (F × List (ℕ × ℕ × Mat))} (h : l.Perm l') (t : Mat)
    (i : ℕ) : vpSum val l t i = vpSum val l' t i := (h.map _).sum_eq

theorem rowVal_replicate (val : ℕ → F) (n i : ℕ) : rowVal val (List.replicate n []) i = 0 := by
  unfold rowVal
  have : (List.replicate n ([] : List ℕ)).getD i [] = [] := by
    simp [List.getD, List.getElem?_replicate]
    split_ifs <;> rfl
  rw [this]; rfl

variable (perm : List (F × List (ℕ × ℕ × Mat)) → List (F × List (ℕ × ℕ × Mat)))

/-- All entries that are not zero are inside the matrix. -/
def EntriesIn (r : R1CS F) : Prop := ∀ t ri ci, Nz r t ri ci → ri < r.nrows ∧ ci < r.ncols

theorem ofR1CS_range (r : R1CS F) (hperm : (perm (valueToPositions r)).Perm (valueToPositions r))
    {c : Circuit F} (h : ofR1CS perm r = .ok c) : 0 < r.ncols ∧ EntriesIn r := by
  unfold ofR1CS at h
  split_ifs at h with hn
  have hn : 0 < r.ncols := by omega
  obtain ⟨c0, h0, g0, n0, -⟩ := addInputs_ok (r.ncols - 1) (Circuit.new : Circuit F) good_new rfl
    gates_new rfl
  obtain ⟨zv, c1, h1, gr1, -⟩ := constVar_total (P := fun _ => True) g0 (0 : F)
  obtain ⟨g1, -⟩ := gr1.good_ext g0
  obtain ⟨cv, c2, h2, gr2, -, hval⟩ := addConsts_ok (P := fun _ => True)
    ((perm (valueToPositions r)).map Prod.fst) c1 g1
  simp only [bind, Except.bind, h0, h1, h2] at h
  split at h
  · cases h
  · rename_i st hst
    have hlen : cv.length = (perm (valueToPositions r)).length := by
      have := addConsts_length _ _ _ _ h2
      rw [this, List.length_map]
    rw [show (Circuit.new : Circuit F).vars.length = 0 from rfl, ← List.range_eq_range'] at hst
    have := valuesGo_range zv r.nrows (r.ncols - 1) (perm (valueToPositions r)) cv _ _ (by
      intro e he
      exact (valueToPositions_spec r).1 e (hperm.mem_iff.mp he)) hlen (by simp) hst
    refine ⟨hn, ?_⟩
    intro t ri ci hnz
    obtain ⟨e, he, hm⟩ := ((valueToPositions_spec r).2.1 ri ci t).mpr hnz
    have := this e (hperm.mem_iff.mpr he) _ hm
    exact ⟨this.1, by have := this.2; simp only at this; omega⟩

theorem ofR1CS_pre (r : R1CS F) (hperm : (perm (valueToPositions r)).Perm (valueToPositions r))
    (hn : 0 < r.ncols) (hr : EntriesIn r) :
    ∃ (c : Circuit F) (calls : List (Call F)) (xs : List ℕ) (zv : ℕ),
      ofR1CS perm r = (do
        let c ← unwrapS c.markAsComplete
        markPublics c ((List.range (r.ncols - 1)).take r.inputSize)) ∧
      Builds Circuit.new calls c ∧ (∀ x ∈ calls, HighLevel x) ∧ publicVars calls = [] ∧
      c.numInputs = r.ncols - 1 ∧ c.outputs = [] ∧
      c.assertEquals = xs.map (fun x => (x, zv)) ∧ (∀ x ∈ xs, x < c.vars.length) ∧
      zv < c.vars.length ∧
      (∀ val, Sat c val → val zv = 0 ∧ xs.map val = (List.range r.nrows).map
        (fun i => rowOf r val .A i * rowOf r val .B i - rowOf r val .C i)) ∧
      (∀ j, j < r.ncols - 1 → (Used c j ↔ ∃ t ri, Nz r t ri (j + 1))) ∧
      (∃ i, Carries c (.output (.const i)) zv) ∧
      (∀ x ∈ xs, ∃ i, Carries c (.output (.bin .add i)) x) := by
  set P : ℕ → Prop := fun v => r.ncols - 1 ≤ v ∨ ∃ t ri, Nz r t ri (v + 1) with hPdef
  have hP : ∀ v, r.ncols - 1 ≤ v → P v := fun v h => .inl h
  obtain ⟨v1, v2, v3⟩ := valueToPositions_spec r
  set vp := perm (valueToPositions r) with hvp
  obtain ⟨c0, h0, g0, n0, l0, a0, p0, o0, b0⟩ := addInputs_ok (r.ncols - 1) (Circuit.new : Circuit F)
    good_new rfl gates_new rfl
  rw [show (Circuit.new : Circuit F).vars.length = 0 from rfl, ← List.range_eq_range'] at h0
  rw [show (Circuit.new : Circuit F).numInputs = 0 from rfl, Nat.zero_add] at n0
  have ng0 : ∀ k, c0.gates k = [] := by
    have : ∀ (n : ℕ) (c c' : Circuit F), (∀ k, c.gates k = []) →
        Builds c (List.replicate n .input) c' → ∀ k, c'.gates k = [] := by
      intro n
      induction n with
      | zero => intro c c' hk hb; cases hb; exact hk
      | succ n ih =>
        intro c c' hk hb
        rw [List.replicate_succ] at hb
        cases hb with
        | cons hr h1 h2 =>
          refine ih _ _ ?_ h2
          obtain ⟨x, h1⟩ := map_snd_ok h1
          unfold addGlobalInputVariable at h1
          split at h1
          · cases h1
          · obtain ⟨-, rfl⟩ := Prod.mk.inj (Except.ok.inj h1)
            intro k; have := hk k; cases k <;> exact this
    exact this _ _ _ gates_new b0
  have nu0 : ∀ j, ¬ Used c0 j := by
    rintro j ⟨w, g, hg, -⟩
    rw [ng0] at hg; cases hg
  obtain ⟨zv, c1, h1, gr1, z1, z2, z3, iz, hz⟩ := constVar_total (P := P) g0 (0 : F)
  obtain ⟨g1, e1⟩ := gr1.good_ext g0
  have n1 := gr1.numInputs g0
  obtain ⟨cv, c2, h2, gr2, cv1, cv2⟩ := addConsts_ok (P := P) (vp.map Prod.fst) c1 g1
  obtain ⟨g2, e2⟩ := gr2.good_ext g1
  have n2 := gr2.numInputs g1
  have hlen : cv.length = vp.length := by
    have := addConsts_length _ _ _ _ h2
    rw [this, List.length_map]
  obtain ⟨st, h3, gr3, ro3, rv3, -, ru3⟩ := valuesGo_ok (P := P) zv r.nrows (r.ncols - 1) hP vp cv
    ⟨c2, fun _ => List.replicate r.nrows []⟩
    (fun e he => v1 e (hperm.mem_iff.mp he)) g2 (by show c2.numInputs = _; rw [n2.1, n1.1, n0])
    (by intro t; refine ⟨by simp, ?_⟩
        intro row hrow v hv
        rw [List.eq_of_mem_replicate hrow] at hv; cases hv)
    (fun x hx => ⟨(cv1 x hx).1, by have := (cv1 x hx).2; rw [n1.1, n0] at this; exact this⟩)
    (by have := g2.ordered.numInputs_le; rw [n2.1, n1.1, n0] at this; exact this) hlen
    (fun val hs => cv2 val hs)
    (by
      intro e he p hp
      obtain ⟨ri, ci, t⟩ := p
      have hnz := (v2 ri ci t).mp ⟨e, hperm.mem_iff.mp he, hp⟩
      have := hr t ri ci hnz
      refine ⟨this.1, by show ci ≤ _; omega, ?_⟩
      rintro j hj
      simp only at hj
      exact .inr ⟨t, ri, hj ▸ hnz⟩)
  obtain ⟨g3, e3⟩ := gr3.good_ext g2
  have n3 := gr3.numInputs g2
  simp only at gr3 e3 n3
  have hni3 : st.circ.numInputs = r.ncols - 1 := by rw [n3.1, n2.1, n1.1, n0]
  have hzn : r.ncols - 1 ≤ zv := by rw [← n0]; exact z2
  obtain ⟨sa, c4, h4, gr4, la, ha1, ha2, ha3⟩ := sumRows_ok (P := P) (r.ncols - 1) hP (st.rows .A)
    st.circ zv g3 hni3 hzn (lt_of_lt_of_le z1 (e2.trans e3).vars)
    (fun val hs => z3 val ((e2.trans e3).sat hs)) (ro3 .A).2
  obtain ⟨g4, e4⟩ := gr4.good_ext g3
  have n4 := gr4.numInputs g3
  obtain ⟨sb, c5, h5, gr5, lb, hb1, hb2, hb3⟩ := sumRows_ok (P := P) (r.ncols - 1) hP (st.rows .B)
    c4 zv g4 (n4.1.trans hni3) hzn (lt_of_lt_of_le z1 (e2.trans (e3.trans e4)).vars)
    (fun val hs => z3 val ((e2.trans (e3.trans e4)).sat hs)) ((ro3.mono e4.vars) .B).2
  obtain ⟨g5, e5⟩ := gr5.good_ext g4
  have n5 := gr5.numInputs g4
  obtain ⟨sc, c6, h6, gr6, lc, hc1, hc2, hc3⟩ := sumRows_ok (P := P) (r.ncols - 1) hP (st.rows .C)
    c5 zv g5 (n5.1.trans (n4.1.trans hni3)) hzn
    (lt_of_lt_of_le z1 (e2.trans (e3.trans (e4.trans e5))).vars)
    (fun val hs => z3 val ((e2.trans (e3.trans (e4.trans e5))).sat hs))
    ((ro3.mono (e4.trans e5).vars) .C).2
  obtain ⟨g6, e6⟩ := gr6.good_ext g5
  have n6 := gr6.numInputs g5
  have la' : sa.length = r.nrows := by rw [la, (ro3 .A).1]
  have lb' : sb.length = r.nrows := by rw [lb, (ro3 .B).1]
  have lc' : sc.length = r.nrows := by rw [lc, (ro3 .C).1]
  have hmemz : ∀ q ∈ (sa.zip sb).zip sc, q.1.1 ∈ sa ∧ q.1.2 ∈ sb ∧ q.2 ∈ sc := by
    rintro ⟨⟨a, b⟩, s⟩ hq
    have h1 := List.of_mem_zip hq
    have h2 := List.of_mem_zip h1.1
    exact ⟨h2.1, h2.2, h1.2⟩
  obtain ⟨c7, calls, xs, h7, b7, hl7, pv7, n7, o7, as7, xv7, u7, nu7, xl7, xa7⟩ := rowChecks_ok (P := P)
    (r.ncols - 1) hP zv ((sa.zip sb).zip sc) c6 g6 (by rw [n6.1, n5.1, n4.1, hni3])
    ⟨iz, (e2.trans (e3.trans (e4.trans (e5.trans e6)))).carries hz⟩ (by
      intro q hq
      obtain ⟨m1, m2, m3⟩ := hmemz q hq
      exact ⟨⟨lt_of_lt_of_le (ha1 _ m1).1 (e5.trans e6).vars, (ha1 _ m1).2⟩,
        ⟨lt_of_lt_of_le (hb1 _ m2).1 e6.vars, (hb1 _ m2).2⟩, hc1 _ m3⟩)
  obtain ⟨g7, e7⟩ := builds_good b7 hl7 g6
  -- the history
  have grAll : Grows P c0 c6 := gr1.trans (gr2.trans (gr3.trans (gr4.trans (gr5.trans gr6))))
  have nAll := grAll.numInputs g0
  obtain ⟨lg, bg, hlg⟩ := grAll
  have hgl : publicVars lg = [] ∧ ∀ x ∈ lg, HighLevel x := by
    constructor
    · unfold publicVars
      rw [List.filterMap_eq_nil_iff]
      intro x hx
      rcases hlg x hx with ⟨v, rfl⟩ | ⟨k, a, b, rfl, -⟩ <;> rfl
    · intro x hx
      rcases hlg x hx with ⟨v, rfl⟩ | ⟨k, a, b, rfl, -⟩ <;> trivial
  refine ⟨c7, (List.replicate (r.ncols - 1) .input ++ lg) ++ calls, xs, zv, ?_,
    builds_append (builds_append b0 bg) b7, ?_, ?_, n7, ?_, ?_, xl7, ?_, ?_, ?_, ?_⟩
  · unfold ofR1CS
    rw [if_neg (by omega)]
    simp only [bind, Except.bind, h0, h1, ← hvp, h2, h3, h4, h5, h6, h7]
  · intro x hx
    rcases List.mem_append.mp hx with hx | hx
    · rcases List.mem_append.mp hx with hx | hx
      · rw [List.eq_of_mem_replicate hx]; trivial
      · exact hgl.2 x hx
    · exact hl7 x hx
  · have t1 := hgl.1
    have t0 : publicVars (List.replicate (r.ncols - 1) (Call.input : Call F)) = [] := by
      unfold publicVars
      rw [List.filterMap_eq_nil_iff]
      intro x hx; rw [List.eq_of_mem_replicate hx]
    unfold publicVars at t0 t1 pv7 ⊢
    rw [List.filterMap_append, List.filterMap_append, t0, t1, pv7]; rfl
  · rw [o7, nAll.2.2.2, o0]; rfl
  · rw [as7, nAll.2.1, a0]; rfl
  · exact lt_of_lt_of_le z1 (e2.trans (e3.trans (e4.trans (e5.trans (e6.trans e7))))).vars
  · intro val hs
    have s6 := e7.sat hs
    have s5 := e6.sat s6
    have s4 := e5.sat s5
    have s3 := e4.sat s4
    refine ⟨z3 val (e2.sat (e3.sat s3)), ?_⟩
    rw [xv7 val hs]
    have hrow : ∀ t i, rowVal val (st.rows t) i = vpSum val (valueToPositions r) t i := by
      intro t i
      rw [rv3 val s3 t i, rowVal_replicate, zero_add]
      exact vpSum_perm val hperm t i
    have key : ∀ (t : Mat) (i : ℕ), i < r.nrows →
        ((st.rows t).map (fun row => (row.map val).sum))[i]? = some (rowVal val (st.rows t) i) := by
      intro t i hi
      have hlt : i < (st.rows t).length := by rw [(ro3 t).1]; exact hi
      rw [List.getElem?_map, List.getElem?_eq_getElem hlt]
      unfold rowVal
      rw [List.getD_eq_getElem _ _ hlt]; rfl
    apply List.ext_getElem?
    intro i
    by_cases hi : i < r.nrows
    · have qa := key .A i hi
      have qb := key .B i hi
      have qc := key .C i hi
      rw [← ha2 val s4, List.getElem?_map, List.getElem?_eq_getElem (by omega), Option.map_some,
        Option.some.injEq] at qa
      rw [← hb2 val s5, List.getElem?_map, List.getElem?_eq_getElem (by omega), Option.map_some,
        Option.some.injEq] at qb
      rw [← hc2 val s6, List.getElem?_map, List.getElem?_eq_getElem (by omega), Option.map_some,
        Option.some.injEq] at qc
      rw [hrow, (v3 val i).1] at qa
      rw [hrow, (v3 val i).2.1] at qb
      rw [hrow, (v3 val i).2.2] at qc
      rw [List.getElem?_map, List.getElem?_map, List.getElem?_range hi,
        List.getElem?_eq_getElem (by simp [List.length_zip]; omega)]
      simp only [Option.map_some, List.getElem_zip, qa, qb, qc]
      congr 1
      ring
    · rw [List.getElem?_eq_none (by simp [List.length_zip]; omega),
        List.getElem?_eq_none (by simp; omega)]
  · intro j hj
    constructor
    · intro hu
      by_contra hno
      have hnp : ¬ P j := by
        rintro (h | h)
        · omega
        · exact hno h
      refine nu7 j hnp ?_ hu
      exact (Grows.unread ⟨lg, bg, hlg⟩ hnp (nu0 j))
    · rintro ⟨t, ri, hnz⟩
      obtain ⟨e, he, hm⟩ := (v2 ri (j + 1) t).mpr hnz
      have hri := (hr t ri _ hnz).1
      rcases ru3 e (hperm.mem_iff.mpr he) ri j t hm with h | h
      · exact (e4.trans (e5.trans (e6.trans e7))).used h
      · have hq : ((sa.zip sb).zip sc)[ri]? = some ((sa[ri], sb[ri]), sc[ri]) := by
          rw [List.getElem?_eq_getElem (by simp [List.length_zip]; omega)]
          simp
        have hqm := u7 _ (List.mem_of_getElem? hq)
        simp only at hqm
        cases t with
        | A =>
          rcases ha3 ri j h with h | h
          · exact (e5.trans (e6.trans e7)).used h
          · rw [List.getElem?_eq_getElem (by omega)] at h
            rw [← Option.some.inj h]; exact hqm.1
        | B =>
          rcases hb3 ri j h with h | h
          · exact (e6.trans e7).used h
          · rw [List.getElem?_eq_getElem (by omega)] at h
            rw [← Option.some.inj h]; exact hqm.2.1
        | C =>
          rcases hc3 ri j h with h | h
          · exact e7.used h
          · rw [List.getElem?_eq_getElem (by omega)] at h
            rw [← Option.some.inj h]; exact hqm.2.2
  · exact ⟨⟨iz, (e2.trans (e3.trans (e4.trans (e5.trans (e6.trans e7))))).carries hz⟩, xa7⟩

end Circuit
end VO
