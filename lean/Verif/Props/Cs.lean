import Verif.Lemmas.Cs
import Mathlib.Tactic.NormNum

/-
Property theorems C24-C28, C51: the satisfaction checks of the constraint systems
(`/repo/voproof/src/cs/r1cs.rs`, `hpr.rs`, `pov.rs`).
-/

set_option linter.unusedSectionVars false

namespace VO
open Spec

variable {F : Type} [Field F] [DecidableEq F]

/-! ## C24: R1CS -/

/-- **C24.** `satisfy` returns true iff `(A z) ∘ (B z) = C z`, and false iff it does not hold,
on every well-shaped input. -/
theorem C24_satisfy (r : R1CS F) (x w : List F) (hs : R1CSShape r x w) :
    (r.satisfy x w = .ok true ↔ R1CSHolds r x w) ∧
    (r.satisfy x w = .ok false ↔ ¬ R1CSHolds r x w) := by
  obtain ⟨b, h1, h2⟩ := r.satisfy_ok x w hs
  rw [h1, ← h2]
  cases b <;> simp

/-- **C24.** It aborts exactly when a dimension is zero, the assignment has the wrong length or an
index is out of range. -/
theorem C24_abort (r : R1CS F) (x w : List F) :
    r.satisfy x w = .error .panic ↔ ¬ R1CSShape r x w := by
  constructor
  · intro h hs
    obtain ⟨b, h1, -⟩ := r.satisfy_ok x w hs
    rw [h] at h1; cases h1
  · exact r.satisfy_panic x w

/-- A one-row system `z1 * z1 = z2`. -/
def exR1CS : R1CS ℚ := ⟨⟨[0], [1], [1]⟩, ⟨[0], [1], [1]⟩, ⟨[0], [2], [1]⟩, 1, 3, 1⟩

example : R1CSShape exR1CS [3] [9] := by
  refine ⟨by decide, by decide, by decide, ?_, ?_, ?_⟩ <;>
    simp [InRange, triples, exR1CS]
example : exR1CS.satisfy [3] [9] = .ok true ∧ exR1CS.satisfy [3] [8] = .ok false := by
  decide +kernel

/-! ## C51: conversion from arkworks matrices -/

theorem triples_arkSparse (m : List (List (F × ℕ))) :
    triples (arkSparse m) = (arkTriples m).map (fun t => ((t.1, t.2.1), t.2.2)) := by
  unfold triples arkSparse
  generalize arkTriples m = l
  induction l with
  | nil => rfl
  | cons t l ih => simpa using ih

theorem arkTriples_filter (m : List (List (F × ℕ))) (s i j : ℕ) (hs : s ≤ i) :
    (((m.zipIdx s).flatMap (fun (row : List (F × ℕ) × ℕ) =>
        row.1.map (fun e => (row.2, e.2, e.1)))).filter
          (fun t => decide (t.1 = i ∧ t.2.1 = j))).map (fun t => t.2.2)
      = ((m.getD (i - s) []).filter (fun e => decide (e.2 = j))).map Prod.fst := by
  induction m generalizing s with
  | nil => simp
  | cons r m ih =>
    rw [List.zipIdx_cons, List.flatMap_cons, List.filter_append, List.map_append]
    by_cases h : s = i
    · subst h
      have h2 : ((m.zipIdx (s + 1)).flatMap (fun (row : List (F × ℕ) × ℕ) =>
          row.1.map (fun e => (row.2, e.2, e.1)))).filter
            (fun t => decide (t.1 = s ∧ t.2.1 = j)) = [] := by
        rw [List.filter_eq_nil_iff]
        intro t ht
        simp only [List.mem_flatMap, List.mem_map] at ht
        obtain ⟨row, hr, e, he, rfl⟩ := ht
        have := (List.mem_zipIdx hr).1
        simp; omega
      rw [h2]
      simp only [List.map_nil, List.append_nil, Nat.sub_self, List.getD_cons_zero]
      rw [List.filter_map, List.map_map]
      congr 1
      apply List.filter_congr
      intro e _
      simp
    · have h1 : (r.map (fun e => (s, e.2, e.1))).filter
          (fun t => decide (t.1 = i ∧ t.2.1 = j)) = [] := by
        rw [List.filter_eq_nil_iff]
        intro t ht
        obtain ⟨e, he, rfl⟩ := List.mem_map.mp ht
        simp [h]
      rw [h1, List.map_nil, List.nil_append, ih (s + 1) (by omega)]
      rw [show i - s = (i - (s + 1)) + 1 by omega, List.getD_cons_succ]

/-- **C51.** The three sparse matrices read off an arkworks constraint system are the same
matrices: entry `(i, j)` is the sum of the coefficients listed for column `j` in row `i`. -/
theorem C51_ark_entry (m : List (List (F × ℕ))) (i j : ℕ) :
    entry (arkSparse m) i j
      = (((m.getD i []).filter (fun e => decide (e.2 = j))).map Prod.fst).sum := by
  have := arkTriples_filter m 0 i j (Nat.zero_le _)
  rw [Nat.sub_zero] at this
  rw [← this]
  unfold entry
  rw [triples_arkSparse, List.filter_map, List.map_map]
  rfl

/-- Value of a linear combination (an arkworks row) under an assignment. -/
def lcValue (row : List (F × ℕ)) (z : List F) : F := (row.map (fun e => e.1 * z.getD e.2 0)).sum

theorem lcValue_eq (row : List (F × ℕ)) (z : List F) (k : ℕ) (h : ∀ e ∈ row, e.2 < k) :
    lcValue row z = ∑ j ∈ Finset.range k,
      ((row.filter (fun e => decide (e.2 = j))).map Prod.fst).sum * z.getD j 0 := by
  induction row with
  | nil => simp [lcValue]
  | cons e row ih =>
    have h1 : lcValue (e :: row) z = e.1 * z.getD e.2 0 + lcValue row z := by simp [lcValue]
    rw [h1, ih (fun e' he' => h e' (by simp [he']))]
    have hk := h e (by simp)
    rw [← Finset.add_sum_erase _ _ (Finset.mem_range.mpr hk),
      ← Finset.add_sum_erase _ (fun j => (((e :: row).filter (fun e => decide (e.2 = j))).map
        Prod.fst).sum * z.getD j 0) (Finset.mem_range.mpr hk)]
    have : ∀ j ∈ (Finset.range k).erase e.2,
        (((e :: row).filter (fun e => decide (e.2 = j))).map Prod.fst).sum * z.getD j 0
          = ((row.filter (fun e => decide (e.2 = j))).map Prod.fst).sum * z.getD j 0 := by
      intro j hj
      rw [List.filter_cons_of_neg (by simpa using (Finset.ne_of_mem_erase hj).symm)]
    rw [Finset.sum_congr rfl this, List.filter_cons_of_pos (by simp)]
    simp only [List.map_cons, List.sum_cons]
    ring

/-- **C51.** For every arkworks system with at least the constant variable, well-formed columns
and one row list per constraint, the converted R1CS has the announced sizes and holds for exactly
the assignments that satisfy every constraint `⟨a_i, z⟩ ⟨b_i, z⟩ = ⟨c_i, z⟩`. -/
theorem C51_ark_conversion (m : ArkMatrices F) (h0 : 0 < m.numInstanceVariables)
    (hcol : ∀ row ∈ m.a ++ m.b ++ m.c, ∀ e ∈ row,
      e.2 < m.numInstanceVariables + m.numWitnessVariables) :
    ∃ r, R1CS.ofArk m = .ok r ∧ r.nrows = m.numConstraints ∧
      r.ncols = m.numInstanceVariables + m.numWitnessVariables ∧
      r.inputSize + 1 = m.numInstanceVariables ∧
      ∀ x w : List F, R1CSHolds r x w ↔ ∀ i < m.numConstraints,
        lcValue (m.a.getD i []) (1 :: (x ++ w)) * lcValue (m.b.getD i []) (1 :: (x ++ w))
          = lcValue (m.c.getD i []) (1 :: (x ++ w)) := by
  refine ⟨_, by rw [R1CS.ofArk, if_neg (by omega)], rfl, rfl, by simp; omega, fun x w => ?_⟩
  have key : ∀ M : List (List (F × ℕ)), (∀ row ∈ M, row ∈ m.a ++ m.b ++ m.c) → ∀ i,
      mulVec (arkSparse M) (m.numInstanceVariables + m.numWitnessVariables) (1 :: (x ++ w)) i
        = lcValue (M.getD i []) (1 :: (x ++ w)) := by
    intro M hM i
    rw [lcValue_eq _ _ (m.numInstanceVariables + m.numWitnessVariables)]
    · unfold mulVec
      apply Finset.sum_congr rfl
      intro j _
      rw [C51_ark_entry]
    · intro e he
      by_cases hi : i < M.length
      · rw [List.getD_eq_getElem _ _ hi] at he
        exact hcol _ (hM _ (List.getElem_mem hi)) e he
      · rw [List.getD_eq_default _ _ (by omega)] at he
        simp at he
  unfold R1CSHolds
  apply forall₂_congr
  intro i _
  simp only
  rw [key m.a (by intro r hr; simp [hr]), key m.b (by intro r hr; simp [hr]),
    key m.c (by intro r hr; simp [hr])]

/-- `z1 * z1 = z2` as arkworks matrices. -/
def exArk : ArkMatrices ℚ := ⟨2, 1, 1, [[(1, 1)]], [[(1, 1)]], [[(1, 2)]]⟩

example : 0 < exArk.numInstanceVariables ∧ ∀ row ∈ exArk.a ++ exArk.b ++ exArk.c, ∀ e ∈ row,
    e.2 < exArk.numInstanceVariables + exArk.numWitnessVariables := by
  simp [exArk]
example : ((R1CS.ofArk exArk).bind (fun r => r.satisfy [3] [9])) = .ok true := by decide +kernel

/-! ## C25, C26: HPR -/

/-- **C25.** `satisfy` returns true iff `w1 ∘ w2 = w3` and `A w1 + B w2 + C w3 + d` equals the
instance padded with zeros, on every well-shaped input. -/
theorem C25_satisfy (r : HPR F) (x w1 w2 w3 : List F) (hs : HPRShape r x w1 w2 w3) :
    (r.satisfy x w1 w2 w3 = .ok true ↔ HPRHolds r x w1 w2 w3) ∧
    (r.satisfy x w1 w2 w3 = .ok false ↔ ¬ HPRHolds r x w1 w2 w3) := by
  obtain ⟨b, h1, h2⟩ := r.satisfy_ok x w1 w2 w3 hs
  rw [h1, ← h2]
  cases b <;> simp

/-- **C25.** On a badly shaped input it never returns true: it aborts when the Hadamard products
agree on the common prefix of the three vectors, and returns false otherwise. -/
theorem C25_bad_shape (r : HPR F) (x w1 w2 w3 : List F) (hs : ¬ HPRShape r x w1 w2 w3) :
    (r.satisfy x w1 w2 w3 = .error .panic ↔
      ∀ i < min (min w1.length w2.length) w3.length, w1.getD i 0 * w2.getD i 0 = w3.getD i 0) ∧
    r.satisfy x w1 w2 w3 ≠ .ok true := by
  rw [r.satisfy_bad x w1 w2 w3 hs]
  split_ifs with h
  · exact ⟨⟨fun _ => h, fun _ => rfl⟩, by simp⟩
  · exact ⟨⟨fun hc => by simp at hc, fun hc => absurd hc h⟩, by simp⟩

/-- A small HPR: rows `w1_0 + w3_1 + 2 = x_0` and `w2_1 - 4 = 0`. -/
def exHPR : HPR ℚ := ⟨⟨[0], [0], [1]⟩, ⟨[1], [1], [1]⟩, ⟨[0], [1], [1]⟩, [0, 1], [2, -4], 2, 2, 1⟩

example : HPRShape exHPR [15] [1, 3] [7, 4] [7, 12] := by
  refine ⟨by decide, by decide, rfl, rfl, rfl, ?_, ?_, ?_, ?_, by decide⟩ <;>
    simp [InRange, triples, exHPR]
example : exHPR.satisfy [15] [1, 3] [7, 4] [7, 12] = .ok true ∧
    exHPR.satisfy [14] [1, 3] [7, 4] [7, 12] = .ok false := by decide +kernel

/-- **C26.** `get_size` reports the dimensions, the input size, the density of `A` and of `d`
correctly; it aborts exactly when arrays of one matrix have different lengths or `d` has more
entries than rows. -/
theorem C26_get_size (r : HPR F) :
    ((SameLengths r.a ∧ SameLengths r.b ∧ SameLengths r.c ∧ r.drows.length = r.dvals.length ∧
        r.drows.length ≤ r.nrows) →
      ∃ s, r.getSize = .ok s ∧ s.nrows = r.nrows ∧ s.ncols = r.ncols ∧ s.inputSize = r.inputSize ∧
        s.adensity = (triples r.a).length ∧ s.ddensity = r.drows.length) ∧
    (¬ (SameLengths r.a ∧ SameLengths r.b ∧ SameLengths r.c ∧ r.drows.length = r.dvals.length ∧
        r.drows.length ≤ r.nrows) → r.getSize = .error .panic) := by
  constructor
  · rintro ⟨⟨a1, a2⟩, ⟨b1, b2⟩, ⟨c1, c2⟩, d1, d2⟩
    refine ⟨⟨r.nrows, r.ncols, r.a.rows.length, r.a.rows.length, r.a.rows.length, r.drows.length,
      r.inputSize⟩, ?_, rfl, rfl, rfl, ?_, rfl⟩
    · simp only [HPR.getSize, assertR, a1, a2, b1, b2, c1, c2, ← d1, d2, if_true, bind,
        Except.bind, pure, Except.pure]
    · simp [triples, a1, a2]
  · intro h
    unfold HPR.getSize assertR SameLengths at *
    by_cases a1 : r.a.rows.length = r.a.cols.length
    · by_cases a2 : r.a.rows.length = r.a.vals.length
      · by_cases b1 : r.b.rows.length = r.b.cols.length
        · by_cases b2 : r.b.rows.length = r.b.vals.length
          · by_cases c1 : r.c.rows.length = r.c.cols.length
            · by_cases c2 : r.c.rows.length = r.c.vals.length
              · by_cases d1 : r.drows.length = r.dvals.length
                · by_cases d2 : r.drows.length ≤ r.nrows
                  · exact absurd ⟨⟨a1, by omega⟩, ⟨b1, by omega⟩, ⟨c1, by omega⟩, d1, d2⟩ h
                  · simp only [if_pos a1, if_pos a2, if_pos b1, if_pos b2, if_pos c1, if_pos c2,
                      if_pos d1, if_neg d2, bind, Except.bind]
                · simp only [if_pos a1, if_pos a2, if_pos b1, if_pos b2, if_pos c1, if_pos c2,
                    if_neg d1, bind, Except.bind]
              · simp only [if_pos a1, if_pos a2, if_pos b1, if_pos b2, if_pos c1, if_neg c2, bind,
                  Except.bind]
            · simp only [if_pos a1, if_pos a2, if_pos b1, if_pos b2, if_neg c1, bind, Except.bind]
          · simp only [if_pos a1, if_pos a2, if_pos b1, if_neg b2, bind, Except.bind]
        · simp only [if_pos a1, if_pos a2, if_neg b1, bind, Except.bind]
      · simp only [if_pos a1, if_neg a2, bind, Except.bind]
    · simp only [if_neg a1, bind, Except.bind]

/-- **C26 (deviation).** The reported densities of `B` and `C` are the density of `A`; they are
right only when the three densities are equal. -/
theorem C26_densities_are_those_of_A (r : HPR F) (s : HPRSize) (h : r.getSize = .ok s) :
    s.bdensity = (triples r.a).length ∧ s.cdensity = (triples r.a).length ∧
    ((s.bdensity = (triples r.b).length ∧ s.cdensity = (triples r.c).length) ↔
      ((triples r.a).length = (triples r.b).length ∧
        (triples r.a).length = (triples r.c).length)) := by
  by_cases hg : SameLengths r.a ∧ SameLengths r.b ∧ SameLengths r.c ∧
      r.drows.length = r.dvals.length ∧ r.drows.length ≤ r.nrows
  · obtain ⟨⟨a1, a2⟩, ⟨b1, b2⟩, ⟨c1, c2⟩, d1, d2⟩ := hg
    have : r.getSize = .ok ⟨r.nrows, r.ncols, r.a.rows.length, r.a.rows.length, r.a.rows.length,
        r.drows.length, r.inputSize⟩ := by
      simp only [HPR.getSize, assertR, a1, a2, b1, b2, c1, c2, ← d1, d2, if_true, bind,
        Except.bind, pure, Except.pure]
    rw [this] at h
    obtain rfl := Except.ok.inj h
    have la : (triples r.a).length = r.a.rows.length := by simp [triples, a1, a2]
    simp only [la, true_and]
  · rw [(C26_get_size r).2 hg] at h; cases h

/-- **C26 (deviation witness).** -/
theorem C26_wrong_density : ∃ r : HPR ℚ, ∃ s, r.getSize = .ok s ∧ s.bdensity ≠ (triples r.b).length :=
  ⟨⟨⟨[], [], []⟩, ⟨[0], [0], [1]⟩, ⟨[], [], []⟩, [], [], 1, 1, 0⟩, ⟨1, 1, 0, 0, 0, 0, 0⟩, by
    constructor
    · decide +kernel
    · decide +kernel⟩

/-! ## C27: POV -/

/-- **C27.** On a witness with one entry per gate, `satisfy_gate_logics` holds iff every
multiplication, addition and constant gate holds. -/
theorem C27_gates (p : POV F) (w : POVWitness F) (hs : PovShape p w) :
    ∃ b, p.satisfyGateLogics w = .ok b ∧ (b = true ↔ GatesHold p w) := by
  obtain ⟨h0, h1, h2⟩ := hs
  have hl : ((w.w0.zip w.w1).zip w.w2).length = p.nmul + p.nadd + p.consts.length := by
    simp [h0, h1, h2]
  obtain ⟨b, hb, hi⟩ := p.gatesOk_spec ((w.w0.zip w.w1).zip w.w2) 0 (by omega)
  refine ⟨b, hb, hi.trans ?_⟩
  have hget : ∀ k (hk : k < ((w.w0.zip w.w1).zip w.w2).length),
      ((w.w0.zip w.w1).zip w.w2)[k] = ((w.w0.getD k 0, w.w1.getD k 0), w.w2.getD k 0) := by
    intro k hk
    rw [hl] at hk
    simp [h0, h1, h2, hk]
  constructor
  · intro h
    refine ⟨fun i hi => ?_, fun i hi => ?_, fun i hi => ?_⟩
    · have := h i (by omega)
      rw [hget] at this
      simp only [POV.gateOk, Nat.zero_add, hi, if_true] at this
      simpa using this
    · have := h (p.nmul + i) (by omega)
      rw [hget] at this
      simp only [POV.gateOk, Nat.zero_add] at this
      rw [if_neg (by omega), if_pos (by omega)] at this
      simpa using this
    · have := h (p.nmul + p.nadd + i) (by omega)
      rw [hget] at this
      simp only [POV.gateOk, Nat.zero_add] at this
      rw [if_neg (by omega), if_neg (by omega), Nat.add_sub_cancel_left,
        List.getElem?_eq_getElem hi] at this
      rw [List.getD_eq_getElem p.consts _ hi]
      simpa using this
  · rintro ⟨g1, g2, g3⟩ k hk
    rw [hget]
    rw [hl] at hk
    simp only [POV.gateOk, Nat.zero_add]
    by_cases c1 : k < p.nmul
    · rw [if_pos c1, g1 k c1]; simp
    · rw [if_neg c1]
      by_cases c2 : k < p.nmul + p.nadd
      · have := g2 (k - p.nmul) (by omega)
        rw [show p.nmul + (k - p.nmul) = k by omega] at this
        rw [if_pos c2, this]; simp
      · have := g3 (k - (p.nmul + p.nadd)) (by omega)
        rw [show p.nmul + p.nadd + (k - (p.nmul + p.nadd)) = k by omega] at this
        rw [if_neg c2, List.getElem?_eq_getElem (by omega), this,
          List.getD_eq_getElem _ _ (by omega)]
        simp

/-- **C27.** `satisfy_wiring` holds iff every wire pair joins two existing equal values. -/
theorem C27_wiring (p : POV F) (w : POVWitness F) :
    p.satisfyWiring w = true ↔ WiringHolds p w := by
  unfold POV.satisfyWiring WiringHolds
  rw [List.all_eq_true]
  apply forall₂_congr
  intro q _
  rw [w.getValueAt_eq, w.getValueAt_eq]
  rcases (povVec w)[q.1]? with _ | a <;> rcases (povVec w)[q.2]? with _ | b <;> simp
  exact eq_comm

/-- **C27.** `satisfy_instance` holds iff every public position exists and holds its value. -/
theorem C27_instance (w : POVWitness F) (ins : POVInstance F) :
    w.satisfyInstance ins = true ↔ InstanceHolds w ins := by
  unfold POVWitness.satisfyInstance InstanceHolds
  rw [List.all_eq_true]
  apply forall₂_congr
  intro q _
  rw [w.getValueAt_eq]
  rcases (povVec w)[q.1]? with _ | a <;> simp

/-- **C27.** `satisfy` is the conjunction of the three. -/
theorem C27_satisfy (p : POV F) (ins : POVInstance F) (w : POVWitness F) (hs : PovShape p w) :
    (p.satisfy ins w = .ok true ↔ GatesHold p w ∧ WiringHolds p w ∧ InstanceHolds w ins) ∧
    (p.satisfy ins w = .ok false ↔ ¬ (GatesHold p w ∧ WiringHolds p w ∧ InstanceHolds w ins)) := by
  obtain ⟨b, h1, h2⟩ := C27_gates p w hs
  have hw := C27_wiring p w
  have hi := C27_instance w ins
  unfold POV.satisfy
  rw [h1, ← h2, ← hw, ← hi]
  simp only [Except.ok.injEq]
  cases b <;> cases p.satisfyWiring w <;> cases w.satisfyInstance ins <;> simp

/-- **C27 (deviation).** The gate check does not look at the witness length: for every POV the
empty witness passes it, whatever gates there are. -/
theorem C27_empty_witness_passes_gates (p : POV F) :
    p.satisfyGateLogics ⟨[], [], []⟩ = .ok true := rfl

/-- A POV with one multiplication, one addition and one constant gate. -/
def exPOV : POV ℚ := ⟨[5], [(0, 4), (3, 8)], 1, 1⟩

example : PovShape exPOV ⟨[2, 1, 0], [5, 2, 0], [10, 3, 5]⟩ := ⟨rfl, rfl, rfl⟩
example : exPOV.satisfy ⟨[6], [10]⟩ ⟨[2, 1, 0], [5, 2, 0], [10, 3, 5]⟩ = .ok true ∧
    exPOV.satisfy ⟨[6], [10]⟩ ⟨[2, 1, 0], [5, 2, 0], [10, 4, 5]⟩ = .ok false := by decide +kernel

/-! ## C28: the random HPR generator -/

theorem drawMany_length {S α : Type} (d : S → α × S) (n : ℕ) (s : S) :
    (drawMany d n s).1.length = n := by
  induction n generalizing s with
  | zero => rfl
  | succ n ih => simp [drawMany, ih]

theorem drawMany_all {S α : Type} (d : S → α × S) (P : α → Prop) (hd : ∀ s, P (d s).1) (n : ℕ)
    (s : S) : ∀ x ∈ (drawMany d n s).1, P x := by
  induction n generalizing s with
  | zero => simp [drawMany]
  | succ n ih =>
    intro x hx
    simp only [drawMany, List.mem_cons] at hx
    rcases hx with rfl | hx
    · exact hd s
    · exact ih _ x hx

theorem inRange_of_mem (rows cols : List ℕ) (vals : List F) (h k : ℕ) (h1 : ∀ x ∈ rows, x < h)
    (h2 : ∀ x ∈ cols, x < k) : InRange ⟨rows, cols, vals⟩ h k := by
  rintro ⟨⟨i, j⟩, v⟩ he
  have := (List.of_mem_zip he).1
  exact ⟨h1 _ (List.of_mem_zip this).1, h2 _ (List.of_mem_zip this).2⟩

theorem constAt_nonzero (d : List F) (s i : ℕ) :
    ((((((d.zipIdx s).filter (fun t => decide (t.1 ≠ 0))).map Prod.snd).zip
      (((d.zipIdx s).filter (fun t => decide (t.1 ≠ 0))).map Prod.fst)).filter
        (fun p => decide (p.1 = i))).map Prod.snd).sum = if s ≤ i then d.getD (i - s) 0 else 0 := by
  induction d generalizing s with
  | nil => simp
  | cons a d ih =>
    have hrest := ih (s + 1)
    rw [List.zipIdx_cons]
    by_cases ha : a = 0
    · subst ha
      rw [List.filter_cons_of_neg (by simp), hrest]
      rcases Nat.lt_trichotomy i s with h | h | h
      · rw [if_neg (by omega), if_neg (by omega)]
      · subst h; simp
      · rw [if_pos (by omega), if_pos (by omega), show i - s = (i - (s + 1)) + 1 by omega,
          List.getD_cons_succ]
    · rw [List.filter_cons_of_pos (by simpa using ha)]
      simp only [List.map_cons, List.zip_cons_cons]
      by_cases hs : s = i
      · subst hs
        rw [List.filter_cons_of_pos (by simp), List.map_cons, List.sum_cons, hrest]
        simp
      · rw [List.filter_cons_of_neg (by simpa using hs), hrest]
        rcases Nat.lt_or_ge i s with h | h
        · rw [if_neg (by omega), if_neg (by omega)]
        · rw [if_pos (by omega), if_pos (by omega), show i - s = (i - (s + 1)) + 1 by omega,
            List.getD_cons_succ]

theorem getD_hprConst (x y1 y2 y3 : List F) (n : ℕ) (h1 : y1.length = n) (h2 : y2.length = n)
    (h3 : y3.length = n) (i : ℕ) (hi : i < n) :
    (hprConst x y1 y2 y3).getD i 0 = x.getD i 0 - y1.getD i 0 - y2.getD i 0 - y3.getD i 0 := by
  unfold hprConst
  rw [List.getD_eq_getElem _ _ (by simp [h1, h2, h3, hi])]
  simp only [List.getElem_map, List.getElem_zipIdx, List.getElem_zip, Nat.zero_add]
  rw [List.getD_eq_getElem y1 _ (by omega), List.getD_eq_getElem y2 _ (by omega),
    List.getD_eq_getElem y3 _ (by omega)]
  split_ifs with h
  · ring
  · rw [List.getD_eq_default x _ (by omega)]; ring

/-- **C28.** For every source of randomness and every size with at least one row and one column
and no more inputs than rows, the generator returns a system, instance and witness that satisfy
each other; the satisfaction check accepts them, and the instance has the requested length. -/
theorem C28_generator {S : Type} (rng : Rng S F) (nrows ncols inputSize : ℕ) (s : S)
    (hr : 0 < nrows) (hc : 0 < ncols) (hi : inputSize ≤ nrows) :
    ∃ hpr x w1 w2 w3, generateRandomHpr rng nrows ncols inputSize s = .ok (hpr, x, (w1, w2, w3)) ∧
      hpr.nrows = nrows ∧ hpr.ncols = ncols ∧ hpr.inputSize = inputSize ∧ x.length = inputSize ∧
      HPRShape hpr x w1 w2 w3 ∧ HPRHolds hpr x w1 w2 w3 ∧
      hpr.satisfy x w1 w2 w3 = .ok true := by
  have hmod : ∀ m, 0 < m → ∀ s, (rng.u64Mod m s).1 < m := by
    intro m hm s; simp only [Rng.u64Mod]; exact Nat.mod_lt _ hm
  unfold generateRandomHpr
  rw [if_neg (by omega)]
  simp only
  generalize hA : drawMany (rng.u64Mod nrows) ((nrows + ncols) * 2) s = A
  generalize hB : drawMany (rng.u64Mod nrows) ((nrows + ncols) * 2) A.2 = B
  generalize hC : drawMany (rng.u64Mod nrows) ((nrows + ncols) * 2) B.2 = C
  generalize hA' : drawMany (rng.u64Mod ncols) ((nrows + ncols) * 2) C.2 = A'
  generalize hB' : drawMany (rng.u64Mod ncols) ((nrows + ncols) * 2) A'.2 = B'
  generalize hC' : drawMany (rng.u64Mod ncols) ((nrows + ncols) * 2) B'.2 = C'
  generalize drawMany rng.field ((nrows + ncols) * 2) C'.2 = Av
  generalize drawMany rng.field ((nrows + ncols) * 2) Av.2 = Bv
  generalize drawMany rng.field ((nrows + ncols) * 2) Bv.2 = Cv
  generalize hX : drawMany rng.field inputSize Cv.2 = X
  generalize hW1 : drawMany rng.field ncols X.2 = W1
  generalize hW2 : drawMany rng.field ncols W1.2 = W2
  have mA : ∀ x ∈ A.1, x < nrows := hA ▸ drawMany_all _ (· < nrows) (hmod nrows hr) _ _
  have mB : ∀ x ∈ B.1, x < nrows := hB ▸ drawMany_all _ (· < nrows) (hmod nrows hr) _ _
  have mC : ∀ x ∈ C.1, x < nrows := hC ▸ drawMany_all _ (· < nrows) (hmod nrows hr) _ _
  have mA' : ∀ x ∈ A'.1, x < ncols := hA' ▸ drawMany_all _ (· < ncols) (hmod ncols hc) _ _
  have mB' : ∀ x ∈ B'.1, x < ncols := hB' ▸ drawMany_all _ (· < ncols) (hmod ncols hc) _ _
  have mC' : ∀ x ∈ C'.1, x < ncols := hC' ▸ drawMany_all _ (· < ncols) (hmod ncols hc) _ _
  have lX : X.1.length = inputSize := hX ▸ drawMany_length _ _ _
  have l1 : W1.1.length = ncols := hW1 ▸ drawMany_length _ _ _
  have l2 : W2.1.length = ncols := hW2 ▸ drawMany_length _ _ _
  have l3 : (hadamardVector W1.1 W2.1).length = ncols := by simp [hadamardVector, l1, l2]
  have rA := inRange_of_mem A.1 A'.1 Av.1 _ _ mA mA'
  have rB := inRange_of_mem B.1 B'.1 Bv.1 _ _ mB mB'
  have rC := inRange_of_mem C.1 C'.1 Cv.1 _ _ mC mC'
  obtain ⟨y1, a1, a2, a3⟩ := sparseMvp_ok nrows ncols _ _ hr hc l1 rA
  obtain ⟨y2, b1, b2, b3⟩ := sparseMvp_ok nrows ncols _ _ hr hc l2 rB
  obtain ⟨y3, c1, c2, c3⟩ := sparseMvp_ok nrows ncols _ _ hr hc l3 rC
  have ld : (hprConst X.1 y1 y2 y3).length = nrows := by simp [hprConst, a2, b2, c2]
  simp only [a1, b1, c1, bind, Except.bind, pure, Except.pure]
  refine ⟨_, _, _, _, _, rfl, rfl, rfl, rfl, lX, ?_⟩
  have hshape : HPRShape (F := F) ⟨⟨A.1, A'.1, Av.1⟩, ⟨B.1, B'.1, Bv.1⟩, ⟨C.1, C'.1, Cv.1⟩,
      (((hprConst X.1 y1 y2 y3).zipIdx).filter (fun t => decide (t.1 ≠ 0))).map Prod.snd,
      (((hprConst X.1 y1 y2 y3).zipIdx).filter (fun t => decide (t.1 ≠ 0))).map Prod.fst,
      nrows, ncols, inputSize⟩ X.1 W1.1 W2.1 (hadamardVector W1.1 W2.1) := by
    refine ⟨hr, hc, l1, l2, l3, rA, rB, rC, ?_, by rw [lX]; exact hi⟩
    rintro ⟨i, v⟩ hp
    obtain ⟨t, ht, rfl⟩ := List.mem_map.mp (List.of_mem_zip hp).1
    have := (List.mem_zipIdx (List.mem_filter.mp ht).1).2.1
    simp only
    omega
  have hholds : HPRHolds (F := F) ⟨⟨A.1, A'.1, Av.1⟩, ⟨B.1, B'.1, Bv.1⟩, ⟨C.1, C'.1, Cv.1⟩,
      (((hprConst X.1 y1 y2 y3).zipIdx).filter (fun t => decide (t.1 ≠ 0))).map Prod.snd,
      (((hprConst X.1 y1 y2 y3).zipIdx).filter (fun t => decide (t.1 ≠ 0))).map Prod.fst,
      nrows, ncols, inputSize⟩ X.1 W1.1 W2.1 (hadamardVector W1.1 W2.1) := by
    refine ⟨fun j hj => ?_, fun i hi' => ?_⟩
    · simp only at hj
      rw [List.getD_eq_getElem _ _ (by omega), List.getD_eq_getElem _ _ (by omega),
        List.getD_eq_getElem _ _ (by omega)]
      simp [hadamardVector]
    · simp only at hi'
      simp only [constAt, constAt_nonzero, Nat.zero_le, if_true, Nat.sub_zero]
      rw [getD_hprConst X.1 y1 y2 y3 nrows a2 b2 c2 i hi', a3 i hi', b3 i hi', c3 i hi']
      ring
  exact ⟨hshape, hholds, (C25_satisfy _ _ _ _ _ hshape).1.mpr hholds⟩

/-- **C28 (deviation).** With more inputs than rows the generated triple is not accepted: the
satisfaction check aborts. -/
theorem C28_too_many_inputs {S : Type} (rng : Rng S F) (nrows ncols inputSize : ℕ) (s : S)
    (hi : nrows < inputSize) (hpr : HPR F) (x w1 w2 w3 : List F)
    (hg : generateRandomHpr rng nrows ncols inputSize s = .ok (hpr, x, (w1, w2, w3))) :
    hpr.satisfy x w1 w2 w3 ≠ .ok true := by
  have : x.length = inputSize ∧ hpr.nrows = nrows := by
    unfold generateRandomHpr at hg
    split_ifs at hg
    simp only at hg
    generalize hX : drawMany rng.field inputSize _ = X at hg
    have lX : X.1.length = inputSize := hX ▸ drawMany_length _ _ _
    simp only [bind, Except.bind] at hg
    split at hg
    · cases hg
    · split at hg
      · cases hg
      · split at hg
        · cases hg
        · have := Except.ok.inj hg
          simp only [Prod.mk.injEq] at this
          obtain ⟨h1, h2, -⟩ := this
          rw [← h1, ← h2]
          exact ⟨lX, rfl⟩
  exact (C25_bad_shape hpr x w1 w2 w3 (by
    rintro ⟨-, -, -, -, -, -, -, -, -, hx⟩; omega)).2

/-- A deterministic source of randomness. -/
def exRng : Rng ℕ ℚ := ⟨fun s => (s * 7 + 3, s + 1), fun s => ((s : ℚ) * 5 + 1, s + 1)⟩

example : ((generateRandomHpr exRng 2 3 1 0).bind
    (fun r => r.1.satisfy r.2.1 r.2.2.1 r.2.2.2.1 r.2.2.2.2)) = .ok true := by decide +kernel

end VO
