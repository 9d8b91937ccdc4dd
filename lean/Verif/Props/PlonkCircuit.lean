import Verif.Lemmas.PlonkPi3
import Verif.Lemmas.PlonkExample3

/-
C109: public input maps. C110: the circuit interface of `/repo/plonk-core`.
-/

set_option linter.unusedSectionVars false

namespace VO

open VO.Plonk VO.Spec VO.Spec.Plonk

variable {F : Type} [Field F] [DecidableEq F]

/-- `add_input`: an item that cannot be converted is an error; otherwise the call panics exactly when
one of the positions of the item holds a (non-zero) value, and else the elements are stored at
consecutive positions, nothing else changes, and their number is returned. -/
theorem C109_add_input {pi : List (ℕ × F)} (h : Canonical pi) (pos : ℕ) :
    piAddInput pi pos none = .error .invalidPublicInputValue ∧
    ∀ l : List F,
      ((∃ k < l.length, piAt pi (pos + k) ≠ 0) → piAddInput pi pos (some l) = .error .panic) ∧
      ((∀ k < l.length, piAt pi (pos + k) = 0) → ∃ pi', piAddInput pi pos (some l) = .ok (pi', l.length) ∧
        Canonical pi' ∧
        (∀ k < l.length, piAt pi' (pos + k) = l.getD k 0) ∧
        ∀ i, i < pos ∨ pos + l.length ≤ i → piAt pi' i = piAt pi i) := by
  refine ⟨rfl, fun l => ?_⟩
  obtain ⟨h1, h2⟩ := piInsertAll_spec h pos l
  have e : piAddInput pi pos (some l) = (liftP (piInsertAll pi pos l)).map fun p => (p, l.length) := by
    unfold piAddInput piExtend
    cases hr : piInsertAll pi pos l with
    | error e => simp [hr, liftP, bind, Except.bind, Except.map]
    | ok p => simp [hr, liftP, bind, Except.bind, Except.map, piExtend]
  rw [e]
  constructor
  · intro hx
    rw [h1 hx]; rfl
  · intro hz
    obtain ⟨pi', e1, c1, v1⟩ := h2 hz
    refine ⟨pi', by rw [e1]; rfl, c1, fun k hk => ?_, fun i hi => ?_⟩
    · rw [v1, if_pos ⟨by omega, by omega⟩, Nat.add_sub_cancel_left]
    · rw [v1, if_neg (by omega)]

/-- Every map made with the public functions is stored in the same way, ... -/
theorem C109_canonical {pi : List (ℕ × F)} (h : PiReach pi) : Canonical pi := by
  induction h with
  | new => exact ⟨List.Pairwise.nil, by simp⟩
  | @add pi pi' pos k item _ he ih =>
    obtain ⟨h1, h2⟩ := C109_add_input ih pos
    cases item with
    | none => rw [h1] at he; cases he
    | some l =>
      by_cases hz : ∀ k < l.length, piAt pi (pos + k) = 0
      · obtain ⟨p, e, c, -⟩ := (h2 l).2 hz
        rw [e] at he
        cases he
        exact c
      · push Not at hz
        rw [(h2 l).1 hz] at he
        cases he

/-- ... so two of them are equal exactly when they hold the same values, whatever the order of the
insertions and the zeros. -/
theorem C109_equal {pi pi' : List (ℕ × F)} (h : PiReach pi) (h' : PiReach pi') :
    pi = pi' ↔ ∀ i, piAt pi i = piAt pi' i :=
  ⟨fun e i => by rw [e], canonical_unique (C109_canonical h) (C109_canonical h')⟩

/-- `from_val_pos` with one field element per position: panics when the lists have different lengths
or when a position comes again after a non-zero value; otherwise the value at a position is the sum
of the values given for it (at most one of them is not zero). -/
theorem C109_from_val_pos (pos : List ℕ) (vals : List F) :
    (pos.length ≠ vals.length ∨
        ¬ ((pos.zip vals).Pairwise fun a b : ℕ × F => a.1 = b.1 → a.2 = 0) →
      piFromValPos pos (vals.map fun x => some [x]) = .error .panic) ∧
    (pos.length = vals.length →
        ((pos.zip vals).Pairwise fun a b : ℕ × F => a.1 = b.1 → a.2 = 0) →
      ∃ pi, piFromValPos pos (vals.map fun x => some [x]) = .ok pi ∧ Canonical pi ∧
        ∀ i, piAt pi i = (((pos.zip vals).filter fun e : ℕ × F => e.1 = i).map (·.2)).sum) := by
  have hz : pos.zip (vals.map fun x => some [x]) = (pos.zip vals).map fun e => (e.1, some [e.2]) := by
    rw [List.zip_map_right]
    rfl
  obtain ⟨h1, h2⟩ := piFold_spec (pos.zip vals) (pi := []) ⟨List.Pairwise.nil, by simp⟩
  simp only [piAt_nil, implies_true, true_and] at h1 h2
  unfold piFromValPos
  rw [hz, liftP_fold, List.length_map]
  constructor
  · intro h
    by_cases hp : (pos.zip vals).Pairwise fun a b : ℕ × F => a.1 = b.1 → a.2 = 0
    · obtain ⟨pi, e, -⟩ := h2 hp
      rw [e]
      simp only [liftP, ok_bind]
      rw [if_neg (h.resolve_right (by simpa using hp))]
    · rw [h1 hp]
      rfl
  · intro hl hp
    obtain ⟨pi, e, c, v⟩ := h2 hp
    refine ⟨pi, ?_, c, fun i => by rw [v, zero_add]⟩
    rw [e]
    simp only [liftP, ok_bind]
    rw [if_pos hl]

/-- `as_evals`: `n` values, the value at a row at its place; it panics exactly when `n` is not a power
of two or a value has a position beyond. -/
theorem C109_as_evals {pi : List (ℕ × F)} (h : Canonical pi) (n : ℕ) :
    ((∃ k, n = 2 ^ k) → (∀ i, n ≤ i → piAt pi i = 0) → ∃ e, asEvals pi n = .ok e ∧ e.length = n ∧
      ∀ i, e.getD i 0 = piAt pi i) ∧
    (¬ ((∃ k, n = 2 ^ k) ∧ ∀ i, n ≤ i → piAt pi i = 0) → asEvals pi n = .error .panic) := by
  have hk : (∀ e ∈ pi, e.1 < n) ↔ ∀ i, n ≤ i → piAt pi i = 0 := by
    constructor
    · intro hl i hi
      exact piAt_absent fun e he hh => by have := hl e he; omega
    · intro hz e he
      by_contra hc
      have := hz e.1 (by omega)
      rw [piAt_mem h.1 he] at this
      exact h.2 e he this
  constructor
  · rintro ⟨k, rfl⟩ hz
    exact asEvals_run (pow2_ok rfl) h.1 (hk.2 hz)
  · intro hn
    unfold asEvals assertR
    by_cases hp : 2 ^ Nat.log 2 n = n
    · rw [if_pos hp]
      simp only [ok_bind]
      refine asEvals_fold_panic _ _ ?_
      by_contra hc
      push Not at hc
      refine hn ⟨⟨_, hp.symm⟩, hk.1 fun e he => ?_⟩
      simpa using hc e he
    · rw [if_neg hp]
      rfl

/-- `into_dense_poly`: the polynomial of degree below `n` with these values on the domain of size `n`. -/
theorem C109_poly {K : PField F} (hK : PFieldOk K) {pi : List (ℕ × F)} (h : Canonical pi) {k : ℕ}
    (hk : k ≤ K.fft.twoAdicity) (hz : ∀ i, 2 ^ k ≤ i → piAt pi i = 0) :
    ∃ p, piPoly K pi (2 ^ k) = .ok p ∧ (polyOf p).degree < (2 ^ k : ℕ) ∧
      ∀ i < 2 ^ k, (polyOf p).eval (K.fft.root k ^ i) = piAt pi i := by
  obtain ⟨e, h1, h2, h3⟩ := (C109_as_evals h (2 ^ k)).1 ⟨k, rfl⟩ hz
  have hc : Nat.clog 2 (2 ^ k) = k := Nat.clog_pow _ _ (by norm_num)
  have hD := newDom_run (K := K) (k := 2 ^ k) (by rw [hc]; exact hk)
  have hO := domOk_new hK hD
  rw [hc] at hD hO
  refine ⟨Dom.ifft ⟨2 ^ k, K.fft.root k⟩ e, ?_, ifft_degree hO h2, fun i hi => ?_⟩
  · unfold piPoly Dom.new
    rw [hc, if_pos hk]
    simp only [h1, liftP, ok_bind]
    rfl
  · rw [← h3]
    exact ifft_eval hO h2 hi

/-- The verifier's view: the positions a circuit declares, with the values the prover has there,
make the map of the prover. -/
theorem C109_round_trip {R : FieldRep F} {E : EdCurve F} {c : Composer F} (hc : Reach R E c) :
    piFromValPos c.intended_pi_pos (c.intended_pi_pos.map fun i => some [piAt c.public_inputs i])
      = .ok c.public_inputs := by
  obtain ⟨t1, -, t3⟩ := Reach.tidy hc
  have hcan : Canonical c.public_inputs := ⟨hc.sorted, t3⟩
  have hn : c.intended_pi_pos.Nodup := t1.imp fun h => h.ne
  have hzip : c.intended_pi_pos.zip (c.intended_pi_pos.map fun i => piAt c.public_inputs i)
      = c.intended_pi_pos.map fun i => (i, piAt c.public_inputs i) := by
    rw [List.zip_map_right, List.zip_eq_zipWith]
    simp [List.zipWith_self]
  obtain ⟨pi, e, c1, v⟩ := (C109_from_val_pos c.intended_pi_pos
    (c.intended_pi_pos.map fun i => piAt c.public_inputs i)).2 (by simp) (by
      rw [hzip, List.pairwise_map]
      exact hn.imp fun h1 h2 => absurd h2 h1)
  have hpi : c.public_inputs = pi := canonical_unique hcan c1 fun i => by
    rw [v, hzip]
    by_cases hi : i ∈ c.intended_pi_pos
    · have : (c.intended_pi_pos.map fun i => (i, piAt c.public_inputs i)).filter
          (fun e : ℕ × F => e.1 = i) = [(i, piAt c.public_inputs i)] := by
        rw [List.filter_map]
        have h1 : c.intended_pi_pos.filter ((fun e : ℕ × F => decide (e.1 = i)) ∘
            fun i => (i, piAt c.public_inputs i)) = [i] := by
          have : ((fun e : ℕ × F => decide (e.1 = i)) ∘ fun i => (i, piAt c.public_inputs i))
            = fun j => j == i := by funext j; simp; rfl
          rw [this, List.filter_beq, hn.count, if_pos hi]
          rfl
        rw [h1]
        rfl
      rw [this]
      simp
    · rw [piAt_absent (i := i) (fun e he h => hi (by rw [← h]; exact (Reach.wf hc).pis e he))]
      rw [List.filter_eq_nil_iff.2]
      · simp
      · intro e he
        obtain ⟨j, hj, rfl⟩ := List.mem_map.1 he
        simp only [decide_eq_true_eq]
        exact fun h => hi (h ▸ hj)
  rw [List.map_map] at e
  rw [hpi] at e ⊢
  exact e

/-- For example, values in any order, a zero, and a repeated position. -/
example : piFromValPos [6, 2, 2] [some [(6 : K7681)], some [0], some [5]] =
      .ok [((2 : ℕ), (5 : K7681)), (6, 6)] ∧
    piFromValPos [6, 2, 6] [some [(6 : K7681)], some [5], some [0]] = .error .panic ∧
    Reach R7681 E7681 (exC 1 2) ∧ (exC 1 2).public_inputs = [((5 : ℕ), (2 : K7681))] ∧
    piFromValPos (exC 1 2).intended_pi_pos [some [(2 : K7681)]] =
      .ok [((5 : ℕ), (2 : K7681))] :=
  ⟨by decide +kernel, by decide +kernel, (exC_facts 1 2).1, exC_size.2.2.1, by decide +kernel⟩

end VO
