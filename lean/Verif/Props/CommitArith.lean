import Mathlib.Tactic.Module
import Verif.Model.CommitArith
import Verif.Props.Kzg
import Verif.Lemmas.Vectors

/-
C82: arithmetic on commitments, on commitment randomness and on vectors.
-/

set_option linter.unusedSectionVars false

namespace VO

open Polynomial Spec

variable {F G1 : Type} [Field F] [DecidableEq F] [AddCommGroup G1] [Module F G1]

theorem msm_cons (c : G1) (a : F) (cs : List G1) (as : List F) :
    msm (c :: cs) (a :: as) = a • c + msm cs as := by simp [msm]

theorem commitAll (β : F) (g : G1) (D : ℕ) (ps : List (List F))
    (hfit : ∀ p ∈ ps, (polyOf p).natDegree ≤ D) :
    ps.mapM (fun p => kzgCommit (srs β g D) (polyFromVec p))
      = .ok (ps.map (fun p => (polyOf p).eval β • g)) := by
  induction ps with
  | nil => rfl
  | cons p ps ih =>
    rw [List.mapM_cons, (C18_commit β g D p).1 (hfit p (by simp)),
      ih (fun q hq => hfit q (by simp [hq]))]
    rfl

/-- **C82.** Committing to each of `ps` and combining the commitments with the scalars `cs` gives the
commitment of the combined polynomial `Σ c_i p_i`, whatever vector `s` represents it. -/
theorem C82_combine (β : F) (g : G1) (D : ℕ) (ps : List (List F)) (cs : List F)
    (hlen : ps.length = cs.length) (hfit : ∀ p ∈ ps, (polyOf p).natDegree ≤ D) :
    ∃ cms, ps.mapM (fun p => kzgCommit (srs β g D) (polyFromVec p)) = .ok cms ∧
      ∀ s : List F, polyOf s = (List.zipWith (fun p c => C c * polyOf p) ps cs).sum →
        kzgCommit (srs β g D) (polyFromVec s) = .ok (combineCommits cms cs) := by
  refine ⟨_, commitAll β g D ps hfit, fun s hs => ?_⟩
  have key : ∀ (ps : List (List F)) (cs : List F), ps.length = cs.length →
      (∀ p ∈ ps, (polyOf p).natDegree ≤ D) →
      ((List.zipWith (fun p c => C c * polyOf p) ps cs).sum).natDegree ≤ D ∧
      ((List.zipWith (fun p c => C c * polyOf p) ps cs).sum).eval β • g
        = combineCommits (ps.map (fun p => (polyOf p).eval β • g)) cs := by
    intro ps
    induction ps with
    | nil => intro cs _ _; simp [combineCommits, msm]
    | cons p ps ih =>
      intro cs hl hf
      cases cs with
      | nil => simp at hl
      | cons c cs =>
        obtain ⟨h1, h2⟩ := ih cs (by simpa using hl) (fun q hq => hf q (by simp [hq]))
        refine ⟨?_, ?_⟩
        · simp only [List.zipWith_cons_cons, List.sum_cons]
          refine (natDegree_add_le _ _).trans (max_le ?_ h1)
          exact (natDegree_C_mul_le _ _).trans (hf p (by simp))
        · simp only [List.zipWith_cons_cons, List.sum_cons, List.map_cons, combineCommits, msm_cons,
            eval_add, eval_mul, eval_C]
          rw [add_smul, h2, combineCommits, smul_smul]
  obtain ⟨h1, h2⟩ := key ps cs hlen hfit
  rw [(C18_commit β g D s).1 (by rw [hs]; exact h1), hs, h2]

/-- **C82.** With lists of different lengths the surplus entries are silently ignored: the result is
the combination of the common prefix. -/
theorem C82_combine_truncates (comms extra : List G1) (coeffs surplus : List F)
    (hlen : comms.length = coeffs.length) :
    combineCommits (comms ++ extra) coeffs = combineCommits comms coeffs ∧
    combineCommits comms (coeffs ++ surplus) = combineCommits comms coeffs := by
  have key : ∀ {α β : Type} (l e : List α) (m : List β), l.length = m.length →
      (l ++ e).zip m = l.zip m := by
    intro α β l e m h
    have := List.zip_append (l₂ := m) (r₂ := ([] : List β)) (l₁ := l) (r₁ := e) h
    simpa using this
  have key' : ∀ {α β : Type} (l : List α) (m e : List β), l.length = m.length →
      l.zip (m ++ e) = l.zip m := by
    intro α β l m e h
    have := List.zip_append (l₂ := m) (r₂ := e) (l₁ := l) (r₁ := ([] : List α)) h
    simpa using this
  unfold combineCommits msm
  exact ⟨by rw [key _ _ _ hlen], by rw [key' _ _ _ hlen]⟩

/-- **C82.** The two ways to combine commitments agree. -/
theorem C82_no_one (p : G1 × F) (l : List (G1 × F)) :
    commitmentLinearCombinationNoOne p l
      = combineCommits ((p :: l).map Prod.fst) ((p :: l).map Prod.snd) := by
  induction l generalizing p with
  | nil => simp [commitmentLinearCombinationNoOne, combineCommits, msm]
  | cons q l ih =>
    rw [commitmentLinearCombinationNoOne, ih, combineCommits, combineCommits]
    simp only [List.map_cons]
    rw [msm_cons (p.1)]

/-- **C82.** The combination with a constant term is the combination without one plus the commitment of
the constant. -/
theorem C82_with_one (one : F) (g : G1) (l : List (G1 × F)) :
    commitmentLinearCombination one g l
      = combineCommits (l.map Prod.fst) (l.map Prod.snd) + commitSingle g one := by
  unfold commitmentLinearCombination
  induction l with
  | nil => simp [combineCommits, msm]
  | cons q l ih =>
    rw [List.foldr_cons, ih, combineCommits, combineCommits]
    simp only [List.map_cons]
    rw [msm_cons (q.1)]; abel

example : (do
    let a ← kzgCommit (srs (3 : ℚ) (5 : ℚ) 2) [(1 : ℚ), 2]
    let b ← kzgCommit (srs (3 : ℚ) (5 : ℚ) 2) [(0 : ℚ), 1, 4]
    return decide (Except.ok (combineCommits [a, b] [2, (-1 : ℚ)])
      = (kzgCommit (srs (3 : ℚ) (5 : ℚ) 2) [(2 : ℚ), 3, -4] : Res ℚ))) = (.ok true : Res Bool) := by
  decide +kernel

/-! ### Randomness -/

/-- **C82.** Randomness adds and scales as its blinding polynomial does. -/
theorem C82_randomness_arith (r s : Randomness F) (f : F) :
    polyOf (r.add s).blinding = polyOf r.blinding + polyOf s.blinding ∧
    polyOf (r.addScaled f s).blinding = polyOf r.blinding + C f * polyOf s.blinding := by
  constructor
  · exact polyOf_polyAdd _ _
  · rw [Randomness.addScaled, polyOf_polyAdd, polyOf_polyScale, mul_comm]

theorem polyOf_eq_zero_iff (l : List F) : polyOf l = 0 ↔ ∀ a ∈ l, a = 0 := by
  induction l with
  | nil => simp
  | cons a l ih =>
    constructor
    · intro h
      have h0 : a = 0 := by
        have := congrArg (fun p => p.coeff 0) h
        simpa [coeff_polyOf] using this
      subst h0
      rw [polyOf_cons] at h
      have h1 : polyOf l = 0 := by
        simpa using h
      intro b hb
      rcases List.mem_cons.1 hb with rfl | hb
      · rfl
      · exact ih.1 h1 b hb
    · intro h
      rw [polyOf_cons, h a (by simp), ih.2 (fun b hb => h b (by simp [hb]))]
      simp

/-- **C82.** Randomness is reported as hiding exactly when its polynomial is not zero. -/
theorem C82_is_hiding (r : Randomness F) : r.isHiding = true ↔ polyOf r.blinding ≠ 0 := by
  rw [Randomness.isHiding, Ne, polyOf_eq_zero_iff]
  simp

/-- **C82.** Empty randomness is not hiding and is neutral; cancelling removes the hiding. -/
theorem C82_hiding_cancel (r s : Randomness F) :
    (Randomness.empty : Randomness F).isHiding = false ∧
    (r.addScaled (-1) r).isHiding = false ∧
    (Randomness.empty.add r).isHiding = r.isHiding ∧
    ((r.add s).addScaled (-1) s).isHiding = r.isHiding := by
  refine ⟨rfl, ?_, ?_, ?_⟩
  · rw [Bool.eq_false_iff, Ne, C82_is_hiding, not_not, (C82_randomness_arith _ _ _).2]; simp
  · rw [Bool.eq_iff_iff, C82_is_hiding, C82_is_hiding, (C82_randomness_arith _ _ 0).1]
    simp [Randomness.empty]
  · rw [Bool.eq_iff_iff, C82_is_hiding, C82_is_hiding, (C82_randomness_arith _ _ _).2,
      (C82_randomness_arith _ _ 0).1]
    simp

/-- **C82.** Randomness drawn for a hiding bound `b` is a polynomial of degree at most `b + 1`, with
the drawn coefficients: every such polynomial is the result of some draw, and the draws determine
it one to one. -/
theorem C82_randomness_rand (b : ℕ) :
    (∀ rng : ℕ → F, (polyOf (Randomness.rand rng b).blinding).natDegree ≤ b + 1 ∧
      ∀ i ≤ b + 1, (polyOf (Randomness.rand rng b).blinding).coeff i = rng i) ∧
    (∀ p : F[X], p.natDegree ≤ b + 1 → ∃ rng : ℕ → F,
      polyOf (Randomness.rand rng b).blinding = p) := by
  have hc : ∀ (rng : ℕ → F) (i : ℕ), (polyOf (Randomness.rand rng b).blinding).coeff i
      = if i ≤ b + 1 then rng i else 0 := by
    intro rng i
    rw [Randomness.rand, polyOf_polyFromVec, coeff_polyOf, sampleVec, hidingDegree]
    by_cases h : i < b + 1 + 1
    · rw [List.getD_eq_getElem _ _ (by simpa using h)]
      simp [Nat.lt_succ_iff.1 h]
    · rw [List.getD_eq_default _ _ (by simpa using h), if_neg (by omega)]
  refine ⟨fun rng => ⟨?_, fun i hi => by rw [hc, if_pos hi]⟩, fun p hp => ⟨p.coeff, ?_⟩⟩
  · rw [natDegree_le_iff_coeff_eq_zero]
    intro i hi
    rw [hc, if_neg (by omega)]
  · ext i
    rw [hc]
    split
    · rfl
    · rw [coeff_eq_zero_of_natDegree_lt]; omega

example : (Randomness.rand (fun i => if i = 1 then (7 : ℚ) else 0) 3).isHiding = true ∧
    (Randomness.rand (fun i => if i = 5 then (7 : ℚ) else 0) 3).isHiding = false ∧
    (Randomness.rand (fun i => if i = 1 then (7 : ℚ) else 0) 3) = ⟨[0, 7]⟩ := by decide +kernel

/-! ### Vectors -/

/-- **C82.** The difference of two vectors is computed exactly when they have the same length; it is
zero everywhere exactly when the vector check accepts the pair. -/
theorem C82_vector_diff (u v : List F) :
    (u.length ≠ v.length → vectorDiff u v = .error .panic ∧ ∃ e, checkVectorEq u v = .error e) ∧
    (u.length = v.length → ∃ d, vectorDiff u v = .ok d ∧ d.length = u.length ∧
      polyOf d = polyOf u - polyOf v ∧
      (computeDensity d = 0 ↔ u = v) ∧ (checkVectorEq u v = .ok () ↔ u = v)) := by
  constructor
  · intro h
    refine ⟨by simp [vectorDiff, assertR, h], .vectorNotEqual, ?_⟩
    rw [checkVectorEq_eq, if_neg (fun hh => h (by rw [hh]))]
  · intro h
    have hp : ∀ u v : List F, u.length = v.length →
        polyOf (List.zipWith (fun a b => a - b) u v) = polyOf u - polyOf v := by
      intro u
      induction u with
      | nil => intro v hv; rw [List.length_nil] at hv; simp [List.eq_nil_of_length_eq_zero hv.symm]
      | cons a u ih =>
        intro v hv
        cases v with
        | nil => simp at hv
        | cons b v =>
          rw [List.zipWith_cons_cons, polyOf_cons, polyOf_cons, polyOf_cons, ih v (by simpa using hv),
            C_sub]
          ring
    refine ⟨List.zipWith (fun a b => a - b) u v, by simp [vectorDiff, assertR, h, bind, Except.bind, pure, Except.pure],
      by simp [h], hp u v h, ?_, ?_⟩
    · rw [computeDensity, List.length_eq_zero_iff, List.filter_eq_nil_iff]
      simp only [decide_eq_true_eq, not_not]
      rw [← polyOf_eq_zero_iff, hp u v h, sub_eq_zero]
      exact ⟨fun hh => polyOf_ext_length h hh, fun hh => by rw [hh]⟩
    · rw [checkVectorEq_eq]; split <;> simp_all

/-- **C82.** Comparing two expressions over an index range accepts exactly when they agree at every
index `1 … len`. -/
theorem C82_expression_check (len : ℤ) (f g : ℤ → F) :
    checkExpressionVectorEq len f g = .ok () ↔ ∀ i : ℤ, 1 ≤ i → i ≤ len → f i = g i := by
  rw [checkExpressionVectorEq, checkVectorEq_eq]
  constructor
  · intro h i h1 h2
    split at h
    · rename_i he
      have h3 := congrArg (fun l => vectorIndex l i) he
      simp only [vectorIndex_expressionVector] at h3
      rwa [if_pos ⟨h1, h2⟩, if_pos ⟨h1, h2⟩] at h3
    · cases h
  · intro h
    rw [if_pos]
    unfold expressionVector
    refine List.map_congr_left (fun k hk => ?_)
    rw [List.mem_range] at hk
    exact h _ (by omega) (by omega)

/-- **C82.** The density of a vector is the number of its non-zero entries. -/
theorem C82_density (v : List F) :
    computeDensity v = (polyOf v).support.card := by
  induction v with
  | nil => simp [computeDensity]
  | cons a v ih =>
    have hs : (polyOf (a :: v)).support.card
        = (if a = 0 then 0 else 1) + (polyOf v).support.card := by
      have h1 : (polyOf (a :: v)).support
          = (if a = 0 then ∅ else {0}) ∪ (polyOf v).support.map ⟨Nat.succ, Nat.succ_injective⟩ := by
        ext i
        cases i with
        | zero => by_cases h : a = 0 <;> simp [coeff_polyOf, h]
        | succ i => by_cases h : a = 0 <;> simp [coeff_polyOf, h]
      rw [h1, Finset.card_union_of_disjoint, Finset.card_map]
      · split <;> simp
      · split <;> simp
    rw [hs, ← ih, computeDensity, computeDensity, List.filter_cons]
    by_cases h : a = 0 <;> simp [h, add_comm]

end VO
