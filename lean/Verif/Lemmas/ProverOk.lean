import Verif.Lemmas.Snark
import Verif.Lemmas.Degree
import Verif.Props.Kzg

set_option linter.unusedSectionVars false

/-
Lemmas about a successful run of a prover: what follows from `prove` returning a proof.
-/

namespace VO
open Spec
open Polynomial (X)

variable {F G1 G2 GT : Type} [Field F] [DecidableEq F]
  [AddCommGroup G1] [Module F G1] [DecidableEq G1] [AddCommGroup G2] [Module F G2]
  [AddCommGroup GT] [Module F GT] [DecidableEq GT]

theorem bind_ok {α β : Type} {x : Res α} {f : α → Res β} {b : β} (h : (x >>= f) = .ok b) :
    ∃ a, x = .ok a ∧ f a = .ok b := by
  rcases x with e | a
  · cases h
  · exact ⟨a, rfl, h⟩

theorem assertR_ok {p : Prop} [Decidable p] {u : Unit} (h : assertR p = .ok u) : p := by
  unfold assertR at h
  split_ifs at h with hp
  exact hp

theorem divR_inv {a b c : F} (h : divR a b = .ok c) : b ≠ 0 ∧ c = a / b := by
  by_cases hb : b = 0
  · rw [hb, divR_zero] at h; cases h
  · rw [divR_ok hb] at h; exact ⟨hb, (Except.ok.inj h).symm⟩

theorem zeroPadAndConcat_inv {v c r : List F} {n : ℤ} {m : ℕ} (hn : n = m)
    (h : zeroPadAndConcat v n c = .ok r) : r.length = m + c.length := by
  subst hn
  unfold zeroPadAndConcat at h
  split_ifs at h with h1
  rw [← Except.ok.inj h]
  simp
  omega

theorem commitVector_inv {τ : F} {g : G1} {D : ℕ} {v : List F} {d : ℕ} {c : G1}
    (h : commitVector (srs τ g D) v d = .ok c) :
    v ≠ [] ∧ v.length ≤ D + 1 ∧ c = (X ^ (d - v.length) * polyOf v).eval τ • g := by
  have hv : v ≠ [] := by
    rintro rfl
    have : commitVector (srs τ g D) ([] : List F) d = .error .panic := by
      unfold commitVector vectorToCommitment
      unfold sliceFrom
      split_ifs <;> rfl
    rw [this] at h; cases h
  obtain ⟨c1, c2, c3, c4⟩ := C23_vector_commitment τ g D v d hv
  refine ⟨hv, ?_⟩
  have hu : vectorToCommitment (srs τ g D) v d = .ok c := by
    unfold commitVector unwrapC at h
    split at h
    · next a ha => rw [ha]; exact h
    · cases h
  by_cases h1 : v.length ≤ d
  · by_cases h2 : d ≤ D + 1
    · have := c1 h1 h2
      rw [hu] at this
      exact ⟨by omega, Except.ok.inj this⟩
    · exfalso
      by_cases h3 : d - v.length ≤ D + 1
      · obtain ⟨n, hn⟩ := c3 (by omega) h3
        rw [hu] at hn; cases hn
      · have := c4 (by omega)
        rw [hu] at this; cases this
  · by_cases h2 : v.length ≤ D + 1
    · have := c2 (by omega) h2
      rw [hu] at this
      refine ⟨h2, ?_⟩
      rw [Nat.sub_eq_zero_of_le (by omega), pow_zero, one_mul]
      exact Except.ok.inj this
    · exfalso
      obtain ⟨n, hn⟩ := c3 (by omega) (by omega)
      rw [hu] at hn; cases hn

/-- A vector not shorter than the declared length is committed without a shift. -/
theorem commitVector_inv' {τ : F} {g : G1} {D : ℕ} {v : List F} {d : ℕ} {c : G1}
    (h : commitVector (srs τ g D) v d = .ok c) (hd : d ≤ v.length) :
    c = (polyOf v).eval τ • g := by
  obtain ⟨-, -, h3⟩ := commitVector_inv h
  rw [h3, Nat.sub_eq_zero_of_le hd, pow_zero, one_mul]

theorem checkPolyEval_inv {v : List F} {z y : F} {u : Unit}
    (h : checkPolyEval (polyFromVec v) z y = .ok u) : (polyOf v).eval z = y := by
  rw [checkPolyEval, polyEval_eq, polyOf_polyFromVec] at h
  split_ifs at h with h1
  exact h1

theorem batchOpen_inv (e : G1 →ₗ[F] G2 →ₗ[F] GT) {τ : F} {g : G1} {h : G2} {D : ℕ}
    {vk : VerifierKey G1 G2} (hvk : HonestVk τ g h vk) {fs gs : List (List F)} {z zz xi xi2 : F}
    {r : F} {w w2 : G1}
    (ho : batchOpen (srs τ g D) (fs.map polyFromVec) (gs.map polyFromVec) z zz xi xi2 = .ok (w, w2))
    (hd : ∀ f ∈ fs ++ gs, f.length ≤ D + 1) :
    batchCheck e vk (fs.map (fun f => (polyOf f).eval τ • g)) (gs.map (fun f => (polyOf f).eval τ • g))
        z zz xi xi2 (fs.map (fun f => (polyOf f).eval z)) (gs.map (fun f => (polyOf f).eval zz))
        w w2 r = true := by
  have hn : ∀ f ∈ fs ++ gs, (polyOf f).natDegree ≤ D := by
    intro f hf
    by_cases h0 : f = []
    · subst h0; simp [polyOf]
    · have := natDegree_polyOf_lt f h0
      have := hd f hf
      omega
  by_cases hc : ∃ f ∈ fs ++ gs, (polyOf f).natDegree = 0
  · rw [C21_batch_constant_aborts τ g D fs gs z zz xi xi2 hn hc] at ho; cases ho
  · push Not at hc
    obtain ⟨w', w2', h1, h2⟩ := C21_batch_complete e τ g h D vk hvk fs gs z zz xi xi2 r
      (fun f hf => ⟨hc f hf, hn f hf⟩)
    rw [ho] at h1
    obtain ⟨rfl, rfl⟩ := Prod.mk.inj (Except.ok.inj h1)
    exact h2

theorem linearCombination_rep (l : List (F × (ℤ → F) × Polynomial F))
    (hl : ∀ q ∈ l, Rep q.2.1 q.2.2) (a : ℤ → F) (A : Polynomial F) (hA : Rep a A) :
    Rep (fun i => linearCombination (a i) (l.map (fun q => (q.1, q.2.1 i))))
      (A + (l.map (fun q => Polynomial.C q.1 * q.2.2)).sum) := by
  induction l generalizing a A with
  | nil => simpa [linearCombination] using hA
  | cons q l ih =>
    have := ih (fun p hp => hl p (List.mem_cons_of_mem _ hp)) (fun i => a i + q.1 * q.2.1 i)
      (A + Polynomial.C q.1 * q.2.2) (hA.add ((hl q List.mem_cons_self).cmul q.1))
    rw [List.map_cons, List.sum_cons, ← add_assoc]
    exact this

/-- The final vector of a prover is committed to by the combination of the commitments that the
verifier computes. -/
theorem gvec_commit {D : ℕ} (τ : F) (g : G1) {k : F} (l : List (F × (ℤ → F) × Polynomial F))
    (hl : ∀ q ∈ l, Rep q.2.1 q.2.2 ∧ q.2.2.degree < ((D + 1 : ℕ) : WithBot ℕ)) {gv : List F}
    (hg : addToFirstItem (expressionVector ((D + 1 : ℕ) : ℤ)
      (fun i => linearCombination 0 (l.map (fun q => (q.1, q.2.1 i))))) k = .ok gv) :
    gv.length = D + 1 ∧
    commitmentLinearCombination k g (l.map (fun q => (q.2.2.eval τ • g, q.1)))
      = (polyOf gv).eval τ • g := by
  have hz : Rep (fun _ => (0 : F)) (0 : Polynomial F) := by
    intro i; simp [zc]
  have hrep := linearCombination_rep l (fun q hq => (hl q hq).1) (fun _ => 0) 0 hz
  rw [zero_add] at hrep
  have hdeg : ((l.map (fun q => Polynomial.C q.1 * q.2.2)).sum).degree
      < ((D + 1 : ℕ) : WithBot ℕ) := by
    clear hg hrep
    induction l with
    | nil => simp
    | cons q l ih =>
      rw [List.map_cons, List.sum_cons]
      exact degLt_add (degLt_C_mul (hl q List.mem_cons_self).2 _)
        (ih (fun p hp => hl p (List.mem_cons_of_mem _ hp)))
  have hv := polyOf_expressionVector hrep (D + 1) hdeg
  set ev := expressionVector ((D + 1 : ℕ) : ℤ)
      (fun i => linearCombination 0 (l.map (fun q => (q.1, q.2.1 i)))) with hev
  have lev : ev.length = D + 1 := by rw [hev, length_expressionVector]; omega
  obtain ⟨r, e1, e2, e3⟩ := addToFirstItem_ok ev (by intro h; simp [h] at lev) k
  rw [hg] at e1
  obtain rfl := Except.ok.inj e1
  refine ⟨by omega, ?_⟩
  rw [e3, hv]
  have : ∀ l : List (F × (ℤ → F) × Polynomial F),
      commitmentLinearCombination k g (l.map (fun q => (q.2.2.eval τ • g, q.1)))
        = ((l.map (fun q => Polynomial.C q.1 * q.2.2)).sum.eval τ + k) • g := by
    intro l
    induction l with
    | nil => simp [commitmentLinearCombination, commitSingle]
    | cons q l ih =>
      unfold commitmentLinearCombination at ih ⊢
      rw [List.map_cons, List.foldr_cons, ih, List.map_cons, List.sum_cons, Polynomial.eval_add,
        Polynomial.eval_mul, Polynomial.eval_C, smul_smul, ← add_smul]
      congr 1; ring
  rw [this l, Polynomial.eval_add, Polynomial.eval_C, add_comm]

theorem sparseFold_inv (right : List F) (es : List ((ℕ × ℕ) × F)) (l r : List F)
    (h : es.foldl (sparseStep right) (.ok l) = .ok r) : r.length = l.length := by
  induction es generalizing l with
  | nil => simp only [List.foldl_nil] at h; rw [Except.ok.inj h]
  | cons e es ih =>
    rw [List.foldl_cons] at h
    rcases hst : sparseStep right (.ok l) e with err | l'
    · rw [hst] at h
      have : ∀ es : List ((ℕ × ℕ) × F), es.foldl (sparseStep right) (.error err) = .error err := by
        intro es
        induction es with
        | nil => rfl
        | cons a es ih' => rw [List.foldl_cons]; exact ih'
      rw [this] at h; cases h
    · rw [hst] at h
      rw [ih _ h]
      simp only [sparseStep] at hst
      split at hst
      · rw [← Except.ok.inj hst, List.length_set]
      · cases hst

theorem sparseMvp_inv {h k : ℤ} {m : SparseMat F} {right r : List F}
    (ho : sparseMvp h k m right = .ok r) : r.length = h.toNat ∧ (right.length : ℤ) = k ∧ 0 < h := by
  unfold sparseMvp at ho
  split_ifs at ho with h1 h2 h3
  refine ⟨?_, not_not.mp h3, h1⟩
  rw [sparseFold_inv _ _ _ _ ho, List.length_replicate]

theorem zeroPadAndConcat_le {v c r : List F} {n : ℤ} (h : zeroPadAndConcat v n c = .ok r) :
    (v.length : ℤ) ≤ n := by
  unfold zeroPadAndConcat at h
  split_ifs at h with h1
  omega

@[simp] theorem len_batchInversion (v : List F) : (batchInversion v).length = v.length := by
  simp [batchInversion]

@[simp] theorem len_expressionVectorInverse (n : ℤ) (f : ℤ → F) :
    (expressionVectorInverse n f).length = n.toNat := by
  simp [expressionVectorInverse, length_expressionVector]

@[simp] theorem len_uwinverse (mu nu : F) (u w : List F) :
    (uwinverseVector mu u nu w).length = min u.length w.length := by
  simp [uwinverseVector]

theorem len_scanAcc (op : F → F → F) (a : F) (l : List F) : (scanAcc op a l).length = l.length := by
  induction l generalizing a with
  | nil => rfl
  | cons x l ih => simp [scanAcc, ih]

@[simp] theorem len_accumulatePlus (a : F) (n : ℤ) (f : ℤ → F) :
    (accumulateVectorPlus a n f).length = n.toNat := by
  simp [accumulateVectorPlus, len_scanAcc, length_expressionVector]

@[simp] theorem len_sample (rng : ℕ → F) (a b : ℕ) : (sampleVec rng a b).length = b := by
  simp [sampleVec]

@[simp] theorem len_intArray (v : List ℕ) (g : F) : (intArrayToPowerVector v g).length = v.length := by
  simp [intArrayToPowerVector]

@[simp] theorem len_hadamard (u v : List F) : (hadamardVector u v).length = min u.length v.length := by
  simp [hadamardVector]

theorem addToFirstItem_inv {v r : List F} {k : F} (h : addToFirstItem v k = .ok r) :
    r.length = v.length := by
  by_cases hv : v = []
  · subst hv; simp [addToFirstItem] at h
  · obtain ⟨r', e1, e2, -⟩ := addToFirstItem_ok v hv k
    rw [h] at e1
    obtain rfl := Except.ok.inj e1
    exact e2

theorem setup_inv {D : ℕ} {τ : F} {g : G1} {h : G2} {pp : UniversalParams G1 G2}
    (hs : kzgSetup D τ g h = .ok pp) :
    pp.powersOfG = srs τ g D ∧ ∃ kvk, vkOf pp = .ok kvk ∧ HonestVk τ g h kvk := by
  refine ⟨?_, C17_setup_vk D τ g h pp hs⟩
  by_cases hD0 : D = 0
  · have := (C17_setup D τ g h).1 hD0
    rw [hs] at this; cases this
  obtain ⟨pp', h3, h4, -⟩ := (C17_setup D τ g h).2 (by omega)
  rw [hs] at h3
  obtain rfl := Except.ok.inj h3
  exact h4

end VO
