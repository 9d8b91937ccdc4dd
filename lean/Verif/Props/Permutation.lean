import Verif.Lemmas.Permutation

/-
Property theorems C11: the permutation vector built from wire pairs
(`/repo/voproof/src/tools/mod.rs:1460-1473`).
-/

set_option linter.unusedSectionVars false

namespace VO
open Spec

variable {F : Type} [Field F] [DecidableEq F]

/-- **C11.** For a non-zero `γ` and pairs in range, the vector has `n` entries and entry `i` is
`γ^{σ i}`, where `σ` is the product of the transpositions of the pairs; `σ` permutes `0..n`. -/
theorem C11_vector (γ : F) (hγ : γ ≠ 0) (pairs : List (ℕ × ℕ)) (n : ℕ)
    (hr : ∀ p ∈ pairs, p.1 < n ∧ p.2 < n) :
    ∃ v, permutationVectorFromWires γ pairs n = .ok v ∧ v.length = n ∧
      ∃ σ : Equiv.Perm ℕ, σ = (pairs.map (fun p => Equiv.swap p.1 p.2)).prod ∧
        ∀ i, i < n → σ i < n ∧ v.getD i 0 = γ ^ σ i := by
  have hl : (scanAcc (· * ·) γ⁻¹ (List.replicate n γ)).length = n := by
    rw [length_scanAcc, List.length_replicate]
  have hg : ∀ i, i < n → (scanAcc (· * ·) γ⁻¹ (List.replicate n γ)).getD i 0 = γ ^ i := by
    intro i hi
    rw [getD_scanAcc _ _ _ _ (by simpa using hi), foldl_mul_eq, List.take_replicate,
      min_eq_left (by omega), List.prod_replicate, pow_succ', ← mul_assoc, inv_mul_cancel₀ hγ,
      one_mul]
  obtain ⟨v, h1, h2, h3⟩ := swap_fold (0 : F) pairs (scanAcc (· * ·) γ⁻¹ (List.replicate n γ))
    (fun p hp => by rw [hl]; exact hr p hp)
  refine ⟨v, ?_, by rw [h2, hl], wirePerm pairs, rfl, ?_⟩
  · unfold permutationVectorFromWires inverseR
    rw [if_neg hγ]
    exact h1
  · intro i hi
    have := wirePerm_lt pairs hr hi
    exact ⟨this, by rw [h3 i (by rw [hl]; exact hi), hg _ this]⟩

/-- **C11.** It aborts exactly when `γ = 0` or a pair is out of range. -/
theorem C11_abort (γ : F) (pairs : List (ℕ × ℕ)) (n : ℕ) :
    permutationVectorFromWires γ pairs n = .error .panic ↔
      γ = 0 ∨ ∃ p ∈ pairs, ¬ (p.1 < n ∧ p.2 < n) := by
  constructor
  · intro h
    by_contra hc
    push Not at hc
    obtain ⟨v, hv, -⟩ := C11_vector γ hc.1 pairs n hc.2
    rw [hv] at h; cases h
  · rintro (rfl | h)
    · simp [permutationVectorFromWires, inverseR, bind, Except.bind]
    · unfold permutationVectorFromWires inverseR
      by_cases hγ : γ = 0
      · rw [if_pos hγ]; rfl
      · rw [if_neg hγ]
        apply swap_fold_panic
        simpa [length_scanAcc] using h

/-- **C11.** Whatever the pairs are, positions in one cycle of the permutation are connected by the
pairs: an assignment that satisfies all copy constraints is invariant under the permutation. -/
theorem C11_complete {α : Type} (pairs : List (ℕ × ℕ)) (x : ℕ → α) (hx : CopyOk pairs x) (i : ℕ) :
    x ((pairs.map (fun p => Equiv.swap p.1 p.2)).prod i) = x i := by
  have : ∀ a b, Linked pairs a b → x a = x b := by
    intro a b hab
    induction hab with
    | rel a b hab => exact hx _ hab
    | refl a => rfl
    | symm a b _ ih => exact ih.symm
    | trans a b c _ _ h1 h2 => exact h1.trans h2
  exact this _ _ (linked_of_sameCycle pairs i)

/-- **C11.** If the pairs form a forest, an assignment is invariant under the permutation iff it
satisfies all the copy constraints. -/
theorem C11_forest_iff {α : Type} (pairs : List (ℕ × ℕ)) (hf : Forest pairs) (x : ℕ → α) :
    Invariant (pairs.map (fun p => Equiv.swap p.1 p.2)).prod x ↔ CopyOk pairs x :=
  invariant_iff pairs hf x

/-- **C11.** If the pairs form a forest, the cycles of the permutation are exactly the classes of
connected positions. -/
theorem C11_forest_cycles (pairs : List (ℕ × ℕ)) (hf : Forest pairs) (i j : ℕ) :
    (pairs.map (fun p => Equiv.swap p.1 p.2)).prod.SameCycle i j ↔ Linked pairs i j := by
  constructor
  · intro h
    have hx : Invariant (wirePerm pairs) (fun k => Linked pairs i k) := by
      intro k
      apply propext
      have hk := linked_of_sameCycle pairs k
      exact ⟨fun h => Relation.EqvGen.trans _ _ _ h hk,
        fun h => Relation.EqvGen.trans _ _ _ h (Relation.EqvGen.symm _ _ hk)⟩
    have hz : ∀ (m : ℤ) (k : ℕ), Linked pairs i k ↔ Linked pairs i ((wirePerm pairs ^ m) k) := by
      intro m
      induction m using Int.induction_on with
      | zero => intro k; simp
      | succ m ih =>
        intro k
        rw [zpow_add_one, Equiv.Perm.mul_apply, ← ih]
        exact (iff_of_eq (hx k)).symm
      | pred m ih =>
        intro k
        rw [zpow_sub_one, Equiv.Perm.mul_apply, ← ih]
        have := iff_of_eq (hx ((wirePerm pairs)⁻¹ k))
        rw [show (wirePerm pairs) ((wirePerm pairs)⁻¹ k) = k from
          Equiv.apply_symm_apply (wirePerm pairs) k] at this
        exact this
    obtain ⟨m, hm⟩ := h
    have := (hz m i).mp (Relation.EqvGen.refl _)
    rw [show (wirePerm pairs ^ m) i = j from hm] at this
    exact this
  · intro h
    have hx : Invariant (wirePerm pairs) (fun k => (wirePerm pairs).SameCycle i k) := by
      intro k
      exact propext Equiv.Perm.sameCycle_apply_right
    have hc := (invariant_iff pairs hf _).mp hx
    have : ∀ a b, Linked pairs a b →
        ((wirePerm pairs).SameCycle i a ↔ (wirePerm pairs).SameCycle i b) := by
      intro a b hab
      induction hab with
      | rel a b hab => exact iff_of_eq (hc _ hab)
      | refl a => rfl
      | symm a b _ ih => exact ih.symm
      | trans a b c _ _ h1 h2 => exact h1.trans h2
    exact (this i j h).mp (Equiv.Perm.SameCycle.refl _ _)

/-- A star is a forest. -/
example : Forest [(0, 1), (0, 2)] := by
  intro k hk
  have hk : k = 0 ∨ k = 1 := by simp at hk; omega
  rcases hk with rfl | rfl
  · intro h
    have : ∀ a b, Linked (([(0, 1), (0, 2)] : List (ℕ × ℕ)).take 0) a b → a = b := by
      intro a b hab
      induction hab with
      | rel a b hab => simp at hab
      | refl a => rfl
      | symm a b _ ih => exact ih.symm
      | trans a b c _ _ h1 h2 => exact h1.trans h2
    have := this _ _ h
    simp at this
  · intro h
    have : ∀ a b, Linked (([(0, 1), (0, 2)] : List (ℕ × ℕ)).take 1) a b → (a = 2 ↔ b = 2) := by
      intro a b hab
      induction hab with
      | rel a b hab => simp at hab; omega
      | refl a => rfl
      | symm a b _ ih => exact ih.symm
      | trans a b c _ _ h1 h2 => exact h1.trans h2
    have := this _ _ h
    simp at this

/-- **C11, deviation.** A wire pair given twice cancels: the vector built is the identity one, so
every assignment is invariant and the copy constraint is dropped. -/
theorem C11_duplicate_cancels (γ : F) (hγ : γ ≠ 0) (n a b : ℕ) (ha : a < n) (hb : b < n) :
    permutationVectorFromWires γ [(a, b), (a, b)] n = permutationVectorFromWires γ [] n := by
  obtain ⟨v, h1, h2, σ, rfl, h3⟩ := C11_vector γ hγ [(a, b), (a, b)] n (by simp [ha, hb])
  obtain ⟨w, e1, e2, τ, rfl, e3⟩ := C11_vector γ hγ [] n (by simp)
  rw [h1, e1]
  congr 1
  apply List.ext_getElem (by rw [h2, e2])
  intro i hi hi'
  have q1 := (h3 i (by omega)).2
  have q2 := (e3 i (by omega)).2
  rw [List.getD_eq_getElem _ _ hi] at q1
  rw [List.getD_eq_getElem _ _ hi'] at q2
  rw [q1, q2]
  simp

/-- **C11, deviation.** Three pairs closing a triangle leave the first position a fixed point: the
permutation no longer ties its value to the other two. -/
theorem C11_triangle_drops (a b c : ℕ) (hab : a ≠ b) (hac : a ≠ c) :
    ∃ x : ℕ → ℕ, Invariant ([(a, b), (b, c), (a, c)].map (fun p => Equiv.swap p.1 p.2)).prod x ∧
      ¬ CopyOk [(a, b), (b, c), (a, c)] x := by
  refine ⟨fun i => if i = a then 1 else 0, ?_, ?_⟩
  · intro i
    have hfix : ([(a, b), (b, c), (a, c)].map (fun p => Equiv.swap p.1 p.2)).prod a = a := by
      simp only [List.map_cons, List.map_nil, List.prod_cons, List.prod_nil, mul_one,
        Equiv.Perm.mul_apply, Equiv.swap_apply_left, Equiv.swap_apply_right]
    by_cases hi : i = a
    · subst hi; rw [hfix]
    · have : ([(a, b), (b, c), (a, c)].map (fun p => Equiv.swap p.1 p.2)).prod i ≠ a := by
        intro hc
        exact hi (Equiv.injective _ (hc.trans hfix.symm))
      simp only [hi, this, if_false]
  · intro h
    have := h (a, b) (by simp)
    simp [Ne.symm hab] at this

end VO
