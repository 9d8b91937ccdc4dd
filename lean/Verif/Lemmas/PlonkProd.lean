import Mathlib.Algebra.Polynomial.BigOperators
import Mathlib.Algebra.Polynomial.Roots
import Mathlib.Data.Fintype.Sum
import Mathlib.Tactic.FieldSimp
import Mathlib.Tactic.Ring
import Mathlib.Tactic.LinearCombination
import Verif.Lemmas.PlonkWidgets

/-
The two product arguments of the vendored PLONK: permutation and lookup.
-/

set_option linter.unusedSectionVars false

namespace VO.Plonk

open VO.Spec.Plonk Polynomial

variable {F : Type} [Field F] [DecidableEq F]

theorem natDegree_prod_add_C_le {ι : Type} [Fintype ι] (a : ι → F) :
    (∏ p, (X + C (a p)) : F[X]).natDegree ≤ Fintype.card ι := by
  refine (natDegree_prod_le _ _).trans ?_
  calc ∑ p, (X + C (a p) : F[X]).natDegree ≤ ∑ _p : ι, 1 :=
        Finset.sum_le_sum fun p _ => by rw [natDegree_X_add_C]
    _ = Fintype.card ι := by simp

/-- Two products over shifted values agree only for few shifts unless they agree for all. -/
theorem mostly_prod_ne {ι : Type} [Fintype ι] (a b : ι → F)
    (h : (∏ p, (X + C (a p)) : F[X]) ≠ ∏ p, (X + C (b p))) :
    Mostly (Fintype.card ι) fun y : F => ∏ p, (y + a p) ≠ ∏ p, (y + b p) := by
  refine mostly_of_poly_ne ((∏ p, (X + C (a p)) : F[X]) - ∏ p, (X + C (b p))) _
    (sub_ne_zero.2 h) ?_ ?_
  · exact (natDegree_sub_le _ _).trans (max_le (natDegree_prod_add_C_le a)
      (natDegree_prod_add_C_le b))
  · intro x hx he
    apply hx
    simp only [eval_sub, eval_prod, eval_add, eval_X, eval_C]
    rw [he, sub_self]

/-- The permutation argument: values that are not invariant under `σ` are rejected for all but
few `β`, `γ`. -/
theorem perm_mostly {ι : Type} [Fintype ι] (w e : ι → F) (he : Function.Injective e) (σ : ι → ι)
    (hne : ∃ q, w (σ q) ≠ w q) :
    Mostly (Fintype.card ι) fun β : F => Mostly (Fintype.card ι) fun γ : F =>
      ∏ p, (w p + β * e p + γ) ≠ ∏ p, (w p + β * e (σ p) + γ) := by
  obtain ⟨q, hq⟩ := hne
  refine ⟨Finset.univ.image fun p => (w p - w q) / (e (σ q) - e p), ?_, ?_⟩
  · exact Finset.card_image_le.trans (by simp)
  intro β hβ
  have hsep : ∀ p, w p + β * e p ≠ w q + β * e (σ q) := by
    intro p hp
    by_cases hpe : e p = e (σ q)
    · have := he hpe
      subst this
      apply hq
      linear_combination hp
    · apply hβ
      rw [Finset.mem_image]
      refine ⟨p, Finset.mem_univ _, ?_⟩
      rw [div_eq_iff (sub_ne_zero.2 (Ne.symm hpe))]
      linear_combination hp
  have key := mostly_prod_ne (fun p => w p + β * e p) (fun p => w p + β * e (σ p)) ?_
  · refine key.mono le_rfl fun γ hγ => ?_
    simpa only [add_comm γ] using hγ
  · intro hc
    have h1 := congrArg (Polynomial.eval (-(w q + β * e (σ q)))) hc
    simp only [eval_prod, eval_add, eval_X, eval_C] at h1
    rw [Finset.prod_eq_zero (s := Finset.univ)
      (f := fun p => -(w q + β * e (σ q)) + (w p + β * e (σ p))) (Finset.mem_univ q) (by ring),
      Finset.prod_eq_zero_iff] at h1
    obtain ⟨p, -, hp⟩ := h1
    exact hsep p (by linear_combination hp)

theorem rootMultiplicity_prod {ι : Type} [Fintype ι] (a : ι → F) (x : F) :
    (∏ p, (X + C (a p)) : F[X]).rootMultiplicity (-x)
      = (Finset.univ.filter fun p => a p = x).card := by
  have hX : ∀ p, (X + C (a p) : F[X]) = X - C (-a p) := fun p => by rw [C_neg, sub_neg_eq_add]
  have hr : (∏ p, (X + C (a p)) : F[X]).roots = Finset.univ.val.map fun p => -a p := by
    rw [Finset.prod_congr rfl fun p _ => hX p]
    exact roots_multiset_prod_X_sub_C (Finset.univ.val.map fun p => -a p) |> fun h => by
      rw [Multiset.map_map] at h
      exact h
  rw [← count_roots, hr, Multiset.count_map]
  rw [Finset.card_def, Finset.filter_val]
  congr 1
  apply Multiset.filter_congr
  intro p _
  constructor
  · intro h; exact (neg_injective h).symm
  · intro h; rw [h]

theorem _root_.VO.Spec.Plonk.Mostly.scale {P : F → Prop} {k : ℕ} (h : Mostly k P) {s : F}
    (hs : s ≠ 0) : Mostly k fun x => P (x * s) := by
  obtain ⟨bad, b1, b2⟩ := h
  refine ⟨bad.image fun y => y / s, Finset.card_image_le.trans b1, fun x hx => b2 _ fun hc => hx ?_⟩
  rw [Finset.mem_image]
  exact ⟨_, hc, by field_simp⟩

/-- Two families of pairs in which some pair occurs different numbers of times are told apart by
all but few `δ`, `ε`. -/
theorem pairs_mostly {κ : Type} [Fintype κ] (A B : κ → F × F) (π : F × F)
    (h : (Finset.univ.filter fun i => A i = π).card ≠ (Finset.univ.filter fun i => B i = π).card) :
    Mostly (2 * Fintype.card κ + 1) fun δ : F => Mostly (Fintype.card κ) fun ε : F =>
      ∏ i, (ε * (1 + δ) + ((A i).1 + δ * (A i).2)) ≠ ∏ i, (ε * (1 + δ) + ((B i).1 + δ * (B i).2)) := by
  let slope : F × F → F := fun a => (a.1 - π.1) / (π.2 - a.2)
  refine ⟨(Finset.univ.image (fun i => slope (A i)) ∪ Finset.univ.image (fun i => slope (B i))) ∪ {-1},
    ?_, ?_⟩
  · refine (Finset.card_union_le _ _).trans ?_
    have h1 : (Finset.univ.image (fun i => slope (A i))).card ≤ Fintype.card κ :=
      Finset.card_image_le.trans (by simp)
    have h2 : (Finset.univ.image (fun i => slope (B i))).card ≤ Fintype.card κ :=
      Finset.card_image_le.trans (by simp)
    have h3 := Finset.card_union_le (Finset.univ.image (fun i => slope (A i)))
      (Finset.univ.image (fun i => slope (B i)))
    rw [Finset.card_singleton]
    omega
  intro δ hδ
  simp only [Finset.mem_union, Finset.mem_image, Finset.mem_univ, true_and, Finset.mem_singleton,
    not_or, not_exists] at hδ
  obtain ⟨⟨hA, hB⟩, hδ1⟩ := hδ
  have hs : (1 + δ) ≠ 0 := fun hc => hδ1 (by linear_combination hc)
  have sep : ∀ a : F × F, slope a ≠ δ → (a.1 + δ * a.2 = π.1 + δ * π.2 ↔ a = π) := by
    intro a ha
    constructor
    · intro he
      by_cases h2 : a.2 = π.2
      · refine Prod.ext ?_ h2
        rw [h2] at he
        linear_combination he
      · exfalso
        apply ha
        simp only [slope]
        rw [div_eq_iff (sub_ne_zero.2 (Ne.symm h2))]
        linear_combination he
    · rintro rfl; rfl
  refine (mostly_prod_ne (fun i => (A i).1 + δ * (A i).2) (fun i => (B i).1 + δ * (B i).2)
    ?_).scale hs
  intro hc
  apply h
  have h1 := congrArg (fun p : F[X] => p.rootMultiplicity (-(π.1 + δ * π.2))) hc
  simp only [rootMultiplicity_prod] at h1
  have eA : (Finset.univ.filter fun i => (A i).1 + δ * (A i).2 = π.1 + δ * π.2)
      = Finset.univ.filter fun i => A i = π :=
    Finset.filter_congr fun i _ => sep _ (hA i)
  have eB : (Finset.univ.filter fun i => (B i).1 + δ * (B i).2 = π.1 + δ * π.2)
      = Finset.univ.filter fun i => B i = π :=
    Finset.filter_congr fun i _ => sep _ (hB i)
  rw [eA, eB] at h1
  exact h1

/-- The next index, cyclically. -/
def cnext {n : ℕ} (i : Fin n) : Fin n := ⟨(i.1 + 1) % n, Nat.mod_lt _ i.pos⟩

theorem cnext_all {n : ℕ} {P : Fin n → Prop} (h : ∀ i, P i → P (cnext i)) {i : Fin n} (hi : P i) :
    ∀ j, P j := by
  have hm : ∀ m : ℕ, P ⟨(i.1 + m) % n, Nat.mod_lt _ i.pos⟩ := by
    intro m
    induction m with
    | zero =>
      have : (⟨(i.1 + 0) % n, Nat.mod_lt _ i.pos⟩ : Fin n) = i := by
        ext; simp [Nat.mod_eq_of_lt i.2]
      rw [this]; exact hi
    | succ m ih =>
      have := h _ ih
      unfold cnext at this
      convert this using 2
      simp [Nat.add_assoc, Nat.mod_add_mod]
  intro j
  have := hm (n - i.1 + j.1)
  convert this using 1
  ext
  have : i.1 + (n - i.1 + j.1) = n + j.1 := by have := i.2; omega
  simp [this, Nat.mod_eq_of_lt j.2]

/-- The pairs on the left of the lookup argument. -/
def pairsA {n : ℕ} (f t : Fin n → F) : Fin n ⊕ Fin n → F × F
  | .inl i => (f i, f i)
  | .inr i => (t i, t (cnext i))

/-- The pairs on the right of the lookup argument. -/
def pairsB {n : ℕ} (h1 h2 : Fin n → F) : Fin n ⊕ Fin n → F × F
  | .inl i => (h1 i, h2 i)
  | .inr i => (h2 i, h1 (cnext i))

/-- If some queried value is not in the table, the pairs differ. -/
theorem pairs_differ {n : ℕ} (f t h1 h2 : Fin n → F) (k : Fin n) (hk : ∀ i, t i ≠ f k) :
    ∃ π, (Finset.univ.filter fun i => pairsA f t i = π).card
      ≠ (Finset.univ.filter fun i => pairsB h1 h2 i = π).card := by
  by_contra hc
  push Not at hc
  have hAB : ∀ i, ∃ j, pairsB h1 h2 j = pairsA f t i := by
    intro i
    have := hc (pairsA f t i)
    have hpos : 0 < (Finset.univ.filter fun j => pairsA f t j = pairsA f t i).card :=
      Finset.card_pos.2 ⟨i, by simp⟩
    rw [this] at hpos
    obtain ⟨j, hj⟩ := Finset.card_pos.1 hpos
    exact ⟨j, (Finset.mem_filter.1 hj).2⟩
  have hBA : ∀ i, ∃ j, pairsA f t j = pairsB h1 h2 i := by
    intro i
    have := hc (pairsB h1 h2 i)
    have hpos : 0 < (Finset.univ.filter fun j => pairsB h1 h2 j = pairsB h1 h2 i).card :=
      Finset.card_pos.2 ⟨i, by simp⟩
    rw [← this] at hpos
    obtain ⟨j, hj⟩ := Finset.card_pos.1 hpos
    exact ⟨j, (Finset.mem_filter.1 hj).2⟩
  have hstep : ∀ i, (pairsB h1 h2 i).1 = f k → (pairsB h1 h2 i).2 = f k := by
    intro i hi
    obtain ⟨j, hj⟩ := hBA i
    rw [← hj] at hi ⊢
    cases j with
    | inl j => exact hi
    | inr j => exact absurd hi (hk j)
  have hall : (∀ j, h1 j = f k) ∧ ∀ j, h2 j = f k := by
    obtain ⟨j, hj⟩ := hAB (.inl k)
    have hfirst : ∃ i, h1 i = f k := by
      cases j with
      | inl j => exact ⟨j, congrArg Prod.fst hj⟩
      | inr j => exact ⟨cnext j, congrArg Prod.snd hj⟩
    obtain ⟨i, hi⟩ := hfirst
    have h := cnext_all (P := fun i => h1 i = f k) (fun i hi =>
      hstep (.inr i) (hstep (.inl i) hi)) hi
    exact ⟨h, fun j => hstep (.inl j) (h j)⟩
  obtain ⟨j, hj⟩ := hAB (.inr k)
  have := congrArg Prod.fst hj
  cases j with
  | inl j => exact hk k (this.symm.trans (hall.1 j))
  | inr j => exact hk k (this.symm.trans (hall.2 j))

theorem telescope {n : ℕ} (z num den : ℕ → F) (h0 : z 0 = 1)
    (h : ∀ i < n, z (i + 1) * den i = z i * num i) :
    z n * ∏ i ∈ Finset.range n, den i = ∏ i ∈ Finset.range n, num i := by
  induction n with
  | zero => simp [h0]
  | succ n ih =>
    rw [Finset.prod_range_succ, Finset.prod_range_succ, ← ih fun i hi => h i (by omega)]
    linear_combination (∏ i ∈ Finset.range n, den i) * h n (by omega)

end VO.Plonk
