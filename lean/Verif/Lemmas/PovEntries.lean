import Verif.Lemmas.PovComplete

set_option linter.unusedSectionVars false

namespace VO
open Spec
open Polynomial (X)

variable {F : Type} [Field F] [DecidableEq F]

/-- Entries below `3c` of the sum of Hadamard products, for arbitrary polynomials. -/
theorem pov_entry_lt (c ca cm : ℕ) (hsz : ca + cm < c) (γ ζ ζ1 α : F) (W S K I V R P1 : Polynomial F)
    (i : ℕ) (hi : i < 3 * c) :
    hadamardEntry (povPolys c ca cm γ ζ ζ1 α W S K I V R P1) i =
      (if 3 * c - cm ≤ i then W.coeff (i - (3 * c - cm)) * W.coeff (i - (2 * c - cm))
          - W.coeff (i - (c - cm)) else 0)
      + α * (if 2 * c + cm ≤ i ∧ i < 2 * c + cm + ca then
          W.coeff (i - 2 * c) + W.coeff (i - c) - W.coeff i else 0)
      + α ^ 2 * (if 2 * c + ca + cm ≤ i then W.coeff i - K.coeff (i - (2 * c + ca + cm)) else 0)
      + α ^ 3 * (I.coeff i * (W.coeff i - V.coeff i))
      + α ^ 4 * ((if i = 0 then 1 else R.coeff (i - 1)) * (W.coeff i + ζ * γ ^ i + ζ1)
          - R.coeff i * (W.coeff i + ζ * S.coeff i + ζ1))
      + α ^ 5 * (if i = 3 * c - 1 then R.coeff i - 1 else 0) := by
  have hX : (1 : Polynomial F).coeff i + (X * R).coeff i
      = if i = 0 then 1 else R.coeff (i - 1) := by
    cases i with
    | zero => simp
    | succ k => simp [Polynomial.coeff_one]
  have hg : ∀ a : F, (geomPoly a (3 * c)).coeff i = a ^ i := by
    intro a; rw [coeff_geomPoly, if_pos hi]
  have hxn : (X ^ (3 * c - 1) : Polynomial F).coeff i = if i = 3 * c - 1 then 1 else 0 :=
    Polynomial.coeff_X_pow _ _
  rw [povPolys, entries_blind_lt _ _ (by omega) _ _ _ hi]
  simp only [hadamardEntry, povBase, List.map_cons, List.map_nil, List.sum_cons, List.sum_nil,
    Polynomial.coeff_sub, Polynomial.coeff_add, Polynomial.coeff_C_mul, Polynomial.coeff_neg, hg, hxn]
  rw [hX]
  simp only [coeff_X_pow_geom, one_pow, mul_one]
  simp only [Polynomial.coeff_X_pow_mul']
  have e1 : (if 3 * c - cm ≤ i then W.coeff (i - (3 * c - cm)) else 0)
        * (if 2 * c - cm ≤ i then W.coeff (i - (2 * c - cm)) else 0)
      - (if 3 * c - cm ≤ i ∧ i < 3 * c - cm + cm then 1 else 0)
        * (if c - cm ≤ i then W.coeff (i - (c - cm)) else 0)
      = (if 3 * c - cm ≤ i then W.coeff (i - (3 * c - cm)) * W.coeff (i - (2 * c - cm))
          - W.coeff (i - (c - cm)) else 0) := by
    by_cases h : 3 * c - cm ≤ i
    · rw [if_pos h, if_pos (by omega), if_pos (by omega), if_pos (by omega), if_pos h]; ring
    · rw [if_neg h, if_neg (c := 3 * c - cm ≤ i ∧ i < 3 * c - cm + cm) (by omega), if_neg h]; ring
  have e2 : (if 2 * c + cm ≤ i ∧ i < 2 * c + cm + ca then (1 : F) else 0)
      * ((if 2 * c ≤ i then W.coeff (i - 2 * c) else 0) + (if c ≤ i then W.coeff (i - c) else 0)
        - W.coeff i)
      = (if 2 * c + cm ≤ i ∧ i < 2 * c + cm + ca then
          W.coeff (i - 2 * c) + W.coeff (i - c) - W.coeff i else 0) := by
    by_cases h : 2 * c + cm ≤ i ∧ i < 2 * c + cm + ca
    · rw [if_pos h, if_pos (by omega), if_pos (by omega), if_pos h]; ring
    · rw [if_neg h, if_neg h]; ring
  have e3 : (if 2 * c + ca + cm ≤ i ∧ i < 2 * c + ca + cm + (c - ca - cm) then (1 : F) else 0)
      * (W.coeff i - (if 2 * c + ca + cm ≤ i then K.coeff (i - (2 * c + ca + cm)) else 0))
      = (if 2 * c + ca + cm ≤ i then W.coeff i - K.coeff (i - (2 * c + ca + cm)) else 0) := by
    by_cases h : 2 * c + ca + cm ≤ i
    · rw [if_pos (by omega), if_pos h, if_pos h]; ring
    · rw [if_neg (by omega), if_neg h, if_neg h]; ring
  have e4 : (R.coeff i - (if i = 3 * c - 1 then 1 else 0)) * (if i = 3 * c - 1 then (1 : F) else 0)
      = (if i = 3 * c - 1 then R.coeff i - 1 else 0) := by
    split_ifs <;> ring
  rw [← e1, ← e2, ← e3, ← e4]
  ring

/-- All entries vanish for an honest witness. -/
theorem pov_entry_zero (c ca cm : ℕ) (hsz : ca + cm < c) (γ ζ ζ1 α : F)
    (W S K I V R P1 : Polynomial F)
    (hmul : ∀ j, j < cm → W.coeff (2 * c + j) = W.coeff j * W.coeff (c + j))
    (hadd : ∀ j, j < ca → W.coeff (2 * c + cm + j) = W.coeff (cm + j) + W.coeff (c + cm + j))
    (hk : ∀ j, j < c - ca - cm → W.coeff (2 * c + ca + cm + j) = K.coeff j)
    (hI : ∀ j, j < 3 * c → I.coeff j ≠ 0 → W.coeff j = V.coeff j)
    (hR : ∀ j, j < 3 * c → (if j = 0 then 1 else R.coeff (j - 1)) * (W.coeff j + ζ * γ ^ j + ζ1)
      = R.coeff j * (W.coeff j + ζ * S.coeff j + ζ1))
    (hlast : R.coeff (3 * c - 1) = 1) (i : ℕ) (hi : i < 3 * c) :
    hadamardEntry (povPolys c ca cm γ ζ ζ1 α W S K I V R P1) i = 0 := by
  rw [pov_entry_lt c ca cm hsz _ _ _ _ _ _ _ _ _ _ _ _ hi, hR i hi, sub_self]
  have e1 : (if 3 * c - cm ≤ i then W.coeff (i - (3 * c - cm)) * W.coeff (i - (2 * c - cm))
          - W.coeff (i - (c - cm)) else 0) = 0 := by
    split_ifs with h
    · have := hmul (i - (3 * c - cm)) (by omega)
      rw [show 2 * c + (i - (3 * c - cm)) = i - (c - cm) by omega,
        show c + (i - (3 * c - cm)) = i - (2 * c - cm) by omega] at this
      rw [this, sub_self]
    · rfl
  have e2 : (if 2 * c + cm ≤ i ∧ i < 2 * c + cm + ca then
          W.coeff (i - 2 * c) + W.coeff (i - c) - W.coeff i else 0) = 0 := by
    split_ifs with h
    · have := hadd (i - (2 * c + cm)) (by omega)
      rw [show 2 * c + cm + (i - (2 * c + cm)) = i by omega,
        show cm + (i - (2 * c + cm)) = i - 2 * c by omega,
        show c + cm + (i - (2 * c + cm)) = i - c by omega] at this
      rw [this, sub_self]
    · rfl
  have e3 : (if 2 * c + ca + cm ≤ i then W.coeff i - K.coeff (i - (2 * c + ca + cm)) else 0) = 0 := by
    split_ifs with h
    · have := hk (i - (2 * c + ca + cm)) (by omega)
      rw [show 2 * c + ca + cm + (i - (2 * c + ca + cm)) = i by omega] at this
      rw [this, sub_self]
    · rfl
  have e4 : I.coeff i * (W.coeff i - V.coeff i) = 0 := by
    by_cases h : I.coeff i = 0
    · rw [h, zero_mul]
    · rw [hI i hi h, sub_self, mul_zero]
  have e5 : (if i = 3 * c - 1 then R.coeff i - 1 else 0) = 0 := by
    split_ifs with h
    · rw [h, hlast, sub_self]
    · rfl
  rw [e1, e2, e3, e4, e5]; ring

/-- The recurrence and the last value of the honest grand product. -/
theorem grand_rec (n : ℕ) (γ ζ ζ1 : F) (w s : ℕ → F) (δ : F) (j : ℕ) (hj : j < n)
    (hden : ∀ j, j < n → w j + ζ * s j + ζ1 ≠ 0) :
    (if j = 0 then 1 else (grandPoly n γ ζ ζ1 w s δ).coeff (j - 1)) * (w j + ζ * γ ^ j + ζ1)
      = (grandPoly n γ ζ ζ1 w s δ).coeff j * (w j + ζ * s j + ζ1) := by
  have hc : ∀ k, k < n → (grandPoly n γ ζ ζ1 w s δ).coeff k
      = ∏ i ∈ Finset.range (k + 1), (w i + ζ * γ ^ i + ζ1) / (w i + ζ * s i + ζ1) := by
    intro k hk
    rw [grandPoly, Polynomial.coeff_add, Polynomial.finsetSum_coeff]
    simp only [Polynomial.coeff_C_mul_X_pow]
    rw [Finset.sum_ite_eq, if_pos (Finset.mem_range.mpr hk), if_neg (c := k = n) (by omega), add_zero]
  have hd := hden j hj
  rw [hc j hj, Finset.prod_range_succ]
  have hpre : (if j = 0 then 1 else (grandPoly n γ ζ ζ1 w s δ).coeff (j - 1))
      = ∏ i ∈ Finset.range j, (w i + ζ * γ ^ i + ζ1) / (w i + ζ * s i + ζ1) := by
    cases j with
    | zero => simp
    | succ k => rw [if_neg (by omega), Nat.add_sub_cancel, hc k (by omega)]
  rw [hpre, mul_assoc, div_mul_cancel₀ _ hd]

theorem grand_last (n : ℕ) (hn : 1 ≤ n) (γ ζ ζ1 : F) (w : ℕ → F) (σ : Equiv.Perm ℕ)
    (hσ : ∀ i, i < n → σ i < n) (hw : ∀ i, i < n → w (σ i) = w i) (δ : F)
    (hden : ∀ j, j < n → w j + ζ * γ ^ σ j + ζ1 ≠ 0) :
    (grandPoly n γ ζ ζ1 w (fun j => γ ^ σ j) δ).coeff (n - 1) = 1 := by
  rw [grandPoly, Polynomial.coeff_add, Polynomial.finsetSum_coeff]
  simp only [Polynomial.coeff_C_mul_X_pow]
  rw [Finset.sum_ite_eq, if_pos (Finset.mem_range.mpr (by omega)), if_neg (c := n - 1 = n) (by omega),
    add_zero, show n - 1 + 1 = n by omega, Finset.prod_div_distrib]
  have h : ∏ j ∈ Finset.range n, (w j + ζ * γ ^ σ j + ζ1) = ∏ j ∈ Finset.range n, (w j + ζ * γ ^ j + ζ1) := by
    have hmaps : Set.MapsTo σ (Finset.range n : Set ℕ) (Finset.range n : Set ℕ) := by
      intro i hi
      have := Finset.mem_range.mp (Finset.mem_coe.mp hi)
      exact Finset.mem_coe.mpr (Finset.mem_range.mpr (hσ i this))
    have hinj : Set.InjOn σ (Finset.range n : Set ℕ) := σ.injective.injOn
    refine Finset.prod_nbij (fun i => σ i) (fun i hi => hmaps hi) hinj
      (Finset.surjOn_of_injOn_of_card_le σ hmaps hinj le_rfl) ?_
    intro i hi
    rw [hw i (Finset.mem_range.mp hi)]
  rw [h, div_self]
  rw [← h]
  exact Finset.prod_ne_zero_iff.mpr (fun j hj => hden j (Finset.mem_range.mp hj))

end VO
