import Verif.Props.Pov
import Verif.Props.FibonacciSound

set_option linter.unusedSectionVars false

/-
Theorems about the POV verifier (C42, C54-C56).
-/

namespace VO
open Spec
open Polynomial (X toLaurent)

variable {F G1 G2 GT : Type} [Field F] [DecidableEq F]
  [AddCommGroup G1] [Module F G1] [DecidableEq G1] [AddCommGroup G2] [Module F G2]
  [AddCommGroup GT] [Module F GT] [DecidableEq GT]

/-! ## C42 -/

/-- **C42.** Soundness of the grand-product identity: if a vector of length `n` is not invariant
under a permutation `σ` of its positions and the powers `γ^0, …, γ^{n-1}` are distinct, then for all
but `n - 1` values of `ζ` and then all but `n - 1` values of `ζ1`, the two products differ. -/
theorem C42_grand_product (n : ℕ) (γ : F) (hγ : ∀ i < n, ∀ j < n, γ ^ i = γ ^ j → i = j)
    (σ : Equiv.Perm ℕ) (hσ : ∀ i, i < n → σ i < n) (w : ℕ → F) (hw : ∃ j, j < n ∧ w (σ j) ≠ w j) :
    ∃ badζ : Finset F, badζ.card ≤ n - 1 ∧ ∀ ζ, ζ ∉ badζ →
    ∃ badζ1 : Finset F, badζ1.card ≤ n - 1 ∧ ∀ ζ1, ζ1 ∉ badζ1 →
      ∏ j ∈ Finset.range n, (w j + ζ * γ ^ j + ζ1)
        ≠ ∏ j ∈ Finset.range n, (w j + ζ * γ ^ σ j + ζ1) := by
  obtain ⟨j, hj, hne⟩ := hw
  set m := σ j with hm
  have hmn : m < n := hσ j hj
  refine ⟨((Finset.range n).erase m).image (fun k => (w j - w k) / (γ ^ k - γ ^ m)), ?_, ?_⟩
  · refine Finset.card_image_le.trans ?_
    rw [Finset.card_erase_of_mem (Finset.mem_range.mpr hmn), Finset.card_range]
  intro ζ hζ
  set P : Polynomial F := ∏ k ∈ Finset.range n, (X + Polynomial.C (w k + ζ * γ ^ k)) with hP
  set Q : Polynomial F := ∏ k ∈ Finset.range n, (X + Polynomial.C (w k + ζ * γ ^ σ k)) with hQ
  have mP : P.Monic := Polynomial.monic_prod_of_monic _ _ (fun k _ => Polynomial.monic_X_add_C _)
  have mQ : Q.Monic := Polynomial.monic_prod_of_monic _ _ (fun k _ => Polynomial.monic_X_add_C _)
  have nP : P.natDegree = n := by
    rw [hP, Polynomial.natDegree_prod_of_monic _ _ (fun k _ => Polynomial.monic_X_add_C _)]
    simp only [Polynomial.natDegree_X_add_C]
    simp
  have nQ : Q.natDegree = n := by
    rw [hQ, Polynomial.natDegree_prod_of_monic _ _ (fun k _ => Polynomial.monic_X_add_C _)]
    simp only [Polynomial.natDegree_X_add_C]
    simp
  have eP : ∀ t, P.eval t = ∏ k ∈ Finset.range n, (w k + ζ * γ ^ k + t) := by
    intro t
    rw [hP, Polynomial.eval_prod]
    exact Finset.prod_congr rfl (fun k _ => by simp; ring)
  have eQ : ∀ t, Q.eval t = ∏ k ∈ Finset.range n, (w k + ζ * γ ^ σ k + t) := by
    intro t
    rw [hQ, Polynomial.eval_prod]
    exact Finset.prod_congr rfl (fun k _ => by simp; ring)
  have hQ0 : Q.eval (-(w j + ζ * γ ^ m)) = 0 := by
    rw [eQ]
    apply Finset.prod_eq_zero (Finset.mem_range.mpr hj)
    rw [← hm]; ring
  have hP0 : P.eval (-(w j + ζ * γ ^ m)) ≠ 0 := by
    rw [eP]
    apply Finset.prod_ne_zero_iff.mpr
    intro k hk h0
    have hkn := Finset.mem_range.mp hk
    by_cases hkm : k = m
    · subst hkm
      apply hne
      linear_combination h0
    · apply hζ
      refine Finset.mem_image.mpr ⟨k, Finset.mem_erase.mpr ⟨hkm, hk⟩, ?_⟩
      have hd : γ ^ k - γ ^ m ≠ 0 := sub_ne_zero.mpr (fun h => hkm (hγ k hkn m hmn h))
      rw [div_eq_iff hd]
      linear_combination -h0
  have hd : P - Q ≠ 0 := by
    intro h
    apply hP0
    rw [sub_eq_zero.mp h, hQ0]
  refine ⟨(P - Q).roots.toFinset, ?_, ?_⟩
  · refine (Multiset.toFinset_card_le _).trans ((Polynomial.card_roots' _).trans ?_)
    have hlt : (P - Q).degree < P.degree := Polynomial.degree_sub_lt_left
      (by rw [Polynomial.degree_eq_natDegree mP.ne_zero, Polynomial.degree_eq_natDegree mQ.ne_zero, nP, nQ])
      mP.ne_zero (by rw [mP, mQ])
    have := Polynomial.natDegree_lt_natDegree hd hlt
    omega
  · intro ζ1 h1 heq
    apply h1
    rw [Multiset.mem_toFinset, Polynomial.mem_roots hd, Polynomial.IsRoot.def, Polynomial.eval_sub, eP, eQ,
      heq, sub_self]

/-- The recurrence with last value one forces equal products. -/
theorem grand_product_of_rec (n : ℕ) (hn : 1 ≤ n) (num den : ℕ → F) (r : ℕ → F)
    (hrec : ∀ j, j < n → (if j = 0 then 1 else r (j - 1)) * num j = r j * den j)
    (hlast : r (n - 1) = 1) :
    ∏ j ∈ Finset.range n, num j = ∏ j ∈ Finset.range n, den j := by
  have key : ∀ k, k < n → ∏ j ∈ Finset.range (k + 1), num j = r k * ∏ j ∈ Finset.range (k + 1), den j := by
    intro k
    induction k with
    | zero =>
      intro hk
      have := hrec 0 hk
      simp at this
      simp [this]
    | succ k ih =>
      intro hk
      have h1 := hrec (k + 1) hk
      rw [if_neg (by omega), Nat.add_sub_cancel] at h1
      rw [Finset.prod_range_succ, ih (by omega), Finset.prod_range_succ _ (k + 1)]
      linear_combination (∏ j ∈ Finset.range (k + 1), den j) * h1
  have := key (n - 1) (by omega)
  rw [show n - 1 + 1 = n by omega, hlast, one_mul] at this
  exact this

/-! ## C54: soundness -/

theorem povVec_read (c : ℕ) (W : Polynomial F) :
    povVec (povRead c W) = (List.range (3 * c)).map W.coeff := by
  apply List.ext_getElem
  · simp [povVec, povRead]; omega
  intro i h1 h2
  simp only [povVec, povRead, List.length_append, List.length_map, List.length_range] at h1
  simp only [povVec, povRead, List.append_assoc]
  by_cases a : i < c
  · rw [List.getElem_append_left (by simpa using a)]; simp
  · rw [List.getElem_append_right (by simp; omega)]
    by_cases b : i < 2 * c
    · rw [List.getElem_append_left (by simp; omega)]; simp; congr 1; omega
    · rw [List.getElem_append_right (by simp; omega)]; simp; congr 1; omega

theorem perm_fix_ge (pairs : List (ℕ × ℕ)) (n : ℕ) (hr : ∀ p ∈ pairs, p.1 < n ∧ p.2 < n) (i : ℕ)
    (hi : n ≤ i) : (pairs.map (fun p => Equiv.swap p.1 p.2)).prod i = i := by
  induction pairs with
  | nil => rfl
  | cons p l ih =>
    rw [List.map_cons, List.prod_cons, Equiv.Perm.mul_apply, ih (fun q hq => hr q (by simp [hq]))]
    have := hr p (by simp)
    exact Equiv.swap_apply_of_ne_of_ne (by omega) (by omega)

theorem perm_lt (pairs : List (ℕ × ℕ)) (n : ℕ) (hr : ∀ p ∈ pairs, p.1 < n ∧ p.2 < n) (i : ℕ)
    (hi : i < n) : (pairs.map (fun p => Equiv.swap p.1 p.2)).prod i < n := by
  by_contra hc
  push Not at hc
  have := perm_fix_ge pairs n hr _ hc
  have := (pairs.map (fun p => Equiv.swap p.1 p.2)).prod.injective this
  omega

/-- The coefficients of the selector polynomial. -/
theorem coeff_selPoly (idx : List ℕ) (hnd : idx.Nodup) (i : ℕ) :
    (selPoly idx : Polynomial F).coeff i = if i ∈ idx then 1 else 0 := by
  rw [selPoly_eq, instPoly, coeff_of_pairs _ (fun k => if k ∈ idx then 1 else 0)]
  · rw [List.map_fst_zip (by simp)]; exact hnd
  · intro p hp
    obtain ⟨_, -, h3⟩ := List.mem_map.mp (List.of_mem_zip hp).2
    rw [if_pos (List.of_mem_zip hp).1, ← h3]
  · intro k hk
    apply if_neg
    intro hki
    obtain ⟨p, hp, rfl⟩ := List.mem_map.mp (show k ∈ (idx.zip (idx.map fun _ => (1 : F))).map
      Prod.fst by rw [List.map_fst_zip (by simp)]; exact hki)
    exact hk p hp rfl

/-- The coefficients of the instance polynomial at the public positions. -/
theorem coeff_instPoly (idx : List ℕ) (vals : List F) (hlen : idx.length = vals.length)
    (hnd : idx.Nodup) (q : ℕ × F) (hq : q ∈ idx.zip vals) :
    (instPoly idx vals).coeff q.1 = q.2 := by
  have hm : (idx.zip vals).map Prod.fst = idx := List.map_fst_zip (by omega)
  have hnd' : ((idx.zip vals).map Prod.fst).Nodup := hm.symm ▸ hnd
  have hinj : ∀ a ∈ idx.zip vals, ∀ b ∈ idx.zip vals, a.1 = b.1 → a = b :=
    fun a ha b hb h => List.inj_on_of_nodup_map hnd' ha hb h
  classical
  set f : ℕ → F := fun k => if h : ∃ p ∈ idx.zip vals, p.1 = k then h.choose.2 else 0 with hf
  have hfv : ∀ p ∈ idx.zip vals, f p.1 = p.2 := by
    intro p hp
    have h : ∃ p' ∈ idx.zip vals, p'.1 = p.1 := ⟨p, hp, rfl⟩
    simp only [hf, dif_pos h]
    rw [hinj _ h.choose_spec.1 p hp h.choose_spec.2]
  rw [instPoly, coeff_of_pairs _ f hnd' hfv]
  · exact hfv q hq
  · intro k hk
    simp only [hf]
    rw [dif_neg]
    rintro ⟨p, hp, h⟩
    exact hk p hp h

/-- If all equations hold below `3c`, the witness that can be read off is accepted. -/
theorem pov_holds_of_coeffs (cs : POV F) (c : ℕ) (hc : c = cs.nmul + cs.nadd + cs.consts.length)
    (hforest : Forest cs.wires) (hwr : ∀ p ∈ cs.wires, p.1 < 3 * c ∧ p.2 < 3 * c)
    (ins : POVInstance F) (hlen : ins.idx.length = ins.vals.length) (hnd : ins.idx.Nodup)
    (hir : ∀ i ∈ ins.idx, i < 3 * c) (W : Polynomial F)
    (hmul : ∀ j, j < cs.nmul → W.coeff (2 * c + j) = W.coeff j * W.coeff (c + j))
    (hadd : ∀ j, j < cs.nadd →
      W.coeff (2 * c + cs.nmul + j) = W.coeff (cs.nmul + j) + W.coeff (c + cs.nmul + j))
    (hk : ∀ j, j < cs.consts.length →
      W.coeff (2 * c + cs.nadd + cs.nmul + j) = (polyOf cs.consts).coeff j)
    (hI : ∀ j, j < 3 * c → (selPoly ins.idx : Polynomial F).coeff j *
      (W.coeff j - (instPoly ins.idx ins.vals).coeff j) = 0)
    (hσ : ∀ j, j < 3 * c →
      W.coeff ((cs.wires.map (fun p => Equiv.swap p.1 p.2)).prod j) = W.coeff j) :
    GatesHold cs (povRead c W) ∧ WiringHolds cs (povRead c W) ∧ InstanceHolds (povRead c W) ins := by
  have g0 : ∀ j, j < c → (povRead c W).w0.getD j 0 = W.coeff j := by
    intro j hj; simp [povRead, hj]
  have g1 : ∀ j, j < c → (povRead c W).w1.getD j 0 = W.coeff (c + j) := by
    intro j hj; simp [povRead, hj]
  have g2 : ∀ j, j < c → (povRead c W).w2.getD j 0 = W.coeff (2 * c + j) := by
    intro j hj; simp [povRead, hj]
  have gv : ∀ j, j < 3 * c → (povVec (povRead c W))[j]? = some (W.coeff j) := by
    intro j hj; rw [povVec_read]; simp [hj]
  refine ⟨⟨?_, ?_, ?_⟩, ?_, ?_⟩
  · intro i hi
    rw [g0 i (by omega), g1 i (by omega), g2 i (by omega)]
    exact hmul i hi
  · intro i hi
    rw [g0 _ (by omega), g1 _ (by omega), g2 _ (by omega), ← add_assoc, ← add_assoc]
    exact hadd i hi
  · intro i hi
    rw [g2 _ (by omega), show 2 * c + (cs.nmul + cs.nadd + i) = 2 * c + cs.nadd + cs.nmul + i by omega,
      hk i hi, coeff_polyOf]
  · have hcopy := (C11_forest_iff cs.wires hforest (fun i => if i < 3 * c then W.coeff i else 0)).mp (by
      intro i
      by_cases hi : i < 3 * c
      · have h1 := perm_lt cs.wires (3 * c) hwr i hi
        beta_reduce
        rw [if_pos hi, if_pos h1, hσ i hi]
      · rw [perm_fix_ge cs.wires (3 * c) hwr i (by omega)])
    intro q hq
    have h1 := hcopy q hq
    obtain ⟨a, b⟩ := hwr q hq
    simp only [if_pos a, if_pos b] at h1
    exact ⟨_, gv _ a, by rw [gv _ b, h1]⟩
  · intro q hq
    have hi := hir q.1 (List.of_mem_zip hq).1
    rw [gv _ hi]
    have := hI q.1 hi
    rw [coeff_selPoly _ hnd, if_pos (List.of_mem_zip hq).1, one_mul, coeff_instPoly _ _ hlen hnd q hq] at this
    rw [sub_eq_zero.mp this]

/-- If some equation or the equality of the products fails, a wrong entry below `3c` remains for all
but five `α`, whatever `R`. -/
theorem pov_alpha_sound (c ca cm : ℕ) (hsz : ca + cm < c) (γ ζ ζ1 : F) (W S K I V R : Polynomial F)
    (hbad : (∀ j, j < cm → W.coeff (2 * c + j) = W.coeff j * W.coeff (c + j)) →
      (∀ j, j < ca → W.coeff (2 * c + cm + j) = W.coeff (cm + j) + W.coeff (c + cm + j)) →
      (∀ j, j < c - ca - cm → W.coeff (2 * c + ca + cm + j) = K.coeff j) →
      (∀ j, j < 3 * c → I.coeff j * (W.coeff j - V.coeff j) = 0) →
      ∏ j ∈ Finset.range (3 * c), (W.coeff j + ζ * γ ^ j + ζ1)
        ≠ ∏ j ∈ Finset.range (3 * c), (W.coeff j + ζ * S.coeff j + ζ1)) :
    ∃ bad : Finset F, bad.card ≤ 5 ∧ ∀ α, α ∉ bad → ∀ P1,
      ∃ i, hadamardEntry (povPolys c ca cm γ ζ ζ1 α W S K I V R P1) i ≠ 0 := by
  set k : ℕ → ℕ → F := fun i j => match j with
    | 0 => if 3 * c - cm ≤ i then W.coeff (i - (3 * c - cm)) * W.coeff (i - (2 * c - cm))
          - W.coeff (i - (c - cm)) else 0
    | 1 => if 2 * c + cm ≤ i ∧ i < 2 * c + cm + ca then
          W.coeff (i - 2 * c) + W.coeff (i - c) - W.coeff i else 0
    | 2 => if 2 * c + ca + cm ≤ i then W.coeff i - K.coeff (i - (2 * c + ca + cm)) else 0
    | 3 => I.coeff i * (W.coeff i - V.coeff i)
    | 4 => (if i = 0 then 1 else R.coeff (i - 1)) * (W.coeff i + ζ * γ ^ i + ζ1)
          - R.coeff i * (W.coeff i + ζ * S.coeff i + ζ1)
    | 5 => if i = 3 * c - 1 then R.coeff i - 1 else 0
    | _ => 0 with hk
  have hex : ∃ i, i < 3 * c ∧ ∃ j, j < 6 ∧ k i j ≠ 0 := by
    by_contra hc
    push Not at hc
    refine hbad ?_ ?_ ?_ ?_ ?_
    · intro j hj
      have := hc (3 * c - cm + j) (by omega) 0 (by omega)
      simp only [hk] at this
      rw [if_pos (by omega), show 3 * c - cm + j - (3 * c - cm) = j by omega,
        show 3 * c - cm + j - (2 * c - cm) = c + j by omega,
        show 3 * c - cm + j - (c - cm) = 2 * c + j by omega] at this
      exact (sub_eq_zero.mp this).symm
    · intro j hj
      have := hc (2 * c + cm + j) (by omega) 1 (by omega)
      simp only [hk] at this
      rw [if_pos (by omega), show 2 * c + cm + j - 2 * c = cm + j by omega,
        show 2 * c + cm + j - c = c + cm + j by omega] at this
      exact (sub_eq_zero.mp this).symm
    · intro j hj
      have := hc (2 * c + ca + cm + j) (by omega) 2 (by omega)
      simp only [hk] at this
      rw [if_pos (by omega), Nat.add_sub_cancel_left] at this
      exact sub_eq_zero.mp this
    · intro j hj
      exact hc j hj 3 (by omega)
    · apply grand_product_of_rec (3 * c) (by omega) _ _ R.coeff
      · intro j hj
        exact sub_eq_zero.mp (hc j hj 4 (by omega))
      · have := hc (3 * c - 1) (by omega) 5 (by omega)
        simp only [hk, if_true] at this
        exact sub_eq_zero.mp this
  obtain ⟨i, hi, j, hj, hne⟩ := hex
  set q : Polynomial F := ∑ m ∈ Finset.range 6, Polynomial.C (k i m) * X ^ m with hq
  obtain ⟨bad, b1, b2⟩ := bad_of_coeff q j 5 (by
      rw [hq, Polynomial.finsetSum_coeff]
      simp only [Polynomial.coeff_C_mul_X_pow]
      rw [Finset.sum_ite_eq, if_pos (Finset.mem_range.mpr hj)]
      exact hne) (by
      apply Polynomial.natDegree_sum_le_of_forall_le
      intro m hm
      refine (Polynomial.natDegree_C_mul_X_pow_le _ _).trans ?_
      have := Finset.mem_range.mp hm; omega)
  refine ⟨bad, b1, fun α hα P1 => ⟨i, ?_⟩⟩
  rw [pov_entry_lt c ca cm hsz _ _ _ _ _ _ _ _ _ _ _ i hi]
  have := b2 α hα
  intro h0
  apply this
  rw [hq, Polynomial.eval_finsetSum]
  simp only [Finset.sum_range_succ, Finset.sum_range_zero, Polynomial.eval_mul, Polynomial.eval_C,
    Polynomial.eval_pow, Polynomial.eval_X]
  simp only [hk]
  linear_combination h0

theorem povGPoly_natDegree (c ca cm B D : ℕ) (γ ζ ζ1 α ω z y y1 y2 v : F)
    (W S K P1 H1 H2 : Polynomial F) (hW : W.natDegree ≤ D) (hS : S.natDegree ≤ D)
    (hK : K.natDegree ≤ D) (hP1 : P1.natDegree ≤ D) (hH1 : H1.natDegree ≤ D)
    (hH2 : H2.natDegree ≤ D) :
    (povGPoly c ca cm B γ ζ ζ1 α ω z y y1 y2 v W S K P1 H1 H2).natDegree ≤ D := by
  have : (povGPoly c ca cm B γ ζ ζ1 α ω z y y1 y2 v W S K P1 H1 H2).degree
      < ((D + 1 : ℕ) : WithBot ℕ) := by
    rw [povGPoly_eq]
    have t := fun {p : Polynomial F} (h : p.natDegree ≤ D) (a : F) =>
      degLt_C_mul (degLt_of_natDegree h) a
    exact degLt_add (degLt_add (degLt_add (degLt_add (degLt_add (degLt_add (degLt_C _ _ (by omega))
      (t hW _)) (t hK _)) (t hS _)) (t hP1 _)) (t hH1 _)) (t hH2 _)
  have h2 := Polynomial.degree_lt_iff_coeff_zero _ _ |>.mp this
  exact Polynomial.natDegree_le_iff_coeff_eq_zero.mpr (fun N hN => h2 N (by omega))

theorem natDegree_of_degLt {p : Polynomial F} {n D : ℕ} (h : p.degree < ((n : ℕ) : WithBot ℕ))
    (hn : n ≤ D + 1) : p.natDegree ≤ D :=
  Polynomial.natDegree_le_iff_coeff_eq_zero.mpr (fun N hN =>
    (Polynomial.degree_lt_iff_coeff_zero _ _ |>.mp h) N (by omega))

theorem degree_selPoly (idx : List ℕ) (n : ℕ) (h : ∀ i ∈ idx, i < n) :
    (selPoly idx : Polynomial F).degree < ((n : ℕ) : WithBot ℕ) := by
  induction idx with
  | nil => simp [selPoly]
  | cons a l ih =>
    rw [selPoly, List.map_cons, List.sum_cons]
    exact degLt_add (degLt_X_pow _ _ (h a (by simp))) (ih (fun i hi => h i (by simp [hi])))

theorem degree_instPoly (idx : List ℕ) (vals : List F) (n : ℕ) (h : ∀ i ∈ idx, i < n) :
    (instPoly idx vals).degree < ((n : ℕ) : WithBot ℕ) := by
  rw [instPoly]
  have h' : ∀ p ∈ idx.zip vals, p.1 < n := fun p hp => h _ (List.of_mem_zip hp).1
  generalize idx.zip vals = ps at h'
  induction ps with
  | nil => simp
  | cons a l ih =>
    rw [List.map_cons, List.sum_cons]
    exact degLt_add (degLt_C_mul (degLt_X_pow _ _ (h' a (by simp))) _)
      (ih (fun i hi => h' i (by simp [hi])))

theorem degree_permPoly (n : ℕ) (γ : F) (σ : ℕ → ℕ) :
    (permPoly n γ σ).degree < ((n : ℕ) : WithBot ℕ) := by
  rw [Polynomial.degree_lt_iff_coeff_zero]
  intro m hm
  rw [permPoly, Polynomial.finsetSum_coeff]
  simp only [Polynomial.coeff_C_mul_X_pow]
  rw [Finset.sum_ite_eq, if_neg (by simpa using hm)]

set_option maxHeartbeats 1000000 in
/-- **C54.** Round-by-round soundness of `verify` against a prover whose group elements are
commitments to polynomials of degree at most `D` (the degree of the setup), for the key that `index`
builds.  Let the wires form a forest of existing positions, the public positions be existing and
distinct, and the powers of `γ` distinct.  If `satisfy` does not accept the witness that can be read
off the coefficients of the committed `W`, then, whatever polynomials and values the prover sends
after each challenge, only few values of the next challenge help: `3c - 1` of `ζ`, `3c - 1` of `ζ1`,
5 of `α`, `D + 3c - cm + 1` of `ω`, `2D + 6c - cm - 1` of `z`, one of `ξ`, `D + 1` trapdoors `β` and
one value of the randomizer of `batch_check`.  For all others `verify` rejects. -/
theorem C54_sound (cs : POV F) (c D : ℕ) (hc : c = cs.nmul + cs.nadd + cs.consts.length)
    (hne : cs.consts ≠ []) (hD : 6 * c - cs.nmul ≤ D) (γ : F)
    (hγ : ∀ i < 3 * c, ∀ j < 3 * c, γ ^ i = γ ^ j → i = j)
    (hforest : Forest cs.wires) (hwr : ∀ p ∈ cs.wires, p.1 < 3 * c ∧ p.2 < 3 * c)
    (ins : POVInstance F) (hlen : ins.idx.length = ins.vals.length) (hnd : ins.idx.Nodup)
    (hir : ∀ i ∈ ins.idx, i < 3 * c)
    (W : Polynomial F) (dW : W.natDegree ≤ D)
    (hbad : cs.satisfy ins (povRead c W) ≠ .ok true) :
    ∃ badζ : Finset F, badζ.card ≤ 3 * c - 1 ∧ ∀ ζ, ζ ∉ badζ →
    ∃ badζ1 : Finset F, badζ1.card ≤ 3 * c - 1 ∧ ∀ ζ1, ζ1 ∉ badζ1 →
    ∀ R : Polynomial F, R.natDegree ≤ D →
    ∃ badα : Finset F, badα.card ≤ 5 ∧ ∀ α, α ∉ badα →
    ∀ P1 : Polynomial F, P1.natDegree ≤ D →
    ∃ badω : Finset F, badω.card ≤ D + 3 * c - cs.nmul + 1 ∧ ∀ ω, ω ∉ badω →
    ∀ H1 H2 : Polynomial F, H1.natDegree ≤ D → H2.natDegree ≤ D →
    ∃ badz : Finset F, badz.card ≤ 2 * D + 6 * c - cs.nmul - 1 ∧ ∀ z, z ∉ badz →
    ∀ y y2 : F,
    ∃ badξ : Finset F, badξ.card ≤ 1 ∧ ∀ ξ, ξ ∉ badξ → ∀ ξ2,
    ∀ Q1 Q2 : Polynomial F, Q1.natDegree ≤ D → Q2.natDegree ≤ D →
    ∃ badβ : Finset F, badβ.card ≤ D + 1 ∧ ∀ β, β ∉ badβ → ∃ r0 : F,
    ∀ (env : Env F G1 G2 GT) (g : G1) (h : G2), env.rngU128 ≠ r0 → env.gamma = γ → g ≠ 0 →
    NonDegenerate env.e h →
    ∀ (pp : UniversalParams G1 G2), kzgSetup D β g h = .ok pp →
    ∀ pk vk, povIndex γ pp cs = .ok (pk, vk) →
      let S := permPoly (3 * c) γ (cs.wires.map (fun p => Equiv.swap p.1 p.2)).prod
      let K := polyOf cs.consts
      let cm := fun p : Polynomial F => p.eval β • g
      let it := fun p : Polynomial F => (Item.cm (cm p) : Item F G1)
      let pre := fun (first : F) (l : List (Item F G1)) =>
        [.fld first, .nats ins.idx, .flds ins.vals, it S, it K] ++ l
      let G := povGPoly c cs.nadd cs.nmul (D + 1) γ ζ ζ1 α ω z y ((selPoly ins.idx).eval (ω / z)) y2
        ((instPoly ins.idx ins.vals).eval z) W S K P1 H1 H2
      env.hash (pre 1 [it W]) = ζ →
      env.hash (pre 2 [it W]) = ζ1 →
      env.hash (pre 1 [it W, it R]) = α →
      env.hash (pre 1 [it W, it R, it P1]) = ω →
      env.hash (pre 1 [it W, it R, it P1, it H1, it H2]) = z →
      env.hash (pre 1 [it W, it R, it P1, it H1, it H2, it G, .fld (ω / z), .fld y, .fld y2,
        .fld z]) = ξ →
      env.hash (pre 2 [it W, it R, it P1, it H1, it H2, it G, .fld (ω / z), .fld y, .fld y2,
        .fld z]) = ξ2 →
      povVerify env vk ins ⟨cm W, cm R, cm P1, cm H1, cm H2, y, y2, cm Q1, cm Q2⟩ ≠ .ok () := by
  have hcl : 0 < cs.consts.length := List.length_pos_of_ne_nil hne
  have hγ0 : γ ≠ 0 := by
    rintro rfl
    have := hγ 1 (by omega) 2 (by omega) (by simp)
    omega
  have hshape : PovShape cs (povRead c W) := by
    refine ⟨?_, ?_, ?_⟩ <;> simp [povRead, hc]
  have hbad' : ¬ (GatesHold cs (povRead c W) ∧ WiringHolds cs (povRead c W) ∧
      InstanceHolds (povRead c W) ins) := fun h => hbad ((C27_satisfy cs ins _ hshape).1.mpr h)
  set σ := (cs.wires.map (fun p => Equiv.swap p.1 p.2)).prod with hσ
  have hσr := perm_lt cs.wires (3 * c) hwr
  rw [← hσ] at hσr
  set S := permPoly (3 * c) γ σ with hS
  set K := polyOf cs.consts with hK
  set I : Polynomial F := selPoly ins.idx with hI
  set V := instPoly ins.idx ins.vals with hV
  have hSc : ∀ j, j < 3 * c → S.coeff j = γ ^ σ j := by
    intro j hj
    rw [hS, permPoly, Polynomial.finsetSum_coeff]
    simp only [Polynomial.coeff_C_mul_X_pow]
    rw [Finset.sum_ite_eq, if_pos (Finset.mem_range.mpr hj)]
  have hζ : ∃ badζ : Finset F, badζ.card ≤ 3 * c - 1 ∧ ∀ ζ, ζ ∉ badζ →
      ∃ badζ1 : Finset F, badζ1.card ≤ 3 * c - 1 ∧ ∀ ζ1, ζ1 ∉ badζ1 →
        (∀ j, j < cs.nmul → W.coeff (2 * c + j) = W.coeff j * W.coeff (c + j)) →
        (∀ j, j < cs.nadd →
          W.coeff (2 * c + cs.nmul + j) = W.coeff (cs.nmul + j) + W.coeff (c + cs.nmul + j)) →
        (∀ j, j < c - cs.nadd - cs.nmul → W.coeff (2 * c + cs.nadd + cs.nmul + j) = K.coeff j) →
        (∀ j, j < 3 * c → I.coeff j * (W.coeff j - V.coeff j) = 0) →
        ∏ j ∈ Finset.range (3 * c), (W.coeff j + ζ * γ ^ j + ζ1)
          ≠ ∏ j ∈ Finset.range (3 * c), (W.coeff j + ζ * S.coeff j + ζ1) := by
    by_cases hw : ∃ j, j < 3 * c ∧ W.coeff (σ j) ≠ W.coeff j
    · obtain ⟨b, b1, b2⟩ := C42_grand_product (3 * c) γ hγ σ hσr W.coeff hw
      refine ⟨b, b1, fun ζ hζ => ?_⟩
      obtain ⟨b', b3, b4⟩ := b2 ζ hζ
      refine ⟨b', b3, fun ζ1 hζ1 _ _ _ _ heq => b4 ζ1 hζ1 ?_⟩
      rw [heq]
      apply Finset.prod_congr rfl
      intro j hj
      rw [hSc j (Finset.mem_range.mp hj)]
    · push Not at hw
      refine ⟨∅, by simp, fun ζ _ => ⟨∅, by simp, fun ζ1 _ h1 h2 h3 h4 => ?_⟩⟩
      exact absurd (pov_holds_of_coeffs cs c hc hforest hwr ins hlen hnd hir W h1 h2
        (fun j hj => h3 j (by omega)) h4 hw) hbad'
  obtain ⟨badζ, c1, c2⟩ := hζ
  refine ⟨badζ, c1, fun ζ hζ => ?_⟩
  obtain ⟨badζ1, c3, c4⟩ := c2 ζ hζ
  refine ⟨badζ1, c3, fun ζ1 hζ1 R dR => ?_⟩
  obtain ⟨badα, a1, a2⟩ := pov_alpha_sound c cs.nadd cs.nmul (by omega) γ ζ ζ1 W S K I V R (c4 ζ1 hζ1)
  refine ⟨badα, a1, fun α hα P1 dP1 => ?_⟩
  have eW := degLt_of_natDegree dW
  have eR := degLt_of_natDegree dR
  have eP1 := degLt_of_natDegree dP1
  have fI : I.degree < ((3 * c : ℕ) : WithBot ℕ) := degree_selPoly _ _ hir
  have fV : V.degree < ((3 * c : ℕ) : WithBot ℕ) := degree_instPoly _ _ _ hir
  have fS : S.degree < ((3 * c : ℕ) : WithBot ℕ) := degree_permPoly _ _ _
  have fK : K.degree < ((cs.consts.length : ℕ) : WithBot ℕ) := degree_polyOf_lt cs.consts
  have hA := povPolys_degA c cs.nadd cs.nmul D (by omega) γ ζ ζ1 α W S K I V R P1 (by omega) eW
    (degLt_mono fI (by omega)) eR
  have hB := povPolys_degB c cs.nadd cs.nmul D (D - 1) (by omega) γ ζ ζ1 α W S K I V R P1 (by omega) eW
    (degLt_mono fS (by omega)) (degLt_mono fK (by omega))
    (degLt_mono eP1 (by omega)) (D + 3 * c - 1) (degLt_mono fV (by omega)) (by omega) (by omega)
  obtain ⟨badω, o1, o2⟩ := C48_omega (povPolys c cs.nadd cs.nmul γ ζ ζ1 α W S K I V R P1)
    (D + (3 * c - cs.nmul) + 1) hA (a2 α hα P1)
  refine ⟨insert 0 badω, (Finset.card_insert_le _ _).trans (by omega), fun ω hω H1 H2 dH1 dH2 => ?_⟩
  have hω0 : ω ≠ 0 := fun h => hω (by rw [h]; exact Finset.mem_insert_self _ _)
  have hω : ω ∉ badω := fun h => hω (Finset.mem_insert_of_mem h)
  obtain ⟨badz, z1, z2⟩ := C48_z (povPolys c cs.nadd cs.nmul γ ζ ζ1 α W S K I V R P1) ω (o2 ω hω) (D + 1)
    (D + (3 * c - cs.nmul)) (D + 3 * c - 1) (by omega) hA hB H1 H2 (degLt_of_natDegree dH1)
    (degLt_mono (degLt_of_natDegree dH2) (by omega))
  refine ⟨badz, by omega, fun z hz y y2 => ?_⟩
  have hsz : cs.getSize.n = c := by show _ + _ + _ = _; omega
  by_cases hz3 : z = 0 ∨ z = 1 ∨ z = ω ∨ γ * z = 1
  · refine ⟨∅, by simp, fun ξ _ ξ2 Q1 Q2 _ _ => ⟨∅, by simp, ?_⟩⟩
    intro β _
    refine ⟨0, ?_⟩
    intro env g h _ hγe hg hnd' pp hpp pk vk hidx S' K' cm it pre G e1 e2 e3 e4 e5 e6 e7 hver
    obtain ⟨sigma, kvk, ls, hvk, -, hSs, hidx'⟩ := povIndex_ok γ β hγ0 g h D pp hpp cs c hc hne hwr hD
    rw [hidx'] at hidx
    obtain ⟨-, rfl⟩ := Prod.mk.inj (Except.ok.inj hidx)
    have hSs : polyOf sigma = S := hSs
    have f1 : env.hash (povPrefix 1 ins (S.eval β • g) (K.eval β • g) ++ [.cm (cm W)]) = ζ := e1
    have f2 : env.hash (povPrefix 2 ins (S.eval β • g) (K.eval β • g) ++ [.cm (cm W)]) = ζ1 := e2
    have f3 : env.hash (povPrefix 1 ins (S.eval β • g) (K.eval β • g) ++ [.cm (cm W), .cm (cm R)]) = α := e3
    have f4 : env.hash (povPrefix 1 ins (S.eval β • g) (K.eval β • g)
      ++ [.cm (cm W), .cm (cm R), .cm (cm P1)]) = ω := e4
    have f5 : env.hash (povPrefix 1 ins (S.eval β • g) (K.eval β • g)
      ++ [.cm (cm W), .cm (cm R), .cm (cm P1), .cm (cm H1), .cm (cm H2)]) = z := e5
    by_cases hz0 : z = 0
    · simp only [povVerify, hSs, ← hK, f1, f2, f3, f4, f5] at hver
      rw [hz0, divR_zero] at hver
      cases hver
    · simp only [povVerify, hSs, ← hK, f1, f2, f3, f4, f5, divR_ok hz0, hγe,
        povCoeffs_bad (D + 1) cs.getSize γ ζ ζ1 α ω z _ _ _ _ hz3, bind, Except.bind] at hver
      cases hver
  · push Not at hz3
    obtain ⟨h0, h1, h2, h3⟩ := hz3
    set G := povGPoly c cs.nadd cs.nmul (D + 1) γ ζ ζ1 α ω z y (I.eval (ω / z)) y2
        (V.eval z) W S K P1 H1 H2 with hG
    have hwrong : (∃ i, i < [W, R].length ∧
        (([W, R] : List (Polynomial F)).getD i 0).eval (ω / z) ≠ [y, y2].getD i 0) ∨
        (∃ i, i < [G].length ∧ (([G] : List (Polynomial F)).getD i 0).eval z ≠ [(0 : F)].getD i 0) := by
      by_contra hc
      push Not at hc
      obtain ⟨c1, c2⟩ := hc
      have w0 : W.eval (ω / z) = y := c1 0 (by simp)
      have w1 : R.eval (ω / z) = y2 := c1 1 (by simp)
      have g0 : G.eval z = 0 := c2 0 (by simp)
      rw [hG, ← w0, ← w1, povG_eval] at g0
      exact z2 z hz h0 (sub_eq_zero.mp g0)
    have dG : G.natDegree ≤ D := povGPoly_natDegree c cs.nadd cs.nmul (D + 1) D γ ζ ζ1 α ω z y _ y2 _ W S K
      P1 H1 H2 dW (natDegree_of_degLt fS (by omega)) (natDegree_of_degLt fK (by omega)) dP1 dH1 dH2
    obtain ⟨badξ, badξ2, x1, x2, x3⟩ := batch_final (G1 := G1) (G2 := G2) (GT := GT) [W, R] [G]
      [y, y2] [0] rfl rfl (ω / z) z D (by
        intro f hf
        simp only [List.mem_cons, List.not_mem_nil, or_false] at hf
        rcases hf with rfl | rfl <;> assumption) (by
        intro f hf
        simp only [List.mem_cons, List.not_mem_nil, or_false] at hf
        rcases hf with rfl; exact dG) hwrong
    have hx2 : badξ2 = ∅ := Finset.card_eq_zero.mp (by simpa using x2)
    subst hx2
    refine ⟨badξ, by simpa using x1, fun ξ hξ ξ2 Q1 Q2 dQ1 dQ2 => ?_⟩
    obtain ⟨badβ, y1', y2'⟩ := x3 ξ hξ ξ2 (by simp) Q1 Q2 dQ1 dQ2
    refine ⟨badβ, y1', ?_⟩
    intro β hβ
    obtain ⟨r0, hr0⟩ := y2' β hβ
    refine ⟨r0, ?_⟩
    intro env g h hr hγe hg hnd' pp hpp pk vk hidx S' K' cm it pre G' e1 e2 e3 e4 e5 e6 e7 hver
    obtain ⟨sigma, kvk, ls, hvk, -, hSs, hidx'⟩ := povIndex_ok γ β hγ0 g h D pp hpp cs c hc hne hwr hD
    rw [hidx'] at hidx
    obtain ⟨-, rfl⟩ := Prod.mk.inj (Except.ok.inj hidx)
    have hSs : polyOf sigma = S := hSs
    have f1 : env.hash (povPrefix 1 ins (S.eval β • g) (K.eval β • g) ++ [.cm (cm W)]) = ζ := e1
    have f2 : env.hash (povPrefix 2 ins (S.eval β • g) (K.eval β • g) ++ [.cm (cm W)]) = ζ1 := e2
    have f3 : env.hash (povPrefix 1 ins (S.eval β • g) (K.eval β • g) ++ [.cm (cm W), .cm (cm R)]) = α := e3
    have f4 : env.hash (povPrefix 1 ins (S.eval β • g) (K.eval β • g)
      ++ [.cm (cm W), .cm (cm R), .cm (cm P1)]) = ω := e4
    have f5 : env.hash (povPrefix 1 ins (S.eval β • g) (K.eval β • g)
      ++ [.cm (cm W), .cm (cm R), .cm (cm P1), .cm (cm H1), .cm (cm H2)]) = z := e5
    have f6 : env.hash (povPrefix 1 ins (S.eval β • g) (K.eval β • g)
      ++ povXiItems (cm W) (cm R) (cm P1) (cm H1) (cm H2) (cm G) (ω / z) y y2 z) = ξ := e6
    have f7 : env.hash (povPrefix 2 ins (S.eval β • g) (K.eval β • g)
      ++ povXiItems (cm W) (cm R) (cm P1) (cm H1) (cm H2) (cm G) (ω / z) y y2 z) = ξ2 := e7
    have hcmg : povCmG g (povK c cs.nadd cs.nmul (D + 1) γ ζ ζ1 α ω z y (I.eval (ω / z)) y2 (V.eval z))
        (cm W) (K.eval β • g) (S.eval β • g) (cm P1) (cm H1) (cm H2) = cm G :=
      povK_eval c cs.nadd cs.nmul (D + 1) γ ζ ζ1 α ω z y (I.eval (ω / z)) y2 (V.eval z) β W S K P1 H1 H2 g
    have hvkg : kvk.g = g := hvk.1
    simp only [povVerify, hSs, ← hK, f1, f2, f3, f4, f5, divR_ok h0, hγe,
      evalSparse01_eq ins.idx _ (Or.inl (div_ne_zero hω0 h0)), evalSparse_eq ins.idx ins.vals z h0,
      bind, Except.bind] at hver
    simp only [← hI, ← hV, povCoeffs_ok c cs.nadd cs.nmul (D + 1) cs.getSize hsz rfl rfl (by omega) γ ζ ζ1 α
      ω z _ _ _ _ h0 h1 h2 h3, hvkg, hcmg, f6, f7] at hver
    have hf := hr0 env.rngU128 hr env.e g hg h hnd' kvk hvk
    simp only [List.map_cons, List.map_nil] at hf
    rw [show batchCheck env.e kvk [cm W, cm R] [cm G] (ω / z) z ξ ξ2 [y, y2] [0] (cm Q1)
      (cm Q2) env.rngU128 = false from hf] at hver
    simp at hver

/-! ## C55: what `verify` checks -/

/-- **C55.** `verify` accepts iff the challenge `z` is none of `0`, `1`, `ω`, `1/γ` and the batched
opening equation holds for the commitments `W`, `R` at `ω/z` with the claimed values and for the
combination `povComb` of the commitments at `z` with value 0 (`ω = 0` excluded when position 0 is
public). -/
theorem C55_accepts_iff (env : Env F G1 G2 GT) (β : F) (g : G1) (h : G2)
    (hnd : NonDegenerate env.e h) (vk : PovVK G1 G2) (hvk : HonestVk β g h vk.kzgVk)
    (hsz : vk.size.nadd + vk.size.nmul < vk.size.n) (x : POVInstance F) (π : PovProof F G1) :
    let pre := fun (first : F) (l : List (Item F G1)) =>
      [.fld first, .nats x.idx, .flds x.vals, .cm vk.cmSigma, .cm vk.cmD] ++ l
    let ζ := env.hash (pre 1 [.cm π.cmW])
    let ζ1 := env.hash (pre 2 [.cm π.cmW])
    let α := env.hash (pre 1 [.cm π.cmW, .cm π.cmR])
    let ω := env.hash (pre 1 [.cm π.cmW, .cm π.cmR, .cm π.cmT1])
    let z := env.hash (pre 1 [.cm π.cmW, .cm π.cmR, .cm π.cmT1, .cm π.cmH1, .cm π.cmH2])
    let cmG := povComb vk.size.n vk.size.nadd vk.size.nmul vk.degreeBound env.gamma ζ ζ1 α ω z π.y
      ((selPoly x.idx).eval (ω / z)) π.y2 ((instPoly x.idx x.vals).eval z) g π.cmW vk.cmSigma vk.cmD
      π.cmT1 π.cmH1 π.cmH2
    let ξ := env.hash (pre 1 [.cm π.cmW, .cm π.cmR, .cm π.cmT1, .cm π.cmH1, .cm π.cmH2, .cm cmG,
      .fld (ω / z), .fld π.y, .fld π.y2, .fld z])
    (ω ≠ 0 ∨ 0 ∉ x.idx) →
    (povVerify env vk x π = .ok () ↔
      z ≠ 0 ∧ z ≠ 1 ∧ z ≠ ω ∧ env.gamma * z ≠ 1 ∧
      (π.cmW + ξ • π.cmR - (π.y + ξ * π.y2) • g - (β - ω / z) • π.capW)
        + env.rngU128 • (cmG - (β - z) • π.capW1) = 0) := by
  intro pre ζ ζ1 α ω z cmG ξ hω0
  have hvkg : vk.kzgVk.g = g := hvk.1
  have f1 : env.hash (povPrefix 1 x vk.cmSigma vk.cmD ++ [.cm π.cmW]) = ζ := rfl
  have f2 : env.hash (povPrefix 2 x vk.cmSigma vk.cmD ++ [.cm π.cmW]) = ζ1 := rfl
  have f3 : env.hash (povPrefix 1 x vk.cmSigma vk.cmD ++ [.cm π.cmW, .cm π.cmR]) = α := rfl
  have f4 : env.hash (povPrefix 1 x vk.cmSigma vk.cmD ++ [.cm π.cmW, .cm π.cmR, .cm π.cmT1]) = ω := rfl
  have f5 : env.hash (povPrefix 1 x vk.cmSigma vk.cmD
    ++ [.cm π.cmW, .cm π.cmR, .cm π.cmT1, .cm π.cmH1, .cm π.cmH2]) = z := rfl
  have f6 : env.hash (povPrefix 1 x vk.cmSigma vk.cmD
    ++ povXiItems π.cmW π.cmR π.cmT1 π.cmH1 π.cmH2 cmG (ω / z) π.y π.y2 z) = ξ := rfl
  simp only [povVerify, f1, f2, f3, f4, f5]
  by_cases h0 : z = 0
  · rw [h0, divR_zero]
    constructor
    · intro h; cases h
    · rintro ⟨h, -⟩; exact absurd rfl h
  simp only [divR_ok h0, evalSparse01_eq x.idx _ (hω0.imp (fun h => div_ne_zero h h0) id),
    evalSparse_eq x.idx x.vals z h0, bind, Except.bind]
  by_cases hb : z = 1 ∨ z = ω ∨ env.gamma * z = 1
  · simp only [povCoeffs_bad vk.degreeBound vk.size env.gamma ζ ζ1 α ω z _ _ _ _ (Or.inr hb)]
    constructor
    · intro h; cases h
    · rintro ⟨-, h1, h2, h3, -⟩
      rcases hb with h | h | h
      · exact absurd h h1
      · exact absurd h h2
      · exact absurd h h3
  push Not at hb
  obtain ⟨h1, h2, h3⟩ := hb
  simp only [povCoeffs_ok vk.size.n vk.size.nadd vk.size.nmul vk.degreeBound vk.size rfl rfl rfl hsz
    env.gamma ζ ζ1 α ω z _ _ _ _ h0 h1 h2 h3, hvkg, povComb_eq]
  rw [show povComb vk.size.n vk.size.nadd vk.size.nmul vk.degreeBound env.gamma ζ ζ1 α ω z π.y
      ((selPoly x.idx).eval (ω / z)) π.y2 ((instPoly x.idx x.vals).eval z) g π.cmW vk.cmSigma vk.cmD
      π.cmT1 π.cmH1 π.cmH2 = cmG from rfl, f6]
  have hif : ∀ b : Bool, (if b then (.ok () : Res Unit) else .error .verificationFail) = .ok ()
      ↔ b = true := by intro b; cases b <;> simp
  rw [hif, C22_batch_iff env.e β g h hnd vk.kzgVk hvk [π.cmW, π.cmR] [cmG] [π.y, π.y2] [0] rfl rfl]
  have e1 : combine ξ [π.cmW, π.cmR] = π.cmW + ξ • π.cmR := by
    simp [combine, List.zipIdx]
  have e2 : combine ξ [π.y, π.y2] = π.y + ξ * π.y2 := by
    simp [combine, List.zipIdx]
  have e3 : ∀ t : F, combine t [cmG] = cmG := by intro t; simp [combine, List.zipIdx]
  have e4 : ∀ t : F, combine t [(0 : F)] = 0 := by intro t; simp [combine, List.zipIdx]
  rw [e1, e2, e3, e4, zero_smul, sub_zero]
  constructor
  · intro h; exact ⟨h0, h1, h2, h3, h⟩
  · rintro ⟨-, -, -, -, h⟩; exact h

/-! ## C56: forgery with a known randomizer -/

/-- **C56.** Universal forgery of POV proofs with a known randomizer: for every key and every
instance, true or false, and every choice of the commitments and values of a proof whose challenges
satisfy `z ∉ {0, 1, ω, 1/γ}` and `z² ≠ ω`, the two opening proofs can be chosen (as a function of the
known randomizer, without the trapdoor) so that `verify` accepts. -/
theorem C56_forgery (env : Env F G1 G2 GT) (g : G1) (size : POVSize) (capD : ℕ)
    (hsz : size.nadd + size.nmul < size.n) (x : POVInstance F)
    (cmS cmK cmW cmR cmT1 cmH1 cmH2 : G1) (y y2 : F) (hr : env.rngU128 ≠ 0) :
    let pre := fun (first : F) (l : List (Item F G1)) =>
      [.fld first, .nats x.idx, .flds x.vals, .cm cmS, .cm cmK] ++ l
    let ω := env.hash (pre 1 [.cm cmW, .cm cmR, .cm cmT1])
    let z := env.hash (pre 1 [.cm cmW, .cm cmR, .cm cmT1, .cm cmH1, .cm cmH2])
    z ≠ 0 → z ≠ 1 → z ≠ ω → env.gamma * z ≠ 1 → z ^ 2 ≠ ω →
    ∃ capW capW1 : G1, ∀ (β : F) (h : G2) (kvk : VerifierKey G1 G2), HonestVk β g h kvk →
      povVerify env ⟨cmS, cmK, kvk, size, capD⟩ x ⟨cmW, cmR, cmT1, cmH1, cmH2, y, y2, capW, capW1⟩
        = .ok () := by
  intro pre ω z h0 h1 h2 h3 hzz
  set ζ := env.hash (pre 1 [.cm cmW]) with hζ
  set ζ1 := env.hash (pre 2 [.cm cmW]) with hζ1
  set α := env.hash (pre 1 [.cm cmW, .cm cmR]) with hα
  have f1 : env.hash (povPrefix 1 x cmS cmK ++ [.cm cmW]) = ζ := rfl
  have f2 : env.hash (povPrefix 2 x cmS cmK ++ [.cm cmW]) = ζ1 := rfl
  have f3 : env.hash (povPrefix 1 x cmS cmK ++ [.cm cmW, .cm cmR]) = α := rfl
  have f4 : env.hash (povPrefix 1 x cmS cmK ++ [.cm cmW, .cm cmR, .cm cmT1]) = ω := rfl
  have f5 : env.hash (povPrefix 1 x cmS cmK
    ++ [.cm cmW, .cm cmR, .cm cmT1, .cm cmH1, .cm cmH2]) = z := rfl
  set cmG := povComb size.n size.nadd size.nmul capD env.gamma ζ ζ1 α ω z y
    (evalSparseZeroOneVector (ω / z) x.idx) y2 (evalSparseVector z x.idx x.vals) g cmW cmS cmK
    cmT1 cmH1 cmH2 with hcmG
  obtain ⟨w, w2, hw⟩ := C22_known_randomizer_forgery (G1 := G1) (G2 := G2) (GT := GT) g
    [cmW, cmR] [cmG] [y, y2] [0] (ω / z) z
    (env.hash (povPrefix 1 x cmS cmK ++ povXiItems cmW cmR cmT1 cmH1 cmH2 cmG (ω / z) y y2 z))
    (env.hash (povPrefix 2 x cmS cmK ++ povXiItems cmW cmR cmT1 cmH1 cmH2 cmG (ω / z) y y2 z))
    env.rngU128
    (by intro h; apply hzz; rw [div_eq_iff h0] at h; rw [h]; ring) hr
  refine ⟨w, w2, ?_⟩
  intro β h kvk hvk
  have hvkg : kvk.g = g := hvk.1
  simp only [povVerify, f1, f2, f3, f4, f5, divR_ok h0, bind, Except.bind,
    povCoeffs_ok size.n size.nadd size.nmul capD size rfl rfl rfl hsz env.gamma ζ ζ1 α ω z _ _ _ _ h0 h1
      h2 h3, hvkg, povComb_eq, ← hcmG]
  rw [if_pos (hw env.e β h kvk hvk)]

/-! ## C57: public positions outside the witness -/

theorem entry_zero_of_degA (l : List (Polynomial F × Polynomial F)) (N : ℕ)
    (h : ∀ p ∈ l, p.1.degree < ((N : ℕ) : WithBot ℕ)) (i : ℕ) (hi : N ≤ i) :
    hadamardEntry l i = 0 := by
  rw [hadamardEntry]
  apply List.sum_eq_zero
  intro x hx
  obtain ⟨p, hp, rfl⟩ := List.mem_map.mp hx
  rw [Polynomial.degree_lt_iff_coeff_zero _ _ |>.mp (h p hp) i hi, zero_mul]

theorem open_exists (p : Polynomial F) (z : F) :
    ∃ q : Polynomial F, p - Polynomial.C (p.eval z) = (X - Polynomial.C z) * q := by
  obtain ⟨q, hq⟩ := Polynomial.X_sub_C_dvd_sub_C_eval (a := z) (p := p)
  exact ⟨q, hq⟩

theorem degree_grandPoly (n : ℕ) (γ ζ ζ1 : F) (w s : ℕ → F) (δ : F) :
    (grandPoly n γ ζ ζ1 w s δ).degree < ((n + 1 : ℕ) : WithBot ℕ) := by
  rw [Polynomial.degree_lt_iff_coeff_zero]
  intro m hm
  rw [grandPoly, Polynomial.coeff_add, Polynomial.finsetSum_coeff]
  simp only [Polynomial.coeff_C_mul_X_pow]
  rw [Finset.sum_ite_eq, if_neg (by simp; omega), if_neg (by omega), add_zero]

set_option maxHeartbeats 1000000 in
/-- **C57 (deviation).** `verify` does not check that public positions exist.  Take any true statement
and add the claim that position `j` holds `v`, where `3c ≤ j ≤ 6c - cm` lies outside the witness and `v`
is arbitrary.  `satisfy` rejects the new instance for every witness, but there are commitments and
values (computed from the witness, without the trapdoor) that `verify` accepts, whenever the
challenges avoid the same values as in an honest run. -/
theorem C57_unchecked_position (env : Env F G1 G2 GT) (hγ : env.gamma ≠ 0) (β : F) (g : G1) (h : G2)
    (hnd : NonDegenerate env.e h) (D : ℕ) (pp : UniversalParams G1 G2)
    (hs : kzgSetup D β g h = .ok pp) (cs : POV F) (hne : cs.consts ≠ []) (c : ℕ)
    (hc : c = cs.nmul + cs.nadd + cs.consts.length) (hD : 6 * c - cs.nmul ≤ D) (ins : POVInstance F)
    (hlen : ins.idx.length = ins.vals.length) (hnod : ins.idx.Nodup) (w : POVWitness F)
    (hsh : PovShape cs w) (hsat : cs.satisfy ins w = .ok true) (j : ℕ) (hj : 3 * c ≤ j)
    (hj2 : j ≤ 6 * c - cs.nmul) (v : F) :
    let ins' : POVInstance F := ⟨ins.idx ++ [j], ins.vals ++ [v]⟩
    (∀ w', PovShape cs w' → cs.satisfy ins' w' = .ok false) ∧
    ∃ pk vk, povIndex env.gamma pp cs = .ok (pk, vk) ∧
      let pre := fun (first : F) (l : List (Item F G1)) =>
        [.fld first, .nats ins'.idx, .flds ins'.vals, .cm vk.cmSigma, .cm vk.cmD] ++ l
      let cmW := (polyOf (povVec w ++ [env.rngF 0])).eval β • g
      let ζ := env.hash (pre 1 [.cm cmW])
      let ζ1 := env.hash (pre 2 [.cm cmW])
      (∀ i, i < 3 * c → (povVec w).getD i 0
        + ζ * env.gamma ^ (cs.wires.map (fun p => Equiv.swap p.1 p.2)).prod i + ζ1 ≠ 0) →
      ∃ cmR cmT1 : G1,
      let ω := env.hash (pre 1 [.cm cmW, .cm cmR, .cm cmT1])
      (ω ≠ 0 ∨ 0 ∉ ins'.idx) →
      ∃ cmH1 cmH2 : G1,
      let z := env.hash (pre 1 [.cm cmW, .cm cmR, .cm cmT1, .cm cmH1, .cm cmH2])
      z ≠ 0 → z ≠ 1 → z ≠ ω → env.gamma * z ≠ 1 →
      ∃ (y y2 : F) (capW capW1 : G1),
        povVerify env vk ins' ⟨cmW, cmR, cmT1, cmH1, cmH2, y, y2, capW, capW1⟩ = .ok () := by
  intro ins'
  have hcl : 0 < cs.consts.length := List.length_pos_of_ne_nil hne
  have hshape : ∀ w', PovShape cs w' → (povVec w').length = 3 * c := by
    rintro w' ⟨s0, s1, s2⟩; simp [povVec, s0, s1, s2]; omega
  have hz' : ins'.idx.zip ins'.vals = ins.idx.zip ins.vals ++ [(j, v)] := by
    show (ins.idx ++ [j]).zip (ins.vals ++ [v]) = _
    rw [List.zip_append hlen]; rfl
  refine ⟨?_, ?_⟩
  · intro w' hw'
    rw [(C27_satisfy cs ins' w' hw').2]
    rintro ⟨-, -, hi⟩
    have := hi (j, v) (by rw [hz']; simp)
    obtain ⟨h1, -⟩ := List.getElem?_eq_some_iff.mp this
    have h2 := hshape w' hw'
    have h1 : j < (povVec w').length := h1
    omega
  obtain ⟨hgate, hwire, hinst⟩ := (C27_satisfy cs ins w hsh).1.mp hsat
  have lv := hshape w hsh
  have hwr : ∀ p ∈ cs.wires, p.1 < 3 * c ∧ p.2 < 3 * c := by
    intro p hp
    obtain ⟨a, h1, h2⟩ := hwire p hp
    obtain ⟨h1, -⟩ := List.getElem?_eq_some_iff.mp h1
    obtain ⟨h2, -⟩ := List.getElem?_eq_some_iff.mp h2
    omega
  have hm : (ins.idx.zip ins.vals).map Prod.fst = ins.idx := List.map_fst_zip (by omega)
  have hir : ∀ i ∈ ins.idx, i < 3 * c := by
    intro i hi
    rw [← hm] at hi
    obtain ⟨q, hq, rfl⟩ := List.mem_map.mp hi
    obtain ⟨h1, -⟩ := List.getElem?_eq_some_iff.mp (hinst q hq)
    omega
  obtain ⟨sigma, kvk, ls, hvk, hsig, hS, hidx⟩ := povIndex_ok env.gamma β hγ g h D pp hs cs c hc hne hwr hD
  refine ⟨_, _, hidx, ?_⟩
  intro pre cmW
  set σ := (cs.wires.map (fun p => Equiv.swap p.1 p.2)).prod with hσ
  set S := permPoly (3 * c) env.gamma σ with hSd
  set K := polyOf cs.consts with hK
  set W := polyOf (povVec w ++ [env.rngF 0]) with hW
  set I : Polynomial F := selPoly ins.idx with hI
  set V := instPoly ins.idx ins.vals with hV
  set I' : Polynomial F := selPoly ins'.idx with hI'
  set V' := instPoly ins'.idx ins'.vals with hV'
  have eI : I' = I + X ^ j := by
    simp [hI', hI, selPoly, ins']
  have eV : V' = V + Polynomial.C v * X ^ j := by
    rw [hV', instPoly, hz', List.map_append, List.sum_append]; simp [hV, instPoly]
  have hcmW : cmW = W.eval β • g := rfl
  clear_value cmW
  subst hcmW
  intro ζ ζ1 hden
  set R := grandPoly (3 * c) env.gamma ζ ζ1 (fun j => (povVec w).getD j 0) (fun j => env.gamma ^ σ j)
    (env.rngF 1) with hR
  set α := env.hash (pre 1 [.cm (W.eval β • g), .cm (R.eval β • g)]) with hα
  set base := povBase c cs.nadd cs.nmul env.gamma ζ ζ1 α W S K I' V' R with hbase
  set P1 := blindPoly (3 * c) (3 * c - cs.nmul + 1) 0 base with hP1
  refine ⟨R.eval β • g, P1.eval β • g, ?_⟩
  intro ω hω0
  have dW : W.degree < ((3 * c + 1 : ℕ) : WithBot ℕ) := by
    have := degree_polyOf_lt (povVec w ++ [env.rngF 0])
    rwa [List.length_append, lv] at this
  have dR : R.degree < ((3 * c + 1 : ℕ) : WithBot ℕ) := degree_grandPoly _ _ _ _ _ _ _
  have dI : I'.degree < ((6 * c - cs.nmul + 1 : ℕ) : WithBot ℕ) := by
    rw [eI]
    exact degLt_add (degLt_mono (degree_selPoly _ _ hir) (by omega)) (degLt_X_pow _ _ (by omega))
  have dV : V'.degree < ((6 * c - cs.nmul + 1 : ℕ) : WithBot ℕ) := by
    rw [eV]
    exact degLt_add (degLt_mono (degree_instPoly _ _ _ hir) (by omega))
      (degLt_C_mul (degLt_X_pow _ _ (by omega)) _)
  have dS : S.degree < ((3 * c : ℕ) : WithBot ℕ) := degree_permPoly _ _ _
  have dK : K.degree < ((cs.consts.length : ℕ) : WithBot ℕ) := degree_polyOf_lt cs.consts
  have dP1 : P1.degree < ((3 * c - cs.nmul + 1 + 1 : ℕ) : WithBot ℕ) := by
    rw [Polynomial.degree_lt_iff_coeff_zero]
    intro k hk
    obtain ⟨i, rfl⟩ : ∃ i, k = i + 1 := ⟨k - 1, by omega⟩
    rw [hP1, coeff_blindPoly_succ, if_neg (by omega)]
  have hdA : ∀ p ∈ povPolys c cs.nadd cs.nmul env.gamma ζ ζ1 α W S K I' V' R P1,
      p.1.degree < ((6 * c - cs.nmul + 1 : ℕ) : WithBot ℕ) := by
    intro p hp
    exact degLt_mono (povPolys_degA c cs.nadd cs.nmul (3 * c) (by omega) env.gamma ζ ζ1 α W S K I' V' R P1
      le_rfl dW (degLt_mono dI (by omega)) dR p hp) (by omega)
  have hdB : ∀ p ∈ povPolys c cs.nadd cs.nmul env.gamma ζ ζ1 α W S K I' V' R P1,
      p.2.degree < ((6 * c - cs.nmul + 1 : ℕ) : WithBot ℕ) :=
    povPolys_degB c cs.nadd cs.nmul (3 * c) (3 * c - cs.nmul) (by omega) env.gamma ζ ζ1 α W S K I' V' R P1
      le_rfl dW (degLt_mono dS (by omega)) (degLt_mono dK (by omega)) dP1 (6 * c - cs.nmul) dV (by omega)
      (by omega)
  have hentry : ∀ i, hadamardEntry (povPolys c cs.nadd cs.nmul env.gamma ζ ζ1 α W S K I' V' R P1) i = 0 := by
    apply entries_blind_zero _ _ (by omega)
    · intro i hi
      have h1 := pov_honest cs c hc hne ins hlen hnod w hsh hgate hinst env.gamma ζ ζ1 α (env.rngF 0)
        (env.rngF 1) σ (fun k _ => invariant_of_wiring cs w hwire k) (fun i hi => (hsig i hi).1) hden P1 i hi
      rw [← entries_blind_lt (3 * c) (3 * c - cs.nmul + 1) (by omega) P1 _ i hi]
      have h2 := pov_entry_lt c cs.nadd cs.nmul (by omega) env.gamma ζ ζ1 α W S K I' V' R P1 i hi
      rw [pov_entry_lt c cs.nadd cs.nmul (by omega) _ _ _ _ _ _ _ _ _ _ _ i hi] at h1
      have c1 : I'.coeff i = I.coeff i := by
        rw [eI, Polynomial.coeff_add, Polynomial.coeff_X_pow, if_neg (by omega), add_zero]
      have c2 : V'.coeff i = V.coeff i := by
        rw [eV, Polynomial.coeff_add, Polynomial.coeff_C_mul_X_pow, if_neg (by omega), add_zero]
      rw [c1, c2] at h2
      exact h2.trans h1
    · intro i hi
      refine entry_zero_of_degA _ (6 * c - cs.nmul + 1) ?_ i (by omega)
      intro p hp
      exact hdA p (List.mem_append_left _ hp)
  obtain ⟨H1, H2, dH1, dH2, hH⟩ := C48_complete _ (6 * c - cs.nmul) (D + 1) (by omega) hdA hdB hentry ω
  refine ⟨H1.eval β • g, H2.eval β • g, ?_⟩
  intro z h0 h1 h2 h3
  set G := povGPoly c cs.nadd cs.nmul (D + 1) env.gamma ζ ζ1 α ω z (W.eval (ω / z)) (I'.eval (ω / z))
    (R.eval (ω / z)) (V'.eval z) W S K P1 H1 H2 with hG
  have hGz : G.eval z = 0 := by rw [hG, povG_eval, hH z h0, sub_self]
  have hsz : cs.getSize.n = c := by show _ + _ + _ = _; omega
  have hadd : cs.getSize.nadd = cs.nadd := rfl
  have hmul : cs.getSize.nmul = cs.nmul := rfl
  have hcomb : povComb c cs.nadd cs.nmul (D + 1) env.gamma ζ ζ1 α ω z (W.eval (ω / z)) (I'.eval (ω / z))
      (R.eval (ω / z)) (V'.eval z) g (W.eval β • g) (S.eval β • g) (K.eval β • g) (P1.eval β • g)
      (H1.eval β • g) (H2.eval β • g) = G.eval β • g := by
    rw [← povComb_eq, povK_eval]
  set ξ := env.hash (pre 1 [.cm (W.eval β • g), .cm (R.eval β • g), .cm (P1.eval β • g),
    .cm (H1.eval β • g), .cm (H2.eval β • g), .cm (G.eval β • g), .fld (ω / z), .fld (W.eval (ω / z)),
    .fld (R.eval (ω / z)), .fld z]) with hξ
  obtain ⟨q1, hq1⟩ := open_exists (W + Polynomial.C ξ * R) (ω / z)
  obtain ⟨q2, hq2⟩ := open_exists G z
  refine ⟨W.eval (ω / z), R.eval (ω / z), q1.eval β • g, q2.eval β • g, ?_⟩
  have hacc := C55_accepts_iff env β g h hnd ⟨(polyOf sigma).eval β • g, K.eval β • g, kvk, cs.getSize, D + 1⟩
    hvk (by show cs.nadd + cs.nmul < cs.getSize.n; omega) ins'
    ⟨W.eval β • g, R.eval β • g, P1.eval β • g, H1.eval β • g, H2.eval β • g, W.eval (ω / z),
      R.eval (ω / z), q1.eval β • g, q2.eval β • g⟩
  simp only [hsz, hadd, hmul] at hacc
  have hS2 : polyOf sigma = S := hS
  refine (hacc hω0).mpr ⟨h0, h1, h2, h3, ?_⟩
  have hcomb' := hcomb
  rw [← hS2] at hcomb'
  have e1 := congrArg (Polynomial.eval β) hq1
  have e2 := congrArg (Polynomial.eval β) hq2
  simp only [Polynomial.eval_sub, Polynomial.eval_add, Polynomial.eval_mul, Polynomial.eval_C,
    Polynomial.eval_X, hGz, sub_zero] at e1 e2
  have key : ∀ (ξ' : F) (cmG : G1), ξ' = ξ → cmG = G.eval β • g →
      W.eval β • g + ξ' • R.eval β • g - (W.eval (ω / z) + ξ' * R.eval (ω / z)) • g
        - (β - ω / z) • q1.eval β • g + env.rngU128 • (cmG - (β - z) • q2.eval β • g) = 0 := by
    rintro _ _ rfl rfl
    have t1 : W.eval β • g + ξ • R.eval β • g - (W.eval (ω / z) + ξ * R.eval (ω / z)) • g
        - (β - ω / z) • q1.eval β • g
        = (W.eval β + ξ * R.eval β - (W.eval (ω / z) + ξ * R.eval (ω / z))
          - (β - ω / z) * q1.eval β) • g := by module
    have t2 : G.eval β • g - (β - z) • q2.eval β • g = (G.eval β - (β - z) * q2.eval β) • g := by module
    rw [t1, t2, e1, e2, sub_self, sub_self]; simp
  refine key _ _ ?_ ?_
  · rw [hξ]
    exact congrArg env.hash (by rw [← hcomb'])
  · exact hcomb'

/-! Concrete cases for the hypotheses of C42 and C54-C57, over the field with 97 elements. -/

/-- Hypotheses of C42: the powers of 5 are distinct, and a vector that breaks a swap. -/
example : (∀ i < 9, ∀ j < 9, (5 : K97) ^ i = (5 : K97) ^ j → i = j) ∧
    (∃ j, j < 9 ∧ ([2, 1, 0, 5, 3, 0, 10, 4, 5] : List K97).getD (Equiv.swap 0 4 j) 0
      ≠ ([2, 1, 0, 5, 3, 0, 10, 4, 5] : List K97).getD j 0) := by
  refine ⟨by decide +kernel, 0, by omega, by decide +kernel⟩

/-- Hypotheses of C54: the wires form a forest, and the witness read off a polynomial is rejected. -/
example : Forest [(0, 4), (3, 8)] := by
  intro k hk h
  have key : ∀ (ps : List (ℕ × ℕ)) (f : ℕ → ℕ), (∀ p ∈ ps, f p.1 = f p.2) → ∀ a b, Linked ps a b → f a = f b := by
    intro ps f hf a b hab
    induction hab with
    | rel a b hab => exact hf _ hab
    | refl a => rfl
    | symm a b _ ih => exact ih.symm
    | trans a b c _ _ h1 h2 => exact h1.trans h2
  have hk : k < 2 := hk
  interval_cases k
  · have := key _ id (by simp) _ _ h
    simp at this
  · have := key _ (fun i => if i = 4 then 0 else i) (by simp) _ _ h
    simp at this

example : (⟨[5], [(0, 4), (3, 8)], 1, 1⟩ : POV K97).satisfy ⟨[6], [10]⟩
    (povRead 3 (polyOf [2, 1, 0, 5, 2, 0, 10, 4, 5, 77])) ≠ .ok true := by
  have : povRead 3 (polyOf ([2, 1, 0, 5, 2, 0, 10, 4, 5, 77] : List K97))
      = ⟨[2, 1, 0], [5, 2, 0], [10, 4, 5]⟩ := by
    simp [povRead, List.range_succ, coeff_polyOf]
  rw [this]
  decide +kernel

/-- The forgery of C56 applies to a false instance. -/
example : ∃ capW capW1 : K97, ∀ (β : K97) (h : K97) (kvk : VerifierKey K97 K97),
    HonestVk β 1 h kvk →
      povVerify env97 ⟨7, 8, kvk, ⟨1, 1, 1, 3⟩, 31⟩ ⟨[6], [77]⟩
        ⟨1, 1, 1, 1, 1, 2, 3, capW, capW1⟩ = .ok () :=
  C56_forgery env97 (1 : K97) ⟨1, 1, 1, 3⟩ 31 (by decide) ⟨[6], [77]⟩ 7 8 1 1 1 1 1 2 3 (by decide +kernel)
    (by decide +kernel) (by decide +kernel) (by decide +kernel) (by decide +kernel) (by decide +kernel)

/-- A proof as in C57, for the additional claim that position 9 of a witness of length 9 holds 50. -/
example : ((kzgSetup 30 (33 : K97) (1 : K97) (1 : K97)).bind
    (fun pp => (povIndex env97.gamma pp ⟨[5], [(0, 4), (3, 8)], 1, 1⟩).bind (fun keys =>
      povVerify env97 keys.2 ⟨[6, 9], [10, 50]⟩ ⟨81, 68, 2, 15, 22, 17, 35, 42, 23⟩))) = .ok () := by
  decide +kernel

end VO
