import Verif.Lemmas.PlonkPerm2

/-
`compute_permutation_poly`: what it returns and when it panics.
-/

set_option linter.unusedSectionVars false

namespace VO.Plonk

open VO.Spec VO.Spec.Plonk Polynomial

variable {F : Type} [Field F] [DecidableEq F]

theorem mapM_panic {α β : Type} {f : α → Except Err β} (l : List α)
    (hf : ∀ a ∈ l, f a = .error .panic ∨ ∃ b, f a = .ok b) (h : ∃ a ∈ l, f a = .error .panic) :
    l.mapM f = .error .panic := by
  induction l with
  | nil => simp at h
  | cons a l ih =>
    rw [List.mapM_cons]
    rcases hf a (by simp) with h1 | ⟨b, h1⟩
    · rw [h1]; rfl
    · rw [h1]
      have : l.mapM f = .error .panic := by
        apply ih (fun a ha => hf a (by simp [ha]))
        obtain ⟨a', ha', h'⟩ := h
        rcases List.mem_cons.1 ha' with rfl | h2
        · rw [h1] at h'; cases h'
        · exact ⟨a', h2, h'⟩
      simp only [bind, Except.bind, this]

theorem scanAcc_length (op : F → F → F) (acc : F) (l : List F) : (scanAcc op acc l).length = l.length := by
  induction l generalizing acc with
  | nil => rfl
  | cons x l ih => simp [scanAcc, ih]

theorem runProduct_length (l : List F) : (runProduct l).length = l.length + 1 := by
  simp [runProduct, scanAcc_length]

theorem scanMul_getD (acc : F) (l : List F) (i : ℕ) (hi : i < l.length) :
    (scanAcc (· * ·) acc l).getD i 0 = acc * ∏ j ∈ Finset.range (i + 1), l.getD j 0 := by
  induction l generalizing acc i with
  | nil => simp at hi
  | cons x l ih =>
    cases i with
    | zero => simp [scanAcc]
    | succ i =>
      have hi' : i < l.length := by simpa using hi
      simp only [scanAcc, List.getD_cons_succ]
      rw [ih (acc * x) i hi', Finset.prod_range_succ' (fun j => (x :: l).getD j 0) (i + 1)]
      simp only [List.getD_cons_succ, List.getD_cons_zero]
      ring

theorem runProduct_getD (l : List F) (i : ℕ) (hi : i ≤ l.length) :
    (runProduct l).getD i 0 = ∏ j ∈ Finset.range i, l.getD j 0 := by
  cases i with
  | zero => simp [runProduct]
  | succ i =>
    simp only [runProduct, List.getD_cons_succ]
    rw [scanMul_getD _ _ _ (by omega), one_mul]

/-- The four wire vectors have `n` entries. -/
structure QLen (q : Quad F) (n : ℕ) : Prop where
  l1 : q.p1.length = n
  l2 : q.p2.length = n
  l3 : q.p3.length = n
  l4 : q.p4.length = n

theorem permRow_eq {D : Dom F} {wires : Quad F} (hq : QLen wires D.size) (sig : Quad F) :
    D.elements.zip ((zip4 (⟨D.fft sig.p1, D.fft sig.p2, D.fft sig.p3, D.fft sig.p4⟩ : Quad F)).zip
      (zip4 wires)) = (List.range D.size).map fun i => (D.omega ^ i,
        (polyEval sig.p1 (D.omega ^ i), polyEval sig.p2 (D.omega ^ i), polyEval sig.p3 (D.omega ^ i),
          polyEval sig.p4 (D.omega ^ i)), (wires.p1.getD i 0, wires.p2.getD i 0, wires.p3.getD i 0,
            wires.p4.getD i 0)) := by
  apply List.ext_getElem
  · simp [zip4, Dom.elements, Dom.fft, dft, hq.l1, hq.l2, hq.l3, hq.l4]
  · intro i h1 h2
    have hi : i < D.size := by simpa using h2
    simp only [List.getElem_zip, zip4, Dom.elements, Dom.fft, dft, List.getElem_map,
      List.getElem_range]
    rw [List.getD_eq_getElem _ _ (by rw [hq.l1]; exact hi),
      List.getD_eq_getElem _ _ (by rw [hq.l2]; exact hi),
      List.getD_eq_getElem _ _ (by rw [hq.l3]; exact hi),
      List.getD_eq_getElem _ _ (by rw [hq.l4]; exact hi)]

theorem permRatio_eq (sig wires : Quad F) (omega beta gamma : F) (i : ℕ) :
    permRatio beta gamma (omega ^ i,
        (polyEval sig.p1 (omega ^ i), polyEval sig.p2 (omega ^ i), polyEval sig.p3 (omega ^ i),
          polyEval sig.p4 (omega ^ i)), (wires.p1.getD i 0, wires.p2.getD i 0, wires.p3.getD i 0,
            wires.p4.getD i 0))
      = if sigFactor sig omega beta gamma (quadW wires) i = 0 then .error .panic
        else .ok (ownFactor omega beta gamma (quadW wires) i
          * (sigFactor sig omega beta gamma (quadW wires) i)⁻¹) := by
  simp only [permRatio]
  have e1 : denIrr (wires.p1.getD i 0) (polyEval sig.p1 (omega ^ i)) beta gamma
      * denIrr (wires.p2.getD i 0) (polyEval sig.p2 (omega ^ i)) beta gamma
      * denIrr (wires.p3.getD i 0) (polyEval sig.p3 (omega ^ i)) beta gamma
      * denIrr (wires.p4.getD i 0) (polyEval sig.p4 (omega ^ i)) beta gamma
      = sigFactor sig omega beta gamma (quadW wires) i := rfl
  have e2 : numIrr (omega ^ i) (wires.p1.getD i 0) 1 beta gamma
      * numIrr (omega ^ i) (wires.p2.getD i 0) K1 beta gamma
      * numIrr (omega ^ i) (wires.p3.getD i 0) K2 beta gamma
      * numIrr (omega ^ i) (wires.p4.getD i 0) K3 beta gamma
      = ownFactor omega beta gamma (quadW wires) i := by
    simp only [numIrr, ownFactor, quadW, wireLabel, K1, K2, K3]
    ring
  rw [e1, e2]

theorem permPoly_run {D : Dom F} (hD : DomOk D) {wires : Quad F} (hq : QLen wires D.size)
    (sig : Quad F) (beta gamma : F)
    (h : ∀ i < D.size, sigFactor sig D.omega beta gamma (quadW wires) i ≠ 0) :
    ∃ z, computePermutationPoly D wires beta gamma sig = .ok z ∧ (polyOf z).degree < D.size ∧
      ∀ i < D.size, polyEval z (D.omega ^ i) = ∏ j ∈ Finset.range i,
        (ownFactor D.omega beta gamma (quadW wires) j
          * (sigFactor sig D.omega beta gamma (quadW wires) j)⁻¹) := by
  let args := (List.range D.size).map fun i => ownFactor D.omega beta gamma (quadW wires) i
    * (sigFactor sig D.omega beta gamma (quadW wires) i)⁻¹
  have hargs : args.length = D.size := by simp [args]
  have hmap : (D.elements.zip ((zip4 (⟨D.fft sig.p1, D.fft sig.p2, D.fft sig.p3, D.fft sig.p4⟩ :
      Quad F)).zip (zip4 wires))).mapM (permRatio beta gamma) = .ok args := by
    rw [permRow_eq hq]
    simp only [args]
    rw [List.mapM_map]
    apply mapM_ok
    intro i hi
    simp only [Function.comp_apply]
    rw [permRatio_eq, if_neg (h i (List.mem_range.1 hi))]
  let z := (runProduct args).eraseIdx D.size
  have hzl : z.length = D.size := by
    simp only [z]
    rw [List.length_eraseIdx, runProduct_length, hargs, if_pos (by omega)]
    omega
  refine ⟨D.ifft z, ?_, ifft_degree hD hzl, ?_⟩
  · unfold computePermutationPoly
    simp only [bind, Except.bind, hmap, assertR]
    rw [if_pos (by rw [runProduct_length, hargs]; omega), if_pos hzl]
    rfl
  · intro i hi
    rw [polyEval_eq, ifft_eval hD hzl hi]
    have : z.getD i 0 = (runProduct args).getD i 0 := by
      simp only [z, List.getD_eq_getElem?_getD]
      rw [List.getElem?_eraseIdx, if_pos hi]
    rw [this, runProduct_getD _ _ (by omega)]
    refine Finset.prod_congr rfl fun j hj => ?_
    have hj := Finset.mem_range.1 hj
    rw [List.getD_eq_getElem _ _ (by omega)]
    simp [args]

theorem permPoly_panic {D : Dom F} {wires : Quad F} (hq : QLen wires D.size)
    (sig : Quad F) (beta gamma : F)
    (h : ∃ i < D.size, sigFactor sig D.omega beta gamma (quadW wires) i = 0) :
    computePermutationPoly D wires beta gamma sig = .error .panic := by
  have hmap : (D.elements.zip ((zip4 (⟨D.fft sig.p1, D.fft sig.p2, D.fft sig.p3, D.fft sig.p4⟩ :
      Quad F)).zip (zip4 wires))).mapM (permRatio beta gamma) = .error .panic := by
    rw [permRow_eq hq, List.mapM_map]
    apply mapM_panic
    · intro i _
      simp only [Function.comp_apply]
      rw [permRatio_eq]
      split_ifs
      · exact Or.inl rfl
      · exact Or.inr ⟨_, rfl⟩
    · obtain ⟨i, hi, h0⟩ := h
      refine ⟨i, List.mem_range.2 hi, ?_⟩
      simp only [Function.comp_apply]
      rw [permRatio_eq, if_pos h0]
  unfold computePermutationPoly
  simp only [bind, Except.bind, hmap]

/-- The accumulator of values that respect the copy constraints passes the check. -/
theorem permCheck_of_run {sig : Quad F} {n : ℕ} (hn : 0 < n) {omega beta gamma : F}
    {w : WireData → F} {z : ℕ → F}
    (h : ∀ i < n, sigFactor sig omega beta gamma w i ≠ 0)
    (hz : ∀ i < n, z i = ∏ j ∈ Finset.range i,
      (ownFactor omega beta gamma w j * (sigFactor sig omega beta gamma w j)⁻¹))
    (hp : ∏ i ∈ Finset.range n, ownFactor omega beta gamma w i
      = ∏ i ∈ Finset.range n, sigFactor sig omega beta gamma w i) :
    PermCheck sig n omega beta gamma w z := by
  refine ⟨by rw [hz 0 hn]; simp, ?_⟩
  intro i hi
  have hne := h i hi
  have hstep : (∏ j ∈ Finset.range (i + 1), (ownFactor omega beta gamma w j
      * (sigFactor sig omega beta gamma w j)⁻¹)) * sigFactor sig omega beta gamma w i
      = (∏ j ∈ Finset.range i, (ownFactor omega beta gamma w j
        * (sigFactor sig omega beta gamma w j)⁻¹)) * ownFactor omega beta gamma w i := by
    rw [Finset.prod_range_succ]
    field_simp
  by_cases hl : i + 1 < n
  · rw [Nat.mod_eq_of_lt hl, hz _ hl, hz _ hi]
    exact hstep
  · have hin : i + 1 = n := by omega
    have hone : ∏ j ∈ Finset.range n, (ownFactor omega beta gamma w j
        * (sigFactor sig omega beta gamma w j)⁻¹) = 1 := by
      rw [Finset.prod_mul_distrib, Finset.prod_inv_distrib, hp, mul_inv_cancel₀]
      exact Finset.prod_ne_zero_iff.2 fun j hj => h j (Finset.mem_range.1 hj)
    rw [hin, Nat.mod_self, hz 0 hn, hz i hi, ← hstep, hin, hone]
    simp

/-- For all but few `γ` no denominator vanishes. -/
theorem sigFactor_mostly (sig : Quad F) (n : ℕ) (omega beta : F) (w : WireData → F) :
    Mostly (4 * n) fun gamma : F => ∀ i < n, sigFactor sig omega beta gamma w i ≠ 0 := by
  let v : WireData → F := fun p => match p with
    | .left i => w (.left i) + beta * polyEval sig.p1 (omega ^ i)
    | .right i => w (.right i) + beta * polyEval sig.p2 (omega ^ i)
    | .output i => w (.output i) + beta * polyEval sig.p3 (omega ^ i)
    | .fourth i => w (.fourth i) + beta * polyEval sig.p4 (omega ^ i)
  refine ⟨Finset.univ.image fun p : Pos n => -v p.1, ?_, ?_⟩
  · exact Finset.card_image_le.trans (by rw [Finset.card_univ, card_pos])
  · intro gamma hg i hi h0
    apply hg
    rw [Finset.mem_image]
    simp only [sigFactor, mul_eq_zero, or_assoc] at h0
    rcases h0 with h0 | h0 | h0 | h0
    · exact ⟨⟨.left i, hi⟩, Finset.mem_univ _, by simp only [v]; linear_combination -h0⟩
    · exact ⟨⟨.right i, hi⟩, Finset.mem_univ _, by simp only [v]; linear_combination -h0⟩
    · exact ⟨⟨.output i, hi⟩, Finset.mem_univ _, by simp only [v]; linear_combination -h0⟩
    · exact ⟨⟨.fourth i, hi⟩, Finset.mem_univ _, by simp only [v]; linear_combination -h0⟩

end VO.Plonk
