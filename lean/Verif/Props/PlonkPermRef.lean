import Verif.Model.PlonkPermRef
import Verif.Props.PlonkArgs

/-!
# C146: the three implementations of the permutation accumulator agree
-/

set_option linter.unusedSectionVars false

namespace VO

open VO.Plonk VO.Spec VO.Spec.Plonk Polynomial

variable {F : Type} [Field F] [DecidableEq F] {R : FieldRep F} {E : EdCurve F}

namespace Plonk

theorem fastRow_eq (sig wires : Quad F) (omega beta gamma : F) (i : ℕ) :
    (sigFactor sig omega beta gamma (quadW wires) i = 0 →
      fastRow beta gamma (omega ^ i,
        (polyEval sig.p1 (omega ^ i), polyEval sig.p2 (omega ^ i), polyEval sig.p3 (omega ^ i),
          polyEval sig.p4 (omega ^ i)), (wires.p1.getD i 0, wires.p2.getD i 0, wires.p3.getD i 0,
            wires.p4.getD i 0)) = .error .panic) ∧
    (sigFactor sig omega beta gamma (quadW wires) i ≠ 0 → ∃ o,
      fastRow beta gamma (omega ^ i,
        (polyEval sig.p1 (omega ^ i), polyEval sig.p2 (omega ^ i), polyEval sig.p3 (omega ^ i),
          polyEval sig.p4 (omega ^ i)), (wires.p1.getD i 0, wires.p2.getD i 0, wires.p3.getD i 0,
            wires.p4.getD i 0)) = .ok o ∧
      octProd o = ownFactor omega beta gamma (quadW wires) i
          * (sigFactor sig omega beta gamma (quadW wires) i)⁻¹) := by
  have e1 : sigFactor sig omega beta gamma (quadW wires) i =
      (wires.p1.getD i 0 + gamma + polyEval sig.p1 (omega ^ i) * beta)
      * (wires.p2.getD i 0 + gamma + polyEval sig.p2 (omega ^ i) * beta)
      * (wires.p3.getD i 0 + gamma + polyEval sig.p3 (omega ^ i) * beta)
      * (wires.p4.getD i 0 + gamma + polyEval sig.p4 (omega ^ i) * beta) := by
    simp only [sigFactor, quadW]
    ring
  have e2 : ownFactor omega beta gamma (quadW wires) i =
      (wires.p1.getD i 0 + gamma + omega ^ i * beta)
      * (wires.p2.getD i 0 + gamma + omega ^ i * beta * K1)
      * (wires.p3.getD i 0 + gamma + omega ^ i * beta * K2)
      * (wires.p4.getD i 0 + gamma + omega ^ i * beta * K3) := by
    simp only [ownFactor, quadW, wireLabel, K1, K2, K3]
    ring
  rw [e1, e2]
  constructor
  · intro h
    simp only [mul_eq_zero, or_assoc] at h
    unfold fastRow invR
    rcases h with h | h | h | h
    · simp only [h, bind, Except.bind, if_true]
    · simp only [h, bind, Except.bind]
      split_ifs <;> rfl
    · simp only [h, bind, Except.bind]
      split_ifs <;> rfl
    · simp only [h, bind, Except.bind]
      split_ifs <;> rfl
  · intro h
    simp only [ne_eq, mul_eq_zero, not_or] at h
    obtain ⟨⟨⟨h1, h2⟩, h3⟩, h4⟩ := h
    unfold fastRow invR
    simp only [if_neg h1, if_neg h2, if_neg h3, if_neg h4, bind, Except.bind, pure, Except.pure]
    refine ⟨_, rfl, ?_⟩
    simp only [octProd, mul_inv]
    ring

theorem octProd_mul (p q : Oct F) : octProd (octMul p q) = octProd p * octProd q := by
  simp only [octProd, octMul]
  ring

theorem fastScan_prod (prev : Oct F) (l : List (Oct F)) :
    (fastScan prev l).map octProd = scanAcc (· * ·) (octProd prev) (l.map octProd) := by
  induction l generalizing prev with
  | nil => rfl
  | cons x l ih => simp only [fastScan, List.map_cons, scanAcc, ih, octProd_mul]

theorem fastRun_prod (l : List (Oct F)) :
    (fastScan octOnes (octOnes :: l)).map octProd = runProduct (l.map octProd) := by
  rw [fastScan_prod]
  simp [octProd, octOnes, scanAcc, runProduct]

/-- The values of the accumulator. -/
def accVals (D : Dom F) (wires : Quad F) (beta gamma : F) (sig : Quad F) : List F :=
  (List.range D.size).map fun i => ∏ j ∈ Finset.range i,
    (ownFactor D.omega beta gamma (quadW wires) j
      * (sigFactor sig D.omega beta gamma (quadW wires) j)⁻¹)

theorem runProduct_acc (D : Dom F) (wires : Quad F) (beta gamma : F) (sig : Quad F) :
    (runProduct ((List.range D.size).map fun i => ownFactor D.omega beta gamma (quadW wires) i
      * (sigFactor sig D.omega beta gamma (quadW wires) i)⁻¹)).eraseIdx D.size
      = accVals D wires beta gamma sig := by
  apply List.ext_getElem
  · rw [List.length_eraseIdx, runProduct_length]
    simp [accVals]
  · intro i h1 h2
    have hi : i < D.size := by simpa [accVals] using h2
    rw [List.getElem_eraseIdx, dif_pos hi, ← List.getD_eq_getElem _ 0, runProduct_getD _ _ (by simp; omega)]
    simp only [accVals, List.getElem_map, List.getElem_range]
    refine Finset.prod_congr rfl fun j hj => ?_
    have hj := Finset.mem_range.1 hj
    rw [List.getD_eq_getElem _ _ (by simp; omega)]
    simp

theorem fast_ok {D : Dom F} {wires : Quad F} (hq : QLen wires D.size) {sig : Quad F} {beta gamma : F}
    (h : ∀ i < D.size, sigFactor sig D.omega beta gamma (quadW wires) i ≠ 0) :
    computeFastPermutationPoly D wires beta gamma sig = .ok (accVals D wires beta gamma sig) := by
  have : Inhabited (Oct F) := ⟨octOnes⟩
  choose! o h1 h2 using fun i (hi : i < D.size) => (fastRow_eq sig wires D.omega beta gamma i).2 (h i hi)
  have hmap : (D.elements.zip ((zip4 (⟨D.fft sig.p1, D.fft sig.p2, D.fft sig.p3, D.fft sig.p4⟩ :
      Quad F)).zip (zip4 wires))).mapM (fastRow beta gamma) = .ok ((List.range D.size).map o) := by
    rw [permRow_eq hq, List.mapM_map]
    apply mapM_ok
    intro i hi
    simp only [Function.comp_apply]
    exact h1 i (List.mem_range.1 hi)
  have hz : (fastScan octOnes (octOnes :: (List.range D.size).map o)).map octProd
      = runProduct ((List.range D.size).map fun i => ownFactor D.omega beta gamma (quadW wires) i
      * (sigFactor sig D.omega beta gamma (quadW wires) i)⁻¹) := by
    rw [fastRun_prod]
    congr 1
    rw [List.map_map]
    refine List.map_congr_left fun i hi => ?_
    exact h2 i (List.mem_range.1 hi)
  unfold computeFastPermutationPoly
  simp only [bind, Except.bind, hmap, assertR]
  rw [hz, runProduct_acc, if_pos (by rw [runProduct_length]; simp), if_pos (by simp [accVals])]
  rfl

theorem fast_panic {D : Dom F} {wires : Quad F} (hq : QLen wires D.size) {sig : Quad F} {beta gamma : F}
    (h : ∃ i < D.size, sigFactor sig D.omega beta gamma (quadW wires) i = 0) :
    computeFastPermutationPoly D wires beta gamma sig = .error .panic := by
  have hmap : (D.elements.zip ((zip4 (⟨D.fft sig.p1, D.fft sig.p2, D.fft sig.p3, D.fft sig.p4⟩ :
      Quad F)).zip (zip4 wires))).mapM (fastRow beta gamma) = .error .panic := by
    rw [permRow_eq hq, List.mapM_map]
    apply mapM_panic
    · intro i _
      simp only [Function.comp_apply]
      by_cases h0 : sigFactor sig D.omega beta gamma (quadW wires) i = 0
      · exact Or.inl ((fastRow_eq sig wires D.omega beta gamma i).1 h0)
      · obtain ⟨o, h1, -⟩ := (fastRow_eq sig wires D.omega beta gamma i).2 h0
        exact Or.inr ⟨o, h1⟩
    · obtain ⟨i, hi, h0⟩ := h
      refine ⟨i, List.mem_range.2 hi, ?_⟩
      simp only [Function.comp_apply]
      exact (fastRow_eq sig wires D.omega beta gamma i).1 h0
  unfold computeFastPermutationPoly
  simp only [bind, Except.bind, hmap]

theorem main_ok {D : Dom F} {wires : Quad F} (hq : QLen wires D.size) {sig : Quad F} {beta gamma : F}
    (h : ∀ i < D.size, sigFactor sig D.omega beta gamma (quadW wires) i ≠ 0) :
    computePermutationPoly D wires beta gamma sig = .ok (D.ifft (accVals D wires beta gamma sig)) := by
  have hmap : (D.elements.zip ((zip4 (⟨D.fft sig.p1, D.fft sig.p2, D.fft sig.p3, D.fft sig.p4⟩ :
      Quad F)).zip (zip4 wires))).mapM (permRatio beta gamma) = .ok ((List.range D.size).map fun i =>
        ownFactor D.omega beta gamma (quadW wires) i
        * (sigFactor sig D.omega beta gamma (quadW wires) i)⁻¹) := by
    rw [permRow_eq hq, List.mapM_map]
    apply mapM_ok
    intro i hi
    simp only [Function.comp_apply]
    rw [permRatio_eq, if_neg (h i (List.mem_range.1 hi))]
  unfold computePermutationPoly
  simp only [bind, Except.bind, hmap, assertR]
  rw [runProduct_acc, if_pos (by rw [runProduct_length]; simp), if_pos (by simp [accVals])]
  rfl

/-! The slow implementation. -/

theorem slowNums_eq {D : Dom F} {wires : Quad F} (hq : QLen wires D.size) (beta gamma : F) :
    ((zip4 wires).zip D.elements).map (slowNum beta gamma)
      = (List.range D.size).map (ownFactor D.omega beta gamma (quadW wires)) := by
  apply List.ext_getElem
  · simp [zip4, Dom.elements, hq.l1, hq.l2, hq.l3, hq.l4]
  · intro i h1 h2
    have hi : i < D.size := by simpa using h2
    simp only [List.getElem_map, List.getElem_zip, zip4, Dom.elements, List.getElem_range, slowNum,
      ownFactor, quadW, wireLabel, K1, K2, K3]
    rw [List.getD_eq_getElem _ _ (by rw [hq.l1]; exact hi),
      List.getD_eq_getElem _ _ (by rw [hq.l2]; exact hi),
      List.getD_eq_getElem _ _ (by rw [hq.l3]; exact hi),
      List.getD_eq_getElem _ _ (by rw [hq.l4]; exact hi)]
    ring

theorem slowDens_eq {D : Dom F} {wires : Quad F} (hq : QLen wires D.size) (sig : Quad F)
    (beta gamma : F) :
    ((zip4 wires).zip (zip4 (⟨D.fft sig.p1, D.fft sig.p2, D.fft sig.p3, D.fft sig.p4⟩ :
      Quad F))).map (slowDen beta gamma)
      = (List.range D.size).map (sigFactor sig D.omega beta gamma (quadW wires)) := by
  apply List.ext_getElem
  · simp [zip4, Dom.fft, dft, hq.l1, hq.l2, hq.l3, hq.l4]
  · intro i h1 h2
    have hi : i < D.size := by simpa using h2
    simp only [List.getElem_map, List.getElem_zip, zip4, Dom.fft, dft, List.getElem_range, slowDen,
      sigFactor, quadW]
    rw [List.getD_eq_getElem _ _ (by rw [hq.l1]; exact hi),
      List.getD_eq_getElem _ _ (by rw [hq.l2]; exact hi),
      List.getD_eq_getElem _ _ (by rw [hq.l3]; exact hi),
      List.getD_eq_getElem _ _ (by rw [hq.l4]; exact hi)]
    ring

theorem coeffsOf_eq (l : List F) : coeffsOf l = runProduct l := by
  have : ∀ (a : F), l.scanl (fun last prod => prod * last) a = a :: scanAcc (· * ·) a l := by
    induction l with
    | nil => intro a; rfl
    | cons x l ih =>
      intro a
      rw [List.scanl_cons, ih, scanAcc, mul_comm]
  exact this 1

theorem runProduct_range (n : ℕ) (f : ℕ → F) :
    runProduct ((List.range n).map f) = (List.range (n + 1)).map fun i => ∏ j ∈ Finset.range i, f j := by
  apply List.ext_getElem
  · rw [runProduct_length]; simp
  · intro i h1 h2
    have hi : i < n + 1 := by simpa using h2
    rw [← List.getD_eq_getElem _ 0, runProduct_getD _ _ (by simp; omega)]
    simp only [List.getElem_map, List.getElem_range]
    refine Finset.prod_congr rfl fun j hj => ?_
    have hj := Finset.mem_range.1 hj
    rw [List.getD_eq_getElem _ _ (by simp; omega)]
    simp

theorem erase_last (n : ℕ) (g : ℕ → F) :
    ((List.range (n + 1)).map g).eraseIdx n = (List.range n).map g := by
  apply List.ext_getElem
  · rw [List.length_eraseIdx]; simp
  · intro i h1 h2
    have hi : i < n := by simpa using h2
    rw [List.getElem_eraseIdx, dif_pos hi]
    simp

theorem last_range (n : ℕ) (g : ℕ → F) : ((List.range (n + 1)).map g).getLastD 0 = g n := by
  rw [List.range_succ, List.map_append]
  simp

theorem slow_run {D : Dom F} {wires : Quad F} (hq : QLen wires D.size) (sig : Quad F)
    (beta gamma : F) :
    (((∀ i < D.size, ownFactor D.omega beta gamma (quadW wires) i ≠ 0) ∧
      (∀ i < D.size, sigFactor sig D.omega beta gamma (quadW wires) i ≠ 0) ∧
      ∏ i ∈ Finset.range D.size, ownFactor D.omega beta gamma (quadW wires) i
        = ∏ i ∈ Finset.range D.size, sigFactor sig D.omega beta gamma (quadW wires) i) →
      computeSlowPermutationPoly D wires beta gamma sig = .ok (accVals D wires beta gamma sig,
        (List.range D.size).map (ownFactor D.omega beta gamma (quadW wires)),
        (List.range D.size).map (sigFactor sig D.omega beta gamma (quadW wires)))) ∧
    (¬ ((∀ i < D.size, ownFactor D.omega beta gamma (quadW wires) i ≠ 0) ∧
      (∀ i < D.size, sigFactor sig D.omega beta gamma (quadW wires) i ≠ 0) ∧
      ∏ i ∈ Finset.range D.size, ownFactor D.omega beta gamma (quadW wires) i
        = ∏ i ∈ Finset.range D.size, sigFactor sig D.omega beta gamma (quadW wires) i) →
      computeSlowPermutationPoly D wires beta gamma sig = .error .panic) := by
  have ha : (∀ i < D.size, ownFactor D.omega beta gamma (quadW wires) i ≠ 0) ↔
      ∏ i ∈ Finset.range D.size, ownFactor D.omega beta gamma (quadW wires) i ≠ 0 := by
    rw [Finset.prod_ne_zero_iff]; simp
  have hb : (∀ i < D.size, sigFactor sig D.omega beta gamma (quadW wires) i ≠ 0) ↔
      ∏ i ∈ Finset.range D.size, sigFactor sig D.omega beta gamma (quadW wires) i ≠ 0 := by
    rw [Finset.prod_ne_zero_iff]; simp
  have hz : (∀ i < D.size, sigFactor sig D.omega beta gamma (quadW wires) i ≠ 0) →
      (((List.range D.size).map fun i => ∏ j ∈ Finset.range i, ownFactor D.omega beta gamma (quadW wires) j).zip
      ((List.range D.size).map fun i => ∏ j ∈ Finset.range i,
        sigFactor sig D.omega beta gamma (quadW wires) j)).mapM (fun e => (do
          let i ← invR e.2
          return e.1 * i : Except Err F)) = .ok (accVals D wires beta gamma sig) := by
    intro h
    rw [List.zip_map', List.mapM_map]
    apply mapM_ok
    intro i hi
    have hi := List.mem_range.1 hi
    have : ∏ j ∈ Finset.range i, sigFactor sig D.omega beta gamma (quadW wires) j ≠ 0 :=
      Finset.prod_ne_zero_iff.2 fun j hj => h j ((Finset.mem_range.1 hj).trans hi)
    simp only [Function.comp_apply, invR, if_neg this, bind, Except.bind, pure, Except.pure]
    rw [Finset.prod_mul_distrib, Finset.prod_inv_distrib]
  unfold computeSlowPermutationPoly
  simp only [slowNums_eq hq, slowDens_eq hq, coeffsOf_eq, runProduct_range, erase_last, last_range,
    assertR, bind, Except.bind, List.length_map, List.length_range, if_true]
  constructor
  · rintro ⟨h1, h2, h3⟩
    have h4 := hb.1 h2
    rw [if_pos (ha.1 h1), if_pos h4]
    simp only [invR, if_neg h4]
    rw [if_pos (by rw [h3, mul_inv_cancel₀ h4])]
    simp only []
    have := hz h2
    simp only [invR, bind, Except.bind] at this
    rw [this]
    simp only [accVals, List.length_map, List.length_range, if_true]
    rfl
  · intro h
    split_ifs with h1 h2
    · simp only [invR, if_neg h2]
      rw [if_neg]
      intro h3
      refine h ⟨ha.2 h1, hb.2 h2, ?_⟩
      have := congrArg (· * ∏ i ∈ Finset.range D.size, sigFactor sig D.omega beta gamma (quadW wires) i) h3
      simpa [mul_assoc, inv_mul_cancel₀ h2] using this
    all_goals rfl

end Plonk

/-- **C146.** `compute_permutation_poly` interpolates exactly the values that
`compute_fast_permutation_poly` returns and panics exactly when it does; the value at row `i` is the
product of the ratios of the rows before it. -/
theorem C146_fast {D : Dom F} {wires : Quad F} (hq : QLen wires D.size) (sig : Quad F)
    (beta gamma : F) :
    computePermutationPoly D wires beta gamma sig
      = (computeFastPermutationPoly D wires beta gamma sig).map D.ifft ∧
    ((∃ i < D.size, sigFactor sig D.omega beta gamma (quadW wires) i = 0) →
      computeFastPermutationPoly D wires beta gamma sig = .error .panic) ∧
    ((∀ i < D.size, sigFactor sig D.omega beta gamma (quadW wires) i ≠ 0) →
      computeFastPermutationPoly D wires beta gamma sig = .ok ((List.range D.size).map fun i =>
        ∏ j ∈ Finset.range i, (ownFactor D.omega beta gamma (quadW wires) j
          * (sigFactor sig D.omega beta gamma (quadW wires) j)⁻¹))) := by
  refine ⟨?_, fast_panic hq, fast_ok hq⟩
  by_cases h : ∀ i < D.size, sigFactor sig D.omega beta gamma (quadW wires) i ≠ 0
  · rw [main_ok hq h, fast_ok hq h]
    rfl
  · push Not at h
    rw [permPoly_panic hq sig beta gamma h, fast_panic hq h]
    rfl

/-- **C146 (slow).** `compute_slow_permutation_poly` returns the same values, with the numerator and
the denominator of every row, exactly when no factor is zero and the two products over all rows are
equal; otherwise one of its assertions panics. -/
theorem C146_slow {D : Dom F} {wires : Quad F} (hq : QLen wires D.size) (sig : Quad F)
    (beta gamma : F) :
    (∀ z nums dens, computeSlowPermutationPoly D wires beta gamma sig = .ok (z, nums, dens) ↔
      (computeFastPermutationPoly D wires beta gamma sig = .ok z ∧
        nums = (List.range D.size).map (ownFactor D.omega beta gamma (quadW wires)) ∧
        dens = (List.range D.size).map (sigFactor sig D.omega beta gamma (quadW wires)) ∧
        (∀ x ∈ nums, x ≠ 0) ∧ nums.prod = dens.prod)) ∧
    ((¬ ∃ r, computeSlowPermutationPoly D wires beta gamma sig = .ok r) →
      computeSlowPermutationPoly D wires beta gamma sig = .error .panic) := by
  obtain ⟨s1, s2⟩ := slow_run hq sig beta gamma
  have hprod : ∀ f : ℕ → F, ((List.range D.size).map f).prod = ∏ i ∈ Finset.range D.size, f i := by
    intro f
    rw [Finset.prod_range, List.prod_ofFn.symm, List.ofFn_eq_map]
    congr 1
    apply List.ext_getElem <;> simp
  constructor
  · intro z nums dens
    by_cases h : (∀ i < D.size, ownFactor D.omega beta gamma (quadW wires) i ≠ 0) ∧
      (∀ i < D.size, sigFactor sig D.omega beta gamma (quadW wires) i ≠ 0) ∧
      ∏ i ∈ Finset.range D.size, ownFactor D.omega beta gamma (quadW wires) i
        = ∏ i ∈ Finset.range D.size, sigFactor sig D.omega beta gamma (quadW wires) i
    · rw [s1 h, fast_ok hq h.2.1]
      simp only [Except.ok.injEq, Prod.mk.injEq]
      constructor
      · rintro ⟨rfl, rfl, rfl⟩
        refine ⟨rfl, rfl, rfl, ?_, by rw [hprod, hprod, h.2.2]⟩
        intro x hx
        obtain ⟨i, hi, rfl⟩ := List.mem_map.1 hx
        exact h.1 i (List.mem_range.1 hi)
      · rintro ⟨rfl, rfl, rfl, -⟩
        exact ⟨rfl, rfl, rfl⟩
    · rw [s2 h]
      constructor
      · intro h'; cases h'
      · rintro ⟨h1, rfl, rfl, h4, h5⟩
        refine absurd ⟨fun i hi => h4 _ (List.mem_map.2 ⟨i, List.mem_range.2 hi, rfl⟩), ?_,
          by rw [← hprod, ← hprod, h5]⟩ h
        by_contra h6
        push Not at h6
        rw [fast_panic hq h6] at h1
        cases h1
  · intro h
    by_contra h'
    by_cases h6 : (∀ i < D.size, ownFactor D.omega beta gamma (quadW wires) i ≠ 0) ∧
      (∀ i < D.size, sigFactor sig D.omega beta gamma (quadW wires) i ≠ 0) ∧
      ∏ i ∈ Finset.range D.size, ownFactor D.omega beta gamma (quadW wires) i
        = ∏ i ∈ Finset.range D.size, sigFactor sig D.omega beta gamma (quadW wires) i
    · exact h ⟨_, s1 h6⟩
    · exact h' (s2 h6)

/-- **C146 (circuits).** On the sigma polynomials of a circuit the assertion of
`compute_slow_permutation_poly` tells whether the wires respect the copy constraints: if they do it
returns for all but `4n` values of `γ`, whatever `β` is; if they do not it panics for all but `4n`
values of `β` and `4n` of `γ`. -/
theorem C146_circuit {c : Composer F} (h : Reach R E c) {L : List (List WireData)}
    (hL : L.Perm c.perm) {D : Dom F} (hD : DomOk D) (hn : c.n ≤ D.size) {sig : Quad F}
    (hsig : computeSigmaPolynomials L D.size D = .ok sig) {wires : Quad F}
    (hq : QLen wires D.size) :
    (CopyOk c (quadW wires) → ∀ beta, Mostly (4 * D.size) fun gamma : F =>
      ∃ z nums dens, computeSlowPermutationPoly D wires beta gamma sig = .ok (z, nums, dens) ∧
        computePermutationPoly D wires beta gamma sig = .ok (D.ifft z)) ∧
    (¬ CopyOk c (quadW wires) → Mostly (4 * D.size) fun beta : F => Mostly (4 * D.size) fun gamma : F =>
      computeSlowPermutationPoly D wires beta gamma sig = .error .panic) := by
  constructor
  · intro hc beta
    obtain ⟨s, sig', e1, e2, hs⟩ := sigmaPolys_run hD (Reach.wf h) hL hn
    rw [hsig] at e2
    simp only [Except.ok.injEq] at e2
    subst e2
    obtain ⟨B, hB, hB'⟩ := sigFactor_mostly sig D.size D.omega beta (quadW wires)
    refine ⟨B, hB, fun gamma hg => ?_⟩
    have h0 := hB' gamma hg
    have hp := perm_prod_eq (Reach.wf h) hL hn e1 hs hc beta gamma
    have ho : ∀ i < D.size, ownFactor D.omega beta gamma (quadW wires) i ≠ 0 := by
      have : ∏ i ∈ Finset.range D.size, ownFactor D.omega beta gamma (quadW wires) i ≠ 0 := by
        rw [hp, Finset.prod_ne_zero_iff]
        exact fun i hi => h0 i (Finset.mem_range.1 hi)
      exact fun i hi => Finset.prod_ne_zero_iff.1 this i (Finset.mem_range.2 hi)
    exact ⟨_, _, _, (slow_run hq sig beta gamma).1 ⟨ho, h0, hp⟩, main_ok hq h0⟩
  · intro hc
    obtain ⟨B, hB, hB'⟩ := C101_sound h hL hD hn hsig hc
    refine ⟨B, hB, fun beta hb => ?_⟩
    obtain ⟨G, hG, hG'⟩ := hB' beta hb
    refine ⟨G, hG, fun gamma hg => ?_⟩
    refine (slow_run hq sig beta gamma).2 ?_
    rintro ⟨-, h2, h3⟩
    exact hG' gamma hg (fun i => ∏ j ∈ Finset.range i, (ownFactor D.omega beta gamma (quadW wires) j
      * (sigFactor sig D.omega beta gamma (quadW wires) j)⁻¹))
      (permCheck_of_run hD.pos h2 (fun _ _ => rfl) h3)

/-- The three on a new composer for some challenges. -/
example : (match newComposer (F := K7681) (1, 2, 3, 4) (5, 6, 7, 8) with
    | .ok c => match computeSigmaPolynomials c.perm 8 D8 with
      | .ok sig =>
        let w : Quad K7681 := ⟨(List.range 8).map fun i => ownW c (.left i),
          (List.range 8).map fun i => ownW c (.right i), (List.range 8).map fun i => ownW c (.output i),
          (List.range 8).map fun i => ownW c (.fourth i)⟩
        (match computeSlowPermutationPoly D8 w 3 4 sig, computeFastPermutationPoly D8 w 3 4 sig,
            computePermutationPoly D8 w 3 4 sig with
        | .ok (z, _), .ok z', .ok p => decide (z = z' ∧ p = D8.ifft z ∧ z.getD 2 0 ≠ 1)
        | _, _, _ => false) &&
        (match computeSlowPermutationPoly D8 { w with p1 := [9, 9, 9, 9, 9, 9, 9, 9] } 3 4 sig with
        | .ok _ => false
        | .error _ => true)
      | .error _ => false
    | .error _ => false) = true := by decide +kernel

end VO
