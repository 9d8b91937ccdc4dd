import Verif.Lemmas.ProverOk
import Verif.Lemmas.HadamardChecks
import Verif.Model.Fibonacci
import Verif.Model.RangeCheck

set_option linter.unusedSectionVars false

/-
C81 for the Fibonacci and range-check SNARKs: a proof returned by `prove` is accepted by `verify`,
whatever the witness.
-/

namespace VO
open Spec
open Polynomial (X)

variable {F G1 G2 GT : Type} [Field F] [DecidableEq F]
  [AddCommGroup G1] [Module F G1] [DecidableEq G1] [AddCommGroup G2] [Module F G2]
  [AddCommGroup GT] [Module F GT] [DecidableEq GT]

/-- **C81 (Fibonacci).** For every setup, system whose vector has the declared size, instance and
witness (satisfying or not), hash function, blinding values and FFT constants: if `prove` returns a
proof, `verify` accepts it. -/
theorem C81_fibonacci (env : Env F G1 G2 GT) (τ : F) (g : G1) (h : G2) (D : ℕ)
    (pp : UniversalParams G1 G2) (hs : kzgSetup D τ g h = .ok pp) (cs : Fibonacci F)
    (hlen : cs.t.length = cs.n) (pk : FibPK F G1 G2) (vk : FibVK G1 G2)
    (hidx : fibIndex pp cs = .ok (pk, vk)) (x : FibInstance F) (w : List F) (π : FibProof F G1)
    (hok : fibProve env pk x w = .ok π) : fibVerify env vk x π = .ok () := by
  obtain ⟨hp, kvk, hkvk, hvk⟩ := setup_inv hs
  unfold fibIndex at hidx
  obtain ⟨_, ha, hidx⟩ := bind_ok hidx
  obtain ⟨cmT, hcT, hidx⟩ := bind_ok hidx
  obtain ⟨kvk', hkv', hidx⟩ := bind_ok hidx
  rw [hkvk] at hkv'
  obtain rfl := Except.ok.inj hkv'
  obtain ⟨rfl, rfl⟩ := Prod.mk.inj (Except.ok.inj hidx)
  have ha := assertR_ok ha
  rw [hp, length_srs] at ha
  rw [hp] at hcT hok
  unfold fibProve at hok
  simp only [hp, length_srs] at hok ⊢
  obtain ⟨wv, hw, hok⟩ := bind_ok hok
  obtain ⟨cmW, hcW, hok⟩ := bind_ok hok
  obtain ⟨rv, hrv, hok⟩ := bind_ok hok
  obtain ⟨cmR, hcR, hok⟩ := bind_ok hok
  obtain ⟨cmT1, hcT1, hok⟩ := bind_ok hok
  obtain ⟨d, hd, hok⟩ := bind_ok hok
  obtain ⟨_, -, hok⟩ := bind_ok hok
  obtain ⟨cmH1, hcH1, hok⟩ := bind_ok hok
  obtain ⟨cmH2, hcH2, hok⟩ := bind_ok hok
  obtain ⟨oz, hoz, hok⟩ := bind_ok hok
  obtain ⟨evals, -, hok⟩ := bind_ok hok
  obtain ⟨_, -, hok⟩ := bind_ok hok
  obtain ⟨k, hk, hok⟩ := bind_ok hok
  obtain ⟨gv, hgv, hok⟩ := bind_ok hok
  obtain ⟨cmG', hcG, hok⟩ := bind_ok hok
  obtain ⟨_, hG, hok⟩ := bind_ok hok
  obtain ⟨_, -, hok⟩ := bind_ok hok
  obtain ⟨_, hchk, hok⟩ := bind_ok hok
  obtain ⟨⟨capW, capW1⟩, hbo, hok⟩ := bind_ok hok
  obtain rfl := Except.ok.inj hok
  have hG := assertR_ok hG
  have lw : wv.length = cs.n + 1 := zeroPadAndConcat_inv rfl hw
  have lr : rv.length = cs.n + 1 := zeroPadAndConcat_inv rfl hrv
  have lg : gv.length = D + 1 := by
    rw [addToFirstItem_inv hgv, length_expressionVector]; omega
  have bT := (commitVector_inv hcT).2.1
  have bW := (commitVector_inv hcW).2.1
  have bR := (commitVector_inv hcR).2.1
  have eT := commitVector_inv' hcT hlen.ge
  have eW := commitVector_inv' hcW lw.ge
  have eR := commitVector_inv' hcR lr.ge
  have eG := commitVector_inv' hcG lg.ge
  rw [← hG] at eG
  have hGz := checkPolyEval_inv hchk
  have hchkB := batchOpen_inv env.e hvk (fs := [wv, cs.t, rv]) (gs := [gv]) (r := env.rngU128) hbo (by
    intro f hf
    simp only [List.cons_append, List.nil_append, List.mem_cons, List.not_mem_nil, or_false] at hf
    rcases hf with rfl | rfl | rfl | rfl <;> omega)
  have ey : ∀ v : List F, v.length ≤ cs.n + 1 → ∀ a,
      evalVectorExpression a ((cs.n : ℤ) + 1) (fun i => vectorIndex v i) = (polyOf v).eval a := by
    intro v hv a
    have := (rep_vec v).eval (cs.n + 1) (degLt_mono (degree_polyOf_lt v) hv) a
    push_cast at this
    exact this
  simp only [List.map_cons, List.map_nil, ← eT, ← eW, ← eR, ← eG, hGz, ← ey wv (by omega) oz,
    ← ey cs.t (by omega) oz, ← ey rv (by omega) oz] at hchkB
  simp only [fibVerify, hoz, hk, bind, Except.bind]
  exact if_pos hchkB

/-- **C81 (range check).** For every setup, size, range and witness (in range or not), hash function,
blinding values and FFT constants: if `prove` returns a proof, `verify` accepts it. -/
theorem C81_range_check (env : Env F G1 G2 GT) (τ : F) (g : G1) (h : G2) (D : ℕ)
    (pp : UniversalParams G1 G2) (hs : kzgSetup D τ g h = .ok pp) (cs : RangeCheck)
    (pk : RcPK F G1 G2) (vk : RcVK G1 G2) (hidx : rcIndex pp cs = .ok (pk, vk)) (w : List F)
    (π : RcProof F G1) (hok : rcProve env pk w = .ok π) : rcVerify env vk π = .ok () := by
  obtain ⟨hp, kvk, hkvk, hvk⟩ := setup_inv hs
  unfold rcIndex at hidx
  obtain ⟨_, ha, hidx⟩ := bind_ok hidx
  obtain ⟨cmT, hcT, hidx⟩ := bind_ok hidx
  obtain ⟨kvk', hkv', hidx⟩ := bind_ok hidx
  rw [hkvk] at hkv'
  obtain rfl := Except.ok.inj hkv'
  obtain ⟨rfl, rfl⟩ := Prod.mk.inj (Except.ok.inj hidx)
  rw [hp] at hcT hok
  unfold rcProve at hok
  simp only [hp, length_srs] at hok ⊢
  obtain ⟨wv, hw, hok⟩ := bind_ok hok
  obtain ⟨cmW, hcW, hok⟩ := bind_ok hok
  obtain ⟨mv, hm, hok⟩ := bind_ok hok
  obtain ⟨cmM, hcM, hok⟩ := bind_ok hok
  obtain ⟨rv, hrv, hok⟩ := bind_ok hok
  obtain ⟨cmR, hcR, hok⟩ := bind_ok hok
  obtain ⟨sv, hsv, hok⟩ := bind_ok hok
  obtain ⟨cmS, hcS, hok⟩ := bind_ok hok
  obtain ⟨cmRt, hcRt, hok⟩ := bind_ok hok
  obtain ⟨cmT1, hcT1, hok⟩ := bind_ok hok
  obtain ⟨d, hd, hok⟩ := bind_ok hok
  obtain ⟨_, -, hok⟩ := bind_ok hok
  obtain ⟨cmH1, hcH1, hok⟩ := bind_ok hok
  obtain ⟨cmH2, hcH2, hok⟩ := bind_ok hok
  obtain ⟨oz, hoz, hok⟩ := bind_ok hok
  obtain ⟨evals, -, hok⟩ := bind_ok hok
  obtain ⟨_, -, hok⟩ := bind_ok hok
  obtain ⟨k, hk, hok⟩ := bind_ok hok
  obtain ⟨gv, hgv, hok⟩ := bind_ok hok
  obtain ⟨cmG', hcG, hok⟩ := bind_ok hok
  obtain ⟨_, hG, hok⟩ := bind_ok hok
  obtain ⟨_, -, hok⟩ := bind_ok hok
  obtain ⟨_, hchk, hok⟩ := bind_ok hok
  obtain ⟨⟨capW, capW1⟩, hbo, hok⟩ := bind_ok hok
  obtain rfl := Except.ok.inj hok
  have hG := assertR_ok hG
  have lr : rv.length = cs.n + 1 := zeroPadAndConcat_inv rfl hrv
  have ls : sv.length = cs.n + 1 := zeroPadAndConcat_inv rfl hsv
  have lm : mv.length = cs.n + 1 := zeroPadAndConcat_inv rfl hm
  have lg : gv.length = D + 1 := by
    rw [addToFirstItem_inv hgv, length_expressionVector]; omega
  have bR := (commitVector_inv hcR).2.1
  have bS := (commitVector_inv hcS).2.1
  have bM := (commitVector_inv hcM).2.1
  have eR := commitVector_inv' hcR lr.ge
  have eS := commitVector_inv' hcS ls.ge
  have eM := commitVector_inv' hcM lm.ge
  have eG := commitVector_inv' hcG lg.ge
  rw [← hG] at eG
  have hGz := checkPolyEval_inv hchk
  have hchkB := batchOpen_inv env.e hvk (fs := [rv, sv, mv]) (gs := [gv]) (r := env.rngU128) hbo (by
    intro f hf
    simp only [List.cons_append, List.nil_append, List.mem_cons, List.not_mem_nil, or_false] at hf
    rcases hf with rfl | rfl | rfl | rfl <;> omega)
  have ey : ∀ v : List F, v.length ≤ cs.n + 1 → ∀ a,
      evalVectorExpression a ((cs.n : ℤ) + 1) (fun i => vectorIndex v i) = (polyOf v).eval a := by
    intro v hv a
    have := (rep_vec v).eval (cs.n + 1) (degLt_mono (degree_polyOf_lt v) hv) a
    push_cast at this
    exact this
  simp only [List.map_cons, List.map_nil, ← eR, ← eS, ← eM, ← eG, hGz, ← ey rv (by omega) oz,
    ← ey sv (by omega) oz, ← ey mv (by omega) oz] at hchkB
  simp only [rcVerify, hoz, hk, bind, Except.bind]
  exact if_pos hchkB

end VO
