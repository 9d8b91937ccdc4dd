import Verif.Lemmas.FibonacciRun
import Verif.Props.Hadamard
import Verif.Lemmas.SnarkExample

set_option linter.unusedSectionVars false

/-
Theorems about the Fibonacci SNARK (C37-C40).
-/

namespace VO
open Spec
open Polynomial (X toLaurent)
open LaurentPolynomial (T)

variable {F G1 G2 GT : Type} [Field F] [DecidableEq F]
  [AddCommGroup G1] [Module F G1] [DecidableEq G1] [AddCommGroup G2] [Module F G2]
  [AddCommGroup GT] [Module F GT] [DecidableEq GT]

/-- **C37.** Completeness of the Fibonacci SNARK, for every size `n ≥ 2`, coefficient vector,
instance, satisfying witness, hash function, blinding values, trapdoor and maximal degree
`D ≥ n + 2`.  Let `W`, `P`, `R`, `P1` be the committed polynomials, `α`, `ω` the hashes of their
commitments, `H1`, `H2` the (unique) polynomials with
`Σ A_j(ω/T) B_j(T) = T^{-(n+2)} H1 + T H2`, `z` the hash after them and `G` the final
polynomial.  If `z ∉ {0, 1, ω}` and none of `W`, `P`, `R`, `G` is constant, `prove` succeeds and
`verify` accepts the proof; in every other case `prove` panics. -/
theorem C37_complete (env : Env F G1 G2 GT) (hf : FftOk env.fft) (β : F) (g : G1) (h : G2) (D : ℕ)
    (pp : UniversalParams G1 G2) (hs : kzgSetup D β g h = .ok pp) (n : ℕ) (hn : 2 ≤ n)
    (hD : n + 2 ≤ D) (t : List F) (ht : t.length = n)
    (hfft : 2 * n + 1 ≤ 2 ^ env.fft.twoAdicity) (x : FibInstance F) (w : List F)
    (hw : w.length = n)
    (hrel : FibHolds n (fun i => t.getD i 0) x.a x.b x.c (fun i => w.getD i 0)) :
    ∃ pk vk, fibIndex pp ⟨n, t⟩ = .ok (pk, vk) ∧
      let W := fibWPoly w (env.rngF 0)
      let P := polyOf t
      let R := fibRPoly n (fun i => t.getD i 0) (fun i => w.getD i 0) (env.rngF 1)
      let P1 := Polynomial.C (env.rngF 2)
      let cm := fun p : Polynomial F => (Item.cm (p.eval β • g) : Item F G1)
      let α := env.hash [.fld 1, cm P, cm W, cm R]
      let ω := env.hash [.fld 1, cm P, cm W, cm R, cm P1]
      ∃ H1 H2 : Polynomial F, H1.degree < ((n + 2 : ℕ) : WithBot ℕ) ∧
        H2.degree < ((n + 2 : ℕ) : WithBot ℕ) ∧
        hadamardLaurent ω (fibPolys n x.a x.b x.c α W P R P1)
          = T (-((n + 2 : ℕ) : ℤ)) * toLaurent H1 + T 1 * toLaurent H2 ∧
        let Ĥ1 := X ^ (D + 1 - (n + 2)) * H1
        let z := env.hash [.fld 1, cm P, cm W, cm R, cm P1, cm Ĥ1, cm H2]
        let G := fibGPoly n (D + 1) x.a x.b x.c α ω z (W.eval (ω / z)) (P.eval (ω / z))
          (R.eval (ω / z)) P P1 Ĥ1 H2
        let good := (z ≠ 0 ∧ z ≠ 1 ∧ z ≠ ω) ∧ W.natDegree ≠ 0 ∧ P.natDegree ≠ 0 ∧
          R.natDegree ≠ 0 ∧ G.natDegree ≠ 0
        (good → ∃ π, fibProve env pk x w = .ok π ∧ fibVerify env vk x π = .ok ()) ∧
        (¬ good → fibProve env pk x w = .error .panic) := by
  obtain ⟨kvk, hvk, hidx⟩ := fibIndex_ok β g h D pp hs n t ht (by omega) hD
  refine ⟨_, _, hidx, ?_⟩
  intro W P R P1 cm α ω
  obtain ⟨r, hr1, hr2, hr3⟩ := fibR_ok env.rngF n (by omega) w t hw ht
  obtain ⟨ht1l, ht1p⟩ := fibT1_ok env.rngF n α (w ++ [env.rngF 0]) r t ht
  set t1 := fibT1 env.rngF n α (w ++ [env.rngF 0]) r t with ht1
  have hwl : (w ++ [env.rngF 0]).length = n + 1 := by simp [hw]
  set s : FibRun F := ⟨n, x.a, x.b, x.c, α, ω, w ++ [env.rngF 0], t, r, t1⟩ with hsdef
  have hgood : s.Good := by
    refine ⟨hn, hwl, hr2, ht, ?_⟩
    rw [ht1p]; exact degLt_C _ 4 (by omega)
  have hpolys : s.polys = fibPolys n x.a x.b x.c α W P R P1 := by
    show fibPolys n x.a x.b x.c α (polyOf (w ++ [env.rngF 0])) (polyOf t) (polyOf r) (polyOf t1) = _
    rw [hr3, ht1p]; rfl
  have hentry : ∀ i, hadamardEntry s.polys i = 0 := by
    intro i
    rw [hpolys]
    refine fib_entries_zero n hn _ _ _ _ _ W P R ?_ ?_ ?_ i
    · rw [← ht]; exact degree_polyOf_lt t
    · have hWc : ∀ i, i < n → W.coeff i = w.getD i 0 := by
        intro i hi
        show (polyOf (w ++ [env.rngF 0])).coeff i = _
        rw [coeff_polyOf, List.getD_append _ _ _ _ (by omega)]
      obtain ⟨f0, f1, f2, f3⟩ := hrel
      have hPc : ∀ i, P.coeff i = t.getD i 0 := fun i => coeff_polyOf t i
      refine ⟨?_, ?_, ?_, ?_⟩
      · rw [hWc 0 (by omega), hPc]; exact f0
      · rw [hWc 1 (by omega), hWc 0 (by omega), hPc]; exact f1
      · intro i hi
        rw [hWc (i + 2) hi, hWc i (by omega), hWc (i + 1) (by omega), hPc]; exact f2 i hi
      · rw [hWc (n - 1) (by omega)]; exact f3
    · intro i hi
      show (fibRPoly n _ _ _).coeff i = _
      rw [fibRPoly, Polynomial.coeff_add, Polynomial.finsetSum_coeff]
      simp only [Polynomial.coeff_C_mul_X_pow]
      rw [Finset.sum_ite_eq, if_pos (Finset.mem_range.mpr hi), if_neg (c := i = n) (by omega), add_zero]
      by_cases h0 : i = 0
      · rw [if_pos h0, if_pos h0]
      · rw [if_neg h0, if_neg h0]
        show _ = (polyOf (w ++ [env.rngF 0])).coeff (i - 1) * (polyOf t).coeff i
        rw [coeff_polyOf, coeff_polyOf, List.getD_append _ _ _ _ (by omega)]
  have hp := s.pairRep hgood
  have ha := s.atimesbRep hgood
  have hh := s.hAtRep hgood
  have hid := hadamard_identity (2 + n) ω s.polys (PairRep.degA hp) (PairRep.degB hp)
    (s.hAt s.derived) hh hentry
  set h1 := hVec1 (2 + n) (s.hAt s.derived) with hh1
  set h2 := hVec2 (2 + n) (s.hAt s.derived) with hh2
  have l1 : h1.length = 2 + n := length_hVec1 _ _
  have l2 : h2.length = 2 + n := length_hVec2 _ _
  have d1 := degree_polyOf_lt h1
  have d2 := degree_polyOf_lt h2
  rw [l1, add_comm] at d1; rw [l2, add_comm] at d2
  refine ⟨polyOf h1, polyOf h2, d1, d2, by rw [← hpolys, hid, add_comm 2 n], ?_⟩
  intro Ĥ1 z G good
  have hne1 : h1 ≠ [] := by intro h; simp [h] at l1; omega
  have hne2 : h2 ≠ [] := by intro h; simp [h] at l2; omega
  have hcW : commitVector (srs β g D) (w ++ [env.rngF 0]) (n + 1) = .ok (W.eval β • g) :=
    commitVector_ok' β g D _ _ (by simp) hwl (by omega)
  have hcR : commitVector (srs β g D) r (n + 1) = .ok (R.eval β • g) := by
    rw [commitVector_ok' β g D _ _ (by intro h; simp [h] at hr2) hr2 (by omega), hr3]
  have hcT1 : commitVector (srs β g D) t1 (2 + 2) = .ok (P1.eval β • g) := by
    have := (C23_vector_commitment β g D t1 (2 + 2) (by intro h; simp [h] at ht1l)).2.1
      (by rw [ht1l]; omega) (by rw [ht1l]; omega)
    rw [commitVector, this, ht1p]; rfl
  have hcH1 : commitVector (srs β g D) h1 (D + 1) = .ok (Ĥ1.eval β • g) := by
    rw [commitVector_ok β g D _ _ hne1 (by omega) (by omega), l1, add_comm 2 n]
  have hcH2 : commitVector (srs β g D) h2 (2 + n) = .ok ((polyOf h2).eval β • g) :=
    commitVector_ok' β g D _ _ hne2 l2 (by omega)
  have hα : fibAlpha env (P.eval β • g) (W.eval β • g) (R.eval β • g) = α := rfl
  have hω : fibOmega env (P.eval β • g) (W.eval β • g) (R.eval β • g) (P1.eval β • g) = ω := rfl
  have hz : fibZ env (P.eval β • g) (W.eval β • g) (R.eval β • g) (P1.eval β • g) (Ĥ1.eval β • g)
    ((polyOf h2).eval β • g) = z := rfl
  have hder : s.derive env.fft = .ok s.derived :=
    s.derive_ok env.fft hf (by rw [show s.w.length = n + 1 from hwl, show s.t.length = n from ht]; omega)
  have hdb1 : debugChecks1 (2 + n) ω s.pairs (s.atimesb s.derived) (s.hAt s.derived) = .ok () :=
    debugChecks1_ok (2 + n) ω s.pairs s.polys _ _ hp ha hh hentry
  have en : ((n : ℤ) + 1) = ((n + 1 : ℕ) : ℤ) := by push_cast; rfl
  have hy : ∀ u, evalVectorExpression u ((n : ℤ) + 1) (fun i => vectorIndex (w ++ [env.rngF 0]) i)
      = W.eval u := by
    intro u
    rw [en, (rep_vec _).eval (n + 1) (hwl ▸ degree_polyOf_lt _)]; rfl
  have hy1 : ∀ u, evalVectorExpression u ((n : ℤ) + 1) (fun i => vectorIndex t i) = P.eval u := by
    intro u
    rw [en, (rep_vec _).eval (n + 1) (degLt_mono (degree_polyOf_lt _) (by omega))]
  have hy2 : ∀ u, evalVectorExpression u ((n : ℤ) + 1) (fun i => vectorIndex r i) = R.eval u := by
    intro u
    rw [en, (rep_vec _).eval (n + 1) (hr2 ▸ degree_polyOf_lt _), hr3]
  unfold fibProve
  have hPP : polyOf t = P := rfl
  simp only [fibW_ok env.rngF n w hw, hr1, hcW, hcR, hPP, hα, ← ht1, hcT1, hω, bind, Except.bind]
  simp only [← hsdef, hder, hdb1, ← hh1, ← hh2, hcH1, hcH2, hz, hy, hy1, hy2]
  by_cases hz0 : z = 0
  · refine ⟨fun hg => absurd hz0 hg.1.1, fun _ => ?_⟩
    rw [hz0, divR_zero]
  rw [divR_ok hz0]
  dsimp only
  by_cases hzo : z = ω
  · refine ⟨fun hg => absurd hzo hg.1.2.2, fun _ => ?_⟩
    have hce : s.closedEvals z (W.eval (ω / z)) (P.eval (ω / z)) (R.eval (ω / z)) = .error .panic := by
      have h1' : power z 2 ≠ 0 := by rw [power_two]; exact pow_ne_zero _ hz0
      have h3 : power z 2 * (s.omega - 1 * z) = 0 := by
        rw [one_mul, show s.omega = ω from rfl, hzo, sub_self, mul_zero]
      simp only [FibRun.closedEvals, divR_ok hz0, divR_ok h1', h3, divR_zero, bind, Except.bind]
    rw [hce]
  have hsp : s.closedEvals z (W.eval (ω / z)) (P.eval (ω / z)) (R.eval (ω / z))
      = .ok (s.polys.map (fun q => q.1.eval (ω / z))) := by
    have := closedEvals_ok s hgood z hz0 hzo
    rw [show polyOf s.r = R from hr3] at this
    exact this
  have hdb2 := debugChecks2_ok (2 + n) ω s.pairs s.polys (s.hAt s.derived) hp hh z hz0
    (s.polys.map (fun q => q.1.eval (ω / z))) rfl
  rw [hsp]
  simp only [hdb2]
  by_cases hz1 : z = 1
  · refine ⟨fun hg => absurd hz1 hg.1.2.1, fun _ => ?_⟩
    rw [fibCoeffs_bad n (D + 1) x α ω z _ _ _ (Or.inr (Or.inl hz1))]
  rw [fibCoeffs_ok n (D + 1) hn x α ω z _ _ _ hz0 hz1 hzo]
  obtain ⟨gv, hg1, hg2, hg3⟩ := fibGvec_ok n D hD t t1 h1 h2 (by omega)
    (by rw [ht1p]; exact degLt_C _ 4 (by omega)) hn l1 l2 x.a x.b x.c α ω z (W.eval (ω / z))
    (P.eval (ω / z)) (R.eval (ω / z))
  have hG : polyOf gv = G := by rw [hg3, ht1p]
  have hcmg := fibK_eval n (D + 1) x.a x.b x.c α ω z (W.eval (ω / z)) (P.eval (ω / z))
    (R.eval (ω / z)) β P P1 Ĥ1 (polyOf h2) g
  have hvkg : kvk.g = g := hvk.1
  have hcG : commitVector (srs β g D) gv (D + 1) = .ok (G.eval β • g) := by
    rw [commitVector_ok' β g D _ _ (by intro h; simp [h] at hg2) hg2 (by omega), hG]
  have hGz : G.eval z = 0 := by
    show (fibGPoly n (D + 1) x.a x.b x.c α ω z (W.eval (ω / z)) (P.eval (ω / z))
      (R.eval (ω / z)) P P1 Ĥ1 (polyOf h2)).eval z = 0
    rw [fibG_eval, ← hpolys, eval_identity (2 + n) ω s.polys _ _ hid z hz0, Polynomial.eval_mul,
      Polynomial.eval_pow, Polynomial.eval_X]
    have h3 : z ^ (D + 1) = z ^ (D + 1 - (n + 2)) * z ^ (2 + n) := by
      rw [← pow_add]; congr 1; omega
    have h4 : z ^ (2 + n) ≠ 0 := pow_ne_zero _ hz0
    have h5 : z ^ (D + 1 - (n + 2)) ≠ 0 := pow_ne_zero _ hz0
    rw [h3]
    field_simp
    ring
  have hnaive := naiveG_eval (2 + n) (D + 1) (by omega) ω s.pairs s.polys hp h1 h2 l1 l2 hid z hz0
    (s.polys.map (fun q => q.1.eval (ω / z))) rfl
  have hnaive' : checkPolyEval (polyFromVec (naiveG (2 + n) (D + 1) z
      (s.polys.map (fun q => q.1.eval (ω / z))) s.pairs h1 h2)) z 0 = .ok () := by
    rw [checkPolyEval, hnaive, if_pos rfl]
  have hgz := checkPolyEval_ok gv z 0 (by rw [hG, hGz])
  simp only [hg1, hvkg, ← hcmg, hcG, hnaive', hgz, assertR]
  simp only [show (fibGPoly n (D + 1) x.a x.b x.c α ω z (W.eval (ω / z)) (P.eval (ω / z))
      (R.eval (ω / z)) P P1 Ĥ1 (polyOf h2)) = G from rfl, if_true]
  set xi := fibXi env 1 (P.eval β • g) (W.eval β • g) (R.eval β • g) (P1.eval β • g)
    (Ĥ1.eval β • g) ((polyOf h2).eval β • g) (G.eval β • g) (ω / z) (W.eval (ω / z))
    (P.eval (ω / z)) (R.eval (ω / z)) z with hxi
  set xi2 := fibXi env 2 (P.eval β • g) (W.eval β • g) (R.eval β • g) (P1.eval β • g)
    (Ĥ1.eval β • g) ((polyOf h2).eval β • g) (G.eval β • g) (ω / z) (W.eval (ω / z))
    (P.eval (ω / z)) (R.eval (ω / z)) z with hxi2
  have hlist : ([polyFromVec (w ++ [env.rngF 0]), polyFromVec t, polyFromVec r] : List (List F))
    = [w ++ [env.rngF 0], t, r].map polyFromVec := rfl
  have hlistg : ([polyFromVec gv] : List (List F)) = [gv].map polyFromVec := rfl
  have dW : W.natDegree ≤ D := by
    have := natDegree_polyOf_lt (w ++ [env.rngF 0]) (by simp)
    show (polyOf (w ++ [env.rngF 0])).natDegree ≤ D
    omega
  have dP : P.natDegree ≤ D := by
    have := natDegree_polyOf_lt t (by intro h; simp [h] at ht; omega)
    show (polyOf t).natDegree ≤ D
    omega
  have dR : (polyOf r).natDegree ≤ D := by
    have := natDegree_polyOf_lt r (by intro h; simp [h] at hr2)
    omega
  have dG : (polyOf gv).natDegree ≤ D := by
    have := natDegree_polyOf_lt gv (by intro h; simp [h] at hg2)
    omega
  rw [hlist, hlistg]
  constructor
  · rintro ⟨-, gW, gP, gR, gG⟩
    obtain ⟨w1, w2, ho, hc⟩ := C21_batch_complete env.e β g h D kvk hvk
      [w ++ [env.rngF 0], t, r] [gv] (ω / z) z xi xi2 env.rngU128 (by
        intro f hm
        simp only [List.cons_append, List.nil_append, List.mem_cons, List.not_mem_nil,
          or_false] at hm
        rcases hm with rfl | rfl | rfl | rfl
        · exact ⟨gW, dW⟩
        · exact ⟨gP, dP⟩
        · exact ⟨by rw [hr3]; exact gR, dR⟩
        · exact ⟨by rw [hG]; exact gG, dG⟩)
    rw [ho]
    refine ⟨_, rfl, ?_⟩
    simp only [fibVerify, hα, hω, hz, fibCoeffs_ok n (D + 1) hn x α ω z _ _ _ hz0 hz1 hzo, bind,
      Except.bind, divR_ok hz0, hvkg, ← hcmg]
    have hc' : batchCheck env.e kvk [W.eval β • g, P.eval β • g, R.eval β • g] [G.eval β • g]
        (ω / z) z xi xi2 [W.eval (ω / z), P.eval (ω / z), R.eval (ω / z)] [0] w1 w2 env.rngU128
        = true := by
      simp only [List.map_cons, List.map_nil, hG, hGz, hr3] at hc
      exact hc
    exact if_pos hc'
  · intro hbad
    have hpanic := C21_batch_constant_aborts β g D [w ++ [env.rngF 0], t, r] [gv] (ω / z) z xi xi2
      (by
        intro f hm
        simp only [List.cons_append, List.nil_append, List.mem_cons, List.not_mem_nil,
          or_false] at hm
        rcases hm with rfl | rfl | rfl | rfl
        · exact dW
        · exact dP
        · exact dR
        · exact dG)
      (by
        by_contra hc
        push Not at hc
        apply hbad
        refine ⟨⟨hz0, hz1, hzo⟩, hc (w ++ [env.rngF 0]) (by simp), hc t (by simp), ?_, ?_⟩
        · have := hc r (by simp); rwa [hr3] at this
        · have := hc gv (by simp); rwa [hG] at this)
    rw [hpanic]

/-! The hypotheses of C37 hold for `n = 3`, `t = (1, 2, 3)`, `a = 4`, `b = 5`, `w = (9, 23, 78)`
over the field with 97 elements, and the run there is not degenerate. -/

/-- Keys, proof and verification of a concrete run. -/
def fibRun97 (n : ℕ) (t : List K97) (x : FibInstance K97) (w : List K97) : Res Unit := do
  let pp ← kzgSetup 20 (33 : K97) (1 : K97) (1 : K97)
  let keys ← fibIndex pp ⟨n, t⟩
  let π ← fibProve env97 keys.1 x w
  fibVerify env97 keys.2 x π

example : FftOk env97.fft ∧ 2 * 3 + 1 ≤ 2 ^ env97.fft.twoAdicity := ⟨fftOk97, by decide⟩

example : FibHolds 3 (fun i => ([1, 2, 3] : List K97).getD i 0) 4 5 78
    (fun i => ([9, 23, 78] : List K97).getD i 0) := by
  refine ⟨by decide, by decide, ?_, by decide⟩
  intro i hi
  obtain rfl : i = 0 := by omega
  decide

example : fibRun97 3 [1, 2, 3] ⟨4, 5, 78⟩ [9, 23, 78] = .ok () := by decide +kernel

/-- With a wrong result the prover panics. -/
example : fibRun97 3 [1, 2, 3] ⟨4, 5, 77⟩ [9, 23, 78] ≠ .ok () := by decide +kernel

/-- A coefficient vector with no non-zero entry after the first makes the honest prover panic. -/
example : fibRun97 3 [1, 0, 0] ⟨4, 5, 9⟩ [9, 5, 9] = .error .panic := by decide +kernel

end VO
