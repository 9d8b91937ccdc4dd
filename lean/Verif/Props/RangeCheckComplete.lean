import Verif.Props.RangeCheck

set_option linter.unusedSectionVars false

/-
Completeness of the range-check SNARK (C45), under the condition the prover's own checks impose.
-/

namespace VO
open Spec
open Polynomial (X toLaurent)
open LaurentPolynomial (T)

variable {F G1 G2 GT : Type} [Field F] [DecidableEq F]
  [AddCommGroup G1] [Module F G1] [DecidableEq G1] [AddCommGroup G2] [Module F G2]
  [AddCommGroup GT] [Module F GT] [DecidableEq GT]

theorem RangeCheck.n_eq (cs : RangeCheck) (h : cs.lookupSize ≤ cs.range) : cs.n = cs.range :=
  max_eq_right h

theorem multOf_congr (N B : ℕ) (w t t' : ℕ → F) (h : ∀ i, i < B → t i = t' i) :
    multOf N B w t = multOf N B w t' := by
  funext i
  unfold multOf
  by_cases hi : i < B
  · rw [if_pos hi, if_pos hi, h i hi]
  · rw [if_neg hi, if_neg hi]

theorem invOf_congr (B : ℕ) (β : F) (t t' : ℕ → F) (h : ∀ i, i < B → t i = t' i) :
    invOf B β t = invOf B β t' := by
  funext i
  unfold invOf
  by_cases hi : i < B
  · rw [if_pos hi, if_pos hi, h i hi]
  · rw [if_neg hi, if_neg hi]

set_option maxHeartbeats 2000000 in
/-- **C45.** Completeness of the range-check SNARK when the fifth blinding value is zero (the case
in which the prover's own checks can pass, see `C45_prover_aborts`), for every `1 ≤ N ≤ B` with
`0, …, B-1` distinct in the field, witness in range, hash function, other blinding values, trapdoor
and maximal degree `D ≥ max(B, 2)`.  Let `W`, `M`, `R`, `S`, `A`, `P1` be the committed polynomials,
`β`, `α`, `ω` the hashes, and suppose `w_j + β ≠ 0` for all `j < N` and `ω ≠ 0`.  With `H1`, `H2`
the polynomials such that `Σ A_j(ω/T) B_j(T) = T^{-n} H1 + T H2`, `z` the hash after them and `G` the
final polynomial: if `z ∉ {0, 1, ω}` and none of `R`, `S`, `M`, `G` is constant, `prove` succeeds and
`verify` accepts the proof; in every other case `prove` panics. -/
theorem C45_complete (env : Env F G1 G2 GT) (hf : FftOk env.fft) (τ : F) (g : G1) (h : G2) (D : ℕ)
    (pp : UniversalParams G1 G2) (hs : kzgSetup D τ g h = .ok pp) (cs : RangeCheck)
    (hN : 1 ≤ cs.lookupSize) (hNB : cs.lookupSize ≤ cs.range) (hD : cs.range ≤ D) (hD2 : 2 ≤ D)
    (hinj : ∀ i j : ℕ, i < cs.range → j < cs.range → (i : F) = (j : F) → i = j)
    (hfft : 2 * cs.range + 2 ≤ 2 ^ env.fft.twoAdicity) (w : List F) (hw : w.length ≤ cs.range)
    (hrel : InRangeHolds cs.lookupSize cs.range (fun i => w.getD i 0)) (hδ : env.rngF 4 = 0) :
    ∃ pk vk, rcIndex (F := F) pp cs = .ok (pk, vk) ∧
      let N := cs.lookupSize
      let n := cs.range
      let wf := fun i => w.getD i 0
      let tf := fun i : ℕ => (i : F)
      let mf := multOf N n wf tf
      let cm := fun p : Polynomial F => (Item.cm (p.eval τ • g) : Item F G1)
      let W := blindVec n wf (env.rngF 0)
      let P : Polynomial F := tablePoly n
      let M := blindVec n mf (env.rngF 1)
      let β := env.hash [.fld 1, cm P, cm W, cm M]
      let R := blindVec n (invOf N β wf) (env.rngF 2)
      let S := blindVec n (fun i => invOf n β tf i * mf i) (env.rngF 3)
      let A := blindVec n (runSum N n β wf tf mf) 0
      let α := env.hash [.fld 1, cm P, cm W, cm M, cm R, cm S, cm A]
      let P1 := blindPoly n 1 (env.rngF 5) (rcBase N n n α β W P M R S A)
      let ω := env.hash [.fld 1, cm P, cm W, cm M, cm R, cm S, cm A, cm P1]
      (∀ j, j < N → wf j + β ≠ 0) → ω ≠ 0 →
      ∃ H1 H2 : Polynomial F, H1.degree < ((n : ℕ) : WithBot ℕ) ∧
        H2.degree < ((n : ℕ) : WithBot ℕ) ∧
        hadamardLaurent ω (rcPolys N n n α β W P M R S A P1)
          = T (-((n : ℕ) : ℤ)) * toLaurent H1 + T 1 * toLaurent H2 ∧
        let Ĥ1 := X ^ (D + 1 - n) * H1
        let z := env.hash [.fld 1, cm P, cm W, cm M, cm R, cm S, cm A, cm P1, cm Ĥ1, cm H2]
        let G := rcGPoly N n n (D + 1) α β ω z (R.eval (ω / z)) (S.eval (ω / z))
          (M.eval (ω / z)) W P A P1 Ĥ1 H2
        let good := (z ≠ 0 ∧ z ≠ 1 ∧ z ≠ ω) ∧ R.natDegree ≠ 0 ∧ S.natDegree ≠ 0 ∧
          M.natDegree ≠ 0 ∧ G.natDegree ≠ 0
        (good → ∃ π, rcProve env pk w = .ok π ∧ rcVerify env vk π = .ok ()) ∧
        (¬ good → rcProve env pk w = .error .panic) := by
  have hcn := cs.n_eq hNB
  obtain ⟨kvk, hvk, hidx⟩ := rcIndex_ok (F := F) τ g h D pp hs cs (by omega) (by omega)
  rw [show cs.lookupSize - cs.range = 0 by omega, pow_zero, one_mul] at hidx
  refine ⟨_, _, hidx, ?_⟩
  intro N n wf tf mf cm W P M β R S A α P1 ω hβ hω0
  have hn1 : 1 ≤ n := by show 1 ≤ cs.range; omega
  -- the vectors
  have htg : ∀ i, i < n → (fun j => (rcTable cs.range : List F).getD j 0) i = tf i := by
    intro i hi
    beta_reduce
    rw [getD_rcTable, if_pos hi]
  obtain ⟨wv, w1, w2, w3, w4⟩ := rcW_ok env.rngF cs.n w (by omega)
  obtain ⟨mv, m1, m2, m3, m4⟩ := rcM_ok env.rngF cs w wv (rcTable cs.range) w4
  rw [multOf_congr _ _ _ _ tf htg] at m3 m4
  obtain ⟨rv, r1, r2, r3, r4⟩ := rcR_ok env.rngF cs β w wv w2 w4
  obtain ⟨sv, s1, s2, s3, s4⟩ := rcS_ok env.rngF cs β (rcTable cs.range) mv mf
    (length_rcTable _) m2 m4
  rw [invOf_congr _ _ _ tf htg] at s3 s4
  obtain ⟨a2, a3⟩ := rcRt_ok env.rngF cs β (rcBeta1 env (P.eval τ • g) (W.eval τ • g) (M.eval τ • g)
    (R.eval τ • g) (S.eval τ • g)) rv sv wf tf mf r4 s4
  set rt := rcRt env.rngF cs (rcBeta1 env (P.eval τ • g) (W.eval τ • g) (M.eval τ • g)
    (R.eval τ • g) (S.eval τ • g)) rv sv with hrt
  rw [hδ] at a3
  rw [hcn] at w1 w2 w3 m2 m3 r2 r3 s2 s3 a2 a3
  have w3' : polyOf wv = W := w3
  have m3' : polyOf mv = M := m3
  have r3' : polyOf rv = R := r3
  have s3' : polyOf sv = S := s3
  have a3' : polyOf rt = A := a3
  have t3' : polyOf (rcTable cs.range : List F) = P := polyOf_rcTable _
  set t1 := rcT1 env.rngF cs α β wv (rcTable cs.range) mv rv sv rt with ht1
  set s : RcRun F := ⟨cs, α, β, ω, wv, rcTable cs.range, mv, rv, sv, rt, t1⟩ with hsdef
  have hbase : s.base = rcBase N n n α β W P M R S A := by
    show rcBase cs.lookupSize cs.range cs.n α β (polyOf wv) (polyOf (rcTable cs.range : List F))
      (polyOf mv) (polyOf rv) (polyOf sv) (polyOf rt) = _
    rw [hcn, w3', m3', r3', s3', a3', t3']
  have hgood0 : ({s with t1 := []} : RcRun F).Good := by
    refine ⟨hN, by show 1 ≤ cs.range; omega, ?_, length_rcTable _, ?_, ?_, ?_, ?_⟩
    · show wv.length = cs.n + 1; omega
    · show mv.length = cs.n + 1; omega
    · show rv.length = cs.n + 1; omega
    · show sv.length = cs.n + 1; omega
    · show (polyOf ([] : List F)).degree < _
      rw [polyOf_nil, Polynomial.degree_zero]; exact WithBot.bot_lt_coe _
  have hhigh : ∀ j, 1 ≤ j → hadamardEntry s.base (n + j) = 0 := fun j hj =>
    RcRun.base_high _ hgood0 _ (by show cs.n + 1 ≤ cs.range + j; omega)
  obtain ⟨ht1l, ht1p⟩ : t1.length = 3 ∧ polyOf t1 = P1 := by
    have h1 := rcT1_eq env.rngF ({s with t1 := []} : RcRun F) hgood0
    refine ⟨h1.1, h1.2.trans ?_⟩
    show blindPoly cs.n 1 (env.rngF 5) s.base = _
    rw [hbase, hcn]
  have hdt1 : (polyOf t1).degree < ((2 : ℕ) : WithBot ℕ) := by
    rw [ht1p]; exact degree_blindPoly n 1 1 _ _ (by rw [← hbase]; exact hhigh)
  have hgood : s.Good := ⟨hgood0.1, hgood0.2, hgood0.3, hgood0.4, hgood0.5, hgood0.6, hgood0.7, hdt1⟩
  have hpolys : s.polys = rcPolys N n n α β W P M R S A P1 := by
    show rcBase cs.lookupSize cs.range cs.n α β (polyOf wv) (polyOf (rcTable cs.range : List F))
      (polyOf mv) (polyOf rv) (polyOf sv) (polyOf rt) ++ [blindPair cs.n 1 (polyOf t1)] = _
    rw [hcn, w3', m3', r3', s3', a3', t3', ht1p]; rfl
  have hlt : ∀ i, i < n → hadamardEntry s.polys i = 0 := by
    rw [hpolys]
    refine rc_entries_lt N n n hn1 hNB le_rfl α β wf tf hinj hrel hβ W P M R S A P1 ?_ ?_ ?_ ?_ ?_ ?_
    · intro i hi; rw [coeff_blindVec, if_pos hi]
    · intro i hi; rw [coeff_tablePoly, if_pos hi]
    · intro i hi; rw [coeff_blindVec, if_pos hi]
    · intro i hi; rw [coeff_blindVec, if_pos hi]
    · intro i hi; rw [coeff_blindVec, if_pos hi]
    · intro i hi; rw [coeff_blindVec, if_pos hi]
  have hentry : ∀ i, hadamardEntry s.polys i = 0 := by
    intro i
    rw [hpolys]
    show hadamardEntry (rcBase N n n α β W P M R S A ++ [blindPair n 1 P1]) i = 0
    apply entries_blind_zero n 1 hn1
    · intro i hi
      rw [← entries_blind_lt n 1 hn1 P1 _ i hi]
      have := hlt i hi
      rwa [hpolys] at this
    · intro i hi
      rw [← hbase]
      have := hhigh (i - n) (by omega)
      rwa [show n + (i - n) = i by omega] at this
  have hsn : s.cs.n = n := hcn
  have drt : (polyOf s.rt).degree < ((s.cs.n : ℕ) : WithBot ℕ) := by
    rw [hsn]
    show (polyOf rt).degree < _
    rw [a3']; exact degree_blindVec_zero n _
  have hp := s.pairRep hgood drt
  have ha := s.atimesbRep hgood hω0
  have hh := s.hAtRep hgood hω0
  rw [hsn] at hp
  have hid := hadamard_identity n ω s.polys (PairRep.degA hp) (PairRep.degB hp)
    (s.hAt s.derived) hh hentry
  set h1 := hVec1 n (s.hAt s.derived) with hh1
  set h2 := hVec2 n (s.hAt s.derived) with hh2
  have l1 : h1.length = n := length_hVec1 _ _
  have l2 : h2.length = n := length_hVec2 _ _
  have d1 := degree_polyOf_lt h1
  have d2 := degree_polyOf_lt h2
  rw [l1] at d1; rw [l2] at d2
  refine ⟨polyOf h1, polyOf h2, d1, d2, by rw [← hpolys, hid], ?_⟩
  have hne1 : h1 ≠ [] := by intro h; rw [h] at l1; simp at l1; omega
  have hne2 : h2 ≠ [] := by intro h; rw [h] at l2; simp at l2; omega
  have hnD : n ≤ D := hD
  intro Ĥ1 z G good
  have hcV : ∀ (v : List F) (V : Polynomial F), v.length = n + 1 → polyOf v = V →
      commitVector (srs τ g D) v (n + 1) = .ok (V.eval τ • g) := by
    intro v V hl hV
    rw [← hV]
    exact commitVector_ok' τ g D _ _ (by intro h; rw [h] at hl; simp at hl)
      hl (by omega)
  have hcW := hcV wv W w2 w3'
  have hcM := hcV mv M m2 m3'
  have hcR := hcV rv R r2 r3'
  have hcS := hcV sv S s2 s3'
  have hcA := hcV rt A a2 a3'
  have hcT1 : commitVector (srs τ g D) t1 (0 + 2) = .ok (P1.eval τ • g) := by
    have := (C23_vector_commitment τ g D t1 (0 + 2) (by intro h; rw [h] at ht1l; simp at ht1l)).2.1
      (by rw [ht1l]; norm_num) (by rw [ht1l]; omega)
    rw [commitVector, this, ht1p]; rfl
  have hcH1 : commitVector (srs τ g D) h1 (D + 1) = .ok (Ĥ1.eval τ • g) := by
    rw [commitVector_ok τ g D _ _ hne1 (by omega) (by omega), l1]
  have hcH2 : commitVector (srs τ g D) h2 n = .ok ((polyOf h2).eval τ • g) :=
    commitVector_ok' τ g D _ _ hne2 l2 (by omega)
  have hβ' : rcBeta env (P.eval τ • g) (W.eval τ • g) (M.eval τ • g) = β := rfl
  have hα : rcAlpha env (P.eval τ • g) (W.eval τ • g) (M.eval τ • g) (R.eval τ • g) (S.eval τ • g)
    (A.eval τ • g) = α := rfl
  have hω : rcOmega env (P.eval τ • g) (W.eval τ • g) (M.eval τ • g) (R.eval τ • g) (S.eval τ • g)
    (A.eval τ • g) (P1.eval τ • g) = ω := rfl
  have hz : rcZ env (P.eval τ • g) (W.eval τ • g) (M.eval τ • g) (R.eval τ • g) (S.eval τ • g)
    (A.eval τ • g) (P1.eval τ • g) (Ĥ1.eval τ • g) ((polyOf h2).eval τ • g) = z := rfl
  have hder : s.derive env.fft = .ok s.derived := s.derive_ok env.fft hf hgood (by rw [hsn]; exact hfft)
  have hdb1 : debugChecks1 n ω s.pairs (s.atimesb s.derived) (s.hAt s.derived) = .ok () :=
    debugChecks1_ok n ω s.pairs s.polys _ _ hp ha hh hentry
  have hy : ∀ (v : List F) (V : Polynomial F), v.length = n + 1 → polyOf v = V → ∀ u,
      evalVectorExpression u ((n : ℤ) + 1) (fun i => vectorIndex v i) = V.eval u := by
    intro v V hl hV u
    rw [show ((n : ℤ) + 1) = ((n + 1 : ℕ) : ℤ) by push_cast; rfl,
      (rep_vec _).eval (n + 1) (hl ▸ degree_polyOf_lt _), hV]
  have hyr := hy rv R r2 r3'
  have hys := hy sv S s2 s3'
  have hym := hy mv M m2 m3'
  have hPP : (tablePoly n : Polynomial F) = P := rfl
  have hw1 : rcW env.rngF n w = .ok wv := w1
  have hrn : cs.range = n := rfl
  rw [hrn] at m1 s1
  have hst : s = ⟨cs, α, β, ω, wv, rcTable n, mv, rv, sv, rt, t1⟩ := rfl
  have ht1' : rcT1 env.rngF cs α β wv (rcTable n) mv rv sv rt = t1 := rfl
  clear_value s t1 rt
  unfold rcProve
  simp only [hcn, hrn, hPP]
  simp only [hw1, hcW, m1, hcM, hβ', r1, hcR, s1, hcS, ← hrt, hcA, hα, ht1', hcT1, hω, ← hst, hder,
    hdb1, ← hh1, ← hh2, hcH1, hcH2, hz, hyr, hys, hym, bind, Except.bind]
  have hso : s.omega = ω := by rw [hst]
  have hsr : polyOf s.r = R := by rw [hst]; exact r3'
  have hss : polyOf s.s = S := by rw [hst]; exact s3'
  have hsm : polyOf s.m = M := by rw [hst]; exact m3'
  by_cases hz0 : z = 0
  · refine ⟨fun hg => absurd hz0 hg.1.1, fun _ => ?_⟩
    rw [hz0, divR_zero]
  rw [divR_ok hz0]
  dsimp only
  by_cases hzo : z = ω
  · refine ⟨fun hg => absurd hzo hg.1.2.2, fun _ => ?_⟩
    have hce : s.closedEvals z (R.eval (ω / z)) (S.eval (ω / z)) (M.eval (ω / z))
        = .error .panic := by
      have h3 : s.omega - 1 * z = 0 := by rw [one_mul, hso, hzo, sub_self]
      simp only [RcRun.closedEvals, divR_ok hz0, h3, divR_zero, bind, Except.bind]
    rw [hce]
  have hsp : s.closedEvals z (R.eval (ω / z)) (S.eval (ω / z)) (M.eval (ω / z))
      = .ok (s.polys.map (fun q => q.1.eval (ω / z))) := by
    have := rcClosedEvals_ok s hgood (by rw [hso]; exact hω0) z hz0 (by rw [hso]; exact hzo)
    rw [hsr, hss, hsm, hso] at this
    exact this
  have hdb2 := debugChecks2_ok n ω s.pairs s.polys (s.hAt s.derived) hp (hso ▸ hh) z hz0
    (s.polys.map (fun q => q.1.eval (ω / z))) rfl
  rw [hsp]
  simp only [hdb2]
  by_cases hz1 : z = 1
  · refine ⟨fun hg => absurd hz1 hg.1.2.1, fun _ => ?_⟩
    rw [rcCoeffs_bad cs (D + 1) α β ω z _ _ _ (Or.inr (Or.inl hz1))]
  have hK := fun y y1 y2 => rcCoeffs_ok cs hN (D + 1) α β ω z y y1 y2 (Or.inr hω0) hz0 hz1 hzo
  rw [hcn] at hK
  obtain ⟨gv, hg1, hg2, hg3⟩ := rcGvec_ok N n n D hnD wv (rcTable n) rt t1 h1 h2 (by rw [w2]; exact Nat.succ_le_succ hnD)
    (by rw [length_rcTable]; exact Nat.le_succ_of_le hnD) (by rw [a2]; exact Nat.succ_le_succ hnD) hdt1 hn1 l1 l2 α β ω z
    (R.eval (ω / z)) (S.eval (ω / z)) (M.eval (ω / z))
  have hG : polyOf gv = G := by rw [hg3, w3', t3', a3', ht1p]
  have hcmg := rcK_eval N n n (D + 1) α β ω z (R.eval (ω / z)) (S.eval (ω / z)) (M.eval (ω / z))
    τ W P A P1 Ĥ1 (polyOf h2) g
  have hvkg : kvk.g = g := hvk.1
  have hcG : commitVector (srs τ g D) gv (D + 1) = .ok (G.eval τ • g) := by
    rw [commitVector_ok' τ g D _ _ (by intro h; rw [h] at hg2; simp at hg2) hg2 le_rfl, hG]
  have hGz : G.eval z = 0 := by
    show (rcGPoly N n n (D + 1) α β ω z (R.eval (ω / z)) (S.eval (ω / z)) (M.eval (ω / z)) W P A P1
      Ĥ1 (polyOf h2)).eval z = 0
    rw [rcG_eval, ← hpolys, eval_identity n ω s.polys _ _ hid z hz0, Polynomial.eval_mul,
      Polynomial.eval_pow, Polynomial.eval_X]
    have h3 : z ^ (D + 1) = z ^ (D + 1 - n) * z ^ n := by
      rw [← pow_add, Nat.sub_add_cancel (Nat.le_succ_of_le hnD)]
    have h4 : z ^ n ≠ 0 := pow_ne_zero _ hz0
    have h5 : z ^ (D + 1 - n) ≠ 0 := pow_ne_zero _ hz0
    rw [h3]
    field_simp
    ring
  have hnaive := naiveG_eval n (D + 1) (Nat.succ_le_succ hnD) ω s.pairs s.polys hp h1 h2 l1 l2 hid z hz0
    (s.polys.map (fun q => q.1.eval (ω / z))) rfl
  have hnaive' : checkPolyEval (polyFromVec (naiveG n (D + 1) z
      (s.polys.map (fun q => q.1.eval (ω / z))) s.pairs h1 h2)) z 0 = .ok () := by
    rw [checkPolyEval, hnaive, if_pos rfl]
  have hgz := checkPolyEval_ok gv z 0 (by rw [hG, hGz])
  have hGG : (rcGPoly N n n (D + 1) α β ω z (R.eval (ω / z)) (S.eval (ω / z)) (M.eval (ω / z)) W P A
      P1 Ĥ1 (polyOf h2)) = G := rfl
  rw [hGG] at hcmg
  have hKN : ∀ y y1 y2, rcCoeffs cs (D + 1) α β ω z y y1 y2
      = .ok (rcK N n n (D + 1) α β ω z y y1 y2) := hK
  simp only [hKN, hg1, hvkg, ← hcmg, hcG, hnaive', hgz, assertR, if_true]
  set xi := rcXi env 1 (P.eval τ • g) (W.eval τ • g) (M.eval τ • g) (R.eval τ • g) (S.eval τ • g)
    (A.eval τ • g) (P1.eval τ • g) (Ĥ1.eval τ • g) ((polyOf h2).eval τ • g) (G.eval τ • g) (ω / z)
    (R.eval (ω / z)) (S.eval (ω / z)) (M.eval (ω / z)) z with hxi
  set xi2 := rcXi env 2 (P.eval τ • g) (W.eval τ • g) (M.eval τ • g) (R.eval τ • g) (S.eval τ • g)
    (A.eval τ • g) (P1.eval τ • g) (Ĥ1.eval τ • g) ((polyOf h2).eval τ • g) (G.eval τ • g) (ω / z)
    (R.eval (ω / z)) (S.eval (ω / z)) (M.eval (ω / z)) z with hxi2
  have hlist : ([polyFromVec rv, polyFromVec sv, polyFromVec mv] : List (List F))
    = [rv, sv, mv].map polyFromVec := rfl
  have hlistg : ([polyFromVec gv] : List (List F)) = [gv].map polyFromVec := rfl
  have dV : ∀ v : List F, v.length = n + 1 → (polyOf v).natDegree ≤ D := by
    intro v hl
    have := natDegree_polyOf_lt v (by intro h; rw [h] at hl; simp at hl)
    rw [hl] at this
    exact (Nat.lt_succ_iff.mp this).trans hnD
  have dG : (polyOf gv).natDegree ≤ D := by
    have := natDegree_polyOf_lt gv (by intro h; rw [h] at hg2; simp at hg2)
    rw [hg2] at this
    exact Nat.lt_succ_iff.mp this
  rw [hlist, hlistg]
  constructor
  · rintro ⟨-, gR, gS, gM, gG⟩
    obtain ⟨v1, v2, ho, hc⟩ := C21_batch_complete env.e τ g h D kvk hvk
      [rv, sv, mv] [gv] (ω / z) z xi xi2 env.rngU128 (by
        intro f hm
        simp only [List.cons_append, List.nil_append, List.mem_cons, List.not_mem_nil,
          or_false] at hm
        rcases hm with rfl | rfl | rfl | rfl
        · exact ⟨by rw [r3']; exact gR, dV _ r2⟩
        · exact ⟨by rw [s3']; exact gS, dV _ s2⟩
        · exact ⟨by rw [m3']; exact gM, dV _ m2⟩
        · exact ⟨by rw [hG]; exact gG, dG⟩)
    rw [ho]
    refine ⟨_, rfl, ?_⟩
    simp only [rcVerify, hβ', hα, hω, hz, hKN, bind,
      Except.bind, divR_ok hz0, hvkg, ← hcmg]
    have hc' : batchCheck env.e kvk [R.eval τ • g, S.eval τ • g, M.eval τ • g] [G.eval τ • g]
        (ω / z) z xi xi2 [R.eval (ω / z), S.eval (ω / z), M.eval (ω / z)] [0] v1 v2 env.rngU128
        = true := by
      simp only [List.map_cons, List.map_nil, hG, hGz, r3', s3', m3'] at hc
      exact hc
    exact if_pos hc'
  · intro hbad
    have hpanic := C21_batch_constant_aborts τ g D [rv, sv, mv] [gv] (ω / z) z xi xi2
      (by
        intro f hm
        simp only [List.cons_append, List.nil_append, List.mem_cons, List.not_mem_nil,
          or_false] at hm
        rcases hm with rfl | rfl | rfl | rfl
        · exact dV _ r2
        · exact dV _ s2
        · exact dV _ m2
        · exact dG)
      (by
        by_contra hc
        push Not at hc
        apply hbad
        refine ⟨⟨hz0, hz1, hzo⟩, ?_, ?_, ?_, ?_⟩
        · have := hc rv (by simp); rwa [r3'] at this
        · have := hc sv (by simp); rwa [s3'] at this
        · have := hc mv (by simp); rwa [m3'] at this
        · have := hc gv (by simp); rwa [hG] at this)
    rw [hpanic]

/-! The hypotheses of C45 hold for `N = 3`, `B = 5`, `w = (1, 4, 4)` over the field with 97 elements;
the run there is not degenerate when the fifth blinding value is zero, and fails when it is not. -/

/-- The environment of the examples with the fifth blinding value replaced. -/
def rcEnv97 (δ : K97) : Env K97 K97 K97 K97 :=
  { env97 with rngF := fun i => if i = 4 then δ else env97.rngF i }

/-- Keys, proof and verification of a concrete run. -/
def rcRun97 (δ : K97) (N B D : ℕ) (w : List K97) : Res Unit := do
  let pp ← kzgSetup D (33 : K97) (1 : K97) (1 : K97)
  let keys ← rcIndex (F := K97) pp ⟨N, B⟩
  let π ← rcProve (rcEnv97 δ) keys.1 w
  rcVerify (rcEnv97 δ) keys.2 π

example : FftOk (rcEnv97 0).fft ∧ 2 * 5 + 2 ≤ 2 ^ (rcEnv97 0).fft.twoAdicity :=
  ⟨fftOk97, by decide⟩

example : ∀ i < 5, ∀ j < 5, ((i : ℕ) : K97) = ((j : ℕ) : K97) → i = j := by decide

example : InRangeHolds 3 5 (fun i => ([1, 4, 4] : List K97).getD i 0) := by
  intro j hj
  interval_cases j
  · exact ⟨1, by norm_num, by decide⟩
  · exact ⟨4, by norm_num, by decide⟩
  · exact ⟨4, by norm_num, by decide⟩

example : rcRun97 0 3 5 12 [1, 4, 4] = .ok () := by decide +kernel

/-- A value out of range. -/
example : rcRun97 0 3 5 12 [1, 4, 7] ≠ .ok () := by decide +kernel

/-- A non-zero fifth blinding value. -/
example : rcRun97 79 3 5 12 [1, 4, 4] ≠ .ok () := by decide +kernel

/-- The hypotheses of `C45_prover_aborts` can be met: with a hash function that maps the transcript of
`α` to zero, the prover returns a proof. -/
example : (do
      let pp ← kzgSetup 12 (33 : K97) (1 : K97) (1 : K97)
      let keys ← rcIndex (F := K97) pp ⟨3, 5⟩
      let _ ← rcProve { rcEnv97 79 with
        hash := fun l => if l.length = 7 then 0 else env97.hash l } keys.1 [1, 4, 4]
      return () : Res Unit) = .ok () := by decide +kernel

/-- Entries of the witness beyond the first `N` are not looked up. -/
example : rcRun97 0 3 5 12 [1, 4, 4, 50] = .ok () := by decide +kernel

end VO
