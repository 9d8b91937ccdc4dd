import Verif.Lemmas.R1csSnark
import Verif.Spec.RangeCheck
import Verif.Model.RangeCheck

set_option linter.unusedSectionVars false

namespace VO
open Spec
open Polynomial (X toLaurent)
open LaurentPolynomial

variable {F : Type} [Field F] [DecidableEq F]

/-- Shape of the vectors of a run. -/
structure RcRun.Good (s : RcRun F) : Prop where
  hN : 1 ≤ s.cs.lookupSize
  hB : 1 ≤ s.cs.range
  lw : s.w.length = s.cs.n + 1
  lt : s.t.length = s.cs.range
  lm : s.m.length = s.cs.n + 1
  lr : s.r.length = s.cs.n + 1
  ls : s.s.length = s.cs.n + 1
  dt1 : (polyOf s.t1).degree < ((2 : ℕ) : WithBot ℕ)

theorem RangeCheck.N_le (cs : RangeCheck) : cs.lookupSize ≤ cs.n := le_max_left _ _
theorem RangeCheck.B_le (cs : RangeCheck) : cs.range ≤ cs.n := le_max_right _ _

/-- The unblinded polynomial pairs of a run. -/
noncomputable def RcRun.base (s : RcRun F) : List (Polynomial F × Polynomial F) :=
  rcBase s.cs.lookupSize s.cs.range s.cs.n s.alpha s.beta (polyOf s.w) (polyOf s.t) (polyOf s.m)
    (polyOf s.r) (polyOf s.s) (polyOf s.rt)

/-- The polynomial pairs of a run. -/
noncomputable def RcRun.polys (s : RcRun F) : List (Polynomial F × Polynomial F) :=
  rcPolys s.cs.lookupSize s.cs.range s.cs.n s.alpha s.beta (polyOf s.w) (polyOf s.t) (polyOf s.m)
    (polyOf s.r) (polyOf s.s) (polyOf s.rt) (polyOf s.t1)

theorem RcRun.pairRep (s : RcRun F) (hs : s.Good)
    (drt : (polyOf s.rt).degree < ((s.cs.n : ℕ) : WithBot ℕ)) :
    List.Forall₂ (PairRep s.cs.n) s.pairs s.polys := by
  obtain ⟨hN, hB, lw, lt, lm, lr, ls, dt1⟩ := hs
  have h1 := s.cs.N_le
  have h2 := s.cs.B_le
  have dW : (polyOf s.w).degree < ((s.cs.n + 1 : ℕ) : WithBot ℕ) := lw ▸ degree_polyOf_lt s.w
  have dR : (polyOf s.r).degree < ((s.cs.n + 1 : ℕ) : WithBot ℕ) := lr ▸ degree_polyOf_lt s.r
  have dS : (polyOf s.s).degree < ((s.cs.n + 1 : ℕ) : WithBot ℕ) := ls ▸ degree_polyOf_lt s.s
  have dM : (polyOf s.m).degree < ((s.cs.n + 1 : ℕ) : WithBot ℕ) := lm ▸ degree_polyOf_lt s.m
  have dT : (polyOf s.t).degree < ((s.cs.range : ℕ) : WithBot ℕ) := lt ▸ degree_polyOf_lt s.t
  have g := fun m => degree_geomPoly_lt (1 : F) m
  unfold RcRun.pairs RcRun.polys rcPolys rcBase blindPair
  refine .cons ⟨rep_vec1 s.r, ?_, dR, ?_⟩ (.cons ⟨(rep_range1 _).neg, rep_range1 _, ?_, ?_⟩
    (.cons ⟨(rep_vec1 s.s).cmul _, ?_, ?_, ?_⟩
    (.cons ⟨?_, rep_range1 _, ?_, ?_⟩ (.cons ⟨?_, rep_range1 _, ?_, ?_⟩
    (.cons ⟨?_, rep_range1 _, ?_, ?_⟩ (.cons ⟨?_, ?_, ?_, ?_⟩ (.cons ⟨?_, rep_vec1 s.rt, ?_, ?_⟩
    (.cons ⟨?_, ?_, ?_, ?_⟩ .nil))))))))
  · exact (((rep_range1 s.cs.lookupSize).cmul s.beta).add (rep_vec1 s.w)).congr (by ring)
  · exact degLt_add dW (degLt_C_mul (degLt_mono (g _) (by omega)) _)
  · exact degLt_neg (degLt_mono (g _) (by omega))
  · exact degLt_mono (g _) (by omega)
  · exact (((rep_range1 s.cs.range).cmul s.beta).add (rep_vec1 s.t)).congr (by ring)
  · exact degLt_C_mul dS _
  · exact degLt_add (degLt_mono dT (by omega)) (degLt_C_mul (degLt_mono (g _) (by omega)) _)
  · exact ((rep_vec1 s.m).cmul (-s.alpha)).congr (by simp only [map_neg]; ring)
  · exact degLt_neg (degLt_C_mul dM _)
  · exact degLt_mono (g _) (by omega)
  · exact ((rep_vec1 s.r).cmul _).congr (by rw [power_two])
  · exact degLt_C_mul dR _
  · exact degLt_mono (g _) (by omega)
  · exact ((rep_vec1 s.s).cmul _).congr (by rw [power_two]; simp only [map_neg]; ring)
  · exact degLt_neg (degLt_C_mul dS _)
  · exact degLt_mono (g _) (by omega)
  · exact ((rep_range1 s.cs.n).cmul _).congr (by rw [power_two]; simp only [map_neg]; ring)
  · exact ((rep_vec1 s.rt).sub ((rep_vec s.rt).minus 1 (by norm_num))).congr (by rw [pow_one])
  · exact degLt_neg (degLt_C_mul (degLt_mono (g _) (by omega)) _)
  · exact degLt_sub (degLt_mono drt (by omega)) (degLt_mono (degLt_X_mul drt) (by omega))
  · exact ((rep_delta (s.cs.n - 1) (by omega)).cmul _).congr (by rw [power_three])
  · exact degLt_C_mul (degLt_X_pow _ _ (by omega)) _
  · exact degLt_mono drt (by omega)
  · have := ((rep_range (F := F) 1).minus s.cs.n (m := (s.cs.n : ℤ) + 1) rfl).neg
    exact this
  · exact (rep_vec s.t1).minus (s.cs.n - 1) (by omega)
  · exact degLt_neg (degLt_mono (degLt_X_pow_mul (g 1) s.cs.n) (by omega))
  · exact degLt_mono (degLt_X_pow_mul dt1 (s.cs.n - 1)) (by omega)

/-- The derived vectors of a run. -/
def RcRun.derived (s : RcRun F) : RcDerived F :=
  ⟨vectorPolyMulNoDict s.r s.w s.omega,
    vectorPowerMul (vectorReverseOmega s.r s.omega) 1 s.cs.lookupSize,
    vectorPolyMulNoDict s.s s.t s.omega,
    vectorPowerMul (vectorReverseOmega s.s s.omega) 1 s.cs.range,
    vectorPowerMul (vectorReverseOmega s.m s.omega) 1 s.cs.range,
    vectorPowerMul s.rt (power s.omega (-1)) s.cs.n, vectorPowerMul s.t1 (power s.omega (-1)) 1,
    powerPowerMul (power s.omega (-1)) s.cs.lookupSize 1 s.cs.lookupSize⟩

theorem RcRun.derive_ok (fft : FftParams F) (hf : FftOk fft) (s : RcRun F) (hs : s.Good)
    (hsz : 2 * s.cs.n + 2 ≤ 2 ^ fft.twoAdicity) : s.derive fft = .ok s.derived := by
  obtain ⟨hN, hB, lw, lt, lm, lr, ls, dt1⟩ := hs
  have h2 := s.cs.B_le
  obtain ⟨_, a1, a2, -⟩ := C05_vector_poly_mul fft hf s.r s.w s.omega (by omega)
  obtain ⟨_, b1, b2, -⟩ := C05_vector_poly_mul fft hf s.s s.t s.omega (by omega)
  unfold RcRun.derive
  rw [a1, b1, a2, b2]
  rfl

/-- The convolution expression of the seventh pair. -/
theorem RcRun.p7 (s : RcRun F) (hω : s.omega ≠ 0) :
    LRep (fun i => (-power s.alpha 2 * power s.omega (s.cs.n - 1))
        * vectorIndex (vectorPowerMul s.rt (power s.omega (-1)) s.cs.n) (minusI64 i (2 - s.cs.n))
      + (power s.alpha 2 * power s.omega (s.cs.n - 1))
        * vectorIndex (vectorPowerMul s.rt (power s.omega (-1)) s.cs.n) (minusI64 i (3 - s.cs.n)))
      (omegaInv s.omega (-(Polynomial.C (s.alpha ^ 2) * geomPoly 1 s.cs.n))
        * toLaurent (polyOf s.rt - X * polyOf s.rt)) := by
  have lg := fun v => lrep_left_geom' v s.omega (power s.omega (-1)) hω (power_inv hω)
  have a := fun k m h => lg s.rt 0 s.cs.n k m h (s.cs.n - 1) (by push_cast; ring) s.cs.n rfl
  refine (LRep.congrf (((a 1 (3 - s.cs.n) (by push_cast; ring)).cmul (s.alpha ^ 2)).sub
    ((a 0 (2 - s.cs.n) (by push_cast; ring)).cmul (s.alpha ^ 2))) (fun i => ?_)).congr ?_
  · rw [power_two]; ring
  · rw [map_neg, map_mul (omegaInv s.omega) (Polynomial.C _), omegaInv_C, map_sub toLaurent,
      map_mul toLaurent, Polynomial.toLaurent_X, T_zero, pow_zero, one_mul]; ring

theorem RcRun.atimesbRep (s : RcRun F) (hs : s.Good) (hω : s.omega ≠ 0) :
    List.Forall₂ (fun f q => LRep f (omegaInv s.omega q.1 * toLaurent q.2))
      (s.atimesb s.derived) s.polys := by
  obtain ⟨hN, hB, lw, lt, lm, lr, ls, dt1⟩ := hs
  have h1 := s.cs.N_le
  have h2 := s.cs.B_le
  have lg := fun v => lrep_left_geom' v s.omega (power s.omega (-1)) hω (power_inv hω)
  have r1 := fun v n (hn : 1 ≤ n) => lrep_rev_powerMul v s.omega 1 n (Or.inl hn) 1 _ rfl
  have hT0 : (T ((1 : ℤ) - 1) : F[T;T⁻¹]) = 1 := by simp
  unfold RcRun.atimesb RcRun.polys rcPolys rcBase blindPair RcRun.derived
  refine .cons ?_ (.cons ?_ (.cons ?_ (.cons ?_ (.cons ?_ (.cons ?_ (.cons ?_ (.cons ?_
    (.cons ?_ .nil))))))))
  · refine (((r1 s.r _ hN).cmul s.beta).add (lrep_polyMul s.r s.w s.omega 1 _ rfl)).congr ?_
    rw [hT0]
    simp only [map_add, map_mul, Polynomial.toLaurent_C]; ring
  · refine (LRep.congrf (lrep_left_geom_of (powerPowerMul (power s.omega (-1)) s.cs.lookupSize 1
      s.cs.lookupSize) (geomPoly 1 s.cs.lookupSize) s.omega hω 0 s.cs.lookupSize ?_ 0
      (2 - s.cs.lookupSize) (by push_cast; ring) (s.cs.lookupSize - 1) (by push_cast; ring)).neg
      (fun i => ?_)).congr ?_
    · rw [power_inv hω, polyOf_powerPowerMul _ _ _ _ (by omega) (by omega), mul_comm]
    · ring
    · rw [map_neg, T_zero, pow_zero, one_mul, one_mul]; ring
  · refine (((lrep_polyMul s.s s.t s.omega 1 _ rfl).cmul s.alpha).add
      ((r1 s.s _ hB).cmul (s.alpha * s.beta))).congr ?_
    rw [hT0]
    simp only [map_add, map_mul, Polynomial.toLaurent_C, omegaInv_C]; ring
  · refine ((r1 s.m _ hB).cmul (-s.alpha)).congr ?_
    rw [hT0]
    simp only [map_neg, map_mul, omegaInv_C]; ring
  · refine ((r1 s.r _ hN).cmul _).congr ?_
    rw [hT0, power_two]
    simp only [map_mul, omegaInv_C]; ring
  · refine ((r1 s.s _ hB).cmul _).congr ?_
    rw [hT0, power_two]
    simp only [map_neg, map_mul, omegaInv_C]; ring
  · exact s.p7 hω
  · refine (((rep_vec s.rt).lrep.minus (2 - s.cs.n)).cmul _).congr ?_
    dsimp only
    have hpn : power s.omega ((s.cs.n : ℤ) - 1) = s.omega ^ (s.cs.n - 1) := by
      rw [← power_natCast (Or.inr hω)]; congr 1; omega
    rw [power_three, hpn, map_mul (omegaInv s.omega), omegaInv_C, omegaInv_X_pow,
      show (2 - (s.cs.n : ℤ) - 1) = -((s.cs.n - 1 : ℕ) : ℤ) by omega, map_mul C]
    ring
  · refine (LRep.congrf (lg s.t1 s.cs.n 1 ((s.cs.n - 1 : ℕ) : ℤ) 0 (by omega) s.cs.n
      (by push_cast; ring) 1 rfl).neg (fun i => ?_)).congr ?_
    · ring
    · rw [map_neg, map_mul toLaurent, Polynomial.toLaurent_X_pow]; ring

theorem RcRun.hAtRep (s : RcRun F) (hs : s.Good) (hω : s.omega ≠ 0) :
    LRep (s.hAt s.derived) (hadamardLaurent s.omega s.polys) := by
  have ha := s.atimesbRep hs hω
  intro i
  have hsum : ∀ (fs : List (ℤ → F)) (ps : List (Polynomial F × Polynomial F)),
      List.Forall₂ (fun f q => LRep f (omegaInv s.omega q.1 * toLaurent q.2)) fs ps →
      (fs.map (fun f => f i)).sum = (hadamardLaurent s.omega ps).coeff (i - 1) := by
    intro fs ps h
    induction h with
    | nil => simp [hadamardLaurent_nil]
    | cons h _ ih =>
      rw [List.map_cons, List.sum_cons, ih, hadamardLaurent_cons, lcoeff_add, h]
  rw [← hsum _ _ ha]
  simp only [RcRun.atimesb, RcRun.hAt, List.map_cons, List.map_nil, List.sum_cons, List.sum_nil, power_two]
  ring

end VO
