import Verif.Lemmas.R1csSnark
import Verif.Spec.HprSnark
import Verif.Model.HprSnark

set_option linter.unusedSectionVars false

namespace VO
open Spec
open Polynomial (X toLaurent)
open LaurentPolynomial

variable {F : Type} [Field F] [DecidableEq F]

/-- Shape of the vectors of a run. -/
structure HprRun.Good (s : HprRun F) : Prop where
  hH : 1 ≤ s.H
  hK : 1 ≤ s.K
  hS : s.H ≤ s.S
  hγ : s.gamma ≠ 0
  lx : s.x.length ≤ s.H
  lu : s.u.length = s.S
  lw : s.w.length = s.S
  lv : s.v.length = s.S
  ly : s.y.length = s.S
  lw1 : s.w1.length = 3 * s.K + 1 + s.S + 1
  ls : s.s.length = s.H + (3 * s.K + 1)
  lh : s.h.length = 3 * s.K + 1 + s.S
  lr : s.r.length = 3 * s.K + 1 + s.S + 1

/-- The unblinded polynomial pairs of a run. -/
noncomputable def HprRun.base (s : HprRun F) : List (Polynomial F × Polynomial F) :=
  hprBase s.H s.K s.S s.gamma s.mu s.nu s.beta s.alpha (polyOf s.u) (polyOf s.w)
    (polyOf s.v) (polyOf s.y) (polyOf s.x) (polyOf s.w1) (polyOf s.s) (polyOf s.h) (polyOf s.r)

/-- The polynomial pairs of a run. -/
noncomputable def HprRun.polys (s : HprRun F) : List (Polynomial F × Polynomial F) :=
  s.base ++ [blindPair (3 * s.K + 1 + s.S) (2 * s.K + s.S + 2) (polyOf s.t)]

set_option maxHeartbeats 1000000 in
theorem HprRun.tAt_eq (s : HprRun F) (hs : s.Good) (j : ℕ) :
    s.tAt ((j : ℤ) + 1 + (3 * s.K + s.S + 1))
      = hadamardEntry s.base (3 * s.K + 1 + s.S + j) := by
  obtain ⟨hH, hK, hS, hγ, lx, lu, lw, lv, ly, lw1, ls, lh, lr⟩ := hs
  set n := 3 * s.K + 1 + s.S with hn
  set J : ℤ := (j : ℤ) + 1 + (3 * s.K + s.S + 1) with hJ
  have hk : ∀ p : Polynomial F, zc p (J - 1) = p.coeff (n + j) := by
    intro p
    rw [show J - 1 = ((n + j : ℕ) : ℤ) by omega, zc_natCast]
  have r1 : ∀ v : List F, vectorIndex v J = (polyOf v).coeff (n + j) := fun v => by
    rw [← hk]; exact rep_vec v _
  have r2 : ∀ (v : List F) (k : ℕ) (m : ℤ), m = k + 1 → vectorIndex v (minusI64 J m)
      = (X ^ k * polyOf v).coeff (n + j) := fun v k m hm => by
    rw [← hk]; exact (rep_vec v).minus k hm _
  have r3 : ∀ (a : ℕ) (b : ℤ), b = a → rangeIndex 1 b J = (geomPoly (1 : F) a).coeff (n + j) :=
    fun a b hb => by
    rw [← hk, hb]; exact rep_range _ _
  have r4 : ∀ (a : ℕ) (b : ℤ), b = a →
      powerVectorIndex s.gamma b J = (geomPoly s.gamma a).coeff (n + j) := fun a b hb => by
    rw [← hk, hb]; exact rep_powers s.gamma hγ _ _
  have r5 : ∀ (a k : ℕ) (b m : ℤ), b = a → m = k + 1 → rangeIndex 1 b (minusI64 J m)
      = (X ^ k * geomPoly (1 : F) a).coeff (n + j) := fun a k b m hb hm => by
    rw [← hk, hb]; exact (rep_range a).minus k hm _
  have r6 : (delta J (s.H + 1) : F) = (X ^ s.H : Polynomial F).coeff (n + j) := by
    rw [← hk]; exact rep_delta s.H rfl _
  have q1 : (X ^ (s.H + (3 * s.K + 1)) * geomPoly (1 : F) (s.S - s.H)).coeff (n + j) = 0 := by
    rw [coeff_X_pow_geom, if_neg (by omega)]
  have q3 : (X ^ (3 * s.K + s.S) : Polynomial F).coeff (n + j) = 0 := by
    rw [Polynomial.coeff_X_pow, if_neg (by omega)]
  have q4 : power (rangeIndex 1 (s.S : ℤ) (minusI64 J (3 * s.K + 2)) : F) 2
      = (X ^ (3 * s.K + 1) * geomPoly (1 : F) s.S).coeff (n + j)
        * (X ^ (3 * s.K + 1) * geomPoly (1 : F) s.S).coeff (n + j) := by
    rw [power_two, r5 s.S (3 * s.K + 1) _ _ rfl (by push_cast; ring)]; ring
  unfold HprRun.tAt
  simp only [minusI64_one]
  rw [r3 (3 * s.K + 1) _ (by push_cast; ring), r1 s.h, r2 s.v (3 * s.K + 1) _ (by push_cast; ring),
    r2 s.h s.H _ (by push_cast; ring), r1 s.s,
    r3 (3 * s.K + 1 + s.S) _ (by push_cast; ring), r1 s.r, r2 s.r 1 _ (by norm_num),
    r2 s.w (3 * s.K + 1) _ (by push_cast; ring), q4,
    r5 s.S (3 * s.K + 1) _ _ rfl (by push_cast; ring), r2 s.u (3 * s.K + 1) _ (by push_cast; ring),
    r2 s.y (3 * s.K + 1) _ (by push_cast; ring),
    r2 s.w1 (2 * s.K + 1 + s.S) _ (by push_cast; ring),
    r2 s.w1 (s.K + 1 + s.S) _ (by push_cast; ring),
    r5 s.K (2 * s.K + 1 + s.S) _ _ rfl (by push_cast; ring),
    r2 s.w1 (1 + s.S) _ (by push_cast; ring),
    r4 (3 * s.K + 1) _ (by push_cast; ring), r3 s.H _ rfl, r4 s.H _ rfl, r6, r1 s.x,
    r2 s.w1 (s.H + 1) _ (by push_cast; ring), power_four, power_five, power_six]
  simp only [HprRun.base, hprBase, hprAsg, hadamardEntry, List.map_cons, List.map_nil, List.sum_cons,
    List.sum_nil, Polynomial.coeff_C_mul, Polynomial.coeff_neg, Polynomial.coeff_add,
    Polynomial.coeff_sub, q1, q3, mul_add, mul_sub,
    mul_left_comm (X ^ (3 * s.K + 1)) (Polynomial.C _), pow_one]
  ring

theorem HprRun.base_high (s : HprRun F) (hs : s.Good) (i : ℕ)
    (hi : 4 * s.K + 2 * s.S + 2 < i) : hadamardEntry s.base i = 0 := by
  obtain ⟨hH, hK, hS, hγ, lx, lu, lw, lv, ly, lw1, ls, lh, lr⟩ := hs
  have hz : ∀ (v : List F) (k : ℕ), k + v.length ≤ i → (X ^ k * polyOf v).coeff i = 0 := by
    intro v k hv
    rw [Polynomial.coeff_X_pow_mul']
    split_ifs
    · rw [coeff_polyOf, List.getD_eq_default _ _ (by omega)]
    · rfl
  have hz0 : ∀ v : List F, v.length ≤ i → (polyOf v).coeff i = 0 := by
    intro v hv; rw [coeff_polyOf, List.getD_eq_default _ _ (by omega)]
  have q1 : ∀ a b : ℕ, a + b ≤ i → (X ^ a * geomPoly (1 : F) b).coeff i = 0 := by
    intro a b h; rw [coeff_X_pow_geom, if_neg (by omega)]
  have q3 : (X ^ (3 * s.K + s.S) : Polynomial F).coeff i = 0 := by
    rw [Polynomial.coeff_X_pow, if_neg (by omega)]
  have g1 : ∀ (a : F) (n : ℕ), n ≤ i → (geomPoly a n).coeff i = 0 := by
    intro a n h; rw [coeff_geomPoly, if_neg (by omega)]
  simp only [HprRun.base, hprBase, hadamardEntry, List.map_cons, List.map_nil, List.sum_cons,
    List.sum_nil, Polynomial.coeff_C_mul, Polynomial.coeff_neg, Polynomial.coeff_add,
    Polynomial.coeff_sub, q3, hz0 s.s (by omega), hz0 s.h (by omega), g1 _ s.H (by omega),
    g1 _ (3 * s.K + 1) (by omega), g1 _ (3 * s.K + 1 + s.S) (by omega),
    q1 (3 * s.K + 1) s.S (by omega),
    q1 (2 * s.K + 1 + s.S) s.K (by omega),
    hz s.w1 (s.K + 1 + s.S) (by omega)]
  ring

theorem HprRun.mkT_ok (s : HprRun F) (hs : s.Good) (rng : ℕ → F) :
    (s.mkT rng).length = 2 * s.K + s.S + 4 ∧
    polyOf (s.mkT rng) = blindPoly (3 * s.K + 1 + s.S) (2 * s.K + s.S + 2) (rng 2) s.base := by
  have hL : (2 * (s.K : ℤ) + s.S + 1 + 2) = ((2 * s.K + s.S + 3 : ℕ) : ℤ) := by omega
  unfold HprRun.mkT
  rw [hL, sampleVec_one]
  refine ⟨by simp [length_expressionVector]; omega, ?_⟩
  apply polyOf_blind _ _ _ (by omega)
  · intro j; exact s.tAt_eq hs j
  · intro j hj; exact s.base_high hs _ (by omega)

theorem HprRun.blind_degree (s : HprRun F) (hs : s.Good) (δ : F) :
    (blindPoly (3 * s.K + 1 + s.S) (2 * s.K + s.S + 2) δ s.base).degree
      < ((s.K + s.S + 3 : ℕ) : WithBot ℕ) :=
  degree_blindPoly _ _ (s.K + s.S + 2) δ _ (fun j hj => s.base_high hs _ (by omega))

/-! ### Degrees -/

theorem hprPolys_degA (H K S B B' v U : ℕ) (γ μ ν β α : F)
    (Pu Pw Pv Py V W P Q R T : Polynomial F) (hH : 1 ≤ H) (hS : H ≤ S)
    (dV : V.degree < ((v + 1 : ℕ) : WithBot ℕ))
    (dW : W.degree < ((B + 1 : ℕ) : WithBot ℕ)) (dQ : Q.degree < ((B' + 1 : ℕ) : WithBot ℕ))
    (h1 : B + (2 * K + 1 + S) ≤ U) (h2 : B' + H ≤ U) (h3 : 5 * K + 2 * S + 2 ≤ U)
    (h4 : B + H + 1 ≤ U) (h5 : v ≤ U) :
    ∀ p ∈ hprPolys H K S γ μ ν β α Pu Pw Pv Py V W P Q R T,
      p.1.degree < ((U + 1 : ℕ) : WithBot ℕ) := by
  intro p hp
  have g := fun (a : F) m => degree_geomPoly_lt a m
  simp only [hprPolys, hprBase, blindPair, List.cons_append, List.nil_append, List.mem_cons,
    List.not_mem_nil, or_false] at hp
  rcases hp with rfl | rfl | rfl | rfl | rfl | rfl | rfl | rfl | rfl | rfl | rfl | rfl | rfl | rfl |
    rfl
  · exact degLt_sub (degLt_C_mul (degLt_mono (g _ _) (by omega)) _) (degLt_mono (g _ _) (by omega))
  · exact degLt_neg (degLt_mono (g _ _) (by omega))
  · exact degLt_C_mul (degLt_sub (degLt_C_mul (degLt_mono (g _ _) (by omega)) _)
      (degLt_mono (g _ _) (by omega))) _
  · exact degLt_neg (degLt_C_mul (degLt_mono (g _ _) (by omega)) _)
  · exact degLt_C_mul (degLt_mono (degLt_X_pow_mul (g _ _) _) (by omega)) _
  · exact degLt_C_mul (degLt_mono dQ (by omega)) _
  · exact degLt_neg (degLt_C_mul (degLt_mono (degLt_X_pow_mul (g _ _) _) (by omega)) _)
  · exact degLt_C_mul (degLt_mono (degLt_X_pow_mul dW _) (by omega)) _
  · exact degLt_neg (degLt_C_mul (degLt_mono (degLt_X_pow_mul (g _ _) _) (by omega)) _)
  · exact degLt_C_mul (degLt_add (degLt_add (degLt_mono dV (by omega)) (degLt_X_pow _ _ (by omega)))
      (degLt_mono (degLt_X_pow_mul dW _) (by omega))) _
  · exact degLt_neg (degLt_C_mul (degLt_mono (degLt_X_pow_mul dQ _) (by omega)) _)
  · exact degLt_neg (degLt_C_mul (degLt_mono dQ (by omega)) _)
  · exact degLt_neg (degLt_C_mul (degLt_mono (g _ _) (by omega)) _)
  · exact degLt_C_mul (degLt_X_pow _ _ (by omega)) _
  · exact degLt_neg (degLt_mono (degLt_X_pow_mul (g _ _) _) (by omega))

theorem hprPolys_degB (H K S B B' Bt U : ℕ) (γ μ ν β α : F)
    (Pu Pw Pv Py V W P Q R T : Polynomial F) (hH : 1 ≤ H) (hS : H ≤ S)
    (dW : W.degree < ((B + 1 : ℕ) : WithBot ℕ)) (dP : P.degree < ((B' + 1 : ℕ) : WithBot ℕ))
    (dQ : Q.degree < ((B' + 1 : ℕ) : WithBot ℕ)) (dR : R.degree < ((B' + 2 : ℕ) : WithBot ℕ))
    (dT : T.degree < ((Bt + 1 : ℕ) : WithBot ℕ))
    (du : Pu.degree < ((S + 1 : ℕ) : WithBot ℕ)) (dw : Pw.degree < ((S + 1 : ℕ) : WithBot ℕ))
    (dv : Pv.degree < ((S + 1 : ℕ) : WithBot ℕ)) (dy : Py.degree < ((S + 1 : ℕ) : WithBot ℕ))
    (h1 : B + (K + 1 + S) ≤ U) (h2 : B' + 2 ≤ U) (h3 : 5 * K + 2 * S + 2 ≤ U)
    (h5 : 3 * K + S + Bt ≤ U) :
    ∀ p ∈ hprPolys H K S γ μ ν β α Pu Pw Pv Py V W P Q R T,
      p.2.degree < ((U + 1 : ℕ) : WithBot ℕ) := by
  intro p hp
  have g := fun (a : F) m => degree_geomPoly_lt a m
  simp only [hprPolys, hprBase, blindPair, List.cons_append, List.nil_append, List.mem_cons,
    List.not_mem_nil, or_false] at hp
  rcases hp with rfl | rfl | rfl | rfl | rfl | rfl | rfl | rfl | rfl | rfl | rfl | rfl | rfl | rfl |
    rfl
  · exact degLt_mono dP (by omega)
  · exact degLt_mono (g _ _) (by omega)
  · exact degLt_mono dQ (by omega)
  · exact degLt_mono (g _ _) (by omega)
  · exact degLt_mono dP (by omega)
  · exact degLt_mono (degLt_X_pow_mul (degLt_add (degLt_sub (degLt_sub dy (degLt_C_mul dw _))
      (degLt_C_mul du _)) (degLt_C_mul (degLt_mono (g _ _) (Nat.le_succ S)) _)) (3 * K + 1))
      (by omega)
  · exact degLt_mono (degLt_X_pow_mul (g _ _) _) (by omega)
  · exact degLt_mono (degLt_X_pow_mul dW _) (by omega)
  · exact degLt_mono (degLt_X_pow_mul dW _) (by omega)
  · exact degLt_mono dP (by omega)
  · exact degLt_mono dP (by omega)
  · exact degLt_mono (degLt_X_pow_mul dv (3 * K + 1)) (by omega)
  · exact degLt_sub (degLt_mono dR (by omega)) (degLt_mono (degLt_X_mul dR) (by omega))
  · exact degLt_mono dR (by omega)
  · exact degLt_mono (degLt_X_pow_mul dT _) (by omega)

/-! ### The derived vectors -/

/-- The derived vectors of a run. -/
def HprRun.derived (s : HprRun F) : HprDerived F :=
  let c12 := power s.omega (-1)
  let c13 := 1 / (s.gamma * s.omega)
  ⟨vectorPolyMulNoDict s.h s.w s.omega, vectorReverseOmega s.h s.omega,
    vectorPolyMulNoDict s.h s.u s.omega, vectorPolyMulNoDict s.h s.y s.omega,
    vectorPolyMulNoDict s.w1 s.w1 s.omega, vectorPolyMulNoDict s.x s.s s.omega,
    vectorPolyMulNoDict s.w1 s.s s.omega,
    vectorPolyMulNoDict s.h s.s s.omega, vectorPolyMulNoDict s.h s.v s.omega,
    vectorPowerMul s.s c12 s.H, vectorPowerMul s.s c13 s.H, vectorPowerMul s.s c12 (-s.H + s.S),
    vectorPowerMul s.h c12 (3 * s.K + 1), vectorPowerMul s.h c13 (3 * s.K + 1),
    vectorPowerMul s.h c12 0, vectorPowerMul (vectorReverseOmega s.h s.omega) 1 s.S,
    vectorPowerMul s.w1 c12 s.K, vectorPowerMul s.r c12 (3 * s.K + s.S + 1),
    vectorPowerMul s.t c12 (2 * s.K + s.S + 2),
    powerPowerMul c12 s.H 1 s.H, powerPowerMul c12 (3 * s.K + 1) 1 (3 * s.K + 1),
    powerPowerMul c12 s.S 1 s.S⟩

theorem HprRun.derive_ok (fft : FftParams F) (hf : FftOk fft) (s : HprRun F) (hs : s.Good)
    (hω : s.omega ≠ 0) (hsz : 2 * (3 * s.K + 1 + s.S) + 2 ≤ 2 ^ fft.twoAdicity) :
    s.derive fft = .ok s.derived := by
  obtain ⟨hH, hK, hS, hγ, lx, lu, lw, lv, ly, lw1, ls, lh, lr⟩ := hs
  obtain ⟨_, a1, a2, -⟩ := C05_vector_poly_mul fft hf s.h s.w s.omega (by omega)
  obtain ⟨_, b1, b2, -⟩ := C05_vector_poly_mul fft hf s.h s.u s.omega (by omega)
  obtain ⟨_, c1, c2, -⟩ := C05_vector_poly_mul fft hf s.h s.y s.omega (by omega)
  obtain ⟨_, d1, d2, -⟩ := C05_vector_poly_mul fft hf s.w1 s.w1 s.omega (by omega)
  obtain ⟨_, e1, e2, -⟩ := C05_vector_poly_mul fft hf s.x s.s s.omega (by omega)
  obtain ⟨_, i1, i2, -⟩ := C05_vector_poly_mul fft hf s.w1 s.s s.omega (by omega)
  obtain ⟨_, f1, f2, -⟩ := C05_vector_poly_mul fft hf s.h s.s s.omega (by omega)
  obtain ⟨_, g1, g2, -⟩ := C05_vector_poly_mul fft hf s.h s.v s.omega (by omega)
  unfold HprRun.derive
  rw [divR_ok (mul_ne_zero hγ hω), a1, b1, c1, d1, e1, i1, f1, g1, a2, b2, c2, d2, e2, i2, f2, g2]
  rfl

/-- Without an invertible `ω` the prover aborts. -/
theorem HprRun.derive_panic (fft : FftParams F) (s : HprRun F) (hω : s.omega = 0) :
    s.derive fft = .error .panic := by
  unfold HprRun.derive
  rw [hω, mul_zero, divR_zero]; rfl

set_option maxHeartbeats 2000000 in
theorem HprRun.hAtRep (s : HprRun F) (hs : s.Good) (hω : s.omega ≠ 0) :
    LRep (s.hAt s.derived) (hadamardLaurent s.omega s.polys) := by
  obtain ⟨hH, hK, hS, hγ, lx, lu, lw, lv, ly, lw1, ls, lh, lr⟩ := hs
  have hXp : ∀ k : ℕ, toLaurent (X ^ k : Polynomial F) = (T (k : ℤ) : F[T;T⁻¹]) :=
    fun k => Polynomial.toLaurent_X_pow k
  have hOp := fun k => omegaInv_X_pow s.omega k
  have hpi := power_inv hω
  have hγω : s.gamma * s.omega ≠ 0 := mul_ne_zero hγ hω
  have lg := fun v => lrep_left_geom' v s.omega (power s.omega (-1)) hω hpi
  have lgγ := fun v => lrep_left_geom' v (s.gamma * s.omega) (1 / (s.gamma * s.omega)) hγω
    (one_div _)
  have p1 : LRep (fun i => s.mu * power s.omega (s.H - 1)
        * vectorIndex s.derived.v10 (minusI64 i (2 - s.H))
      + -power (s.gamma * s.omega) (s.H - 1)
        * vectorIndex s.derived.v11 (minusI64 i (2 - s.H)))
      (omegaInv s.omega (Polynomial.C s.mu * geomPoly 1 s.H - geomPoly s.gamma s.H)
        * toLaurent (polyOf s.s)) := by
    refine (LRep.congrf (((lg s.s 0 s.H 0 (2 - s.H) (by push_cast; ring) (s.H - 1)
      (by push_cast; ring) s.H rfl).cmul s.mu).sub
      (lgγ s.s 0 s.H 0 (2 - s.H) (by push_cast; ring) (s.H - 1)
      (by push_cast; ring) s.H rfl)) (fun i => ?_)).congr ?_
    · simp only [HprRun.derived]; ring
    · rw [map_sub (omegaInv s.omega), map_mul (omegaInv s.omega) (Polynomial.C s.mu), omegaInv_C,
        omegaInv_geom_scale s.omega s.gamma, T_zero, pow_zero, one_mul, one_mul]; ring
  have p2 : LRep (fun i => -power s.omega (s.H - 1)
        * vectorIndex s.derived.v20 (minusI64 i (2 - s.H)))
      (omegaInv s.omega (-geomPoly 1 s.H) * toLaurent (geomPoly 1 s.H)) := by
    refine (LRep.congrf (lrep_left_geom_of s.derived.v20 (geomPoly 1 s.H) s.omega hω 0
      s.H ?_ 0 (2 - s.H) (by push_cast; ring) (s.H - 1) (by push_cast; ring)).neg
      (fun i => ?_)).congr ?_
    · show polyOf (powerPowerMul _ _ _ _) = _
      rw [hpi, polyOf_powerPowerMul _ _ _ _ (by omega) (by omega), mul_comm]
    · ring
    · rw [map_neg, T_zero, pow_zero, one_mul, one_mul]; ring
  have p3 : LRep (fun i => s.alpha * s.nu * power s.omega (3 * s.K)
        * vectorIndex s.derived.v13 (minusI64 i (1 - 3 * s.K))
      + -s.alpha * power (s.gamma * s.omega) (3 * s.K)
        * vectorIndex s.derived.v14 (minusI64 i (1 - 3 * s.K)))
      (omegaInv s.omega (Polynomial.C s.alpha * (Polynomial.C s.nu * geomPoly 1 (3 * s.K + 1)
        - geomPoly s.gamma (3 * s.K + 1))) * toLaurent (polyOf s.h)) := by
    refine (LRep.congrf (((lg s.h 0 (3 * s.K + 1) 0 (1 - 3 * s.K) (by push_cast; ring) (3 * s.K)
      (by push_cast; ring) (3 * s.K + 1) (by push_cast; ring)).cmul (s.alpha * s.nu)).sub
      ((lgγ s.h 0 (3 * s.K + 1) 0 (1 - 3 * s.K) (by push_cast; ring) (3 * s.K)
      (by push_cast; ring) (3 * s.K + 1) (by push_cast; ring)).cmul s.alpha))
      (fun i => ?_)).congr ?_
    · simp only [HprRun.derived]; ring
    · rw [map_mul (omegaInv s.omega) (Polynomial.C s.alpha), map_sub (omegaInv s.omega),
        map_mul (omegaInv s.omega) (Polynomial.C s.nu), omegaInv_C, omegaInv_C,
        omegaInv_geom_scale s.omega s.gamma, T_zero, pow_zero, one_mul, one_mul]
      simp only [map_mul]; ring
  have p4 : LRep (fun i => -s.alpha * power s.omega (3 * s.K)
        * vectorIndex s.derived.v21 (minusI64 i (1 - 3 * s.K)))
      (omegaInv s.omega (-(Polynomial.C s.alpha * geomPoly 1 (3 * s.K + 1)))
        * toLaurent (geomPoly 1 (3 * s.K + 1))) := by
    refine (LRep.congrf ((lrep_left_geom_of s.derived.v21 (geomPoly 1 (3 * s.K + 1)) s.omega hω 0
      (3 * s.K + 1) ?_ 0 (1 - 3 * s.K) (by push_cast; ring) (3 * s.K) (by push_cast; ring)).cmul
      s.alpha).neg (fun i => ?_)).congr ?_
    · show polyOf (powerPowerMul _ _ _ _) = _
      rw [hpi, polyOf_powerPowerMul _ _ _ _ (by omega) (by omega), mul_comm]
    · ring
    · rw [map_neg, map_mul (omegaInv s.omega) (Polynomial.C s.alpha), omegaInv_C, T_zero, pow_zero,
        one_mul, one_mul]; ring
  have p5 : LRep (fun i => power s.alpha 2 * power s.omega (3 * s.K + s.S)
        * vectorIndex s.derived.v12 (minusI64 i (-3 * s.K - s.S + 1)))
      (omegaInv s.omega (Polynomial.C (s.alpha ^ 2) * (X ^ (s.H + (3 * s.K + 1))
        * geomPoly 1 (s.S - s.H))) * toLaurent (polyOf s.s)) := by
    refine (LRep.congrf ((lg s.s (s.H + (3 * s.K + 1)) (s.S - s.H) 0 (-3 * s.K - s.S + 1) (by omega)
      (3 * s.K + s.S) (by omega) (-s.H + s.S) (by omega)).cmul (s.alpha ^ 2))
      (fun i => ?_)).congr ?_
    · simp only [HprRun.derived, power_two]; ring
    · rw [map_mul (omegaInv s.omega) (Polynomial.C _), omegaInv_C, T_zero, one_mul]; ring
  have p6 : LRep (fun i => -power s.alpha 4 * s.mu * vectorIndex s.derived.v1
        (minusI64 i (3 * s.K - shiftMinusOne s.h + 2))
      + -power s.alpha 4 * s.nu * vectorIndex s.derived.v3
        (minusI64 i (3 * s.K - shiftMinusOne s.h + 2))
      + power s.alpha 4 * vectorIndex s.derived.v4 (minusI64 i (3 * s.K - shiftMinusOne s.h + 2))
      + power s.alpha 4 * s.mu * s.nu * vectorIndex s.derived.v16
        (minusI64 i (3 * s.K - shiftMinusOne s.h + 2)))
      (omegaInv s.omega (Polynomial.C (s.alpha ^ 4) * polyOf s.h)
        * toLaurent (X ^ (3 * s.K + 1) * (polyOf s.y - Polynomial.C s.mu * polyOf s.w
          - Polynomial.C s.nu * polyOf s.u + Polynomial.C (s.mu * s.nu) * geomPoly 1 s.S))) := by
    refine (((((lrep_polyMul s.h s.w s.omega (3 * s.K + 2) _ (by ring)).cmul
        (-power s.alpha 4 * s.mu)).add
      ((lrep_polyMul s.h s.u s.omega (3 * s.K + 2) _ (by ring)).cmul (-power s.alpha 4 * s.nu))).add
      ((lrep_polyMul s.h s.y s.omega (3 * s.K + 2) _ (by ring)).cmul (power s.alpha 4))).add
      ((lrep_rev_powerMul s.h s.omega 1 s.S (Or.inl (by omega)) (3 * s.K + 2) _ (by ring)).cmul
        (power s.alpha 4 * s.mu * s.nu))).congr ?_
    rw [power_four, map_mul toLaurent, hXp,
      show (3 * (s.K : ℤ) + 2 - 1) = ((3 * s.K + 1 : ℕ) : ℤ) by push_cast; ring]
    simp only [map_mul, map_add, map_sub, map_neg, omegaInv_C, Polynomial.toLaurent_C, map_pow]
    ring
  have p7 : LRep (fun i => -power s.alpha 4 * power s.omega (3 * s.K + s.S)
        * vectorIndex s.derived.v22 (minusI64 i (-s.S + 2)))
      (omegaInv s.omega (-(Polynomial.C (s.alpha ^ 4) * (X ^ (3 * s.K + 1) * geomPoly 1 s.S)))
        * toLaurent (X ^ (3 * s.K + 1) * geomPoly 1 s.S)) := by
    refine (LRep.congrf ((lrep_left_geom_of s.derived.v22 (geomPoly 1 s.S) s.omega hω (3 * s.K + 1)
      s.S ?_ ((3 * s.K + 1 : ℕ) : ℤ) (-s.S + 2) (by ring) (3 * s.K + s.S)
      (by push_cast; ring)).cmul (s.alpha ^ 4)).neg (fun i => ?_)).congr ?_
    · show polyOf (powerPowerMul _ _ _ _) = _
      rw [hpi, polyOf_powerPowerMul _ _ _ _ (by omega) (by omega), mul_comm]
    · rw [power_four]; ring
    · rw [map_neg, map_mul (omegaInv s.omega) (Polynomial.C _), omegaInv_C, map_mul toLaurent, hXp]
      ring
  have p8 : LRep (fun i => power s.alpha 5 * power s.omega (2 * s.K + s.S + 1)
        * vectorIndex s.derived.v5 (minusI64 i (-s.K - shiftMinusOne s.w1 + 1)))
      (omegaInv s.omega (Polynomial.C (s.alpha ^ 5) * (X ^ (2 * s.K + 1 + s.S) * polyOf s.w1))
        * toLaurent (X ^ (s.K + 1 + s.S) * polyOf s.w1)) := by
    refine ((lrep_polyMul s.w1 s.w1 s.omega (-s.K + 1) _ (by ring)).cmul _).congr ?_
    rw [map_mul (omegaInv s.omega), map_mul (omegaInv s.omega), omegaInv_C, map_mul toLaurent, hOp,
      hXp, power_pos s.omega _ (2 * s.K + 1 + s.S) (by omega) (by push_cast; ring), power_five]
    have : (T (-((2 * s.K + 1 + s.S : ℕ) : ℤ)) : F[T;T⁻¹]) * T ((s.K + 1 + s.S : ℕ) : ℤ)
        = T (-(s.K : ℤ) + 1 - 1) := by rw [← T_add]; congr 1; push_cast; ring
    rw [← this, map_mul C]; ring
  have p9 : LRep (fun i => -power s.alpha 5 * power s.omega (3 * s.K + s.S)
        * vectorIndex s.derived.v17 (minusI64 i (2 - 3 * s.K)))
      (omegaInv s.omega (-(Polynomial.C (s.alpha ^ 5) * (X ^ (2 * s.K + 1 + s.S) * geomPoly 1 s.K)))
        * toLaurent (X ^ (1 + s.S) * polyOf s.w1)) := by
    refine (LRep.congrf ((lg s.w1 (2 * s.K + 1 + s.S) s.K ((1 + s.S : ℕ) : ℤ)
      (2 - 3 * s.K) (by push_cast; ring) (3 * s.K + s.S) (by push_cast; ring) s.K rfl).cmul
      (s.alpha ^ 5)).neg (fun i => ?_)).congr ?_
    · simp only [HprRun.derived, power_five]; ring
    · rw [map_neg, map_mul (omegaInv s.omega) (Polynomial.C _), omegaInv_C, map_mul toLaurent, hXp]
      ring
  have p10 : LRep (fun i => power s.alpha 6
        * vectorIndex s.derived.v6 (minusI64 i (1 - shiftMinusOne s.x))
      + power s.alpha 6 * power s.omega s.H * vectorIndex s.s (minusI64 i (1 - s.H))
      + power s.alpha 6 * power s.omega (s.H + 1)
        * vectorIndex s.derived.v7 (minusI64 i (-s.H - shiftMinusOne s.w1)))
      (omegaInv s.omega (Polynomial.C (s.alpha ^ 6) * hprAsg s.H (polyOf s.x) (polyOf s.w1))
        * toLaurent (polyOf s.s)) := by
    refine ((((lrep_polyMul s.x s.s s.omega 1 _ rfl).cmul (power s.alpha 6)).add
      (((rep_vec s.s).lrep.minus (1 - s.H)).cmul (power s.alpha 6 * power s.omega s.H))).add
      ((lrep_polyMul s.w1 s.s s.omega (-s.H) _ (by ring)).cmul
        (power s.alpha 6 * power s.omega (s.H + 1)))).congr ?_
    rw [power_six, sub_self, T_zero, power_pos s.omega _ s.H hH rfl,
      power_pos s.omega _ (s.H + 1) (by omega) (by push_cast; ring), hprAsg,
      map_mul (omegaInv s.omega), omegaInv_C, map_add (omegaInv s.omega), map_add (omegaInv s.omega),
      map_mul (omegaInv s.omega) (X ^ (s.H + 1)), hOp, hOp,
      show (1 - (s.H : ℤ) - 1) = -(s.H : ℤ) by ring,
      show (-(s.H : ℤ) - 1) = -((s.H + 1 : ℕ) : ℤ) by push_cast; ring, map_mul C, map_mul C]
    ring
  have p12 : LRep (fun i => -power s.alpha 6 * s.beta * power s.omega s.H
        * vectorIndex s.derived.v8 (minusI64 i (-s.H - shiftMinusOne s.h + 1)))
      (omegaInv s.omega (-(Polynomial.C (s.alpha ^ 6 * s.beta) * (X ^ s.H * polyOf s.h)))
        * toLaurent (polyOf s.s)) := by
    refine ((lrep_polyMul s.h s.s s.omega (-s.H + 1) _ (by ring)).cmul _).congr ?_
    rw [power_six, power_pos s.omega _ s.H (by omega) rfl, add_sub_cancel_right]
    simp only [map_neg, map_mul, omegaInv_C, hOp, map_pow]; ring
  have p13 : LRep (fun i => -power s.alpha 6 * s.beta
        * vectorIndex s.derived.v9 (minusI64 i (3 * s.K - shiftMinusOne s.h + 2)))
      (omegaInv s.omega (-(Polynomial.C (s.alpha ^ 6 * s.beta) * polyOf s.h))
        * toLaurent (X ^ (3 * s.K + 1) * polyOf s.v)) := by
    refine ((lrep_polyMul s.h s.v s.omega (3 * s.K + 2) _ (by ring)).cmul _).congr ?_
    rw [power_six, map_mul toLaurent, hXp,
      show (3 * (s.K : ℤ) + 2 - 1) = ((3 * s.K + 1 : ℕ) : ℤ) by push_cast; ring]
    simp only [map_neg, map_mul, omegaInv_C, map_pow]; ring
  have p14 : LRep (fun i => -power s.alpha 6 * power s.omega (3 * s.K + s.S)
        * vectorIndex s.derived.v18 (minusI64 i (-3 * s.K - s.S + 1))
      + power s.alpha 6 * power s.omega (3 * s.K + s.S)
        * vectorIndex s.derived.v18 (minusI64 i (-3 * s.K - s.S + 2)))
      (omegaInv s.omega (-(Polynomial.C (s.alpha ^ 6) * geomPoly 1 (3 * s.K + 1 + s.S)))
        * toLaurent (polyOf s.r - X * polyOf s.r)) := by
    have a := fun k m h => lg s.r 0 (3 * s.K + 1 + s.S) k m h (3 * s.K + s.S) (by push_cast; ring)
      (3 * s.K + s.S + 1) (by push_cast; ring)
    refine (LRep.congrf (((a 1 (-3 * s.K - s.S + 2) (by push_cast; ring)).cmul (s.alpha ^ 6)).sub
      ((a 0 (-3 * s.K - s.S + 1) (by push_cast; ring)).cmul (s.alpha ^ 6))) (fun i => ?_)).congr ?_
    · simp only [HprRun.derived, power_six]; ring
    · rw [map_neg, map_mul (omegaInv s.omega) (Polynomial.C _), omegaInv_C, map_sub toLaurent,
        map_mul toLaurent, Polynomial.toLaurent_X, T_zero, pow_zero, one_mul]; ring
  have p15 : LRep (fun i => power s.alpha 7 * power s.omega (3 * s.K + s.S)
        * vectorIndex s.r (minusI64 i (2 - (3 * s.K + s.S + 1))))
      (omegaInv s.omega (Polynomial.C (s.alpha ^ 7) * X ^ (3 * s.K + s.S))
        * toLaurent (polyOf s.r)) := by
    refine (((rep_vec s.r).lrep.minus (2 - (3 * s.K + s.S + 1))).cmul
      (power s.alpha 7 * power s.omega (3 * s.K + s.S))).congr ?_
    rw [power_seven, power_pos s.omega _ (3 * s.K + s.S) (by omega) (by push_cast; ring),
      map_mul (omegaInv s.omega), omegaInv_C, hOp,
      show (2 - (3 * (s.K : ℤ) + s.S + 1) - 1) = -((3 * s.K + s.S : ℕ) : ℤ) by push_cast; ring,
      map_mul C]; ring
  have p16 : LRep (fun i => -power s.omega (5 * s.K + 2 * s.S + 2)
        * vectorIndex s.derived.v19 (minusI64 i (-2 * s.K - s.S - 1)))
      (omegaInv s.omega (-(X ^ (3 * s.K + 1 + s.S) * geomPoly 1 (2 * s.K + s.S + 2)))
        * toLaurent (X ^ (3 * s.K + 1 + s.S - 1) * polyOf s.t)) := by
    refine (LRep.congrf (lg s.t (3 * s.K + 1 + s.S) (2 * s.K + s.S + 2)
      ((3 * s.K + 1 + s.S - 1 : ℕ) : ℤ)
      (-2 * s.K - s.S - 1) (by omega) (5 * s.K + 2 * s.S + 2) (by omega)
      (2 * s.K + s.S + 2) (by omega)).neg (fun i => ?_)).congr ?_
    · simp only [HprRun.derived]; ring
    · rw [map_neg, map_mul toLaurent, hXp]; ring
  have p17 : LRep (fun i => power s.alpha 3 * power s.omega (3 * s.K + s.S)
        * vectorIndex s.derived.v15 (minusI64 i (-3 * s.K - s.S + 1))) (0 : F[T;T⁻¹]) := by
    refine ((lrep_powerMul s.h (power s.omega (-1)) 0
      (Or.inr (by rw [hpi]; exact inv_ne_zero hω)) (-3 * s.K - s.S + 1)).cmul _).congr ?_
    simp [geomPoly]
  refine (LRep.congrf (((((((((((((((p1.add p2).add p3).add p4).add p5).add p6).add p7).add
    p8).add p9).add p10).add p12).add p13).add p14).add p15).add p16).add p17)
    (fun i => ?_)).congr ?_
  · simp only [HprRun.hAt]; ring
  · simp only [hadamardLaurent, HprRun.polys, HprRun.base, hprBase, blindPair, List.cons_append,
      List.nil_append, List.map_cons, List.map_nil, List.sum_cons, List.sum_nil]
    ring

end VO
