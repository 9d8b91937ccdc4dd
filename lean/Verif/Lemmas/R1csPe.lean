import Verif.Lemmas.R1csSnark
import Verif.Spec.R1csPe
import Verif.Model.R1csPe

set_option linter.unusedSectionVars false

namespace VO
open Spec
open Polynomial (X toLaurent)
open LaurentPolynomial

variable {F : Type} [Field F] [DecidableEq F]

theorem power_nine (a : F) : power a 9 = a ^ 9 := by
  have := power_natCast (a := a) (n := 9) (Or.inl (by omega)); simpa using this
theorem power_ten (a : F) : power a 10 = a ^ 10 := by
  have := power_natCast (a := a) (n := 10) (Or.inl (by omega)); simpa using this

theorem inverseR_ok {a : F} (h : a ≠ 0) : inverseR a = .ok a⁻¹ := by rw [inverseR, if_neg h]
theorem inverseR_zero : inverseR (0 : F) = .error .panic := by rw [inverseR, if_pos rfl]

/-! ### The run -/

/-- Shape of the vectors of a run. -/
structure R1csPeRun.Good (s : R1csPeRun F) : Prop where
  hH : 1 ≤ s.H
  hS : 3 * s.H ≤ s.S
  hK : 1 ≤ s.K
  hKS : s.K ≤ s.S
  hγ : s.gamma ≠ 0
  lx : s.x.length + 1 ≤ s.K
  lu : s.u.length = s.S
  lw : s.w.length = s.S
  lv : s.v.length = s.S
  ly : s.y.length = s.S
  ly1 : s.y1.length = s.S + 1
  lwv : s.wv.length = s.S + 1
  lr : s.r.length = 3 * s.H
  lc : s.c.length = s.K
  lrnu : s.rnu.length = s.K
  lt : s.t.length = s.S
  lrt : s.rt.length = s.S + 1

/-- The unblinded polynomial pairs of a run. -/
noncomputable def R1csPeRun.base (s : R1csPeRun F) : List (Polynomial F × Polynomial F) :=
  r1csPeBase s.H s.K s.S s.ell s.gamma s.mu s.nu s.beta s.alpha (polyOf s.u) (polyOf s.w)
    (polyOf s.v) (polyOf s.y) (polyOf s.x) (polyOf s.y1) (polyOf s.wv) (polyOf s.r) (polyOf s.c)
    (polyOf s.rnu) (polyOf s.t) (polyOf s.rt)

/-- The polynomial pairs of a run. -/
noncomputable def R1csPeRun.polys (s : R1csPeRun F) : List (Polynomial F × Polynomial F) :=
  s.base ++ [blindPair s.S (2 * s.H + 1) (polyOf s.t1)]

set_option maxHeartbeats 1000000 in
theorem R1csPeRun.t1At_eq (s : R1csPeRun F) (hs : s.Good) (j : ℕ) :
    s.t1At ((j : ℤ) + 1 + s.S) = hadamardEntry s.base (s.S + j) := by
  obtain ⟨hH, hS, hK, hKS, hγ, lx, lu, lw, lv, ly, ly1, lwv, lr, lc, lrnu, lt, lrt⟩ := hs
  set n := s.S with hn
  set J : ℤ := (j : ℤ) + 1 + n with hJ
  have hk : ∀ p : Polynomial F, zc p (J - 1) = p.coeff (n + j) := by
    intro p
    rw [show J - 1 = ((n + j : ℕ) : ℤ) by omega, zc_natCast]
  have r1 : ∀ v : List F, vectorIndex v J = (polyOf v).coeff (n + j) := fun v => by
    rw [← hk]; exact rep_vec v _
  have r2 : ∀ (v : List F) (k : ℕ) (m : ℤ), m = k + 1 → vectorIndex v (minusI64 J m)
      = (X ^ k * polyOf v).coeff (n + j) := fun v k m hm => by
    rw [← hk]; exact (rep_vec v).minus k hm _
  have r3 : ∀ (a : ℕ) (b : ℤ), b = a → rangeIndex 1 b J = (geomPoly (1 : F) a).coeff (n + j) :=
    fun a b hb => by
    rw [← hk, hb]; exact rep_range _ _
  have r4 : ∀ (a : ℕ) (b : ℤ), b = a →
      powerVectorIndex s.gamma b J = (geomPoly s.gamma a).coeff (n + j) := fun a b hb => by
    rw [← hk, hb]; exact rep_powers s.gamma hγ _ _
  have r5 : ∀ (a k : ℕ) (b m : ℤ), b = a → m = k + 1 → rangeIndex 1 b (minusI64 J m)
      = (X ^ k * geomPoly (1 : F) a).coeff (n + j) := fun a k b m hb hm => by
    rw [← hk, hb]; exact (rep_range a).minus k hm _
  have r6 : (delta J 1 : F) = (1 : Polynomial F).coeff (n + j) := by
    rw [← hk]; exact rep_delta1 _
  have q1 : (X ^ (3 * s.H) * geomPoly (1 : F) (n - 3 * s.H)).coeff (n + j) = 0 := by
    rw [coeff_X_pow_geom, if_neg (by omega)]
  have q2 : (X ^ s.K * geomPoly (1 : F) (n - s.K)).coeff (n + j) = 0 := by
    rw [coeff_X_pow_geom, if_neg (by omega)]
  have q3 : (X ^ (n - 1) : Polynomial F).coeff (n + j) = 0 := by
    rw [Polynomial.coeff_X_pow, if_neg (by omega)]
  unfold R1csPeRun.t1At
  simp only [minusI64_one, ← hn]
  rw [r3 s.K _ rfl, r1 s.y1, r1 s.r, r3 n _ rfl, r1 s.rt, r2 s.rt 1 _ (by norm_num), r1 s.rnu,
    r1 s.c, r1 s.t, r1 s.v, r1 s.w, r1 s.u, r1 s.y, r2 s.y1 (2 * s.H) _ (by push_cast; ring),
    r5 s.H (2 * s.H) _ _ rfl (by push_cast; ring), r2 s.y1 s.H _ rfl,
    r2 s.x 1 _ (by norm_num), r6, r2 s.wv (s.ell + 1) _ (by push_cast; ring),
    r4 s.K _ rfl, r3 (3 * s.H) _ (by push_cast; ring), r4 (3 * s.H) _ (by push_cast; ring),
    power_six, power_eight, power_nine]
  simp only [R1csPeRun.base, r1csPeBase, fullPoly, hadamardEntry, List.map_cons, List.map_nil,
    List.sum_cons, ← hn,
    List.sum_nil, Polynomial.coeff_C_mul, Polynomial.coeff_neg, Polynomial.coeff_add,
    Polynomial.coeff_sub, q1, q2, q3, pow_one]
  ring

theorem R1csPeRun.base_high (s : R1csPeRun F) (hs : s.Good) (i : ℕ) (hi : s.S < i) :
    hadamardEntry s.base i = 0 := by
  obtain ⟨hH, hS, hK, hKS, hγ, lx, lu, lw, lv, ly, ly1, lwv, lr, lc, lrnu, lt, lrt⟩ := hs
  have hz0 : ∀ v : List F, v.length ≤ i → (polyOf v).coeff i = 0 := by
    intro v hv; rw [coeff_polyOf, List.getD_eq_default _ _ (by omega)]
  have q1 : ∀ a b : ℕ, a + b ≤ i → (X ^ a * geomPoly (1 : F) b).coeff i = 0 := by
    intro a b h; rw [coeff_X_pow_geom, if_neg (by omega)]
  have q3 : (X ^ (s.S - 1) : Polynomial F).coeff i = 0 := by
    rw [Polynomial.coeff_X_pow, if_neg (by omega)]
  have g1 : ∀ (a : F) (n : ℕ), n ≤ i → (geomPoly a n).coeff i = 0 := by
    intro a n h; rw [coeff_geomPoly, if_neg (by omega)]
  simp only [R1csPeRun.base, r1csPeBase, hadamardEntry, List.map_cons, List.map_nil, List.sum_cons,
    List.sum_nil, Polynomial.coeff_C_mul, Polynomial.coeff_neg, 
    Polynomial.coeff_sub, q3, hz0 s.r (by omega), hz0 s.rnu (by omega), hz0 s.c (by omega),
    hz0 s.t (by omega), hz0 s.y1 (by omega), hz0 s.rt (by omega),
    g1 _ (3 * s.H) (by omega),
    g1 _ s.K (by omega), g1 _ s.S (by omega), q1 (2 * s.H) s.H (by omega)]
  ring

theorem R1csPeRun.mkT1_ok (s : R1csPeRun F) (hs : s.Good) (rng : ℕ → F) :
    (s.mkT1 rng).length = 2 * s.H + 3 ∧
    polyOf (s.mkT1 rng) = blindPoly s.S (2 * s.H + 1) (rng 3) s.base := by
  have h1 := hs.hH; have h2 := hs.hS
  have hL : (2 * (s.H : ℤ) + 2) = ((2 * s.H + 2 : ℕ) : ℤ) := by omega
  unfold R1csPeRun.mkT1
  rw [hL, sampleVec_one]
  refine ⟨by simp [length_expressionVector]; omega, ?_⟩
  apply polyOf_blind _ _ _ (by omega)
  · intro j; exact s.t1At_eq hs j
  · intro j hj; exact s.base_high hs _ (by omega)

theorem R1csPeRun.blind_degree (s : R1csPeRun F) (hs : s.Good) (δ : F) :
    (blindPoly s.S (2 * s.H + 1) δ s.base).degree < ((2 : ℕ) : WithBot ℕ) := by
  exact degree_blindPoly _ _ 1 δ _ (fun j hj => s.base_high hs _ (by omega))

/-! ### Degrees -/

theorem r1csPePolys_degA (H K S ℓ B U : ℕ) (γ μ ν β α : F)
    (Pu Pw Pv Py V Y W P Cc Q E R T : Polynomial F) (hH : 1 ≤ H) (hS : 3 * H ≤ S) (hK : K ≤ S)
    (dY : Y.degree < ((B + 1 : ℕ) : WithBot ℕ)) (dC : Cc.degree < ((B + 1 : ℕ) : WithBot ℕ))
    (dE : E.degree < ((B + 1 : ℕ) : WithBot ℕ)) (h1 : B + 2 * H ≤ U) (h2 : S + 2 * H ≤ U) :
    ∀ p ∈ r1csPePolys H K S ℓ γ μ ν β α Pu Pw Pv Py V Y W P Cc Q E R T,
      p.1.degree < ((U + 1 : ℕ) : WithBot ℕ) := by
  intro p hp
  have g := fun (a : F) m => degree_geomPoly_lt a m
  simp only [r1csPePolys, r1csPeBase, blindPair, List.cons_append, List.nil_append, List.mem_cons,
    List.not_mem_nil, or_false] at hp
  rcases hp with rfl | rfl | rfl | rfl | rfl | rfl | rfl | rfl | rfl | rfl | rfl | rfl | rfl | rfl |
    rfl | rfl | rfl | rfl | rfl
  · exact degLt_sub (degLt_C_mul (degLt_mono (g _ _) (by omega)) _) (degLt_mono (g _ _) (by omega))
  · exact degLt_neg (degLt_mono (g _ _) (by omega))
  · exact degLt_C_mul (degLt_sub (degLt_C_mul (degLt_mono (g _ _) (by omega)) _)
      (degLt_mono (g _ _) (by omega))) _
  · exact degLt_neg (degLt_C_mul (degLt_mono (g _ _) (by omega)) _)
  · exact degLt_C_mul (degLt_mono (degLt_X_pow_mul (g _ _) _) (by omega)) _
  · exact degLt_C_mul (degLt_mono (degLt_X_pow_mul (g _ _) _) (by omega)) _
  · exact degLt_C_mul (degLt_mono (degLt_X_pow_mul (g _ _) _) (by omega)) _
  · exact degLt_C_mul (degLt_mono dE (by omega)) _
  · exact degLt_neg (degLt_C_mul (degLt_mono (g _ _) (by omega)) _)
  · exact degLt_C_mul (degLt_mono (degLt_X_pow_mul (g _ _) _) (by omega)) _
  · exact degLt_C_mul (degLt_mono (degLt_X_pow_mul dY _) (by omega)) _
  · exact degLt_neg (degLt_C_mul (degLt_mono (degLt_X_pow_mul (g _ _) _) (by omega)) _)
  · exact degLt_C_mul (degLt_mono dC (by omega)) _
  · exact degLt_neg (degLt_C_mul (degLt_mono dY (by omega)) _)
  · exact degLt_C_mul (degLt_mono dC (by omega)) _
  · exact degLt_neg (degLt_C_mul (degLt_mono dE (by omega)) _)
  · exact degLt_neg (degLt_C_mul (degLt_mono (g _ _) (by omega)) _)
  · exact degLt_C_mul (degLt_X_pow _ _ (by omega)) _
  · exact degLt_neg (degLt_mono (degLt_X_pow_mul (g _ _) _) (by omega))

theorem r1csPePolys_degB (H K S ℓ B Bt v U : ℕ) (γ μ ν β α : F)
    (Pu Pw Pv Py V Y W P Cc Q E R T : Polynomial F) (hH : 1 ≤ H) (hS : 3 * H ≤ S) (hK : K ≤ S)
    (dY : Y.degree < ((B + 1 : ℕ) : WithBot ℕ)) (dW : W.degree < ((B + 1 : ℕ) : WithBot ℕ))
    (dP : P.degree < ((B + 1 : ℕ) : WithBot ℕ)) (dC : Cc.degree < ((B + 1 : ℕ) : WithBot ℕ))
    (dQ : Q.degree < ((B + 1 : ℕ) : WithBot ℕ)) (dR : R.degree < ((B + 1 : ℕ) : WithBot ℕ))
    (dT : T.degree < ((Bt + 1 : ℕ) : WithBot ℕ)) (dV : V.degree < (v : WithBot ℕ))
    (du : Pu.degree < ((S + 1 : ℕ) : WithBot ℕ)) (dw : Pw.degree < ((S + 1 : ℕ) : WithBot ℕ))
    (dv : Pv.degree < ((S + 1 : ℕ) : WithBot ℕ)) (dy : Py.degree < ((S + 1 : ℕ) : WithBot ℕ))
    (h1 : B + H ≤ U) (h2 : B + (ℓ + 1) ≤ U) (h3 : S + 1 ≤ U) (h4 : v ≤ U) (h5 : S - 1 + Bt ≤ U) :
    ∀ p ∈ r1csPePolys H K S ℓ γ μ ν β α Pu Pw Pv Py V Y W P Cc Q E R T,
      p.2.degree < ((U + 1 : ℕ) : WithBot ℕ) := by
  intro p hp
  have g := fun (a : F) m => degree_geomPoly_lt a m
  simp only [r1csPePolys, r1csPeBase, blindPair, List.cons_append, List.nil_append, List.mem_cons,
    List.not_mem_nil, or_false] at hp
  rcases hp with rfl | rfl | rfl | rfl | rfl | rfl | rfl | rfl | rfl | rfl | rfl | rfl | rfl | rfl |
    rfl | rfl | rfl | rfl | rfl
  · exact degLt_mono dP (by omega)
  · exact degLt_mono (g _ _) (by omega)
  · exact degLt_mono dQ (by omega)
  · exact degLt_mono (g _ _) (by omega)
  · exact degLt_mono dP (by omega)
  · exact degLt_mono dQ (by omega)
  · exact degLt_mono dC (by omega)
  · exact degLt_mono (degLt_add (degLt_sub (degLt_sub dy (degLt_C_mul dw _))
      (degLt_C_mul du _)) (degLt_C_mul (degLt_mono (g _ _) (Nat.le_succ S)) _)) (by omega)
  · exact degLt_mono (g _ _) (by omega)
  · exact degLt_mono dY (by omega)
  · exact degLt_mono dY (by omega)
  · exact degLt_mono (degLt_X_pow_mul dY _) (by omega)
  · refine degLt_add (degLt_add ?_ (degLt_mono (degLt_X_mul dV) (by omega)))
      (degLt_mono (degLt_X_pow_mul dW _) (by omega))
    have := degLt_C (1 : F) (U + 1) (by omega)
    rwa [map_one] at this
  · exact degLt_mono dP (by omega)
  · exact degLt_mono dQ (by omega)
  · exact degLt_mono dv (by omega)
  · exact degLt_sub (degLt_mono dR (by omega)) (degLt_mono (degLt_X_mul dR) (by omega))
  · exact degLt_mono dR (by omega)
  · exact degLt_mono (degLt_X_pow_mul dT _) (by omega)

/-! ### The derived vectors -/

/-- The derived vectors of a run. -/
def R1csPeRun.derived (a : R1csPeRun F) : R1csPeDerived F :=
  let c13 := a.omega⁻¹
  let c14 := 1 / (a.gamma * a.omega)
  let v2 := vectorReverseOmega a.t a.omega
  ⟨vectorPolyMulNoDict a.t a.w a.omega, v2, vectorPolyMulNoDict a.t a.u a.omega,
    vectorPolyMulNoDict a.t a.y a.omega, vectorPolyMulNoDict a.y1 a.y1 a.omega,
    vectorPolyMulNoDict a.c a.x a.omega, vectorReverseOmega a.c a.omega,
    vectorPolyMulNoDict a.c a.wv a.omega, vectorPolyMulNoDict a.y1 a.r a.omega,
    vectorPolyMulNoDict a.c a.rnu a.omega, vectorPolyMulNoDict a.t a.v a.omega,
    vectorPowerMul a.r c13 (3 * a.H),
    vectorPowerMul a.r c14 (3 * a.H), vectorPowerMul a.r c13 (-3 * a.H + a.S),
    vectorPowerMul a.rnu c13 a.K, vectorPowerMul a.rnu c14 a.K,
    vectorPowerMul a.rnu c13 (-a.K + a.S), vectorPowerMul a.c c13 (-a.K + a.S),
    vectorPowerMul a.t c13 0, vectorPowerMul v2 1 a.S, vectorPowerMul a.y1 c13 (-3 * a.H + a.S),
    vectorPowerMul a.y1 c13 a.H, vectorPowerMul a.rt c13 a.S,
    vectorPowerMul a.t1 c13 (2 * a.H + 1),
    powerPowerMul c13 (3 * a.H) 1 (3 * a.H), powerPowerMul c13 a.K 1 a.K,
    powerPowerMul c13 a.S 1 a.S⟩

theorem R1csPeRun.derive_ok (fft : FftParams F) (hf : FftOk fft) (s : R1csPeRun F) (hs : s.Good)
    (hω : s.omega ≠ 0) (hsz : 2 * s.S + 2 ≤ 2 ^ fft.twoAdicity) :
    s.derive fft = .ok s.derived := by
  obtain ⟨hH, hS, hK, hKS, hγ, lx, lu, lw, lv, ly, ly1, lwv, lr, lc, lrnu, lt, lrt⟩ := hs
  obtain ⟨_, a1, a2, -⟩ := C05_vector_poly_mul fft hf s.t s.w s.omega (by omega)
  obtain ⟨_, b1, b2, -⟩ := C05_vector_poly_mul fft hf s.t s.u s.omega (by omega)
  obtain ⟨_, c1, c2, -⟩ := C05_vector_poly_mul fft hf s.t s.y s.omega (by omega)
  obtain ⟨_, d1, d2, -⟩ := C05_vector_poly_mul fft hf s.y1 s.y1 s.omega (by omega)
  obtain ⟨_, e1, e2, -⟩ := C05_vector_poly_mul fft hf s.c s.x s.omega (by omega)
  obtain ⟨_, f1, f2, -⟩ := C05_vector_poly_mul fft hf s.c s.wv s.omega (by omega)
  obtain ⟨_, g1, g2, -⟩ := C05_vector_poly_mul fft hf s.y1 s.r s.omega (by omega)
  obtain ⟨_, h1, h2, -⟩ := C05_vector_poly_mul fft hf s.c s.rnu s.omega (by omega)
  obtain ⟨_, i1, i2, -⟩ := C05_vector_poly_mul fft hf s.t s.v s.omega (by omega)
  unfold R1csPeRun.derive
  rw [inverseR_ok hω, divR_ok (mul_ne_zero hγ hω), a1, b1, c1, d1, e1, f1, g1, h1, i1, a2, b2, c2, d2,
    e2, f2, g2, h2, i2]; rfl

/-- Without an invertible `ω` the prover aborts. -/
theorem R1csPeRun.derive_panic (fft : FftParams F) (s : R1csPeRun F) (hω : s.omega = 0) :
    s.derive fft = .error .panic := by
  unfold R1csPeRun.derive
  rw [hω, inverseR_zero]; rfl

set_option maxHeartbeats 2000000 in
theorem R1csPeRun.hAtRep (s : R1csPeRun F) (hs : s.Good) (hω : s.omega ≠ 0) :
    LRep (s.hAt s.derived) (hadamardLaurent s.omega s.polys) := by
  obtain ⟨hH, hS, hK, hKS, hγ, lx, lu, lw, lv, ly, ly1, lwv, lr, lc, lrnu, lt, lrt⟩ := hs
  have hXp : ∀ k : ℕ, toLaurent (X ^ k : Polynomial F) = (T (k : ℤ) : F[T;T⁻¹]) :=
    fun k => Polynomial.toLaurent_X_pow k
  have hOp := fun k => omegaInv_X_pow s.omega k
  have hγω : s.gamma * s.omega ≠ 0 := mul_ne_zero hγ hω
  have lg := fun v => lrep_left_geom' v s.omega s.omega⁻¹ hω rfl
  have lgγ := fun v => lrep_left_geom' v (s.gamma * s.omega) (1 / (s.gamma * s.omega)) hγω
    (one_div _)
  have p1 : LRep (fun i => s.mu * power s.omega (3 * s.H - 1)
        * vectorIndex s.derived.v12 (minusI64 i (2 - 3 * s.H))
      + -power (s.gamma * s.omega) (3 * s.H - 1)
        * vectorIndex s.derived.v13 (minusI64 i (2 - 3 * s.H)))
      (omegaInv s.omega (Polynomial.C s.mu * geomPoly 1 (3 * s.H) - geomPoly s.gamma (3 * s.H))
        * toLaurent (polyOf s.r)) := by
    refine (LRep.congrf (((lg s.r 0 (3 * s.H) 0 (2 - 3 * s.H) (by push_cast; ring) (3 * s.H - 1)
      (by push_cast; ring) (3 * s.H) (by push_cast; ring)).cmul s.mu).sub
      (lgγ s.r 0 (3 * s.H) 0 (2 - 3 * s.H) (by push_cast; ring) (3 * s.H - 1)
      (by push_cast; ring) (3 * s.H) (by push_cast; ring))) (fun i => ?_)).congr ?_
    · simp only [R1csPeRun.derived]; ring
    · rw [map_sub (omegaInv s.omega), map_mul (omegaInv s.omega) (Polynomial.C s.mu), omegaInv_C,
        omegaInv_geom_scale s.omega s.gamma, T_zero, pow_zero, one_mul, one_mul]; ring
  have p2 : LRep (fun i => -power s.omega (3 * s.H - 1)
        * vectorIndex s.derived.v25 (minusI64 i (2 - 3 * s.H)))
      (omegaInv s.omega (-geomPoly 1 (3 * s.H)) * toLaurent (geomPoly 1 (3 * s.H))) := by
    refine (LRep.congrf (lrep_left_geom_of s.derived.v25 (geomPoly 1 (3 * s.H)) s.omega hω 0
      (3 * s.H) ?_ 0 (2 - 3 * s.H) (by push_cast; ring) (3 * s.H - 1) (by push_cast; ring)).neg
      (fun i => ?_)).congr ?_
    · show polyOf (powerPowerMul _ _ _ _) = _
      rw [polyOf_powerPowerMul _ _ _ _ (by omega) (by omega), mul_comm]
    · ring
    · rw [map_neg, T_zero, pow_zero, one_mul, one_mul]; ring
  have p3 : LRep (fun i => s.alpha * s.nu * power s.omega (s.K - 1)
        * vectorIndex s.derived.v15 (minusI64 i (2 - s.K))
      + -s.alpha * power (s.gamma * s.omega) (s.K - 1)
        * vectorIndex s.derived.v16 (minusI64 i (2 - s.K)))
      (omegaInv s.omega (Polynomial.C s.alpha * (Polynomial.C s.nu * geomPoly 1 s.K
        - geomPoly s.gamma s.K)) * toLaurent (polyOf s.rnu)) := by
    refine (LRep.congrf (((lg s.rnu 0 s.K 0 (2 - s.K) (by push_cast; ring) (s.K - 1)
      (by push_cast; ring) s.K rfl).cmul (s.alpha * s.nu)).sub
      ((lgγ s.rnu 0 s.K 0 (2 - s.K) (by push_cast; ring) (s.K - 1)
      (by push_cast; ring) s.K rfl).cmul s.alpha)) (fun i => ?_)).congr ?_
    · simp only [R1csPeRun.derived]; ring
    · rw [map_mul (omegaInv s.omega) (Polynomial.C s.alpha), map_sub (omegaInv s.omega),
        map_mul (omegaInv s.omega) (Polynomial.C s.nu), omegaInv_C, omegaInv_C,
        omegaInv_geom_scale s.omega s.gamma, T_zero, pow_zero, one_mul, one_mul]
      simp only [map_mul]; ring
  have p4 : LRep (fun i => -s.alpha * power s.omega (s.K - 1)
        * vectorIndex s.derived.v26 (minusI64 i (2 - s.K)))
      (omegaInv s.omega (-(Polynomial.C s.alpha * geomPoly 1 s.K))
        * toLaurent (geomPoly 1 s.K)) := by
    refine (LRep.congrf ((lrep_left_geom_of s.derived.v26 (geomPoly 1 s.K) s.omega hω 0
      s.K ?_ 0 (2 - s.K) (by push_cast; ring) (s.K - 1) (by push_cast; ring)).cmul s.alpha).neg
      (fun i => ?_)).congr ?_
    · show polyOf (powerPowerMul _ _ _ _) = _
      rw [polyOf_powerPowerMul _ _ _ _ (by omega) (by omega), mul_comm]
    · ring
    · rw [map_neg, map_mul (omegaInv s.omega) (Polynomial.C s.alpha), omegaInv_C, T_zero, pow_zero,
        one_mul, one_mul]; ring
  -- a shifted range up to `S` on the left
  have tail : ∀ (v : List F) (k : ℕ) (a : F) (n' : ℤ), k ≤ s.S → n' = -(k : ℤ) + s.S →
      LRep (fun i => a * power s.omega (s.S - 1)
        * vectorIndex (vectorPowerMul v s.omega⁻¹ n') (minusI64 i (-s.S + 2)))
      (omegaInv s.omega (Polynomial.C a * (X ^ k * geomPoly 1 (s.S - k))) * toLaurent (polyOf v)) := by
    intro v k a n' hk hn'
    refine (LRep.congrf ((lg v k (s.S - k) 0 (-s.S + 2) (by omega)
      (s.S - 1) (by omega) n' (by omega)).cmul a)
      (fun i => ?_)).congr ?_
    · ring
    · rw [map_mul (omegaInv s.omega) (Polynomial.C _), omegaInv_C, T_zero, one_mul]; ring
  have p5 : LRep (fun i => power s.alpha 2 * power s.omega (s.S - 1)
        * vectorIndex s.derived.v14 (minusI64 i (-s.S + 2)))
      (omegaInv s.omega (Polynomial.C (s.alpha ^ 2) * (X ^ (3 * s.H)
        * geomPoly 1 (s.S - 3 * s.H))) * toLaurent (polyOf s.r)) := by
    rw [power_two]; exact tail s.r (3 * s.H) _ _ hS (by push_cast; ring)
  have p6 : LRep (fun i => power s.alpha 3 * power s.omega (s.S - 1)
        * vectorIndex s.derived.v17 (minusI64 i (-s.S + 2)))
      (omegaInv s.omega (Polynomial.C (s.alpha ^ 3) * (X ^ s.K
        * geomPoly 1 (s.S - s.K))) * toLaurent (polyOf s.rnu)) := by
    rw [power_three]; exact tail s.rnu s.K _ _ hKS rfl
  have p7 : LRep (fun i => power s.alpha 4 * power s.omega (s.S - 1)
        * vectorIndex s.derived.v18 (minusI64 i (-s.S + 2)))
      (omegaInv s.omega (Polynomial.C (s.alpha ^ 4) * (X ^ s.K
        * geomPoly 1 (s.S - s.K))) * toLaurent (polyOf s.c)) := by
    rw [power_four]; exact tail s.c s.K _ _ hKS rfl
  have p8 : LRep (fun i => -power s.alpha 6 * s.mu * vectorIndex s.derived.v1
        (minusI64 i (1 - shiftMinusOne s.t))
      + -power s.alpha 6 * s.nu * vectorIndex s.derived.v3 (minusI64 i (1 - shiftMinusOne s.t))
      + power s.alpha 6 * vectorIndex s.derived.v4 (minusI64 i (1 - shiftMinusOne s.t))
      + power s.alpha 6 * s.mu * s.nu * vectorIndex s.derived.v20
        (minusI64 i (1 - shiftMinusOne s.t)))
      (omegaInv s.omega (Polynomial.C (s.alpha ^ 6) * polyOf s.t)
        * toLaurent (polyOf s.y - Polynomial.C s.mu * polyOf s.w
          - Polynomial.C s.nu * polyOf s.u + Polynomial.C (s.mu * s.nu) * geomPoly 1 s.S)) := by
    refine (((((lrep_polyMul s.t s.w s.omega 1 _ rfl).cmul
        (-power s.alpha 6 * s.mu)).add
      ((lrep_polyMul s.t s.u s.omega 1 _ rfl).cmul (-power s.alpha 6 * s.nu))).add
      ((lrep_polyMul s.t s.y s.omega 1 _ rfl).cmul (power s.alpha 6))).add
      ((lrep_rev_powerMul s.t s.omega 1 s.S (Or.inl (by omega)) 1 _ rfl).cmul
        (power s.alpha 6 * s.mu * s.nu))).congr ?_
    rw [power_six, sub_self, T_zero]
    simp only [map_mul, map_add, map_sub, map_neg, omegaInv_C, Polynomial.toLaurent_C, map_pow]
    ring
  have p9 : LRep (fun i => -power s.alpha 6 * power s.omega (s.S - 1)
        * vectorIndex s.derived.v27 (minusI64 i (-s.S + 2)))
      (omegaInv s.omega (-(Polynomial.C (s.alpha ^ 6) * geomPoly 1 s.S))
        * toLaurent (geomPoly 1 s.S)) := by
    refine (LRep.congrf ((lrep_left_geom_of s.derived.v27 (geomPoly 1 s.S) s.omega hω 0
      s.S ?_ 0 (-s.S + 2) (by push_cast; ring) (s.S - 1) (by push_cast; ring)).cmul
        (s.alpha ^ 6)).neg
      (fun i => ?_)).congr ?_
    · show polyOf (powerPowerMul _ _ _ _) = _
      rw [polyOf_powerPowerMul _ _ _ _ (by omega) (by omega), mul_comm]
    · rw [power_six]; ring
    · rw [map_neg, map_mul (omegaInv s.omega) (Polynomial.C _), omegaInv_C, T_zero, pow_zero,
        one_mul, one_mul]; ring
  have p10 : LRep (fun i => power s.alpha 7 * power s.omega (s.S - 1)
        * vectorIndex s.derived.v21 (minusI64 i (-s.S + 2)))
      (omegaInv s.omega (Polynomial.C (s.alpha ^ 7) * (X ^ (3 * s.H)
        * geomPoly 1 (s.S - 3 * s.H))) * toLaurent (polyOf s.y1)) := by
    rw [power_seven]; exact tail s.y1 (3 * s.H) _ _ hS (by push_cast; ring)
  have p11 : LRep (fun i => power s.alpha 8 * power s.omega (2 * s.H)
        * vectorIndex s.derived.v5 (minusI64 i (-2 * s.H - shiftMinusOne s.y1 + 1)))
      (omegaInv s.omega (Polynomial.C (s.alpha ^ 8) * (X ^ (2 * s.H) * polyOf s.y1))
        * toLaurent (polyOf s.y1)) := by
    refine ((lrep_polyMul s.y1 s.y1 s.omega (-2 * s.H + 1) _ (by ring)).cmul _).congr ?_
    rw [power_eight, power_pos s.omega _ (2 * s.H) (by omega) (by push_cast; ring),
      show (-2 * (s.H : ℤ) + 1 - 1) = -((2 * s.H : ℕ) : ℤ) by push_cast; ring]
    simp only [map_mul, omegaInv_C, hOp, map_pow]; ring
  have p12 : LRep (fun i => -power s.alpha 8 * power s.omega (3 * s.H - 1)
        * vectorIndex s.derived.v22 (minusI64 i (2 - 2 * s.H)))
      (omegaInv s.omega (-(Polynomial.C (s.alpha ^ 8) * (X ^ (2 * s.H) * geomPoly 1 s.H)))
        * toLaurent (X ^ s.H * polyOf s.y1)) := by
    refine (LRep.congrf ((lg s.y1 (2 * s.H) s.H s.H
      (2 - 2 * s.H) (by omega) (3 * s.H - 1) (by omega) s.H rfl).cmul (s.alpha ^ 8)).neg
      (fun i => ?_)).congr ?_
    · simp only [R1csPeRun.derived, power_eight]; ring
    · rw [map_neg, map_mul (omegaInv s.omega) (Polynomial.C _), omegaInv_C, map_mul toLaurent, hXp]
      ring
  have p13 : LRep (fun i => power s.alpha 9
        * vectorIndex s.derived.v6 (minusI64 i (2 - shiftMinusOne s.c))
      + power s.alpha 9 * vectorIndex s.derived.v7 (minusI64 i (1 - shiftMinusOne s.c))
      + power s.alpha 9
        * vectorIndex s.derived.v8 (minusI64 i (s.ell - shiftMinusOne s.c + 2)))
      (omegaInv s.omega (Polynomial.C (s.alpha ^ 9) * polyOf s.c)
        * toLaurent (fullPoly s.ell (polyOf s.x) (polyOf s.wv))) := by
    refine ((((lrep_polyMul s.c s.x s.omega 2 _ rfl).cmul (power s.alpha 9)).add
      ((lrep_rev s.c s.omega 1 _ rfl).cmul (power s.alpha 9))).add
      ((lrep_polyMul s.c s.wv s.omega (s.ell + 2) _ (by ring)).cmul (power s.alpha 9))).congr ?_
    have e1 : toLaurent (fullPoly s.ell (polyOf s.x) (polyOf s.wv)) = (1 : F[T;T⁻¹])
        + T (2 - 1) * toLaurent (polyOf s.x) + T ((s.ell : ℤ) + 2 - 1) * toLaurent (polyOf s.wv) := by
      rw [fullPoly, map_add, map_add, map_mul, map_mul, hXp, Polynomial.toLaurent_X, map_one]
      rw [show ((s.ell : ℤ) + 2 - 1) = ((s.ell + 1 : ℕ) : ℤ) by push_cast; ring]
      norm_num
    rw [e1, power_nine, map_mul (omegaInv s.omega), omegaInv_C, sub_self, T_zero]
    ring
  have p14 : LRep (fun i => -power s.alpha 9
        * vectorIndex s.derived.v9 (minusI64 i (1 - shiftMinusOne s.y1)))
      (omegaInv s.omega (-(Polynomial.C (s.alpha ^ 9) * polyOf s.y1)) * toLaurent (polyOf s.r)) := by
    refine ((lrep_polyMul s.y1 s.r s.omega 1 _ rfl).cmul (-power s.alpha 9)).congr ?_
    rw [power_nine, sub_self, T_zero, map_neg (omegaInv s.omega), map_mul (omegaInv s.omega),
      omegaInv_C, map_neg]; ring
  have p15 : LRep (fun i => power s.alpha 9 * s.beta
        * vectorIndex s.derived.v10 (minusI64 i (1 - shiftMinusOne s.c)))
      (omegaInv s.omega (Polynomial.C (s.alpha ^ 9 * s.beta) * polyOf s.c)
        * toLaurent (polyOf s.rnu)) := by
    refine ((lrep_polyMul s.c s.rnu s.omega 1 _ rfl).cmul (power s.alpha 9 * s.beta)).congr ?_
    rw [power_nine, sub_self, T_zero, map_mul (omegaInv s.omega), omegaInv_C]; ring
  have p16 : LRep (fun i => -power s.alpha 9 * s.beta
        * vectorIndex s.derived.v11 (minusI64 i (1 - shiftMinusOne s.t)))
      (omegaInv s.omega (-(Polynomial.C (s.alpha ^ 9 * s.beta) * polyOf s.t))
        * toLaurent (polyOf s.v)) := by
    refine ((lrep_polyMul s.t s.v s.omega 1 _ rfl).cmul (-power s.alpha 9 * s.beta)).congr ?_
    rw [power_nine, sub_self, T_zero, map_neg (omegaInv s.omega), map_mul (omegaInv s.omega),
      omegaInv_C, neg_mul, map_neg]; ring
  have p17 : LRep (fun i => -power s.alpha 9 * power s.omega (s.S - 1)
        * vectorIndex s.derived.v23 (minusI64 i (-s.S + 2))
      + power s.alpha 9 * power s.omega (s.S - 1)
        * vectorIndex s.derived.v23 (minusI64 i (-s.S + 3)))
      (omegaInv s.omega (-(Polynomial.C (s.alpha ^ 9) * geomPoly 1 s.S))
        * toLaurent (polyOf s.rt - X * polyOf s.rt)) := by
    have a := fun k m h => lg s.rt 0 s.S k m h (s.S - 1) (by push_cast; ring) s.S rfl
    refine (LRep.congrf (((a 1 (-s.S + 3) (by push_cast; ring)).cmul (s.alpha ^ 9)).sub
      ((a 0 (-s.S + 2) (by push_cast; ring)).cmul (s.alpha ^ 9))) (fun i => ?_)).congr ?_
    · simp only [R1csPeRun.derived, power_nine]; ring
    · rw [map_neg, map_mul (omegaInv s.omega) (Polynomial.C _), omegaInv_C, map_sub toLaurent,
        map_mul toLaurent, Polynomial.toLaurent_X, T_zero, pow_zero, one_mul]; ring
  have p18 : LRep (fun i => power s.alpha 10 * power s.omega (s.S - 1)
        * vectorIndex s.rt (minusI64 i (2 - s.S)))
      (omegaInv s.omega (Polynomial.C (s.alpha ^ 10) * X ^ (s.S - 1))
        * toLaurent (polyOf s.rt)) := by
    refine (((rep_vec s.rt).lrep.minus (2 - s.S)).cmul
      (power s.alpha 10 * power s.omega (s.S - 1))).congr ?_
    rw [power_ten, power_pos s.omega _ (s.S - 1) (by omega) (by omega),
      map_mul (omegaInv s.omega), omegaInv_C, hOp,
      show (2 - (s.S : ℤ) - 1) = -((s.S - 1 : ℕ) : ℤ) by omega, map_mul C]; ring
  have p19 : LRep (fun i => -power s.omega (2 * s.H + s.S)
        * vectorIndex s.derived.v24 (minusI64 i (-2 * s.H)))
      (omegaInv s.omega (-(X ^ s.S * geomPoly 1 (2 * s.H + 1)))
        * toLaurent (X ^ (s.S - 1) * polyOf s.t1)) := by
    refine (LRep.congrf (lg s.t1 s.S (2 * s.H + 1) ((s.S - 1 : ℕ) : ℤ)
      (-2 * s.H) (by omega) (2 * s.H + s.S) (by omega)
      (2 * s.H + 1) (by omega)).neg (fun i => ?_)).congr ?_
    · simp only [R1csPeRun.derived]; ring
    · rw [map_neg, map_mul toLaurent, hXp]; ring
  have p20 : LRep (fun i => power s.alpha 5 * power s.omega (s.S - 1)
        * vectorIndex s.derived.v19 (minusI64 i (2 - s.S))) (0 : F[T;T⁻¹]) := by
    refine ((lrep_powerMul s.t s.omega⁻¹ 0
      (Or.inr (inv_ne_zero hω)) (2 - s.S)).cmul _).congr ?_
    simp [geomPoly]
  refine (LRep.congrf (((((((((((((((((((p1.add p2).add p3).add p4).add p5).add p6).add p7).add
    p8).add p9).add p10).add p11).add p12).add p13).add p14).add p15).add p16).add p17).add p18).add
    p19).add p20) (fun i => ?_)).congr ?_
  · simp only [R1csPeRun.hAt]; ring
  · simp only [hadamardLaurent, R1csPeRun.polys, R1csPeRun.base, r1csPeBase, blindPair,
      List.cons_append,
      List.nil_append, List.map_cons, List.map_nil, List.sum_cons, List.sum_nil]
    ring

end VO
