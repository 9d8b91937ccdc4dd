import Verif.Lemmas.Pov
import Verif.Lemmas.R1csSnark
import Verif.Spec.PovPe
import Verif.Model.PovPe

set_option linter.unusedSectionVars false

namespace VO
open Spec
open Polynomial (X toLaurent)
open LaurentPolynomial

variable {F : Type} [Field F] [DecidableEq F]

/-- Shape of the vectors of a run. -/
structure PovPeRun.Good (s : PovPeRun F) : Prop where
  hsz : s.ca + s.cm < s.c
  hγ : s.gamma ≠ 0
  lu : s.u.length = 3 * s.c + 1
  lv : s.v.length = 3 * s.c + 1
  lx : s.x.length = 3 * s.c
  lt : s.t.length = 3 * s.c
  ls : s.sigma.length = 3 * s.c
  ld : s.d.length = s.c - s.ca - s.cm
  lr : s.r.length = 3 * s.c + 1

/-- The unblinded polynomial pairs of a run. -/
noncomputable def PovPeRun.base (s : PovPeRun F) : List (Polynomial F × Polynomial F) :=
  povPeBase s.c s.ca s.cm s.gamma s.zeta s.zeta1 s.alpha (polyOf s.u) (polyOf s.v) (polyOf s.sigma)
    (polyOf s.d) (polyOf s.t) (polyOf s.x) (polyOf s.r)

/-- The polynomial pairs of a run. -/
noncomputable def PovPeRun.polys (s : PovPeRun F) : List (Polynomial F × Polynomial F) :=
  s.base ++ [blindPair (3 * s.c) (s.c + s.cm + 1) (polyOf s.t1)]

set_option maxHeartbeats 1000000 in
/-- Entry `i ≥ 3c` of the sum of the entrywise products. -/
theorem PovPeRun.t1At_eq (s : PovPeRun F) (hs : s.Good) (j : ℕ) :
    s.t1At ((j : ℤ) + 1 + 3 * s.c) = hadamardEntry s.base (3 * s.c + j) := by
  obtain ⟨hsz, hγ, lu, lv, lx, lt, ls, ld, lr⟩ := hs
  have hk : ∀ p : Polynomial F, zc p ((j : ℤ) + 1 + 3 * s.c - 1) = p.coeff (3 * s.c + j) := by
    intro p
    rw [show (j : ℤ) + 1 + 3 * s.c - 1 = ((3 * s.c + j : ℕ) : ℤ) by push_cast; ring, zc_natCast]
  have r1 : ∀ v : List F, vectorIndex v (minusI64 ((j : ℤ) + 1 + 3 * s.c) 1)
      = (polyOf v).coeff (3 * s.c + j) := fun v => by
    rw [← hk]; exact rep_vec1 v _
  have r1' : ∀ v : List F, vectorIndex v ((j : ℤ) + 1 + 3 * s.c)
      = (polyOf v).coeff (3 * s.c + j) := fun v => by
    rw [← r1, minusI64_one]
  have z1 : (-3 * (s.c : ℤ) + 3 * s.c + 1) = 1 := by ring
  have z2 : (-3 * (s.c : ℤ) + 3 * s.c + 2) = ((1 : ℕ) : ℤ) + 1 := by push_cast; ring
  have z3 : ((s.cm : ℤ) + s.c + 1) = ((s.c + s.cm : ℕ) : ℤ) + 1 := by omega
  have z4 : ((s.cm : ℤ) - 2 * s.c + 3 * s.c + 1) = ((s.c + s.cm : ℕ) : ℤ) + 1 := by omega
  have z5 : ((s.ca : ℤ) + s.cm - s.c + 3 * s.c + 1) = ((2 * s.c + s.ca + s.cm : ℕ) : ℤ) + 1 := by omega
  have z6 : (3 * (s.c : ℤ)) = ((3 * s.c : ℕ) : ℤ) := by push_cast; ring
  have r2 : ∀ (v : List F) (k : ℕ), vectorIndex v (minusI64 ((j : ℤ) + 1 + 3 * s.c) ((k : ℤ) + 1))
      = (X ^ k * polyOf v).coeff (3 * s.c + j) := fun v k => by
    rw [← hk]; exact (rep_vec v).minus k rfl _
  have r3 : rangeIndex 1 ((3 * s.c : ℕ) : ℤ) (minusI64 ((j : ℤ) + 1 + 3 * s.c) 1)
      = (geomPoly (1 : F) (3 * s.c)).coeff (3 * s.c + j) := by
    rw [← hk]; exact rep_range1 _ _
  have r4 : powerVectorIndex s.gamma ((3 * s.c : ℕ) : ℤ) (minusI64 ((j : ℤ) + 1 + 3 * s.c) 1)
      = (geomPoly s.gamma (3 * s.c)).coeff (3 * s.c + j) := by
    rw [← hk]
    have := (rep_powers s.gamma hγ (3 * s.c)).minus 0 (m := 1) (by simp) ((j : ℤ) + 1 + 3 * s.c)
    simpa using this
  have r5 : rangeIndex 1 (s.cm : ℤ) (minusI64 ((j : ℤ) + 1 + 3 * s.c) ((s.c : ℤ) + 1))
      = (X ^ s.c * geomPoly (1 : F) s.cm).coeff (3 * s.c + j) := by
    rw [← hk]; exact (rep_range s.cm).minus _ rfl _
  have r6 : (delta ((j : ℤ) + 1 + 3 * s.c) 1 : F) = (1 : Polynomial F).coeff (3 * s.c + j) := by
    rw [← hk]; exact rep_delta1 _
  have q1 : (X ^ s.c * geomPoly (1 : F) s.ca).coeff (3 * s.c + j) = 0 := by
    rw [coeff_X_pow_geom, if_neg (by omega)]
  have q3 : (X ^ (3 * s.c - 1) : Polynomial F).coeff (3 * s.c + j) = 0 := by
    rw [Polynomial.coeff_X_pow, if_neg (by omega)]
  unfold PovPeRun.t1At
  simp only [z1, z2, z3, z4, z5]
  simp only [r1, r2, r1']
  rw [show (rangeIndex 1 (3 * (s.c : ℤ)) (minusI64 ((j : ℤ) + 1 + 3 * s.c) 1) : F)
    = (geomPoly (1 : F) (3 * s.c)).coeff (3 * s.c + j) by rw [← r3, z6], r5, r6,
    show (powerVectorIndex s.gamma (3 * (s.c : ℤ)) (minusI64 ((j : ℤ) + 1 + 3 * s.c) 1) : F)
    = (geomPoly s.gamma (3 * s.c)).coeff (3 * s.c + j) by rw [← r4, z6]]
  simp only [PovPeRun.base, povPeBase, pePoly, hadamardEntry, List.map_cons, List.map_nil,
    List.sum_cons, List.sum_nil, Polynomial.coeff_C_mul, Polynomial.coeff_neg, Polynomial.coeff_add,
    Polynomial.coeff_sub, q1, q3, power_three, power_two, pow_one]
  ring

/-- Beyond `3c + 1` nothing contributes. -/
theorem PovPeRun.base_high (s : PovPeRun F) (hs : s.Good) (i : ℕ) (hi : 3 * s.c + 1 < i) :
    hadamardEntry s.base i = 0 := by
  obtain ⟨hsz, hγ, lu, lv, lx, lt, ls, ld, lr⟩ := hs
  have hz : ∀ (v : List F) (k : ℕ), v.length ≤ 3 * s.c + 1 → k ≤ 1 →
      (X ^ k * polyOf v).coeff i = 0 := by
    intro v k hv hk
    rw [Polynomial.coeff_X_pow_mul']
    split_ifs
    · rw [coeff_polyOf, List.getD_eq_default _ _ (by omega)]
    · rfl
  have hz0 : ∀ v : List F, v.length ≤ 3 * s.c + 1 → (polyOf v).coeff i = 0 := by
    intro v hv; rw [coeff_polyOf, List.getD_eq_default _ _ (by omega)]
  have q1 : (X ^ s.c * geomPoly (1 : F) s.ca).coeff i = 0 := by
    rw [coeff_X_pow_geom, if_neg (by omega)]
  have q3 : (X ^ (3 * s.c - 1) : Polynomial F).coeff i = 0 := by
    rw [Polynomial.coeff_X_pow, if_neg (by omega)]
  have q4 : (X ^ s.c * geomPoly (1 : F) s.cm).coeff i = 0 := by
    rw [coeff_X_pow_geom, if_neg (by omega)]
  have q5 : (X * polyOf s.r).coeff i = 0 := by
    have := hz s.r 1 (by omega) le_rfl
    rwa [pow_one] at this
  have q6 : (1 : Polynomial F).coeff i = 0 := by rw [Polynomial.coeff_one, if_neg (by omega)]
  simp only [PovPeRun.base, povPeBase, hadamardEntry, List.map_cons, List.map_nil, List.sum_cons,
    List.sum_nil, Polynomial.coeff_C_mul, Polynomial.coeff_neg, Polynomial.coeff_add,
    Polynomial.coeff_sub, q1, q3, q4, q5, q6, hz0 s.t (by omega), hz0 s.r (by omega),
    hz0 s.u (by omega)]
  ring

theorem PovPeRun.mkT1_ok (s : PovPeRun F) (hs : s.Good) (rng : ℕ → F) :
    (s.mkT1 rng).length = s.c + s.cm + 3 ∧
    polyOf (s.mkT1 rng) = blindPoly (3 * s.c) (s.c + s.cm + 1) (rng 3) s.base := by
  have hsz := hs.hsz
  have hL : ((s.cm : ℤ) + s.c + 2) = ((s.c + s.cm + 2 : ℕ) : ℤ) := by omega
  unfold PovPeRun.mkT1
  rw [hL, sampleVec_one]
  refine ⟨by simp [length_expressionVector]; omega, ?_⟩
  apply polyOf_blind _ _ _ (by omega)
  · intro j; exact s.t1At_eq hs j
  · intro j hj; exact s.base_high hs _ (by omega)

theorem PovPeRun.blind_degree (s : PovPeRun F) (hs : s.Good) (δ : F) :
    (blindPoly (3 * s.c) (s.c + s.cm + 1) δ s.base).degree < ((3 : ℕ) : WithBot ℕ) :=
  degree_blindPoly _ _ 2 δ _ (fun j hj => s.base_high hs _ (by omega))

/-! ### Degrees -/

theorem povPePolys_degA (c ca cm B : ℕ) (hsz : ca + cm < c) (γ ζ ζ1 α : F)
    (U V S K I N R P1 : Polynomial F) (hB : 3 * c ≤ B) (dU : U.degree < ((B + 1 : ℕ) : WithBot ℕ))
    (dI : I.degree < ((B + (c + cm) + 1 : ℕ) : WithBot ℕ))
    (dR : R.degree < ((B + 1 : ℕ) : WithBot ℕ)) :
    ∀ p ∈ povPePolys c ca cm γ ζ ζ1 α U V S K I N R P1,
      p.1.degree < ((B + (c + cm) + 1 : ℕ) : WithBot ℕ) := by
  intro p hp
  have g := fun m => degree_geomPoly_lt (1 : F) m
  simp only [povPePolys, povPeBase, blindPair, List.cons_append, List.nil_append, List.mem_cons,
    List.not_mem_nil, or_false] at hp
  rcases hp with rfl | rfl | rfl | rfl | rfl | rfl | rfl | rfl
  · exact degLt_mono (degLt_X_pow_mul dU _) (by omega)
  · exact degLt_neg (degLt_mono (degLt_X_pow_mul (g _) _) (by omega))
  · exact degLt_C_mul (degLt_mono (degLt_X_pow_mul (g _) _) (by omega)) _
  · exact degLt_C_mul (degLt_mono dI (by omega)) _
  · exact degLt_C_mul (degLt_add (degLt_one _ (by omega)) (degLt_mono (degLt_X_mul dR) (by omega))) _
  · exact degLt_neg (degLt_C_mul (degLt_mono dR (by omega)) _)
  · exact degLt_C_mul (degLt_sub (degLt_mono dR (by omega)) (degLt_X_pow _ _ (by omega))) _
  · exact degLt_neg (degLt_mono (degLt_X_pow_mul (g _) _) (by omega))

theorem degree_pePoly (c ca cm B : ℕ) (hsz : ca + cm < c) (U V K : Polynomial F) (hB : 3 * c ≤ B)
    (dU : U.degree < ((B + 1 : ℕ) : WithBot ℕ)) (dV : V.degree < ((B + 1 : ℕ) : WithBot ℕ))
    (dK : K.degree < ((c - ca - cm : ℕ) : WithBot ℕ)) :
    (pePoly c ca cm U V K).degree < ((B + (c + cm) + 1 : ℕ) : WithBot ℕ) :=
  degLt_add (degLt_add (degLt_mono dU (by omega)) (degLt_mono (degLt_X_pow_mul dV _) (by omega)))
    (degLt_mono (degLt_X_pow_mul dK _) (by omega))

theorem povPePolys_degB (c ca cm B : ℕ) (hsz : ca + cm < c) (γ ζ ζ1 α : F)
    (U V S K I N R P1 : Polynomial F) (hB : 3 * c ≤ B) (dU : U.degree < ((B + 1 : ℕ) : WithBot ℕ))
    (dV : V.degree < ((B + 1 : ℕ) : WithBot ℕ)) (dS : S.degree < ((B + 1 : ℕ) : WithBot ℕ))
    (dK : K.degree < ((c - ca - cm : ℕ) : WithBot ℕ)) (E : ℕ)
    (dN : N.degree < ((E + 1 : ℕ) : WithBot ℕ)) (B1 : ℕ) (dP : P1.degree < ((B1 + 2 : ℕ) : WithBot ℕ))
    (h1 : B + (c + cm) ≤ E) (h2 : B1 + 3 * c ≤ E) :
    ∀ p ∈ povPePolys c ca cm γ ζ ζ1 α U V S K I N R P1, p.2.degree < ((E + 1 : ℕ) : WithBot ℕ) := by
  intro p hp
  have g := fun (a : F) m => degree_geomPoly_lt a m
  have dW := degLt_mono (degree_pePoly c ca cm B hsz U V K hB dU dV dK)
    (show B + (c + cm) + 1 ≤ E + 1 by omega)
  simp only [povPePolys, povPeBase, blindPair, List.cons_append, List.nil_append, List.mem_cons,
    List.not_mem_nil, or_false] at hp
  rcases hp with rfl | rfl | rfl | rfl | rfl | rfl | rfl | rfl
  · exact degLt_mono dU (by omega)
  · exact degLt_mono (degLt_X_pow_mul dV _) (by omega)
  · exact degLt_sub (degLt_add (degLt_mono (degLt_X_pow_mul dU _) (by omega))
      (degLt_mono (degLt_X_pow_mul dV _) (by omega))) (degLt_mono dV (by omega))
  · exact degLt_sub (degLt_add (degLt_mono dU (by omega)) (degLt_mono (degLt_X_pow_mul dV _) (by omega))) dN
  · exact degLt_add (degLt_add dW (degLt_C_mul (degLt_mono (g _ _) (by omega)) _))
      (degLt_C_mul (degLt_mono (g _ _) (by omega)) _)
  · exact degLt_add (degLt_add dW (degLt_C_mul (degLt_mono (g _ _) (by omega)) _))
      (degLt_C_mul (degLt_mono dS (by omega)) _)
  · exact degLt_X_pow _ _ (by omega)
  · exact degLt_mono (degLt_X_pow_mul dP _) (by omega)

/-! ### The derived vectors -/

/-- The derived vectors of a run. -/
def PovPeRun.derived (s : PovPeRun F) : PovPeDerived F :=
  ⟨vectorPolyMulNoDict s.u s.u s.omega, vectorPolyMulNoDict s.t s.u s.omega,
    vectorPolyMulNoDict s.t s.v s.omega, vectorPolyMulNoDict s.t s.x s.omega,
    vectorPolyMulNoDict s.r s.u s.omega, vectorPolyMulNoDict s.r s.v s.omega,
    vectorPolyMulNoDict s.r s.d s.omega, vectorReverseOmega s.r s.omega,
    vectorPolyMulNoDict s.r s.sigma s.omega, vectorPowerMul s.v s.omega⁻¹ s.cm,
    vectorPowerMul s.v s.omega⁻¹ s.ca, vectorPowerMul s.u s.omega⁻¹ s.ca,
    vectorPowerMul (vectorReverseOmega s.r s.omega) s.gamma (3 * s.c),
    vectorPowerMul (vectorReverseOmega s.r s.omega) 1 (3 * s.c),
    vectorPowerMul s.t1 s.omega⁻¹ (s.cm + s.c + 1)⟩

theorem PovPeRun.derive_ok (fft : FftParams F) (hf : FftOk fft) (s : PovPeRun F) (hs : s.Good)
    (hω : s.omega ≠ 0) (hsz : 6 * s.c + 2 ≤ 2 ^ fft.twoAdicity) :
    s.derive fft = .ok s.derived := by
  obtain ⟨-, -, lu, lv, lx, lt, ls, ld, lr⟩ := hs
  obtain ⟨_, a1, a2, -⟩ := C05_vector_poly_mul fft hf s.u s.u s.omega (by omega)
  obtain ⟨_, b1, b2, -⟩ := C05_vector_poly_mul fft hf s.t s.u s.omega (by omega)
  obtain ⟨_, c1, c2, -⟩ := C05_vector_poly_mul fft hf s.t s.v s.omega (by omega)
  obtain ⟨_, d1, d2, -⟩ := C05_vector_poly_mul fft hf s.t s.x s.omega (by omega)
  obtain ⟨_, e1, e2, -⟩ := C05_vector_poly_mul fft hf s.r s.u s.omega (by omega)
  obtain ⟨_, f1, f2, -⟩ := C05_vector_poly_mul fft hf s.r s.v s.omega (by omega)
  obtain ⟨_, g1, g2, -⟩ := C05_vector_poly_mul fft hf s.r s.d s.omega (by omega)
  obtain ⟨_, h1, h2, -⟩ := C05_vector_poly_mul fft hf s.r s.sigma s.omega (by omega)
  unfold PovPeRun.derive
  rw [a1, b1, c1, d1, e1, f1, g1, h1, a2, b2, c2, d2, e2, f2, g2, h2, inverseR, if_neg hω]; rfl

theorem PovPeRun.derive_zero (fft : FftParams F) (s : PovPeRun F) (hω : s.omega = 0) :
    s.derive fft = .error .panic := by
  unfold PovPeRun.derive
  rw [inverseR, if_pos hω]; rfl

set_option maxHeartbeats 1000000 in
theorem PovPeRun.hAtRep (s : PovPeRun F) (hs : s.Good) (hω : s.omega ≠ 0) :
    LRep (s.hAt s.derived) (hadamardLaurent s.omega s.polys) := by
  obtain ⟨hsz, hγ, lu, lv, lx, lt, ls, ld, lr⟩ := hs
  have hX : (toLaurent (X : Polynomial F)) = T 1 := Polynomial.toLaurent_X
  have hXp : ∀ k : ℕ, toLaurent (X ^ k : Polynomial F) = (T (k : ℤ) : F[T;T⁻¹]) :=
    fun k => Polynomial.toLaurent_X_pow k
  have hOp := fun k => omegaInv_X_pow s.omega k
  have lg := fun v => lrep_left_geom' v s.omega s.omega⁻¹ hω rfl
  -- multiplication gates
  have p1 : LRep (fun i => power s.omega s.c * vectorIndex s.derived.v1
      (minusI64 i (-s.c - shiftMinusOne s.u + 1)))
      (omegaInv s.omega (X ^ s.c * polyOf s.u) * toLaurent (polyOf s.u)) := by
    refine ((lrep_polyMul s.u s.u s.omega (-s.c + 1) _ (by ring)).cmul _).congr ?_
    rw [map_mul (omegaInv s.omega), hOp, power_pos s.omega _ s.c (by omega) rfl, add_sub_cancel_right]
    ring
  have p2 : LRep (fun i => -power s.omega (s.cm + s.c - 1) * vectorIndex s.derived.v10
      (minusI64 i (2 - s.c)))
      (omegaInv s.omega (-(X ^ s.c * geomPoly 1 s.cm)) * toLaurent (X ^ s.cm * polyOf s.v)) := by
    refine (LRep.congrf (lg s.v s.c s.cm (s.cm : ℤ) (2 - s.c) (by omega) (s.cm + s.c - 1) (by omega)
      s.cm rfl).neg (fun i => ?_)).congr ?_
    · simp only [PovPeRun.derived]; ring
    · rw [map_neg, map_mul toLaurent, hXp]; ring
  have p3 : LRep (fun i => s.alpha * power s.omega (s.ca + s.c - 1) * vectorIndex
        s.derived.v12 (minusI64 i (-s.ca - s.cm + 2))
      + s.alpha * power s.omega (s.ca + s.c - 1) * vectorIndex
        s.derived.v11 (minusI64 i (2 - s.ca))
      + -s.alpha * power s.omega (s.ca + s.c - 1) * vectorIndex
        s.derived.v11 (minusI64 i (-s.ca - s.c + 2)))
      (omegaInv s.omega (Polynomial.C s.alpha * (X ^ s.c * geomPoly 1 s.ca))
        * toLaurent (X ^ (s.c - s.cm) * polyOf s.u + X ^ s.c * polyOf s.v - polyOf s.v)) := by
    have l := fun (v : List F) (k m : ℤ) (h : m = k - ((s.c : ℤ) + s.ca) + 2) =>
      lg v s.c s.ca k m h (s.ca + s.c - 1) (by ring) s.ca rfl
    refine (LRep.congrf ((((l s.u ((s.c - s.cm : ℕ) : ℤ) (-s.ca - s.cm + 2) (by omega)).cmul
      s.alpha).add ((l s.v (s.c : ℤ) (2 - s.ca) (by ring)).cmul s.alpha)).sub
      ((l s.v 0 (-s.ca - s.c + 2) (by ring)).cmul s.alpha)) (fun i => ?_)).congr ?_
    · simp only [PovPeRun.derived]; ring
    · rw [map_mul (omegaInv s.omega) (Polynomial.C s.alpha), omegaInv_C, map_sub toLaurent,
        map_add toLaurent, map_mul toLaurent, map_mul toLaurent, hXp, hXp, T_zero]; ring
  have tk1 : (T ((s.c : ℤ) + s.cm) : F[T;T⁻¹]) = T ((s.c + s.cm : ℕ) : ℤ) := by congr 1
  have tk2 : (T (2 * (s.c : ℤ) + s.ca + s.cm) : F[T;T⁻¹]) = T ((2 * s.c + s.ca + s.cm : ℕ) : ℤ) := by
    congr 1
  have p5 : LRep (fun i => power s.alpha 2 * vectorIndex s.derived.v2
        (minusI64 i (1 - shiftMinusOne s.t))
      + power s.alpha 2 * vectorIndex s.derived.v3 (minusI64 i (s.cm + s.c - shiftMinusOne s.t + 1))
      + -power s.alpha 2 * vectorIndex s.derived.v4 (minusI64 i (1 - shiftMinusOne s.t)))
      (omegaInv s.omega (Polynomial.C (s.alpha ^ 2) * polyOf s.t)
        * toLaurent (polyOf s.u + X ^ (s.c + s.cm) * polyOf s.v - polyOf s.x)) := by
    refine ((((lrep_polyMul s.t s.u s.omega 1 _ rfl).cmul (power s.alpha 2)).add
      ((lrep_polyMul s.t s.v s.omega (s.c + s.cm + 1) _ (by ring)).cmul (power s.alpha 2))).add
      ((lrep_polyMul s.t s.x s.omega 1 _ rfl).cmul (-power s.alpha 2))).congr ?_
    rw [power_two, sub_self, T_zero, map_neg, map_mul (omegaInv s.omega), omegaInv_C,
      map_sub toLaurent, map_add toLaurent, map_mul toLaurent, hXp, add_sub_cancel_right, tk1]; ring
  have z6 : (3 * (s.c : ℤ)) = ((3 * s.c : ℕ) : ℤ) := by push_cast; ring
  have rg := ((rep_range1 (F := F) (3 * s.c))).lrep
  have rp : LRep (fun i => powerVectorIndex s.gamma ((3 * s.c : ℕ) : ℤ) (minusI64 i 1))
      (toLaurent (geomPoly s.gamma (3 * s.c))) := by
    have := ((rep_powers s.gamma hγ (3 * s.c)).minus 0 (m := 1) (by simp)).lrep
    simpa using this
  have v10 := fun (m m' : ℤ) h => lrep_rev_powerMul s.r s.omega s.gamma (3 * s.c) (Or.inr hγ) m m' h
  have v11 := fun (m m' : ℤ) h => lrep_rev_powerMul s.r s.omega 1 (3 * s.c) (Or.inl (by omega)) m m' h
  rw [← z6] at rg rp v10 v11
  have rv := ((rep_vec s.v).lrep.minus (s.cm + s.c + 1))
  have rd := ((rep_vec s.d).lrep.minus (s.ca + s.cm + 2 * s.c + 1))
  have p6 : LRep (fun i => power s.alpha 3 * vectorIndex s.v (minusI64 i (s.cm + s.c + 1))
      + power s.alpha 3 * vectorIndex s.u (minusI64 i 1)
      + power s.alpha 3 * vectorIndex s.d (minusI64 i (s.ca + s.cm + 2 * s.c + 1))
      + power s.alpha 3 * s.zeta1 * rangeIndex 1 (3 * s.c) (minusI64 i 1)
      + power s.alpha 3 * s.zeta * powerVectorIndex s.gamma (3 * s.c) (minusI64 i 1)
      + power s.alpha 3 * s.omega * s.zeta * vectorIndex s.derived.v13 (minusI64 i (-shiftMinusOne s.r))
      + power s.alpha 3 * s.omega * s.zeta1 * vectorIndex s.derived.v14
        (minusI64 i (-shiftMinusOne s.r))
      + power s.alpha 3 * s.omega * vectorIndex s.derived.v5 (minusI64 i (-shiftMinusOne s.r))
      + power s.alpha 3 * s.omega * vectorIndex s.derived.v6
        (minusI64 i (s.cm + s.c - shiftMinusOne s.r))
      + power s.alpha 3 * s.omega * vectorIndex s.derived.v7
        (minusI64 i (s.ca + s.cm + 2 * s.c - shiftMinusOne s.r)))
      (omegaInv s.omega (Polynomial.C (s.alpha ^ 3) * (1 + X * polyOf s.r))
        * toLaurent (pePoly s.c s.ca s.cm (polyOf s.u) (polyOf s.v) (polyOf s.d)
          + Polynomial.C s.zeta * geomPoly s.gamma (3 * s.c)
          + Polynomial.C s.zeta1 * geomPoly 1 (3 * s.c))) := by
    refine ((((((((((rv.cmul (power s.alpha 3)).add
      ((rep_vec1 s.u).lrep.cmul (power s.alpha 3))).add (rd.cmul (power s.alpha 3))).add
      (rg.cmul (power s.alpha 3 * s.zeta1))).add (rp.cmul (power s.alpha 3 * s.zeta))).add
      ((v10 0 _ (by ring)).cmul (power s.alpha 3 * s.omega * s.zeta))).add
      ((v11 0 _ (by ring)).cmul (power s.alpha 3 * s.omega * s.zeta1))).add
      ((lrep_polyMul s.r s.u s.omega 0 _ (by ring)).cmul (power s.alpha 3 * s.omega))).add
      ((lrep_polyMul s.r s.v s.omega (s.cm + s.c) _ rfl).cmul (power s.alpha 3 * s.omega))).add
      ((lrep_polyMul s.r s.d s.omega (s.ca + s.cm + 2 * s.c) _ rfl).cmul
        (power s.alpha 3 * s.omega))).congr ?_
    have t1 : (T ((s.cm : ℤ) + s.c - 1) : F[T;T⁻¹]) = T ((s.c + s.cm : ℕ) : ℤ) * T (-1) := by
      rw [← T_add]; congr 1; omega
    have t2 : (T ((s.ca : ℤ) + s.cm + 2 * s.c - 1) : F[T;T⁻¹])
        = T ((2 * s.c + s.ca + s.cm : ℕ) : ℤ) * T (-1) := by
      rw [← T_add]; congr 1; omega
    have t3 : (T ((s.cm : ℤ) + s.c + 1 - 1) : F[T;T⁻¹]) = T ((s.c + s.cm : ℕ) : ℤ) := by
      congr 1; omega
    have t4 : (T ((s.ca : ℤ) + s.cm + 2 * s.c + 1 - 1) : F[T;T⁻¹])
        = T ((2 * s.c + s.ca + s.cm : ℕ) : ℤ) := by congr 1; omega
    rw [power_three, t1, t2, t3, t4]
    simp only [pePoly, zero_sub, map_mul, map_add, map_one, omegaInv_C, omegaInv_X,
      Polynomial.toLaurent_C, hXp]
    ring
  have p7 : LRep (fun i => -power s.alpha 3 * s.zeta1 * vectorIndex s.derived.v14
        (minusI64 i (1 - shiftMinusOne s.r))
      + -power s.alpha 3 * vectorIndex s.derived.v5 (minusI64 i (1 - shiftMinusOne s.r))
      + -power s.alpha 3 * vectorIndex s.derived.v6 (minusI64 i (s.cm + s.c - shiftMinusOne s.r + 1))
      + -power s.alpha 3 * vectorIndex s.derived.v7
        (minusI64 i (s.ca + s.cm + 2 * s.c - shiftMinusOne s.r + 1))
      + -power s.alpha 3 * s.zeta * vectorIndex s.derived.v9 (minusI64 i (1 - shiftMinusOne s.r)))
      (omegaInv s.omega (-(Polynomial.C (s.alpha ^ 3) * polyOf s.r))
        * toLaurent (pePoly s.c s.ca s.cm (polyOf s.u) (polyOf s.v) (polyOf s.d)
          + Polynomial.C s.zeta1 * geomPoly 1 (3 * s.c) + Polynomial.C s.zeta * polyOf s.sigma)) := by
    refine ((((((v11 1 _ rfl).cmul (-power s.alpha 3 * s.zeta1)).add
      ((lrep_polyMul s.r s.u s.omega 1 _ rfl).cmul (-power s.alpha 3))).add
      ((lrep_polyMul s.r s.v s.omega (s.cm + s.c + 1) _ (by ring)).cmul (-power s.alpha 3))).add
      ((lrep_polyMul s.r s.d s.omega (s.ca + s.cm + 2 * s.c + 1) _ (by ring)).cmul
        (-power s.alpha 3))).add
      ((lrep_polyMul s.r s.sigma s.omega 1 _ rfl).cmul (-power s.alpha 3 * s.zeta))).congr ?_
    have t3 : (T ((s.cm : ℤ) + s.c + 1 - 1) : F[T;T⁻¹]) = T ((s.c + s.cm : ℕ) : ℤ) := by
      congr 1; omega
    have t4 : (T ((s.ca : ℤ) + s.cm + 2 * s.c + 1 - 1) : F[T;T⁻¹])
        = T ((2 * s.c + s.ca + s.cm : ℕ) : ℤ) := by congr 1; omega
    rw [power_three, t3, t4]
    simp only [pePoly, sub_self, T_zero, map_mul, map_add, map_neg, omegaInv_C, Polynomial.toLaurent_C,
      hXp]
    ring
  have p8 : LRep (fun i => -power s.alpha 4 * power s.omega (3 * s.c - 1) * delta i 1
      + power s.alpha 4 * vectorIndex s.derived.v8 (minusI64 i (3 * s.c - shiftMinusOne s.r)))
      (omegaInv s.omega (Polynomial.C (s.alpha ^ 4) * (polyOf s.r - X ^ (3 * s.c - 1)))
        * toLaurent (X ^ (3 * s.c - 1))) := by
    refine (((lrep_delta 1).cmul (-power s.alpha 4 * power s.omega (3 * s.c - 1))).add
      ((lrep_rev s.r s.omega (3 * s.c) _ rfl).cmul (power s.alpha 4))).congr ?_
    rw [power_four, power_pos s.omega _ (3 * s.c - 1) (by omega) (by omega),
      map_mul (omegaInv s.omega), map_sub (omegaInv s.omega), hOp, hXp, omegaInv_C]
    have h1 : (T (-((3 * s.c - 1 : ℕ) : ℤ)) : F[T;T⁻¹]) * T ((3 * s.c - 1 : ℕ) : ℤ) = 1 := by
      rw [← T_add, neg_add_cancel, T_zero]
    have h2 : (T (3 * (s.c : ℤ) - 1) : F[T;T⁻¹]) = T ((3 * s.c - 1 : ℕ) : ℤ) := by congr 1; omega
    rw [h2]
    simp only [sub_self, T_zero, map_mul, map_neg]
    linear_combination (C (s.alpha ^ 4) * C (s.omega ^ (3 * s.c - 1))) * h1
  have p9 : LRep (fun i => -power s.omega (s.cm + 4 * s.c) * vectorIndex s.derived.v15
      (minusI64 i (-s.cm - s.c)))
      (omegaInv s.omega (-(X ^ (3 * s.c) * geomPoly 1 (s.c + s.cm + 1)))
        * toLaurent (X ^ (3 * s.c - 1) * polyOf s.t1)) := by
    refine (LRep.congrf (lg s.t1 (3 * s.c) (s.c + s.cm + 1) ((3 * s.c - 1 : ℕ) : ℤ) (-s.cm - s.c)
      (by omega) (s.cm + 4 * s.c) (by omega) (s.cm + s.c + 1) (by omega)).neg (fun i => ?_)).congr ?_
    · simp only [PovPeRun.derived]; ring
    · rw [map_neg, map_mul toLaurent, hXp]; ring
  refine (LRep.congrf (((((((p1.add p2).add p3).add p5).add p6).add p7).add p8).add p9)
    (fun i => ?_)).congr ?_
  · simp only [PovPeRun.hAt]; ring
  · simp only [hadamardLaurent, PovPeRun.polys, PovPeRun.base, povPeBase, blindPair, List.cons_append,
      List.nil_append, List.map_cons, List.map_nil, List.sum_cons, List.sum_nil]
    ring

end VO
