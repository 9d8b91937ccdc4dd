import Verif.Lemmas.Blind
import Verif.Lemmas.Fibonacci
import Verif.Spec.Pov
import Verif.Model.Pov

set_option linter.unusedSectionVars false

namespace VO
open Spec
open Polynomial (X toLaurent)
open LaurentPolynomial

variable {F : Type} [Field F] [DecidableEq F]

theorem power_five (a : F) : power a 5 = a ^ 5 := by
  have := power_natCast (a := a) (n := 5) (Or.inl (by omega)); simpa using this

theorem power_pos (a : F) (e : ℤ) (n : ℕ) (hn : 1 ≤ n) (h : e = n) : power a e = a ^ n := by
  subst h; exact power_natCast (Or.inl hn)

theorem LRep.congrf {f g : ℤ → F} {P : F[T;T⁻¹]} (hf : LRep f P) (h : ∀ i, g i = f i) :
    LRep g P := fun i => by rw [h, hf i]

/-- Shape of the vectors of a run. -/
structure PovRun.Good (s : PovRun F) : Prop where
  hsz : s.ca + s.cm < s.c
  hγ : s.gamma ≠ 0
  lw : s.w.length = 3 * s.c + 1
  lx : s.x.length = 3 * s.c
  lt : s.t.length = 3 * s.c
  ls : s.sigma.length = 3 * s.c
  ld : s.d.length = s.c - s.ca - s.cm
  lr : s.r.length = 3 * s.c + 1

/-- The unblinded polynomial pairs of a run. -/
noncomputable def PovRun.base (s : PovRun F) : List (Polynomial F × Polynomial F) :=
  povBase s.c s.ca s.cm s.gamma s.zeta s.zeta1 s.alpha (polyOf s.w) (polyOf s.sigma) (polyOf s.d)
    (polyOf s.t) (polyOf s.x) (polyOf s.r)

/-- The polynomial pairs of a run. -/
noncomputable def PovRun.polys (s : PovRun F) : List (Polynomial F × Polynomial F) :=
  s.base ++ [blindPair (3 * s.c) (3 * s.c - s.cm + 1) (polyOf s.t1)]

/-- Entry `i ≥ 3c` of the sum of the entrywise products: the gates for additions, constants and the
last value do not contribute. -/
theorem PovRun.t1At_eq (s : PovRun F) (hs : s.Good) (j : ℕ) :
    s.t1At ((j : ℤ) + 1 + 3 * s.c) = hadamardEntry s.base (3 * s.c + j) := by
  obtain ⟨hsz, hγ, lw, lx, lt, ls, ld, lr⟩ := hs
  have hk : ∀ p : Polynomial F, zc p ((j : ℤ) + 1 + 3 * s.c - 1) = p.coeff (3 * s.c + j) := by
    intro p
    rw [show (j : ℤ) + 1 + 3 * s.c - 1 = ((3 * s.c + j : ℕ) : ℤ) by push_cast; ring, zc_natCast]
  have r1 : ∀ v : List F, vectorIndex v (minusI64 ((j : ℤ) + 1 + 3 * s.c) 1)
      = (polyOf v).coeff (3 * s.c + j) := fun v => by
    rw [← hk]; exact rep_vec1 v _
  have z1 : (-3 * (s.c : ℤ) + 3 * s.c + 1) = 1 := by ring
  have z2 : (-3 * (s.c : ℤ) + 3 * s.c + 2) = ((1 : ℕ) : ℤ) + 1 := by push_cast; ring
  have z3 : (-(s.cm : ℤ) + 3 * s.c + 1) = ((3 * s.c - s.cm : ℕ) : ℤ) + 1 := by omega
  have z4 : (-(s.cm : ℤ) - s.c + 3 * s.c + 1) = ((2 * s.c - s.cm : ℕ) : ℤ) + 1 := by omega
  have z5 : (-(s.cm : ℤ) - 2 * s.c + 3 * s.c + 1) = ((s.c - s.cm : ℕ) : ℤ) + 1 := by omega
  have z6 : (3 * (s.c : ℤ)) = ((3 * s.c : ℕ) : ℤ) := by push_cast; ring
  have r2 : ∀ (v : List F) (k : ℕ), vectorIndex v (minusI64 ((j : ℤ) + 1 + 3 * s.c) ((k : ℤ) + 1))
      = (X ^ k * polyOf v).coeff (3 * s.c + j) := fun v k => by
    rw [← hk]; exact (rep_vec v).minus k rfl _
  have r3 : rangeIndex 1 ((3 * s.c : ℕ) : ℤ) (minusI64 ((j : ℤ) + 1 + 3 * s.c) 1)
      = (geomPoly (1 : F) (3 * s.c)).coeff (3 * s.c + j) := by
    rw [← hk]; exact rep_range1 _ _
  have r4 : powerVectorIndex s.gamma ((3 * s.c : ℕ) : ℤ) (minusI64 ((j : ℤ) + 1 + 3 * s.c) 1)
      = (geomPoly s.gamma (3 * s.c)).coeff (3 * s.c + j) := by
    rw [← hk]
    have := (rep_powers s.gamma hγ (3 * s.c)).minus 0 (m := 1) (by simp) ((j : ℤ) + 1 + 3 * s.c)
    simpa using this
  have r5 : rangeIndex 1 (s.cm : ℤ) (minusI64 ((j : ℤ) + 1 + 3 * s.c)
      (((3 * s.c - s.cm : ℕ) : ℤ) + 1))
      = (X ^ (3 * s.c - s.cm) * geomPoly (1 : F) s.cm).coeff (3 * s.c + j) := by
    rw [← hk]; exact (rep_range s.cm).minus _ rfl _
  have r6 : (delta ((j : ℤ) + 1 + 3 * s.c) 1 : F) = (1 : Polynomial F).coeff (3 * s.c + j) := by
    rw [← hk]; exact rep_delta1 _
  have q1 : (X ^ (2 * s.c + s.cm) * geomPoly (1 : F) s.ca).coeff (3 * s.c + j) = 0 := by
    rw [coeff_X_pow_geom, if_neg (by omega)]
  have q2 : (X ^ (2 * s.c + s.ca + s.cm) * geomPoly (1 : F) (s.c - s.ca - s.cm)).coeff
      (3 * s.c + j) = 0 := by
    rw [coeff_X_pow_geom, if_neg (by omega)]
  have q3 : (X ^ (3 * s.c - 1) : Polynomial F).coeff (3 * s.c + j) = 0 := by
    rw [Polynomial.coeff_X_pow, if_neg (by omega)]
  unfold PovRun.t1At
  simp only [z1, z2, z3, z4, z5]
  simp only [r1, r2]
  rw [show (rangeIndex 1 (3 * (s.c : ℤ)) (minusI64 ((j : ℤ) + 1 + 3 * s.c) 1) : F)
    = (geomPoly (1 : F) (3 * s.c)).coeff (3 * s.c + j) by rw [← r3, z6], r5, r6,
    show (powerVectorIndex s.gamma (3 * (s.c : ℤ)) (minusI64 ((j : ℤ) + 1 + 3 * s.c) 1) : F)
    = (geomPoly s.gamma (3 * s.c)).coeff (3 * s.c + j) by rw [← r4, z6]]
  simp only [PovRun.base, povBase, hadamardEntry, List.map_cons, List.map_nil, List.sum_cons,
    List.sum_nil, Polynomial.coeff_C_mul, Polynomial.coeff_neg, Polynomial.coeff_add,
    Polynomial.coeff_sub, q1, q2, q3, power_three, power_four, pow_one]
  ring

/-- Beyond `5c - cm` nothing contributes. -/
theorem PovRun.base_high (s : PovRun F) (hs : s.Good) (i : ℕ) (hi : 5 * s.c - s.cm < i) :
    hadamardEntry s.base i = 0 := by
  obtain ⟨hsz, hγ, lw, lx, lt, ls, ld, lr⟩ := hs
  have hz : ∀ (v : List F) (k : ℕ), v.length ≤ 3 * s.c + 1 → k ≤ 2 * s.c - s.cm →
      (X ^ k * polyOf v).coeff i = 0 := by
    intro v k hv hk
    rw [Polynomial.coeff_X_pow_mul']
    split_ifs
    · rw [coeff_polyOf, List.getD_eq_default _ _ (by omega)]
    · rfl
  have hz0 : ∀ v : List F, v.length ≤ 3 * s.c + 1 → (polyOf v).coeff i = 0 := by
    intro v hv; rw [coeff_polyOf, List.getD_eq_default _ _ (by omega)]
  have q1 : (X ^ (2 * s.c + s.cm) * geomPoly (1 : F) s.ca).coeff i = 0 := by
    rw [coeff_X_pow_geom, if_neg (by omega)]
  have q2 : (X ^ (2 * s.c + s.ca + s.cm) * geomPoly (1 : F) (s.c - s.ca - s.cm)).coeff i = 0 := by
    rw [coeff_X_pow_geom, if_neg (by omega)]
  have q3 : (X ^ (3 * s.c - 1) : Polynomial F).coeff i = 0 := by
    rw [Polynomial.coeff_X_pow, if_neg (by omega)]
  have q4 : (X ^ (3 * s.c - s.cm) * geomPoly (1 : F) s.cm).coeff i = 0 := by
    rw [coeff_X_pow_geom, if_neg (by omega)]
  have g1 : ∀ a : F, (geomPoly a (3 * s.c)).coeff i = 0 := by
    intro a; rw [coeff_geomPoly, if_neg (by omega)]
  simp only [PovRun.base, povBase, hadamardEntry, List.map_cons, List.map_nil, List.sum_cons,
    List.sum_nil, Polynomial.coeff_C_mul, Polynomial.coeff_neg, Polynomial.coeff_add,
    Polynomial.coeff_sub, q1, q2, q3, q4, hz s.w (2 * s.c - s.cm) (by omega) le_rfl,
    hz0 s.t (by omega), hz0 s.r (by omega), hz0 s.w (by omega), g1]
  ring

theorem PovRun.mkT1_ok (s : PovRun F) (hs : s.Good) (rng : ℕ → F) :
    (s.mkT1 rng).length = 3 * s.c - s.cm + 3 ∧
    polyOf (s.mkT1 rng) = blindPoly (3 * s.c) (3 * s.c - s.cm + 1) (rng 2) s.base := by
  have hsz := hs.hsz
  have hL : (-(s.cm : ℤ) + 3 * s.c + 2) = ((3 * s.c - s.cm + 2 : ℕ) : ℤ) := by omega
  unfold PovRun.mkT1
  rw [hL, sampleVec_one]
  refine ⟨by simp [length_expressionVector]; omega, ?_⟩
  apply polyOf_blind _ _ _ (by omega)
  · intro j; exact s.t1At_eq hs j
  · intro j hj; exact s.base_high hs _ (by omega)

theorem PovRun.blind_degree (s : PovRun F) (hs : s.Good) (δ : F) :
    (blindPoly (3 * s.c) (3 * s.c - s.cm + 1) δ s.base).degree
      < ((2 * s.c - s.cm + 2 : ℕ) : WithBot ℕ) := by
  have hsz := hs.hsz
  exact degree_blindPoly _ _ (2 * s.c - s.cm + 1) δ _
    (fun j hj => s.base_high hs _ (by omega))

/-! ### Degrees -/

theorem povPolys_degA (c ca cm B : ℕ) (hsz : ca + cm < c) (γ ζ ζ1 α : F)
    (W S K I V R P1 : Polynomial F) (hB : 3 * c ≤ B) (dW : W.degree < ((B + 1 : ℕ) : WithBot ℕ))
    (dI : I.degree < ((B + (3 * c - cm) + 1 : ℕ) : WithBot ℕ)) (dR : R.degree < ((B + 1 : ℕ) : WithBot ℕ)) :
    ∀ p ∈ povPolys c ca cm γ ζ ζ1 α W S K I V R P1,
      p.1.degree < ((B + (3 * c - cm) + 1 : ℕ) : WithBot ℕ) := by
  intro p hp
  have g := fun m => degree_geomPoly_lt (1 : F) m
  simp only [povPolys, povBase, blindPair, List.cons_append, List.nil_append, List.mem_cons,
    List.not_mem_nil, or_false] at hp
  rcases hp with rfl | rfl | rfl | rfl | rfl | rfl | rfl | rfl | rfl
  · exact degLt_mono (degLt_X_pow_mul dW _) (by omega)
  · exact degLt_neg (degLt_mono (degLt_X_pow_mul (g _) _) (by omega))
  · exact degLt_C_mul (degLt_mono (degLt_X_pow_mul (g _) _) (by omega)) _
  · exact degLt_C_mul (degLt_mono (degLt_X_pow_mul (g _) _) (by omega)) _
  · exact degLt_C_mul (degLt_mono dI (by omega)) _
  · exact degLt_C_mul (degLt_add (degLt_one _ (by omega)) (degLt_mono (degLt_X_mul dR) (by omega))) _
  · exact degLt_neg (degLt_C_mul (degLt_mono dR (by omega)) _)
  · exact degLt_C_mul (degLt_sub (degLt_mono dR (by omega)) (degLt_X_pow _ _ (by omega))) _
  · exact degLt_neg (degLt_mono (degLt_X_pow_mul (g _) _) (by omega))

theorem povPolys_degB (c ca cm B B1 : ℕ) (hsz : ca + cm < c) (γ ζ ζ1 α : F)
    (W S K I V R P1 : Polynomial F) (hB : 3 * c ≤ B) (dW : W.degree < ((B + 1 : ℕ) : WithBot ℕ))
    (dS : S.degree < ((B + 1 : ℕ) : WithBot ℕ))
    (dK : K.degree < ((B1 + 1 : ℕ) : WithBot ℕ)) (dP : P1.degree < ((B1 + 2 : ℕ) : WithBot ℕ))
    (U : ℕ) (dV : V.degree < ((U + 1 : ℕ) : WithBot ℕ)) (h1 : B + 2 * c ≤ U) (h2 : B1 + 3 * c ≤ U) :
    ∀ p ∈ povPolys c ca cm γ ζ ζ1 α W S K I V R P1, p.2.degree < ((U + 1 : ℕ) : WithBot ℕ) := by
  intro p hp
  have g := fun (a : F) m => degree_geomPoly_lt a m
  simp only [povPolys, povBase, blindPair, List.cons_append, List.nil_append, List.mem_cons,
    List.not_mem_nil, or_false] at hp
  rcases hp with rfl | rfl | rfl | rfl | rfl | rfl | rfl | rfl | rfl
  · exact degLt_mono (degLt_X_pow_mul dW _) (by omega)
  · exact degLt_mono (degLt_X_pow_mul dW _) (by omega)
  · exact degLt_sub (degLt_add (degLt_mono (degLt_X_pow_mul dW _) (by omega))
      (degLt_mono (degLt_X_pow_mul dW _) (by omega))) (degLt_mono dW (by omega))
  · exact degLt_sub (degLt_mono dW (by omega)) (degLt_mono (degLt_X_pow_mul dK _) (by omega))
  · exact degLt_sub (degLt_mono dW (by omega)) (degLt_mono dV (by omega))
  · exact degLt_add (degLt_add (degLt_mono dW (by omega)) (degLt_C_mul (degLt_mono (g _ _) (by omega)) _))
      (degLt_C_mul (degLt_mono (g _ _) (by omega)) _)
  · exact degLt_add (degLt_add (degLt_mono dW (by omega)) (degLt_C_mul (degLt_mono (g _ _) (by omega)) _))
      (degLt_C_mul (degLt_mono dS (by omega)) _)
  · exact degLt_X_pow _ _ (by omega)
  · exact degLt_mono (degLt_X_pow_mul dP _) (by omega)

/-! ### The derived vectors -/

/-- The derived vectors of a run. -/
def PovRun.derived (s : PovRun F) : PovDerived F :=
  ⟨vectorPolyMulNoDict s.w s.w s.omega, vectorPolyMulNoDict s.t s.w s.omega,
    vectorPolyMulNoDict s.t s.x s.omega, vectorPolyMulNoDict s.r s.w s.omega,
    vectorReverseOmega s.r s.omega, vectorPolyMulNoDict s.r s.sigma s.omega,
    vectorPowerMul s.w (power s.omega (-1)) s.cm, vectorPowerMul s.w (power s.omega (-1)) s.ca,
    vectorPowerMul s.w (power s.omega (-1)) (-s.ca - s.cm + s.c),
    vectorPowerMul s.d (power s.omega (-1)) (-s.ca - s.cm + s.c),
    vectorPowerMul (vectorReverseOmega s.r s.omega) s.gamma (3 * s.c),
    vectorPowerMul (vectorReverseOmega s.r s.omega) 1 (3 * s.c),
    vectorPowerMul s.t1 (power s.omega (-1)) (-s.cm + 3 * s.c + 1)⟩

theorem PovRun.derive_ok (fft : FftParams F) (hf : FftOk fft) (s : PovRun F) (hs : s.Good)
    (hsz : 6 * s.c + 2 ≤ 2 ^ fft.twoAdicity) : s.derive fft = .ok s.derived := by
  obtain ⟨-, -, lw, lx, lt, ls, -, lr⟩ := hs
  obtain ⟨_, a1, a2, -⟩ := C05_vector_poly_mul fft hf s.w s.w s.omega (by omega)
  obtain ⟨_, b1, b2, -⟩ := C05_vector_poly_mul fft hf s.t s.w s.omega (by omega)
  obtain ⟨_, c1, c2, -⟩ := C05_vector_poly_mul fft hf s.t s.x s.omega (by omega)
  obtain ⟨_, d1, d2, -⟩ := C05_vector_poly_mul fft hf s.r s.w s.omega (by omega)
  obtain ⟨_, e1, e2, -⟩ := C05_vector_poly_mul fft hf s.r s.sigma s.omega (by omega)
  unfold PovRun.derive
  rw [a1, b1, c1, d1, e1, a2, b2, c2, d2, e2]; rfl

theorem PovRun.hAtRep (s : PovRun F) (hs : s.Good) :
    LRep (s.hAt s.derived) (hadamardLaurent s.omega s.polys) := by
  obtain ⟨hsz, hγ, lw, lx, lt, ls, ld, lr⟩ := hs
  have hX : (toLaurent (X : Polynomial F)) = T 1 := Polynomial.toLaurent_X
  have hXp : ∀ k : ℕ, toLaurent (X ^ k : Polynomial F) = (T (k : ℤ) : F[T;T⁻¹]) :=
    fun k => Polynomial.toLaurent_X_pow k
  have hOp := fun k => omegaInv_X_pow s.omega k
  -- multiplication gates
  have p1 : LRep (fun i => power s.omega (-s.cm + 3 * s.c) * vectorIndex s.derived.v
      (minusI64 i (-s.c - shiftMinusOne s.w + 1)))
      (omegaInv s.omega (X ^ (3 * s.c - s.cm) * polyOf s.w)
        * toLaurent (X ^ (2 * s.c - s.cm) * polyOf s.w)) := by
    refine ((lrep_polyMul s.w s.w s.omega (-s.c + 1) _ (by ring)).cmul _).congr ?_
    rw [map_mul (omegaInv s.omega), map_mul toLaurent, hOp, hXp,
      power_pos s.omega _ (3 * s.c - s.cm) (by omega) (by omega)]
    have : (T (-((3 * s.c - s.cm : ℕ) : ℤ)) : F[T;T⁻¹]) * T ((2 * s.c - s.cm : ℕ) : ℤ)
        = T (-(s.c : ℤ) + 1 - 1) := by rw [← T_add]; congr 1; omega
    rw [← this]; ring
  have p2 : LRep (fun i => -power s.omega (3 * s.c - 1) * vectorIndex s.derived.v6
      (minusI64 i (-s.cm - 2 * s.c + 2)))
      (omegaInv s.omega (-(X ^ (3 * s.c - s.cm) * geomPoly 1 s.cm))
        * toLaurent (X ^ (s.c - s.cm) * polyOf s.w)) := by
    refine (LRep.congrf (lrep_left_geom s.w s.omega (3 * s.c - s.cm) s.cm (by omega) (by omega)
      ((s.c - s.cm : ℕ) : ℤ) (-s.cm - 2 * s.c + 2) (by omega) (3 * s.c - 1) (by omega) s.cm rfl).neg
      (fun i => ?_)).congr ?_
    · simp only [PovRun.derived]; ring
    · rw [map_neg, map_mul toLaurent, hXp]; ring
  have p3 : LRep (fun i => s.alpha * power s.omega (s.ca + s.cm + 2 * s.c - 1) * vectorIndex
        s.derived.v7 (minusI64 i (-s.ca - s.cm + 2))
      + s.alpha * power s.omega (s.ca + s.cm + 2 * s.c - 1) * vectorIndex
        s.derived.v7 (minusI64 i (-s.ca - s.cm - s.c + 2))
      + -s.alpha * power s.omega (s.ca + s.cm + 2 * s.c - 1) * vectorIndex
        s.derived.v7 (minusI64 i (-s.ca - s.cm - 2 * s.c + 2)))
      (omegaInv s.omega (Polynomial.C s.alpha * (X ^ (2 * s.c + s.cm) * geomPoly 1 s.ca))
        * toLaurent (X ^ (2 * s.c) * polyOf s.w + X ^ s.c * polyOf s.w - polyOf s.w)) := by
    have l := fun (k m : ℤ) (h : m = k - ((2 * s.c + s.cm : ℕ) + s.ca) + 2) =>
      lrep_left_geom s.w s.omega (2 * s.c + s.cm) s.ca (by omega) (by omega) k m h
      (s.ca + s.cm + 2 * s.c - 1) (by push_cast; ring) s.ca rfl
    refine (LRep.congrf ((((l ((2 * s.c : ℕ) : ℤ) (-s.ca - s.cm + 2) (by push_cast; ring)).cmul s.alpha).add
      ((l (s.c : ℤ) (-s.ca - s.cm - s.c + 2) (by push_cast; ring)).cmul s.alpha)).sub
      ((l 0 (-s.ca - s.cm - 2 * s.c + 2) (by push_cast; ring)).cmul s.alpha)) (fun i => ?_)).congr ?_
    · simp only [PovRun.derived]; ring
    · rw [map_mul (omegaInv s.omega) (Polynomial.C s.alpha), omegaInv_C, map_sub toLaurent,
        map_add toLaurent, map_mul toLaurent, map_mul toLaurent, hXp, hXp, T_zero]; ring
  have p4 : LRep (fun i => power s.alpha 2 * power s.omega (3 * s.c - 1) * vectorIndex
        s.derived.v8 (minusI64 i (2 - 3 * s.c))
      + -power s.alpha 2 * power s.omega (3 * s.c - 1) * vectorIndex
        s.derived.v9 (minusI64 i (s.ca + s.cm - s.c + 2)))
      (omegaInv s.omega (Polynomial.C (s.alpha ^ 2) * (X ^ (2 * s.c + s.ca + s.cm)
        * geomPoly 1 (s.c - s.ca - s.cm)))
        * toLaurent (polyOf s.w - X ^ (2 * s.c + s.ca + s.cm) * polyOf s.d)) := by
    have l := fun (v : List F) (k m : ℤ) (h : m = k - ((2 * s.c + s.ca + s.cm : ℕ)
        + (s.c - s.ca - s.cm : ℕ)) + 2) =>
      lrep_left_geom v s.omega (2 * s.c + s.ca + s.cm) (s.c - s.ca - s.cm) (by omega) (by omega) k m h
      (3 * s.c - 1) (by omega) (-s.ca - s.cm + s.c) (by omega)
    refine (LRep.congrf (((l s.w 0 (2 - 3 * s.c) (by omega)).cmul (s.alpha ^ 2)).sub
      ((l s.d ((2 * s.c + s.ca + s.cm : ℕ) : ℤ) (s.ca + s.cm - s.c + 2) (by omega)).cmul
        (s.alpha ^ 2))) (fun i => ?_)).congr ?_
    · simp only [PovRun.derived, power_two]; ring
    · rw [map_mul (omegaInv s.omega) (Polynomial.C _), omegaInv_C, map_sub toLaurent,
        map_mul toLaurent, hXp, T_zero]; ring
  have p5 : LRep (fun i => power s.alpha 3 * vectorIndex s.derived.v1
        (minusI64 i (1 - shiftMinusOne s.t))
      + -power s.alpha 3 * vectorIndex s.derived.v2 (minusI64 i (1 - shiftMinusOne s.t)))
      (omegaInv s.omega (Polynomial.C (s.alpha ^ 3) * polyOf s.t)
        * toLaurent (polyOf s.w - polyOf s.x)) := by
    refine (((lrep_polyMul s.t s.w s.omega 1 _ rfl).cmul (power s.alpha 3)).add
      ((lrep_polyMul s.t s.x s.omega 1 _ rfl).cmul (-power s.alpha 3))).congr ?_
    rw [power_three, sub_self, T_zero, map_neg, map_mul (omegaInv s.omega), omegaInv_C,
      map_sub toLaurent]; ring
  have z6 : (3 * (s.c : ℤ)) = ((3 * s.c : ℕ) : ℤ) := by push_cast; ring
  have rg := ((rep_range1 (F := F) (3 * s.c))).lrep
  have rp : LRep (fun i => powerVectorIndex s.gamma ((3 * s.c : ℕ) : ℤ) (minusI64 i 1))
      (toLaurent (geomPoly s.gamma (3 * s.c))) := by
    have := ((rep_powers s.gamma hγ (3 * s.c)).minus 0 (m := 1) (by simp)).lrep
    simpa using this
  have v10 := fun (m m' : ℤ) h => lrep_rev_powerMul s.r s.omega s.gamma (3 * s.c) (Or.inr hγ) m m' h
  have v11 := fun (m m' : ℤ) h => lrep_rev_powerMul s.r s.omega 1 (3 * s.c) (Or.inl (by omega)) m m' h
  rw [← z6] at rg rp v10 v11
  have p6 : LRep (fun i => power s.alpha 4 * vectorIndex s.w (minusI64 i 1)
      + power s.alpha 4 * s.zeta1 * rangeIndex 1 (3 * s.c) (minusI64 i 1)
      + power s.alpha 4 * s.zeta * powerVectorIndex s.gamma (3 * s.c) (minusI64 i 1)
      + power s.alpha 4 * s.omega * s.zeta * vectorIndex s.derived.v10 (minusI64 i (-shiftMinusOne s.r))
      + power s.alpha 4 * s.omega * s.zeta1 * vectorIndex s.derived.v11
        (minusI64 i (-shiftMinusOne s.r))
      + power s.alpha 4 * s.omega * vectorIndex s.derived.v3 (minusI64 i (-shiftMinusOne s.r)))
      (omegaInv s.omega (Polynomial.C (s.alpha ^ 4) * (1 + X * polyOf s.r))
        * toLaurent (polyOf s.w + Polynomial.C s.zeta * geomPoly s.gamma (3 * s.c)
          + Polynomial.C s.zeta1 * geomPoly 1 (3 * s.c))) := by
    refine (((((((rep_vec1 s.w).lrep.cmul (power s.alpha 4)).add
      (rg.cmul (power s.alpha 4 * s.zeta1))).add (rp.cmul (power s.alpha 4 * s.zeta))).add
      ((v10 0 _ (by ring)).cmul (power s.alpha 4 * s.omega * s.zeta))).add
      ((v11 0 _ (by ring)).cmul (power s.alpha 4 * s.omega * s.zeta1))).add
      ((lrep_polyMul s.r s.w s.omega 0 _ (by ring)).cmul (power s.alpha 4 * s.omega))).congr ?_
    rw [power_four]
    simp only [zero_sub, map_mul, map_add, map_one, omegaInv_C, omegaInv_X, Polynomial.toLaurent_C,
      map_pow]
    ring
  have p7 : LRep (fun i => -power s.alpha 4 * s.zeta1 * vectorIndex s.derived.v11
        (minusI64 i (1 - shiftMinusOne s.r))
      + -power s.alpha 4 * vectorIndex s.derived.v3 (minusI64 i (1 - shiftMinusOne s.r))
      + -power s.alpha 4 * s.zeta * vectorIndex s.derived.v5 (minusI64 i (1 - shiftMinusOne s.r)))
      (omegaInv s.omega (-(Polynomial.C (s.alpha ^ 4) * polyOf s.r))
        * toLaurent (polyOf s.w + Polynomial.C s.zeta1 * geomPoly 1 (3 * s.c)
          + Polynomial.C s.zeta * polyOf s.sigma)) := by
    refine ((((v11 1 _ rfl).cmul (-power s.alpha 4 * s.zeta1)).add
      ((lrep_polyMul s.r s.w s.omega 1 _ rfl).cmul (-power s.alpha 4))).add
      ((lrep_polyMul s.r s.sigma s.omega 1 _ rfl).cmul (-power s.alpha 4 * s.zeta))).congr ?_
    rw [power_four]
    simp only [sub_self, T_zero, map_mul, map_add, map_neg, omegaInv_C, Polynomial.toLaurent_C,
      map_pow]
    ring
  have p8 : LRep (fun i => -power s.alpha 5 * power s.omega (3 * s.c - 1) * delta i 1
      + power s.alpha 5 * vectorIndex s.derived.v4 (minusI64 i (3 * s.c - shiftMinusOne s.r)))
      (omegaInv s.omega (Polynomial.C (s.alpha ^ 5) * (polyOf s.r - X ^ (3 * s.c - 1)))
        * toLaurent (X ^ (3 * s.c - 1))) := by
    refine (((lrep_delta 1).cmul (-power s.alpha 5 * power s.omega (3 * s.c - 1))).add
      ((lrep_rev s.r s.omega (3 * s.c) _ rfl).cmul (power s.alpha 5))).congr ?_
    rw [power_five, power_pos s.omega _ (3 * s.c - 1) (by omega) (by omega),
      map_mul (omegaInv s.omega), map_sub (omegaInv s.omega), hOp, hXp, omegaInv_C]
    have h1 : (T (-((3 * s.c - 1 : ℕ) : ℤ)) : F[T;T⁻¹]) * T ((3 * s.c - 1 : ℕ) : ℤ) = 1 := by
      rw [← T_add, neg_add_cancel, T_zero]
    have h2 : (T (3 * (s.c : ℤ) - 1) : F[T;T⁻¹]) = T ((3 * s.c - 1 : ℕ) : ℤ) := by congr 1; omega
    rw [h2]
    simp only [sub_self, T_zero, map_mul, map_neg]
    linear_combination (C (s.alpha ^ 5) * C (s.omega ^ (3 * s.c - 1))) * h1
  have p9 : LRep (fun i => -power s.omega (-s.cm + 6 * s.c) * vectorIndex s.derived.v12
      (minusI64 i (s.cm - 3 * s.c)))
      (omegaInv s.omega (-(X ^ (3 * s.c) * geomPoly 1 (3 * s.c - s.cm + 1)))
        * toLaurent (X ^ (3 * s.c - 1) * polyOf s.t1)) := by
    refine (LRep.congrf (lrep_left_geom s.t1 s.omega (3 * s.c) (3 * s.c - s.cm + 1) (by omega)
      (by omega) ((3 * s.c - 1 : ℕ) : ℤ) (s.cm - 3 * s.c) (by omega) (-s.cm + 6 * s.c) (by omega)
      (-s.cm + 3 * s.c + 1) (by omega)).neg (fun i => ?_)).congr ?_
    · simp only [PovRun.derived]; ring
    · rw [map_neg, map_mul toLaurent, hXp]; ring
  refine (LRep.congrf ((((((((p1.add p2).add p3).add p4).add p5).add p6).add p7).add p8).add p9)
    (fun i => ?_)).congr ?_
  · simp only [PovRun.hAt]; ring
  · simp only [hadamardLaurent, PovRun.polys, PovRun.base, povBase, blindPair, List.cons_append,
      List.nil_append, List.map_cons, List.map_nil, List.sum_cons, List.sum_nil]
    ring

end VO
