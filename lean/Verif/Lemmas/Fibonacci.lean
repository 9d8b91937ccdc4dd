import Verif.Lemmas.HadamardChecks
import Verif.Lemmas.Snark
import Verif.Lemmas.Degree
import Verif.Spec.Fibonacci
import Verif.Model.Fibonacci
import Verif.Props.VecMul

set_option linter.unusedSectionVars false

namespace VO
open Spec
open Polynomial (X toLaurent)
open LaurentPolynomial

variable {F : Type} [Field F] [DecidableEq F]

theorem power_two (a : F) : power a 2 = a ^ 2 := by
  have := power_natCast (a := a) (n := 2) (Or.inl (by omega)); simpa using this
theorem power_three (a : F) : power a 3 = a ^ 3 := by
  have := power_natCast (a := a) (n := 3) (Or.inl (by omega)); simpa using this
theorem power_four (a : F) : power a 4 = a ^ 4 := by
  have := power_natCast (a := a) (n := 4) (Or.inl (by omega)); simpa using this
theorem power_pred (a : F) {n : ℕ} (h : 2 ≤ n) : power a ((n : ℤ) - 1) = a ^ (n - 1) := by
  have := power_natCast (a := a) (n := n - 1) (Or.inl (by omega))
  rw [← this]; congr 1; omega

/-! ### Degrees -/

/-- Shape of the vectors of an honest run. -/
structure FibRun.Good (s : FibRun F) : Prop where
  hn : 2 ≤ s.n
  hw : s.w.length = s.n + 1
  hr : s.r.length = s.n + 1
  ht : s.t.length = s.n
  ht1 : (polyOf s.t1).degree < ((4 : ℕ) : WithBot ℕ)

/-- The polynomial pairs of a run. -/
noncomputable def FibRun.polys (s : FibRun F) : List (Polynomial F × Polynomial F) :=
  fibPolys s.n s.a s.b s.c s.alpha (polyOf s.w) (polyOf s.t) (polyOf s.r) (polyOf s.t1)

theorem rep_vec1 (v : List F) : Rep (fun i => vectorIndex v (minusI64 i 1)) (polyOf v) :=
  ((rep_vec v).minus 0 (by simp)).congr (by simp)

theorem rep_range1 (n : ℕ) :
    Rep (fun i => (rangeIndex 1 n (minusI64 i 1) : F)) (geomPoly 1 n) :=
  ((rep_range n).minus 0 (by simp)).congr (by simp)

theorem rep_delta1 : Rep (fun i => (delta i 1 : F)) 1 := (rep_delta 0 (by simp)).congr (by simp)
theorem rep_delta2 : Rep (fun i => (delta i 2 : F)) X := (rep_delta 1 (by simp)).congr (by simp)

theorem FibRun.pairRep (s : FibRun F) (hs : s.Good) :
    List.Forall₂ (PairRep (2 + s.n)) s.pairs s.polys := by
  obtain ⟨hn, hw, hr, ht, ht1⟩ := hs
  have dW : (polyOf s.w).degree < ((s.n + 1 : ℕ) : WithBot ℕ) := hw ▸ degree_polyOf_lt s.w
  have dR : (polyOf s.r).degree < ((s.n + 1 : ℕ) : WithBot ℕ) := hr ▸ degree_polyOf_lt s.r
  have dT : (polyOf s.t).degree < ((s.n : ℕ) : WithBot ℕ) := ht ▸ degree_polyOf_lt s.t
  have dG : (geomPoly (1 : F) s.n).degree < ((s.n : ℕ) : WithBot ℕ) := degree_geomPoly_lt 1 s.n
  have dG3 : (geomPoly (1 : F) 3).degree < ((3 : ℕ) : WithBot ℕ) := degree_geomPoly_lt 1 3
  have hdn : Rep (fun i => (delta i (s.n : ℤ) : F)) (X ^ (s.n - 1)) :=
    rep_delta (s.n - 1) (by omega)
  unfold FibRun.pairs FibRun.polys fibPolys
  refine .cons ⟨?_, rep_delta1, ?_, ?_⟩ (.cons ⟨?_, rep_range1 s.n, ?_, ?_⟩ (.cons ⟨?_, rep_vec1 s.t, ?_, ?_⟩
    (.cons ⟨?_, rep_delta2, ?_, ?_⟩ (.cons ⟨?_, hdn, ?_, ?_⟩ (.cons ⟨?_, ?_, ?_, ?_⟩
    (.cons ⟨?_, ?_, ?_, ?_⟩ .nil))))))
  · exact (((rep_delta1.cmul (-s.a)).add ((rep_vec1 s.t).cmul (-s.b))).add (rep_vec1 s.w)).congr
      (by simp only [map_neg]; ring)
  · exact degLt_sub (degLt_sub (degLt_mono dW (by omega)) (degLt_C_mul (degLt_mono dT (by omega)) _))
      (degLt_C _ _ (by omega))
  · exact degLt_one _ (by omega)
  · exact (rep_vec1 s.r).cmul s.alpha
  · exact degLt_C_mul (degLt_mono dR (by omega)) _
  · exact degLt_mono dG (by omega)
  · exact (((rep_vec s.w).minus 1 (by norm_num)).cmul (-s.alpha)).congr (by simp only [map_neg]; ring)
  · exact degLt_neg (degLt_C_mul (degLt_mono (degLt_X_mul dW) (by omega)) _)
  · exact degLt_mono dT (by omega)
  · refine (((rep_delta2.cmul (-power s.alpha 2 * s.b)).add
      ((rep_vec1 s.w).cmul (power s.alpha 2))).add
      ((rep_vec1 s.r).cmul (-power s.alpha 2))).congr ?_
    rw [power_two]; simp only [map_neg, map_mul]; ring
  · exact degLt_C_mul (degLt_sub (degLt_sub (degLt_mono dW (by omega)) (degLt_mono dR (by omega)))
      (degLt_C_mul (degLt_X _ (by omega)) _)) _
  · exact degLt_X _ (by omega)
  · refine ((hdn.cmul (-power s.alpha 3 * s.c)).add ((rep_vec1 s.w).cmul (power s.alpha 3))).congr ?_
    rw [power_three]; simp only [map_neg, map_mul]; ring
  · exact degLt_C_mul (degLt_sub (degLt_mono dW (by omega))
      (degLt_C_mul (degLt_X_pow _ _ (by omega)) _)) _
  · exact degLt_X_pow _ _ (by omega)
  · refine ((((rep_vec1 s.w).cmul (power s.alpha 4)).add ((rep_vec1 s.r).cmul (-power s.alpha 4))).add
      (((rep_vec s.w).minus 2 (by norm_num)).cmul (-power s.alpha 4))).congr ?_
    rw [power_four]; simp only [map_neg]; ring
  · exact (((rep_range1 s.n).sub rep_delta2).sub rep_delta1).congr (by ring)
  · exact degLt_C_mul (degLt_sub (degLt_sub (degLt_mono dW (by omega)) (degLt_mono dR (by omega)))
      (degLt_mono (degLt_X_pow_mul dW 2) (by omega))) _
  · exact degLt_sub (degLt_sub (degLt_mono dG (by omega)) (degLt_one _ (by omega)))
      (degLt_X _ (by omega))
  · have := ((rep_range (F := F) 3).minus s.n (m := (s.n : ℤ) + 1) rfl).neg
    exact this
  · exact (rep_vec s.t1).minus (s.n - 1) (by omega)
  · exact degLt_neg (degLt_mono (degLt_X_pow_mul dG3 s.n) (by omega))
  · exact degLt_mono (degLt_X_pow_mul ht1 (s.n - 1)) (by omega)

/-! ### The derived vectors -/

theorem FibRun.derive_ok (fft : FftParams F) (hf : FftOk fft) (s : FibRun F)
    (hsz : s.w.length + s.t.length ≤ 2 ^ fft.twoAdicity) :
    s.derive fft = .ok ⟨vectorReverseOmega s.w s.omega, vectorReverseOmega s.t s.omega,
      vectorReverseOmega s.r s.omega, vectorPowerMul (vectorReverseOmega s.r s.omega) 1 s.n,
      vectorPolyMulNoDict s.w s.t s.omega, vectorPowerMul (vectorReverseOmega s.w s.omega) 1 s.n,
      vectorPowerMul s.t1 (power s.omega (-1)) 3⟩ := by
  obtain ⟨r, h1, h2, -⟩ := C05_vector_poly_mul fft hf s.w s.t s.omega hsz
  unfold FibRun.derive
  rw [h1, h2]; rfl

/-- The derived vectors of a run. -/
def FibRun.derived (s : FibRun F) : FibDerived F :=
  ⟨vectorReverseOmega s.w s.omega, vectorReverseOmega s.t s.omega,
    vectorReverseOmega s.r s.omega, vectorPowerMul (vectorReverseOmega s.r s.omega) 1 s.n,
    vectorPolyMulNoDict s.w s.t s.omega, vectorPowerMul (vectorReverseOmega s.w s.omega) 1 s.n,
    vectorPowerMul s.t1 (power s.omega (-1)) 3⟩

/-- `-ω^{n+2} Σ ω^{-k} T^k` over `k < 3` is the reversal of `-X^n (1 + X + X²)`. -/
theorem omegaInv_geom3 (ω : F) (n : ℕ) (hn : 1 ≤ n) :
    C (-power ω ((n : ℤ) + 2)) * (T ((-2) - 1) * toLaurent (geomPoly (power ω (-1)) 3))
      = omegaInv ω (-(X ^ n * geomPoly 1 3)) * T ((n : ℤ) - 1) := by
  have hp : power ω ((n : ℤ) + 2) = ω ^ (n + 2) := by
    have := power_natCast (a := ω) (n := n + 2) (Or.inl (by omega))
    rw [← this]; push_cast; rfl
  have hT : (T ((n : ℤ) - 1) : F[T;T⁻¹]) = T (n : ℤ) * T (-1) := by rw [← T_add]; rfl
  have hT3 : (T ((-2) - 1) : F[T;T⁻¹]) = T (-1) * T (-1) * T (-1) := by rw [← T_add, ← T_add]; rfl
  have hT1 : (T (-1) : F[T;T⁻¹]) * T 1 = 1 := by rw [← T_add]; simp
  have g1 : geomPoly (1 : F) 3 = 1 + X + X ^ 2 := by
    simp [geomPoly, Finset.sum_range_succ]
  have g2 : geomPoly (power ω (-1)) 3
      = 1 + Polynomial.C (power ω (-1)) * X + Polynomial.C (power ω (-1) ^ 2) * X ^ 2 := by
    simp [geomPoly, Finset.sum_range_succ]
  have hX : (toLaurent (X : Polynomial F)) = T 1 := Polynomial.toLaurent_X
  rw [hp, hT, hT3, g1, g2]
  simp only [map_neg, map_mul, map_add, map_one, map_pow, omegaInv_X, Polynomial.toLaurent_C, hX]
  have hTp : (T (-1) : F[T;T⁻¹]) ^ n * T (n : ℤ) = 1 := by
    rw [T_pow, ← T_add]; simp
  by_cases hω : ω = 0
  · subst hω
    rw [map_zero, zero_mul, zero_pow (by omega : n ≠ 0), zero_pow (by omega : n + 2 ≠ 0)]; ring
  · have hpi : power ω (-1) = ω⁻¹ := by rw [power_eq_zpow hω]; simp
    rw [hpi]
    have e2 : (C (ω⁻¹) : F[T;T⁻¹]) * C ω = 1 := by
      rw [← map_mul, inv_mul_cancel₀ hω, map_one]
    have a1 : (C ω : F[T;T⁻¹]) ^ 2 * C ω⁻¹ = C ω := by linear_combination (C ω) * e2
    have a2 : (C ω : F[T;T⁻¹]) ^ 2 * C ω⁻¹ ^ 2 = 1 := by
      linear_combination (C ω * C ω⁻¹ + 1) * e2
    have a3 : (T (-1) : F[T;T⁻¹]) ^ 3 * T 1 = T (-1) ^ 2 := by linear_combination (T (-1)) ^ 2 * hT1
    have a4 : (T (-1) : F[T;T⁻¹]) ^ 3 * T 1 ^ 2 = T (-1) := by
      linear_combination (T (-1) ^ 2 * T 1 + T (-1)) * hT1
    linear_combination (-(C ω) ^ n) * (a1 * (T (-1) ^ 3 * T 1) + C ω * a3
      + a2 * (T (-1) ^ 3 * T 1 ^ 2) + a4)
      + C ω ^ n * T (-1) * (1 + C ω * T (-1) + C ω ^ 2 * T (-1) ^ 2) * hTp


theorem toLaurent_X_pow_pred {n : ℕ} (h : 1 ≤ n) :
    (toLaurent (X ^ (n - 1) : Polynomial F)) = T ((n : ℤ) - 1) := by
  rw [Polynomial.toLaurent_X_pow]; congr 1; omega

theorem omegaInv_pred_mul (ω : F) {n : ℕ} :
    (T (-((n - 1 : ℕ) : ℤ)) : F[T;T⁻¹]) * T ((n - 1 : ℕ) : ℤ) = 1 := by
  rw [← T_add, neg_add_cancel, T_zero]

theorem FibRun.atimesbRep (s : FibRun F) (hs : s.Good) :
    List.Forall₂ (fun f q => LRep f (omegaInv s.omega q.1 * toLaurent q.2))
      (s.atimesb s.derived) s.polys := by
  obtain ⟨hn, hw, hr, ht, ht1⟩ := hs
  have rw_ := fun (m m' : ℤ) h => lrep_rev s.w s.omega m m' h
  have rt_ := fun (m m' : ℤ) h => lrep_rev s.t s.omega m m' h
  have rr_ := fun (m m' : ℤ) h => lrep_rev s.r s.omega m m' h
  have rr1 := fun (m m' : ℤ) h => lrep_rev_powerMul s.r s.omega 1 s.n (Or.inl (by omega)) m m' h
  have rw1 := fun (m m' : ℤ) h => lrep_rev_powerMul s.w s.omega 1 s.n (Or.inl (by omega)) m m' h
  have hT0 : (T 0 : F[T;T⁻¹]) = 1 := T_zero
  have hT1 : (T (-1) : F[T;T⁻¹]) * T 1 = 1 := by rw [← T_add]; simp
  have hX : (toLaurent (X : Polynomial F)) = T 1 := Polynomial.toLaurent_X
  unfold FibRun.atimesb FibRun.polys fibPolys FibRun.derived
  refine .cons ?_ (.cons ?_ (.cons ?_ (.cons ?_ (.cons ?_ (.cons ?_ (.cons ?_ .nil))))))
  · refine ((((lrep_delta 1).cmul (-s.a)).add ((rt_ 1 _ rfl).cmul (-s.b))).add (rw_ 1 _ rfl)).congr ?_
    simp only [sub_self, T_zero, map_sub, map_mul, map_neg, map_one, omegaInv_C]; ring
  · refine ((rr1 1 _ rfl).cmul s.alpha).congr ?_
    simp only [sub_self, T_zero, map_mul, omegaInv_C]; ring
  · refine ((lrep_polyMul s.w s.t s.omega 0 _ (by ring)).cmul (-s.alpha * s.omega)).congr ?_
    simp only [zero_sub, map_mul, map_neg, omegaInv_C, omegaInv_X]; ring
  · refine ((((lrep_delta 1).cmul (-power s.alpha 2 * s.b * s.omega)).add
      ((rw_ 2 _ rfl).cmul (power s.alpha 2))).add ((rr_ 2 _ rfl).cmul (-power s.alpha 2))).congr ?_
    rw [power_two, show (2 : ℤ) - 1 = 1 by norm_num]
    simp only [sub_self, T_zero, map_sub, map_mul, map_neg, map_pow, omegaInv_C, omegaInv_X, hX]
    linear_combination (C s.alpha ^ 2 * C s.b * C s.omega) * hT1
  · refine (((lrep_delta 1).cmul (-power s.alpha 3 * s.c * power s.omega (s.n - 1))).add
      ((rw_ s.n _ rfl).cmul (power s.alpha 3))).congr ?_
    rw [power_three, power_pred _ hn, toLaurent_X_pow_pred (by omega)]
    have h1 : (T (-((s.n - 1 : ℕ) : ℤ)) : F[T;T⁻¹]) * T ((s.n : ℤ) - 1) = 1 := by
      rw [← T_add, ← T_zero]; congr 1; omega
    dsimp only
    rw [map_mul (omegaInv s.omega), map_sub, map_mul (omegaInv s.omega) (Polynomial.C s.c),
      omegaInv_X_pow]
    simp only [sub_self, T_zero, map_mul, map_neg, map_pow, omegaInv_C]
    linear_combination (C s.alpha ^ 3 * C s.c * C s.omega ^ (s.n - 1)) * h1
  · have l1 := (rw1 (-1) (-shiftMinusOne s.w - 1) (by ring)).cmul (-power s.alpha 4 * power s.omega 2)
    have l2 := (rr_ 1 _ rfl).cmul (power s.alpha 4)
    have l3 := (rr_ 2 _ rfl).cmul (power s.alpha 4)
    have l4 := (rw1 1 _ rfl).cmul (power s.alpha 4)
    have l5 := (rw_ 1 _ rfl).cmul (-power s.alpha 4)
    have l6 := (rw_ 2 _ rfl).cmul (-power s.alpha 4)
    have l7 := (rr1 1 _ rfl).cmul (-power s.alpha 4)
    have l8 := (rw_ (-1) (-shiftMinusOne s.w - 1) (by ring)).cmul (power s.alpha 4 * power s.omega 2)
    have l9 := (rw_ 0 (-shiftMinusOne s.w) (by ring)).cmul (power s.alpha 4 * power s.omega 2)
    refine (((((((l1.add l2).add l3).add l4).add l5).add l6).add l7).add l8 |>.add l9).congr ?_
    rw [power_four, power_two, show (2 : ℤ) - 1 = 1 by norm_num, show (0 : ℤ) - 1 = -1 by norm_num]
    have hT2 : (T (-1 - 1) : F[T;T⁻¹]) = T (-1) ^ 2 := by rw [T_pow]; rfl
    rw [hT2]
    simp only [sub_self, T_zero, map_sub, map_mul, map_neg, map_pow, omegaInv_C, omegaInv_X, hX,
      map_one]
    linear_combination (-C s.alpha ^ 4 * C s.omega ^ 2 * omegaInv s.omega (polyOf s.w) * T (-1)) * hT1
  · refine ((lrep_powerMul s.t1 (power s.omega (-1)) 3 (Or.inl (by omega)) (-2)).cmul
      (-power s.omega (s.n + 2))).congr ?_
    have := omegaInv_geom3 s.omega s.n (by omega)
    rw [map_mul toLaurent, toLaurent_X_pow_pred (by omega)]
    linear_combination (toLaurent (polyOf s.t1)) * this

theorem FibRun.hAtRep (s : FibRun F) (hs : s.Good) :
    LRep (s.hAt s.derived) (hadamardLaurent s.omega s.polys) := by
  have ha := s.atimesbRep hs
  obtain ⟨hn, -⟩ := hs
  intro i
  -- the expression of `h` is the sum of the seven convolution expressions
  have hsum : ∀ (fs : List (ℤ → F)) (ps : List (Polynomial F × Polynomial F)),
      List.Forall₂ (fun f q => LRep f (omegaInv s.omega q.1 * toLaurent q.2)) fs ps →
      (fs.map (fun f => f i)).sum = (hadamardLaurent s.omega ps).coeff (i - 1) := by
    intro fs ps h
    induction h with
    | nil => simp [hadamardLaurent_nil]
    | cons h _ ih =>
      rw [List.map_cons, List.sum_cons, ih, hadamardLaurent_cons, lcoeff_add, h]
  rw [← hsum _ _ ha]
  simp only [FibRun.atimesb, FibRun.hAt, List.map_cons, List.map_nil, List.sum_cons, List.sum_nil]
  ring

end VO
