import Verif.Lemmas.PovPe
import Verif.Lemmas.PovComplete

set_option linter.unusedSectionVars false

namespace VO
open Spec
open Polynomial (X toLaurent)
open LaurentPolynomial (T)

variable {F G1 G2 GT : Type} [Field F] [DecidableEq F]
  [AddCommGroup G1] [Module F G1] [DecidableEq G1] [AddCommGroup G2] [Module F G2]
  [AddCommGroup GT] [Module F GT] [DecidableEq GT]

/-- The coefficients of the final combination. -/
noncomputable def povPeK (c ca cm D : ℕ) (γ ζ ζ1 α ω z y y1 y2 t : F) : PovPeCoeffs F where
  c18 := (ω / z) ^ c * y + α * ((ω / z) ^ c * (geomPoly 1 ca).eval (ω / z)) * z ^ (c - cm)
    + α ^ 2 * y1 + α ^ 3 * (1 + (ω / z) * y2) - α ^ 3 * y2
  c19 := -((ω / z) ^ c * (geomPoly 1 cm).eval (ω / z) * z ^ cm)
    + α * ((ω / z) ^ c * (geomPoly 1 ca).eval (ω / z)) * (z ^ c - 1)
    + α ^ 2 * y1 * z ^ (c + cm) + α ^ 3 * (1 + (ω / z) * y2) * z ^ (c + cm)
    - α ^ 3 * y2 * z ^ (c + cm)
  c20 := -(α ^ 2 * y1 * t)
    + α ^ 3 * (1 + (ω / z) * y2) * (ζ * (geomPoly γ (3 * c)).eval z + ζ1 * (geomPoly 1 (3 * c)).eval z)
    - α ^ 3 * y2 * (ζ1 * (geomPoly 1 (3 * c)).eval z)
    + α ^ 4 * (y2 - (ω / z) ^ (3 * c - 1)) * z ^ (3 * c - 1)
  c21 := α ^ 3 * (1 + (ω / z) * y2) * z ^ (2 * c + ca + cm) - α ^ 3 * y2 * z ^ (2 * c + ca + cm)
  c22 := -(α ^ 3 * y2 * ζ)
  c23 := -((ω / z) ^ (3 * c) * (geomPoly 1 (c + cm + 1)).eval (ω / z) * z ^ (3 * c - 1))
  c24 := -(z ^ D)⁻¹
  c25 := -z

theorem povPeCoeffs_ok (c ca cm D : ℕ) (sz : POVSize) (hc : sz.n = c) (hca : sz.nadd = ca)
    (hcm : sz.nmul = cm) (hsz : ca + cm < c) (γ ζ ζ1 α ω z y y1 y2 t : F) (hz : z ≠ 0) (hz1 : z ≠ 1)
    (hzo : z ≠ ω) (hzg : γ * z ≠ 1) :
    povPeCoeffs sz D γ ζ ζ1 α ω z y y1 y2 t = .ok (povPeK c ca cm D γ ζ ζ1 α ω z y y1 y2 t) := by
  subst hc hca hcm
  set c := sz.n
  set ca := sz.nadd
  set cm := sz.nmul
  have h1 : (1 : F) - z ≠ 0 := sub_ne_zero.mpr (Ne.symm hz1)
  have h2 : ω - z ≠ 0 := sub_ne_zero.mpr (Ne.symm hzo)
  have h2' : ω - 1 * z ≠ 0 := by rwa [one_mul]
  have h3 : γ * z - 1 ≠ 0 := sub_ne_zero.mpr hzg
  have hx1 : ω / z ≠ 1 := by intro h; rw [div_eq_one_iff_eq hz] at h; exact hzo h.symm
  have d1 : z * (ω - 1 * z) ≠ 0 := mul_ne_zero hz h2'
  have d2 : z * (1 - z) * (γ * z - 1) ≠ 0 := mul_ne_zero (mul_ne_zero hz h1) h3
  unfold povPeCoeffs
  simp only [divR_ok hz, divR_ok d1, divR_ok d2, divR_ok h2', bind, Except.bind, pure, Except.pure]
  congr 1
  have hxz : ω = (ω / z) * z := by field_simp
  have hox : ω - 1 * z = -(z * (1 - ω / z)) := by field_simp; ring
  have hxx : (1 : F) - ω / z ≠ 0 := sub_ne_zero.mpr (Ne.symm hx1)
  have g1 := power_geom (ω / z) c cm c cm (by omega) rfl rfl hx1
  have g2 := power_geom (ω / z) c ca c ca (by omega) rfl rfl hx1
  have g4 := power_geom (ω / z) (3 * c) (cm + c + 1) (3 * c) (c + cm + 1)
    (by omega) (by omega) (by omega) hx1
  have q1 : power (ω / z) (c : ℤ) = (ω / z) ^ c := power_pos _ _ _ (by omega) rfl
  have q2 : power z (-(cm : ℤ) + c + 2) = z ^ (c - cm) * z * z := by
    rw [power_pos _ _ (c - cm + 1 + 1) (by omega) (by omega), pow_succ, pow_succ]
  have q3 : power z ((c : ℤ) + 1) = z ^ c * z := by
    rw [power_pos _ _ (c + 1) (by omega) (by omega), pow_succ]
  have q4 : power z ((cm : ℤ) + 1) = z ^ cm * z := by
    rw [power_pos _ _ (cm + 1) (by omega) (by omega), pow_succ]
  have q5 : power z ((cm : ℤ) - 2 * c + 3 * c) = z ^ (c + cm) :=
    power_pos _ _ _ (by omega) (by omega)
  have q5' : power z ((cm : ℤ) + c) = z ^ (c + cm) := power_pos _ _ _ (by omega) (by omega)
  have q6 : power z ((cm : ℤ) - 2 * c + 3 * c - 1) * z = z ^ (c + cm) := by
    rw [show (cm : ℤ) - 2 * c + 3 * c - 1 = ((c + cm - 1 : ℕ) : ℤ) by omega,
      power_natCast (Or.inr hz), ← pow_succ]
    congr 1; omega
  have q11 : power z ((ca : ℤ) + cm - c + 3 * c) = z ^ (2 * c + ca + cm) :=
    power_pos _ _ _ (by omega) (by omega)
  have q12 : power z ((ca : ℤ) + cm - c + 3 * c - 1) * z = z ^ (2 * c + ca + cm) := by
    rw [power_pos _ _ (2 * c + ca + cm - 1) (by omega) (by omega), ← pow_succ]
    congr 1; omega
  have q7 : power z (3 * (c : ℤ)) = z ^ (3 * c) := power_pos _ _ _ (by omega) (by omega)
  have q8 : power (γ * z) (3 * (c : ℤ)) = (γ * z) ^ (3 * c) := power_pos _ _ _ (by omega) (by omega)
  have q9 : power z (3 * (c : ℤ) - 1) = z ^ (3 * c - 1) := power_pos _ _ _ (by omega) (by omega)
  have q10 : power (ω / z) (3 * (c : ℤ) - 1) = (ω / z) ^ (3 * c - 1) :=
    power_pos _ _ _ (by omega) (by omega)
  have qD : power z (-(D : ℤ)) = (z ^ D)⁻¹ := by
    rw [power_eq_zpow hz, zpow_neg, zpow_natCast]
  have q1' : power (1 : F) 2 = 1 := by rw [power_two, one_pow]
  simp only [povPeK, PovPeCoeffs.mk.injEq]
  refine ⟨?_, ?_, ?_, ?_, ?_, ?_, qD ▸ rfl, trivial⟩
  · rw [div_eq_iff d1, hox, power_three, power_two, q2, q1]
    rw [q1] at g2
    generalize hx : ω / z = x at *
    rw [hxz]
    linear_combination (-(α * (z ^ (c - cm) * z * z))) * g2
  · rw [div_eq_iff h2', hox, power_two, q3, q4, q5, q5', q1]
    rw [q1] at g1 g2
    generalize hx : ω / z = x at *
    rw [hxz]
    linear_combination (z ^ cm * z) * g1 + (α * (z - z ^ c * z)) * g2
      - (α ^ 3 * (z * (1 - x)) * (x * y2 + 1)) * q6
  · have h3' : (1 : F) - γ * z ≠ 0 := sub_ne_zero.mpr (Ne.symm hzg)
    have A : (geomPoly (1 : F) (3 * c)).eval z * (1 - z) = 1 - z ^ (3 * c) := by
      rw [eval_geomPoly_one _ _ hz1, div_mul_cancel₀ _ h1]
    have B : (geomPoly γ (3 * c)).eval z * (1 - γ * z) = 1 - (γ * z) ^ (3 * c) := by
      rw [eval_geomPoly γ _ _ hzg, div_mul_cancel₀ _ h3']
    rw [div_eq_iff d2, q1', q7, q8, q9, q10, power_two]
    generalize hx : ω / z = x at *
    rw [hxz]
    linear_combination (-(α ^ 3 * (-y2 * z * ζ1 * (γ * z - 1)
      + (x * z * y2 + z) * ζ1 * (γ * z - 1)))) * A + (α ^ 3 * (x * z * y2 + z) * ζ * (1 - z)) * B
  · rw [q11, power_three]
    generalize hx : ω / z = x at *
    rw [hxz]
    linear_combination (α ^ 3 * (x * y2 + 1)) * q12
  · rw [q1', power_three]; ring
  · have hzn : z ^ (3 * c) = z ^ (3 * c - 1) * z := by rw [← pow_succ]; congr 1; omega
    rw [div_eq_iff h2', hox, q7, hzn]
    linear_combination (z ^ (3 * c - 1) * z) * g4

theorem povPeCoeffs_bad (D : ℕ) (sz : POVSize) (γ ζ ζ1 α ω z y y1 y2 t : F)
    (h : z = 0 ∨ z = 1 ∨ z = ω ∨ γ * z = 1) :
    povPeCoeffs sz D γ ζ ζ1 α ω z y y1 y2 t = .error .panic := by
  unfold povPeCoeffs
  by_cases hz : z = 0
  · subst hz; rw [divR_zero]; rfl
  by_cases hzo : z = ω
  · subst hzo
    simp only [divR_ok hz, one_mul, sub_self, mul_zero, divR_zero, bind, Except.bind]
  have h2 : ω - 1 * z ≠ 0 := by rw [one_mul]; exact sub_ne_zero.mpr (Ne.symm hzo)
  have d0 : z * (1 - z) * (γ * z - 1) = 0 := by
    rcases h with h | h | h | h
    · exact absurd h hz
    · rw [h]; ring
    · exact absurd h hzo
    · rw [h]; ring
  simp only [divR_ok hz, divR_ok (mul_ne_zero hz h2), divR_ok h2, d0, divR_zero, bind, Except.bind]

theorem povPeGPoly_eq (c ca cm D : ℕ) (γ ζ ζ1 α ω z y y1 y2 t : F)
    (U V S K P1 H1 H2 : Polynomial F) :
    povPeGPoly c ca cm D γ ζ ζ1 α ω z y y1 y2 t U V S K P1 H1 H2 =
      let k := povPeK c ca cm D γ ζ ζ1 α ω z y y1 y2 t
      Polynomial.C k.c20 + Polynomial.C k.c18 * U + Polynomial.C k.c19 * V + Polynomial.C k.c21 * K
        + Polynomial.C k.c22 * S
        + Polynomial.C k.c23 * P1 + Polynomial.C k.c24 * H1 + Polynomial.C k.c25 * H2 := by
  simp only [povPeGPoly, povPeComb, povPeK, Polynomial.smul_eq_C_mul, map_neg, map_add, map_sub,
    map_mul, map_one]
  ring

theorem povPeComb_eq (c ca cm D : ℕ) (γ ζ ζ1 α ω z y y1 y2 t : F)
    (g cU cV cK cS cT1 cH1 cH2 : G1) :
    povPeCmG g (povPeK c ca cm D γ ζ ζ1 α ω z y y1 y2 t) cU cV cK cS cT1 cH1 cH2
      = povPeComb c ca cm D γ ζ ζ1 α ω z y y1 y2 t g cU cV cS cK cT1 cH1 cH2 := by
  rw [povPeCmG, clc_eq]
  simp only [List.map_cons, List.map_nil, List.sum_cons, List.sum_nil, povPeComb, povPeK]
  module

/-- The value of the final polynomial at `z` when the claimed values are right. -/
theorem povPeG_eval (c ca cm D : ℕ) (γ ζ ζ1 α ω z : F) (U V S K I N R P1 H1 H2 : Polynomial F) :
    (povPeGPoly c ca cm D γ ζ ζ1 α ω z (U.eval (ω / z)) (I.eval (ω / z)) (R.eval (ω / z)) (N.eval z)
        U V S K P1 H1 H2).eval z
      = hadamardAt ω z (povPePolys c ca cm γ ζ ζ1 α U V S K I N R P1)
        - ((z ^ D)⁻¹ * H1.eval z + z * H2.eval z) := by
  rw [povPeGPoly_eq]
  simp only [povPeK, hadamardAt, povPePolys, povPeBase, pePoly, blindPair, List.cons_append,
    List.nil_append, List.map_cons, List.map_nil, List.sum_cons,
    List.sum_nil, Polynomial.eval_sub, Polynomial.eval_add, Polynomial.eval_mul, Polynomial.eval_C,
    Polynomial.eval_neg, Polynomial.eval_pow, Polynomial.eval_X, Polynomial.eval_one]
  ring

theorem povPeK_eval (c ca cm D : ℕ) (γ ζ ζ1 α ω z y y1 y2 t β : F)
    (U V S K P1 H1 H2 : Polynomial F) (g : G1) :
    povPeCmG g (povPeK c ca cm D γ ζ ζ1 α ω z y y1 y2 t) (U.eval β • g) (V.eval β • g)
        (K.eval β • g) (S.eval β • g) (P1.eval β • g) (H1.eval β • g) (H2.eval β • g) =
    (povPeGPoly c ca cm D γ ζ ζ1 α ω z y y1 y2 t U V S K P1 H1 H2).eval β • g := by
  rw [povPeCmG, clc_eq]
  simp only [List.map_cons, List.map_nil, List.sum_cons, List.sum_nil, smul_smul, ← add_smul,
    add_zero]
  congr 1
  rw [povPeGPoly_eq]
  simp only [Polynomial.eval_add, Polynomial.eval_mul, Polynomial.eval_C]
  ring

theorem povPeGvec_ok (c ca cm D : ℕ) (hsz : ca + cm < c) (hD : 4 * c + cm ≤ D)
    (u v d sigma t1 h1 h2 : List F) (lu : u.length ≤ D + 1) (lv : v.length ≤ D + 1)
    (ld : d.length ≤ D + 1)
    (ls : sigma.length ≤ D + 1) (dt1 : (polyOf t1).degree < ((D + 1 : ℕ) : WithBot ℕ))
    (l1 : h1.length = 4 * c + cm) (l2 : h2.length = 4 * c + cm)
    (γ ζ ζ1 α ω z y y1 y2 t : F) :
    ∃ gv, povPeG (cm + c) (3 * c) (D + 1) u v d sigma t1 h1 h2
        (povPeK c ca cm (D + 1) γ ζ ζ1 α ω z y y1 y2 t) = .ok gv ∧
      gv.length = D + 1 ∧ polyOf gv = povPeGPoly c ca cm (D + 1) γ ζ ζ1 α ω z y y1 y2 t (polyOf u)
        (polyOf v) (polyOf sigma) (polyOf d) (polyOf t1) (X ^ (D + 1 - (4 * c + cm)) * polyOf h1)
        (polyOf h2) := by
  set k := povPeK c ca cm (D + 1) γ ζ ζ1 α ω z y y1 y2 t with hk
  set f : ℤ → F := (fun i =>
    linearCombination 0 [(k.c18, vectorIndex u i), (k.c19, vectorIndex v i),
      (k.c21, vectorIndex d i),
      (k.c22, vectorIndex sigma i), (k.c23, vectorIndex t1 i),
      (k.c24, vectorIndex h1 (-((D + 1 : ℕ) : ℤ) + i + (cm + c) + 3 * c)),
      (k.c25, vectorIndex h2 i)]) with hf
  have hrep : Rep f
      (Polynomial.C k.c18 * polyOf u + Polynomial.C k.c19 * polyOf v + Polynomial.C k.c21 * polyOf d
        + Polynomial.C k.c22 * polyOf sigma + Polynomial.C k.c23 * polyOf t1
        + Polynomial.C k.c24 * (X ^ (D + 1 - (4 * c + cm)) * polyOf h1)
        + Polynomial.C k.c25 * polyOf h2) := by
    refine (((((((((rep_vec u).cmul k.c18).add ((rep_vec v).cmul k.c19)).add
      ((rep_vec d).cmul k.c21)).add
      ((rep_vec sigma).cmul k.c22)).add ((rep_vec t1).cmul k.c23)).add
      (((rep_vec h1).shift (D + 1 - (4 * c + cm))).cmul k.c24)).add
      ((rep_vec h2).cmul k.c25))).congrf ?_
    intro i
    have e : (-((D + 1 : ℕ) : ℤ) + i + (cm + c) + 3 * c)
        = i - ((D + 1 - (4 * c + cm) : ℕ) : ℤ) := by omega
    simp only [hf, linearCombination, List.foldl_cons, List.foldl_nil, e]
    ring
  have du := degLt_mono (degree_polyOf_lt u) lu
  have dv := degLt_mono (degree_polyOf_lt v) lv
  have dd := degLt_mono (degree_polyOf_lt d) ld
  have ds := degLt_mono (degree_polyOf_lt sigma) ls
  have d1 := degree_polyOf_lt h1
  have d2 := degree_polyOf_lt h2
  rw [l1] at d1; rw [l2] at d2
  have hv := polyOf_expressionVector hrep (D + 1)
    (degLt_add (degLt_add (degLt_add (degLt_add (degLt_add (degLt_add (degLt_C_mul du _)
    (degLt_C_mul dv _)) (degLt_C_mul dd _))
    (degLt_C_mul ds _)) (degLt_C_mul dt1 _)) (degLt_C_mul (degLt_mono (degLt_X_pow_mul d1 _)
      (by omega)) _)) (degLt_C_mul (degLt_mono d2 (by omega)) _))
  obtain ⟨r, e1, e2, e3⟩ := addToFirstItem_ok (expressionVector ((D + 1 : ℕ) : ℤ) f) (by
      intro h; have := congrArg List.length h; rw [length_expressionVector] at this; simp at this)
    k.c20
  refine ⟨r, e1, by rw [e2, length_expressionVector]; simp, ?_⟩
  rw [e3, hv, povPeGPoly_eq]
  simp only [← hk]
  ring

end VO
