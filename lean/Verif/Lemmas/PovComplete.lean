import Verif.Lemmas.Pov
import Verif.Lemmas.FibonacciComplete

set_option linter.unusedSectionVars false

namespace VO
open Spec
open Polynomial (X toLaurent)
open LaurentPolynomial (T)

variable {F G1 G2 GT : Type} [Field F] [DecidableEq F]
  [AddCommGroup G1] [Module F G1] [DecidableEq G1] [AddCommGroup G2] [Module F G2]
  [AddCommGroup GT] [Module F GT] [DecidableEq GT]

theorem eval_geomPoly (a : F) (n : ℕ) (z : F) (hz : a * z ≠ 1) :
    (geomPoly a n).eval z = (1 - (a * z) ^ n) / (1 - a * z) := by
  have h := congrArg (Polynomial.eval z) (geomPoly_mul a n)
  have h1 : (1 : F) - a * z ≠ 0 := sub_ne_zero.mpr (Ne.symm hz)
  rw [eq_div_iff h1, mul_comm]
  simpa [mul_pow] using h

/-- `power x a (1 - power x m)` is as expected also for `x = 0` when `a ≥ 1`. -/
theorem power_geom (x : F) (e f : ℤ) (a m : ℕ) (ha : 1 ≤ a) (he : e = a) (hf : f = m) (hx : x ≠ 1) :
    power x e * (1 - power x f) = x ^ a * (geomPoly (1 : F) m).eval x * (1 - x) := by
  have h1 : (1 : F) - x ≠ 0 := sub_ne_zero.mpr (Ne.symm hx)
  rw [eval_geomPoly_one m x hx, power_pos x e a ha he, mul_assoc, div_mul_cancel₀ _ h1]
  by_cases h0 : x = 0
  · subst h0; rw [zero_pow (by omega), zero_mul, zero_mul]
  · subst hf; rw [power_natCast (Or.inr h0)]

/-- The coefficients of the final combination. -/
noncomputable def povK (c ca cm D : ℕ) (γ ζ ζ1 α ω z y y1 y2 v : F) : PovCoeffs F where
  c20 := (ω / z) ^ (3 * c - cm) * y * z ^ (2 * c - cm)
    - (ω / z) ^ (3 * c - cm) * (geomPoly 1 cm).eval (ω / z) * z ^ (c - cm)
    + α * ((ω / z) ^ (2 * c + cm) * (geomPoly 1 ca).eval (ω / z)) * (z ^ (2 * c) + z ^ c - 1)
    + α ^ 2 * ((ω / z) ^ (2 * c + ca + cm) * (geomPoly 1 (c - ca - cm)).eval (ω / z))
    + α ^ 3 * y1 + α ^ 4 * (1 + (ω / z) * y2) - α ^ 4 * y2
  c21 := -(α ^ 2 * ((ω / z) ^ (2 * c + ca + cm) * (geomPoly 1 (c - ca - cm)).eval (ω / z))
    * z ^ (2 * c + ca + cm))
  c22 := -(α ^ 3 * y1 * v)
    + α ^ 4 * (1 + (ω / z) * y2) * (ζ * (geomPoly γ (3 * c)).eval z + ζ1 * (geomPoly 1 (3 * c)).eval z)
    - α ^ 4 * y2 * (ζ1 * (geomPoly 1 (3 * c)).eval z)
    + α ^ 5 * (y2 - (ω / z) ^ (3 * c - 1)) * z ^ (3 * c - 1)
  c23 := -(α ^ 4 * y2 * ζ)
  c24 := -((ω / z) ^ (3 * c) * (geomPoly 1 (3 * c - cm + 1)).eval (ω / z) * z ^ (3 * c - 1))
  c25 := -(z ^ D)⁻¹
  c26 := -z

theorem povCoeffs_ok (c ca cm D : ℕ) (sz : POVSize) (hc : sz.n = c) (hca : sz.nadd = ca)
    (hcm : sz.nmul = cm) (hsz : ca + cm < c) (γ ζ ζ1 α ω z y y1 y2 v : F) (hz : z ≠ 0) (hz1 : z ≠ 1)
    (hzo : z ≠ ω) (hzg : γ * z ≠ 1) :
    povCoeffs sz D γ ζ ζ1 α ω z y y1 y2 v = .ok (povK c ca cm D γ ζ ζ1 α ω z y y1 y2 v) := by
  subst hc hca hcm
  set c := sz.n
  set ca := sz.nadd
  set cm := sz.nmul
  have h1 : (1 : F) - z ≠ 0 := sub_ne_zero.mpr (Ne.symm hz1)
  have h2 : ω - z ≠ 0 := sub_ne_zero.mpr (Ne.symm hzo)
  have h2' : ω - 1 * z ≠ 0 := by rwa [one_mul]
  have h3 : γ * z - 1 ≠ 0 := sub_ne_zero.mpr hzg
  have hx1 : ω / z ≠ 1 := by intro h; rw [div_eq_one_iff_eq hz] at h; exact hzo h.symm
  have d1 : z * (ω - 1 * z) ≠ 0 := mul_ne_zero hz h2'
  have d2 : z * (1 - z) * (γ * z - 1) ≠ 0 := mul_ne_zero (mul_ne_zero hz h1) h3
  unfold povCoeffs
  simp only [divR_ok hz, divR_ok d1, divR_ok d2, divR_ok h2', bind, Except.bind, pure, Except.pure]
  congr 1
  have hxz : ω = (ω / z) * z := by field_simp
  have hox : ω - 1 * z = -(z * (1 - ω / z)) := by field_simp; ring
  have hxx : (1 : F) - ω / z ≠ 0 := sub_ne_zero.mpr (Ne.symm hx1)
  have g1 := power_geom (ω / z) (-cm + 3 * c) cm (3 * c - cm) cm (by omega) (by omega) rfl hx1
  have g2 := power_geom (ω / z) (cm + 2 * c) ca (2 * c + cm) ca (by omega) (by omega) rfl hx1
  have g3 := power_geom (ω / z) (ca + cm + 2 * c) (-ca - cm + c) (2 * c + ca + cm) (c - ca - cm)
    (by omega) (by omega) (by omega) hx1
  have g4 := power_geom (ω / z) (3 * c) (-cm + 3 * c + 1) (3 * c) (3 * c - cm + 1)
    (by omega) (by omega) (by omega) hx1
  have q1 : power (ω / z) (-(cm : ℤ) + 3 * c) = (ω / z) ^ (3 * c - cm) :=
    power_pos _ _ _ (by omega) (by omega)
  have q2 : power z (-(cm : ℤ) - c + 3 * c) = z ^ (2 * c - cm) := power_pos _ _ _ (by omega) (by omega)
  have q3 : power z ((c : ℤ) + 1) = z ^ c * z := by
    rw [power_pos _ _ (c + 1) (by omega) (by omega), pow_succ]
  have q4 : power z (2 * (c : ℤ) + 1) = z ^ (2 * c) * z := by
    rw [power_pos _ _ (2 * c + 1) (by omega) (by omega), pow_succ]
  have q5 : power z (-(cm : ℤ) - 2 * c + 3 * c + 1) = z ^ (c - cm) * z := by
    rw [power_pos _ _ (c - cm + 1) (by omega) (by omega), pow_succ]
  have q6 : power z ((ca : ℤ) + cm + 2 * c + 1) = z ^ (2 * c + ca + cm) * z := by
    rw [power_pos _ _ (2 * c + ca + cm + 1) (by omega) (by omega), pow_succ]
  have q7 : power z (3 * (c : ℤ)) = z ^ (3 * c) := power_pos _ _ _ (by omega) (by omega)
  have q8 : power (γ * z) (3 * (c : ℤ)) = (γ * z) ^ (3 * c) := power_pos _ _ _ (by omega) (by omega)
  have q9 : power z (3 * (c : ℤ) - 1) = z ^ (3 * c - 1) := power_pos _ _ _ (by omega) (by omega)
  have q10 : power (ω / z) (3 * (c : ℤ) - 1) = (ω / z) ^ (3 * c - 1) :=
    power_pos _ _ _ (by omega) (by omega)
  have qD : power z (-(D : ℤ)) = (z ^ D)⁻¹ := by
    rw [power_eq_zpow hz, zpow_neg, zpow_natCast]
  have q1' : power (1 : F) 2 = 1 := by rw [power_two, one_pow]
  simp only [povK, PovCoeffs.mk.injEq]
  refine ⟨?_, ?_, ?_, ?_, ?_, qD ▸ rfl, trivial⟩
  · rw [div_eq_iff d1, hox, q1', power_four, power_three, power_two]
    rw [q2, q3, q4, q5]
    rw [q1]
    rw [q1] at g1
    generalize hx : ω / z = x at *
    rw [hxz]
    linear_combination (z * (z ^ (c - cm) * z)) * g1
      - (z * α * (-1 * z + z ^ c * z + z ^ (2 * c) * z)) * g2
      - (z * α ^ 2 * z) * g3
  · rw [div_eq_iff h2', hox, power_two, q6]
    linear_combination (α ^ 2 * (z ^ (2 * c + ca + cm) * z)) * g3
  · have h3' : (1 : F) - γ * z ≠ 0 := sub_ne_zero.mpr (Ne.symm hzg)
    have A : (geomPoly (1 : F) (3 * c)).eval z * (1 - z) = 1 - z ^ (3 * c) := by
      rw [eval_geomPoly_one _ _ hz1, div_mul_cancel₀ _ h1]
    have B : (geomPoly γ (3 * c)).eval z * (1 - γ * z) = 1 - (γ * z) ^ (3 * c) := by
      rw [eval_geomPoly γ _ _ hzg, div_mul_cancel₀ _ h3']
    rw [div_eq_iff d2, q1', q7, q8, q9, q10, power_three, power_two]
    generalize hx : ω / z = x at *
    rw [hxz]
    linear_combination (-(α ^ 4 * (-y2 * z * ζ1 * (γ * z - 1)
      + (x * z * y2 + z) * ζ1 * (γ * z - 1)))) * A + (α ^ 4 * (x * z * y2 + z) * ζ * (1 - z)) * B
  · rw [q1', power_four]; ring
  · have hzn : z ^ (3 * c) = z ^ (3 * c - 1) * z := by rw [← pow_succ]; congr 1; omega
    rw [div_eq_iff h2', hox, q7, hzn]
    linear_combination (z ^ (3 * c - 1) * z) * g4

theorem povCoeffs_bad (D : ℕ) (sz : POVSize) (γ ζ ζ1 α ω z y y1 y2 v : F)
    (h : z = 0 ∨ z = 1 ∨ z = ω ∨ γ * z = 1) :
    povCoeffs sz D γ ζ ζ1 α ω z y y1 y2 v = .error .panic := by
  unfold povCoeffs
  by_cases hz : z = 0
  · subst hz; rw [divR_zero]; rfl
  by_cases hzo : z = ω
  · subst hzo
    simp only [divR_ok hz, one_mul, sub_self, mul_zero, divR_zero, bind, Except.bind]
  have h2 : ω - 1 * z ≠ 0 := by rw [one_mul]; exact sub_ne_zero.mpr (Ne.symm hzo)
  have d0 : z * (1 - z) * (γ * z - 1) = 0 := by
    rcases h with h | h | h | h
    · exact absurd h hz
    · rw [h]; ring
    · exact absurd h hzo
    · rw [h]; ring
  simp only [divR_ok hz, divR_ok (mul_ne_zero hz h2), divR_ok h2, d0, divR_zero, bind, Except.bind]

theorem povGPoly_eq (c ca cm D : ℕ) (γ ζ ζ1 α ω z y y1 y2 v : F) (W S K P1 H1 H2 : Polynomial F) :
    povGPoly c ca cm D γ ζ ζ1 α ω z y y1 y2 v W S K P1 H1 H2 =
      let k := povK c ca cm D γ ζ ζ1 α ω z y y1 y2 v
      Polynomial.C k.c22 + Polynomial.C k.c20 * W + Polynomial.C k.c21 * K + Polynomial.C k.c23 * S
        + Polynomial.C k.c24 * P1 + Polynomial.C k.c25 * H1 + Polynomial.C k.c26 * H2 := by
  simp only [povGPoly, povComb, povK, Polynomial.smul_eq_C_mul, map_neg, map_add, map_sub, map_mul]
  ring

theorem povComb_eq (c ca cm D : ℕ) (γ ζ ζ1 α ω z y y1 y2 v : F) (g cW cK cS cT1 cH1 cH2 : G1) :
    povCmG g (povK c ca cm D γ ζ ζ1 α ω z y y1 y2 v) cW cK cS cT1 cH1 cH2
      = povComb c ca cm D γ ζ ζ1 α ω z y y1 y2 v g cW cS cK cT1 cH1 cH2 := by
  rw [povCmG, clc_eq]
  simp only [List.map_cons, List.map_nil, List.sum_cons, List.sum_nil, povComb, povK]
  module

/-- The value of the final polynomial at `z` when the claimed values are right. -/
theorem povG_eval (c ca cm D : ℕ) (γ ζ ζ1 α ω z : F) (W S K I V R P1 H1 H2 : Polynomial F) :
    (povGPoly c ca cm D γ ζ ζ1 α ω z (W.eval (ω / z)) (I.eval (ω / z)) (R.eval (ω / z)) (V.eval z)
        W S K P1 H1 H2).eval z
      = hadamardAt ω z (povPolys c ca cm γ ζ ζ1 α W S K I V R P1)
        - ((z ^ D)⁻¹ * H1.eval z + z * H2.eval z) := by
  rw [povGPoly_eq]
  simp only [povK, hadamardAt, povPolys, povBase, blindPair, List.cons_append, List.nil_append,
    List.map_cons, List.map_nil, List.sum_cons,
    List.sum_nil, Polynomial.eval_sub, Polynomial.eval_add, Polynomial.eval_mul, Polynomial.eval_C,
    Polynomial.eval_neg, Polynomial.eval_pow, Polynomial.eval_X, Polynomial.eval_one]
  ring

theorem povK_eval (c ca cm D : ℕ) (γ ζ ζ1 α ω z y y1 y2 v β : F) (W S K P1 H1 H2 : Polynomial F)
    (g : G1) :
    povCmG g (povK c ca cm D γ ζ ζ1 α ω z y y1 y2 v) (W.eval β • g) (K.eval β • g) (S.eval β • g)
        (P1.eval β • g) (H1.eval β • g) (H2.eval β • g) =
    (povGPoly c ca cm D γ ζ ζ1 α ω z y y1 y2 v W S K P1 H1 H2).eval β • g := by
  rw [povCmG, clc_eq]
  simp only [List.map_cons, List.map_nil, List.sum_cons, List.sum_nil, smul_smul, ← add_smul,
    add_zero]
  congr 1
  rw [povGPoly_eq]
  simp only [Polynomial.eval_add, Polynomial.eval_mul, Polynomial.eval_C]
  ring

theorem povGvec_ok (c ca cm D : ℕ) (hsz : ca + cm < c) (hD : 6 * c - cm ≤ D)
    (w d sigma t1 h1 h2 : List F) (lw : w.length ≤ D + 1) (ld : d.length ≤ D + 1)
    (ls : sigma.length ≤ D + 1) (dt1 : (polyOf t1).degree < ((D + 1 : ℕ) : WithBot ℕ))
    (l1 : h1.length = 6 * c - cm) (l2 : h2.length = 6 * c - cm)
    (γ ζ ζ1 α ω z y y1 y2 v : F) :
    ∃ gv, povG (-cm + 3 * c) (3 * c) (D + 1) w d sigma t1 h1 h2
        (povK c ca cm (D + 1) γ ζ ζ1 α ω z y y1 y2 v) = .ok gv ∧
      gv.length = D + 1 ∧ polyOf gv = povGPoly c ca cm (D + 1) γ ζ ζ1 α ω z y y1 y2 v (polyOf w)
        (polyOf sigma) (polyOf d) (polyOf t1) (X ^ (D + 1 - (6 * c - cm)) * polyOf h1)
        (polyOf h2) := by
  set k := povK c ca cm (D + 1) γ ζ ζ1 α ω z y y1 y2 v with hk
  set f : ℤ → F := (fun i =>
    linearCombination 0 [(k.c20, vectorIndex w i), (k.c21, vectorIndex d i),
      (k.c23, vectorIndex sigma i), (k.c24, vectorIndex t1 i),
      (k.c25, vectorIndex h1 (-((D + 1 : ℕ) : ℤ) + i + (-cm + 3 * c) + 3 * c)),
      (k.c26, vectorIndex h2 i)]) with hf
  have hrep : Rep f
      (Polynomial.C k.c20 * polyOf w + Polynomial.C k.c21 * polyOf d
        + Polynomial.C k.c23 * polyOf sigma + Polynomial.C k.c24 * polyOf t1
        + Polynomial.C k.c25 * (X ^ (D + 1 - (6 * c - cm)) * polyOf h1)
        + Polynomial.C k.c26 * polyOf h2) := by
    refine ((((((((rep_vec w).cmul k.c20).add ((rep_vec d).cmul k.c21)).add
      ((rep_vec sigma).cmul k.c23)).add ((rep_vec t1).cmul k.c24)).add
      (((rep_vec h1).shift (D + 1 - (6 * c - cm))).cmul k.c25)).add
      ((rep_vec h2).cmul k.c26))).congrf ?_
    intro i
    have e : (-((D + 1 : ℕ) : ℤ) + i + (-cm + 3 * c) + 3 * c)
        = i - ((D + 1 - (6 * c - cm) : ℕ) : ℤ) := by omega
    simp only [hf, linearCombination, List.foldl_cons, List.foldl_nil, e]
    ring
  have dw := degLt_mono (degree_polyOf_lt w) lw
  have dd := degLt_mono (degree_polyOf_lt d) ld
  have ds := degLt_mono (degree_polyOf_lt sigma) ls
  have d1 := degree_polyOf_lt h1
  have d2 := degree_polyOf_lt h2
  rw [l1] at d1; rw [l2] at d2
  have hv := polyOf_expressionVector hrep (D + 1)
    (degLt_add (degLt_add (degLt_add (degLt_add (degLt_add (degLt_C_mul dw _) (degLt_C_mul dd _))
    (degLt_C_mul ds _)) (degLt_C_mul dt1 _)) (degLt_C_mul (degLt_mono (degLt_X_pow_mul d1 _)
      (by omega)) _)) (degLt_C_mul (degLt_mono d2 (by omega)) _))
  obtain ⟨r, e1, e2, e3⟩ := addToFirstItem_ok (expressionVector ((D + 1 : ℕ) : ℤ) f) (by
      intro h; have := congrArg List.length h; rw [length_expressionVector] at this; simp at this)
    k.c22
  refine ⟨r, e1, by rw [e2, length_expressionVector]; simp, ?_⟩
  rw [e3, hv, povGPoly_eq]
  simp only [← hk]
  ring

end VO
