import Verif.Lemmas.HprSnark
import Verif.Lemmas.R1csSnarkComplete

set_option linter.unusedSectionVars false

namespace VO
open Spec
open Polynomial (X toLaurent)
open LaurentPolynomial (T)

variable {F G1 G2 GT : Type} [Field F] [DecidableEq F]
  [AddCommGroup G1] [Module F G1] [DecidableEq G1] [AddCommGroup G2] [Module F G2]
  [AddCommGroup GT] [Module F GT] [DecidableEq GT]

/-- The coefficients of the final combination. -/
noncomputable def hprK (H K S D : ℕ) (γ μ ν β α ω z y y1 v : F) : R1csCoeffs F where
  c35 := μ * (geomPoly 1 H).eval (ω / z) - (geomPoly γ H).eval (ω / z)
    + α ^ 2 * ((ω / z) ^ (H + (3 * K + 1)) * (geomPoly 1 (S - H)).eval (ω / z))
    + α ^ 6 * (v + (ω / z) ^ H + (ω / z) ^ (H + 1) * y1) - α ^ 6 * β * ((ω / z) ^ H * y)
  c36 := -((geomPoly 1 H).eval (ω / z) * (geomPoly 1 H).eval z)
    - α * (geomPoly 1 (3 * K + 1)).eval (ω / z) * (geomPoly 1 (3 * K + 1)).eval z
    + α ^ 4 * y * z ^ (3 * K + 1) * (μ * ν * (geomPoly 1 S).eval z)
    - α ^ 4 * ((ω / z) ^ (3 * K + 1) * (geomPoly 1 S).eval (ω / z))
      * (z ^ (3 * K + 1) * (geomPoly 1 S).eval z)
  c37 := α * (ν * (geomPoly 1 (3 * K + 1)).eval (ω / z) - (geomPoly γ (3 * K + 1)).eval (ω / z))
  c38 := -(α ^ 4 * μ * y * z ^ (3 * K + 1))
  c39 := -(α ^ 4 * ν * y * z ^ (3 * K + 1))
  c40 := α ^ 4 * y * z ^ (3 * K + 1)
  c41 := α ^ 5 * ((ω / z) ^ (2 * K + 1 + S) * y1) * z ^ (K + 1 + S)
    - α ^ 5 * ((ω / z) ^ (2 * K + 1 + S) * (geomPoly 1 K).eval (ω / z)) * z ^ (1 + S)
  c42 := -(α ^ 6 * β * y * z ^ (3 * K + 1))
  c43 := -(α ^ 6 * (geomPoly 1 (3 * K + 1 + S)).eval (ω / z)) * (1 - z)
    + α ^ 7 * (ω / z) ^ (3 * K + S)
  c44 := -((ω / z) ^ (3 * K + 1 + S) * (geomPoly 1 (2 * K + S + 2)).eval (ω / z)
    * z ^ (3 * K + S))
  c45 := -(z ^ D)⁻¹
  c46 := -z

set_option maxHeartbeats 1000000 in
theorem hprCoeffs_ok (H K S D : ℕ) (sz : HPRSize) (hH : sz.nrows = H) (hK : sz.ncols = K)
    (hS : sz.total = S) (h1 : 1 ≤ H) (h2 : H ≤ S) (h3 : 1 ≤ K)
    (γ μ ν β α ω z y y1 v : F) (hz : z ≠ 0) (hz1 : z ≠ 1) (hzo : z ≠ ω) (hzg : z ≠ γ * ω) :
    hprCoeffs sz D γ μ ν β α ω z y y1 v = .ok (hprK H K S D γ μ ν β α ω z y y1 v) := by
  obtain ⟨x, rfl⟩ : ∃ x, ω = x * z := ⟨ω / z, by field_simp⟩
  have n1 : (1 : F) - z ≠ 0 := sub_ne_zero.mpr (Ne.symm hz1)
  have n2 : x * z - 1 * z ≠ 0 := by rw [one_mul]; exact sub_ne_zero.mpr (Ne.symm hzo)
  have n3 : γ * (x * z) - 1 * z ≠ 0 := by rw [one_mul]; exact sub_ne_zero.mpr (Ne.symm hzg)
  have n4 : x * z - z ≠ 0 := sub_ne_zero.mpr (Ne.symm hzo)
  have hx1 : x ≠ 1 := by rintro rfl; exact hzo (by ring)
  have hg1 : γ * x ≠ 1 := by
    intro h; apply hzg; rw [← mul_assoc, h, one_mul]
  have hxz : x * z / z = x := by field_simp
  have hgz : γ * (x * z) / z = γ * x := by field_simp
  have d1 : (x * z - 1 * z) * (γ * (x * z) - 1 * z) ≠ 0 := mul_ne_zero n2 n3
  have d2 : (x * z - 1 * z) * (1 - z) ≠ 0 := mul_ne_zero n2 n1
  have hx1' : (1 : F) - x ≠ 0 := sub_ne_zero.mpr (Ne.symm hx1)
  have hg1' : (1 : F) - γ * x ≠ 0 := sub_ne_zero.mpr (Ne.symm hg1)
  have gx : ∀ n, (geomPoly (1 : F) n).eval x * (1 - x) = 1 - x ^ n := by
    intro n; rw [eval_geomPoly_one n x hx1, div_mul_cancel₀ _ hx1']
  have gz : ∀ n, (geomPoly (1 : F) n).eval z * (1 - z) = 1 - z ^ n := by
    intro n; rw [eval_geomPoly_one n z hz1, div_mul_cancel₀ _ n1]
  have gg : ∀ n, (geomPoly γ n).eval x * (1 - γ * x) = 1 - (γ * x) ^ n := by
    intro n; rw [eval_geomPoly γ n x hg1, div_mul_cancel₀ _ hg1']
  have pp : ∀ (a : F) (e : ℤ) (n : ℕ), 1 ≤ n → e = n → power a e = a ^ n := power_pos
  have pz : ∀ (e : ℤ) (n : ℕ), e = n → power z e = z ^ n := by
    intro e n he; subst he; exact power_natCast (Or.inr hz)
  have e1 : power x ((H : ℤ) + 3 * K + 1) * (1 - power x (-H + S))
      = x ^ (H + (3 * K + 1)) * (geomPoly (1 : F) (S - H)).eval x * (1 - x) :=
    power_geom x _ _ (H + (3 * K + 1)) (S - H) (by omega) (by push_cast; ring) (by omega) hx1
  have qD : power z (-(D : ℤ)) = (z ^ D)⁻¹ := by
    rw [power_eq_zpow hz, zpow_neg, zpow_natCast]
  have q1 : power (1 : F) 2 = 1 := by rw [power_two, one_pow]
  have xH : power x (H : ℤ) = x ^ H := pp _ _ _ (by omega) rfl
  have xH1 : power x ((H : ℤ) + 1) = x ^ (H + 1) := pp _ _ _ (by omega) (by push_cast; ring)
  have xgH : power (γ * x) (H : ℤ) = (γ * x) ^ H := pp _ _ _ (by omega) rfl
  have x3 : power x (3 * (K : ℤ) + 1) = x ^ (3 * K + 1) := pp _ _ _ (by omega) (by push_cast; ring)
  have xg3 : power (γ * x) (3 * (K : ℤ) + 1) = (γ * x) ^ (3 * K + 1) :=
    pp _ _ _ (by omega) (by push_cast; ring)
  have xS : power x (S : ℤ) = x ^ S := pp _ _ _ (by omega) rfl
  have xK : power x (K : ℤ) = x ^ K := pp _ _ _ (by omega) rfl
  have x2 : power x (2 * (K : ℤ) + S + 1) = x ^ (2 * K + 1 + S) := pp _ _ _ (by omega) (by omega)
  have xN : power x (3 * (K : ℤ) + S + 1) = x ^ (3 * K + 1 + S) := pp _ _ _ (by omega) (by omega)
  have xN1 : power x (3 * (K : ℤ) + S) = x ^ (3 * K + S) := pp _ _ _ (by omega) (by omega)
  have xB : power x (2 * (K : ℤ) + S + 2) = x ^ (2 * K + S + 2) := pp _ _ _ (by omega) (by omega)
  have z3 : power z (3 * (K : ℤ) + 1) = z ^ (3 * K + 1) := pz _ _ (by push_cast; ring)
  have z32 : power z (3 * (K : ℤ) + 2) = z ^ (3 * K + 1) * z := by
    rw [pz _ (3 * K + 1 + 1) (by push_cast; ring), pow_succ z (3 * K + 1)]
  have zS : power z (S : ℤ) = z ^ S := pz _ _ rfl
  have zH : power z (H : ℤ) = z ^ H := pz _ _ rfl
  have zN : power z (3 * (K : ℤ) + S + 1) = z ^ (3 * K + S) * z := by
    rw [pz _ (3 * K + S + 1) (by omega), pow_succ]
  have z2K : power z (-2 * (K : ℤ) + (3 * K + S + 1)) = z ^ (K + 1 + S) := pz _ _ (by omega)
  have z3K : power z (-3 * (K : ℤ) + (3 * K + S + 1) + 1) = z ^ (1 + S) * z := by
    rw [pz _ (1 + S + 1) (by omega), pow_succ]
  unfold hprCoeffs
  rw [hH, hK, hS]
  simp only [divR_ok hz, divR_ok d1, divR_ok d2, divR_ok n2, bind, Except.bind, pure,
    Except.pure, hxz, hgz]
  congr 1
  simp only [hprK, R1csCoeffs.mk.injEq, hxz]
  refine ⟨?_, ?_, ?_, ?_, ?_, ?_, ?_, ?_, ?_, ?_, by rw [qD], trivial⟩
  · rw [div_eq_iff d1, power_six, power_two, xH, xgH, xH1]
    linear_combination (-α ^ 2 * z * (γ * (x * z) - z)) * e1
      + (μ * z * (γ * (x * z) - z)) * gx H
      - (z * (x * z - z)) * gg H
  · rw [div_eq_iff d2, power_four, xH, z3, zS, z32, x3, xS, q1, zH]
    linear_combination (-z * (1 - x ^ H)) * gz H
      - (z * (geomPoly (1 : F) H).eval z * (1 - z)) * gx H
      - (α * z * (1 - x ^ (3 * K + 1))) * gz (3 * K + 1)
      - (α * z * (geomPoly (1 : F) (3 * K + 1)).eval z * (1 - z)) * gx (3 * K + 1)
      - (α ^ 4 * y * z ^ (3 * K + 1) * μ * ν * (x * z - z)) * gz S
      - (α ^ 4 * x ^ (3 * K + 1) * z ^ (3 * K + 1) * z * (1 - x ^ S)) * gz S
      - (α ^ 4 * x ^ (3 * K + 1) * z ^ (3 * K + 1) * z * (geomPoly (1 : F) S).eval z * (1 - z))
        * gx S
  · rw [div_eq_iff d1, q1, x3, xg3]
    linear_combination (α * ν * z * (γ * (x * z) - z)) * gx (3 * K + 1)
      - (α * z * (x * z - z)) * gg (3 * K + 1)
  · rw [power_four, z3]; ring
  · rw [power_four, z3]; ring
  · rw [power_four, z3]; ring
  · rw [div_eq_iff n2, power_five, x2, z2K, z3K, xK]
    linear_combination (-α ^ 5 * x ^ (2 * K + 1 + S) * z ^ (1 + S) * z) * gx K
  · rw [power_six, z3]; ring
  · rw [div_eq_iff n2, power_six, xN1, xN]
    linear_combination (-α ^ 6 * z * (1 - z)) * gx (3 * K + 1 + S)
  · rw [div_eq_iff n2, zN, xN, xB]
    linear_combination (-x ^ (3 * K + 1 + S) * z ^ (3 * K + S) * z) * gx (2 * K + S + 2)

theorem hprCoeffs_bad (D : ℕ) (sz : HPRSize) (γ μ ν β α ω z y y1 v : F)
    (h : z = 0 ∨ z = 1 ∨ z = ω ∨ z = γ * ω) :
    hprCoeffs sz D γ μ ν β α ω z y y1 v = .error .panic := by
  unfold hprCoeffs
  by_cases hz : z = 0
  · subst hz; rw [divR_zero]; rfl
  by_cases hzo : z = ω
  · subst hzo
    simp only [divR_ok hz, one_mul, sub_self, zero_mul, divR_zero, bind, Except.bind]
  by_cases hzg : z = γ * ω
  · have : (ω - 1 * z) * (γ * ω - 1 * z) = 0 := by rw [← hzg]; ring
    simp only [divR_ok hz, this, divR_zero, bind, Except.bind]
  have h2 : ω - 1 * z ≠ 0 := by rw [one_mul]; exact sub_ne_zero.mpr (Ne.symm hzo)
  have h3 : γ * ω - 1 * z ≠ 0 := by rw [one_mul]; exact sub_ne_zero.mpr (Ne.symm hzg)
  have d0 : (ω - 1 * z) * (1 - z) = 0 := by
    rcases h with h | h | h | h
    · exact absurd h hz
    · rw [h]; ring
    · exact absurd h hzo
    · exact absurd h hzg
  simp only [divR_ok hz, divR_ok (mul_ne_zero h2 h3), d0, divR_zero, bind, Except.bind]

theorem hprGPoly_eq (H K S D : ℕ) (γ μ ν β α ω z y y1 v : F)
    (Pu Pw Pv Py A P Q R T H1 H2 : Polynomial F) :
    hprGPoly H K S D γ μ ν β α ω z y y1 v Pu Pw Pv Py A P Q R T H1 H2 =
      let k := hprK H K S D γ μ ν β α ω z y y1 v
      Polynomial.C k.c36 + Polynomial.C k.c35 * P + Polynomial.C k.c37 * Q + Polynomial.C k.c38 * Pw
        + Polynomial.C k.c39 * Pu + Polynomial.C k.c40 * Py + Polynomial.C k.c41 * A
        + Polynomial.C k.c42 * Pv + Polynomial.C k.c43 * R + Polynomial.C k.c44 * T
        + Polynomial.C k.c45 * H1 + Polynomial.C k.c46 * H2 := by
  simp only [hprGPoly, hprComb, hprK, Polynomial.smul_eq_C_mul, map_neg, map_add, map_sub,
    map_mul, map_one]
  ring

theorem hprComb_eq (H K S D : ℕ) (γ μ ν β α ω z y y1 v : F)
    (g pu pw pv py a p q r t h1 h2 : G1) :
    r1csCmG g (hprK H K S D γ μ ν β α ω z y y1 v) p q pw pu py a pv r t h1 h2
      = hprComb H K S D γ μ ν β α ω z y y1 v g pu pw pv py a p q r t h1 h2 := by
  rw [r1csCmG, clc_eq]
  simp only [List.map_cons, List.map_nil, List.sum_cons, List.sum_nil, hprComb, hprK]
  module

/-- The value of the final polynomial at `z` when the claimed values are right. -/
theorem hprG_eval (H K S D : ℕ) (γ μ ν β α ω z : F)
    (Pu Pw Pv Py V A P Q R T H1 H2 : Polynomial F) :
    (hprGPoly H K S D γ μ ν β α ω z (Q.eval (ω / z)) (A.eval (ω / z)) (V.eval (ω / z))
        Pu Pw Pv Py A P Q R T H1 H2).eval z
      = hadamardAt ω z (hprPolys H K S γ μ ν β α Pu Pw Pv Py V A P Q R T)
        - ((z ^ D)⁻¹ * H1.eval z + z * H2.eval z) := by
  have hn : 3 * K + 1 + S - 1 = 3 * K + S := by omega
  rw [hprGPoly_eq]
  simp only [hprK, hprAsg, hadamardAt, hprPolys, hprBase, blindPair, List.cons_append, List.nil_append,
    List.map_cons, List.map_nil, List.sum_cons,
    List.sum_nil, Polynomial.eval_sub, Polynomial.eval_add, Polynomial.eval_mul, Polynomial.eval_C,
    Polynomial.eval_neg, Polynomial.eval_pow, Polynomial.eval_X, Polynomial.eval_one,
    hn]
  ring

theorem hprK_eval (H K S D : ℕ) (γ μ ν β α ω z y y1 v τ : F)
    (Pu Pw Pv Py A P Q R T H1 H2 : Polynomial F) (g : G1) :
    r1csCmG g (hprK H K S D γ μ ν β α ω z y y1 v) (P.eval τ • g) (Q.eval τ • g) (Pw.eval τ • g)
        (Pu.eval τ • g) (Py.eval τ • g) (A.eval τ • g) (Pv.eval τ • g) (R.eval τ • g)
        (T.eval τ • g) (H1.eval τ • g) (H2.eval τ • g) =
    (hprGPoly H K S D γ μ ν β α ω z y y1 v Pu Pw Pv Py A P Q R T H1 H2).eval τ • g := by
  rw [r1csCmG, clc_eq]
  simp only [List.map_cons, List.map_nil, List.sum_cons, List.sum_nil, smul_smul, ← add_smul,
    add_zero]
  congr 1
  rw [hprGPoly_eq]
  simp only [Polynomial.eval_add, Polynomial.eval_mul, Polynomial.eval_C]
  ring

theorem hprGvec_ok (H K S D : ℕ) 
    (hD : 5 * K + 2 * S + 2 ≤ D) (u w v y u1 s h r t hv2 hv3 : List F)
    (lu : u.length ≤ D + 1) (lw : w.length ≤ D + 1) (lv : v.length ≤ D + 1) (ly : y.length ≤ D + 1)
    (lu1 : u1.length ≤ D + 1) (ls : s.length ≤ D + 1) (lh : h.length ≤ D + 1)
    (lr : r.length ≤ D + 1) (dt : (polyOf t).degree < ((D + 1 : ℕ) : WithBot ℕ))
    (l2 : hv2.length = 5 * K + 2 * S + 2) (l3 : hv3.length = 5 * K + 2 * S + 2)
    (γ μ ν β α ω z Y Y1 V : F) :
    ∃ gv, r1csG ((2 * K + S + 1 : ℕ) : ℤ) ((3 * K + S + 1 : ℕ) : ℤ) (D + 1) s h w u y u1 v r t hv2 hv3
        (hprK H K S (D + 1) γ μ ν β α ω z Y Y1 V) = .ok gv ∧
      gv.length = D + 1 ∧ polyOf gv = hprGPoly H K S (D + 1) γ μ ν β α ω z Y Y1 V (polyOf u)
        (polyOf w) (polyOf v) (polyOf y) (polyOf u1) (polyOf s) (polyOf h) (polyOf r) (polyOf t)
        (X ^ (D + 1 - (5 * K + 2 * S + 2)) * polyOf hv2) (polyOf hv3) := by
  set k := hprK H K S (D + 1) γ μ ν β α ω z Y Y1 V with hk
  set f : ℤ → F := (fun i =>
    linearCombination 0 [(k.c35, vectorIndex s i), (k.c37, vectorIndex h i),
      (k.c38, vectorIndex w i), (k.c39, vectorIndex u i), (k.c40, vectorIndex y i),
      (k.c41, vectorIndex u1 i), (k.c42, vectorIndex v i), (k.c43, vectorIndex r i),
      (k.c44, vectorIndex t i),
      (k.c45, vectorIndex hv2 (-((D + 1 : ℕ) : ℤ) + i + ((2 * K + S + 1 : ℕ) : ℤ) + ((3 * K + S + 1 : ℕ) : ℤ))),
      (k.c46, vectorIndex hv3 i)]) with hf
  have hrep : Rep f
      (Polynomial.C k.c35 * polyOf s + Polynomial.C k.c37 * polyOf h + Polynomial.C k.c38 * polyOf w
        + Polynomial.C k.c39 * polyOf u + Polynomial.C k.c40 * polyOf y
        + Polynomial.C k.c41 * polyOf u1 + Polynomial.C k.c42 * polyOf v
        + Polynomial.C k.c43 * polyOf r + Polynomial.C k.c44 * polyOf t
        + Polynomial.C k.c45 * (X ^ (D + 1 - (5 * K + 2 * S + 2)) * polyOf hv2)
        + Polynomial.C k.c46 * polyOf hv3) := by
    refine (((((((((((((rep_vec s).cmul k.c35).add ((rep_vec h).cmul k.c37)).add
      ((rep_vec w).cmul k.c38)).add ((rep_vec u).cmul k.c39)).add ((rep_vec y).cmul k.c40)).add
      ((rep_vec u1).cmul k.c41)).add ((rep_vec v).cmul k.c42)).add ((rep_vec r).cmul k.c43)).add
      ((rep_vec t).cmul k.c44)).add
      (((rep_vec hv2).shift (D + 1 - (5 * K + 2 * S + 2))).cmul k.c45)).add
      ((rep_vec hv3).cmul k.c46))).congrf ?_
    intro i
    have e : (-((D + 1 : ℕ) : ℤ) + i + ((2 * K + S + 1 : ℕ) : ℤ) + ((3 * K + S + 1 : ℕ) : ℤ))
        = i - ((D + 1 - (5 * K + 2 * S + 2) : ℕ) : ℤ) := by omega
    simp only [hf, linearCombination, List.foldl_cons, List.foldl_nil, e]
    ring
  have dg := fun (l : List F) (hl : l.length ≤ D + 1) => degLt_mono (degree_polyOf_lt l) hl
  have d2 := degree_polyOf_lt hv2
  have d3 := degree_polyOf_lt hv3
  rw [l2] at d2; rw [l3] at d3
  have hv := polyOf_expressionVector hrep (D + 1)
    (degLt_add (degLt_add (degLt_add (degLt_add (degLt_add (degLt_add (degLt_add (degLt_add
      (degLt_add (degLt_add (degLt_C_mul (dg s ls) _) (degLt_C_mul (dg h lh) _))
      (degLt_C_mul (dg w lw) _)) (degLt_C_mul (dg u lu) _)) (degLt_C_mul (dg y ly) _))
      (degLt_C_mul (dg u1 lu1) _)) (degLt_C_mul (dg v lv) _)) (degLt_C_mul (dg r lr) _))
      (degLt_C_mul dt _)) (degLt_C_mul (degLt_mono (degLt_X_pow_mul d2 _) (by omega)) _))
      (degLt_C_mul (degLt_mono d3 (by omega)) _))
  obtain ⟨g, e1, e2, e3⟩ := addToFirstItem_ok (expressionVector ((D + 1 : ℕ) : ℤ) f) (by
      intro h; have := congrArg List.length h; rw [length_expressionVector] at this; simp at this)
    k.c36
  refine ⟨g, e1, by rw [e2, length_expressionVector]; simp, ?_⟩
  rw [e3, hv, hprGPoly_eq]
  simp only [← hk]
  ring

end VO
