import Verif.Lemmas.R1csPe
import Verif.Lemmas.PovComplete

set_option linter.unusedSectionVars false

namespace VO
open Spec
open Polynomial (X toLaurent)
open LaurentPolynomial (T)

variable {F G1 G2 GT : Type} [Field F] [DecidableEq F]
  [AddCommGroup G1] [Module F G1] [DecidableEq G1] [AddCommGroup G2] [Module F G2]
  [AddCommGroup GT] [Module F GT] [DecidableEq GT]

/-- The coefficients of the final combination. -/
noncomputable def r1csPeK (H K S ℓ D : ℕ) (γ μ ν β α ω z y y1 y2 v : F) : R1csPeCoeffs F where
  c36 := μ * (geomPoly 1 (3 * H)).eval (ω / z) - (geomPoly γ (3 * H)).eval (ω / z)
    + α ^ 2 * ((ω / z) ^ (3 * H) * (geomPoly 1 (S - 3 * H)).eval (ω / z)) - α ^ 9 * y1
  c37 := -((geomPoly 1 (3 * H)).eval (ω / z) * (geomPoly 1 (3 * H)).eval z)
    - α * (geomPoly 1 K).eval (ω / z) * (geomPoly 1 K).eval z
    + α ^ 6 * y * (μ * ν * (geomPoly 1 S).eval z)
    - α ^ 6 * (geomPoly 1 S).eval (ω / z) * (geomPoly 1 S).eval z
    + α ^ 9 * y2 * (1 + z * v)
  c38 := α * (ν * (geomPoly 1 K).eval (ω / z) - (geomPoly γ K).eval (ω / z))
    + α ^ 3 * ((ω / z) ^ K * (geomPoly 1 (S - K)).eval (ω / z)) + α ^ 9 * β * y2
  c39 := α ^ 4 * ((ω / z) ^ K * (geomPoly 1 (S - K)).eval (ω / z))
  c40 := -(α ^ 6 * μ * y)
  c41 := -(α ^ 6 * ν * y)
  c42 := α ^ 6 * y
  c43 := α ^ 7 * ((ω / z) ^ (3 * H) * (geomPoly 1 (S - 3 * H)).eval (ω / z))
    + α ^ 8 * ((ω / z) ^ (2 * H) * y1)
    - α ^ 8 * ((ω / z) ^ (2 * H) * (geomPoly 1 H).eval (ω / z)) * z ^ H
  c44 := α ^ 9 * y2 * z ^ (ℓ + 1)
  c45 := -(α ^ 9 * β * y)
  c46 := -(α ^ 9 * (geomPoly 1 S).eval (ω / z)) * (1 - z) + α ^ 10 * (ω / z) ^ (S - 1)
  c47 := -((ω / z) ^ S * (geomPoly 1 (2 * H + 1)).eval (ω / z) * z ^ (S - 1))
  c48 := -(z ^ D)⁻¹
  c49 := -z

set_option maxHeartbeats 1000000 in
theorem r1csPeCoeffs_ok (H K S ℓ D : ℕ) (sz : R1CSSize) (hH : sz.nrows = H) (hK : sz.ncols = K)
    (hS : sz.total = S) (hℓ : sz.inputSize = ℓ) (h1 : 1 ≤ H) (h2 : 3 * H ≤ S) (h3 : 1 ≤ K)
    (h4 : K ≤ S) (γ μ ν β α ω z y y1 y2 v : F) (hz : z ≠ 0) (hz1 : z ≠ 1) (hzo : z ≠ ω)
    (hzg : z ≠ γ * ω) :
    r1csPeCoeffs sz D γ μ ν β α ω z y y1 y2 v
      = .ok (r1csPeK H K S ℓ D γ μ ν β α ω z y y1 y2 v) := by
  obtain ⟨x, rfl⟩ : ∃ x, ω = x * z := ⟨ω / z, by field_simp⟩
  have n1 : (1 : F) - z ≠ 0 := sub_ne_zero.mpr (Ne.symm hz1)
  have n2 : x * z - 1 * z ≠ 0 := by rw [one_mul]; exact sub_ne_zero.mpr (Ne.symm hzo)
  have n2' : -(x * z) + 1 * z ≠ 0 := by
    intro h; apply n2; linear_combination -h
  have n3 : γ * (x * z) - 1 * z ≠ 0 := by rw [one_mul]; exact sub_ne_zero.mpr (Ne.symm hzg)
  have hx1 : x ≠ 1 := by rintro rfl; exact hzo (by ring)
  have hg1 : γ * x ≠ 1 := by
    intro h; apply hzg; rw [← mul_assoc, h, one_mul]
  have hxz : x * z / z = x := by field_simp
  have hgz : γ * (x * z) / z = γ * x := by field_simp
  have d1 : (x * z - 1 * z) * (γ * (x * z) - 1 * z) ≠ 0 := mul_ne_zero n2 n3
  have d2 : (x * z - 1 * z) * (1 - z) ≠ 0 := mul_ne_zero n2 n1
  have hx1' : (1 : F) - x ≠ 0 := sub_ne_zero.mpr (Ne.symm hx1)
  have hg1' : (1 : F) - γ * x ≠ 0 := sub_ne_zero.mpr (Ne.symm hg1)
  have gx : ∀ n, (geomPoly (1 : F) n).eval x * (1 - x) = 1 - x ^ n := by
    intro n; rw [eval_geomPoly_one n x hx1, div_mul_cancel₀ _ hx1']
  have gz : ∀ n, (geomPoly (1 : F) n).eval z * (1 - z) = 1 - z ^ n := by
    intro n; rw [eval_geomPoly_one n z hz1, div_mul_cancel₀ _ n1]
  have gg : ∀ n, (geomPoly γ n).eval x * (1 - γ * x) = 1 - (γ * x) ^ n := by
    intro n; rw [eval_geomPoly γ n x hg1, div_mul_cancel₀ _ hg1']
  have pp : ∀ (a : F) (e : ℤ) (n : ℕ), 1 ≤ n → e = n → power a e = a ^ n := power_pos
  have pz : ∀ (e : ℤ) (n : ℕ), e = n → power z e = z ^ n := by
    intro e n he; subst he; exact power_natCast (Or.inr hz)
  have e1 : power x (3 * (H : ℤ)) * (1 - power x (-3 * H + S))
      = x ^ (3 * H) * (geomPoly (1 : F) (S - 3 * H)).eval x * (1 - x) :=
    power_geom x _ _ (3 * H) (S - 3 * H) (by omega) (by push_cast; ring) (by omega) hx1
  have e2 : power x (K : ℤ) * (1 - power x (-K + S))
      = x ^ K * (geomPoly (1 : F) (S - K)).eval x * (1 - x) :=
    power_geom x _ _ K (S - K) (by omega) rfl (by omega) hx1
  have x3 : power x (3 * (H : ℤ)) = x ^ (3 * H) := pp _ _ _ (by omega) (by push_cast; ring)
  have xg3 : power (γ * x) (3 * (H : ℤ)) = (γ * x) ^ (3 * H) :=
    pp _ _ _ (by omega) (by push_cast; ring)
  have xK : power x (K : ℤ) = x ^ K := pp _ _ _ (by omega) rfl
  have xgK : power (γ * x) (K : ℤ) = (γ * x) ^ K := pp _ _ _ (by omega) rfl
  have xS : power x (S : ℤ) = x ^ S := pp _ _ _ (by omega) rfl
  have xS1 : power x ((S : ℤ) - 1) = x ^ (S - 1) := pp _ _ _ (by omega) (by omega)
  have xH : power x (H : ℤ) = x ^ H := pp _ _ _ (by omega) rfl
  have x2H : power x (2 * (H : ℤ)) = x ^ (2 * H) := pp _ _ _ (by omega) (by push_cast; ring)
  have xB : power x (2 * (H : ℤ) + 1) = x ^ (2 * H + 1) := pp _ _ _ (by omega) (by push_cast; ring)
  have qD : power z (-(D : ℤ)) = (z ^ D)⁻¹ := by
    rw [power_eq_zpow hz, zpow_neg, zpow_natCast]
  have q1 : power (1 : F) 2 = 1 := by rw [power_two, one_pow]
  have z3 : power z (3 * (H : ℤ)) = z ^ (3 * H) := pz _ _ (by push_cast; ring)
  have zK : power z (K : ℤ) = z ^ K := pz _ _ rfl
  have zS : power z (S : ℤ) = z ^ (S - 1) * z := by
    rw [pz _ (S - 1 + 1) (by omega), pow_succ]
  have zSS : z ^ (S - 1) * z = z ^ S := by rw [← pow_succ]; congr 1; omega
  have zl : power z ((ℓ : ℤ) + 1) = z ^ (ℓ + 1) := pz _ _ (by push_cast; ring)
  have zH : power z ((H : ℤ) + 1) = z ^ H * z := by
    rw [pz _ (H + 1) (by push_cast; ring), pow_succ]
  have e3 : x ^ (2 * H) * x ^ H = x ^ (3 * H) := by rw [← pow_add]; congr 1; omega
  unfold r1csPeCoeffs
  rw [hH, hK, hS, hℓ]
  simp only [divR_ok hz, divR_ok d1, divR_ok d2, divR_ok n2, divR_ok n2', bind, Except.bind, pure,
    Except.pure, hxz, hgz]
  congr 1
  simp only [r1csPeK, R1csPeCoeffs.mk.injEq, hxz]
  refine ⟨?_, ?_, ?_, ?_, ?_, ?_, ?_, ?_, ?_, ?_, ?_, ?_, by rw [qD], trivial⟩
  · rw [div_eq_iff d1, power_nine, power_two, xg3]
    rw [x3] at e1 ⊢
    linear_combination (-α ^ 2 * z * (γ * (x * z) - z)) * e1
      + (μ * z * (γ * (x * z) - z)) * gx (3 * H)
      - (z * (x * z - z)) * gg (3 * H)
  · rw [div_eq_iff d2, power_nine, power_six, x3, z3, zK, zS, zSS, xK, xS]
    linear_combination (-z * (1 - x ^ (3 * H))) * gz (3 * H)
      - (z * (geomPoly (1 : F) (3 * H)).eval z * (1 - z)) * gx (3 * H)
      - (α * z * (1 - x ^ K)) * gz K - (α * z * (geomPoly (1 : F) K).eval z * (1 - z)) * gx K
      - (α ^ 6 * y * μ * ν * (x * z - z)) * gz S
      - (α ^ 6 * z * (1 - x ^ S)) * gz S
      - (α ^ 6 * z * (geomPoly (1 : F) S).eval z * (1 - z)) * gx S
  · rw [div_eq_iff d1, power_eight, power_two, xgK]
    rw [xK] at e2 ⊢
    linear_combination (-α ^ 3 * z * (γ * (x * z) - z)) * e2
      + (α * ν * z * (γ * (x * z) - z)) * gx K - (α * z * (x * z - z)) * gg K
  · rw [div_eq_iff n2', power_four]
    rw [xK] at e2 ⊢
    linear_combination (α ^ 4 * z) * e2
  · rw [power_six, q1]; ring
  · rw [power_six, q1]; ring
  · rw [power_six, q1]; ring
  · rw [div_eq_iff n2, power_seven, x2H, xH, zH]
    rw [x3] at e1
    linear_combination (-α ^ 8 * x ^ (2 * H) * z ^ H * z) * gx H
      - (α ^ 7 * z) * e1 - (α ^ 7 * z * (1 - power x (-3 * H + S))) * e3
  · rw [power_nine, zl]; ring
  · rw [power_nine, q1]; ring
  · rw [div_eq_iff n2, power_nine, xS1, xS]
    linear_combination (-α ^ 9 * z * (1 - z)) * gx S
  · rw [div_eq_iff n2, zS, xS, xB]
    linear_combination (-x ^ S * z ^ (S - 1) * z) * gx (2 * H + 1)

theorem r1csPeCoeffs_bad (D : ℕ) (sz : R1CSSize) (γ μ ν β α ω z y y1 y2 v : F)
    (h : z = 0 ∨ z = 1 ∨ z = ω ∨ z = γ * ω) :
    r1csPeCoeffs sz D γ μ ν β α ω z y y1 y2 v = .error .panic := by
  unfold r1csPeCoeffs
  by_cases hz : z = 0
  · subst hz; rw [divR_zero]; rfl
  by_cases hzo : z = ω
  · subst hzo
    simp only [divR_ok hz, one_mul, sub_self, zero_mul, divR_zero, bind, Except.bind]
  by_cases hzg : z = γ * ω
  · have : (ω - 1 * z) * (γ * ω - 1 * z) = 0 := by rw [← hzg]; ring
    simp only [divR_ok hz, this, divR_zero, bind, Except.bind]
  have h2 : ω - 1 * z ≠ 0 := by rw [one_mul]; exact sub_ne_zero.mpr (Ne.symm hzo)
  have h3 : γ * ω - 1 * z ≠ 0 := by rw [one_mul]; exact sub_ne_zero.mpr (Ne.symm hzg)
  have d0 : (ω - 1 * z) * (1 - z) = 0 := by
    rcases h with h | h | h | h
    · exact absurd h hz
    · rw [h]; ring
    · exact absurd h hzo
    · exact absurd h hzg
  simp only [divR_ok hz, divR_ok (mul_ne_zero h2 h3), d0, divR_zero, bind, Except.bind]

theorem r1csPeGPoly_eq (H K S ℓ D : ℕ) (γ μ ν β α ω z y y1 y2 v : F)
    (Pu Pw Pv Py Y W P Cc Q R T H1 H2 : Polynomial F) :
    r1csPeGPoly H K S ℓ D γ μ ν β α ω z y y1 y2 v Pu Pw Pv Py Y W P Cc Q R T H1 H2 =
      let k := r1csPeK H K S ℓ D γ μ ν β α ω z y y1 y2 v
      Polynomial.C k.c37 + Polynomial.C k.c36 * P + Polynomial.C k.c38 * Q + Polynomial.C k.c39 * Cc
        + Polynomial.C k.c40 * Pw
        + Polynomial.C k.c41 * Pu + Polynomial.C k.c42 * Py + Polynomial.C k.c43 * Y
        + Polynomial.C k.c44 * W
        + Polynomial.C k.c45 * Pv + Polynomial.C k.c46 * R + Polynomial.C k.c47 * T
        + Polynomial.C k.c48 * H1 + Polynomial.C k.c49 * H2 := by
  simp only [r1csPeGPoly, r1csPeComb, r1csPeK, Polynomial.smul_eq_C_mul, map_neg, map_add, map_sub,
    map_mul, map_one]
  ring

theorem r1csPeComb_eq (H K S ℓ D : ℕ) (γ μ ν β α ω z y y1 y2 v : F)
    (g pu pw pv py yy w p c q r t h1 h2 : G1) :
    r1csPeCmG g (r1csPeK H K S ℓ D γ μ ν β α ω z y y1 y2 v) p q c pw pu py yy w pv r t h1 h2
      = r1csPeComb H K S ℓ D γ μ ν β α ω z y y1 y2 v g pu pw pv py yy w p c q r t h1 h2 := by
  rw [r1csPeCmG, clc_eq]
  simp only [List.map_cons, List.map_nil, List.sum_cons, List.sum_nil, r1csPeComb, r1csPeK]
  module

/-- The value of the final polynomial at `z` when the claimed values are right. -/
theorem r1csPeG_eval (H K S ℓ D : ℕ) (γ μ ν β α ω z : F)
    (Pu Pw Pv Py V Y W P Cc Q U R T H1 H2 : Polynomial F) :
    (r1csPeGPoly H K S ℓ D γ μ ν β α ω z (U.eval (ω / z)) (Y.eval (ω / z)) (Cc.eval (ω / z))
        (V.eval z) Pu Pw Pv Py Y W P Cc Q R T H1 H2).eval z
      = hadamardAt ω z (r1csPePolys H K S ℓ γ μ ν β α Pu Pw Pv Py V Y W P Cc Q U R T)
        - ((z ^ D)⁻¹ * H1.eval z + z * H2.eval z) := by
  rw [r1csPeGPoly_eq]
  simp only [r1csPeK, hadamardAt, r1csPePolys, r1csPeBase, blindPair, fullPoly, List.cons_append,
    List.nil_append,
    List.map_cons, List.map_nil, List.sum_cons,
    List.sum_nil, Polynomial.eval_sub, Polynomial.eval_add, Polynomial.eval_mul, Polynomial.eval_C,
    Polynomial.eval_neg, Polynomial.eval_pow, Polynomial.eval_X, Polynomial.eval_one]
  ring

theorem r1csPeK_eval (H K S ℓ D : ℕ) (γ μ ν β α ω z y y1 y2 v τ : F)
    (Pu Pw Pv Py Y W P Cc Q R T H1 H2 : Polynomial F) (g : G1) :
    r1csPeCmG g (r1csPeK H K S ℓ D γ μ ν β α ω z y y1 y2 v) (P.eval τ • g) (Q.eval τ • g)
        (Cc.eval τ • g) (Pw.eval τ • g)
        (Pu.eval τ • g) (Py.eval τ • g) (Y.eval τ • g) (W.eval τ • g) (Pv.eval τ • g) (R.eval τ • g)
        (T.eval τ • g) (H1.eval τ • g) (H2.eval τ • g) =
    (r1csPeGPoly H K S ℓ D γ μ ν β α ω z y y1 y2 v Pu Pw Pv Py Y W P Cc Q R T H1 H2).eval τ • g := by
  rw [r1csPeCmG, clc_eq]
  simp only [List.map_cons, List.map_nil, List.sum_cons, List.sum_nil, smul_smul, ← add_smul,
    add_zero]
  congr 1
  rw [r1csPeGPoly_eq]
  simp only [Polynomial.eval_add, Polynomial.eval_mul, Polynomial.eval_C]
  ring

theorem r1csPeGvec_ok (H K S ℓ D : ℕ) (h1 : 1 ≤ H) (hD : 2 * H + S ≤ D)
    (u w v y y1 wv r c rnu rt t1 hv1 hv2 : List F)
    (lu : u.length ≤ D + 1) (lw : w.length ≤ D + 1) (lv : v.length ≤ D + 1) (ly : y.length ≤ D + 1)
    (ly1 : y1.length ≤ D + 1) (lwv : wv.length ≤ D + 1) (lr : r.length ≤ D + 1)
    (lc : c.length ≤ D + 1) (lrnu : rnu.length ≤ D + 1)
    (lrt : rt.length ≤ D + 1) (dt : (polyOf t1).degree < ((D + 1 : ℕ) : WithBot ℕ))
    (l1 : hv1.length = 2 * H + S) (l2 : hv2.length = 2 * H + S)
    (γ μ ν β α ω z Y Y1 Y2 V : F) :
    ∃ gv, r1csPeG ((2 * H : ℕ) : ℤ) S (D + 1) r rnu c w u y y1 wv v rt t1 hv1 hv2
        (r1csPeK H K S ℓ (D + 1) γ μ ν β α ω z Y Y1 Y2 V) = .ok gv ∧
      gv.length = D + 1 ∧ polyOf gv = r1csPeGPoly H K S ℓ (D + 1) γ μ ν β α ω z Y Y1 Y2 V (polyOf u)
        (polyOf w) (polyOf v) (polyOf y) (polyOf y1) (polyOf wv) (polyOf r) (polyOf c) (polyOf rnu)
        (polyOf rt) (polyOf t1)
        (X ^ (D + 1 - (2 * H + S)) * polyOf hv1) (polyOf hv2) := by
  set k := r1csPeK H K S ℓ (D + 1) γ μ ν β α ω z Y Y1 Y2 V with hk
  set f : ℤ → F := (fun i =>
    linearCombination 0 [(k.c36, vectorIndex r i), (k.c38, vectorIndex rnu i),
      (k.c39, vectorIndex c i), (k.c40, vectorIndex w i), (k.c41, vectorIndex u i),
      (k.c42, vectorIndex y i), (k.c43, vectorIndex y1 i), (k.c44, vectorIndex wv i),
      (k.c45, vectorIndex v i), (k.c46, vectorIndex rt i), (k.c47, vectorIndex t1 i),
      (k.c48, vectorIndex hv1 (-((D + 1 : ℕ) : ℤ) + i + ((2 * H : ℕ) : ℤ) + S)),
      (k.c49, vectorIndex hv2 i)]) with hf
  have hrep : Rep f
      (Polynomial.C k.c36 * polyOf r + Polynomial.C k.c38 * polyOf rnu + Polynomial.C k.c39 * polyOf c
        + Polynomial.C k.c40 * polyOf w
        + Polynomial.C k.c41 * polyOf u + Polynomial.C k.c42 * polyOf y
        + Polynomial.C k.c43 * polyOf y1 + Polynomial.C k.c44 * polyOf wv
        + Polynomial.C k.c45 * polyOf v
        + Polynomial.C k.c46 * polyOf rt + Polynomial.C k.c47 * polyOf t1
        + Polynomial.C k.c48 * (X ^ (D + 1 - (2 * H + S)) * polyOf hv1)
        + Polynomial.C k.c49 * polyOf hv2) := by
    refine (((((((((((((((rep_vec r).cmul k.c36).add ((rep_vec rnu).cmul k.c38)).add
      ((rep_vec c).cmul k.c39)).add ((rep_vec w).cmul k.c40)).add ((rep_vec u).cmul k.c41)).add
      ((rep_vec y).cmul k.c42)).add ((rep_vec y1).cmul k.c43)).add ((rep_vec wv).cmul k.c44)).add
      ((rep_vec v).cmul k.c45)).add ((rep_vec rt).cmul k.c46)).add
      ((rep_vec t1).cmul k.c47)).add
      (((rep_vec hv1).shift (D + 1 - (2 * H + S))).cmul k.c48)).add
      ((rep_vec hv2).cmul k.c49))).congrf ?_
    intro i
    have e : (-((D + 1 : ℕ) : ℤ) + i + ((2 * H : ℕ) : ℤ) + S)
        = i - ((D + 1 - (2 * H + S) : ℕ) : ℤ) := by omega
    simp only [hf, linearCombination, List.foldl_cons, List.foldl_nil, e]
    ring
  have dg := fun (l : List F) (hl : l.length ≤ D + 1) => degLt_mono (degree_polyOf_lt l) hl
  have d2 := degree_polyOf_lt hv1
  have d3 := degree_polyOf_lt hv2
  rw [l1] at d2; rw [l2] at d3
  have hv := polyOf_expressionVector hrep (D + 1)
    (degLt_add (degLt_add (degLt_add (degLt_add (degLt_add (degLt_add (degLt_add (degLt_add
      (degLt_add (degLt_add (degLt_add (degLt_add (degLt_C_mul (dg r lr) _) (degLt_C_mul (dg rnu lrnu) _))
      (degLt_C_mul (dg c lc) _)) (degLt_C_mul (dg w lw) _)) (degLt_C_mul (dg u lu) _))
      (degLt_C_mul (dg y ly) _)) (degLt_C_mul (dg y1 ly1) _)) (degLt_C_mul (dg wv lwv) _))
      (degLt_C_mul (dg v lv) _)) (degLt_C_mul (dg rt lrt) _))
      (degLt_C_mul dt _)) (degLt_C_mul (degLt_mono (degLt_X_pow_mul d2 _) (by omega)) _))
      (degLt_C_mul (degLt_mono d3 (by omega)) _))
  obtain ⟨g, e1, e2, e3⟩ := addToFirstItem_ok (expressionVector ((D + 1 : ℕ) : ℤ) f) (by
      intro h; have := congrArg List.length h; rw [length_expressionVector] at this; simp at this)
    k.c37
  refine ⟨g, e1, by rw [e2, length_expressionVector]; simp, ?_⟩
  rw [e3, hv, r1csPeGPoly_eq]
  simp only [← hk]
  ring

end VO
