import Verif.Spec.Plonk
import Mathlib.Tactic.LinearCombination
import Mathlib.Tactic.FieldSimp
import Mathlib.Tactic.Ring
import Mathlib.Algebra.Group.Subgroup.Defs

/-
The group law of complete twisted Edwards curves. The cofactors of the three polynomial identities were
found by solving a linear system; `ring` checks them.
-/

namespace VO.Edwards

open VO.Plonk VO.Spec.Plonk

variable {F : Type} [Field F]

/-- A complete twisted Edwards curve: `a` is a square and `d` is not, in odd characteristic. -/
structure _root_.VO.Spec.Plonk.EdComplete (E : EdCurve F) : Prop where
  two : (2 : F) ≠ 0
  square : ∃ s, s ^ 2 = E.a
  nonsquare : ∀ t, t ^ 2 ≠ E.d

section Identities
variable {a d x1 y1 x2 y2 x3 y3 : F}

/-- Sums are on the curve, with the denominators cleared. -/
theorem closure_id (h1 : a * x1 ^ 2 + y1 ^ 2 = 1 + d * x1 ^ 2 * y1 ^ 2)
    (h2 : a * x2 ^ 2 + y2 ^ 2 = 1 + d * x2 ^ 2 * y2 ^ 2) :
    a * (x1 * y2 + y1 * x2) ^ 2 * (1 - d * x1 * x2 * y1 * y2) ^ 2
      + (y1 * y2 - a * x1 * x2) ^ 2 * (1 + d * x1 * x2 * y1 * y2) ^ 2
      = (1 + d * x1 * x2 * y1 * y2) ^ 2 * (1 - d * x1 * x2 * y1 * y2) ^ 2
      + d * (x1 * y2 + y1 * x2) ^ 2 * (y1 * y2 - a * x1 * x2) ^ 2 := by
  linear_combination
    (a*d^2*x1^2*y1^2*x2^4*y2^2 -a*d*x1^2*x2^2*y2^2 -a*d*y1^2*x2^4 +a*x2^2 +d^2*x1^2*y1^2*x2^2*y2^4
      -d^2*x1^2*y1^2*x2^2*y2^2 +d^2*y1^2*x2^4*y2^2 -2*d*y1^2*x2^2*y2^2 +d*y1^2*x2^2 -d*x2^2*y2^2
      +y2^2) * h1 + (d^3*x1^4*y1^4*x2^2*y2^2 -d^2*x1^2*y1^4*x2^2 -d*x1^2*y1^2*y2^2 +d*y1^4*x2^2
      -d*y1^2*x2^2 +1) * h2

/-- Associativity of the first coordinate, with the denominators cleared. -/
theorem assoc_x_id (h1 : a * x1 ^ 2 + y1 ^ 2 = 1 + d * x1 ^ 2 * y1 ^ 2)
    (h2 : a * x2 ^ 2 + y2 ^ 2 = 1 + d * x2 ^ 2 * y2 ^ 2)
    (h3 : a * x3 ^ 2 + y3 ^ 2 = 1 + d * x3 ^ 2 * y3 ^ 2) :
    ((x1 * y2 + y1 * x2) * (1 - d * x1 * x2 * y1 * y2) * y3
        + (y1 * y2 - a * x1 * x2) * (1 + d * x1 * x2 * y1 * y2) * x3)
      * ((1 + d * x2 * x3 * y2 * y3) * (1 - d * x2 * x3 * y2 * y3)
        + d * x1 * y1 * (x2 * y3 + y2 * x3) * (y2 * y3 - a * x2 * x3))
    = (x1 * (y2 * y3 - a * x2 * x3) * (1 + d * x2 * x3 * y2 * y3)
        + y1 * (x2 * y3 + y2 * x3) * (1 - d * x2 * x3 * y2 * y3))
      * ((1 + d * x1 * x2 * y1 * y2) * (1 - d * x1 * x2 * y1 * y2)
        + d * (x1 * y2 + y1 * x2) * (y1 * y2 - a * x1 * x2) * x3 * y3) := by
  linear_combination
    (-a*d^2*x1*x2^3*y2^4*x3^3 -a*d*x1*x2^2*y2*x3^2*y3 +a*d*y1*x2^2*y2*x3^3
      -d^2*x1*x2^3*y2^4*x3*y3^2 +d^2*x1*x2^3*y2^4*x3 +d^2*x1*x2^2*y2^3*x3^2*y3^3
      +d^2*x1*x2*y2^4*x3^3*y3^2 -d^2*x1*x2*y2^2*x3^3*y3^2 +d^2*y1*x2^3*y2^4*x3^2*y3
      +d^2*y1*x2^2*y2^3*x3^3*y3^2 -d^2*y1*x2^2*y2^3*x3^3 +d*x1*x2*y2^2*x3*y3^2
      +d*y1*x2^3*y2^2*y3^3 -d*y1*x2^3*y2^2*y3 -d*y1*x2^2*y2*x3*y3^2 -d*y1*x2*y2^4*x3^2*y3
      +d*y1*y2^3*x3^3 -d*y1*y2*x3^3) * h1 + (a*d^2*x1^3*y1^2*x2^2*y2*x3^2*y3
      +a*d^2*x1^3*y1^2*x2*y2^2*x3^3 -a*d^2*x1^3*x2*y2^2*x3^3*y3^2 -a*d^2*x1^2*y1*x2^2*y2*x3^3*y3^2
      -d^2*x1^3*y1^2*x2*y2^2*x3 +d^2*x1^2*y1^3*x2^2*y2*x3*y3^2 +d^2*x1^2*y1^3*y2*x3^3
      -d^2*x1^2*y1*y2*x3^3*y3^2 -d^2*x1*y1^2*x2^2*y2*x3^2*y3^3 +d^2*x1*x2*y2^2*x3^3*y3^2
      -d*x1^2*y1*x2*y2^2*y3^3 +d*x1^2*y1*x2*y2^2*y3 +d*x1^2*y1*y2*x3*y3^2 -d*x1^2*y1*y2*x3
      +d*y1^3*x2*y2^2*x3^2*y3 -d*y1^3*y2*x3^3 -d*y1*x2*y2^2*x3^2*y3 +d*y1*y2*x3^3) * h2 +
      (a*d^2*x1^3*x2^3*y2^4*x3 -d^2*x1^3*y1^2*x2^2*y2^3*y3 -d^2*x1^3*y1^2*x2*y2^4*x3
      +d^2*x1^3*y1^2*x2*y2^2*x3 -d^2*x1^2*y1^3*x2^2*y2^3*x3 -d^2*x1^2*y1*x2^3*y2^4*y3
      +d^2*x1^2*y1*x2^2*y2^3*x3 +d^2*x1*y1^2*x2^3*y2^4*x3 -d^2*x1*x2^3*y2^4*x3
      +d*x1^2*y1*x2*y2^4*y3 -d*x1^2*y1*y2^3*x3 +d*x1^2*y1*y2*x3 +d*x1*y1^2*x2^2*y2*y3
      -d*x1*y1^2*x2*y2^2*x3 -d*y1^3*x2^3*y2^2*y3 +d*y1*x2^3*y2^2*y3) * h3

/-- Associativity of the second coordinate, with the denominators cleared. -/
theorem assoc_y_id (h1 : a * x1 ^ 2 + y1 ^ 2 = 1 + d * x1 ^ 2 * y1 ^ 2)
    (h2 : a * x2 ^ 2 + y2 ^ 2 = 1 + d * x2 ^ 2 * y2 ^ 2)
    (h3 : a * x3 ^ 2 + y3 ^ 2 = 1 + d * x3 ^ 2 * y3 ^ 2) :
    ((y1 * y2 - a * x1 * x2) * (1 + d * x1 * x2 * y1 * y2) * y3
        - a * (x1 * y2 + y1 * x2) * (1 - d * x1 * x2 * y1 * y2) * x3)
      * ((1 + d * x2 * x3 * y2 * y3) * (1 - d * x2 * x3 * y2 * y3)
        - d * x1 * y1 * (x2 * y3 + y2 * x3) * (y2 * y3 - a * x2 * x3))
    = (y1 * (y2 * y3 - a * x2 * x3) * (1 + d * x2 * x3 * y2 * y3)
        - a * x1 * (x2 * y3 + y2 * x3) * (1 - d * x2 * x3 * y2 * y3))
      * ((1 + d * x1 * x2 * y1 * y2) * (1 - d * x1 * x2 * y1 * y2)
        - d * (x1 * y2 + y1 * x2) * (y1 * y2 - a * x1 * x2) * x3 * y3) := by
  linear_combination
    (-a*d^2*x1*x2^3*y2^4*x3^2*y3 -a*d^2*x1*x2^2*y2^3*x3^3*y3^2 -a*d^2*y1*x2^3*y2^4*x3^3
      +a*d*x1*x2^2*y2*x3*y3^2 +a*d*x1*x2*y2^2*x3^2*y3 -a*d*y1*x2*y2^2*x3^3 -d^2*x1*x2^3*y2^4*y3^3
      +d^2*x1*x2^3*y2^4*y3 +d^2*x1*x2*y2^4*x3^2*y3^3 -d^2*x1*x2*y2^2*x3^2*y3^3
      -d^2*y1*x2^3*y2^4*x3*y3^2 +d^2*y1*x2^3*y2^4*x3 +d^2*y1*x2^2*y2^3*x3^2*y3^3
      -d^2*y1*x2^2*y2^3*x3^2*y3 +d^2*y1*x2*y2^4*x3^3*y3^2 +d*y1*x2*y2^2*x3 +d*y1*y2^3*x3^2*y3
      -d*y1*y2*x3^2*y3) * h1 + (-a*d^2*x1^3*y1^2*x2^2*y2*x3*y3^2 -a*d^2*x1^3*x2*y2^2*x3^2*y3^3
      +a*d^2*x1^2*y1^3*x2^2*y2*x3^2*y3 +a*d^2*x1^2*y1^3*x2*y2^2*x3^3
      -a*d^2*x1^2*y1*x2^2*y2*x3^2*y3^3 +a*d^2*x1*y1^2*x2^2*y2*x3^3*y3^2 -a*d*x1*y1^2*y2*x3^3
      +d^2*x1^3*y1^2*x2*y2^2*y3^3 -d^2*x1^3*y1^2*x2*y2^2*y3 -d^2*x1^2*y1^3*x2*y2^2*x3
      +d^2*x1^2*y1^3*y2*x3^2*y3 -d^2*x1^2*y1*y2*x3^2*y3^3 +d^2*x1*y1^2*y2*x3^3*y3^2
      +d^2*x1*x2*y2^2*x3^2*y3^3 -d^2*y1^3*x2*y2^2*x3^3*y3^2 +d^2*y1*x2*y2^2*x3^3*y3^2
      +d*x1^2*y1*y2*y3^3 -d*x1^2*y1*y2*y3 -d*x1*y1^2*y2*x3*y3^2 +d*x1*y1^2*y2*x3
      -d*y1^3*y2*x3^2*y3 +d*y1*y2*x3^2*y3) * h2 + (a*d^2*x1^3*y1^2*x2^2*y2^3*x3
      +a*d^2*x1^3*x2^3*y2^4*y3 +a*d^2*x1^2*y1*x2^3*y2^4*x3 -d^2*x1^3*y1^2*x2*y2^4*y3
      +d^2*x1^3*y1^2*x2*y2^2*y3 -d^2*x1^2*y1^3*x2^2*y2^3*y3 -d^2*x1^2*y1^3*x2*y2^4*x3
      +d^2*x1^2*y1*x2^2*y2^3*y3 +d^2*x1*y1^2*x2^3*y2^4*y3 -d^2*x1*y1^2*x2^2*y2^3*x3
      -d^2*x1*x2^3*y2^4*y3 +d^2*y1^3*x2^3*y2^4*x3 -d^2*y1*x2^3*y2^4*x3 -d*x1^2*y1*y2^3*y3
      +d*x1^2*y1*y2*y3 -d*x1*y1^2*x2*y2^2*y3 +d*x1*y1^2*y2^3*x3 -d*x1*y1^2*y2*x3
      +d*y1^3*x2*y2^2*x3 -d*y1*x2*y2^2*x3) * h3

end Identities

/-- Completeness (Bernstein and Lange): the addition law has no exceptional pairs of points. -/
theorem den {E : EdCurve F} (h : EdComplete E) {P Q : F × F} (hP : OnCurve E P) (hQ : OnCurve E Q) :
    EdDen E P Q := by
  obtain ⟨x1, y1⟩ := P
  obtain ⟨x2, y2⟩ := Q
  obtain ⟨s, hs⟩ := h.square
  have key : ∀ ε : F, ε ^ 2 = 1 → E.d * x1 * x2 * y1 * y2 = ε → False := by
    intro ε hε he
    unfold OnCurve at hP hQ
    simp only at hP hQ
    have hε0 : ε ≠ 0 := by
      rintro rfl
      simp at hε
    have hx1 : x1 ≠ 0 := by rintro rfl; simp at he; exact hε0 he.symm
    have hy1 : y1 ≠ 0 := by rintro rfl; simp at he; exact hε0 he.symm
    have hy2 : y2 ≠ 0 := by rintro rfl; simp at he; exact hε0 he.symm
    have sq : ∀ σ : F, σ ^ 2 = 1 → (s * x1 + σ * ε * y1) ^ 2
        = E.d * (x1 * y1 * (s * x2 + σ * y2)) ^ 2 := by
      intro σ hσ
      subst he
      have hs' : E.a = s ^ 2 := hs.symm
      rw [hs'] at hP hQ
      linear_combination hP - (E.d * x1 ^ 2 * y1 ^ 2) * hQ
        + (y1 ^ 2 - E.d * x1 ^ 2 * y1 ^ 2 * y2 ^ 2) * hσ
        + (σ ^ 2 * y1 ^ 2 - 1) * hε
    have zero : ∀ σ : F, σ ^ 2 = 1 → s * x2 + σ * y2 = 0 := by
      intro σ hσ
      by_contra hne
      refine h.nonsquare ((s * x1 + σ * ε * y1) / (x1 * y1 * (s * x2 + σ * y2))) ?_
      rw [div_pow, sq σ hσ]
      field_simp
    have z1 := zero 1 (by ring)
    have z2 := zero (-1) (by ring)
    have : 2 * y2 = 0 := by linear_combination z1 - z2
    rcases mul_eq_zero.1 this with h' | h'
    · exact h.two h'
    · exact hy2 h'
  refine ⟨fun h0 => key (-1) (by ring) ?_, fun h0 => key 1 (by ring) ?_⟩
  · simp only at h0; linear_combination h0
  · simp only at h0; linear_combination -h0

theorem add_curve {E : EdCurve F} (h : EdComplete E) {P Q : F × F} (hP : OnCurve E P)
    (hQ : OnCurve E Q) : OnCurve E (E.add P Q) := by
  obtain ⟨d1, d2⟩ := den h hP hQ
  obtain ⟨x1, y1⟩ := P
  obtain ⟨x2, y2⟩ := Q
  have := closure_id hP hQ
  unfold OnCurve EdCurve.add
  simp only at d1 d2 this ⊢
  generalize 1 + E.d * x1 * x2 * y1 * y2 = D1 at *
  generalize 1 - E.d * x1 * x2 * y1 * y2 = D2 at *
  field_simp
  linear_combination this

theorem add_sum {E : EdCurve F} (h : EdComplete E) {P Q : F × F} (hP : OnCurve E P)
    (hQ : OnCurve E Q) : EdSum E P.1 P.2 Q.1 Q.2 (E.add P Q).1 (E.add P Q).2 := by
  obtain ⟨d1, d2⟩ := den h hP hQ
  exact ⟨div_mul_cancel₀ _ d1, div_mul_cancel₀ _ d2⟩

theorem add_comm' (E : EdCurve F) (P Q : F × F) : E.add P Q = E.add Q P := by
  unfold EdCurve.add
  refine Prod.ext ?_ ?_
  · show _ / _ = _ / _
    congr 1 <;> ring
  · show _ / _ = _ / _
    congr 1 <;> ring

theorem zero_curve (E : EdCurve F) : OnCurve E (0, 1) := by
  unfold OnCurve
  simp

theorem zero_add' (E : EdCurve F) (P : F × F) : E.add (0, 1) P = P := by
  unfold EdCurve.add
  simp

theorem neg_curve {E : EdCurve F} {P : F × F} (hP : OnCurve E P) : OnCurve E (-P.1, P.2) := by
  unfold OnCurve at *
  simp only
  linear_combination hP

theorem neg_add' {E : EdCurve F} (h : EdComplete E) {P : F × F} (hP : OnCurve E P) :
    E.add (-P.1, P.2) P = (0, 1) := by
  obtain ⟨d1, d2⟩ := den h (neg_curve hP) hP
  unfold EdCurve.add
  unfold OnCurve at hP
  simp only at d1 d2
  refine Prod.ext ?_ ?_
  · show _ / _ = _
    rw [div_eq_iff d1]
    ring
  · show _ / _ = _
    rw [div_eq_iff d2]
    linear_combination hP

theorem add_assoc' {E : EdCurve F} (h : EdComplete E) {P Q R : F × F} (hP : OnCurve E P)
    (hQ : OnCurve E Q) (hR : OnCurve E R) : E.add (E.add P Q) R = E.add P (E.add Q R) := by
  obtain ⟨d1, d2⟩ := den h hP hQ
  obtain ⟨d3, d4⟩ := den h hQ hR
  obtain ⟨d5, d6⟩ := den h (add_curve h hP hQ) hR
  obtain ⟨d7, d8⟩ := den h hP (add_curve h hQ hR)
  obtain ⟨x1, y1⟩ := P
  obtain ⟨x2, y2⟩ := Q
  obtain ⟨x3, y3⟩ := R
  have ix := assoc_x_id hP hQ hR
  have iy := assoc_y_id hP hQ hR
  simp only [EdCurve.add] at *
  set D1 := 1 + E.d * x1 * x2 * y1 * y2 with hD1
  set D2 := 1 - E.d * x1 * x2 * y1 * y2 with hD2
  set D3 := 1 + E.d * x2 * x3 * y2 * y3 with hD3
  set D4 := 1 - E.d * x2 * x3 * y2 * y3 with hD4
  set A := x1 * y2 + y1 * x2 with hA
  set B := y1 * y2 - E.a * x1 * x2 with hB
  set A' := x2 * y3 + y2 * x3 with hA'
  set B' := y2 * y3 - E.a * x2 * x3 with hB'
  clear_value D1 D2 D3 D4 A B A' B'
  refine Prod.ext ?_ ?_
  · show _ / _ = _ / _
    rw [div_eq_div_iff d5 d7]
    field_simp
    linear_combination ix
  · show _ / _ = _ / _
    rw [div_eq_div_iff d6 d8]
    field_simp
    linear_combination iy

end VO.Edwards
