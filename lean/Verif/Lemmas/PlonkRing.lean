import Mathlib.Algebra.Polynomial.Eval.Degree
import Mathlib.Algebra.Polynomial.Degree.Operations
import Mathlib.Tactic.Ring
import Mathlib.Tactic.LinearCombination
import Verif.Model.PlonkProof

/-
The whole row term of the PLONK quotient, over a commutative ring: on field elements it is what the
prover computes at a point, on polynomials it is the numerator of the quotient.
-/

set_option linter.unusedSectionVars false

namespace VO.Plonk

open Polynomial

section
variable {A B : Type}

def WitVals.map (f : A → B) (w : WitVals A) : WitVals B := ⟨f w.a, f w.b, f w.c, f w.d⟩

def CustomVals.map (f : A → B) (v : CustomVals A) : CustomVals B :=
  ⟨f v.aNext, f v.bNext, f v.dNext, f v.ql, f v.qr, f v.qc⟩

def Chals.map (f : A → B) (ch : Chals A) : Chals B :=
  ⟨f ch.zeta, f ch.beta, f ch.gamma, f ch.delta, f ch.epsilon, f ch.alpha, f ch.range, f ch.logic,
   f ch.fixed, f ch.var, f ch.lookup, f ch.z, f ch.aw, f ch.saw⟩

/-- Everything the row term reads besides the challenges. -/
structure RowVals (A : Type) where
  g : Gate A
  s : WitVals A
  w : WitVals A
  aN : A
  bN : A
  dN : A
  x : A
  z : A
  zN : A
  pi : A
  f : A
  t : A
  tN : A
  h1 : A
  h1N : A
  h2 : A
  z2 : A
  z2N : A
  l1 : A

def RowVals.map (φ : A → B) (r : RowVals A) : RowVals B :=
  ⟨r.g.map φ, r.s.map φ, r.w.map φ, φ r.aN, φ r.bN, φ r.dN, φ r.x, φ r.z, φ r.zN, φ r.pi, φ r.f,
   φ r.t, φ r.tN, φ r.h1, φ r.h1N, φ r.h2, φ r.z2, φ r.z2N, φ r.l1⟩

variable [CommRing A] [CommRing B]

/-- The sum of gate, permutation and lookup terms. -/
def rowTerm (E : EdCurve A) (ch : Chals A) (r : RowVals A) : A :=
  gateQuotient E ch.range ch.logic ch.fixed ch.var r.g r.w ⟨r.aN, r.bN, r.dN, r.g.l, r.g.r, r.g.c⟩
    r.pi
  + permQuotient r.x r.s r.w r.z r.zN ch.alpha (r.l1 * (ch.alpha * ch.alpha)) ch.beta ch.gamma
  + lookupQuotient r.g.lookup (lc4 r.w.a r.w.b r.w.c r.w.d ch.zeta) r.f r.t r.tN r.h1 r.h1N r.h2
      r.z2 r.z2N r.l1 ch.delta ch.epsilon ch.lookup

theorem gateQuotient_map (φ : A →+* B) {E : EdCurve A} {E' : EdCurve B} (ha : φ E.a = E'.a)
    (hd : φ E.d = E'.d) (sr sl sf sv : A) (g : Gate A) (w : WitVals A) (v : CustomVals A) (pi : A) :
    φ (gateQuotient E sr sl sf sv g w v pi)
      = gateQuotient E' (φ sr) (φ sl) (φ sf) (φ sv) (g.map φ) (w.map φ) (v.map φ) (φ pi) := by
  simp only [gateQuotient, arithQuotient, rangeConstraints, logicConstraints, fixedConstraints,
    curveConstraints, delta4, deltaXorAnd, extractBit, checkBitConsistency, map_add, map_mul,
    map_sub, map_pow, map_neg, map_one, map_ofNat, ha, hd, Gate.map, WitVals.map, CustomVals.map]

theorem rowTerm_map (φ : A →+* B) {E : EdCurve A} {E' : EdCurve B} (ha : φ E.a = E'.a)
    (hd : φ E.d = E'.d) (ch : Chals A) (r : RowVals A) :
    φ (rowTerm E ch r) = rowTerm E' (ch.map φ) (r.map φ) := by
  unfold rowTerm
  rw [map_add, map_add, gateQuotient_map φ ha hd]
  simp only [permQuotient, permIdentity, permCopy, lookupQuotient, lc4, K1, K2, K3, map_add,
    map_mul, map_sub, map_pow, map_neg, map_one, map_ofNat, Gate.map, WitVals.map, CustomVals.map,
    Chals.map, RowVals.map]
end

/-! ### Degrees -/

section
variable {F : Type} [Field F]

/-- Degree at most `k m`. -/
def Dg (m k : ℕ) (p : F[X]) : Prop := p.natDegree ≤ k * m

theorem Dg.mono {m k k' : ℕ} {p : F[X]} (h : Dg m k p) (hk : k ≤ k') : Dg m k' p :=
  le_trans h (Nat.mul_le_mul_right m hk)

theorem Dg.add {m j k : ℕ} {p q : F[X]} (hp : Dg m j p) (hq : Dg m k q) : Dg m (max j k) (p + q) :=
  le_trans (natDegree_add_le _ _) (max_le (hp.mono (le_max_left _ _)) (hq.mono (le_max_right _ _)))

theorem Dg.sub {m j k : ℕ} {p q : F[X]} (hp : Dg m j p) (hq : Dg m k q) : Dg m (max j k) (p - q) :=
  le_trans (natDegree_sub_le _ _) (max_le (hp.mono (le_max_left _ _)) (hq.mono (le_max_right _ _)))

theorem Dg.mul {m j k : ℕ} {p q : F[X]} (hp : Dg m j p) (hq : Dg m k q) : Dg m (j + k) (p * q) := by
  refine le_trans natDegree_mul_le ?_
  rw [Nat.add_mul]
  exact Nat.add_le_add hp hq

theorem Dg.neg {m k : ℕ} {p : F[X]} (hp : Dg m k p) : Dg m k (-p) := by
  unfold Dg; rw [natDegree_neg]; exact hp

theorem Dg.pow {m k : ℕ} {p : F[X]} (hp : Dg m k p) (e : ℕ) : Dg m (e * k) (p ^ e) := by
  refine le_trans natDegree_pow_le ?_
  rw [Nat.mul_assoc]
  exact Nat.mul_le_mul_left e hp

theorem Dg.C (m : ℕ) (c : F) : Dg m 0 (Polynomial.C c) := by
  unfold Dg; simp

theorem Dg.one (m : ℕ) : Dg m 0 (1 : F[X]) := by
  unfold Dg; simp

theorem Dg.ofNat (m : ℕ) (k : ℕ) [k.AtLeastTwo] : Dg m 0 (OfNat.ofNat k : F[X]) := by
  unfold Dg; rw [natDegree_ofNat]; simp

/-- Finds a bound for the degree of a polynomial expression. -/
macro "dg" : tactic => `(tactic|
  repeat' first
    | with_reducible apply Dg.add
    | with_reducible apply Dg.sub
    | with_reducible apply Dg.mul
    | with_reducible apply Dg.neg
    | with_reducible apply Dg.pow
    | with_reducible apply Dg.C
    | with_reducible apply Dg.one
    | with_reducible apply Dg.ofNat
    | with_reducible assumption)

/-- All polynomials have degree at most `m`. -/
structure RowVals.Deg (m : ℕ) (r : RowVals F[X]) : Prop where
  gm : Dg m 1 r.g.m
  gl : Dg m 1 r.g.l
  gr : Dg m 1 r.g.r
  go : Dg m 1 r.g.o
  gq4 : Dg m 1 r.g.q4
  gc : Dg m 1 r.g.c
  ghl : Dg m 1 r.g.hl
  ghr : Dg m 1 r.g.hr
  gh4 : Dg m 1 r.g.h4
  garith : Dg m 1 r.g.arith
  grange : Dg m 1 r.g.range
  glogic : Dg m 1 r.g.logic
  gfixed : Dg m 1 r.g.fixed
  gvar : Dg m 1 r.g.var
  glookup : Dg m 1 r.g.lookup
  sa : Dg m 1 r.s.a
  sb : Dg m 1 r.s.b
  sc : Dg m 1 r.s.c
  sd : Dg m 1 r.s.d
  wa : Dg m 1 r.w.a
  wb : Dg m 1 r.w.b
  wc : Dg m 1 r.w.c
  wd : Dg m 1 r.w.d
  aN : Dg m 1 r.aN
  bN : Dg m 1 r.bN
  dN : Dg m 1 r.dN
  x : Dg m 1 r.x
  z : Dg m 1 r.z
  zN : Dg m 1 r.zN
  pi : Dg m 1 r.pi
  f : Dg m 1 r.f
  t : Dg m 1 r.t
  tN : Dg m 1 r.tN
  h1 : Dg m 1 r.h1
  h1N : Dg m 1 r.h1N
  h2 : Dg m 1 r.h2
  z2 : Dg m 1 r.z2
  z2N : Dg m 1 r.z2N
  l1 : Dg m 1 r.l1

/-- The curve with its coefficients as constant polynomials. -/
noncomputable def EdCurve.toPoly (E : EdCurve F) : EdCurve F[X] := ⟨Polynomial.C E.a, Polynomial.C E.d, fun _ _ => false⟩

theorem rowTerm_degree {m : ℕ} {r : RowVals F[X]} (h : r.Deg m) (E : EdCurve F) (ch : Chals F) :
    Dg m 7 (rowTerm E.toPoly (ch.map Polynomial.C) r) := by
  obtain ⟨⟩ := h
  unfold rowTerm
  have e1 : Dg m 7 (gateQuotient E.toPoly (ch.map Polynomial.C).range (ch.map Polynomial.C).logic
      (ch.map Polynomial.C).fixed (ch.map Polynomial.C).var r.g r.w
      ⟨r.aN, r.bN, r.dN, r.g.l, r.g.r, r.g.c⟩ r.pi) := by
    apply Dg.mono
    · skip
      simp only [gateQuotient, arithQuotient, rangeConstraints, logicConstraints, fixedConstraints,
        curveConstraints, delta4, deltaXorAnd, extractBit, checkBitConsistency, Chals.map,
        EdCurve.toPoly]
      dg
    · decide
  have e2 : Dg m 7 (permQuotient r.x r.s r.w r.z r.zN (ch.map Polynomial.C).alpha
      (r.l1 * ((ch.map Polynomial.C).alpha * (ch.map Polynomial.C).alpha))
      (ch.map Polynomial.C).beta (ch.map Polynomial.C).gamma) := by
    apply Dg.mono
    · skip
      simp only [permQuotient, permIdentity, permCopy, K1, K2, K3, Chals.map]
      dg
    · decide
  have e3 : Dg m 7 (lookupQuotient r.g.lookup
      (lc4 r.w.a r.w.b r.w.c r.w.d (ch.map Polynomial.C).zeta) r.f r.t r.tN r.h1 r.h1N r.h2
      r.z2 r.z2N r.l1 (ch.map Polynomial.C).delta (ch.map Polynomial.C).epsilon
      (ch.map Polynomial.C).lookup) := by
    apply Dg.mono
    · skip
      simp only [lookupQuotient, lc4, Chals.map]
      dg
    · decide
  exact ((e1.add e2).add e3).mono (by decide)

end

end VO.Plonk
