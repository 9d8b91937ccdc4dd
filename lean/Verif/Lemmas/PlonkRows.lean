import Mathlib.RingTheory.Polynomial.Cyclotomic.Basic
import Verif.Lemmas.PlonkLin2
import Verif.Spec.PlonkSnark

/-
The numerator of the quotient on the rows of the domain.
-/

set_option linter.unusedSectionVars false

namespace VO.Plonk

open VO.Spec VO.Spec.Plonk Polynomial

variable {F : Type} [Field F] [DecidableEq F]

/-- The wire values of four polynomials on the domain. -/
noncomputable def polyW (omega : F) (w : WitVals F[X]) : WireData → F
  | .left i => w.a.eval (omega ^ i)
  | .right i => w.b.eval (omega ^ i)
  | .output i => w.c.eval (omega ^ i)
  | .fourth i => w.d.eval (omega ^ i)

/-- Sigma polynomials. -/
noncomputable def sigPolys (sig : Quad F) : WitVals F[X] :=
  ⟨polyOf sig.p1, polyOf sig.p2, polyOf sig.p3, polyOf sig.p4⟩

/-- Values of polynomials on the domain. -/
noncomputable def onDom (omega : F) (p : F[X]) (i : ℕ) : F := p.eval (omega ^ i)

/-- The lookup accumulator equation of a row. -/
def lookAcc (n : ℕ) (delta epsilon : F) (f t h1 h2 z : ℕ → F) (i : ℕ) : F :=
  z i * ((1 + delta) * (epsilon + f i) * (epsilon * (1 + delta) + t i + delta * t ((i + 1) % n)))
    - z ((i + 1) % n) * ((epsilon * (1 + delta) + h1 i + delta * h2 i)
        * (epsilon * (1 + delta) + h2 i + delta * h1 ((i + 1) % n)))

theorem pow_next {omega : F} {n i : ℕ} (h1 : omega ^ n = 1) (hi : i < n) :
    omega ^ i * omega = omega ^ ((i + 1) % n) := by
  rw [← pow_succ]
  by_cases h : i + 1 < n
  · rw [Nat.mod_eq_of_lt h]
  · have : i + 1 = n := by omega
    rw [this, Nat.mod_self, h1, pow_zero]

/-- The row term at the point of row `i`, split. -/
theorem rowTerm_row {D : Dom F} (hD : DomOk D) (E : EdCurve F) (ch : Chals F) (sel : Gate F[X])
    (sig : Quad F) (w : WitVals F[X]) (z z2 pi f t h1 h2 : F[X]) {i : ℕ} (hi : i < D.size) :
    (numerator E ch (polyRow D.omega sel (sigPolys sig) w z z2 pi f t h1 h2
        (polyOf (firstLagrange D 1)))).eval (D.omega ^ i)
      = gateQuotient E ch.range ch.logic ch.fixed ch.var (sel.map (Polynomial.eval (D.omega ^ i)))
          (witOf (rowAt D.size (polyW D.omega w) i))
          (custOf (sel.map (Polynomial.eval (D.omega ^ i))) (rowAt D.size (polyW D.omega w) i))
          (pi.eval (D.omega ^ i))
        + ch.alpha * (onDom D.omega z i * ownFactor D.omega ch.beta ch.gamma (polyW D.omega w) i
          - onDom D.omega z ((i + 1) % D.size)
            * sigFactor sig D.omega ch.beta ch.gamma (polyW D.omega w) i)
        + ch.alpha ^ 2 * ((onDom D.omega z i - 1) * if i = 0 then 1 else 0)
        + (ch.lookup * ((sel.lookup.eval (D.omega ^ i))
            * (compressRow ch.zeta (polyW D.omega w (.left i), polyW D.omega w (.right i),
                polyW D.omega w (.output i), polyW D.omega w (.fourth i)) - onDom D.omega f i))
          + ch.lookup ^ 2 * lookAcc D.size ch.delta ch.epsilon (onDom D.omega f) (onDom D.omega t)
              (onDom D.omega h1) (onDom D.omega h2) (onDom D.omega z2) i
          + ch.lookup ^ 3 * ((onDom D.omega z2 i - 1) * if i = 0 then 1 else 0)) := by
  rw [numerator_eval]
  have hn := pow_next hD.root.pow_eq_one hi
  have hl := firstLagrange_row hD hi
  simp only [rowTerm, polyRow, RowVals.map, WitVals.map, shiftP_eval, hn, hl, eval_X, witOf, custOf,
    rowAt, polyW, Gate.map, permQuotient, permIdentity, permCopy, lookupQuotient, lc4, ownFactor,
    sigFactor, wireLabel, onDom, lookAcc, compressRow, sigPolys, polyEval_eq, K1, K2, K3]
  ring

theorem vanish_dvd {D : Dom F} (hD : DomOk D) {N : F[X]}
    (h : ∀ i < D.size, N.eval (D.omega ^ i) = 0) : ∃ T, N = (X ^ D.size - 1) * T := by
  have : (X ^ D.size - 1 : F[X]) ∣ N := by
    rw [X_pow_sub_one_eq_prod hD.pos hD.root]
    apply Finset.prod_dvd_of_coprime
    · intro a _ b _ hab
      exact pairwise_coprime_X_sub_C (s := fun x : F => x) Function.injective_id hab
    · intro a ha
      rw [dvd_iff_isRoot, IsRoot]
      rw [mem_nthRootsFinset hD.pos] at ha
      have : NeZero D.size := ⟨hD.pos.ne'⟩
      obtain ⟨i, hi, rfl⟩ := hD.root.eq_pow_of_pow_eq_one ha
      exact h i hi
  exact this

/-- Polynomials of degree below the size that agree on the domain are equal. -/
theorem poly_ext_dom {D : Dom F} (hD : DomOk D) {p q : F[X]} (hp : p.degree < D.size)
    (hq : q.degree < D.size) (h : ∀ i < D.size, p.eval (D.omega ^ i) = q.eval (D.omega ^ i)) :
    p = q := by
  have e : ∀ r : F[X], r.degree < D.size → polyOf (D.ifft ((List.range D.size).map
      fun i => r.eval (D.omega ^ i))) = r := fun r hr =>
    idft_values hD.root hD.pos (natCast_ne_zero_of_primitive hD.root hD.pos) r hr _ (by simp)
      fun i hi => by rw [List.getD_eq_getElem _ _ (by simpa using hi)]; simp
  rw [← e p hp, ← e q hq]
  congr 2
  apply List.map_congr_left
  intro i hi
  exact h i (by simpa using hi)

/-- The degree of the quotient. -/
theorem quotient_degree {n : ℕ} (hn : 0 < n) {N T : F[X]} (h : N = (X ^ n - 1) * T)
    (hN : N.natDegree ≤ 7 * (n - 1)) : T.degree < (8 * n : ℕ) := by
  by_cases h0 : T = 0
  · subst h0; rw [degree_zero]; exact WithBot.bot_lt_coe _
  · have hX : (X ^ n - 1 : F[X]).natDegree = n := natDegree_X_pow_sub_C (r := 1)
    have hX0 : (X ^ n - 1 : F[X]) ≠ 0 := fun h => by rw [h, natDegree_zero] at hX; omega
    have : N.natDegree = n + T.natDegree := by rw [h, natDegree_mul hX0 h0, hX]
    rw [degree_eq_natDegree h0]
    exact_mod_cast (by omega : T.natDegree < 8 * n)

end VO.Plonk
