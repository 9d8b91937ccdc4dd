import Verif.Lemmas.PlonkWidgets
import Verif.Props.PlonkGates
import Verif.Lemmas.PlonkExample2

/-
C100-C101: the gate polynomials and the permutation argument of the PLONK prover and verifier in
`/repo/plonk-core`. `Mostly k P` says `P` holds for all field elements but at most `k`.
-/

set_option linter.unusedSectionVars false

namespace VO

open VO.Plonk VO.Spec VO.Spec.Plonk

variable {F : Type} [Field F] [DecidableEq F] {R : FieldRep F} {E : EdCurve F}

/-! ### C100: the gate polynomials -/

/-- A row that satisfies its gate makes the gate term zero for all separation challenges. -/
theorem C100_satisfied {g : Gate F} {r : Row F} {p : F} (h : GatesOk E g r p) (sr sl sf sv : F) :
    gateQuotient E sr sl sf sv g (witOf r) (custOf g r) p = 0 :=
  gates_zero h sr sl sf sv

/-- A row that violates its gate makes it non-zero for all but at most 7, 9, 7, 5 values of the four
separation challenges. -/
theorem C100_violated {g : Gate F} {r : Row F} {p : F} (h : ¬ GatesOk E g r p) :
    Mostly 7 fun sr : F => Mostly 9 fun sl : F => Mostly 7 fun sf : F => Mostly 5 fun sv : F =>
      gateQuotient E sr sl sf sv g (witOf r) (custOf g r) p ≠ 0 := by
  have := custom_mostly E g r p 0 (by
    rintro ⟨h1, h2, h3, h4, h5⟩
    rw [zero_add] at h1
    exact h ⟨(arith_iff g r p).2 h1, h2, h3, h4, h5⟩)
  simpa only [zero_add] using this

/-- Each custom gate alone: zero for all challenges exactly when its relation holds. -/
theorem C100_range (r : Row F) (g : Gate F) :
    (RangeOk r → ∀ s, rangeConstraints s (witOf r) (custOf g r) = 0) ∧
    (¬ RangeOk r → Mostly 7 fun s : F => rangeConstraints s (witOf r) (custOf g r) ≠ 0) := by
  refine ⟨fun h s => range_zero h g s, fun h => ?_⟩
  simpa using range_mostly h g 0 1 one_ne_zero

theorem C100_logic (r : Row F) (g : Gate F) :
    (LogicOk g r → ∀ s, logicConstraints s (witOf r) (custOf g r) = 0) ∧
    (¬ LogicOk g r → Mostly 9 fun s : F => logicConstraints s (witOf r) (custOf g r) ≠ 0) := by
  refine ⟨fun h s => logic_zero h s, fun h => ?_⟩
  simpa using logic_mostly h 0 1 one_ne_zero

theorem C100_fixed (r : Row F) (g : Gate F) :
    (FixedOk E g r → ∀ s, fixedConstraints E s (witOf r) (custOf g r) = 0) ∧
    (¬ FixedOk E g r → Mostly 7 fun s : F => fixedConstraints E s (witOf r) (custOf g r) ≠ 0) := by
  refine ⟨fun h s => fixed_zero h s, fun h => ?_⟩
  simpa using fixed_mostly h 0 1 one_ne_zero

theorem C100_var (r : Row F) (g : Gate F) :
    (VarOk E r → ∀ s, curveConstraints E s (witOf r) (custOf g r) = 0) ∧
    (¬ VarOk E r → Mostly 5 fun s : F => curveConstraints E s (witOf r) (custOf g r) ≠ 0) := by
  refine ⟨fun h s => var_zero h g s, fun h => ?_⟩
  simpa using var_mostly h g 0 1 one_ne_zero

/-- `lc` returns `Σ vᵢ challengeⁱ`, and panics exactly for the challenges `0` and `1` and for no
values. -/
theorem C100_lc (vs : List F) (ch : F) :
    lc vs ch = if ch = 0 ∨ ch = 1 ∨ vs = [] then .error .panic
      else .ok (∑ i ∈ Finset.range vs.length, vs.getD i 0 * ch ^ i) :=
  lc_eq vs ch

/-- A row meets all gates: range digits 1, 2, 3, 1 from the top. -/
example : GatesOk E97 ⟨0, 0, 0, 0, 0, 0, 0, 0, 0, 1, 1, 0, 0, 0, 0⟩
    (⟨27, 6, 1, 0, 0, 0, 109⟩ : Row K97) 0 :=
  ⟨by unfold ArithOk; decide +kernel, fun _ => by unfold RangeOk IsQuad; decide +kernel,
    fun h => absurd rfl h, fun h => absurd rfl h, fun h => absurd rfl h⟩

/-- And a row that does not. -/
example : ¬ GatesOk E97 ⟨0, 0, 0, 0, 0, 0, 0, 0, 0, 1, 1, 0, 0, 0, 0⟩
    (⟨27, 6, 5, 0, 0, 0, 109⟩ : Row K97) 0 := fun h => by
  have := h.range one_ne_zero
  unfold RangeOk IsQuad at this
  revert this
  decide +kernel

/-! ### C101: copy constraints and the permutation argument -/

/-- The sigma permutation of a reachable composer: computing it never panics and gives the same
whatever the order of the hash map; it permutes the positions of the table of `n` rows; and values
are invariant under it exactly when positions of the same variable carry the same value. -/
theorem C101_sigma {c : Composer F} (h : Reach R E c) {L : List (List WireData)}
    (hL : L.Perm c.perm) {n : ℕ} (hn : c.n ≤ n) :
    ∃ s, computeSigmaPermutations L n = .ok s ∧
      (∀ L', L'.Perm c.perm → computeSigmaPermutations L' n = .ok s) ∧
      (∀ p, posRow p < n ↔ ∃ q, sigmaAt s p = some q) ∧
      (∀ p q, sigmaAt s p = some q → posRow q < n) ∧
      (∀ p p' q, sigmaAt s p = some q → sigmaAt s p' = some q → p = p') ∧
      (∀ p q, sigmaAt s p = some q → p = q ∨ ∃ x, OnWire c x p ∧ OnWire c x q) ∧
      ∀ w : WireData → F, (∀ p q, sigmaAt s p = some q → w q = w p) ↔ CopyOk c w := by
  obtain ⟨s, r1, r2, r3, r4, r5, r6, r7, r8, r9⟩ := sigma_facts (Reach.wf h) hL hn
  refine ⟨s, r1, ?_, ?_, fun p q hpq => (r3 p q hpq).2, r5, r6, r9⟩
  · intro L' hL'
    obtain ⟨s', q1, q2, q3, q4, q5, q6, q7, q8, q9⟩ := sigma_facts (Reach.wf h) hL' hn
    rw [q1]
    congr 1
    apply sigmas_ext
    intro p
    by_cases hp : posRow p < n
    · by_cases hx : ∃ x, OnWire c x p
      · obtain ⟨x, ws, hx1, hx2⟩ := hx
        have : ∃ q, (p, q) ∈ c.perm.flatMap cyclePairs := by
          have : p ∈ (cyclePairs ws).map Prod.fst := by rw [map_fst_cyclePairs]; exact hx2
          obtain ⟨⟨a, b⟩, hab, rfl⟩ := List.mem_map.1 this
          exact ⟨b, List.mem_flatMap.2 ⟨ws, List.mem_of_getElem? hx1, hab⟩⟩
        obtain ⟨q, hq⟩ := this
        rw [r7 p q hq, q7 p q hq]
      · push Not at hx
        rw [r8 p hx hp, q8 p hx hp]
    · rw [sigmaAt_none r2 (not_lt.1 hp), sigmaAt_none q2 (not_lt.1 hp)]
  · exact fun p => ⟨r4 p, fun ⟨q, hq⟩ => (r3 p q hq).1⟩

/-- The sigma polynomials: computing them never panics, their degree is below the size of the
domain, and at the point of a row they take the label of the image of its position. Labels of
different positions differ. -/
theorem C101_sigma_polys {c : Composer F} (h : Reach R E c) {L : List (List WireData)}
    (hL : L.Perm c.perm) {D : Dom F} (hD : DomOk D) (hn : c.n ≤ D.size) :
    (∃ s sig, computeSigmaPermutations L D.size = .ok s ∧
      computeSigmaPolynomials L D.size D = .ok sig ∧
      (∀ p ∈ [sig.p1, sig.p2, sig.p3, sig.p4], (polyOf p).degree < D.size) ∧
      ∀ i q,
        (sigmaAt s (.left i) = some q → polyEval sig.p1 (D.omega ^ i) = wireLabel D.omega q) ∧
        (sigmaAt s (.right i) = some q → polyEval sig.p2 (D.omega ^ i) = wireLabel D.omega q) ∧
        (sigmaAt s (.output i) = some q → polyEval sig.p3 (D.omega ^ i) = wireLabel D.omega q) ∧
        (sigmaAt s (.fourth i) = some q → polyEval sig.p4 (D.omega ^ i) = wireLabel D.omega q)) ∧
    ∀ p q, posRow p < D.size → posRow q < D.size →
      wireLabel D.omega p = wireLabel D.omega q → p = q := by
  refine ⟨?_, fun p q hp hq => wireLabel_inj hD hp hq⟩
  obtain ⟨s, sig, h1, h2, hs⟩ := sigmaPolys_run hD (Reach.wf h) hL hn
  refine ⟨s, sig, h1, h2, ?_, fun i q => ⟨hs.v1 i q, hs.v2 i q, hs.v3 i q, hs.v4 i q⟩⟩
  intro p hp
  simp only [List.mem_cons, List.not_mem_nil, or_false] at hp
  rcases hp with rfl | rfl | rfl | rfl
  exacts [hs.d1, hs.d2, hs.d3, hs.d4]

/-- Completeness: `compute_permutation_poly` panics exactly when a denominator is zero, which for
every `β` happens for at most `4n` values of `γ`; otherwise, if the values respect the copy
constraints, its result is an accumulator the verifier's checks accept. -/
theorem C101_complete {c : Composer F} (h : Reach R E c) {L : List (List WireData)}
    (hL : L.Perm c.perm) {D : Dom F} (hD : DomOk D) (hn : c.n ≤ D.size) {sig : Quad F}
    (hsig : computeSigmaPolynomials L D.size D = .ok sig) {wires : Quad F}
    (hq : QLen wires D.size) (beta : F) :
    (∀ gamma, (∃ i < D.size, sigFactor sig D.omega beta gamma (quadW wires) i = 0) →
      computePermutationPoly D wires beta gamma sig = .error .panic) ∧
    (∀ gamma, (∀ i < D.size, sigFactor sig D.omega beta gamma (quadW wires) i ≠ 0) →
      ∃ z, computePermutationPoly D wires beta gamma sig = .ok z ∧ (polyOf z).degree < D.size ∧
        (CopyOk c (quadW wires) → PermCheck sig D.size D.omega beta gamma (quadW wires)
          fun i => polyEval z (D.omega ^ i))) ∧
    Mostly (4 * D.size) fun gamma : F =>
      ∀ i < D.size, sigFactor sig D.omega beta gamma (quadW wires) i ≠ 0 := by
  refine ⟨fun gamma h0 => permPoly_panic hq sig beta gamma h0, fun gamma h0 => ?_,
    sigFactor_mostly sig D.size D.omega beta (quadW wires)⟩
  obtain ⟨z, z1, z2, z3⟩ := permPoly_run hD hq sig beta gamma h0
  refine ⟨z, z1, z2, fun hc => ?_⟩
  obtain ⟨s, sig', e1, e2, hs⟩ := sigmaPolys_run hD (Reach.wf h) hL hn
  rw [hsig] at e2
  simp only [Except.ok.injEq] at e2
  subst e2
  exact permCheck_of_run hD.pos h0 z3 (perm_prod_eq (Reach.wf h) hL hn e1 hs hc beta gamma)

/-- Soundness: if the values of the wires violate a copy constraint then, for all but at most `4n`
values of `β` and `4n` of `γ`, no accumulator passes the verifier's checks. -/
theorem C101_sound {c : Composer F} (h : Reach R E c) {L : List (List WireData)}
    (hL : L.Perm c.perm) {D : Dom F} (hD : DomOk D) (hn : c.n ≤ D.size) {sig : Quad F}
    (hsig : computeSigmaPolynomials L D.size D = .ok sig) {w : WireData → F}
    (hc : ¬ CopyOk c w) :
    Mostly (4 * D.size) fun beta : F => Mostly (4 * D.size) fun gamma : F =>
      ∀ z, ¬ PermCheck sig D.size D.omega beta gamma w z :=
  perm_sound hD (Reach.wf h) hL hn hsig hc

/-- The terms `permutation::compute_quotient_i` adds are the two checks: all of them are zero for
`α ≠ 0` exactly when the accumulator passes. `L₁` is one at the first point and zero at others. -/
theorem C101_quotient (sig : Quad F) {n : ℕ} (hn : 0 < n) (omega alpha beta gamma : F)
    (ha : alpha ≠ 0) (w : WireData → F) (z : ℕ → F) :
    PermCheck sig n omega beta gamma w z ↔
      (∀ i < n, permQuotient (omega ^ i)
        ⟨polyEval sig.p1 (omega ^ i), polyEval sig.p2 (omega ^ i), polyEval sig.p3 (omega ^ i),
          polyEval sig.p4 (omega ^ i)⟩
        ⟨w (.left i), w (.right i), w (.output i), w (.fourth i)⟩ (z i) (z ((i + 1) % n)) alpha
        0 beta gamma = 0) ∧ (z 0 - 1) * alpha ^ 2 = 0 := by
  have e : ∀ i, permQuotient (omega ^ i)
        ⟨polyEval sig.p1 (omega ^ i), polyEval sig.p2 (omega ^ i), polyEval sig.p3 (omega ^ i),
          polyEval sig.p4 (omega ^ i)⟩
        ⟨w (.left i), w (.right i), w (.output i), w (.fourth i)⟩ (z i) (z ((i + 1) % n)) alpha
        0 beta gamma = alpha * (z i * ownFactor omega beta gamma w i
          - z ((i + 1) % n) * sigFactor sig omega beta gamma w i) := by
    intro i
    simp only [permQuotient, permIdentity, permCopy, ownFactor, sigFactor, wireLabel, K1, K2, K3]
    ring
  simp only [e, mul_eq_zero, ha, false_or, pow_eq_zero_iff (two_ne_zero : (2 : ℕ) ≠ 0), or_false,
    sub_eq_zero, PermCheck]
  exact ⟨fun h => ⟨fun i hi => (h.2 i hi).symm, h.1⟩, fun h => ⟨h.2, fun i hi => (h.1 i hi).symm⟩⟩

/-- A circuit: a new composer fits in eight rows, its own values respect the copy constraints and
others do not. -/
example : ∃ c : Composer K7681, Reach R7681 E7681 c ∧ c.n ≤ D8.size ∧ DomOk D8 ∧
    CopyOk c (ownW c) ∧ ¬ CopyOk c fun p => if p = .left 0 then 5 else 0 := by
  obtain ⟨c, h, hr, hs, hn, -⟩ := C85_new (R := R7681) (E := E7681) (1, 2, 3, 4) (5, 6, 7, 8)
  refine ⟨c, hr, by rw [hn]; decide, domOk8, ?_, ?_⟩
  · intro x p q hp hq
    rw [(hs c.n le_rfl).copy x p hp, (hs c.n le_rfl).copy x q hq]
  · have key : (match newComposer (F := K7681) (1, 2, 3, 4) (5, 6, 7, 8) with
      | .ok c => (c.perm.getD 0 []).contains (.left 0) && (c.perm.getD 0 []).contains (.right 0)
          && decide (0 < c.perm.length)
      | .error _ => false) = true := by decide +kernel
    rw [h] at key
    simp only [Bool.and_eq_true, decide_eq_true_eq, List.contains_iff_mem] at key
    obtain ⟨⟨k1, k2⟩, k3⟩ := key
    have e : c.perm[0]? = some (c.perm.getD 0 []) := by
      rw [List.getD_eq_getElem?_getD, List.getElem?_eq_getElem k3]; rfl
    intro hc
    have := hc 0 (.left 0) (.right 0) ⟨_, e, k1⟩ ⟨_, e, k2⟩
    revert this
    decide +kernel

/-- And its permutation polynomial for some challenges. -/
example : (match newComposer (F := K7681) (1, 2, 3, 4) (5, 6, 7, 8) with
    | .ok c => match computeSigmaPolynomials c.perm 8 D8 with
      | .ok sig => (match computePermutationPoly D8 ⟨(List.range 8).map fun i => ownW c (.left i),
          (List.range 8).map fun i => ownW c (.right i), (List.range 8).map fun i => ownW c (.output i),
          (List.range 8).map fun i => ownW c (.fourth i)⟩ 3 4 sig with
        | .ok z => decide (z.length = 8)
        | .error _ => false)
      | .error _ => false
    | .error _ => false) = true := by decide +kernel

end VO
