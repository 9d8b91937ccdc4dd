import Verif.Lemmas.PlonkCheck3
import Verif.Props.PlonkGates

/-
C123: `check_circuit_satisfied`, the test a circuit author runs. What it accepts, and what it does
not look at.
-/

set_option linter.unusedSectionVars false

namespace VO

open VO.Plonk VO.Spec.Plonk

variable {F : Type} [Field F] [DecidableEq F] {R : FieldRep F} {E : EdCurve F}

/-- For every composer the public methods can build, the check passes exactly when every row whose
arithmetic selector is on satisfies the arithmetic equation; otherwise it panics. The sums of range
and logic terms it also looks at are zero for every such composer. -/
theorem C123_exact (hrep : RepOk R) (h2 : (2 : F) ≠ 0) {c : Composer F} (h : Reach R E c) :
    (checkCircuitSatisfied R c = .ok () ↔ ∀ i < c.n, (gateAt c i).arith ≠ 0 →
      ArithOk (gateAt c i) (rowAt c.n (ownW c) i) (ownPub c i)) ∧
    (checkCircuitSatisfied R c = .ok () ∨ checkCircuitSatisfied R c = .error .panic) :=
  check_run hrep h2 h

/-- What the check leaves open: with the curve rows, the lookups and the public inputs of rows
without arithmetic, it decides whether the values satisfy the circuit. -/
theorem C123_satisfied_iff (hrep : RepOk R) (h2 : (2 : F) ≠ 0) {c : Composer F} (h : Reach R E c)
    (E' : EdCurve F) :
    OwnSat E' c ↔ checkCircuitSatisfied R c = .ok () ∧ ∀ i < c.n,
      ((gateAt c i).arith = 0 → ownPub c i = 0) ∧
      ((gateAt c i).fixed ≠ 0 → FixedOk E' (gateAt c i) (rowAt c.n (ownW c) i)) ∧
      ((gateAt c i).var ≠ 0 → VarOk E' (rowAt c.n (ownW c) i)) ∧
      ((gateAt c i).lookup ≠ 0 → (ownW c (.left i), ownW c (.right i), ownW c (.output i),
        ownW c (.fourth i)) ∈ c.lookup_table) := by
  have hw := Reach.wf h
  rw [(C123_exact hrep h2 h).1]
  constructor
  · intro hs
    have hrow := (hs c.n (le_refl _)).rows
    refine ⟨fun i hi _ => (hrow i hi).arith, fun i hi => ⟨fun h0 => ?_, (hrow i hi).fixed,
      (hrow i hi).var, (hrow i hi).lookup⟩⟩
    have := (hrow i hi).arith
    unfold ArithOk at this
    rw [h0] at this
    simpa using this
  · rintro ⟨ha, hr⟩ N hN
    refine ⟨hN, fun i _ hi => hw.ownPub_zero hi, fun i hi => ?_, fun x p hp => ?_⟩
    · have hon := reach_hon hrep h i hi
      obtain ⟨r1, r2, r3, r4⟩ := hr i hi
      have harith : ArithOk (gateAt c i) (rowAt c.n (ownW c) i) (ownPub c i) := by
        by_cases h0 : (gateAt c i).arith = 0
        · unfold ArithOk
          rw [h0, r1 h0]
          ring
        · exact ha i hi h0
      have h0 : RowOk E' c.lookup_table (gateAt c i) (rowAt c.n (ownW c) i) (ownPub c i) :=
        ⟨harith, fun h => (hon.range h).2, fun h => (hon.logic h).2.1, r2, r3, r4⟩
      by_cases hlast : i + 1 < c.n
      · have e : rowAt N (ownW c) i = rowAt c.n (ownW c) i := by
          unfold rowAt
          rw [Nat.mod_eq_of_lt hlast, Nat.mod_eq_of_lt (lt_of_lt_of_le hlast hN)]
        rw [e]
        exact h0
      · exact h0.congr_next (hw.lastFree i (by omega)) rfl rfl rfl rfl
    · unfold ownW
      rw [hw.agree x p hp]

/-- A composer whose values satisfy its circuit passes the check. -/
theorem C123_complete (hrep : RepOk R) (h2 : (2 : F) ≠ 0) {c : Composer F} (h : Reach R E c)
    (hs : OwnSat E c) : checkCircuitSatisfied R c = .ok () :=
  ((C123_satisfied_iff hrep h2 h E).1 hs).1

/-- For circuits without curve additions and lookups the check decides satisfaction: the arithmetic,
boolean, selection, range, logic and hash gates, with any public inputs. -/
theorem C123_sound (hrep : RepOk R) (h2 : (2 : F) ≠ 0) {c : Composer F} (h : Reach R E c)
    (hk : ∀ i < c.n, (gateAt c i).fixed = 0 ∧ (gateAt c i).var = 0 ∧ (gateAt c i).lookup = 0)
    (hok : checkCircuitSatisfied R c = .ok ()) : OwnSat E c := by
  refine (C123_satisfied_iff hrep h2 h E).2 ⟨hok, fun i hi => ?_⟩
  obtain ⟨h1, h3, h4⟩ := hk i hi
  refine ⟨fun h0 => ?_, fun h => absurd h1 h, fun h => absurd h3 h, fun h => absurd h4 h⟩
  by_contra hp
  have hmem : i ∈ c.intended_pi_pos := by
    by_contra hc
    exact hp ((Reach.wf h).ownPub_zero hc)
  rcases (reach_hon hrep h i hi).pi hmem with h' | h'
  · rw [h0] at h'; exact zero_ne_one h'
  · rw [h4] at h'; exact zero_ne_one h'

/-- The same for a circuit that grew from a satisfied one by calls that added no curve additions and
no lookups. -/
theorem C123_incremental (hrep : RepOk R) (h2 : (2 : F) ≠ 0) {c c' : Composer F} (h : Reach R E c)
    (hs : OwnSat E c) (h' : Calls R E c c')
    (hk : ∀ i, c.n ≤ i → i < c'.n →
      (gateAt c' i).fixed = 0 ∧ (gateAt c' i).var = 0 ∧ (gateAt c' i).lookup = 0) :
    checkCircuitSatisfied R c' = .ok () ↔ OwnSat E c' := by
  have hw := Reach.wf h
  obtain ⟨hw', he⟩ := Calls.wf hw h'
  have hr : Reach R E c' := by
    clear hk hw' he
    induction h' with
    | none => exact h
    | more _ hm h1 ih => exact ih.call hm h1
  refine ⟨fun hok => (C123_satisfied_iff hrep h2 hr E).2 ⟨hok, fun i hi => ?_⟩,
    C123_complete hrep h2 hr⟩
  rcases Nat.lt_or_ge i c.n with hlt | hge
  · have hg := he.gate i hlt
    have hW : ∀ p : WireData, p.row = i → ownW c' p = ownW c p := fun p hp =>
      he.ownW hw (by rw [hp]; exact hlt)
    obtain ⟨r1, r2, r3, r4⟩ := ((C123_satisfied_iff hrep h2 h E).1 hs).2 i hlt
    rw [hg, he.pub i hlt]
    refine ⟨r1, fun hf => ?_, fun hf => ?_, fun hf => ?_⟩
    · have hnl : i + 1 < c.n := by
        by_contra hc
        exact hw.lastFree i (by omega) (Or.inr (Or.inr (Or.inl hf)))
      rw [rowAt_ext hw he hnl]
      exact r2 hf
    · have hnl : i + 1 < c.n := by
        by_contra hc
        exact hw.lastFree i (by omega) (Or.inr (Or.inr (Or.inr hf)))
      rw [rowAt_ext hw he hnl]
      exact r3 hf
    · rw [hW _ rfl, hW _ rfl, hW _ rfl, hW _ rfl]
      exact he.tab _ (r4 hf)
  · obtain ⟨k1, k2, k3⟩ := hk i hge hi
    refine ⟨fun h0 => ?_, fun h => absurd k1 h, fun h => absurd k2 h, fun h => absurd k3 h⟩
    by_contra hp
    have hmem : i ∈ c'.intended_pi_pos := by
      by_contra hc
      exact hp (hw'.ownPub_zero hc)
    rcases (reach_hon hrep hr i hi).pi hmem with h' | h'
    · rw [h0] at h'; exact zero_ne_one h'
    · rw [k3] at h'; exact zero_ne_one h'

/-- After `range_gate` on a satisfied circuit the check passes exactly when the value is in range. -/
theorem C123_range (hrep : RepOk R) (h2 : (2 : F) ≠ 0) {c c' : Composer F} (h : Reach R E c)
    (hs : OwnSat E c) {x : Var} {numBits : ℕ} (hn : numBits < R.modBits)
    (h1 : rangeGate R x numBits c = .ok ((), c')) :
    checkCircuitSatisfied R c' = .ok () ↔ R.toNat (ownV c x) < 2 ^ numBits := by
  rw [C123_incremental hrep h2 h hs (Calls.more Calls.none (Method.range_gate x numBits) h1)
    (rangeGate_kinds (Reach.wf h) h1)]
  exact C91_range_gate_own h hrep hn h1 hs

/-- The check does not look at lookups: after `lookup_gate` it passes whenever it passed before,
whether or not the row is in the table, and with any public input. -/
theorem C123_lookup_unchecked (hrep : RepOk R) (h2 : (2 : F) ≠ 0) {c c' : Composer F}
    (h : Reach R E c) {a b o : Var} {d : Option Var} {pi : Option F}
    (h1 : lookupGate a b o d pi c = .ok (o, c')) (hok : checkCircuitSatisfied R c = .ok ()) :
    checkCircuitSatisfied R c' = .ok () := by
  have hw := Reach.wf h
  have h' : Reach R E c' := Reach.call h (Method.lookup_gate a b o d pi) h1
  obtain ⟨-, hw', hA⟩ := lookupGate_fwd hw h1
  rw [(C123_exact hrep h2 h').1]
  have hold := (C123_exact hrep h2 h).1.1 hok
  intro i hi hne
  rcases Nat.lt_or_ge i c.n with hlt | hge
  · have hg := hA.ext.gate i hlt
    rw [hg] at hne ⊢
    have := hold i hlt hne
    rw [hA.ext.pub i hlt]
    have e : ∀ p : WireData, p.row = i → ownW c' p = ownW c p := fun p hp =>
      hA.ext.ownW hw (by rw [hp]; exact hlt)
    unfold ArithOk rowAt at *
    simp only at *
    rw [e (.left i) rfl, e (.right i) rfl, e (.output i) rfl, e (.fourth i) rfl]
    exact this
  · have : i = c.n := by rw [hA.n] at hi; omega
    subst this
    rw [hA.gate] at hne
    exact absurd rfl hne

theorem two97 : (2 : K97) ≠ 0 := by decide +kernel

/-- Over a concrete field: a lookup into the empty table passes the check and is not satisfied. -/
theorem C123_accepts_failed_lookup : ∃ c : Composer K97, Reach R97 E97 c ∧
    checkCircuitSatisfied R97 c = .ok () ∧ ¬ OwnSat E97 c := by
  obtain ⟨c, a, b, o, h, hs, ha, hb, ho, va, vb, vo⟩ := input3 R97 E97 12 10 7
  obtain ⟨c', h1⟩ := lookupGate_run (Reach.wf h) (d := none) (some 3) ha hb ho (by simp)
  refine ⟨c', Reach.call h (Method.lookup_gate ..) h1,
    C123_lookup_unchecked repOk97 two97 h h1 (C123_complete repOk97 two97 h hs), fun hs' => ?_⟩
  have := C93_lookup_public_input h h1 (hs' c'.n (le_refl _))
  obtain ⟨-, -, hA⟩ := lookupGate_fwd (Reach.wf h) h1
  rw [hA.pub] at this
  revert this
  decide +kernel

/-- The hypotheses of `C123_exact` and `C123_complete` are met by a circuit with inputs and a range
gate, which the check accepts; and the check rejects an input out of range. -/
example : (∃ c : Composer K97, Reach R97 E97 c ∧ OwnSat E97 c ∧
      checkCircuitSatisfied R97 c = .ok ()) ∧
    ∃ (c c' : Composer K97) (x : Var), Reach R97 E97 c ∧ rangeGate R97 x 2 c = .ok ((), c') ∧
      checkCircuitSatisfied R97 c' = .error .panic := by
  obtain ⟨c, x, h, hs, hx, hv⟩ := input1 R97 E97 5
  refine ⟨⟨c, h, hs, C123_complete repOk97 two97 h hs⟩, ?_⟩
  obtain ⟨c', h1⟩ := rangeGate_run (R := R97) (numBits := 2) (Reach.wf h) (by decide) (by decide)
    (by decide) hx
  refine ⟨c, c', x, h, h1, ?_⟩
  refine (C123_exact repOk97 two97 (Reach.call h (Method.range_gate x 2) h1)).2.resolve_left ?_
  rw [C123_range repOk97 two97 h hs (by decide) h1, hv]
  decide +kernel

end VO
