import Verif.Lemmas.PlonkExample

/-
C95-C99: the point gadgets of `/repo/plonk-core/src/constraint_system/ecc`, and the dummy and
blinding rows. Points of the circuit are pairs of variables; `CurveGroup E G pt` names the group
of points the gadgets are used with.
-/

namespace VO

open VO.Plonk VO.Spec.Plonk

variable {F : Type} [Field F] [DecidableEq F] {R : FieldRep F} {E : EdCurve F}

/-! ### C95 -/

/-- `Point::identity` never panics and its point is `(0, 1)` in every satisfying assignment. -/
theorem C95_identity {c : Composer F} (h : Reach R E c) :
    ∃ p c', (pointIdentity : CM F Point) c = .ok (p, c') ∧
      (∀ E' T N pub w v, Sat E' T N c' pub w v → ptV v p = (0, 1)) ∧
      (OwnSat E c → OwnSat E c' ∧ ptV (ownV c') p = (0, 1)) := by
  have hw := Reach.wf h
  obtain ⟨p, c', h1⟩ := pointIdentity_run hw
  obtain ⟨-, -, -, -, -, o, s⟩ := pointIdentity_fwd hw h1
  exact ⟨p, c', h1, s, o E⟩

/-- `add_affine` holds the point, `add_affine_to_circuit_description` fixes it in every satisfying
assignment. -/
theorem C95_add_affine {c : Composer F} (h : Reach R E c) (P : F × F) :
    (∃ p c', addAffine P c = .ok (p, c') ∧ ptV (ownV c') p = P ∧ (OwnSat E c → OwnSat E c')) ∧
    (∃ p c', addAffineToCircuitDescription P c = .ok (p, c') ∧ ptV (ownV c') p = P ∧
      (OwnSat E c → OwnSat E c') ∧ ∀ E' T N pub w v, Sat E' T N c' pub w v → ptV v p = P) := by
  have hw := Reach.wf h
  constructor
  · obtain ⟨p, c', h1⟩ := addAffine_run hw P
    obtain ⟨-, -, -, -, hv, -, o⟩ := addAffine_fwd hw h1
    exact ⟨p, c', h1, hv, o E⟩
  · obtain ⟨p, c', h1⟩ := addAffineToCd_run hw P
    obtain ⟨-, -, -, -, hv, o, s⟩ := addAffineToCd_fwd hw h1
    exact ⟨p, c', h1, hv, o E, s⟩

/-- `add_public_affine` and `assert_equal_public_point` tie the point to the public inputs of the
next two rows, negated; the own values satisfy the second exactly when the point has the given
value. -/
theorem C95_public_point {c : Composer F} (h : Reach R E c) (P : F × F) :
    (∃ p c', addPublicAffine P c = .ok (p, c') ∧ ptV (ownV c') p = P ∧ (OwnSat E c → OwnSat E c') ∧
      ∀ E' T N pub w v, Sat E' T N c' pub w v → ptV v p = (-pub c.n, -pub (c.n + 1))) ∧
    ∀ p : Point, p.x < c.variables.length → p.y < c.variables.length →
      ∃ c', assertEqualPublicPoint p P c = .ok ((), c') ∧
        (ownPub c' c.n, ownPub c' (c.n + 1)) = (-P.1, -P.2) ∧
        (OwnSat E c → (OwnSat E c' ↔ ptV (ownV c) p = P)) ∧
        ∀ E' T N pub w v, Sat E' T N c' pub w v → ptV v p = (-pub c.n, -pub (c.n + 1)) := by
  have hw := Reach.wf h
  constructor
  · obtain ⟨p, c', h1⟩ := addPublicAffine_run hw P
    obtain ⟨-, -, -, -, hv, -, o, s⟩ := addPublicAffine_fwd hw h1
    exact ⟨p, c', h1, hv, o E, s⟩
  · intro p hx hy
    obtain ⟨c', h1⟩ := assertEqualPublicPoint_run hw P hx hy
    obtain ⟨-, e, -, -, hv, -, o, s⟩ := assertEqualPublicPoint_fwd hw h1
    have hp := assertEqualPublicPoint_pub hw h1
    refine ⟨c', h1, hp, fun hs => ⟨fun hs' => ?_, o E hs⟩, s⟩
    have := s _ _ _ _ _ _ (hs' c'.n (le_refl _))
    have hv' : ownV c' = ownV c := by funext x; unfold ownV; rw [hv]
    rw [hv'] at this
    rw [this]
    simp only [Prod.mk.injEq] at hp
    rw [hp.1, hp.2]
    simp

/-- `assert_equal_point` enforces that the two points are equal, and the own values satisfy it
exactly when they are. -/
theorem C95_assert_equal_point {c : Composer F} (h : Reach R E c) {p q : Point}
    (hpx : p.x < c.variables.length) (hpy : p.y < c.variables.length)
    (hqx : q.x < c.variables.length) (hqy : q.y < c.variables.length) :
    ∃ c', assertEqualPoint p q c = .ok ((), c') ∧
      (∀ E' T N pub w v, Sat E' T N c' pub w v → ptV v p = ptV v q) ∧
      (OwnSat E c → (OwnSat E c' ↔ ptV (ownV c) p = ptV (ownV c) q)) := by
  have hw := Reach.wf h
  obtain ⟨c', h1⟩ := assertEqualPoint_run hw hpx hpy hqx hqy
  obtain ⟨-, -, hv, o, s⟩ := assertEqualPoint_fwd hw h1
  refine ⟨c', h1, s, fun hs => ⟨fun hs' => ?_, o E hs⟩⟩
  have := s _ _ _ _ _ _ (hs' c'.n (le_refl _))
  have hv' : ownV c' = ownV c := by funext x; unfold ownV; rw [hv]
  rwa [hv'] at this

/-- `conditional_point_select` returns the first point when the bit is one and the second when it
is zero; `conditional_point_neg` negates the point when the bit is one and keeps it when it is
zero: in every satisfying assignment, and in the own values. -/
theorem C95_conditional {c : Composer F} (h : Reach R E c) {p q : Point} {bit : Var}
    (hb : bit < c.variables.length)
    (hpx : p.x < c.variables.length) (hpy : p.y < c.variables.length)
    (hqx : q.x < c.variables.length) (hqy : q.y < c.variables.length) :
    (∃ r c', conditionalPointSelect p q bit c = .ok (r, c') ∧
      (∀ E' T N pub w v, Sat E' T N c' pub w v →
        (v bit = 1 → ptV v r = ptV v p) ∧ (v bit = 0 → ptV v r = ptV v q)) ∧
      (OwnSat E c → OwnSat E c' ∧ (ownV c bit = 1 → ptV (ownV c') r = ptV (ownV c) p) ∧
        (ownV c bit = 0 → ptV (ownV c') r = ptV (ownV c) q))) ∧
    (∃ r c', conditionalPointNeg bit p c = .ok (r, c') ∧
      (∀ E' T N pub w v, Sat E' T N c' pub w v →
        (v bit = 1 → ptV v r = (-v p.x, v p.y)) ∧ (v bit = 0 → ptV v r = ptV v p)) ∧
      (OwnSat E c → OwnSat E c' ∧
        (ownV c bit = 1 → ptV (ownV c') r = (-ownV c p.x, ownV c p.y)) ∧
        (ownV c bit = 0 → ptV (ownV c') r = ptV (ownV c) p))) := by
  have hw := Reach.wf h
  constructor
  · obtain ⟨r, c', h1⟩ := conditionalPointSelect_run hw hb hpx hpy hqx hqy
    obtain ⟨-, -, -, -, -, o, s⟩ := conditionalPointSelect_fwd hw h1
    exact ⟨r, c', h1, s, fun hs => o E hs hqx hqy hpy⟩
  · obtain ⟨r, c', h1⟩ := conditionalPointNeg_run hw hb hpx
    obtain ⟨-, -, -, -, -, o, s⟩ := conditionalPointNeg_fwd hw h1
    exact ⟨r, c', h1, s, fun hs => o E hs hb hpy⟩

example : ∃ (c c' : Composer K97) (p r : Point) (bit : Var), Reach R97 E97 c ∧ OwnSat E97 c' ∧
    conditionalPointNeg bit p c = .ok (r, c') ∧ ptV (ownV c) p = pt97 1 ∧
    ptV (ownV c') r = pt97 (-1) := by
  obtain ⟨c, x, y, b, h, hs, hx, hy, hb, vx, vy, vb⟩ := input3 R97 E97 (pt97 1).1 (pt97 1).2 1
  obtain ⟨r, c', h1, -, o⟩ := (C95_conditional (p := ⟨x, y⟩) (q := ⟨x, y⟩) h hb hx hy hx hy).2
  obtain ⟨o1, o2, -⟩ := o hs
  refine ⟨c, c', ⟨x, y⟩, r, b, h, o1, h1, by simp [ptV, vx, vy], ?_⟩
  rw [o2 vb, vx, vy, curveGroup97.neg]

/-! ### C96 -/

/-- `point_addition_gate` runs exactly when the four variables exist and both values pass the
check that they are points of the prime-order subgroup. -/
theorem C96_runs {c : Composer F} (h : Reach R E c) (p q : Point) :
    (∃ r c', pointAdditionGate E p q c = .ok (r, c')) ↔
      (p.x < c.variables.length ∧ p.y < c.variables.length ∧ q.x < c.variables.length ∧
        q.y < c.variables.length) ∧
      E.check (ptV (ownV c) p) = true ∧ E.check (ptV (ownV c) q) = true := by
  have hw := Reach.wf h
  constructor
  · rintro ⟨r, c', h1⟩
    obtain ⟨h2, h3, h4, -⟩ := pointAdditionGate_fwd hw h1
    exact ⟨h2, h3, h4⟩
  · rintro ⟨⟨h1, h2, h3, h4⟩, h5, h6⟩
    exact pointAdditionGate_run hw h1 h2 h3 h4 h5 h6

/-- In every satisfying assignment the result satisfies the addition law with its denominators
cleared; where they do not vanish it is the affine sum. The own result is the affine sum, and the
own values satisfy the gate when the denominators do not vanish. -/
theorem C96_sum {c c' : Composer F} (h : Reach R E c) {p q r : Point}
    (h1 : pointAdditionGate E p q c = .ok (r, c')) :
    (∀ T N pub w v, Sat E T N c' pub w v →
      EdSum E (v p.x) (v p.y) (v q.x) (v q.y) (v r.x) (v r.y) ∧
      (EdDen E (ptV v p) (ptV v q) → ptV v r =
        ((v p.x * v q.y + v p.y * v q.x) / (1 + E.d * v p.x * v q.x * v p.y * v q.y),
         (v p.y * v q.y - E.a * v p.x * v q.x) / (1 - E.d * v p.x * v q.x * v p.y * v q.y)))) ∧
    ptV (ownV c') r = E.add (ptV (ownV c) p) (ptV (ownV c) q) ∧
    (OwnSat E c → EdDen E (ptV (ownV c) p) (ptV (ownV c) q) → OwnSat E c') := by
  have hw := Reach.wf h
  obtain ⟨-, -, -, -, -, -, -, -, hv, o, s⟩ := pointAdditionGate_fwd hw h1
  refine ⟨fun T N pub w v hs => ⟨s T N pub w v hs, fun hd => ?_⟩, hv, o⟩
  obtain ⟨e1, e2⟩ := s T N pub w v hs
  obtain ⟨d1, d2⟩ := hd
  unfold ptV at *
  simp only at d1 d2
  rw [Prod.mk.injEq, eq_div_iff d1, eq_div_iff d2]
  exact ⟨e1, e2⟩

/-- On a curve whose `a` is a nonzero square and whose `d` is not a square (as in the embedded
curves the library is used with) the denominators never vanish on curve points, so the gate
enforces the sum of any two points of the curve. -/
theorem C96_complete {c c' : Composer F} (h : Reach R E c) (h2 : (2 : F) ≠ 0) {s : F}
    (ha : E.a = s ^ 2) (hs0 : s ≠ 0) (hd : ∀ t : F, t ^ 2 ≠ E.d) {p q r : Point}
    (h1 : pointAdditionGate E p q c = .ok (r, c')) :
    (OwnSat E c → OwnSat E c') ∧
    ∀ T N pub w v, Sat E T N c' pub w v → OnCurve E (ptV v p) → OnCurve E (ptV v q) →
      ptV v r = E.add (ptV v p) (ptV v q) := by
  have hw := Reach.wf h
  obtain ⟨-, hp, hq, -, -, -, -, -, hv, o, s⟩ := pointAdditionGate_fwd hw h1
  refine ⟨fun hs => o hs (edDen_complete h2 ha hs0 hd (check_onCurve hp) (check_onCurve hq)), ?_⟩
  intro T N pub w v hs op oq
  have hden := edDen_complete h2 ha hs0 hd op oq
  exact (edAdd_eq hden (s T N pub w v hs)).symm

/-- On the points of a group, the gate adds. -/
theorem C96_group {G : Type} [AddCommGroup G] {pt : G → F × F} (hG : CurveGroup E G pt)
    {c c' : Composer F} (h : Reach R E c) {p q r : Point}
    (h1 : pointAdditionGate E p q c = .ok (r, c')) :
    (∀ T N pub w v, Sat E T N c' pub w v → ∀ g k, ptV v p = pt g → ptV v q = pt k →
      ptV v r = pt (g + k)) ∧
    (OwnSat E c → ∀ g k, ptV (ownV c) p = pt g → ptV (ownV c) q = pt k →
      OwnSat E c' ∧ ptV (ownV c') r = pt (g + k)) := by
  have hw := Reach.wf h
  obtain ⟨-, -, -, -, -, -, -, -, hv, o, s⟩ := pointAdditionGate_fwd hw h1
  constructor
  · intro T N pub w v hs g k hg hk
    refine pointAddition_group hG ?_
    rw [← hg, ← hk]
    exact s T N pub w v hs
  · intro hs g k hg hk
    refine ⟨o hs (by rw [hg, hk]; exact hG.den g k), ?_⟩
    rw [hv, hg, hk, hG.add]

example : ∃ (c c' : Composer K97) (p q r : Point), Reach R97 E97 c ∧ OwnSat E97 c' ∧
    pointAdditionGate E97 p q c = .ok (r, c') ∧ ptV (ownV c) p = pt97 3 ∧
    ptV (ownV c) q = pt97 5 ∧ ptV (ownV c') r = pt97 8 := by
  obtain ⟨c, p, q, s, h, hs, p1, p2, q1, q2, -, vp, vq, -⟩ :=
    points R97 E97 (pt97 3) (pt97 5) 0
  obtain ⟨r, c', h1⟩ := (C96_runs h p q).2 ⟨⟨p1, p2, q1, q2⟩, by rw [vp]; exact check97 3,
    by rw [vq]; exact check97 5⟩
  obtain ⟨o1, o2⟩ := (C96_group curveGroup97 h h1).2 hs 3 5 vp vq
  exact ⟨c, c', p, q, r, h, o1, h1, vp, vq, o2⟩

/-! ### C97 -/

/-- `variable_base_scalar_mul`: in every satisfying assignment the scalar variable is the image of
a number below two to the bits of the modulus, and the result is that multiple of the point. -/
theorem C97_sound {G : Type} [AddCommGroup G] {pt : G → F × F} (hG : CurveGroup E G pt)
    {c c' : Composer F} (h : Reach R E c) {x : Var} {p r : Point}
    (h1 : variableBaseScalarMul R E x p c = .ok (r, c')) {T : List (F × F × F × F)} {N : ℕ}
    {pub : ℕ → F} {w : WireData → F} {v : Var → F} (hs : Sat E T N c' pub w v) {g : G}
    (hp : ptV v p = pt g) :
    ∃ n < 2 ^ R.modBits, v x = ((n : ℕ) : F) ∧ ptV v r = pt (n • g) :=
  variableBase_sound hG (Reach.wf h) h1 hs hp

/-- The own values: on known variables holding a scalar and a point of the group the gadget runs,
is satisfied, and its result is the multiple by the scalar's representative. -/
theorem C97_own {G : Type} [AddCommGroup G] {pt : G → F × F} (hG : CurveGroup E G pt)
    (hchk : ∀ g, E.check (pt g) = true) (hR : RepOk R)
    {c : Composer F} (h : Reach R E c) (hs : OwnSat E c) {x : Var} {p : Point}
    (hx : x < c.variables.length) (hpx : p.x < c.variables.length)
    (hpy : p.y < c.variables.length) {g : G} (hp : ptV (ownV c) p = pt g) :
    ∃ r c', variableBaseScalarMul R E x p c = .ok (r, c') ∧ OwnSat E c' ∧
      ptV (ownV c') r = pt (R.toNat (ownV c x) • g) := by
  have hw := Reach.wf h
  obtain ⟨r, c', h1⟩ := variableBase_run hG hchk hR hw hs hx hpx hpy hp
  exact ⟨r, c', h1, variableBase_own hG hR hw h1 hs hpx hpy hp⟩

example : ∃ (c c' : Composer K97) (x : Var) (p r : Point), Reach R97 E97 c ∧ OwnSat E97 c' ∧
    variableBaseScalarMul R97 E97 x p c = .ok (r, c') ∧ ptV (ownV c) p = pt97 2 ∧
    ownV c x = 50 ∧ ptV (ownV c') r = pt97 (50 • 2) := by
  obtain ⟨c, p, q, s, h, hs, p1, p2, q1, q2, hx, vp, vq, vx⟩ :=
    points R97 E97 (pt97 2) (pt97 5) 50
  obtain ⟨r, c', h1, o1, o2⟩ := C97_own curveGroup97 check97 repOk97 h hs hx p1 p2 vp
  refine ⟨c, c', s, p, r, h, o1, h1, vp, vx, ?_⟩
  rw [o2, vx]
  rfl

/-! ### C98 -/

/-- `fixed_base_scalar_mul` runs exactly when the scalar variable exists and three times its
representative is below two to one more than the bits of the modulus: larger scalars of the field
panic. -/
theorem C98_runs (hm : R.modBits ≤ R.bigBits) (h0 : 0 < R.modBits) {c : Composer F}
    (h : Reach R E c) (x : Var) (P : F × F) :
    (∃ r c', fixedBaseScalarMul R E x P c = .ok (r, c')) ↔
      x < c.variables.length ∧ 3 * R.toNat (ownV c x) < 2 ^ (R.modBits + 1) := by
  rw [fixedBase_run_iff hm (Reach.wf h) P]
  exact ⟨fun h => h.2, fun h => ⟨h0, h⟩⟩

/-- In every satisfying assignment the scalar variable is the image of an integer of absolute value
below two to the bits of the modulus, and the result is that multiple of the base. -/
theorem C98_sound {G : Type} [AddCommGroup G] {pt : G → F × F} (hG : CurveGroup E G pt)
    {c c' : Composer F} (h : Reach R E c) {x : Var} {r : Point} {g : G}
    (h1 : fixedBaseScalarMul R E x (pt g) c = .ok (r, c')) {T : List (F × F × F × F)} {N : ℕ}
    {pub : ℕ → F} {w : WireData → F} {v : Var → F} (hs : Sat E T N c' pub w v) :
    ∃ s : ℤ, |s| < 2 ^ R.modBits ∧ v x = (s : F) ∧ ptV v r = pt (s • g) :=
  fixedBase_sound hG (Reach.wf h) h1 hs

/-- The own values satisfy the gadget, its result is the multiple of the base by the scalar's
representative, and it takes five rows more than the bits of the modulus. -/
theorem C98_own {G : Type} [AddCommGroup G] {pt : G → F × F} (hG : CurveGroup E G pt)
    (hR : RepOk R) {c c' : Composer F} (h : Reach R E c) {x : Var} {r : Point} {g : G}
    (h1 : fixedBaseScalarMul R E x (pt g) c = .ok (r, c')) :
    ptV (ownV c') r = pt (R.toNat (ownV c x) • g) ∧ (OwnSat E c → OwnSat E c') ∧
      c'.n = c.n + R.modBits + 5 := by
  have hw := Reach.wf h
  obtain ⟨o1, o2⟩ := fixedBase_own hG hR hw h1
  exact ⟨o1, o2, (fixedBase_struct hw h1).2.2.2.2⟩

/-- The scalar 50 works; the scalar 90, of the same field, panics. -/
example : (∃ (c c' : Composer K97) (x : Var) (r : Point), Reach R97 E97 c ∧ OwnSat E97 c' ∧
    fixedBaseScalarMul R97 E97 x (pt97 2) c = .ok (r, c') ∧ ownV c x = 50 ∧
    ptV (ownV c') r = pt97 (50 • 2)) ∧
    (∃ (c : Composer K97) (x : Var), Reach R97 E97 c ∧ x < c.variables.length ∧ ownV c x = 90 ∧
      ¬ ∃ r c', fixedBaseScalarMul R97 E97 x (pt97 2) c = .ok (r, c')) := by
  constructor
  · obtain ⟨c, x, h, hs, hx, hv⟩ := input1 R97 E97 50
    obtain ⟨r, c', h1⟩ := (C98_runs (by decide) (by decide) h x (pt97 2)).2
      ⟨hx, by rw [hv]; decide +kernel⟩
    obtain ⟨o1, o2, -⟩ := C98_own curveGroup97 repOk97 h h1
    refine ⟨c, c', x, r, h, o2 hs, h1, hv, ?_⟩
    rw [o1, hv]
    rfl
  · obtain ⟨c, x, h, hs, hx, hv⟩ := input1 R97 E97 90
    refine ⟨c, x, h, hx, hv, fun hr => ?_⟩
    have := ((C98_runs (by decide) (by decide) h x (pt97 2)).1 hr).2
    rw [hv] at this
    revert this
    decide +kernel

/-! ### C99 -/

/-- `add_blinding_factors` never panics, adds three rows and the eight random values as variables,
and whatever they are, constrains nothing. -/
theorem C99_blinding {c : Composer F} (h : Reach R E c) (r1 r2 : F × F × F × F) :
    ∃ c', addBlindingFactors r1 r2 c = .ok ((), c') ∧ c'.n = c.n + 3 ∧
      c'.variables = c.variables ++ [r1.1, r1.2.1, r1.2.2.1, r1.2.2.2, r2.1, r2.2.1, r2.2.2.1,
        r2.2.2.2] ∧ (OwnSat E c → OwnSat E c') := by
  have hw := Reach.wf h
  obtain ⟨c', h1⟩ := addBlindingFactors_run hw r1 r2
  obtain ⟨-, -, o, hn, hv⟩ := addBlindingFactors_fwd hw h1
  exact ⟨c', h1, hn, hv, o E⟩

/-- `add_dummy_lookup_table` and then `add_dummy_constraints` never panic and keep the own values
satisfying the circuit. -/
theorem C99_dummy {c : Composer F} (h : Reach R E c) :
    ∃ c1 c2, addDummyLookupTable c = .ok ((), c1) ∧ addDummyConstraints c1 = .ok ((), c2) ∧
      c1.lookup_table = c.lookup_table ++ [(6, 7, -20, 1), (-20, 6, 7, 0), (3, 1, 4, 9)] ∧
      (OwnSat E c → OwnSat E c2) := by
  have hw := Reach.wf h
  obtain ⟨c1, h1⟩ := addDummyLookupTable_run c
  obtain ⟨w1, -, ht, o1⟩ := addDummyLookupTable_fwd hw h1
  obtain ⟨c2, h2⟩ := addDummyConstraints_run w1
  exact ⟨c1, c2, h1, h2, ht, fun hs =>
    (addDummyConstraints_fwd w1 h2).2.2 E (o1 E hs) (by rw [ht]; simp) (by rw [ht]; simp)⟩

example : ∃ c c1 c2 : Composer K97, Reach R97 E97 c ∧ addDummyLookupTable c = .ok ((), c1) ∧
    addDummyConstraints c1 = .ok ((), c2) ∧ OwnSat E97 c2 := by
  obtain ⟨c, h, hs⟩ := new_reach R97 E97
  obtain ⟨c1, c2, h1, h2, -, o⟩ := C99_dummy h
  exact ⟨c, c1, c2, h, h1, h2, o hs⟩

end VO
