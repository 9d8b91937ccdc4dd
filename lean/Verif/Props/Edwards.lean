import Verif.Lemmas.Edwards
import Verif.Lemmas.Fields
import Verif.Props.Fields
import Mathlib.Algebra.Group.Subgroup.Ker
import Mathlib.FieldTheory.Finite.Basic

/-
C127: complete twisted Edwards curves are groups, so the point gadgets multiply points, without
assumptions on the group.
-/

set_option linter.unusedSectionVars false

namespace VO

open Plonk Spec Spec.Plonk

variable {F : Type} [Field F] [DecidableEq F] {R : FieldRep F} {E : EdCurve F}

/-- The points of the curve. -/
@[ext]
structure EdPoint (E : EdCurve F) where
  val : F × F
  on : OnCurve E val

/-- The group of points: the affine addition law, neutral element `(0, 1)`, `-(x, y) = (-x, y)`. -/
@[implicit_reducible]
def edGroup (h : EdComplete E) : AddCommGroup (EdPoint E) :=
  letI : Add (EdPoint E) := ⟨fun P Q => ⟨E.add P.val Q.val, Edwards.add_curve h P.on Q.on⟩⟩
  letI : Zero (EdPoint E) := ⟨⟨(0, 1), Edwards.zero_curve E⟩⟩
  letI : Neg (EdPoint E) := ⟨fun P => ⟨(-P.val.1, P.val.2), Edwards.neg_curve P.on⟩⟩
  { add_assoc := fun P Q S => EdPoint.ext (Edwards.add_assoc' h P.on Q.on S.on)
    zero_add := fun P => EdPoint.ext (Edwards.zero_add' E P.val)
    add_zero := fun P => EdPoint.ext ((Edwards.add_comm' E _ _).trans (Edwards.zero_add' E P.val))
    neg_add_cancel := fun P => EdPoint.ext (Edwards.neg_add' h P.on)
    add_comm := fun P Q => EdPoint.ext (Edwards.add_comm' E P.val Q.val)
    nsmul := nsmulRec
    zsmul := zsmulRec }

/-- The laws of the addition of points on a complete curve: no exceptional pairs, closure,
commutativity, neutral element, inverses, associativity. -/
theorem C127_add_laws (h : EdComplete E) {P Q S : F × F} (hP : OnCurve E P) (hQ : OnCurve E Q)
    (hS : OnCurve E S) :
    EdDen E P Q ∧ OnCurve E (E.add P Q) ∧ EdSum E P.1 P.2 Q.1 Q.2 (E.add P Q).1 (E.add P Q).2 ∧
      E.add P Q = E.add Q P ∧ E.add (0, 1) P = P ∧ E.add (-P.1, P.2) P = (0, 1) ∧
      E.add (E.add P Q) S = E.add P (E.add Q S) :=
  ⟨Edwards.den h hP hQ, Edwards.add_curve h hP hQ, Edwards.add_sum h hP hQ, Edwards.add_comm' E P Q,
    Edwards.zero_add' E P, Edwards.neg_add' h hP, Edwards.add_assoc' h hP hQ hS⟩

/-- The points of a complete curve meet what C95-C99 assume of the group. -/
theorem C127_curve_group (h : EdComplete E) :
    @CurveGroup F _ E (EdPoint E) (edGroup h) EdPoint.val := by
  let _ := edGroup h
  exact ⟨rfl, fun _ => rfl, fun P Q => Edwards.den h P.on Q.on,
    fun P Q => Edwards.add_sum h P.on Q.on, fun P => P.on⟩

/-- And so does every subgroup. -/
theorem C127_subgroup {G : Type} [AddCommGroup G] {pt : G → F × F} (h : CurveGroup E G pt)
    (H : AddSubgroup G) : CurveGroup E H fun g => pt g.1 :=
  ⟨h.zero, fun g => h.neg g.1, fun g k => h.den g.1 k.1, fun g k => h.sum g.1 k.1, fun g => h.curve g.1⟩

/-- `n` times the point: repeated affine addition. -/
def edMul (E : EdCurve F) : ℕ → F × F → F × F
  | 0, _ => (0, 1)
  | n + 1, P => E.add (edMul E n P) P

theorem edMul_eq (h : EdComplete E) (n : ℕ) (P : EdPoint E) :
    edMul E n P.1 = (letI := edGroup h; (n • P).1) := by
  let _ := edGroup h
  induction n with
  | zero => rw [zero_nsmul]; rfl
  | succ n ih => rw [succ_nsmul]; unfold edMul; rw [ih]; rfl

/-- An integer times the point. -/
def edMulZ (E : EdCurve F) (s : ℤ) (P : F × F) : F × F :=
  if 0 ≤ s then edMul E s.natAbs P else edMul E s.natAbs (-P.1, P.2)

theorem edMulZ_eq (h : EdComplete E) (s : ℤ) (P : EdPoint E) :
    edMulZ E s P.1 = (letI := edGroup h; (s • P).1) := by
  let _ := edGroup h
  unfold edMulZ
  split
  · next hs =>
    rw [edMul_eq h]
    obtain ⟨n, rfl⟩ := Int.eq_ofNat_of_zero_le hs
    simp
  · next hs =>
    have : ((-P.1.1, P.1.2) : F × F) = (-P).1 := rfl
    rw [this, edMul_eq h]
    obtain ⟨n, hn⟩ := Int.eq_ofNat_of_zero_le (a := -s) (by omega)
    have e : s = -(n : ℤ) := by omega
    subst e
    simp

/-- Distributivity of multiples: what a user expects of "scalar multiplication". -/
theorem C127_multiples (h : EdComplete E) {P Q : F × F} (hP : OnCurve E P) (hQ : OnCurve E Q) (m n : ℕ) :
    OnCurve E (edMul E n P) ∧ edMul E (m + n) P = E.add (edMul E m P) (edMul E n P) ∧
      edMul E (m * n) P = edMul E m (edMul E n P) ∧
      edMul E n (E.add P Q) = E.add (edMul E n P) (edMul E n Q) := by
  let _ := edGroup h
  let P' : EdPoint E := ⟨P, hP⟩
  let Q' : EdPoint E := ⟨Q, hQ⟩
  have e : ∀ k, edMul E k P = (k • P').1 := fun k => edMul_eq h k P'
  have f : ∀ k, edMul E k Q = (k • Q').1 := fun k => edMul_eq h k Q'
  refine ⟨?_, ?_, ?_, ?_⟩
  · rw [e]; exact (n • P').2
  · rw [e, e, e, add_nsmul]; rfl
  · rw [e, e, edMul_eq h m (n • P'), mul_nsmul']
  · have : E.add P Q = (P' + Q').1 := rfl
    rw [this, edMul_eq h, e, f, nsmul_add]
    rfl

/-- `variable_base_scalar_mul` over a complete curve: in every satisfying assignment in which the base is
on the curve, the scalar variable is the image of a number of the bits of the modulus and the result is
that multiple of the base. -/
theorem C127_variable_base_sound (hE : EdComplete E)
    {c c' : Composer F} (h : Reach R E c) {x : Var} {p r : Point}
    (h1 : variableBaseScalarMul R E x p c = .ok (r, c')) {T : List (F × F × F × F)} {N : ℕ}
    {pub : ℕ → F} {w : WireData → F} {v : Var → F} (hs : Sat E T N c' pub w v)
    (hp : OnCurve E (ptV v p)) :
    ∃ n < 2 ^ R.modBits, v x = ((n : ℕ) : F) ∧ ptV v r = edMul E n (ptV v p) := by
  let _ := edGroup hE
  obtain ⟨n, hn, hv, hr⟩ := C97_sound (C127_curve_group hE) h h1 hs (g := ⟨ptV v p, hp⟩) rfl
  refine ⟨n, hn, hv, ?_⟩
  rw [hr]
  exact (edMul_eq hE n ⟨ptV v p, hp⟩).symm

/-- `fixed_base_scalar_mul` over a complete curve. -/
theorem C127_fixed_base_sound (hE : EdComplete E)
    {c c' : Composer F} (h : Reach R E c) {x : Var} {P : F × F} (hP : OnCurve E P) {r : Point}
    (h1 : fixedBaseScalarMul R E x P c = .ok (r, c')) {T : List (F × F × F × F)} {N : ℕ}
    {pub : ℕ → F} {w : WireData → F} {v : Var → F} (hs : Sat E T N c' pub w v) :
    ∃ s : ℤ, |s| < 2 ^ R.modBits ∧ v x = (s : F) ∧ ptV v r = edMulZ E s P := by
  let _ := edGroup hE
  obtain ⟨s, hs1, hv, hr⟩ := C98_sound (g := (⟨P, hP⟩ : EdPoint E)) (C127_curve_group hE) h h1 hs
  refine ⟨s, hs1, hv, ?_⟩
  rw [hr]
  exact (edMulZ_eq hE s ⟨P, hP⟩).symm

/-- The honest values of `fixed_base_scalar_mul`. -/
theorem C127_fixed_base_own (hE : EdComplete E) (hR : RepOk R) {c c' : Composer F} (h : Reach R E c)
    {x : Var} {P : F × F} (hP : OnCurve E P) {r : Point}
    (h1 : fixedBaseScalarMul R E x P c = .ok (r, c')) :
    ptV (ownV c') r = edMul E (R.toNat (ownV c x)) P ∧ (OwnSat E c → OwnSat E c') := by
  let _ := edGroup hE
  obtain ⟨o1, o2, -⟩ := C98_own (g := (⟨P, hP⟩ : EdPoint E)) (C127_curve_group hE) hR h h1
  refine ⟨?_, o2⟩
  rw [o1]
  exact (edMul_eq hE _ ⟨P, hP⟩).symm

/-- The honest run of `variable_base_scalar_mul`, when `Affine::new` accepts the points of the curve that
`order` annihilates, as in ark-ec: on known variables that hold such a point it runs, is satisfied,
and returns the multiple. -/
theorem C127_variable_base_own (hE : EdComplete E) (hR : RepOk R) {order : ℕ}
    (hsub : ∀ Q, OnCurve E Q → (E.inSubgroup Q.1 Q.2 = true ↔ edMul E order Q = (0, 1)))
    {c : Composer F} (h : Reach R E c) (hs : OwnSat E c) {x : Var} {p : Point}
    (hx : x < c.variables.length) (hpx : p.x < c.variables.length)
    (hpy : p.y < c.variables.length) (hp : OnCurve E (ptV (ownV c) p))
    (ho : edMul E order (ptV (ownV c) p) = (0, 1)) :
    ∃ r c', variableBaseScalarMul R E x p c = .ok (r, c') ∧ OwnSat E c' ∧
      ptV (ownV c') r = edMul E (R.toNat (ownV c x)) (ptV (ownV c) p) := by
  let _ := edGroup hE
  let H : AddSubgroup (EdPoint E) := (nsmulAddMonoidHom (α := EdPoint E) order).ker
  have hmem : ∀ Q : EdPoint E, Q ∈ H ↔ edMul E order Q.1 = (0, 1) := by
    intro Q
    rw [edMul_eq hE]
    show order • Q = 0 ↔ _
    exact ⟨fun h => by rw [h]; rfl, fun h => EdPoint.ext h⟩
  have hchk : ∀ g : H, E.check ((fun g : H => g.1.1) g) = true := by
    intro g
    unfold EdCurve.check
    rw [Bool.and_eq_true, decide_eq_true_iff]
    exact ⟨g.1.2, (hsub _ g.1.2).2 ((hmem g.1).1 g.2)⟩
  let P : EdPoint E := ⟨ptV (ownV c) p, hp⟩
  obtain ⟨r, c', h1, h2, h3⟩ := C97_own (G := H) (C127_subgroup (C127_curve_group hE) H) hchk hR h hs hx
    hpx hpy (g := ⟨P, (hmem P).2 ho⟩) rfl
  refine ⟨r, c', h1, h2, ?_⟩
  rw [h3]
  exact (edMul_eq hE _ P).symm

/-! ### The curves of the tests -/

theorem nonsquare_of {p : ℕ} [Fact p.Prime] (fuel D : ℕ) (hf : (p - 1) / 2 < 2 ^ fuel)
    (hodd : 2 * ((p - 1) / 2) = p - 1) (h0 : D % p ≠ 0) (h1 : powMod p fuel D ((p - 1) / 2) ≠ 1 % p)
    (t : ZMod p) : t ^ 2 ≠ ((D : ℕ) : ZMod p) := by
  intro ht
  have hne : t ≠ 0 := by
    rintro rfl
    refine h0 (Nat.mod_eq_zero_of_dvd ((ZMod.natCast_eq_zero_iff D p).1 ?_))
    rw [← ht]
    simp
  refine zmod_pow_ne D ((p - 1) / 2) 1 fuel hf h1 ?_
  rw [← ht, ← pow_mul, hodd, ZMod.pow_card_sub_one_eq_one hne]
  simp

theorem minus_one_square {p g fuel : ℕ} [Fact p.Prime] (hf : (p - 1) / 2 < 2 ^ fuel)
    (h4 : (p - 1) / 4 * 2 = (p - 1) / 2) (hp : 0 < p)
    (h : powMod p fuel g ((p - 1) / 2) = (p - 1) % p) : ∃ s : ZMod p, s ^ 2 = -1 := by
  refine ⟨((g : ℕ) : ZMod p) ^ ((p - 1) / 4), ?_⟩
  rw [← pow_mul, h4, zmod_pow_eq g _ (p - 1) fuel hf h, Nat.cast_sub (by omega)]
  simp

/-- The two curves of the tests are complete. -/
theorem C127_curves (sub : Fr381 → Fr381 → Bool) (sub' : Fr377 → Fr377 → Bool) :
    EdComplete (ed381 sub) ∧ EdComplete (ed377 sub') := by
  refine ⟨⟨?_, ?_, ?_⟩, ⟨?_, ?_, ?_⟩⟩
  · have := natCast_ne_zero_of_lt (p := r381) (k := 2) (by norm_num) (by decide +kernel)
    simpa using this
  · exact minus_one_square (g := 7) (fuel := 255) (by decide +kernel) (by decide +kernel)
      (by decide +kernel) (by decide +kernel)
  · have hd : (ed381 sub).d = ((19257038036680949359750312669786877991949435402254120286184196891950884077233 : ℕ) : Fr381) := by
      have h1 : ((10241 : ℕ) : Fr381) ≠ 0 := natCast_ne_zero_of_lt (by norm_num) (by decide +kernel)
      have h1' : (10241 : Fr381) ≠ 0 := by simpa using h1
      have h2 : ((19257038036680949359750312669786877991949435402254120286184196891950884077233
          * 10241 + 10240 : ℕ) : Fr381) = 0 := by
        rw [ZMod.natCast_eq_zero_iff]
        decide +kernel
      show -(10240 / 10241 : Fr381) = _
      rw [neg_eq_iff_add_eq_zero]
      rw [Nat.cast_add, Nat.cast_mul] at h2
      generalize ((19257038036680949359750312669786877991949435402254120286184196891950884077233 : ℕ) :
        Fr381) = D at *
      have h3 : D * 10241 + 10240 = 0 := by simpa using h2
      field_simp
      linear_combination h3
    intro t
    rw [hd]
    exact nonsquare_of 255 _ (by decide +kernel) (by decide +kernel) (by decide +kernel)
      (by decide +kernel) t
  · have := natCast_ne_zero_of_lt (p := r377) (k := 2) (by norm_num) (by decide +kernel)
    simpa using this
  · exact minus_one_square (g := 22) (fuel := 253) (by decide +kernel) (by decide +kernel)
      (by decide +kernel) (by decide +kernel)
  · intro t
    have := nonsquare_of (p := r377) 253 3021 (by decide +kernel) (by decide +kernel)
      (by decide +kernel) (by decide +kernel) t
    simpa [ed377] using this

/-- The generator of `ark_ed_on_bls12_381`, as numbers. -/
def jubjubX : ℕ := 8076246640662884909881801758704306714034609987455869804520522091855516602923
def jubjubY : ℕ := 13262374693698910701929044844600465831413122818447359594527400194675274060458

theorem jubjub_on (sub : Fr381 → Fr381 → Bool) :
    OnCurve (ed381 sub) (((jubjubX : ℕ) : Fr381), ((jubjubY : ℕ) : Fr381)) := by
  have h1 : ((10241 : ℕ) : Fr381) ≠ 0 := natCast_ne_zero_of_lt (by norm_num) (by decide +kernel)
  have h1' : (10241 : Fr381) ≠ 0 := by simpa using h1
  have h2 : ((10241 * jubjubY ^ 2 + 10240 * jubjubX ^ 2 * jubjubY ^ 2 : ℕ) : Fr381)
      = ((10241 + 10241 * jubjubX ^ 2 : ℕ) : Fr381) := by
    rw [ZMod.natCast_eq_natCast_iff]
    decide +kernel
  push_cast at h2
  unfold OnCurve ed381
  simp only
  generalize ((jubjubX : ℕ) : Fr381) = x at *
  generalize ((jubjubY : ℕ) : Fr381) = y at *
  field_simp
  linear_combination h2

/-- The hypotheses are met: over BLS12-381 and its embedded curve, with the generator of the subgroup as
the base and any scalar below a third of the modulus, `fixed_base_scalar_mul` runs and returns the
multiple of the generator. -/
example (sub : Fr381 → Fr381 → Bool) (k : ℕ) (hk : 3 * k < r381) :
    ∃ (c c' : Composer Fr381) (x : Var) (r : Point),
      Reach (primeRepOf r381 4).fieldRep (ed381 sub) c ∧ ownV c x = ((k : ℕ) : Fr381) ∧
      fixedBaseScalarMul (primeRepOf r381 4).fieldRep (ed381 sub) x
        (((jubjubX : ℕ) : Fr381), ((jubjubY : ℕ) : Fr381)) c = .ok (r, c') ∧
      OwnSat (ed381 sub) c' ∧
      ptV (ownV c') r = edMul (ed381 sub) k (((jubjubX : ℕ) : Fr381), ((jubjubY : ℕ) : Fr381)) := by
  have hR : PrimeOk (primeRepOf r381 4) :=
    ⟨fun x => ZMod.natCast_zmod_val x, fun x => ZMod.val_lt x, fun m hm => ZMod.val_cast_of_lt hm,
      by decide +kernel⟩
  have hval : (primeRepOf r381 4).toNat ((k : ℕ) : Fr381) = k := hR.own k (by
    show k < r381
    omega)
  obtain ⟨c, x, h, hs, hx, hv⟩ := input1 (primeRepOf r381 4).fieldRep (ed381 sub) ((k : ℕ) : Fr381)
  have hsz : r381 < 2 ^ Nat.size r381 := Nat.lt_size_self _
  obtain ⟨r, c', h1⟩ := (C98_runs (R := (primeRepOf r381 4).fieldRep) (E := ed381 sub)
    hR.repOk.mod_le (by rw [modBits_of]; exact Nat.size_pos.2 (by decide +kernel)) h x
    (((jubjubX : ℕ) : Fr381), ((jubjubY : ℕ) : Fr381))).2 ⟨hx, by
      rw [hv, modBits_of]
      have hval' : (primeRepOf r381 4).fieldRep.toNat ((k : ℕ) : Fr381) = k := hval
      rw [hval', pow_succ]
      generalize Nat.size r381 = n at *
      exact lt_of_lt_of_le (hk.trans hsz) (Nat.le_mul_of_pos_right _ (by norm_num))⟩
  obtain ⟨e1, e2⟩ := C127_fixed_base_own (C127_curves sub fun _ _ => true).1 hR.repOk h (jubjub_on sub) h1
  refine ⟨c, c', x, r, h, hv, h1, e2 hs, ?_⟩
  rw [e1, hv]
  show edMul _ ((primeRepOf r381 4).toNat ((k : ℕ) : Fr381)) _ = _
  rw [hval]

end VO
