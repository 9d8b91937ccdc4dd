import Verif.Model.PlonkExamples
import Verif.Lemmas.PlonkGrow
import Verif.Props.PlonkShape
import Verif.Props.Edwards

/-
C130: the circuits of the PLONK examples say what their comments say.
-/

set_option linter.unusedSectionVars false

namespace VO

open VO.Plonk VO.Spec VO.Spec.Plonk

namespace Plonk

variable {F K : Type} [Field F] [DecidableEq F]

/-- The rows of a range gate. -/
def rangeRows (bits : ℕ) : ℕ := (bits + 7) / 8 + 2

/-- The rows with public inputs: the sum, the product, the coordinates of the point. -/
def simplePos (R : FieldRep F) (bitsA bitsB : ℕ) : List ℕ :=
  [4, 5 + rangeRows bitsA + rangeRows bitsB, 11 + rangeRows bitsA + rangeRows bitsB + R.modBits,
    12 + rangeRows bitsA + rangeRows bitsB + R.modBits]

theorem Grow.outside {α : Type} (r : Res α) : Grow 0 [] (liftC r : CM F α) := by
  intro c a c' h
  obtain ⟨-, rfl⟩ := liftC_ok.1 h
  simp

variable {S : PrimeRep K} {T : PrimeRep F} {R : FieldRep F} {E : EdCurve F} {gen : F × F} {kA kB : ℕ}

theorem simple_grow (t : SimpleValues F K) :
    Grow (rangeRows kA + rangeRows kB + R.modBits + 9)
      [0, 1 + rangeRows kA + rangeRows kB, 7 + rangeRows kA + rangeRows kB + R.modBits,
        8 + rangeRows kA + rangeRows kB + R.modBits] (simpleGadget S T R E gen kA kB t) := by
  unfold simpleGadget
  refine Grow.cast (Grow.skip (.input _) fun a => .skip (.input _) fun b => .skip .zero fun z =>
    (Grow.arith _).bindG fun _ => (Grow.range R a kA).bindG fun _ => (Grow.range R b kB).bindG fun _ =>
    (Grow.arith _).bindG fun _ => .skip (.outside _) fun _ => .skip (.input _) fun _ =>
    .skip (.outside _) fun _ => (Grow.fixedBase R E _ _).bindG fun _ => (Grow.publicPoint _ _).bindG fun _ =>
    .pureG _) ?_ ?_
  · unfold rangeRows; omega
  · simp [piOff, rangeRows]
    omega

/-- The steps of the gadget. -/
theorem simple_steps {t : SimpleValues F K} {c0 c : Composer F} {x : Except PErr Unit} (h0 : Reach R E c0)
    (h : simpleGadget S T R E gen kA kB t c0 = .ok (x, c)) :
    x = .ok () ∧ ∃ (c1 c2 c3 c4 c5 c6 c7 c8 : Composer F) (o1 o2 : Var) (s : F) (p : Point),
      (addInput t.a c0 = .ok (c0.variables.length, c1) ∧ NewVar c0 c1 c0.variables.length t.a) ∧
      (addInput t.b c1 = .ok (c1.variables.length, c2) ∧ NewVar c1 c2 c1.variables.length t.b) ∧
      arithmeticGate { (ArithGate.new : ArithGate F) with
        witness := some (c0.variables.length, c1.variables.length, some c2.zero_var), add := (1, 1),
        pi := some (-t.c) } c2 = .ok (o1, c3) ∧
      rangeGate R c0.variables.length kA c3 = .ok ((), c4) ∧
      rangeGate R c1.variables.length kB c4 = .ok ((), c5) ∧
      arithmeticGate { (ArithGate.new : ArithGate F) with
        witness := some (c0.variables.length, c1.variables.length, some c2.zero_var), mul := 1,
        pi := some (-t.d) } c5 = .ok (o2, c6) ∧
      fromEmbeddedCurveScalar S T t.e = .ok s ∧
      (addInput s c6 = .ok (c6.variables.length, c7) ∧ NewVar c6 c7 c6.variables.length s) ∧
      E.check gen = true ∧
      fixedBaseScalarMul R E c6.variables.length gen c7 = .ok (p, c8) ∧
      assertEqualPublicPoint p t.f c8 = .ok ((), c) ∧
      Reach R E c1 ∧ Reach R E c2 ∧ Reach R E c3 ∧ Reach R E c4 ∧ Reach R E c5 ∧ Reach R E c6 ∧
      Reach R E c7 ∧ Reach R E c8 := by
  unfold simpleGadget at h
  obtain ⟨a, c1, h1, g1⟩ := bindC_ok.1 h
  obtain ⟨c1', e1, n1⟩ := addInput_run (Reach.wf h0) t.a
  rw [e1] at h1
  cases h1
  have r1 : Reach R E c1 := .call h0 (.add_input _) e1
  obtain ⟨b, c2, h2, g2⟩ := bindC_ok.1 g1
  obtain ⟨c2', e2, n2⟩ := addInput_run (Reach.wf r1) t.b
  rw [e2] at h2
  cases h2
  have r2 : Reach R E c2 := .call r1 (.add_input _) e2
  obtain ⟨z, _, hz, g3⟩ := bindC_ok.1 g2
  obtain ⟨rfl, rfl⟩ := zeroVar_ok.1 hz
  obtain ⟨o1, c3, h3, g4⟩ := bindC_ok.1 g3
  have r3 : Reach R E c3 := .call r2 (.arithmetic_gate _) h3
  obtain ⟨⟨⟩, c4, h4, g5⟩ := bindC_ok.1 g4
  have r4 : Reach R E c4 := .call r3 (.range_gate _ _) h4
  obtain ⟨⟨⟩, c5, h5, g6⟩ := bindC_ok.1 g5
  have r5 : Reach R E c5 := .call r4 (.range_gate _ _) h5
  obtain ⟨o2, c6, h6, g7⟩ := bindC_ok.1 g6
  have r6 : Reach R E c6 := .call r5 (.arithmetic_gate _) h6
  obtain ⟨s, _, hs, g8⟩ := bindC_ok.1 g7
  obtain ⟨hs', rfl⟩ := liftC_ok.1 hs
  obtain ⟨e, c7, h7, g9⟩ := bindC_ok.1 g8
  obtain ⟨c7', e7, n7⟩ := addInput_run (Reach.wf r6) s
  rw [e7] at h7
  cases h7
  have r7 : Reach R E c7 := .call r6 (.add_input _) e7
  obtain ⟨⟨⟩, _, hg, g10⟩ := bindC_ok.1 g9
  obtain ⟨hg2, rfl⟩ := liftC_ok.1 hg
  have hg' : E.check gen = true := by
    unfold assertR at hg2
    split at hg2
    · assumption
    · cases hg2
  obtain ⟨p, c8, h8, g11⟩ := bindC_ok.1 g10
  have r8 : Reach R E c8 := .call r7 (.fixed_base_scalar_mul _ _) h8
  obtain ⟨⟨⟩, c9, h9, g12⟩ := bindC_ok.1 g11
  obtain ⟨rfl, rfl⟩ := pureC_ok.1 g12
  exact ⟨rfl, _, _, _, _, _, _, _, _, _, _, s, p, ⟨e1, n1⟩, ⟨e2, n2⟩, h3, h4, h5, h6, hs', ⟨e7, n7⟩,
    hg', h8, h9, r1, r2, r3, r4, r5, r6, r7, r8⟩

/-- The gadget runs. -/
theorem simple_run [Field K] (hS : PrimeOk S) (hT : PrimeOk T) (hST : S.modulus ≤ T.modulus)
    (hR : R = T.fieldRep) (h3 : 3 * S.modulus ≤ 2 ^ (R.modBits + 1)) (h0 : 0 < R.modBits)
    (hA : kA % 2 = 0 ∧ 0 < kA ∧ kA ≤ R.bigBits) (hB : kB % 2 = 0 ∧ 0 < kB ∧ kB ≤ R.bigBits)
    (hg : E.check gen = true) (t : SimpleValues F K) {c0 : Composer F} (hr : Reach R E c0) :
    ∃ c, simpleGadget S T R E gen kA kB t c0 = .ok (.ok (), c) := by
  obtain ⟨c1, e1, n1⟩ := addInput_run (Reach.wf hr) t.a
  have r1 : Reach R E c1 := .call hr (.add_input _) e1
  obtain ⟨c2, e2, n2⟩ := addInput_run (Reach.wf r1) t.b
  have r2 : Reach R E c2 := .call r1 (.add_input _) e2
  have a1 : c0.variables.length < c1.variables.length := by rw [n1.vars]; simp
  have a2 := n2.ext.lt a1
  have b2 : c1.variables.length < c2.variables.length := by rw [n2.vars]; simp
  obtain ⟨o1, c3, h3'⟩ := arithmeticGate_run (Reach.wf r2) (g := { (ArithGate.new : ArithGate F) with
        witness := some (c0.variables.length, c1.variables.length, some c2.zero_var), add := (1, 1),
        pi := some (-t.c) }) rfl a2 b2 (fun x hx => by cases hx; exact (Reach.wf r2).zero) (fun p hp => by cases hp)
  have r3 : Reach R E c3 := .call r2 (.arithmetic_gate _) h3'
  obtain ⟨-, -, P3⟩ := arithmeticGate_fwd_some (Reach.wf r2) rfl h3'
  obtain ⟨c4, h4⟩ := rangeGate_run (R := R) (Reach.wf r3) hA.1 hA.2.1 hA.2.2 (P3.ext.lt a2)
  have r4 : Reach R E c4 := .call r3 (.range_gate _ _) h4
  obtain ⟨-, -, -, -, -, x4, -, -⟩ := rangeGate_fwd (Reach.wf r3) h4
  obtain ⟨c5, h5⟩ := rangeGate_run (R := R) (Reach.wf r4) hB.1 hB.2.1 hB.2.2 (x4.lt (P3.ext.lt b2))
  have r5 : Reach R E c5 := .call r4 (.range_gate _ _) h5
  obtain ⟨-, -, -, -, -, x5, -, -⟩ := rangeGate_fwd (Reach.wf r4) h5
  have x25 := (P3.ext.trans x4).trans x5
  obtain ⟨o2, c6, h6⟩ := arithmeticGate_run (Reach.wf r5) (g := { (ArithGate.new : ArithGate F) with
        witness := some (c0.variables.length, c1.variables.length, some c2.zero_var), mul := 1,
        pi := some (-t.d) }) rfl (x25.lt a2) (x25.lt b2)
        (fun x hx => by cases hx; exact x25.lt (Reach.wf r2).zero) (fun p hp => by cases hp)
  have r6 : Reach R E c6 := .call r5 (.arithmetic_gate _) h6
  obtain ⟨s, hs, hs'⟩ := C125_total hS hT hST t.e
  obtain ⟨c7, e7, n7⟩ := addInput_run (Reach.wf r6) s
  have r7 : Reach R E c7 := .call r6 (.add_input _) e7
  have hrep : RepOk R := hR ▸ hT.repOk
  obtain ⟨p, c8, h8⟩ := (C98_runs hrep.mod_le h0 r7 c6.variables.length gen).2 ⟨by rw [n7.vars]; simp, by
    rw [n7.val]
    have : R.toNat s = S.toNat t.e := by rw [hR]; exact hs'
    rw [this]
    have := hS.lt t.e
    omega⟩
  obtain ⟨-, -, px, py, -⟩ := fixedBase_struct (Reach.wf r7) h8
  obtain ⟨c9, h9⟩ := assertEqualPublicPoint_run (Reach.wf (.call r7 (.fixed_base_scalar_mul _ _) h8)) t.f px py
  refine ⟨c9, ?_⟩
  unfold simpleGadget
  exact bindC_ok.2 ⟨_, _, e1, bindC_ok.2 ⟨_, _, e2, bindC_ok.2 ⟨_, _, rfl, bindC_ok.2 ⟨_, _, h3',
    bindC_ok.2 ⟨_, _, h4, bindC_ok.2 ⟨_, _, h5, bindC_ok.2 ⟨_, _, h6,
    bindC_ok.2 ⟨_, _, liftC_ok.2 ⟨hs, rfl⟩, bindC_ok.2 ⟨_, _, e7,
    bindC_ok.2 ⟨(), _, liftC_ok.2 ⟨if_pos hg, rfl⟩, bindC_ok.2 ⟨_, _, h8,
    bindC_ok.2 ⟨_, _, h9, rfl⟩⟩⟩⟩⟩⟩⟩⟩⟩⟩⟩⟩

/-- What the circuit enforces. -/
theorem simple_sound (hE : EdComplete E) {t : SimpleValues F K} {c0 c : Composer F} {x : Except PErr Unit}
    (h0 : Reach R E c0) (h : simpleGadget S T R E gen kA kB t c0 = .ok (x, c))
    {tab : List (F × F × F × F)} {N : ℕ} {pub : ℕ → F} {w : WireData → F} {v : Var → F}
    (hs : Sat E tab N c pub w v) :
    ∃ (A B : ℕ) (s : ℤ), A < 2 ^ kA ∧ B < 2 ^ kB ∧ |s| < 2 ^ R.modBits ∧
      (A : F) + B = -pub c0.n ∧ (A : F) * B = -pub (c0.n + 1 + rangeRows kA + rangeRows kB) ∧
      edMulZ E s gen = (-pub (c0.n + 7 + rangeRows kA + rangeRows kB + R.modBits),
        -pub (c0.n + 8 + rangeRows kA + rangeRows kB + R.modBits)) ∧
      v c0.variables.length = (A : F) ∧ v (c0.variables.length + 1) = (B : F) := by
  obtain ⟨-, c1, c2, c3, c4, c5, c6, c7, c8, o1, o2, s, p, ⟨e1, n1⟩, ⟨e2, n2⟩, h3, h4, h5, h6, hs', ⟨e7, n7⟩,
    hg, h8, h9, r1, r2, r3, r4, r5, r6, r7, r8⟩ := simple_steps h0 h
  obtain ⟨-, x9, -, -, -, -, -, s9⟩ := assertEqualPublicPoint_fwd (Reach.wf r8) h9
  have S8 := x9.sat hs
  obtain ⟨-, x8, -, -, -⟩ := fixedBase_struct (Reach.wf r7) h8
  have S7 := x8.sat S8
  have S6 := n7.ext.sat S7
  obtain ⟨-, -, P6⟩ := arithmeticGate_fwd_some (Reach.wf r5) rfl h6
  have S5 := P6.ext.sat S6
  obtain ⟨-, -, -, -, -, x5, -, -⟩ := rangeGate_fwd (Reach.wf r4) h5
  have S4 := x5.sat S5
  obtain ⟨-, -, -, -, -, x4, -, -⟩ := rangeGate_fwd (Reach.wf r3) h4
  have S3 := x4.sat S4
  obtain ⟨-, -, P3⟩ := arithmeticGate_fwd_some (Reach.wf r2) rfl h3
  have S2 := P3.ext.sat S3
  have z : v c2.zero_var = 0 := C85_zero_var r2 S2
  obtain ⟨A, hA, vA⟩ := ((C91_range_gate (E := E) r3 _ kA).2 _ h4).1 _ _ _ _ _ _ S4
  obtain ⟨B, hB, vB⟩ := ((C91_range_gate (E := E) r4 _ kB).2 _ h5).1 _ _ _ _ _ _ S5
  obtain ⟨q, hq, -, hm⟩ := C127_fixed_base_sound hE r7 (by
    have := hg
    unfold EdCurve.check at this
    rw [Bool.and_eq_true, decide_eq_true_eq] at this
    exact this.1) h8 S8
  have k2 : c2.n = c0.n := by rw [n2.n, n1.n]
  have k3 := (Grow.arith _ _ _ _ h3).1
  have k4 := (Grow.range R _ kA _ _ _ h4).1
  have k5 := (Grow.range R _ kB _ _ _ h5).1
  have k6 := (Grow.arith _ _ _ _ h6).1
  have k7 := n7.n
  have k8 := (Grow.fixedBase R E _ _ _ _ _ h8).1
  have q3 := (C88_arithmetic_gate_output r2 rfl h3).2.2.1 _ _ _ _ _ _ S3
  have q6 := (C88_arithmetic_gate_output r5 rfl h6).2.2.1 _ _ _ _ _ _ S6
  have q9 := s9 _ _ _ _ _ _ hs
  have l1 : c1.variables.length = c0.variables.length + 1 := by rw [n1.vars]; simp
  refine ⟨A, B, q, hA, hB, hq, ?_, ?_, ?_, vA, l1 ▸ vB⟩
  · simp only [C88_sum, ArithGate.new, vA, vB, z, k2] at q3
    linear_combination q3
  · have e : c0.n + 1 + rangeRows kA + rangeRows kB = c5.n := by unfold rangeRows; omega
    simp only [C88_sum, ArithGate.new, vA, vB, z] at q6
    rw [e]
    linear_combination q6
  · have e : c0.n + 7 + rangeRows kA + rangeRows kB + R.modBits = c8.n := by unfold rangeRows; omega
    have e' : c0.n + 8 + rangeRows kA + rangeRows kB + R.modBits = c8.n + 1 := by unfold rangeRows; omega
    rw [e, e', ← q9, hm]

theorem arithmeticGate_pub {c c' : Composer F} (hw : WF c) {g : ArithGate F} {l r o x : Var}
    (hg : g.witness = some (l, r, some o)) (h : arithmeticGate g c = .ok (x, c')) :
    ownPub c' c.n = g.pi.getD 0 := by
  unfold arithmeticGate at h
  rw [hg] at h
  simp only at h
  obtain ⟨z, c1, hz, h1x⟩ := bindC_ok.1 h
  obtain ⟨rfl, rfl⟩ := zeroVar_ok.1 hz
  obtain ⟨u, c2, hp, h2x⟩ := bindC_ok.1 h1x
  obtain ⟨o', c3, ho, h3x⟩ := bindC_ok.1 h2x
  obtain ⟨rfl, rfl⟩ := pureC_ok.1 ho
  obtain ⟨u', c4, hq, h4x⟩ := bindC_ok.1 h3x
  obtain ⟨rfl, rfl⟩ := pureC_ok.1 h4x
  exact (addedGate_fwd hw (not_usesNext_arith _ _ _ _ _ _ _ _ _ _ _) (bindC_ok.2 ⟨u, _, hp, hq⟩)).2.pub

/-- The own values: the public inputs, and when they satisfy the circuit. -/
theorem simple_own [Field K] (hE : EdComplete E) (hS : PrimeOk S) (hT : PrimeOk T) (hR : R = T.fieldRep)
    (hkA : kA < R.modBits) (hkB : kB < R.modBits)
    {t : SimpleValues F K} {c0 c : Composer F} {x : Except PErr Unit}
    (h0 : Reach R E c0) (hs : OwnSat E c0) (h : simpleGadget S T R E gen kA kB t c0 = .ok (x, c)) :
    ownPub c c0.n = -t.c ∧ ownPub c (c0.n + 1 + rangeRows kA + rangeRows kB) = -t.d ∧
    (ownPub c (c0.n + 7 + rangeRows kA + rangeRows kB + R.modBits),
      ownPub c (c0.n + 8 + rangeRows kA + rangeRows kB + R.modBits)) = (-t.f.1, -t.f.2) ∧
    (OwnSat E c ↔ t.a + t.b = t.c ∧ t.a * t.b = t.d ∧ R.toNat t.a < 2 ^ kA ∧ R.toNat t.b < 2 ^ kB ∧
      edMul E (S.toNat t.e) gen = t.f) := by
  have hrep : RepOk R := hR ▸ hT.repOk
  obtain ⟨-, c1, c2, c3, c4, c5, c6, c7, c8, o1, o2, s, p, ⟨e1, n1⟩, ⟨e2, n2⟩, h3, h4, h5, h6, hs', ⟨e7, n7⟩,
    hg, h8, h9, r1, r2, r3, r4, r5, r6, r7, r8⟩ := simple_steps h0 h
  obtain ⟨-, x9, -, -, v9, -, o9, s9⟩ := assertEqualPublicPoint_fwd (Reach.wf r8) h9
  obtain ⟨-, x8, -, -, -⟩ := fixedBase_struct (Reach.wf r7) h8
  obtain ⟨-, v6, P6⟩ := arithmeticGate_fwd_some (Reach.wf r5) rfl h6
  obtain ⟨-, -, -, -, -, x5, -, y5⟩ := rangeGate_fwd (Reach.wf r4) h5
  obtain ⟨-, -, -, -, -, x4, -, y4⟩ := rangeGate_fwd (Reach.wf r3) h4
  obtain ⟨-, v3, P3⟩ := arithmeticGate_fwd_some (Reach.wf r2) rfl h3
  have k2 : c2.n = c0.n := by rw [n2.n, n1.n]
  have k3 := (Grow.arith _ _ _ _ h3).1
  have k4 := (Grow.range R _ kA _ _ _ h4).1
  have k5 := (Grow.range R _ kB _ _ _ h5).1
  have k6 := (Grow.arith _ _ _ _ h6).1
  have k7 := n7.n
  have k8 := (Grow.fixedBase R E _ _ _ _ _ h8).1
  have l1 : c0.variables.length < c1.variables.length := by rw [n1.vars]; simp
  have l2 : c1.variables.length < c2.variables.length := by rw [n2.vars]; simp
  -- values
  have a2 : ownV c2 c0.variables.length = t.a := by rw [n2.ext.ownV l1, n1.val]
  have b2 : ownV c2 c1.variables.length = t.b := n2.val
  have x23 := P3.ext
  have x24 := x23.trans x4
  have x25 := x24.trans x5
  have x26 := x25.trans P6.ext
  have a3 : ownV c3 c0.variables.length = t.a := by rw [x23.ownV (n2.ext.lt l1), a2]
  have b4 : ownV c4 c1.variables.length = t.b := by rw [x24.ownV l2, b2]
  have a5 : ownV c5 c0.variables.length = t.a := by rw [x25.ownV (n2.ext.lt l1), a2]
  have b5 : ownV c5 c1.variables.length = t.b := by rw [x25.ownV l2, b2]
  have x89 := x8.trans x9
  have x69 := n7.ext.trans x89
  have x29 := x26.trans x69
  have aN : ownV c c0.variables.length = t.a := by rw [x29.ownV (n2.ext.lt l1), a2]
  have bN : ownV c c1.variables.length = t.b := by rw [x29.ownV l2, b2]
  have hsv : R.toNat s = S.toNat t.e := by
    rcases C125_from_embedded hS hT t.e with ⟨y, g1, g2, -⟩ | ⟨g1, -⟩
    · rw [hs'] at g1
      cases g1
      rw [hR]; exact g2
    · rw [hs'] at g1; cases g1
  have hgc : OnCurve E gen := by
    have := hg
    unfold EdCurve.check at this
    rw [Bool.and_eq_true, decide_eq_true_eq] at this
    exact this.1
  obtain ⟨m8, q8⟩ := C127_fixed_base_own hE hrep r7 hgc h8
  rw [n7.val, hsv] at m8
  -- public inputs
  have p3 : ownPub c3 c2.n = -t.c := arithmeticGate_pub (Reach.wf r2) rfl h3
  have p6 : ownPub c6 c5.n = -t.d := arithmeticGate_pub (Reach.wf r5) rfl h6
  have p9 := assertEqualPublicPoint_pub (Reach.wf r8) h9
  have x39 : Ext c3 c := ((x4.trans x5).trans P6.ext).trans x69
  have u1 : ownPub c c0.n = -t.c := by
    rw [x39.appendOnly.publicInputs _ (by omega), ← k2, p3]
  have e5 : c0.n + 1 + rangeRows kA + rangeRows kB = c5.n := by unfold rangeRows; omega
  have e8 : c0.n + 7 + rangeRows kA + rangeRows kB + R.modBits = c8.n := by unfold rangeRows; omega
  have e8' : c0.n + 8 + rangeRows kA + rangeRows kB + R.modBits = c8.n + 1 := by unfold rangeRows; omega
  have u2 : ownPub c (c0.n + 1 + rangeRows kA + rangeRows kB) = -t.d := by
    rw [e5, x69.appendOnly.publicInputs _ (by omega), p6]
  refine ⟨u1, u2, ?_, fun hN => ?_, fun ⟨g1, g2, g3, g4, g5⟩ => ?_⟩
  · rw [e8, e8']; exact p9
  · have H := hN c.n (le_refl _)
    obtain ⟨A, B, q, hA, hB, -, d1, d2, -, vA, vB⟩ := simple_sound hE h0 h H
    have lab : c1.variables.length = c0.variables.length + 1 := by rw [n1.vars]; simp
    rw [aN] at vA
    rw [← lab, bN] at vB
    rw [u1, ← vA, ← vB, neg_neg] at d1
    rw [u2, ← vA, ← vB, neg_neg] at d2
    have w9 := s9 _ _ _ _ _ _ H
    have w9' : ownV c = ownV c8 := by funext y; unfold ownV; rw [v9]
    simp only [Prod.mk.injEq] at p9
    rw [w9', m8, p9.1, p9.2, neg_neg, neg_neg] at w9
    refine ⟨d1, d2, ?_, ?_, w9⟩
    · rw [vA, hrep.own A (lt_of_lt_of_le hA (Nat.pow_le_pow_right (by omega) (by omega)))]; exact hA
    · rw [vB, hrep.own B (lt_of_lt_of_le hB (Nat.pow_le_pow_right (by omega) (by omega)))]; exact hB
  · have s1 := n1.own E hs
    have s2 := n2.own E s1
    have s3 := (C88_arithmetic_gate_output (E := E) r2 rfl h3).2.2.2 s2 (by
      simp only [C88_sum, ArithGate.new, a2, b2, (Reach.wf r2).zeroVal s2, Option.getD_some]
      linear_combination g1)
    have s4 := y4 hrep E s3 (by rw [a3]; exact g3)
    have s5 := y5 hrep E s4 (by rw [b4]; exact g4)
    have z5 : ownV c5 c2.zero_var = 0 := by rw [x25.ownV (Reach.wf r2).zero, (Reach.wf r2).zeroVal s2]
    have s6 := (C88_arithmetic_gate_output (E := E) r5 rfl h6).2.2.2 s5 (by
      simp only [C88_sum, ArithGate.new, a5, b5, z5, Option.getD_some]
      linear_combination g2)
    have s7 := n7.own E s6
    exact o9 E (q8 s7) (m8.trans g5)

theorem sameArith (wit : Option (Var × Var × Option Var)) (mul : F) (add : F × F) (p p' : F) :
    SameCall R E (arithmeticGate ⟨wit, none, mul, add, -1, 0, some p⟩)
      (arithmeticGate ⟨wit, none, mul, add, -1, 0, some p'⟩) :=
  .arithmetic_gate (R := R) (E := E) ⟨wit, none, mul, add, -1, 0, some p⟩ (pi' := some p') rfl

theorem simple_same (t t' : SimpleValues F K) :
    SameGadget R E (simpleGadget S T R E gen kA kB t) (simpleGadget S T R E gen kA kB t') := by
  unfold simpleGadget
  exact .call (.add_input _ _) fun _ => .call (.add_input _ _) fun _ => .zero_var fun _ =>
    .call (sameArith _ 0 (1, 1) _ _) fun _ => .call (.same (.range_gate _ _)) fun _ =>
    .call (.same (.range_gate _ _)) fun _ => .call (sameArith _ 1 (0, 0) _ _) fun _ =>
    .outside _ _ fun _ _ => .call (.add_input _ _) fun _ => .outside_same _ fun _ =>
    .call (.same (.fixed_base_scalar_mul _ _)) fun _ =>
    .call (.assert_equal_public_point _ _ _) fun _ => .done _

end Plonk

variable {F K : Type} [Field F] [DecidableEq F] [Field K]
  {S : PrimeRep K} {T : PrimeRep F} {R : FieldRep F} {E : EdCurve F} {gen : F × F} {kA kB : ℕ}

/-- What the comments of the example say: the sum, the product, the two ranges and the multiple of the
generator. -/
def C130_claim (S : PrimeRep K) (R : FieldRep F) (E : EdCurve F) (gen : F × F) (kA kB : ℕ)
    (t : SimpleValues F K) : Prop :=
  t.a + t.b = t.c ∧ t.a * t.b = t.d ∧ R.toNat t.a < 2 ^ kA ∧ R.toNat t.b < 2 ^ kB ∧
    edMul E (S.toNat t.e) gen = t.f

/-- The gadget runs for all values, with any even bit sizes, when the scalar field of the curve is not
larger than the base field; it takes the rows of two range gates and of the multiplication and twelve
more, and declares four public inputs. -/
theorem C130_runs (hS : PrimeOk S) (hT : PrimeOk T) (hST : S.modulus ≤ T.modulus)
    (hR : R = T.fieldRep) (h3 : 3 * S.modulus ≤ 2 ^ (R.modBits + 1)) (h0 : 0 < R.modBits)
    (hA : kA % 2 = 0 ∧ 0 < kA ∧ kA ≤ R.bigBits) (hB : kB % 2 = 0 ∧ 0 < kB ∧ kB ≤ R.bigBits)
    (hg : E.check gen = true) (t : SimpleValues F K) (r : (F × F × F × F) × (F × F × F × F)) :
    ∃ c, Filled (simpleCirc S T R E gen kA kB t) r c ∧
      c.n = (kA + 7) / 8 + (kB + 7) / 8 + R.modBits + 17 ∧ c.lookup_table = [] ∧
      c.intended_pi_pos = simplePos R kA kB := by
  obtain ⟨c0, e0, r0, -, n0, -⟩ := C85_new (R := R) (E := E) r.1 r.2
  obtain ⟨c, h⟩ := simple_run hS hT hST hR h3 h0 hA hB hg t r0
  obtain ⟨g1, g2, g3⟩ := simple_grow t _ _ _ h
  obtain ⟨-, b2, b3⟩ := newComposer_rows e0
  refine ⟨c, ⟨c0, e0, h⟩, by rw [g1, n0]; unfold rangeRows; omega, by rw [g2, b2], ?_⟩
  rw [g3, b3, n0]
  have e1 : 4 + (1 + rangeRows kA + rangeRows kB) = 5 + rangeRows kA + rangeRows kB := by omega
  have e2 : 4 + (7 + rangeRows kA + rangeRows kB + R.modBits)
    = 11 + rangeRows kA + rangeRows kB + R.modBits := by omega
  have e3 : 4 + (8 + rangeRows kA + rangeRows kB + R.modBits)
    = 12 + rangeRows kA + rangeRows kB + R.modBits := by omega
  simp only [List.map_cons, List.map_nil, List.nil_append, simplePos, e1, e2, e3, Nat.add_zero]

/-- The public inputs are the negated sum, product and coordinates, and the composer is satisfied
exactly when the values are as the comments of the example say. -/
theorem C130_satisfied (hE : EdComplete E) (hS : PrimeOk S) (hT : PrimeOk T) (hR : R = T.fieldRep)
    (hkA : kA < R.modBits) (hkB : kB < R.modBits) {t : SimpleValues F K}
    {r : (F × F × F × F) × (F × F × F × F)} {c : Composer F}
    (hc : Filled (simpleCirc S T R E gen kA kB t) r c) :
    (simplePos R kA kB).map (ownPub c) = [-t.c, -t.d, -t.f.1, -t.f.2] ∧
      (OwnSat E c ↔ C130_claim S R E gen kA kB t) := by
  obtain ⟨c0, e0, h⟩ := hc
  obtain ⟨c0', e0', r0, hs, n0, -⟩ := C85_new (R := R) (E := E) r.1 r.2
  rw [e0] at e0'
  cases e0'
  obtain ⟨u1, u2, u3, u4⟩ := simple_own hE hS hT hR hkA hkB r0 hs h
  simp only [Prod.mk.injEq] at u3
  refine ⟨?_, u4⟩
  simp only [simplePos, List.map_cons, List.map_nil]
  rw [n0] at u1 u2 u3
  have e1 : 4 + 1 + rangeRows kA + rangeRows kB = 5 + rangeRows kA + rangeRows kB := by omega
  have e2 : 4 + 7 + rangeRows kA + rangeRows kB + R.modBits
    = 11 + rangeRows kA + rangeRows kB + R.modBits := by omega
  have e3 : 4 + 8 + rangeRows kA + rangeRows kB + R.modBits
    = 12 + rangeRows kA + rangeRows kB + R.modBits := by omega
  rw [e1] at u2
  rw [e2, e3] at u3
  rw [u1, u2, u3.1, u3.2]

/-- Whatever satisfies the circuit with public inputs `pub`, the negated first two are the sum and the
product of numbers below the two bounds, and the negated last two are the coordinates of a multiple of the
generator. -/
theorem C130_sound (hE : EdComplete E) {t : SimpleValues F K} {r : (F × F × F × F) × (F × F × F × F)}
    {c : Composer F} (hc : Filled (simpleCirc S T R E gen kA kB t) r c)
    {tab : List (F × F × F × F)} {N : ℕ} {pub : ℕ → F} {w : WireData → F} {v : Var → F}
    (hs : Sat E tab N c pub w v) :
    ∃ (A B : ℕ) (s : ℤ), A < 2 ^ kA ∧ B < 2 ^ kB ∧ |s| < 2 ^ R.modBits ∧
      (simplePos R kA kB).map (fun i => -pub i)
        = [(A : F) + B, (A : F) * B, (edMulZ E s gen).1, (edMulZ E s gen).2] := by
  obtain ⟨c0, e0, h⟩ := hc
  obtain ⟨c0', e0', r0, -, n0, -⟩ := C85_new (R := R) (E := E) r.1 r.2
  rw [e0] at e0'
  cases e0'
  obtain ⟨A, B, s, hA, hB, hq, u1, u2, u3, -⟩ := simple_sound hE r0 h hs
  refine ⟨A, B, s, hA, hB, hq, ?_⟩
  simp only [simplePos, List.map_cons, List.map_nil]
  rw [n0] at u1 u2 u3
  have e1 : 4 + 1 + rangeRows kA + rangeRows kB = 5 + rangeRows kA + rangeRows kB := by omega
  have e2 : 4 + 7 + rangeRows kA + rangeRows kB + R.modBits
    = 11 + rangeRows kA + rangeRows kB + R.modBits := by omega
  have e3 : 4 + 8 + rangeRows kA + rangeRows kB + R.modBits
    = 12 + rangeRows kA + rangeRows kB + R.modBits := by omega
  rw [e1] at u2
  rw [e2, e3] at u3
  rw [u1, u2, u3]

theorem Plonk.simple_bound {c : Composer F} (hA : 0 < kA ∧ kA ≤ 64) (hB : 0 < kB ∧ kB ≤ 64)
    (hb : 238 ≤ R.modBits ∧ R.modBits ≤ 256) (hn : c.n = (kA + 7) / 8 + (kB + 7) / 8 + R.modBits + 17)
    (ht : c.lookup_table = []) : circuitBound c = 512 := by
  unfold circuitBound
  rw [ht, List.length_nil, Nat.max_zero]
  have h9 : Nat.clog 2 c.n = 9 := by
    have u1 : Nat.clog 2 c.n ≤ 9 := Nat.clog_le_of_le_pow (by omega)
    have u2 : ¬ Nat.clog 2 c.n ≤ 8 := fun h => by
      have := (Nat.clog_le_iff_le_pow (by norm_num)).1 h
      omega
    omega
  rw [h9]

/-- The program of the example and the test of circuit.rs: over a field of 238 to 256 bits with domains
of size 4096, with parameters of degree at least 512, `compile` with any values succeeds (the code uses
the default ones), and then for all values that are as the comments say, `gen_proof` and `verify_proof`
succeed, for all but few values of each challenge. The bit sizes are 6 and 4 in the example, 64 and 32
in the test. -/
theorem C130_accepts {PF : PField F} {P : PCS F} {d m : ℕ} (hK : PFieldOk PF)
    (h12 : 12 ≤ PF.fft.twoAdicity) (hP : PcsComplete P d) (hd : 512 ≤ d) (hm : 512 ≤ m)
    (hE : EdComplete E) (hg : E.check gen = true) (hS : PrimeOk S) (hT : PrimeOk T)
    (hST : S.modulus ≤ T.modulus) (hR : R = T.fieldRep) (h3 : 3 * S.modulus ≤ 2 ^ (R.modBits + 1))
    (hb : 238 ≤ R.modBits ∧ R.modBits ≤ 256)
    (hA : kA % 2 = 0 ∧ 0 < kA ∧ kA ≤ 64) (hB : kB % 2 = 0 ∧ 0 < kB ∧ kB ≤ 64)
    (t0 t : SimpleValues F K) (ht : C130_claim S R E gen kA kB t)
    (rp rv r r' rn : (F × F × F × F) × (F × F × F × F)) (label : String) :
    ∃ pk vk pi, circuitCompile PF P m (simpleCirc S T R E gen kA kB t0) rp rv
        = .ok (pk, vk, simplePos R kA kB) ∧
      (simplePos R kA kB).map (piAt pi) = [-t.c, -t.d, -t.f.1, -t.f.2] ∧
      Mostly 2 fun zeta : F => ∀ beta, Mostly 2049 fun gamma : F =>
      Mostly 3 fun delta : F => Mostly 1027 fun epsilon : F =>
      ∀ alpha range logic fixed var lookup, Mostly 512 fun z : F => ∀ aw saw,
        let ro : Transcript F P.Comm → F := coins [zeta, beta, gamma, delta, epsilon, alpha,
          range, logic, fixed, var, lookup, z, aw, saw]
        ∃ pr, circuitProve PF E P ro m (simpleCirc S T R E gen kA kB t) pk label r r' = .ok (pr, pi) ∧
          circuitVerify PF E P ro m vk pr pi label rn = .ok () := by
  have hbig : R.modBits ≤ R.bigBits := by rw [hR]; exact hT.repOk.mod_le
  have run := fun t r => C130_runs (R := R) (E := E) (gen := gen) (kA := kA) (kB := kB) hS hT hST hR h3
    (by omega) ⟨hA.1, hA.2.1, by omega⟩ ⟨hB.1, hB.2.1, by omega⟩ hg t r
  obtain ⟨cp, fp, -⟩ := run t0 rp
  obtain ⟨cv, fv, -⟩ := run t0 rv
  obtain ⟨c, fc, hn, ht', hpos⟩ := run t r
  have hbound := Plonk.simple_bound hA.2 hB.2 hb hn ht'
  have hcl := C130_satisfied hE hS hT hR (by omega) (by omega) fc
  have key := C129_compile_once (K := PF) (P := P) (d := d) (m := m) (n := 512)
    hK hP (R := R) (E := E) (C := simpleCirc S T R E gen kA kB t0)
    (C' := simpleCirc S T R E gen kA kB t) (simple_same t0 t)
    fp fv fc (hcl.2.2 ht) hbound.symm hd rfl (le_refl _) hm (r' := r') (rn := rn)
    ((Nat.clog_le_of_le_pow (by norm_num)).trans h12) (by rw [ht']; exact List.nodup_nil) label
  obtain ⟨pk, vk, k1, k2⟩ := key
  rw [hpos] at k1
  rw [ht'] at k2
  exact ⟨pk, vk, c.public_inputs, k1, hcl.1, k2⟩

/-- And against every prover: when the public inputs are not as some numbers below the bounds and some
multiple of the generator make them, `verify_proof` rejects, for all but few values of each challenge
(under the conditions of C106 on the commitments and on the selector evaluations). -/
theorem C130_rejects {PF : PField F} {P : PCS F} {d m : ℕ} (hK : PFieldOk PF) (hP : PcsSound P d)
    (hE : EdComplete E) (hS : PrimeOk S) (hT : PrimeOk T)
    (hST : S.modulus ≤ T.modulus) (hR : R = T.fieldRep) (h3 : 3 * S.modulus ≤ 2 ^ (R.modBits + 1))
    (hg : E.check gen = true) (hb : 238 ≤ R.modBits ∧ R.modBits ≤ 256)
    (hA : kA % 2 = 0 ∧ 0 < kA ∧ kA ≤ 64) (hB : kB % 2 = 0 ∧ 0 < kB ∧ kB ≤ 64)
    (t0 : SimpleValues F K) (rp rv rn : (F × F × F × F) × (F × F × F × F)) {pk : PKey F}
    {vk : VKey (trimmed P (2 ^ 9))} {pos : List ℕ}
    (hcomp : circuitCompile PF P m (simpleCirc S T R E gen kA kB t0) rp rv = .ok (pk, vk, pos))
    (label : String) {pi : List (ℕ × F)} (hpi : Canonical pi)
    (hpos : ∀ e ∈ pi, e.1 ∈ simplePos R kA kB) (wa wb wc wd : P.Comm)
    (hbad : ¬ ∃ (A B : ℕ) (s : ℤ), A < 2 ^ kA ∧ B < 2 ^ kB ∧ |s| < 2 ^ R.modBits ∧
      (simplePos R kA kB).map (fun i => -piAt pi i)
        = [(A : F) + B, (A : F) * B, (edMulZ E s gen).1, (edMulZ E s gen).2]) :
    Mostly 1536 fun zeta : F => ∀ f h1 h2,
    Mostly 2048 fun beta : F => Mostly 2048 fun gamma : F =>
    Mostly 2049 fun delta : F => Mostly 1024 fun epsilon : F => ∀ z z2,
    Mostly 2 fun alpha : F => Mostly 7 fun range : F => Mostly 9 fun logic : F =>
    Mostly 7 fun fixed : F => Mostly 5 fun var : F => Mostly 3 fun lookup : F => ∀ t,
    Mostly (10 * max d 512) fun zz : F => ∀ ev o1 o2 aw saw,
      HonestSelectors (trimmed_sound hP (2 ^ 9)) vk ev zz →
      circuitVerify PF E P (coins [zeta, beta, gamma, delta, epsilon, alpha, range, logic, fixed, var,
        lookup, zz, aw, saw]) m vk (s' := 2 ^ 9)
        ⟨wa, wb, wc, wd, z, f, h1, h2, z2, t, o1, o2, ev⟩ pi label rn ≠ .ok () := by
  have hbig : R.modBits ≤ R.bigBits := by rw [hR]; exact hT.repOk.mod_le
  obtain ⟨c, fc, hn, ht', hp'⟩ := C130_runs (R := R) (E := E) (gen := gen) (kA := kA) (kB := kB) hS hT hST hR h3
    (by omega) ⟨hA.1, hA.2.1, by omega⟩ ⟨hB.1, hB.2.1, by omega⟩ hg t0 rv
  have hbound := Plonk.simple_bound hA.2 hB.2 hb hn ht'
  have hps : pos = simplePos R kA kB := by
    rw [← hp']
    obtain ⟨-, cp, cv, cp', cv', trp, trv, f1, f2, g1, g2, rfl⟩ := compile_inv hcomp
    obtain rfl := f2.uniq fc
    obtain ⟨D, sel, sig, tab, b1, b2, b3, -⟩ := preprocessVerifier_inv hK (SameCircuit.refl cv) g2
    rw [b3]; rfl
  exact C110_sound (R := R) hK hP (C := simpleCirc S T R E gen kA kB t0)
    (fun c x c' => (gadget_builds (simple_same (R := R) (E := E) t0 t0)).1 c x c') fc hbound.symm hcomp label hpi
    (by rw [hps]; exact hpos) wa wb wc wd fun ⟨x, hx⟩ => hbad (C130_sound hE fc hx)

/-- A deviation of the documentation of the trait: it sets up parameters of degree `1 << 10`
(plonk-core/src/circuit.rs:161-163) and compiles a circuit of padded size `1 << 11` with them; `compile`
does not return keys, whatever the circuit holds. -/
theorem C130_documentation {PF : PField F} {P : PCS F} (t : SimpleValues F K)
    (rp rv : (F × F × F × F) × (F × F × F × F)) :
    ∀ k, circuitCompile PF P (2 ^ 10) (documentedCirc S T R E gen t) rp rv ≠ .ok k := by
  rintro ⟨pk, vk, pos⟩ h
  have := (compile_inv h).1
  change 2 ^ 11 ≤ 2 ^ 10 at this
  norm_num at this

/-- With parameters of degree `1 << 11` the documented circuit works: as C130_accepts, with the numbers of
the documentation. -/
theorem C130_documentation_repaired {PF : PField F} {P : PCS F} {d m : ℕ} (hK : PFieldOk PF)
    (h12 : 12 ≤ PF.fft.twoAdicity) (hP : PcsComplete P d) (hd : 512 ≤ d) (hm : 2 ^ 11 ≤ m)
    (hE : EdComplete E) (hg : E.check gen = true) (hS : PrimeOk S) (hT : PrimeOk T)
    (hST : S.modulus ≤ T.modulus) (hR : R = T.fieldRep) (h3 : 3 * S.modulus ≤ 2 ^ (R.modBits + 1))
    (hb : 238 ≤ R.modBits ∧ R.modBits ≤ 256)
    (t0 t : SimpleValues F K) (ht : C130_claim S R E gen 64 32 t)
    (rp rv r r' rn : (F × F × F × F) × (F × F × F × F)) (label : String) :
    ∃ pk vk pi, circuitCompile PF P m (documentedCirc S T R E gen t0) rp rv
        = .ok (pk, vk, simplePos R 64 32) ∧
      (simplePos R 64 32).map (piAt pi) = [-t.c, -t.d, -t.f.1, -t.f.2] ∧
      Mostly 2 fun zeta : F => ∀ beta, Mostly 2049 fun gamma : F =>
      Mostly 3 fun delta : F => Mostly 1027 fun epsilon : F =>
      ∀ alpha range logic fixed var lookup, Mostly 512 fun z : F => ∀ aw saw,
        let ro : Transcript F P.Comm → F := coins [zeta, beta, gamma, delta, epsilon, alpha,
          range, logic, fixed, var, lookup, z, aw, saw]
        ∃ pr, circuitProve PF E P ro m (documentedCirc S T R E gen t) pk label r r' = .ok (pr, pi) ∧
          circuitVerify PF E P ro m vk pr pi label rn = .ok () := by
  have hbig : R.modBits ≤ R.bigBits := by rw [hR]; exact hT.repOk.mod_le
  have run := fun t r => C130_runs (R := R) (E := E) (gen := gen) (kA := 64) (kB := 32) hS hT hST hR h3
    (by omega) ⟨by norm_num, by norm_num, by omega⟩ ⟨by norm_num, by norm_num, by omega⟩ hg t r
  obtain ⟨cp, fp, -⟩ := run t0 rp
  obtain ⟨cv, fv, -⟩ := run t0 rv
  obtain ⟨c, fc, hn, ht', hpos⟩ := run t r
  have hbound := Plonk.simple_bound (kA := 64) (kB := 32) (by norm_num) (by norm_num) hb hn ht'
  have hcl := C130_satisfied hE hS hT hR (by omega) (by omega) fc
  have key := C129_compile_once (K := PF) (P := P) (d := d) (m := m) (n := 512)
    hK hP (R := R) (E := E) (C := documentedCirc S T R E gen t0)
    (C' := documentedCirc S T R E gen t) (simple_same t0 t)
    fp fv fc (hcl.2.2 ht) hbound.symm hd rfl (by show 512 ≤ 2 ^ 11; norm_num) hm (r' := r') (rn := rn)
    ((Nat.clog_le_of_le_pow (by norm_num)).trans h12) (by rw [ht']; exact List.nodup_nil) label
  obtain ⟨pk, vk, k1, k2⟩ := key
  rw [hpos] at k1
  rw [ht'] at k2
  exact ⟨pk, vk, c.public_inputs, k1, hcl.1, k2⟩

/-- The hypotheses hold over BLS12-381 and its embedded curve, for every subgroup test that accepts the
generator and every scalar field `S` of at most 252 bits. -/
theorem C130_bls12_381 (hS : PrimeOk S) (hSm : S.modulus ≤ 2 ^ 252) (sub : Fr381 → Fr381 → Bool)
    (hsub : sub jubjubX jubjubY = true) :
    PFieldOk (pfieldOf r381 7 32) ∧ 12 ≤ (pfieldOf r381 7 32).fft.twoAdicity ∧ EdComplete (ed381 sub) ∧
    (ed381 sub).check (((jubjubX : ℕ) : Fr381), ((jubjubY : ℕ) : Fr381)) = true ∧
    PrimeOk (primeRepOf r381 4) ∧ S.modulus ≤ (primeRepOf r381 4).modulus ∧
    3 * S.modulus ≤ 2 ^ ((primeRepOf r381 4).fieldRep.modBits + 1) ∧
    238 ≤ (primeRepOf r381 4).fieldRep.modBits ∧ (primeRepOf r381 4).fieldRep.modBits ≤ 256 := by
  have hb : (primeRepOf r381 4).fieldRep.modBits = 255 := C126_plonk_field.2.2.2.2.2.2.1
  refine ⟨C126_plonk_field.1, by show 12 ≤ 32; omega, (C127_curves sub fun _ _ => true).1, ?_,
    primeOk_of (by decide +kernel), ?_, ?_, ?_, ?_⟩
  · unfold EdCurve.check
    rw [Bool.and_eq_true, decide_eq_true_eq]
    exact ⟨jubjub_on sub, hsub⟩
  · refine hSm.trans ?_
    show 2 ^ 252 ≤ r381
    decide +kernel
  · rw [hb]
    calc 3 * S.modulus ≤ 3 * 2 ^ 252 := Nat.mul_le_mul_left 3 hSm
      _ ≤ 2 ^ (255 + 1) := by norm_num
  · rw [hb]; omega
  · rw [hb]; omega

/-- Values as in the example: 20, 5, their sum and product, a scalar and the multiple of the generator. -/
example (sub : Fr381 → Fr381 → Bool) (e : K) :
    C130_claim S (primeRepOf r381 4).fieldRep (ed381 sub) (((jubjubX : ℕ) : Fr381), ((jubjubY : ℕ) : Fr381)) 6 4
      ⟨((20 : ℕ) : Fr381), ((5 : ℕ) : Fr381), ((25 : ℕ) : Fr381), ((100 : ℕ) : Fr381), e,
        edMul (ed381 sub) (S.toNat e) (((jubjubX : ℕ) : Fr381), ((jubjubY : ℕ) : Fr381))⟩ := by
  have h : ∀ k : ℕ, k < r381 → (primeRepOf r381 4).fieldRep.toNat ((k : ℕ) : Fr381) = k :=
    fun k hk => ZMod.val_cast_of_lt hk
  refine ⟨by rw [← Nat.cast_add], by rw [← Nat.cast_mul], ?_, ?_, rfl⟩
  · rw [h 20 (by decide +kernel)]; norm_num
  · rw [h 5 (by decide +kernel)]; norm_num

namespace Plonk

theorem arithStep {c : Composer F} (h : Reach R E c) {l r : Var} (hl : l < c.variables.length)
    (hr : r < c.variables.length) (m a b k : F) :
    ∃ x c', arithmeticGate ⟨some (l, r, none), none, m, (a, b), -1, k, none⟩ c = .ok (x, c') ∧ Reach R E c' ∧
      Ext c c' ∧ x < c'.variables.length ∧ (OwnSat E c → OwnSat E c') ∧
      ownV c' x = m * ownV c l * ownV c r + a * ownV c l + b * ownV c r + k := by
  obtain ⟨x, c', h1⟩ := arithmeticGate_run (Reach.wf h)
    (g := ⟨some (l, r, none), none, m, (a, b), -1, k, none⟩) rfl hl hr (fun x hx => by cases hx)
    (fun p hp => by cases hp)
  obtain ⟨P, hv, ho, -⟩ := arithmeticGate_new (Reach.wf h) rfl (by simp) h1
  refine ⟨x, c', h1, .call h (.arithmetic_gate _) h1, P.ext, P.xIn, ho E, ?_⟩
  rw [hv]
  simp only [arithOut, fan3, Option.getD_none]
  ring

theorem inputStep {c : Composer F} (h : Reach R E c) (s : F) :
    ∃ c', addInput s c = .ok (c.variables.length, c') ∧ Reach R E c' ∧ Ext c c' ∧
      c'.variables.length = c.variables.length + 1 ∧ (OwnSat E c → OwnSat E c') ∧
      ownV c' c.variables.length = s := by
  obtain ⟨c', h1, n⟩ := addInput_run (Reach.wf h) s
  exact ⟨c', h1, .call h (.add_input _) h1, n.ext, by rw [n.vars]; simp, n.own E, n.val⟩

theorem same_sat {c c' : Composer F} (h : SameCircuit c c') {E : EdCurve F} {tab : List (F × F × F × F)}
    {N : ℕ} {pub : ℕ → F} {w : WireData → F} {v : Var → F} (hs : Sat E tab N c' pub w v) :
    Sat E tab N c pub w v := by
  unfold SameCircuit at h
  rw [h] at hs
  exact ⟨hs.1, hs.2, hs.3, hs.4⟩

/-- The gadget with another value for the variable `one`. -/
def polyGadgetWith (R : FieldRep F) (k : F) (t : PolyValues F) : CM F (Except PErr Unit) := do
  let x ← addInput t.x
  let y ← addInput t.y
  let z ← addInput t.z
  let r ← addInput t.r
  let one ← addInput k
  let zero ← zeroVar
  let twoYMinusZ ← arithmeticGate ⟨some (y, z, none), none, 0, (2, -1), -1, 0, none⟩
  let yTimesZ ← arithmeticGate ⟨some (y, z, none), none, 1, (0, 0), -1, 0, none⟩
  let xMinus1 ← arithmeticGate ⟨some (x, zero, none), none, 0, (1, 0), -1, -1, none⟩
  let xBool ← isZeroWithOutput xMinus1
  let xBoolNegate ← xorGate R xBool one 10
  let part1 ← arithmeticGate ⟨some (xBool, yTimesZ, none), none, 1, (0, 0), -1, 0, none⟩
  let part2 ← arithmeticGate ⟨some (xBoolNegate, twoYMinusZ, none), none, 1, (0, 0), -1, 0, none⟩
  let full ← arithmeticGate ⟨some (part1, part2, none), none, 0, (1, 1), -1, 0, none⟩
  assertEqual full r
  return .ok ()

theorem polyGadget_eq (R : FieldRep F) (t : PolyValues F) : polyGadget R t = polyGadgetWith R 1 t := rfl

theorem poly_grow (k : F) (t : PolyValues F) : Grow 15 [] (polyGadgetWith R k t) := by
  unfold polyGadgetWith
  exact Grow.cast (.skip (.input _) fun _ => .skip (.input _) fun _ => .skip (.input _) fun _ =>
    .skip (.input _) fun _ => .skip (.input _) fun _ => .skip .zero fun _ =>
    (Grow.arith _).thenRows (k := 1) fun _ => (Grow.arith _).thenRows (k := 1) fun _ =>
    (Grow.arith _).thenRows (k := 1) fun _ => (Grow.isZero _).thenRows fun _ =>
    (Grow.logic R _ _ 10 true).thenRows fun _ => (Grow.arith _).thenRows (k := 1) fun _ =>
    (Grow.arith _).thenRows (k := 1) fun _ => (Grow.arith _).thenRows (k := 1) fun _ =>
    (Grow.equal _ _).thenRows fun _ => .pureG _) (by norm_num) rfl

theorem poly_run (hR : RepOk R) (h256 : R.bigBits = 256) (hb : 11 ≤ R.modBits) (t : PolyValues F) {k : ℕ}
    (hk : k < 2 ^ 10) {c0 : Composer F} (h0 : Reach R E c0) (hs : OwnSat E c0) :
    ∃ c, polyGadgetWith R (k : F) t c0 = .ok (.ok (), c) ∧
      (OwnSat E c ↔ t.r = (if t.x = 1 then 1 else 0) * (t.y * t.z)
        + (((if t.x = 1 then 1 else 0) ^^^ k : ℕ) : F) * (2 * t.y - t.z)) ∧
      ownV c c0.variables.length = t.x ∧ ownV c (c0.variables.length + 1) = t.y ∧
      ownV c (c0.variables.length + 2) = t.z ∧ ownV c (c0.variables.length + 3) = t.r := by
  obtain ⟨c1, e1, r1, x1, l1, s1, v1⟩ := inputStep h0 t.x
  obtain ⟨c2, e2, r2, x2, l2, s2, v2⟩ := inputStep r1 t.y
  obtain ⟨c3, e3, r3, x3, l3, s3, v3⟩ := inputStep r2 t.z
  obtain ⟨c4, e4, r4, x4, l4, s4, v4⟩ := inputStep r3 t.r
  obtain ⟨c5, e5, r5, x5, l5, s5, v5⟩ := inputStep r4 (k : F)
  set n := c0.variables.length with hn
  rw [l1] at v2 e2
  rw [l2, l1] at v3 e3
  rw [l3, l2, l1] at v4 e4
  rw [l4, l3, l2, l1] at v5 e5
  have L5 : c5.variables.length = n + 5 := by omega
  have vx : ownV c5 n = t.x := by
    rw [(((x2.trans x3).trans x4).trans x5).ownV (by omega), v1]
  have vy : ownV c5 (n + 1) = t.y := by rw [((x3.trans x4).trans x5).ownV (by omega), v2]
  have vz : ownV c5 (n + 1 + 1) = t.z := by rw [(x4.trans x5).ownV (by omega), v3]
  have vr : ownV c5 (n + 1 + 1 + 1) = t.r := by rw [x5.ownV (by omega), v4]
  have S5 := s5 (s4 (s3 (s2 (s1 hs))))
  have zl := (Reach.wf r5).zero
  obtain ⟨i6, c6, e6, r6, x6, l6, s6, v6⟩ := arithStep r5 (l := n + 1) (r := n + 1 + 1) (by omega) (by omega)
    0 2 (-1) 0
  obtain ⟨i7, c7, e7, r7, x7, l7, s7, v7⟩ := arithStep r6 (l := n + 1) (r := n + 1 + 1)
    (x6.lt (by omega)) (x6.lt (by omega)) 1 0 0 0
  obtain ⟨i8, c8, e8, r8, x8, l8, s8, v8⟩ := arithStep r7 (l := n) (r := c5.zero_var)
    ((x6.trans x7).lt (by omega)) ((x6.trans x7).lt zl) 0 1 0 (-1)
  obtain ⟨i9, c9, e9⟩ := isZeroWithOutput_run (Reach.wf r8) l8
  obtain ⟨-, x9, -, l9, v9, s9, -⟩ := isZeroWithOutput_fwd (Reach.wf r8) e9
  have r9 : Reach R E c9 := .call r8 (.is_zero_with_output _) e9
  have S9 := s9 E (s8 (s7 (s6 S5)))
  have x59 := ((x6.trans x7).trans x8).trans x9
  obtain ⟨⟨i10, c10, e10, S10, v10⟩, -⟩ := C92_logic_own r9 S9 h256 (a := i9) (b := n + 1 + 1 + 1 + 1)
    (numBits := 10) rfl (by norm_num) l9 (x59.lt (by omega))
  have r10 : Reach R E c10 := .call r9 (.xor_gate _ _ _) e10
  obtain ⟨-, -, -, -, -, l10, -, x10, -⟩ := logicGate_post (Reach.wf r9) e10
  obtain ⟨i11, c11, e11, r11, x11, l11, s11, v11⟩ := arithStep r10 (l := i9) (r := i7)
    (x10.lt l9) (((x8.trans x9).trans x10).lt l7) 1 0 0 0
  obtain ⟨i12, c12, e12, r12, x12, l12, s12, v12⟩ := arithStep r11 (l := i10) (r := i6)
    (x11.lt l10) (((((x7.trans x8).trans x9).trans x10).trans x11).lt l6) 1 0 0 0
  obtain ⟨i13, c13, e13, r13, x13, l13, s13, v13⟩ := arithStep r12 (l := i11) (r := i12)
    (x12.lt l11) l12 0 1 1 0
  have x5N := (((x59.trans x10).trans x11).trans x12).trans x13
  obtain ⟨c14, e14⟩ := assertEqual_run (Reach.wf r13) (a := i13) (b := n + 1 + 1 + 1) l13 (x5N.lt (by omega))
  have r14 : Reach R E c14 := .call r13 (.assert_equal _ _) e14
  obtain ⟨P14, v14⟩ := assertEqual_fwd (Reach.wf r13) e14
  have x5F := x5N.trans P14.ext
  refine ⟨c14, ?_, ?_, ?_, ?_, ?_, ?_⟩
  · unfold polyGadgetWith
    exact bindC_ok.2 ⟨_, _, e1, bindC_ok.2 ⟨_, _, e2, bindC_ok.2 ⟨_, _, e3, bindC_ok.2 ⟨_, _, e4,
      bindC_ok.2 ⟨_, _, e5, bindC_ok.2 ⟨_, _, zeroVar_ok.2 ⟨rfl, rfl⟩, bindC_ok.2 ⟨_, _, e6,
      bindC_ok.2 ⟨_, _, e7, bindC_ok.2 ⟨_, _, e8, bindC_ok.2 ⟨_, _, e9, bindC_ok.2 ⟨_, _, e10,
      bindC_ok.2 ⟨_, _, e11, bindC_ok.2 ⟨_, _, e12, bindC_ok.2 ⟨_, _, e13, bindC_ok.2 ⟨_, _, e14,
      rfl⟩⟩⟩⟩⟩⟩⟩⟩⟩⟩⟩⟩⟩⟩⟩
  · have own := ((C87_assert_equal r13 i13 (n + 1 + 1 + 1)).2 _ e14).2 (s13 (s12 (s11 S10)))
    rw [own, x5N.ownV (x := n + 1 + 1 + 1) (by omega), vr]
    have w6 : ownV c6 i6 = 2 * t.y - t.z := by rw [v6, vy, vz]; ring
    have w7 : ownV c7 i7 = t.y * t.z := by
      rw [v7, x6.ownV (by omega), x6.ownV (by omega), vy, vz]; ring
    have w8 : ownV c8 i8 = t.x - 1 := by
      rw [v8, (x6.trans x7).ownV (by omega), vx]; ring
    have w9 : ownV c9 i9 = (((if t.x = 1 then 1 else 0 : ℕ)) : F) := by
      rw [v9, w8]
      by_cases hx : t.x = 1
      · rw [hx, sub_self, if_pos rfl, if_pos rfl, Nat.cast_one]
      · rw [if_neg (sub_ne_zero.2 hx), if_neg hx, Nat.cast_zero]
    have p1 : (2 : ℕ) ^ 10 ≤ 2 ^ (R.modBits - 1) := Nat.pow_le_pow_right (by norm_num) (by omega)
    have hbit : (if t.x = 1 then 1 else 0 : ℕ) < 2 ^ 10 := by split <;> norm_num
    have w10 : ownV c10 i10 = (((if t.x = 1 then 1 else 0) ^^^ k : ℕ) : F) := by
      rw [v10, w9, hR.own _ (lt_of_lt_of_le hbit p1), x59.ownV (by omega), v5,
        hR.own _ (lt_of_lt_of_le hk p1), Nat.mod_eq_of_lt hbit, Nat.mod_eq_of_lt hk]
    have w11 : ownV c11 i11 = (((if t.x = 1 then 1 else 0 : ℕ)) : F) * (t.y * t.z) := by
      rw [v11, x10.ownV l9, w9, ((x8.trans x9).trans x10).ownV l7, w7]; ring
    have w12 : ownV c12 i12 = (((if t.x = 1 then 1 else 0) ^^^ k : ℕ) : F) * (2 * t.y - t.z) := by
      rw [v12, x11.ownV l10, w10, ((((x7.trans x8).trans x9).trans x10).trans x11).ownV l6, w6]; ring
    rw [v13, x12.ownV l11, w11, w12]
    have hc : (((if t.x = 1 then 1 else 0 : ℕ)) : F) = if t.x = 1 then 1 else 0 := by split <;> simp
    rw [hc]
    constructor
    · intro h; rw [← h]; ring
    · intro h; rw [h]; ring
  · rw [x5F.ownV (by omega), vx]
  · rw [x5F.ownV (by omega), vy]
  · rw [x5F.ownV (by omega)]; exact vz
  · rw [x5F.ownV (by omega)]; exact vr

end Plonk

/-- The function of the comment of example_poly.rs. -/
def C130_function (x y z : F) : F := if x = 1 then y * z else 2 * y - z

/-- The circuit of example_poly.rs: the gadget runs for all values, and the composer is satisfied exactly
when the fourth value is the function of the first three; but (deviation) it declares no public inputs, so
a proof is not about any particular values. -/
theorem C130_poly (hR : RepOk R) (h256 : R.bigBits = 256) (hb : 11 ≤ R.modBits) (t : PolyValues F)
    (r : (F × F × F × F) × (F × F × F × F)) :
    ∃ c, Filled (polyCirc R t) r c ∧ c.n = 19 ∧ c.lookup_table = [] ∧ c.intended_pi_pos = [] ∧
      (OwnSat E c ↔ t.r = C130_function t.x t.y t.z) := by
  obtain ⟨c0, e0, r0, s0, n0, -⟩ := C85_new (R := R) (E := E) r.1 r.2
  obtain ⟨c, h, hs, -⟩ := poly_run hR h256 hb t (k := 1) (by norm_num) r0 s0
  rw [Nat.cast_one] at h
  obtain ⟨g1, g2, g3⟩ := poly_grow 1 t _ _ _ h
  obtain ⟨-, b2, b3⟩ := newComposer_rows e0
  refine ⟨c, ⟨c0, e0, h⟩, by rw [g1, n0], by rw [g2, b2], by rw [g3, b3]; rfl, hs.trans ?_⟩
  unfold C130_function
  by_cases hx : t.x = 1
  · simp [hx]
  · simp [hx]

/-- Another deviation: the gadget takes the constant one from the prover (`add_input`), and `xor_gate`
does not bind its inputs; so the circuit is also satisfied by assignments in which its input variables
hold `x ≠ 1`, `y`, `z` and its result variable holds `k` times `2y - z`, for every `k` below 1024. -/
theorem C130_poly_one_not_constrained (hR : RepOk R) (h256 : R.bigBits = 256) (hb : 11 ≤ R.modBits)
    {t : PolyValues F} {r : (F × F × F × F) × (F × F × F × F)} {c0 c : Composer F}
    (h0 : newComposer r.1 r.2 = .ok c0) (hc : Filled (polyCirc R t) r c) (x y z : F) (hx : x ≠ 1) {k : ℕ}
    (hk : k < 2 ^ 10) {N : ℕ} (hN : 19 ≤ N) :
    ∃ pub w v, Sat E [] N c pub w v ∧ v c0.variables.length = x ∧ v (c0.variables.length + 1) = y ∧
      v (c0.variables.length + 2) = z ∧ v (c0.variables.length + 3) = (k : F) * (2 * y - z) := by
  obtain ⟨c0', e0, hg⟩ := hc
  rw [h0] at e0
  cases e0
  obtain ⟨c1, e1, r0, s0, n0, -⟩ := C85_new (R := R) (E := E) r.1 r.2
  rw [h0] at e1
  cases e1
  obtain ⟨c', h', hs', vx, vy, vz, vr⟩ := poly_run hR h256 hb ⟨x, y, z, (k : F) * (2 * y - z)⟩ hk r0 s0
  have hsame : SameGadget R E (polyGadget R t) (polyGadgetWith R (k : F) ⟨x, y, z, (k : F) * (2 * y - z)⟩) := by
    rw [polyGadget_eq]
    unfold polyGadgetWith
    exact .call (.add_input _ _) fun _ => .call (.add_input _ _) fun _ => .call (.add_input _ _) fun _ =>
      .call (.add_input _ _) fun _ => .call (.add_input _ _) fun _ => .zero_var fun _ =>
      .call (.same (.arithmetic_gate _)) fun _ => .call (.same (.arithmetic_gate _)) fun _ =>
      .call (.same (.arithmetic_gate _)) fun _ => .call (.same (.is_zero_with_output _)) fun _ =>
      .call (.same (.xor_gate _ _ _)) fun _ => .call (.same (.arithmetic_gate _)) fun _ =>
      .call (.same (.arithmetic_gate _)) fun _ => .call (.same (.arithmetic_gate _)) fun _ =>
      .call (.same (.assert_equal _ _)) fun _ => .done _
  have hcirc : SameCircuit c c' := C129_gadget (R := R) (E := E) (C := polyCirc R t)
    (C' := ⟨polyGadgetWith R (k : F) ⟨x, y, z, (k : F) * (2 * y - z)⟩, 2 ^ 9⟩) hsame ⟨c0, h0, hg⟩ ⟨c0, h0, h'⟩
  obtain ⟨g1, g2, g3⟩ := poly_grow (k : F) _ _ _ _ h'
  obtain ⟨-, b2, b3⟩ := newComposer_rows h0
  have hsat := hs'.2 (by simp [hx]) N (by rw [g1, n0]; exact hN)
  rw [g2, b2] at hsat
  exact ⟨_, _, _, same_sat hcirc hsat, vx, vy, vz, vr⟩

/-- The hypotheses hold over BLS12-381; there the input variables can hold 0, 1 and 0 while the result
variable holds 6, which is not the function of them. -/
example {t : PolyValues Fr381} {r : (Fr381 × Fr381 × Fr381 × Fr381) × (Fr381 × Fr381 × Fr381 × Fr381)}
    {c0 c : Composer Fr381} (h0 : newComposer r.1 r.2 = .ok c0)
    (hc : Filled (polyCirc (primeRepOf r381 4).fieldRep t) r c) (sub : Fr381 → Fr381 → Bool) :
    ∃ pub w v, Sat (ed381 sub) [] 32 c pub w v ∧
      v (c0.variables.length + 3) ≠ C130_function (v c0.variables.length) (v (c0.variables.length + 1))
        (v (c0.variables.length + 2)) := by
  have hb : (primeRepOf r381 4).fieldRep.modBits = 255 := C126_plonk_field.2.2.2.2.2.2.1
  obtain ⟨pub, w, v, h, e1, e2, e3, e4⟩ := C130_poly_one_not_constrained (E := ed381 sub)
    C126_plonk_field.2.1 rfl (by rw [hb]; norm_num) h0 hc 0 1 0 zero_ne_one (k := 3) (by norm_num)
    (N := 32) (by norm_num)
  refine ⟨pub, w, v, h, ?_⟩
  rw [e1, e2, e3, e4]
  unfold C130_function
  rw [if_neg zero_ne_one]
  have h4 : ((4 : ℕ) : Fr381) ≠ 0 := natCast_ne_zero_of_lt (by norm_num) (by decide +kernel)
  intro he
  apply h4
  push_cast
  push_cast at he
  linear_combination he

end VO
