import Mathlib.Data.Nat.Bitwise
import Mathlib.Data.Nat.Digits.Defs
import Mathlib.Algebra.Module.NatInt
import Verif.Lemmas.PlonkEcc2

/-
Scalar decomposition and variable-base multiplication.
-/

set_option linter.unusedSectionVars false

namespace VO.Plonk

open VO.Spec.Plonk

variable {F : Type} [Field F] [DecidableEq F]

/-- A list of variables has values 0 and 1. -/
def Bools (v : Var → F) (xs : List Var) : Prop := ∀ x ∈ xs, v x = 0 ∨ v x = 1

/-- The bit a value stands for. -/
def bitOf (s : F) : ℕ := if s = 1 then 1 else 0

theorem bitOf_cast {s : F} (h : s = 0 ∨ s = 1) : ((bitOf s : ℕ) : F) = s := by
  unfold bitOf
  rcases h with rfl | rfl
  · simp
  · simp

/-- The number written by a list of bit variables, least significant first. -/
def natLe (v : Var → F) : List Var → ℕ
  | [] => 0
  | x :: xs => bitOf (v x) + 2 * natLe v xs

theorem natLe_lt (v : Var → F) (xs : List Var) : natLe v xs < 2 ^ xs.length := by
  induction xs with
  | nil => simp [natLe]
  | cons x xs ih =>
    have : bitOf (v x) ≤ 1 := by unfold bitOf; split <;> omega
    simp only [natLe, List.length_cons, pow_succ]
    omega

/-- The weighted sum the loop builds. -/
def wsum (v : Var → F) : ℕ → List Var → F
  | _, [] => 0
  | k, x :: xs => 2 ^ k * v x + wsum v (k + 1) xs

theorem wsum_nat {v : Var → F} {xs : List Var} (h : Bools v xs) (k : ℕ) :
    wsum v k xs = 2 ^ k * ((natLe v xs : ℕ) : F) := by
  induction xs generalizing k with
  | nil => simp [wsum, natLe]
  | cons x xs ih =>
    have hx := h x (List.mem_cons_self ..)
    rw [wsum, natLe, ih (fun y hy => h y (List.mem_cons_of_mem _ hy))]
    push_cast
    rw [bitOf_cast hx]
    ring

/-- The number read from the most significant bit. -/
def natBe (v : Var → F) (n : ℕ) (xs : List Var) : ℕ :=
  xs.foldl (fun m x => 2 * m + bitOf (v x)) n

theorem natBe_reverse (v : Var → F) (xs : List Var) : natBe v 0 xs.reverse = natLe v xs := by
  induction xs with
  | nil => rfl
  | cons x xs ih =>
    unfold natBe at ih ⊢
    rw [List.reverse_cons, List.foldl_append, ih]
    simp only [List.foldl_cons, List.foldl_nil, natLe]
    omega

theorem addBits_fwd (bs : List Bool) : ∀ {c c' : Composer F} (_ : WF c) {xs : List Var},
    addBits bs c = .ok (xs, c') →
    WF c' ∧ Ext c c' ∧ xs.length = bs.length ∧ (∀ x ∈ xs, x < c'.variables.length) ∧
    c'.n = c.n ∧ (∀ E, OwnSat E c → OwnSat E c') ∧
    (∀ (i : ℕ) b x, bs[i]? = some b → xs[i]? = some x → ownV c' x = if b then 1 else 0) := by
  induction bs with
  | nil =>
    intro c c' hw xs h
    obtain ⟨rfl, rfl⟩ := pureC_ok.1 h
    exact ⟨hw, Ext.refl _, rfl, by simp, rfl, fun E h => h, by simp⟩
  | cons b bs ih =>
    intro c c' hw xs h
    unfold addBits at h
    obtain ⟨x, c1, h1, g1⟩ := bindC_ok.1 h
    obtain ⟨ys, c2, h2, g2⟩ := bindC_ok.1 g1
    obtain ⟨rfl, rfl⟩ := pureC_ok.1 g2
    have n1 := addInput_fwd hw h1
    obtain ⟨w2, e2, l2, m2, k2, o2, v2⟩ := ih n1.wf h2
    have hx : x < c1.variables.length := by rw [n1.vars, n1.fresh]; simp
    refine ⟨w2, n1.ext.trans e2, by simp [l2], ?_, by rw [k2, n1.n],
      fun E h => o2 E (n1.own E h), ?_⟩
    · intro y hy
      rcases List.mem_cons.1 hy with rfl | hy
      · exact e2.lt hx
      · exact m2 y hy
    · intro i b' y hb hy
      cases i with
      | zero =>
        simp only [List.getElem?_cons_zero, Option.some.injEq] at hb hy
        subst hb hy
        rw [e2.ownV hx, n1.val]
      | succ i =>
        simp only [List.getElem?_cons_succ] at hb hy
        exact v2 i b' y hb hy

theorem addBits_run (bs : List Bool) : ∀ {c : Composer F} (_ : WF c),
    ∃ xs c', addBits bs c = .ok (xs, c') := by
  induction bs with
  | nil => intro c hw; exact ⟨[], c, rfl⟩
  | cons b bs ih =>
    intro c hw
    obtain ⟨c1, h1, n1⟩ := addInput_run hw (if b then (1 : F) else 0)
    obtain ⟨xs, c2, h2⟩ := ih n1.wf
    exact ⟨_, c2, bindC_ok.2 ⟨_, _, h1, bindC_ok.2 ⟨_, _, h2, rfl⟩⟩⟩

theorem decomposeLoop_fwd (xs : List Var) : ∀ {c c' : Composer F} (_ : WF c) {k : ℕ} {acc r : Var}
    (_ : acc < c.variables.length),
    decomposeLoop k xs acc c = .ok (r, c') →
    WF c' ∧ Ext c c' ∧ r < c'.variables.length ∧ (∀ x ∈ xs, x < c'.variables.length) ∧
    (∀ E, OwnSat E c → (∀ x ∈ xs, x < c.variables.length) → Bools (ownV c) xs →
      OwnSat E c' ∧ ownV c' r = ownV c acc + wsum (ownV c) k xs) ∧
    (∀ E T N pub w v, Sat E T N c' pub w v → Bools v xs ∧ v r = v acc + wsum v k xs) := by
  induction xs with
  | nil =>
    intro c c' hw k acc r hacc h
    obtain ⟨rfl, rfl⟩ := pureC_ok.1 h
    exact ⟨hw, Ext.refl _, hacc, by simp, fun E h _ _ => ⟨h, by simp [wsum]⟩,
      fun E T N pub w v h => ⟨by simp [Bools], by simp [wsum]⟩⟩
  | cons b xs ih =>
    intro c c' hw k acc r hacc h
    unfold decomposeLoop at h
    obtain ⟨b', c1, h1, g1⟩ := bindC_ok.1 h
    obtain ⟨acc', c2, h2, g2⟩ := bindC_ok.1 g1
    obtain ⟨-, P1, v1⟩ := booleanGate_fwd hw h1
    obtain ⟨P2, v2, o2, -⟩ := arithmeticGate_new P1.wf rfl (by simp [ArithGate.new]) h2
    simp only [arithOut, fan3, ArithGate.new, Option.getD_none] at v2
    obtain ⟨w3, e3, r3, m3, o3, s3⟩ := ih P2.wf P2.xIn g2
    have ev1 : ∀ x, ownV c1 x = ownV c x := fun x => by unfold ownV; rw [v1]
    refine ⟨w3, (P1.ext.trans P2.ext).trans e3, r3, ?_, ?_, ?_⟩
    · intro x hx
      rcases List.mem_cons.1 hx with rfl | hx
      · exact ((P1.ext.trans P2.ext).trans e3).lt P1.lIn
      · exact m3 x hx
    · intro E hs hm hb
      have hs1 := booleanGate_own hw h1 hs (hb b (List.mem_cons_self ..))
      have hs2 := o2 E hs1
      have ev : ∀ x ∈ xs, ownV c2 x = ownV c x := fun x hx => by
        rw [P2.ext.ownV (P1.ext.lt (hm x (List.mem_cons_of_mem _ hx))), ev1]
      obtain ⟨hs3, hv3⟩ := o3 E hs2
        (fun x hx => (P1.ext.trans P2.ext).lt (hm x (List.mem_cons_of_mem _ hx)))
        (fun x hx => by rw [ev x hx]; exact hb x (List.mem_cons_of_mem _ hx))
      refine ⟨hs3, ?_⟩
      have hw : ∀ (l : List Var) (k : ℕ), (∀ x ∈ l, ownV c2 x = ownV c x) →
          wsum (ownV c2) k l = wsum (ownV c) k l := by
        intro l
        induction l with
        | nil => intro k _; rfl
        | cons y l ihl =>
          intro k hl
          rw [wsum, wsum, ihl _ (fun x hx => hl x (List.mem_cons_of_mem _ hx)),
            hl y (List.mem_cons_self ..)]
      rw [hv3, v2, hw xs (k + 1) ev, ev1, ev1, wsum]
      ring
    · intro E T N pub w v hs
      obtain ⟨hb, hv⟩ := s3 E T N pub w v hs
      have hs2 := e3.sat hs
      have e2 := P2.sound0 hs2
      simp only [fan3, ArithGate.new] at e2
      have hb1 := booleanGate_sound hw h1 (P2.ext.sat hs2)
      refine ⟨?_, ?_⟩
      · intro x hx
        rcases List.mem_cons.1 hx with rfl | hx
        · exact hb1
        · exact hb x hx
      · rw [hv, wsum]
        linear_combination -e2

theorem decomposeLoop_run (xs : List Var) : ∀ {c : Composer F} (_ : WF c) {k : ℕ} {acc : Var}
    (_ : acc < c.variables.length) (_ : ∀ x ∈ xs, x < c.variables.length),
    ∃ r c', decomposeLoop k xs acc c = .ok (r, c') := by
  induction xs with
  | nil => intro c hw k acc _ _; exact ⟨acc, c, rfl⟩
  | cons b xs ih =>
    intro c hw k acc hacc hm
    have hb := hm b (List.mem_cons_self ..)
    obtain ⟨c1, h1⟩ := booleanGate_run hw hb
    obtain ⟨-, P1, v1⟩ := booleanGate_fwd hw h1
    obtain ⟨acc', c2, h2⟩ := arithmeticGate_run P1.wf (g := { (ArithGate.new : ArithGate F) with
      witness := some (b, acc, none), add := ((2 : F) ^ k, 1) }) rfl (P1.ext.lt hb)
      (P1.ext.lt hacc) (fun x hx => by cases hx) (fun p hp => by cases hp)
    obtain ⟨P2, -⟩ := arithmeticGate_new P1.wf rfl (by simp [ArithGate.new]) h2
    obtain ⟨r, c3, h3⟩ := ih P2.wf (k := k + 1) P2.xIn
      (fun x hx => (P1.ext.trans P2.ext).lt (hm x (List.mem_cons_of_mem _ hx)))
    exact ⟨r, c3, bindC_ok.2 ⟨_, _, h1, bindC_ok.2 ⟨_, _, h2, h3⟩⟩⟩

theorem bits_nat (m n : ℕ) (v : Var → F) : ∀ (xs : List Var), xs.length = n →
    (∀ (i : ℕ) x, xs[i]? = some x → v x = if m.testBit i then 1 else 0) →
    natLe v xs = m % 2 ^ n := by
  induction n generalizing m with
  | zero =>
    intro xs hl _
    rw [List.length_eq_zero_iff.1 hl]
    simp [natLe, Nat.mod_one]
  | succ n ih =>
    intro xs hl h
    cases xs with
    | nil => simp at hl
    | cons x xs =>
      have h0 := h 0 x rfl
      have hr := ih (m / 2) xs (by simpa using hl) (fun i y hy => by
        have := h (i + 1) y (by simpa using hy)
        rw [this, Nat.testBit_succ])
      have hbit : bitOf (v x) = m % 2 := by
        rw [h0]
        unfold bitOf
        rw [Nat.testBit_zero]
        by_cases hm : m % 2 = 1
        · simp [hm]
        · have : m % 2 = 0 := by omega
          simp [this]
      rw [natLe, hr, hbit, pow_succ]
      rw [mul_comm (2 ^ n) 2, Nat.mod_mul]

theorem scalarDecomposition_fwd {R : FieldRep F} {c c' : Composer F} (hw : WF c) {x : Var} {s : F}
    {bits : List Var} (h : scalarDecomposition R x s c = .ok (bits, c')) :
    WF c' ∧ Ext c c' ∧ x < c'.variables.length ∧ bits.length = R.modBits ∧
    (∀ b ∈ bits, b < c'.variables.length) ∧
    (RepOk R → ∀ E, OwnSat E c → x < c.variables.length → ownV c x = s →
      OwnSat E c' ∧ Bools (ownV c') bits ∧ natLe (ownV c') bits = R.toNat s) ∧
    (∀ E T N pub w v, Sat E T N c' pub w v →
      Bools v bits ∧ v x = ((natLe v bits : ℕ) : F)) := by
  unfold scalarDecomposition at h
  obtain ⟨all, c1, h1, g1⟩ := bindC_ok.1 h
  obtain ⟨u, d1, a1, g2⟩ := bindC_ok.1 g1
  obtain ⟨hlen, rfl⟩ := assertC_ok.1 a1
  obtain ⟨z, d2, a2, g3⟩ := bindC_ok.1 g2
  obtain ⟨rfl, rfl⟩ := zeroVar_ok.1 a2
  obtain ⟨acc, c2, h2, g4⟩ := bindC_ok.1 g3
  obtain ⟨u3, c3, h3, g5⟩ := bindC_ok.1 g4
  obtain ⟨rfl, rfl⟩ := pureC_ok.1 g5
  obtain ⟨w1, e1, l1, m1, k1, o1, v1⟩ := addBits_fwd _ hw h1
  obtain ⟨w2, e2, r2, m2, o2, s2⟩ := decomposeLoop_fwd _ w1 w1.zero h2
  obtain ⟨P3, v3⟩ := assertEqual_fwd w2 h3
  have hlb : (all.take R.modBits).length = R.modBits := by
    rw [List.length_take]; omega
  refine ⟨P3.wf, (e1.trans e2).trans P3.ext, P3.ext.lt P3.rIn, hlb, fun b hb => P3.ext.lt (m2 b hb),
    ?_, ?_⟩
  · intro hR E hs hx hsx
    have hbit : ∀ (i : ℕ) y, (all.take R.modBits)[i]? = some y →
        ownV c1 y = if (R.toNat s).testBit i then 1 else 0 := by
      intro i y hy
      have hi : i < R.modBits := by
        have := (List.getElem?_eq_some_iff.1 hy).1
        rwa [hlb] at this
      rw [List.getElem?_take_of_lt hi] at hy
      refine v1 i _ y ?_ hy
      unfold bitsLe
      rw [List.getElem?_map, List.getElem?_range (lt_of_lt_of_le hi hR.mod_le)]
      rfl
    have hm : ∀ y ∈ all.take R.modBits, y < c1.variables.length := fun y hy =>
      m1 y (List.mem_of_mem_take hy)
    have hb : Bools (ownV c1) (all.take R.modBits) := by
      intro y hy
      obtain ⟨i, hi, e⟩ := List.getElem_of_mem hy
      have := hbit i y (by rw [List.getElem?_eq_getElem hi, e])
      rw [this]
      split
      · exact Or.inr rfl
      · exact Or.inl rfl
    have hs1 := o1 E hs
    obtain ⟨hs2, hv2⟩ := o2 E hs1 hm hb
    have hnat1 : natLe (ownV c1) (all.take R.modBits) = R.toNat s := by
      rw [bits_nat (R.toNat s) R.modBits _ _ hlb hbit, Nat.mod_eq_of_lt (hR.lt s)]
    have ev : ∀ y ∈ all.take R.modBits, ownV c3 y = ownV c1 y := fun y hy =>
      (e2.trans P3.ext).ownV (hm y hy)
    have hcongr : ∀ l : List Var, (∀ y ∈ l, ownV c3 y = ownV c1 y) →
        natLe (ownV c3) l = natLe (ownV c1) l := by
      intro l
      induction l with
      | nil => intro _; rfl
      | cons y l ihl =>
        intro hl
        rw [natLe, natLe, ihl (fun x hx => hl x (List.mem_cons_of_mem _ hx)),
          hl y (List.mem_cons_self ..)]
    refine ⟨?_, fun y hy => by rw [ev y hy]; exact hb y hy, by rw [hcongr _ ev, hnat1]⟩
    refine P3.own hs2 ?_
    have ev3 : ∀ y, ownV c3 y = ownV c2 y := fun y => by unfold ownV; rw [v3]
    rw [ev3, ev3, hv2, w1.zeroVal hs1, wsum_nat hb, hnat1, hR.cast, (e1.trans e2).ownV hx, hsx]
    simp
  · intro E T N pub w v hs
    have hs2 := P3.ext.sat hs
    obtain ⟨hb, hv⟩ := s2 E T N pub w v hs2
    refine ⟨hb, ?_⟩
    rw [← assertEqual_sound w2 h3 hs, hv, w1.zeroSound _ _ _ _ _ _ (e2.sat hs2), wsum_nat hb]
    simp

theorem scalarDecomposition_run {R : FieldRep F} {c : Composer F} (hw : WF c) {x : Var} (s : F)
    (hR : R.modBits ≤ R.bigBits) (hx : x < c.variables.length) :
    ∃ bits c', scalarDecomposition R x s c = .ok (bits, c') := by
  obtain ⟨all, c1, h1⟩ := addBits_run (bitsLe R s) hw
  obtain ⟨w1, e1, l1, m1, k1, o1, v1⟩ := addBits_fwd _ hw h1
  obtain ⟨acc, c2, h2⟩ := decomposeLoop_run (all.take R.modBits) w1 (k := 0) w1.zero
    (fun y hy => m1 y (List.mem_of_mem_take hy))
  obtain ⟨w2, e2, r2, -⟩ := decomposeLoop_fwd _ w1 w1.zero h2
  obtain ⟨c3, h3⟩ := assertEqual_run w2 (a := acc) (b := x) r2 ((e1.trans e2).lt hx)
  refine ⟨_, c3, bindC_ok.2 ⟨_, _, h1, bindC_ok.2 ⟨(), _, assertC_ok.2 ⟨?_, rfl⟩, bindC_ok.2
    ⟨_, _, rfl, bindC_ok.2 ⟨_, _, h2, bindC_ok.2 ⟨_, _, h3, rfl⟩⟩⟩⟩⟩⟩
  rw [l1]
  simp [bitsLe, hR]

section Mul
variable {E : EdCurve F} {G : Type} [AddCommGroup G] {pt : G → F × F}

/-- The point a selection by a bit yields. -/
theorem select_pt (hG : CurveGroup E G pt) {b : F} (hb : b = 0 ∨ b = 1) (g : G) :
    (b * (pt g).1, 1 - b + b * (pt g).2) = pt (bitOf b • g) := by
  unfold bitOf
  rcases hb with rfl | rfl
  · simp [hG.zero]
  · simp

theorem doubleAddLoop_struct (p : Point) (xs : List Var) : ∀ {c c' : Composer F} (_ : WF c)
    {acc r : Point} (_ : acc.x < c.variables.length) (_ : acc.y < c.variables.length),
    doubleAddLoop E p xs acc c = .ok (r, c') →
    WF c' ∧ Ext c c' ∧ r.x < c'.variables.length ∧ r.y < c'.variables.length := by
  induction xs with
  | nil =>
    intro c c' hw acc r hx hy h
    obtain ⟨rfl, rfl⟩ := pureC_ok.1 h
    exact ⟨hw, Ext.refl _, hx, hy⟩
  | cons b xs ih =>
    intro c c' hw acc r hx hy h
    unfold doubleAddLoop at h
    obtain ⟨a1, c1, h1, g1⟩ := bindC_ok.1 h
    obtain ⟨q, c2, h2, g2⟩ := bindC_ok.1 g1
    obtain ⟨a2, c3, h3, g3⟩ := bindC_ok.1 g2
    obtain ⟨-, -, -, w1, e1, -⟩ := pointAdditionGate_fwd hw h1
    obtain ⟨w2, e2, -⟩ := conditionalSelectIdentity_fwd w1 h2
    obtain ⟨-, -, -, w3, e3, x3, y3, -⟩ := pointAdditionGate_fwd w2 h3
    obtain ⟨w4, e4, x4, y4⟩ := ih w3 x3 y3 g3
    exact ⟨w4, ((e1.trans e2).trans e3).trans e4, x4, y4⟩

theorem doubleAddLoop_sound (hG : CurveGroup E G pt) (p : Point) (g : G) (xs : List Var) :
    ∀ {c c' : Composer F} (_ : WF c) {acc r : Point} (_ : acc.x < c.variables.length)
      (_ : acc.y < c.variables.length), doubleAddLoop E p xs acc c = .ok (r, c') →
    ∀ {T N pub w v}, Sat E T N c' pub w v → Bools v xs → ptV v p = pt g →
      ∀ n : ℕ, ptV v acc = pt (n • g) → ptV v r = pt (natBe v n xs • g) := by
  induction xs with
  | nil =>
    intro c c' hw acc r _ _ h T N pub w v hs _ hp n hacc
    obtain ⟨rfl, rfl⟩ := pureC_ok.1 h
    exact hacc
  | cons b xs ih =>
    intro c c' hw acc r hx hy h T N pub w v hs hb hp n hacc
    unfold doubleAddLoop at h
    obtain ⟨a1, c1, h1, g1⟩ := bindC_ok.1 h
    obtain ⟨q, c2, h2, g2⟩ := bindC_ok.1 g1
    obtain ⟨a2, c3, h3, g3⟩ := bindC_ok.1 g2
    obtain ⟨-, -, -, w1, e1, x1, y1, -, -, -, s1⟩ := pointAdditionGate_fwd hw h1
    obtain ⟨w2, e2, -, -, x2, y2, -, -, s2⟩ := conditionalSelectIdentity_fwd w1 h2
    obtain ⟨-, -, -, w3, e3, x3, y3, -, -, -, s3⟩ := pointAdditionGate_fwd w2 h3
    obtain ⟨w4, e4, -⟩ := doubleAddLoop_struct p xs w3 x3 y3 g3
    have hs3 := e4.sat hs
    have hs2 := e3.sat hs3
    have hs1 := e2.sat hs2
    have f1 := s1 T N pub w v hs1
    have hax : v acc.x = (pt (n • g)).1 := by rw [← hacc]; rfl
    have hay : v acc.y = (pt (n • g)).2 := by rw [← hacc]; rfl
    rw [hax, hay] at f1
    have p1 := pointAddition_group hG f1
    have p2 := s2 E T N pub w v hs2
    have hpx : v p.x = (pt g).1 := by rw [← hp]; rfl
    have hpy : v p.y = (pt g).2 := by rw [← hp]; rfl
    rw [hpx, hpy, select_pt hG (hb b (List.mem_cons_self ..))] at p2
    have f3 := s3 T N pub w v hs3
    have h1x : v a1.x = (pt (n • g + n • g)).1 := by rw [← p1]
    have h1y : v a1.y = (pt (n • g + n • g)).2 := by rw [← p1]
    have h2x : v q.x = (pt (bitOf (v b) • g)).1 := by rw [← p2]; rfl
    have h2y : v q.y = (pt (bitOf (v b) • g)).2 := by rw [← p2]; rfl
    rw [h1x, h1y, h2x, h2y] at f3
    have p3 := pointAddition_group hG f3
    have : n • g + n • g + bitOf (v b) • g = (2 * n + bitOf (v b)) • g := by
      rw [add_smul, two_mul, add_smul]
    rw [this] at p3
    exact ih w3 x3 y3 g3 hs (fun x hx => hb x (List.mem_cons_of_mem _ hx)) hp _ p3

theorem doubleAddLoop_own (hG : CurveGroup E G pt) (p : Point) (g : G) (xs : List Var) :
    ∀ {c c' : Composer F} (_ : WF c) {acc r : Point} (_ : acc.x < c.variables.length)
      (_ : acc.y < c.variables.length), doubleAddLoop E p xs acc c = .ok (r, c') →
    OwnSat E c → (∀ x ∈ xs, x < c.variables.length) → p.x < c.variables.length →
      p.y < c.variables.length → Bools (ownV c) xs → ptV (ownV c) p = pt g →
      ∀ n : ℕ, ptV (ownV c) acc = pt (n • g) →
        OwnSat E c' ∧ ptV (ownV c') r = pt (natBe (ownV c) n xs • g) := by
  induction xs with
  | nil =>
    intro c c' hw acc r _ _ h hs _ _ _ _ hp n hacc
    obtain ⟨rfl, rfl⟩ := pureC_ok.1 h
    exact ⟨hs, hacc⟩
  | cons b xs ih =>
    intro c c' hw acc r hx hy h hs hm hpx hpy hb hp n hacc
    unfold doubleAddLoop at h
    obtain ⟨a1, c1, h1, g1⟩ := bindC_ok.1 h
    obtain ⟨q, c2, h2, g2⟩ := bindC_ok.1 g1
    obtain ⟨a2, c3, h3, g3⟩ := bindC_ok.1 g2
    obtain ⟨-, -, -, w1, e1, x1, y1, -, v1, o1, -⟩ := pointAdditionGate_fwd hw h1
    obtain ⟨w2, e2, -, -, x2, y2, o2, v2, -⟩ := conditionalSelectIdentity_fwd w1 h2
    obtain ⟨-, -, -, w3, e3, x3, y3, -, v3, o3, -⟩ := pointAdditionGate_fwd w2 h3
    have hbm := hm b (List.mem_cons_self ..)
    have hbb := hb b (List.mem_cons_self ..)
    have ev1 : ∀ {y : Var}, y < c.variables.length → ownV c1 y = ownV c y := fun h => e1.ownV h
    have hs1 := o1 hs (by rw [hacc]; exact hG.den _ _)
    have v2' := v2 (e1.lt hpy)
    have hpx' : ownV c p.x = (pt g).1 := by rw [← hp]; rfl
    have hpy' : ownV c p.y = (pt g).2 := by rw [← hp]; rfl
    rw [ev1 hbm, ev1 hpx, ev1 hpy, hpx', hpy', select_pt hG hbb] at v2'
    have hs2 := o2 E hs1
    have a1v : ptV (ownV c2) a1 = pt (n • g + n • g) := by
      have : ptV (ownV c2) a1 = ptV (ownV c1) a1 := by
        unfold ptV; rw [e2.ownV x1, e2.ownV y1]
      rw [this, v1, hacc, hG.add]
    have hs3 := o3 hs2 (by rw [a1v, v2']; exact hG.den _ _)
    rw [a1v, v2', hG.add] at v3
    have : n • g + n • g + bitOf (ownV c b) • g = (2 * n + bitOf (ownV c b)) • g := by
      rw [add_smul, two_mul, add_smul]
    rw [this] at v3
    have hext := (e1.trans e2).trans e3
    obtain ⟨hs4, hv4⟩ := ih w3 x3 y3 g3 hs3
      (fun x hx => hext.lt (hm x (List.mem_cons_of_mem _ hx))) (hext.lt hpx) (hext.lt hpy)
      (fun x hx => by
        rw [hext.ownV (hm x (List.mem_cons_of_mem _ hx))]
        exact hb x (List.mem_cons_of_mem _ hx))
      (by rw [← hp]; unfold ptV; rw [hext.ownV hpx, hext.ownV hpy]) _ v3
    refine ⟨hs4, ?_⟩
    rw [hv4]
    have hcongr : ∀ (l : List Var) (m : ℕ), (∀ y ∈ l, ownV c3 y = ownV c y) →
        natBe (ownV c3) m l = natBe (ownV c) m l := by
      intro l
      induction l with
      | nil => intro m _; rfl
      | cons y l ihl =>
        intro m hl
        unfold natBe at ihl ⊢
        rw [List.foldl_cons, List.foldl_cons, hl y (List.mem_cons_self ..)]
        exact ihl _ (fun x hx => hl x (List.mem_cons_of_mem _ hx))
    rw [hcongr _ _ (fun y hy => hext.ownV (hm y (List.mem_cons_of_mem _ hy)))]
    rfl

theorem doubleAddLoop_run (hG : CurveGroup E G pt) (hchk : ∀ g, E.check (pt g) = true) (p : Point)
    (g : G) (xs : List Var) :
    ∀ {c : Composer F} (_ : WF c) {acc : Point} (_ : acc.x < c.variables.length)
      (_ : acc.y < c.variables.length), (∀ x ∈ xs, x < c.variables.length) →
      p.x < c.variables.length → p.y < c.variables.length → Bools (ownV c) xs →
      ptV (ownV c) p = pt g → ∀ n : ℕ, ptV (ownV c) acc = pt (n • g) →
      ∃ r c', doubleAddLoop E p xs acc c = .ok (r, c') := by
  induction xs with
  | nil => intro c hw acc _ _ _ _ _ _ _ n _; exact ⟨acc, c, rfl⟩
  | cons b xs ih =>
    intro c hw acc hx hy hm hpx hpy hb hp n hacc
    have hbm := hm b (List.mem_cons_self ..)
    have hbb := hb b (List.mem_cons_self ..)
    obtain ⟨a1, c1, h1⟩ := pointAdditionGate_run (E := E) hw hx hy hx hy (by rw [hacc]; exact hchk _)
      (by rw [hacc]; exact hchk _)
    obtain ⟨-, -, -, w1, e1, x1, y1, -, v1, -, -⟩ := pointAdditionGate_fwd hw h1
    obtain ⟨q, c2, h2⟩ := conditionalSelectIdentity_run w1 (e1.lt hbm) (e1.lt hpx) (e1.lt hpy)
    obtain ⟨w2, e2, -, -, x2, y2, o2, v2, -⟩ := conditionalSelectIdentity_fwd w1 h2
    have v2' := v2 (e1.lt hpy)
    have hpx' : ownV c p.x = (pt g).1 := by rw [← hp]; rfl
    have hpy' : ownV c p.y = (pt g).2 := by rw [← hp]; rfl
    rw [e1.ownV hbm, e1.ownV hpx, e1.ownV hpy, hpx', hpy', select_pt hG hbb] at v2'
    have a1v : ptV (ownV c2) a1 = pt (n • g + n • g) := by
      have : ptV (ownV c2) a1 = ptV (ownV c1) a1 := by
        unfold ptV; rw [e2.ownV x1, e2.ownV y1]
      rw [this, v1, hacc, hG.add]
    obtain ⟨a2, c3, h3⟩ := pointAdditionGate_run (E := E) w2 (e2.lt x1) (e2.lt y1) x2 y2
      (by rw [a1v]; exact hchk _) (by rw [v2']; exact hchk _)
    obtain ⟨-, -, -, w3, e3, x3, y3, -, v3, -, -⟩ := pointAdditionGate_fwd w2 h3
    rw [a1v, v2', hG.add] at v3
    have : n • g + n • g + bitOf (ownV c b) • g = (2 * n + bitOf (ownV c b)) • g := by
      rw [add_smul, two_mul, add_smul]
    rw [this] at v3
    have hext := (e1.trans e2).trans e3
    obtain ⟨r, c4, h4⟩ := ih w3 x3 y3
      (fun x hx => hext.lt (hm x (List.mem_cons_of_mem _ hx))) (hext.lt hpx) (hext.lt hpy)
      (fun x hx => by
        rw [hext.ownV (hm x (List.mem_cons_of_mem _ hx))]
        exact hb x (List.mem_cons_of_mem _ hx))
      (by rw [← hp]; unfold ptV; rw [hext.ownV hpx, hext.ownV hpy]) _ v3
    exact ⟨r, c4, bindC_ok.2 ⟨_, _, h1, bindC_ok.2 ⟨_, _, h2, bindC_ok.2 ⟨_, _, h3, h4⟩⟩⟩⟩

theorem variableBase_struct {R : FieldRep F} {c c' : Composer F} (hw : WF c) {x : Var} {p r : Point}
    (h : variableBaseScalarMul R E x p c = .ok (r, c')) :
    WF c' ∧ Ext c c' ∧ x < c.variables.length ∧ r.x < c'.variables.length ∧
      r.y < c'.variables.length := by
  unfold variableBaseScalarMul at h
  obtain ⟨s, c0, h0, g0⟩ := bindC_ok.1 h
  obtain ⟨hs, rfl⟩ := valueOfVar_ok.1 h0
  obtain ⟨bits, c1, h1, g1⟩ := bindC_ok.1 g0
  obtain ⟨idp, c2, h2, g2⟩ := bindC_ok.1 g1
  obtain ⟨w1, e1, -⟩ := scalarDecomposition_fwd hw h1
  obtain ⟨w2, e2, x2, y2, -⟩ := pointIdentity_fwd w1 h2
  obtain ⟨w3, e3, x3, y3⟩ := doubleAddLoop_struct p _ w2 x2 y2 g2
  exact ⟨w3, (e1.trans e2).trans e3, (List.getElem?_eq_some_iff.1 hs).1, x3, y3⟩

theorem variableBase_sound (hG : CurveGroup E G pt) {R : FieldRep F} {c c' : Composer F} (hw : WF c)
    {x : Var} {p r : Point} (h : variableBaseScalarMul R E x p c = .ok (r, c')) {T N pub w v}
    (hs : Sat E T N c' pub w v) {g : G} (hp : ptV v p = pt g) :
    ∃ n < 2 ^ R.modBits, v x = ((n : ℕ) : F) ∧ ptV v r = pt (n • g) := by
  unfold variableBaseScalarMul at h
  obtain ⟨s, c0, h0, g0⟩ := bindC_ok.1 h
  obtain ⟨hsv, rfl⟩ := valueOfVar_ok.1 h0
  obtain ⟨bits, c1, h1, g1⟩ := bindC_ok.1 g0
  obtain ⟨idp, c2, h2, g2⟩ := bindC_ok.1 g1
  obtain ⟨w1, e1, -, l1, m1, o1, s1⟩ := scalarDecomposition_fwd hw h1
  obtain ⟨w2, e2, x2, y2, -, o2, s2⟩ := pointIdentity_fwd w1 h2
  obtain ⟨w3, e3, x3, y3⟩ := doubleAddLoop_struct p _ w2 x2 y2 g2
  have hs2 := e3.sat hs
  obtain ⟨hb, hx⟩ := s1 E T N pub w v (e2.sat hs2)
  have hid := s2 E T N pub w v hs2
  have := doubleAddLoop_sound hG p g bits.reverse w2 x2 y2 g2 hs
    (fun y hy => hb y (List.mem_reverse.1 hy)) hp 0 (by rw [hid, zero_smul, hG.zero])
  rw [natBe_reverse] at this
  exact ⟨natLe v bits, by rw [← l1]; exact natLe_lt v bits, hx, this⟩

theorem variableBase_own (hG : CurveGroup E G pt) {R : FieldRep F} (hR : RepOk R)
    {c c' : Composer F} (hw : WF c) {x : Var} {p r : Point}
    (h : variableBaseScalarMul R E x p c = .ok (r, c')) (hs : OwnSat E c)
    (hpx : p.x < c.variables.length) (hpy : p.y < c.variables.length) {g : G}
    (hp : ptV (ownV c) p = pt g) :
    OwnSat E c' ∧ ptV (ownV c') r = pt (R.toNat (ownV c x) • g) := by
  unfold variableBaseScalarMul at h
  obtain ⟨s, c0, h0, g0⟩ := bindC_ok.1 h
  obtain ⟨hsv, rfl⟩ := valueOfVar_ok.1 h0
  obtain ⟨bits, c1, h1, g1⟩ := bindC_ok.1 g0
  obtain ⟨idp, c2, h2, g2⟩ := bindC_ok.1 g1
  have hx := (List.getElem?_eq_some_iff.1 hsv).1
  have hxv := ownV_of_some hsv
  obtain ⟨w1, e1, -, l1, m1, o1, -⟩ := scalarDecomposition_fwd hw h1
  obtain ⟨w2, e2, x2, y2, hv2, o2, -⟩ := pointIdentity_fwd w1 h2
  obtain ⟨hs1, hb1, hn1⟩ := o1 hR E hs hx hxv
  obtain ⟨hs2, hid⟩ := o2 E hs1
  have hext := e1.trans e2
  have hb2 : Bools (ownV c2) bits.reverse := fun y hy => by
    rw [e2.ownV (m1 y (List.mem_reverse.1 hy))]
    exact hb1 y (List.mem_reverse.1 hy)
  have := doubleAddLoop_own hG p g bits.reverse w2 x2 y2 g2 hs2
    (fun y hy => e2.lt (m1 y (List.mem_reverse.1 hy))) (hext.lt hpx) (hext.lt hpy) hb2
    (by rw [← hp]; unfold ptV; rw [hext.ownV hpx, hext.ownV hpy]) 0
    (by rw [hid, zero_smul, hG.zero])
  refine ⟨this.1, ?_⟩
  rw [this.2, natBe_reverse]
  have hcongr : ∀ l : List Var, (∀ y ∈ l, ownV c2 y = ownV c1 y) →
      natLe (ownV c2) l = natLe (ownV c1) l := by
    intro l
    induction l with
    | nil => intro _; rfl
    | cons y l ihl =>
      intro hl
      rw [natLe, natLe, ihl (fun x hx => hl x (List.mem_cons_of_mem _ hx)),
        hl y (List.mem_cons_self ..)]
  rw [hcongr bits (fun y hy => e2.ownV (m1 y hy)), hn1, hxv]

theorem variableBase_run (hG : CurveGroup E G pt) (hchk : ∀ g, E.check (pt g) = true)
    {R : FieldRep F} (hR : RepOk R) {c : Composer F} (hw : WF c) (hs : OwnSat E c) {x : Var}
    {p : Point} (hx : x < c.variables.length) (hpx : p.x < c.variables.length)
    (hpy : p.y < c.variables.length) {g : G} (hp : ptV (ownV c) p = pt g) :
    ∃ r c', variableBaseScalarMul R E x p c = .ok (r, c') := by
  obtain ⟨bits, c1, h1⟩ := scalarDecomposition_run hw (ownV c x) hR.mod_le hx
  obtain ⟨w1, e1, -, l1, m1, o1, -⟩ := scalarDecomposition_fwd hw h1
  obtain ⟨idp, c2, h2⟩ := pointIdentity_run w1
  obtain ⟨w2, e2, x2, y2, hv2, o2, -⟩ := pointIdentity_fwd w1 h2
  obtain ⟨hs1, hb1, hn1⟩ := o1 hR E hs hx rfl
  obtain ⟨hs2, hid⟩ := o2 E hs1
  have hext := e1.trans e2
  have hb2 : Bools (ownV c2) bits.reverse := fun y hy => by
    rw [e2.ownV (m1 y (List.mem_reverse.1 hy))]
    exact hb1 y (List.mem_reverse.1 hy)
  obtain ⟨r, c3, h3⟩ := doubleAddLoop_run hG hchk p g bits.reverse w2 x2 y2
    (fun y hy => e2.lt (m1 y (List.mem_reverse.1 hy))) (hext.lt hpx) (hext.lt hpy) hb2
    (by rw [← hp]; unfold ptV; rw [hext.ownV hpx, hext.ownV hpy]) 0
    (by rw [hid, zero_smul, hG.zero])
  exact ⟨r, c3, bindC_ok.2 ⟨_, _, valueOfVar_run hx, bindC_ok.2 ⟨_, _, h1, bindC_ok.2
    ⟨_, _, h2, h3⟩⟩⟩⟩

end Mul

end VO.Plonk
