import Verif.Lemmas.PlonkReach
import Verif.Lemmas.SnarkExample

/-
Concrete circuits over the field with 97 elements and a curve over it.
-/

set_option linter.unusedSectionVars false

namespace VO.Plonk

open VO.Spec.Plonk

theorem Calls.wf {F : Type} [Field F] [DecidableEq F] {R : FieldRep F} {E : EdCurve F}
    {c c' : Composer F} (hw : WF c) (h : Calls R E c c') : WF c' ∧ Ext c c' := by
  induction h with
  | none => exact ⟨hw, Ext.refl _⟩
  | more _ hm h ih =>
    have := Method.post hm ih.1 h
    exact ⟨this.1, ih.2.trans this.2⟩

theorem new_reach {F : Type} [Field F] [DecidableEq F] (R : FieldRep F) (E : EdCurve F) :
    ∃ c : Composer F, Reach R E c ∧ OwnSat E c := by
  obtain ⟨c, h, -, hs, -, -, -⟩ := newComposer_ok (F := F) (0, 0, 0, 0) (0, 0, 0, 0)
  exact ⟨c, Reach.new h, hs E⟩

/-- A composer holding any given values. -/
theorem inputs_reach {F : Type} [Field F] [DecidableEq F] (R : FieldRep F) (E : EdCurve F) :
    ∀ vals : List F, ∃ (c : Composer F) (xs : List Var), Reach R E c ∧ OwnSat E c ∧
      (∀ x ∈ xs, x < c.variables.length) ∧ xs.map (ownV c) = vals
  | [] => by
    obtain ⟨c, h, hs⟩ := new_reach R E
    exact ⟨c, [], h, hs, by simp, rfl⟩
  | s :: vals => by
    obtain ⟨c, xs, h, hs, hx, hv⟩ := inputs_reach R E vals
    obtain ⟨c', h1, hn⟩ := addInput_run (Reach.wf h) s
    refine ⟨c', c.variables.length :: xs, Reach.call h (.add_input s) h1, hn.own E hs, ?_, ?_⟩
    · intro x hxm
      rcases List.mem_cons.1 hxm with rfl | hm
      · rw [hn.vars]; simp
      · exact hn.ext.lt (hx x hm)
    · rw [List.map_cons, hn.val]
      congr 1
      rw [← hv]
      exact List.map_congr_left (fun x hxm => hn.ext.ownV (hx x hxm))

theorem input1 {F : Type} [Field F] [DecidableEq F] (R : FieldRep F) (E : EdCurve F) (s : F) :
    ∃ (c : Composer F) (x : Var), Reach R E c ∧ OwnSat E c ∧ x < c.variables.length ∧
      ownV c x = s := by
  obtain ⟨c, xs, h, hs, hx, hv⟩ := inputs_reach R E [s]
  match xs, hv, hx with
  | [x], hv, hx =>
    simp only [List.map_cons, List.map_nil, List.cons.injEq, and_true] at hv
    exact ⟨c, x, h, hs, hx x (by simp), hv⟩

theorem input3 {F : Type} [Field F] [DecidableEq F] (R : FieldRep F) (E : EdCurve F) (s t u : F) :
    ∃ (c : Composer F) (x y z : Var), Reach R E c ∧ OwnSat E c ∧ x < c.variables.length ∧
      y < c.variables.length ∧ z < c.variables.length ∧ ownV c x = s ∧ ownV c y = t ∧
      ownV c z = u := by
  obtain ⟨c, xs, h, hs, hx, hv⟩ := inputs_reach R E [s, t, u]
  match xs, hv, hx with
  | [x, y, z], hv, hx =>
    simp only [List.map_cons, List.map_nil, List.cons.injEq, and_true] at hv
    exact ⟨c, x, y, z, h, hs, hx x (by simp), hx y (by simp), hx z (by simp), hv.1, hv.2.1, hv.2.2⟩

/-- A composer holding two points and a scalar. -/
theorem points {F : Type} [Field F] [DecidableEq F] (R : FieldRep F) (E : EdCurve F) (P Q : F × F)
    (s : F) :
    ∃ (c : Composer F) (p q : Point) (x : Var), Reach R E c ∧ OwnSat E c ∧
      p.x < c.variables.length ∧ p.y < c.variables.length ∧ q.x < c.variables.length ∧
      q.y < c.variables.length ∧ x < c.variables.length ∧ ptV (ownV c) p = P ∧
      ptV (ownV c) q = Q ∧ ownV c x = s := by
  obtain ⟨c, xs, h, hs, hx, hv⟩ := inputs_reach R E [P.1, P.2, Q.1, Q.2, s]
  have hl : xs.length = 5 := by have := congrArg List.length hv; simpa using this
  obtain ⟨x1, xs, rfl⟩ := List.length_eq_succ_iff.1 hl |>.imp fun a h => h.imp fun b h => h.1
  match xs, hl, hv, hx with
  | [x2, x3, x4, x5], hl, hv, hx =>
    simp only [List.map_cons, List.map_nil, List.cons.injEq, and_true] at hv
    obtain ⟨v1, v2, v3, v4, v5⟩ := hv
    exact ⟨c, ⟨x1, x2⟩, ⟨x3, x4⟩, x5, h, hs, hx x1 (by simp), hx x2 (by simp), hx x3 (by simp),
      hx x4 (by simp), hx x5 (by simp), by simp only [ptV, v1, v2], by simp only [ptV, v3, v4], v5⟩

/-- The field with 97 elements: seven bits, in a representation of 256 bits. -/
def R97 : FieldRep K97 := ⟨fun x => ZMod.val x, 256, 7⟩

theorem repOk97 : RepOk R97 where
  cast x := ZMod.natCast_zmod_val x
  lt x := (ZMod.val_lt x).trans (by decide)
  mod_le := by decide
  own m hm := by
    show ZMod.val ((m : ℕ) : K97) = m
    exact ZMod.val_cast_of_lt (lt_of_lt_of_le hm (by decide))

/-- The points of a subgroup of prime order 13. -/
def list97 : List (K97 × K97) := [(0, 1), (94, 7), (16, 27), (38, 32), (77, 83), (57, 17), (34, 41), (63, 41), (40, 17), (20, 83), (59, 32), (81, 27), (3, 7)]

/-- `x² + y² = 1 + 45 x² y²`. -/
def E97 : EdCurve K97 := ⟨1, 45, fun x y => list97.contains (x, y)⟩

/-- The multiples of `(94, 7)`. -/
def pt97 (g : ZMod 13) : K97 × K97 := list97.getD (ZMod.val g) (0, 1)

theorem curveGroup97 : CurveGroup E97 (ZMod 13) pt97 where
  zero := by decide +kernel
  neg := by decide +kernel
  den := by unfold EdDen; decide +kernel
  sum := by unfold EdSum; decide +kernel
  curve := by unfold OnCurve; decide +kernel

theorem check97 : ∀ g, E97.check (pt97 g) = true := by decide +kernel

end VO.Plonk
