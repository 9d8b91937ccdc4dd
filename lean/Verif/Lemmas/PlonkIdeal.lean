import Mathlib.GroupTheory.OrderOfElement
import Verif.Lemmas.PlonkExample2
import Verif.Spec.PlonkSnark

/-
A commitment scheme that is ideal, and a small field, to show that the hypotheses of the theorems
about the whole argument can be met.
-/

set_option linter.unusedSectionVars false

namespace VO.Plonk

open VO.Spec VO.Spec.Plonk Polynomial

section
variable (F : Type) [Field F] [DecidableEq F]

/-- Polynomials of degree below `d`. -/
abbrev BPoly (d : ℕ) : Type := degreeLT F d

variable {F}

/-- The combination of commitments. -/
noncomputable def idealMsm (d : ℕ) (cs : List (BPoly F d)) (ss : List F) : BPoly F d :=
  ((ss.zip cs).map fun e : F × BPoly F d => e.1 • e.2).sum

open Classical in
/-- The check of an opening. -/
noncomputable def idealCheck (d : ℕ) (cs : List (BPoly F d)) (x : F) (vs : List F) : Bool :=
  decide (∀ e ∈ cs.zip vs, (e.1 : F[X]).eval x = e.2)

theorem idealCheck_iff {d : ℕ} {cs : List (BPoly F d)} {x : F} {vs : List F} :
    idealCheck d cs x vs = true ↔ ∀ e ∈ cs.zip vs, (e.1 : F[X]).eval x = e.2 := by
  unfold idealCheck
  exact decide_eq_true_iff

open Classical in
/-- Commitments are the polynomials of degree below `d`; an opening proof is empty. -/
noncomputable def idealPcs (F : Type) [Field F] [DecidableEq F] (d : ℕ) : PCS F where
  Comm := BPoly F d
  OProof := Unit
  commit := fun p => if h : polyOf p ∈ degreeLT F d then .ok ⟨polyOf p, h⟩ else .error .panic
  msm := idealMsm d
  openAt := fun _ _ _ => .ok ()
  check := fun cs x vs _ _ => .ok (idealCheck d cs x vs)

theorem ideal_msm (d : ℕ) (l : List (F × BPoly F d)) :
    (idealMsm d (l.map fun e => e.2) (l.map fun e => e.1) : BPoly F d).1
      = (l.map fun e => C e.1 * (e.2 : F[X])).sum := by
  have : (l.map fun e => e.1).zip (l.map fun e => e.2) = l := by
    induction l with
    | nil => rfl
    | cons a l ih => simp [ih]
  unfold idealMsm
  rw [this]
  clear this
  induction l with
  | nil => rfl
  | cons a l ih =>
    simp only [List.map_cons, List.sum_cons]
    rw [← ih, Submodule.coe_add, Submodule.coe_smul, smul_eq_C_mul]

open Classical in
/-- The commitment to a polynomial. -/
noncomputable def idealRep (d : ℕ) (p : F[X]) : BPoly F d :=
  if h : p ∈ degreeLT F d then ⟨p, h⟩ else 0

theorem idealRep_lt {d : ℕ} {p : F[X]} (h : p.degree < d) : (idealRep d p : F[X]) = p := by
  rw [idealRep, dif_pos (mem_degreeLT.2 h)]

/-- The ideal scheme is complete. -/
noncomputable def ideal_complete (d : ℕ) : PcsComplete (idealPcs F d) d where
  rep := idealRep d
  commit := fun p h => by
    simp only [idealPcs, dif_pos (mem_degreeLT.2 h)]
    congr 1
    exact Subtype.ext (idealRep_lt h).symm
  msm := fun l hl => by
    have hs : (l.map fun e => C e.1 * e.2).sum.degree < (d : WithBot ℕ) := by
      induction l with
      | nil => simp
      | cons a l ih =>
        simp only [List.map_cons, List.sum_cons]
        refine lt_of_le_of_lt (degree_add_le _ _) (max_lt ?_ (ih fun x hx => hl x (by simp [hx])))
        have ha := hl a (by simp)
        by_cases h0 : a.1 = 0
        · rw [h0]; simp
        · rw [degree_C_mul h0]; exact ha
    apply Subtype.ext
    rw [idealRep_lt hs]
    have := ideal_msm d (l.map fun e => (e.1, idealRep d e.2))
    simp only [List.map_map] at this
    refine this.trans ?_
    congr 1
    refine List.map_congr_left fun e he => ?_
    simp [idealRep_lt (hl e he)]
  openAt := fun ps x ξ h => by
    refine ⟨(), rfl, ?_⟩
    refine congrArg Except.ok (idealCheck_iff.2 fun e he => ?_)
    have he : e ∈ (ps.map fun p => idealRep d (polyOf p)).zip (ps.map fun p => polyEval p x) := he
    rw [List.zip_map', List.mem_map] at he
    obtain ⟨p, hp, rfl⟩ := he
    simp [idealRep_lt (h p hp), polyEval_eq]

/-- And sound. -/
noncomputable def ideal_sound (d : ℕ) : PcsSound (idealPcs F d) d where
  ext := fun c => (c : BPoly F d).1
  deg := fun c => mem_degreeLT.1 (c : BPoly F d).2
  commit := fun p c h => by
    simp only [idealPcs] at h
    split_ifs at h with hd
    injection h with h
    subst h
    rfl
  msm := fun l => ideal_msm d l
  check := fun cs x vs π ξ h => by
    have h : (Except.ok (idealCheck d cs x vs) : Except PErr Bool) = .ok true := h
    exact idealCheck_iff.1 (by injection h)

end

/-- A field with room for domains of up to `256` elements. -/
def pf7681 : PField K7681 := ⟨⟨8, fun e => [1, 7680, 4298, 1213, 7154, 6315, 2645, 5258, 5685].getD e 0⟩, 17⟩

theorem pf7681_ok : PFieldOk pf7681 where
  root := by
    intro e he
    have he : e ≤ 8 := he
    rcases e with _ | e
    · have : pf7681.fft.root 0 = 1 := by decide +kernel
      rw [this]
      simp
    · have key : ∀ e < 8, ¬ pf7681.fft.root (e + 1) ^ 2 ^ e = 1 ∧
          pf7681.fft.root (e + 1) ^ 2 ^ (e + 1) = 1 := by
        intro e he
        interval_cases e <;> decide +kernel
      have := orderOf_eq_prime_pow (key e (by omega)).1 (key e (by omega)).2
      rw [← this]
      exact IsPrimitiveRoot.orderOf _
  step := by
    intro e he
    have he : e < 8 := he
    interval_cases e <;> decide +kernel
  gen0 := by decide +kernel
  gen := by
    intro e he
    have he : e ≤ 8 := he
    interval_cases e <;> decide +kernel
  nz := by decide +kernel
  k1 := by
    intro e he
    have he : e ≤ 8 := he
    interval_cases e <;> decide +kernel
  k2 := by
    intro e he
    have he : e ≤ 8 := he
    interval_cases e <;> decide +kernel
  k3 := by
    intro e he
    have he : e ≤ 8 := he
    interval_cases e <;> decide +kernel
  k12 := by
    intro e he
    have he : e ≤ 8 := he
    interval_cases e <;> decide +kernel
  k13 := by
    intro e he
    have he : e ≤ 8 := he
    interval_cases e <;> decide +kernel
  k23 := by
    intro e he
    have he : e ≤ 8 := he
    interval_cases e <;> decide +kernel

end VO.Plonk
