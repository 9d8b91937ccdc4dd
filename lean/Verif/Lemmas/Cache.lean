import Verif.Lemmas.Fft

set_option linter.unusedSectionVars false

namespace VO
open Spec

variable {F : Type} [Field F] [DecidableEq F]

/-- Every entry of the cache is the evaluation of `p` on the domain of that size. -/
def DictOk (fft : FftParams F) (p : List F) (d : EvalDict F) : Prop :=
  ∀ e v, d.lookup (2 ^ e) = some v → v = dft (fft.root e) (2 ^ e) p

theorem dictOk_nil (fft : FftParams F) (p : List F) : DictOk fft p [] := by
  intro e v h; simp at h

theorem getEval_spec (fft : FftParams F) (p : List F) (d : EvalDict F) (e : ℕ)
    (h : DictOk fft p d) :
    (getEval fft p d e).1 = dft (fft.root e) (2 ^ e) p ∧ DictOk fft p (getEval fft p d e).2 := by
  unfold getEval
  split
  · next v hv => exact ⟨h e v hv, h⟩
  · next hv =>
    refine ⟨rfl, ?_⟩
    intro e' v hl
    rw [List.lookup_cons] at hl
    by_cases he : e' = e
    · subst he; simp at hl; exact hl.symm
    · have : (2 ^ e' == 2 ^ e) = false := by
        simp only [beq_eq_false_iff_ne, ne_eq]
        intro hc; exact he (Nat.pow_right_injective (le_refl 2) hc)
      rw [this] at hl
      exact h e' v hl

theorem vectorPolyMulDict_spec (fft : FftParams F) (u v : List F) (omega : F) (ld rd : EvalDict F)
    (hl : DictOk fft (polyFromVec (vectorReverseOmega u omega)) ld)
    (hr : DictOk fft (polyFromVec v) rd) :
    (∃ x, vectorPolyMulDict fft u v omega ld rd = .error x ∧ vectorPolyMul fft u v omega = .error x) ∨
    (∃ r ld' rd', vectorPolyMulDict fft u v omega ld rd = .ok (r, ld', rd') ∧
      vectorPolyMul fft u v omega = .ok r ∧
      DictOk fft (polyFromVec (vectorReverseOmega u omega)) ld' ∧
      DictOk fft (polyFromVec v) rd') := by
  unfold vectorPolyMulDict vectorPolyMul
  cases hd : domainLog fft (u.length + v.length) with
  | error x => left; exact ⟨x, rfl, rfl⟩
  | ok e =>
    right
    simp only [bind, Except.bind, pure, Except.pure]
    obtain ⟨a1, a2⟩ := getEval_spec fft _ ld e hl
    obtain ⟨b1, b2⟩ := getEval_spec fft _ rd e hr
    generalize getEval fft (polyFromVec (vectorReverseOmega u omega)) ld e = x at a1 a2
    generalize getEval fft (polyFromVec v) rd e = y at b1 b2
    obtain ⟨x1, x2⟩ := x
    obtain ⟨y1, y2⟩ := y
    dsimp only at a1 b1 a2 b2
    subst a1 b1
    exact ⟨_, x2, y2, rfl, rfl, a2, b2⟩

end VO
