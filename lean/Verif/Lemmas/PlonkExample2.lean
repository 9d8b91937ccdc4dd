import Mathlib.Tactic.NormNum.Prime
import Verif.Lemmas.PlonkPerm3
import Verif.Lemmas.PlonkExample

/-
Concrete circuits over the field with 7681 elements, which has domains of up to 512 elements.
-/

set_option linter.unusedSectionVars false

namespace VO.Plonk

open VO.Spec VO.Spec.Plonk

/-- The field with `15 · 2⁹ + 1` elements. -/
abbrev K7681 := ZMod 7681

instance : Fact (Nat.Prime 7681) := ⟨by norm_num⟩

/-- Its representation. -/
def R7681 : FieldRep K7681 := ⟨fun x => ZMod.val x, 256, 13⟩

/-- Some curve coefficients. -/
def E7681 : EdCurve K7681 := ⟨1, 13, fun _ _ => false⟩

/-- Its domains: `13` is not a square. -/
def fft7681 : FftParams K7681 := ⟨9, fun e => 13 ^ (7680 / 2 ^ e)⟩

/-- The domain of eight elements. -/
def D8 : Dom K7681 := ⟨8, 1213⟩

theorem domOk8 : DomOk D8 where
  pos := by decide
  root := by
    refine (IsPrimitiveRoot.iff (by decide)).2 ⟨by decide +kernel, fun l h0 h8 => ?_⟩
    have h8 : l < 8 := h8
    interval_cases l <;> decide +kernel
  nz := by decide +kernel
  k1 := by decide +kernel
  k2 := by decide +kernel
  k3 := by decide +kernel
  k12 := by decide +kernel
  k13 := by decide +kernel
  k23 := by decide +kernel

end VO.Plonk
