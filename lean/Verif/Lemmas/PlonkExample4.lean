import Verif.Lemmas.PlonkExample3
import Verif.Lemmas.PlonkLookup3

/-
The small circuit with a public input for which it cannot be satisfied.
-/

namespace VO.Plonk

open VO.Spec VO.Spec.Plonk

/-- With public input `1` the looked up `s` would be `2`, which is not in the table. -/
theorem exC_unsat : ¬ ∃ w x, Sat E7681 (padRows (exC 0 0).lookup_table 8) 8 (exC 0 0)
    (piAt [(5, 1)]) w x := by
  rintro ⟨w, x, h⟩
  have h4 := (h.rows 4 (by decide +kernel)).lookup (by decide +kernel)
  have h5 := (h.rows 5 (by decide +kernel)).arith
  have e4 : w (.left 4) = x 9 := h.copy 9 _ (by
    refine ⟨(exC 0 0).perm.getD 9 [], ?_, ?_⟩ <;> decide +kernel)
  have e5 : w (.left 5) = x 9 := h.copy 9 _ (by
    refine ⟨(exC 0 0).perm.getD 9 [], ?_, ?_⟩ <;> decide +kernel)
  have ht : (exC 0 0).lookup_table = [(1, 2, 3, 0), (4, 5, 6, 0)] := by decide +kernel
  rw [ht, mem_padRows (by simp)] at h4
  have hg : gateAt (exC 0 0) 5 = ⟨0, 1, 0, 0, 0, -3, 0, 0, 0, 1, 0, 0, 0, 0, 0⟩ := by decide +kernel
  rw [hg] at h5
  simp only [ArithOk, rowAt, piAt, List.find?] at h4 h5
  rw [e5] at h5
  rw [e4] at h4
  have hx : x 9 = 2 := by
    have : x 9 = 3 - 1 := by simp at h5; linear_combination h5
    rw [this]; decide +kernel
  rw [hx] at h4
  have n1 : (2 : K7681) ≠ 1 := by decide +kernel
  have n4 : (2 : K7681) ≠ 4 := by decide +kernel
  rcases List.mem_cons.1 h4 with h | h
  · exact n1 (congrArg Prod.fst h)
  · exact n4 (congrArg Prod.fst (List.mem_singleton.1 h))

end VO.Plonk
