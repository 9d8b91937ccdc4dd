import Mathlib.Data.Real.Basic
import Mathlib.Algebra.Order.Archimedean.Real.Basic
import Mathlib.Algebra.Order.Floor.Semiring

/-
Model of `/repo/plonk-hashing/src/poseidon/round_numbers.rs`. The `f32` operations are exact real operations
followed by a rounding function, which is a parameter; `log2` of `f32` is a parameter too. `usize` numbers are
natural numbers without overflow.
-/

namespace VO.Poseidon

/-- `n_sboxes`, round_numbers.rs:15-17. -/
def nSboxes (t rf rp : ℕ) : ℕ := t * rf + rp

/-- The variables of the search: `rf`, `rp`, `n_sboxes_min`. -/
structure Best where
  rf : ℕ
  rp : ℕ
  cost : ℕ
  deriving DecidableEq

/-- The body of the inner loop, round_numbers.rs:60-73, for a given test of security and a given margin for
the partial rounds. The state is the mutable `rf_test` of the outer loop and the best numbers so far. -/
def searchStep (secure : ℕ → ℕ → Bool) (margin : ℕ → ℕ) (t : ℕ) (securityMargin : Bool)
    (s : ℕ × Best) (rpTest : ℕ) : ℕ × Best :=
  if secure s.1 rpTest then
    let rfTest := if securityMargin then s.1 + 2 else s.1
    let rpTest := if securityMargin then margin rpTest else rpTest
    let n := nSboxes t rfTest rpTest
    if n < s.2.cost ∨ (n = s.2.cost ∧ rfTest < s.2.rf) then (rfTest, ⟨rfTest, rpTest, n⟩)
    else (rfTest, s.2)
  else s

/-- `calc_round_numbers`, round_numbers.rs:50-78, for a given test of security and margin. -/
def calcWith (secure : ℕ → ℕ → Bool) (margin : ℕ → ℕ) (t : ℕ) (securityMargin : Bool) : ℕ × ℕ :=
  let best := ((List.range 500).map fun i => 2 * i + 2).foldl
    (fun (b : Best) rfTest =>
      (((List.range 196).map fun i => i + 4).foldl (searchStep secure margin t securityMargin) (rfTest, b)).2)
    ⟨0, 0, 2 ^ 64 - 1⟩
  (best.rf, best.rp)

section float

open Classical in
/-- `round_numbers_are_secure`, round_numbers.rs:82-99. `rnd` rounds the result of an operation and a
constant; numbers cast from `usize` and small integers are not rounded. A negative number is cast to zero. -/
noncomputable def areSecure (rnd : ℝ → ℝ) (log2 : ℕ → ℝ) (t rf rp : ℕ) : Bool :=
  let n : ℝ := 256
  let m : ℝ := 128
  let rfStat : ℝ := if m ≤ rnd (rnd (n - 3) * rnd (t + 1)) then 6 else 10
  let rfInterp := rnd (rnd (rnd (rnd 0.43 * m) + log2 t) - rp)
  let rfGrob1 := rnd (rnd (rnd 0.21 * n) - rp)
  let rfGrob2 := rnd (rnd (rnd (rnd (rnd 0.14 * n) - 1) - rp) / rnd (t - 1))
  let rfMax := max (max (max ⌈rfStat⌉₊ ⌈rfInterp⌉₊) ⌈rfGrob1⌉₊) ⌈rfGrob2⌉₊
  decide (rfMax ≤ rf)

/-- The margin of `calc_round_numbers`, round_numbers.rs:64. -/
noncomputable def marginOf (rnd : ℝ → ℝ) (rp : ℕ) : ℕ := ⌈rnd (rnd 1.075 * rp)⌉₊

/-- `calc_round_numbers`, round_numbers.rs:50-78. -/
noncomputable def calcRoundNumbers (rnd : ℝ → ℝ) (log2 : ℕ → ℝ) (t : ℕ) (securityMargin : Bool) : ℕ × ℕ :=
  calcWith (areSecure rnd log2 t) (marginOf rnd) t securityMargin

/-- `round_numbers_base`, round_numbers.rs:21-24. -/
noncomputable def roundNumbersBase (rnd : ℝ → ℝ) (log2 : ℕ → ℝ) (arity : ℕ) : ℕ × ℕ :=
  calcRoundNumbers rnd log2 (arity + 1) true

/-- `round_numbers_strengthened`, round_numbers.rs:36-44; a `usize` below `2^53` is not rounded as `f64`. -/
noncomputable def roundNumbersStrengthened (rnd : ℝ → ℝ) (log2 : ℕ → ℝ) (rnd64 : ℝ → ℝ) (arity : ℕ) : ℕ × ℕ :=
  let r := roundNumbersBase rnd log2 arity
  (r.1, ⌈rnd64 ((r.2 : ℝ) * 1.25)⌉₊)

end float

end VO.Poseidon
