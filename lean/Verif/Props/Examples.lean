import Verif.Props.Completes
import Verif.Spec.Examples
import Verif.Props.ProverOkFib
import Verif.Props.ProverOkR1cs
import Verif.Props.ProverOkR1csPe
import Verif.Props.ProverOkHpr
import Verif.Props.RangeCheck
import Verif.Props.Cs
import Verif.Props.Kzg
import Verif.Lemmas.PlonkExample2
import Verif.Lemmas.SnarkExample
import Mathlib.Data.Int.Log
import Mathlib.FieldTheory.Finite.Basic
import Mathlib.Algebra.Order.Round
import Mathlib.Tactic.FieldSimp
import Mathlib.Tactic.GCongr

set_option linter.unusedSectionVars false

/-
Theorems about the example program `main.rs` and the circuit of the benches (C128).
-/

namespace VO
open Spec Plonk

variable {F G1 G2 GT : Type} [Field F] [DecidableEq F]
  [AddCommGroup G1] [Module F G1] [DecidableEq G1] [AddCommGroup G2] [Module F G2]
  [AddCommGroup GT] [Module F GT] [DecidableEq GT]

/-! ## Fibonacci -/

theorem fibExample_go (n m : ℕ) (hm : m ≤ n) :
    (List.range m).foldl (fun w i =>
      w ++ [w.getD (w.length - 2) 0 + w.getD (w.length - 1) 0 * (fibExampleT n : List F).getD i 0])
      [1, 1] = (List.range (m + 2)).map (fibTerm : ℕ → F) := by
  induction m with
  | zero => rfl
  | succ m ih =>
    rw [List.range_succ, List.foldl_append, ih (by omega), List.foldl_cons, List.foldl_nil]
    rw [show m + 1 + 2 = (m + 2) + 1 from rfl, List.range_succ (n := m + 2), List.map_append]
    congr 1
    simp only [List.length_map, List.length_range, List.map_cons, List.map_nil]
    rw [show m + 2 - 2 = m from rfl, show m + 2 - 1 = m + 1 from rfl,
      List.getD_eq_getElem _ _ (by simp), List.getD_eq_getElem _ _ (by simp),
      List.getD_eq_getElem _ _ (by simp [fibExampleT]; omega)]
    simp [fibExampleT, fibTerm]

theorem fibExampleVec_eq (n : ℕ) :
    (fibExampleVec n : List F) = (List.range (n + 2)).map (fibTerm : ℕ → F) :=
  fibExample_go n n le_rfl

theorem fibExampleWitness_eq (n : ℕ) :
    (fibExampleWitness n : List F) = (List.range n).map (fun i => fibTerm (i + 2)) := by
  rw [fibExampleWitness, fibExampleVec_eq]
  apply List.ext_getElem
  · simp
  · intro i h1 h2
    simp [add_comm]

theorem fibExampleInstance_eq (n : ℕ) :
    (fibExampleInstance n : FibInstance F) = ⟨1, 1, fibTerm (n + 1)⟩ := by
  rw [fibExampleInstance, fibExampleVec_eq, List.range_succ]
  simp [List.getLastD_eq_getLast?]

/-- **C128.** `run_fibonacci_example(n)` for every `n ≥ 2`: the instance it makes claims the right term
of the recurrence, the witness satisfies it, setup and indexing succeed, the outcome is that of `prove`
(verification never fails), and `prove` succeeds unless a challenge takes an exceptional value. -/
theorem C128_fibonacci (env : Env F G1 G2 GT) (hf : FftOk env.fft) (β : F) (g : G1) (h : G2) (n : ℕ)
    (hn : 2 ≤ n) (hfft : 2 * n + 1 ≤ 2 ^ env.fft.twoAdicity) :
    ∃ pp pk vk, kzgSetup (n + 2) β g h = .ok pp ∧
      fibIndex pp ⟨n, (List.range n).map (fun (i : ℕ) => (i : F))⟩ = .ok (pk, vk) ∧
      let x : FibInstance F := ⟨1, 1, fibTerm (n + 1)⟩
      let w : List F := (List.range n).map (fun i => fibTerm (i + 2))
      FibHolds n (fun i => ((List.range n).map (fun (i : ℕ) => (i : F))).getD i 0) x.a x.b x.c
        (fun i => w.getD i 0) ∧
      runFibonacciExample env β g h n = (fibProve env pk x w).map (fun _ => ()) ∧
      FibCompletes env β g (n + 2) n ((List.range n).map (fun (i : ℕ) => (i : F))) x w pk vk := by
  have hs : ∃ pp : UniversalParams G1 G2, kzgSetup (n + 2) β g h = .ok pp := by
    unfold kzgSetup
    rw [if_neg (by omega)]
    exact ⟨_, rfl⟩
  obtain ⟨pp, hs⟩ := hs
  have hrel : FibHolds n (fun i => ((List.range n).map (fun (i : ℕ) => (i : F))).getD i 0) 1 1
      (fibTerm (n + 1)) (fun i => ((List.range n).map (fun i => (fibTerm (i + 2) : F))).getD i 0) := by
    have ht : ∀ i, i < n → ((List.range n).map (fun (i : ℕ) => (i : F))).getD i 0 = (i : F) := by
      intro i hi
      rw [List.getD_eq_getElem _ _ (by simpa using hi)]; simp
    have hw : ∀ i, i < n →
        ((List.range n).map (fun i => (fibTerm (i + 2) : F))).getD i 0 = fibTerm (i + 2) := by
      intro i hi
      rw [List.getD_eq_getElem _ _ (by simpa using hi)]; simp
    refine ⟨?_, ?_, ?_, ?_⟩
    · simp only
      rw [hw 0 (by omega), ht 0 (by omega)]; rfl
    · simp only
      rw [hw 1 (by omega), hw 0 (by omega), ht 1 (by omega)]; rfl
    · intro i hi
      simp only
      rw [hw (i + 2) hi, hw i (by omega), hw (i + 1) (by omega), ht (i + 2) hi]; rfl
    · simp only
      rw [hw (n - 1) (by omega)]
      congr 1; omega
  obtain ⟨pk, vk, hidx, hcomp⟩ := C37_complete env hf β g h (n + 2) pp hs n hn le_rfl
    ((List.range n).map (fun (i : ℕ) => (i : F))) (by simp) hfft ⟨1, 1, fibTerm (n + 1)⟩
    ((List.range n).map (fun i => fibTerm (i + 2))) (by simp) hrel
  refine ⟨pp, pk, vk, hs, hidx, hrel, ?_, hcomp⟩
  unfold runFibonacciExample
  rw [fibExampleInstance_eq, fibExampleWitness_eq, fibMaxDegree, hs]
  simp only [bind, Except.bind, fibExampleT, hidx]
  rcases hp : fibProve env pk _ _ with e | π
  · rfl
  · exact C81_fibonacci env β g h (n + 2) pp hs _ (by simp) pk vk hidx _ _ π hp

/-! ## Range check -/

/-- **C128.** The witness of `run_range_check_example` is in range, for every `n` up to `2⁵⁰`, every
range and every floating-point rounding with the guarantee of IEEE 754. -/
theorem C128_range_witness (fl : ℚ → ℚ) (hfl : RoundsTo53Bits fl) (n range : ℕ) (hn : n ≤ 2 ^ 50)
    (hr : 0 < range) :
    (rangeExampleWitness fl n range : List F).length = n ∧
    InRangeHolds n range (fun i => (rangeExampleWitness fl n range : List F).getD i 0) := by
  refine ⟨by simp [rangeExampleWitness], fun i hi => ?_⟩
  refine ⟨⌊fl (fl (fl (range : ℚ) * fl (i : ℚ)) / fl (n : ℚ))⌋₊, ?_, ?_⟩
  · -- bounds of the rounding
    have up : ∀ q : ℚ, 0 ≤ q → fl q ≤ q * (1 + 1 / 2 ^ 53) := by
      intro q hq
      have := (abs_le.mp (hfl q hq)).2
      linarith [this, show q * (1 + 1 / 2 ^ 53) = q + q / 2 ^ 53 by ring]
    have lo : ∀ q : ℚ, 0 ≤ q → q * (1 - 1 / 2 ^ 53) ≤ fl q := by
      intro q hq
      have := (abs_le.mp (hfl q hq)).1
      linarith [this, show q * (1 - 1 / 2 ^ 53) = q - q / 2 ^ 53 by ring]
    have nn : ∀ q : ℚ, 0 ≤ q → 0 ≤ fl q := fun q hq =>
      le_trans (mul_nonneg hq (by norm_num)) (lo q hq)
    set R : ℚ := (range : ℚ) with hR
    have hR0 : 0 < R := by rw [hR]; exact_mod_cast hr
    have hn0 : (0 : ℚ) < n := by exact_mod_cast (by omega : 0 < n)
    have hi0 : (0 : ℚ) ≤ i := by positivity
    have hin : (i : ℚ) ≤ n - 1 := by
      have : i + 1 ≤ n := hi
      have : ((i + 1 : ℕ) : ℚ) ≤ n := by exact_mod_cast this
      push_cast at this; linarith
    have hn50 : (n : ℚ) ≤ 2 ^ 50 := by exact_mod_cast hn
    have h1 : fl R * fl i ≤ (R * i) * (1 + 1 / 2 ^ 53) ^ 2 := by
      calc fl R * fl i ≤ (R * (1 + 1 / 2 ^ 53)) * (i * (1 + 1 / 2 ^ 53)) :=
            mul_le_mul (up R hR0.le) (up i hi0) (nn _ hi0) (mul_nonneg hR0.le (by norm_num))
        _ = _ := by ring
    have h1n : 0 ≤ fl R * fl i := mul_nonneg (nn _ hR0.le) (nn _ hi0)
    have h2 : fl (fl R * fl i) ≤ (R * i) * (1 + 1 / 2 ^ 53) ^ 3 := by
      calc _ ≤ (fl R * fl i) * (1 + 1 / 2 ^ 53) := up _ h1n
        _ ≤ ((R * i) * (1 + 1 / 2 ^ 53) ^ 2) * (1 + 1 / 2 ^ 53) :=
            mul_le_mul_of_nonneg_right h1 (by norm_num)
        _ = _ := by ring
    have h3 : (n : ℚ) * (1 - 1 / 2 ^ 53) ≤ fl n := lo _ hn0.le
    have h3p : 0 < fl (n : ℚ) := lt_of_lt_of_le (mul_pos hn0 (by norm_num)) h3
    have h4n : 0 ≤ fl (fl R * fl i) / fl n := div_nonneg (nn _ h1n) h3p.le
    have h5 : fl (fl (fl R * fl i) / fl n) < R := by
      refine lt_of_le_of_lt (up _ h4n) ?_
      rw [div_mul_eq_mul_div, div_lt_iff₀ h3p]
      refine lt_of_lt_of_le ?_ (mul_le_mul_of_nonneg_left h3 hR0.le)
      refine lt_of_le_of_lt (mul_le_mul_of_nonneg_right h2 (by norm_num)) ?_
      have h6 : (i : ℚ) * (1 + 1 / 2 ^ 53) ^ 4 < n * (1 - 1 / 2 ^ 53) := by
        have : (i : ℚ) * (1 + 1 / 2 ^ 53) ^ 4 ≤ (n - 1) * (1 + 1 / 2 ^ 53) ^ 4 :=
          mul_le_mul_of_nonneg_right hin (by norm_num)
        refine lt_of_le_of_lt this ?_
        have e : (1 + 1 / 2 ^ 53 : ℚ) ^ 4 < 1 + 5 / 2 ^ 53 := by norm_num
        have e2 : (n - 1 : ℚ) * (1 + 1 / 2 ^ 53) ^ 4 ≤ (n - 1) * (1 + 5 / 2 ^ 53) := by
          apply mul_le_mul_of_nonneg_left e.le
          have : (1 : ℚ) ≤ n := by exact_mod_cast (by omega : 1 ≤ n)
          linarith
        refine lt_of_le_of_lt e2 ?_
        have : (n : ℚ) * (6 / 2 ^ 53) < 1 + 5 / 2 ^ 53 := by
          have : (n : ℚ) * (6 / 2 ^ 53) ≤ 2 ^ 50 * (6 / 2 ^ 53) :=
            mul_le_mul_of_nonneg_right hn50 (by norm_num)
          refine lt_of_le_of_lt this (by norm_num)
        linarith
      calc R * i * (1 + 1 / 2 ^ 53) ^ 3 * (1 + 1 / 2 ^ 53) = R * (i * (1 + 1 / 2 ^ 53) ^ 4) := by ring
        _ < R * (n * (1 - 1 / 2 ^ 53)) := mul_lt_mul_of_pos_left h6 hR0
    exact (Nat.floor_lt (nn _ h4n)).mpr h5
  · beta_reduce
    rw [List.getD_eq_getElem _ _ (by simpa [rangeExampleWitness] using hi)]
    simp [rangeExampleWitness]

/-- **C128.** `run_range_check_example(n, range)`: setup and indexing succeed and the outcome is that of
`prove`.  If the fifth blinding value is not zero, `prove` fails unless a hash is zero (so the example
normally aborts, see C45); if it is zero and `n ≤ range`, `prove` succeeds with an accepted proof unless a
challenge takes an exceptional value. -/
theorem C128_range_check (fl : ℚ → ℚ) (hfl : RoundsTo53Bits fl) (env : Env F G1 G2 GT)
    (hf : FftOk env.fft) (τ : F) (g : G1) (h : G2) (n range : ℕ) (hn : 1 ≤ n) (hn50 : n ≤ 2 ^ 50)
    (hr : 1 ≤ range) (h2 : 2 ≤ max n range) :
    ∃ pp pk vk, kzgSetup (max n range) τ g h = .ok pp ∧
      rcIndex (F := F) pp ⟨n, range⟩ = .ok (pk, vk) ∧
      let w : List F := rangeExampleWitness fl n range
      runRangeCheckExample fl env τ g h n range = (rcProve env pk w).map (fun _ => ()) ∧
      (env.rngF 4 ≠ 0 → ∀ π, rcProve env pk w = .ok π →
        env.hash [.fld 1, .cm vk.cmT, .cm π.cmW, .cm π.cmM, .cm π.cmR, .cm π.cmS, .cm π.cmRt] = 0) ∧
      (env.rngF 4 = 0 → n ≤ range → 2 * range + 2 ≤ 2 ^ env.fft.twoAdicity →
        (∀ i j : ℕ, i < range → j < range → (i : F) = (j : F) → i = j) →
        RcCompletes env τ g range ⟨n, range⟩ w pk vk) := by
  have hs : ∃ pp : UniversalParams G1 G2, kzgSetup (max n range) τ g h = .ok pp := by
    unfold kzgSetup
    rw [if_neg (by omega)]
    exact ⟨_, rfl⟩
  obtain ⟨pp, hs⟩ := hs
  obtain ⟨kvk, hvk, hidx⟩ := rcIndex_ok (F := F) τ g h (max n range) pp hs ⟨n, range⟩ (by simpa using hr)
    (by simp [RangeCheck.n])
  obtain ⟨wl, hin⟩ := C128_range_witness (F := F) fl hfl n range hn50 hr
  refine ⟨pp, _, _, hs, hidx, ?_, ?_, ?_⟩
  · unfold runRangeCheckExample
    simp only [RangeCheck.n, hs, bind, Except.bind, hidx]
    rcases hp : rcProve env _ _ with e | π
    · rfl
    · exact C81_range_check env τ g h (max n range) pp hs _ _ _ hidx _ π hp
  · intro hδ π hp
    exact C45_prover_aborts env _ (by simpa using hn) (by simpa using h2) hδ _ π hp
  · intro hδ hnr hfft hinj
    have hmax : max n range = range := max_eq_right hnr
    rw [hmax] at hs h2
    obtain ⟨pk', vk', hidx', hc⟩ := C45_complete env hf τ g h range pp hs ⟨n, range⟩ hn hnr le_rfl h2 hinj hfft
      (rangeExampleWitness fl n range) (by rw [wl]; exact hnr) hin hδ
    rw [hidx] at hidx'
    obtain ⟨rfl, rfl⟩ := Prod.mk.inj (Except.ok.inj hidx')
    exact hc

/-! ## R1CS -/

theorem length_arkSparse (m : List (List (F × ℕ))) :
    SameLengths (arkSparse m) ∧ (arkSparse m).rows.length = (m.map List.length).sum := by
  refine ⟨⟨by simp [arkSparse], by simp [arkSparse]⟩, ?_⟩
  simp only [arkSparse, List.length_map, arkTriples, List.length_flatMap]
  congr 1
  apply List.ext_getElem
  · simp
  · intro i h1 h2
    simp

theorem inRange_arkSparse (m : List (List (F × ℕ))) (h k : ℕ) (hh : m.length ≤ h)
    (hk : ∀ row ∈ m, ∀ e ∈ row, e.2 < k) : InRange (arkSparse m) h k := by
  intro e he
  rw [triples_arkSparse] at he
  obtain ⟨t, ht, rfl⟩ := List.mem_map.mp he
  obtain ⟨row, hr, e', he', rfl⟩ := by simpa only [arkTriples, List.mem_flatMap, List.mem_map] using ht
  have h1 := List.mem_zipIdx hr
  refine ⟨?_, ?_⟩
  · simp only; omega
  · refine hk row.1 ?_ e' he'
    obtain ⟨-, h2, h3⟩ := h1
    rw [h3]
    exact List.getElem_mem _

theorem getD_mid {α : Type} (l1 l2 l3 : List α) (d : α) (m k i : ℕ) (h1 : l1.length = m)
    (h2 : l2.length = k) (hi : m ≤ i) (hk : i < m + k) :
    (l1 ++ l2 ++ l3).getD i d = l2.getD (i - m) d := by
  rw [List.getD_append _ _ _ _ (by simp; omega), List.getD_append_right _ _ _ _ (by omega), h1]

theorem getD_last {α : Type} (l1 l2 : List α) (x d : α) (m k : ℕ) (h1 : l1.length = m)
    (h2 : l2.length = k) : (l1 ++ l2 ++ [x]).getD (m + k) d = x := by
  rw [List.getD_append_right _ _ _ _ (by simp; omega)]
  simp [h1, h2]

/-- **C128.** The system that `TestCircuit` generates (`v` variables and `c` constraints): its sizes, the
number of its entries, and the assignments that satisfy it. -/
theorem C128_test_circuit (v c : ℕ) (hv : 3 ≤ v) (hc : 1 ≤ c) :
    ∃ m r, testCircuit (F := F) v c = .ok m ∧ R1CS.ofArk m = .ok r ∧ R1csLens r ∧
      r.nrows = v - 3 + c ∧ r.ncols = v + 1 ∧ r.inputSize = 3 ∧
      r.a.rows.length = 2 * (v - 3) + (c - 1) ∧ r.b.rows.length = v - 3 + (c - 1) ∧
      r.c.rows.length = 2 * (v - 3) + (c - 1) ∧
      (∀ x w : List F, 1 + x.length + w.length = v + 1 → R1CSShape r x w) ∧
      ∀ (a b d : F) (w : List F), w.length = v - 3 →
        (R1CSHolds r [a, b, d] w ↔ (∀ y ∈ w, y = a) ∧ (2 ≤ c → a * b = d)) := by
  obtain ⟨m, rfl⟩ : ∃ m, v = m + 3 := ⟨v - 3, by omega⟩
  obtain ⟨k, rfl⟩ : ∃ k, c = k + 1 := ⟨c - 1, by omega⟩
  set M : ArkMatrices F := {
    numInstanceVariables := 4
    numWitnessVariables := m
    numConstraints := m + k + 1
    a := List.replicate m [(1, 1), (1, 2)] ++ List.replicate k [(1, 1)] ++ [[]]
    b := List.replicate m [(1, 0)] ++ List.replicate k [(1, 2)] ++ [[]]
    c := (List.range m).map (fun i => [(1, 2), (1, 4 + i)]) ++ List.replicate k [(1, 3)] ++ [[]] }
    with hM
  have hcol : ∀ row ∈ M.a ++ M.b ++ M.c, ∀ e ∈ row,
      e.2 < M.numInstanceVariables + M.numWitnessVariables := by
    intro row hrow e he
    simp only [hM, List.mem_append, List.mem_replicate, List.mem_map, List.mem_range,
      List.mem_singleton] at hrow
    have hMw : M.numWitnessVariables = m := rfl
    have hMi : M.numInstanceVariables = 4 := rfl
    rw [hMw, hMi]
    rcases hrow with ((((⟨-, rfl⟩ | ⟨-, rfl⟩) | rfl) | ((⟨-, rfl⟩ | ⟨-, rfl⟩) | rfl)) |
      ((⟨i, hi, rfl⟩ | ⟨-, rfl⟩) | rfl)) <;>
      simp only [List.mem_cons, List.not_mem_nil, or_false, List.mem_nil_iff] at he <;>
      (try rcases he with rfl | rfl) <;> (try subst he) <;> simp <;> omega
  obtain ⟨r, hr, hnr, hnc, hin, hiff⟩ := C51_ark_conversion M (by simp [hM]) hcol
  have hr2 := hr
  rw [R1CS.ofArk, if_neg (by simp [hM])] at hr2
  obtain rfl := Except.ok.inj hr2
  have la := length_arkSparse M.a
  have lb := length_arkSparse M.b
  have lc := length_arkSparse M.c
  refine ⟨M, _, ?_, hr, ⟨la.1, lb.1, lc.1⟩, ?_, ?_, ?_, ?_, ?_, ?_, ?_, ?_⟩
  · simp [testCircuit, assertR, hM, bind, Except.bind, pure, Except.pure]
  · simp [hM, Nat.add_assoc]
  · simp only [hM]; omega
  · simp [hM]
  · refine la.2.trans ?_
    simp [hM]; omega
  · refine lb.2.trans ?_
    simp [hM]
  · refine lc.2.trans ?_
    have : (List.map (List.length ∘ fun i => [((1 : F), 2), (1, 4 + i)]) (List.range m)).sum = 2 * m := by
      rw [show (List.length ∘ fun i => [((1 : F), 2), (1, 4 + i)]) = fun _ => 2 from rfl]
      simp [mul_comm]
    simp [hM, this]
  · intro x w hl
    refine ⟨by simp [hM], by simp [hM], ?_, ?_, ?_, ?_⟩
    · simp only [hM]; omega
    · exact inRange_arkSparse _ _ _ (by simp [hM]; omega) (fun row hr => hcol row (by simp [hr]))
    · exact inRange_arkSparse _ _ _ (by simp [hM]; omega) (fun row hr => hcol row (by simp [hr]))
    · exact inRange_arkSparse _ _ _ (by simp [hM]; omega) (fun row hr => hcol row (by simp [hr]))
  · intro a b d w hw
    rw [hiff]
    have hwm : w.length = m := by omega
    constructor
    · intro hall
      refine ⟨fun y hy => ?_, fun hk => ?_⟩
      · obtain ⟨i, hi, rfl⟩ := List.getElem_of_mem hy
        have := hall i (by simp only [hM]; omega)
        simp only [hM] at this
        rw [List.getD_append _ _ _ _ (by simp; omega), List.getD_append _ _ _ _ (by simp; omega),
          List.getD_append _ _ _ _ (by simp; omega), List.getD_append _ _ _ _ (by simp; omega),
          List.getD_append _ _ _ _ (by simp; omega), List.getD_append _ _ _ _ (by simp; omega),
          List.getD_eq_getElem _ _ (by simp; omega), List.getD_eq_getElem _ _ (by simp; omega),
          List.getD_eq_getElem _ _ (by simp; omega)] at this
        simp only [List.getElem_replicate, List.getElem_map, List.getElem_range, lcValue,
          List.map_cons, List.map_nil, List.sum_cons, List.sum_nil, List.cons_append, List.nil_append,
          show 4 + i = i + 1 + 1 + 1 + 1 by omega, List.getD_cons_succ, List.getD_cons_zero] at this
        rw [List.getD_eq_getElem _ _ hi] at this
        linear_combination -this
      · have := hall m (by simp only [hM]; omega)
        simp only [hM] at this
        rw [getD_mid _ _ _ _ m k m (by simp) (by simp) le_rfl (by omega),
          getD_mid _ _ _ _ m k m (by simp) (by simp) le_rfl (by omega),
          getD_mid _ _ _ _ m k m (by simp) (by simp) le_rfl (by omega),
          List.getD_eq_getElem _ _ (by simp; omega), List.getD_eq_getElem _ _ (by simp; omega),
          List.getD_eq_getElem _ _ (by simp; omega)] at this
        simpa [lcValue] using this
    · rintro ⟨hwa, hab⟩ i hi
      simp only [hM] at hi ⊢
      rcases Nat.lt_or_ge i m with h1 | h1
      · rw [List.getD_append _ _ _ _ (by simp; omega), List.getD_append _ _ _ _ (by simp; omega),
          List.getD_append _ _ _ _ (by simp; omega), List.getD_append _ _ _ _ (by simp; omega),
          List.getD_append _ _ _ _ (by simp; omega), List.getD_append _ _ _ _ (by simp; omega),
          List.getD_eq_getElem _ _ (by simp; omega), List.getD_eq_getElem _ _ (by simp; omega),
          List.getD_eq_getElem _ _ (by simp; omega)]
        simp only [List.getElem_replicate, List.getElem_map, List.getElem_range, lcValue,
          List.map_cons, List.map_nil, List.sum_cons, List.sum_nil, List.cons_append, List.nil_append,
          show 4 + i = i + 1 + 1 + 1 + 1 by omega, List.getD_cons_succ, List.getD_cons_zero]
        rw [List.getD_eq_getElem _ _ (by omega), hwa _ (List.getElem_mem _)]
        ring
      · rcases Nat.lt_or_ge i (m + k) with h2 | h2
        · rw [getD_mid _ _ _ _ m k i (by simp) (by simp) h1 h2,
            getD_mid _ _ _ _ m k i (by simp) (by simp) h1 h2,
            getD_mid _ _ _ _ m k i (by simp) (by simp) h1 h2,
            List.getD_eq_getElem _ _ (by simp; omega), List.getD_eq_getElem _ _ (by simp; omega),
            List.getD_eq_getElem _ _ (by simp; omega)]
          simpa [lcValue] using hab (by omega)
        · obtain rfl : i = m + k := by omega
          rw [getD_last _ _ _ _ m k (by simp) (by simp), getD_last _ _ _ _ m k (by simp) (by simp),
            getD_last _ _ _ _ m k (by simp) (by simp)]
          simp [lcValue]

/-- **C128.** `run_r1cs_example` for every number `v ≥ 5` of variables, `1 ≤ c ≤ 2 v - 4` of constraints
and inputs `a`, `b` (the program has `v = c = 5`): the generated system is satisfied, setup and indexing
succeed, the outcome is that of `prove` (verification never fails), and `prove` succeeds unless a challenge
takes an exceptional value. -/
theorem C128_r1cs (env : Env F G1 G2 GT) (hf : FftOk env.fft) (hγ : env.gamma ≠ 0) (τ : F) (g : G1)
    (h : G2) (v c extra : ℕ) (hv : 5 ≤ v) (hc : 1 ≤ c) (hcv : c ≤ 2 * v - 4)
    (hfft : 2 * (6 * v + 3 * c) ≤ 2 ^ env.fft.twoAdicity) (a b : F) :
    ∃ m r D pp pk vk, testCircuit (F := F) v c = .ok m ∧ R1CS.ofArk m = .ok r ∧
      r.satisfy [a, b, a * b] (List.replicate (v - 3) a) = .ok true ∧
      kzgSetup D τ g h = .ok pp ∧ r1csIndex env.gamma pp r = .ok (pk, vk) ∧
      runR1csExample env τ g h v c extra a b
        = (r1csProve env pk [a, b, a * b] (List.replicate (v - 3) a)).map (fun _ => ()) ∧
      R1csCompletes env τ g D r (v - 3 + c) (v + 1) (5 * (v - 3) + 3 * (c - 1)) [a, b, a * b]
        (List.replicate (v - 3) a) pk vk := by
  obtain ⟨m, r, hm, hr, hl, h1, h2, h3, l1, l2, l3, hsh, hiff⟩ :=
    C128_test_circuit (F := F) v c (by omega) hc
  have hshape := hsh [a, b, a * b] (List.replicate (v - 3) a) (by simp; omega)
  have hsat := (C24_satisfy r _ _ hshape).1.mpr
    ((hiff a b (a * b) (List.replicate (v - 3) a) (by simp)).mpr
      ⟨fun y hy => List.eq_of_mem_replicate hy, fun _ => rfl⟩)
  set D := r1csMaxDegree ⟨r.nrows, r.ncols, r.a.rows.length, r.b.rows.length, r.c.rows.length,
    r.inputSize⟩ + extra with hD
  have hDv : 2 * ((v + 1) + (5 * (v - 3) + 3 * (c - 1))) - (v - 3 + c) ≤ D := by
    rw [hD, r1csMaxDegree]
    simp only [h1, h2, l1, l2, l3]
    omega
  have hs : ∃ pp : UniversalParams G1 G2, kzgSetup D τ g h = .ok pp := by
    unfold kzgSetup
    rw [if_neg (by omega)]
    exact ⟨_, rfl⟩
  obtain ⟨pp, hs⟩ := hs
  obtain ⟨-, -, -, -, f4⟩ := stacked_facts r hl
  obtain ⟨pk, vk, hidx, hcomp⟩ := C43_complete env hf hγ τ g h D pp hs r hl (v - 3 + c) (v + 1)
    (5 * (v - 3) + 3 * (c - 1)) h1.symm h2.symm (by rw [f4, l1, l2, l3]; omega) (by omega) (by omega)
    hDv (by omega) [a, b, a * b] (List.replicate (v - 3) a) hshape (by rw [h3]; simp) hsat
  refine ⟨m, r, D, pp, pk, vk, hm, hr, hsat, hs, hidx, ?_, hcomp⟩
  unfold runR1csExample
  simp only [hm, bind, Except.bind, hr, getSize_ok r hl, ← hD, hs, hidx, testInstance, testWitness]
  rcases hp : r1csProve env pk _ _ with e | π
  · rfl
  · exact C81_r1cs env τ g h D pp hs r pk vk hidx _ _ π hp

/-- **C128 (deviation).** With three or four variables the generated system has too few entries and
the example panics. -/
theorem C128_r1cs_too_small (env : Env F G1 G2 GT) (hγ : env.gamma ≠ 0) (τ : F) (g : G1)
    (h : G2) (v c extra : ℕ) (hv : v = 3 ∧ 2 ≤ c ∨ v = 4 ∧ 1 ≤ c) (a b : F) :
    runR1csExample env τ g h v c extra a b = .error .panic := by
  obtain ⟨m, r, hm, hr, hl, h1, h2, h3, l1, l2, l3, hsh, hiff⟩ :=
    C128_test_circuit (F := F) v c (by omega) (by omega)
  have hshape := hsh [a, b, a * b] (List.replicate (v - 3) a) (by simp; omega)
  set D := r1csMaxDegree ⟨r.nrows, r.ncols, r.a.rows.length, r.b.rows.length, r.c.rows.length,
    r.inputSize⟩ + extra with hD
  have hDv : 2 * ((v + 1) + (5 * (v - 3) + 3 * (c - 1))) - (v - 3 + c) ≤ D := by
    rw [hD, r1csMaxDegree]
    simp only [h1, h2, l1, l2, l3]
    omega
  have hs : ∃ pp : UniversalParams G1 G2, kzgSetup D τ g h = .ok pp := by
    unfold kzgSetup
    rw [if_neg (by omega)]
    exact ⟨_, rfl⟩
  obtain ⟨pp, hs⟩ := hs
  obtain ⟨-, -, -, -, f4⟩ := stacked_facts r hl
  rw [l1, l2, l3] at f4
  obtain ⟨pk, vk, hidx, hp⟩ := C43_too_few_entries env hγ τ g h D pp hs r hl (by omega)
    (by rw [h1]; omega) (by omega) (by rw [h1, h2]; omega) [a, b, a * b] (List.replicate (v - 3) a) hshape
  unfold runR1csExample
  simp only [hm, bind, Except.bind, hr, getSize_ok r hl, ← hD, hs, hidx, testInstance, testWitness, hp]

/-- **C128.** The same circuit with the prover-efficient system, as in the benches: for `v ≥ 5`
variables and `c ≥ 1` constraints. -/
theorem C128_r1cs_prover_efficient (env : Env F G1 G2 GT) (hf : FftOk env.fft) (hγ : env.gamma ≠ 0)
    (τ : F) (g : G1) (h : G2) (v c : ℕ) (hv : 5 ≤ v) (hc : 1 ≤ c)
    (hfft : 2 * (5 * v + 3 * c) ≤ 2 ^ env.fft.twoAdicity) (a b : F) :
    ∃ m r D pp pk vk, testCircuit (F := F) v c = .ok m ∧ R1CS.ofArk m = .ok r ∧
      kzgSetup D τ g h = .ok pp ∧ r1csPeIndex env.gamma pp r = .ok (pk, vk) ∧
      runR1csPeBench env τ g h v c a b
        = (r1csPeProve env pk [a, b, a * b] (List.replicate (v - 3) a)).map (fun _ => ()) ∧
      R1csPeCompletes env τ g D r (v - 3 + c) (v + 1) (5 * (v - 3) + 3 * (c - 1)) 3 [a, b, a * b]
        (List.replicate (v - 3) a) pk vk := by
  obtain ⟨m, r, hm, hr, hl, h1, h2, h3, l1, l2, l3, hsh, hiff⟩ :=
    C128_test_circuit (F := F) v c (by omega) hc
  have hshape := hsh [a, b, a * b] (List.replicate (v - 3) a) (by simp; omega)
  have hsat := (C24_satisfy r _ _ hshape).1.mpr
    ((hiff a b (a * b) (List.replicate (v - 3) a) (by simp)).mpr
      ⟨fun y hy => List.eq_of_mem_replicate hy, fun _ => rfl⟩)
  set D := r1csPeMaxDegree ⟨r.nrows, r.ncols, r.a.rows.length, r.b.rows.length, r.c.rows.length,
    r.inputSize⟩ with hD
  have hDv : 2 * (v - 3 + c) + (5 * (v - 3) + 3 * (c - 1)) ≤ D := by
    rw [hD, r1csPeMaxDegree]
    simp only [h1, l1, l2, l3]
    omega
  have hs : ∃ pp : UniversalParams G1 G2, kzgSetup D τ g h = .ok pp := by
    unfold kzgSetup
    rw [if_neg (by omega)]
    exact ⟨_, rfl⟩
  obtain ⟨pp, hs⟩ := hs
  obtain ⟨-, -, -, -, f4⟩ := stackedPe_facts r hl
  obtain ⟨pk, vk, hidx, hcomp⟩ := C76_complete env hf hγ τ g h D pp hs r hl (v - 3 + c) (v + 1)
    (5 * (v - 3) + 3 * (c - 1)) 3 h1.symm h2.symm h3.symm (by rw [f4, l1, l2, l3]; omega) (by omega)
    (by omega) (by omega) hDv (by omega) [a, b, a * b] (List.replicate (v - 3) a) hshape rfl hsat
  refine ⟨m, r, D, pp, pk, vk, hm, hr, hs, hidx, ?_, hcomp⟩
  unfold runR1csPeBench
  simp only [hm, bind, Except.bind, hr, getSize_ok r hl, ← hD, hs, hidx, testInstance, testWitness]
  rcases hp : r1csPeProve env pk _ _ with e | π
  · rfl
  · exact C81_r1cs_prover_efficient env τ g h D pp hs r (by rw [l1, l2, l3, h2]; omega) pk vk hidx _ _ π hp

/-! ## HPR -/

/-- What the generator says about lengths. -/
theorem generateRandomHpr_lens {S : Type} (rng : Rng S F) (nrows ncols inputSize : ℕ) (s : S)
    (hpr : HPR F) (x w1 w2 w3 : List F)
    (hg : generateRandomHpr rng nrows ncols inputSize s = .ok (hpr, x, (w1, w2, w3))) (hr : 0 < nrows)
    (hc : 0 < ncols) :
    HprLens hpr ∧ hpr.a.rows.length = 2 * (nrows + ncols) ∧ hpr.b.rows.length = 2 * (nrows + ncols) ∧
      hpr.c.rows.length = 2 * (nrows + ncols) := by
  have hmod : ∀ m, 0 < m → ∀ s, (rng.u64Mod m s).1 < m := by
    intro m hm s; simp only [Rng.u64Mod]; exact Nat.mod_lt _ hm
  unfold generateRandomHpr at hg
  rw [if_neg (by omega)] at hg
  simp only at hg
  generalize hA : drawMany (rng.u64Mod nrows) ((nrows + ncols) * 2) s = A at hg
  generalize hB : drawMany (rng.u64Mod nrows) ((nrows + ncols) * 2) A.2 = B at hg
  generalize hC : drawMany (rng.u64Mod nrows) ((nrows + ncols) * 2) B.2 = C at hg
  generalize hA' : drawMany (rng.u64Mod ncols) ((nrows + ncols) * 2) C.2 = A' at hg
  generalize hB' : drawMany (rng.u64Mod ncols) ((nrows + ncols) * 2) A'.2 = B' at hg
  generalize hC' : drawMany (rng.u64Mod ncols) ((nrows + ncols) * 2) B'.2 = C' at hg
  generalize hAv : drawMany rng.field ((nrows + ncols) * 2) C'.2 = Av at hg
  generalize hBv : drawMany rng.field ((nrows + ncols) * 2) Av.2 = Bv at hg
  generalize hCv : drawMany rng.field ((nrows + ncols) * 2) Bv.2 = Cv at hg
  generalize hX : drawMany rng.field inputSize Cv.2 = X at hg
  generalize hW1 : drawMany rng.field ncols X.2 = W1 at hg
  generalize hW2 : drawMany rng.field ncols W1.2 = W2 at hg
  have mA : ∀ x ∈ A.1, x < nrows := hA ▸ drawMany_all _ (· < nrows) (hmod nrows hr) _ _
  have mB : ∀ x ∈ B.1, x < nrows := hB ▸ drawMany_all _ (· < nrows) (hmod nrows hr) _ _
  have mC : ∀ x ∈ C.1, x < nrows := hC ▸ drawMany_all _ (· < nrows) (hmod nrows hr) _ _
  have mA' : ∀ x ∈ A'.1, x < ncols := hA' ▸ drawMany_all _ (· < ncols) (hmod ncols hc) _ _
  have mB' : ∀ x ∈ B'.1, x < ncols := hB' ▸ drawMany_all _ (· < ncols) (hmod ncols hc) _ _
  have mC' : ∀ x ∈ C'.1, x < ncols := hC' ▸ drawMany_all _ (· < ncols) (hmod ncols hc) _ _
  have k1 : A.1.length = (nrows + ncols) * 2 := hA ▸ drawMany_length _ _ _
  have k2 : B.1.length = (nrows + ncols) * 2 := hB ▸ drawMany_length _ _ _
  have k3 : C.1.length = (nrows + ncols) * 2 := hC ▸ drawMany_length _ _ _
  have k4 : A'.1.length = (nrows + ncols) * 2 := hA' ▸ drawMany_length _ _ _
  have k5 : B'.1.length = (nrows + ncols) * 2 := hB' ▸ drawMany_length _ _ _
  have k6 : C'.1.length = (nrows + ncols) * 2 := hC' ▸ drawMany_length _ _ _
  have k7 : Av.1.length = (nrows + ncols) * 2 := hAv ▸ drawMany_length _ _ _
  have k8 : Bv.1.length = (nrows + ncols) * 2 := hBv ▸ drawMany_length _ _ _
  have k9 : Cv.1.length = (nrows + ncols) * 2 := hCv ▸ drawMany_length _ _ _
  have l1 : W1.1.length = ncols := hW1 ▸ drawMany_length _ _ _
  have l2 : W2.1.length = ncols := hW2 ▸ drawMany_length _ _ _
  have l3 : (hadamardVector W1.1 W2.1).length = ncols := by simp [hadamardVector, l1, l2]
  obtain ⟨y1, a1, a2, a3⟩ := sparseMvp_ok nrows ncols _ _ hr hc l1 (inRange_of_mem A.1 A'.1 Av.1 _ _ mA mA')
  obtain ⟨y2, b1, b2, b3⟩ := sparseMvp_ok nrows ncols _ _ hr hc l2 (inRange_of_mem B.1 B'.1 Bv.1 _ _ mB mB')
  obtain ⟨y3, c1, c2, c3⟩ := sparseMvp_ok nrows ncols _ _ hr hc l3 (inRange_of_mem C.1 C'.1 Cv.1 _ _ mC mC')
  have ld : (hprConst X.1 y1 y2 y3).length = nrows := by simp [hprConst, a2, b2, c2]
  simp only [a1, b1, c1, bind, Except.bind, pure, Except.pure] at hg
  obtain ⟨rfl, -⟩ := Prod.mk.inj (Except.ok.inj hg)
  refine ⟨⟨⟨by simp [k1, k4], by simp [k4, k7]⟩, ⟨by simp [k2, k5], by simp [k5, k8]⟩,
    ⟨by simp [k3, k6], by simp [k6, k9]⟩, by simp, ?_⟩, by simp [k1, mul_comm], by simp [k2, mul_comm],
    by simp [k3, mul_comm]⟩
  simp only [List.length_map]
  refine le_trans (List.length_filter_le _ _) ?_
  simp [ld]

/-- **C128.** `run_hpr_example(scale)` for every `scale ≥ 1` and every source of randomness: the
generated triple is satisfied, setup and indexing succeed, the outcome is that of `prove` (verification
never fails), and `prove` succeeds unless a challenge takes an exceptional value. -/
theorem C128_hpr {S : Type} (rng : Rng S F) (s : S) (env : Env F G1 G2 GT) (hf : FftOk env.fft)
    (hγ : env.gamma ≠ 0) (τ : F) (g : G1) (h : G2) (scale : ℕ) (hsc : 1 ≤ scale)
    (hfft : 2 * (16 * scale + 1) + 2 ≤ 2 ^ env.fft.twoAdicity) :
    ∃ hpr x w1 w2 w3 D pp pk vk,
      generateRandomHpr rng scale scale (scale / 5) s = .ok (hpr, x, (w1, w2, w3)) ∧
      hpr.satisfy x w1 w2 w3 = .ok true ∧
      kzgSetup D τ g h = .ok pp ∧ hprIndex env.gamma pp hpr = .ok (pk, vk) ∧
      runHprExample rng s env τ g h scale = (hprProve env pk x (w1, w2, w3)).map (fun _ => ()) ∧
      HprCompletes env τ g D hpr scale scale (12 * scale + hpr.drows.length) x w1 w2 w3 pk vk := by
  obtain ⟨hpr, x, w1, w2, w3, hg, n1, n2, n3, hx, hsh, hhold, hsat⟩ :=
    C28_generator rng scale scale (scale / 5) s (by omega) (by omega) (by omega)
  obtain ⟨hl, l1, l2, l3⟩ := generateRandomHpr_lens rng scale scale (scale / 5) s hpr x w1 w2 w3 hg
    (by omega) (by omega)
  have hd := hl.2.2.2.2
  rw [n1] at hd
  have hsz : hpr.getSize = .ok ⟨hpr.nrows, hpr.ncols, hpr.a.rows.length, hpr.a.rows.length,
      hpr.a.rows.length, hpr.drows.length, hpr.inputSize⟩ := by
    obtain ⟨⟨a1, a2⟩, ⟨b1, b2⟩, ⟨c1, c2⟩, d1, d2⟩ := hl
    unfold HPR.getSize
    rw [← d1]
    simp only [assertR, a1, a2, b1, b2, c1, c2, d2, if_true, bind, Except.bind, pure, Except.pure]
  set D := hprMaxDegree ⟨hpr.nrows, hpr.ncols, hpr.a.rows.length, hpr.a.rows.length,
      hpr.a.rows.length, hpr.drows.length, hpr.inputSize⟩ + 10 with hD
  have hDv : 5 * scale + 2 * (12 * scale + hpr.drows.length) + 2 ≤ D := by
    rw [hD, hprMaxDegree]
    simp only [n2, l1]
    omega
  have hs : ∃ pp : UniversalParams G1 G2, kzgSetup D τ g h = .ok pp := by
    unfold kzgSetup
    rw [if_neg (by omega)]
    exact ⟨_, rfl⟩
  obtain ⟨pp, hs⟩ := hs
  have hj : (joined hpr).length = 12 * scale + hpr.drows.length := by
    obtain ⟨⟨a1, a2⟩, ⟨b1, b2⟩, ⟨c1, c2⟩, d1, d2⟩ := hl
    simp only [joined, triples, List.length_append, List.length_map, List.length_zip, ← a2, ← b2, ← c2,
      ← a1, ← b1, ← c1, ← d1, l1, l2, l3]
    omega
  obtain ⟨pk, vk, hidx, hcomp⟩ := C44_complete env hf hγ τ g h D pp hs hpr hl (by omega) scale scale
    (12 * scale + hpr.drows.length) n1.symm n2.symm hj.symm (by omega) hDv (by omega) x w1 w2 w3 hsh hsat
  refine ⟨hpr, x, w1, w2, w3, D, pp, pk, vk, hg, hsat, hs, hidx, ?_, hcomp⟩
  unfold runHprExample
  simp only [hg, bind, Except.bind, hsat, hsz, ← hD, hs, hidx]
  rcases hp : hprProve env pk _ _ with e | π
  · rfl
  · exact C81_hpr env τ g h D pp hs hpr (by omega) pk vk hidx _ _ π hp

/-! The hypotheses are met by the sizes of `main.rs` and by rounding to 53 bits, and concrete runs
over the field with 7681 elements (97 for Fibonacci) pass. -/

/-- A concrete environment over the field with 7681 elements. -/
def env7681 : Env K7681 K7681 K7681 K7681 where
  hash l := (((l.zipIdx.map (fun p => ((match p.1 with
    | .fld a => a.val | .cm c => c.val + 13 | .flds l => (l.map ZMod.val).sum | .nats l => l.sum
    | .nat n => n) + 3) * (p.2 * 7 + 5))).sum : ℕ) : K7681)
  e := mulPairing
  fft := fft7681
  gamma := 17
  rngF := fun i => ((i * 17 + 11 : ℕ) : K7681)
  rngU128 := 23

theorem fftOk7681 : FftOk env7681.fft := by
  intro e he
  have he : e ≤ 9 := he
  show IsPrimitiveRoot ((13 : K7681) ^ (7680 / 2 ^ e)) (2 ^ e)
  rcases Nat.eq_zero_or_pos e with rfl | h0
  · have : (13 : K7681) ^ (7680 / 2 ^ 0) = 1 := ZMod.pow_card_sub_one_eq_one (by decide +kernel)
    rw [this]
    exact IsPrimitiveRoot.one
  · obtain ⟨k, rfl⟩ : ∃ k, e = k + 1 := ⟨e - 1, by omega⟩
    have : Fact (Nat.Prime 2) := ⟨Nat.prime_two⟩
    have h := orderOf_eq_prime_pow (p := 2) (n := k) (x := (13 : K7681) ^ (7680 / 2 ^ (k + 1)))
      (by
        have : k < 9 := by omega
        interval_cases k <;> decide +kernel)
      (by
        have : k < 9 := by omega
        interval_cases k <;> decide +kernel)
    have h2 := IsPrimitiveRoot.orderOf ((13 : K7681) ^ (7680 / 2 ^ (k + 1)))
    rwa [h] at h2

/-- A concrete source of randomness. -/
def rng7681 : Rng ℕ K7681 := ⟨fun s => (s * 7 + 3, s + 1), fun s => ((s : K7681) * 5 + 1, s + 1)⟩

/-- Rounding to 53 significant bits, to nearest. -/
def round53 (q : ℚ) : ℚ :=
  if q = 0 then 0 else (round (q / 2 ^ (Int.log 2 q - 52)) : ℚ) * 2 ^ (Int.log 2 q - 52)

theorem round53_ok : RoundsTo53Bits round53 := by
  intro q hq
  unfold round53
  split_ifs with h0
  · subst h0; simp
  · have hq : 0 < q := lt_of_le_of_ne hq (Ne.symm h0)
    set u : ℚ := 2 ^ (Int.log 2 q - 52) with hu
    have hu0 : 0 < u := by rw [hu]; exact zpow_pos (by norm_num) _
    have h1 : |(round (q / u) : ℚ) * u - q| ≤ u / 2 := by
      have h2 := abs_sub_round (q / u)
      rw [abs_sub_comm] at h2
      have h3 : (round (q / u) : ℚ) * u - q = ((round (q / u) : ℚ) - q / u) * u := by
        field_simp
      rw [h3, abs_mul, abs_of_pos hu0]
      nlinarith
    refine le_trans h1 ?_
    have h4 : ((2 : ℕ) : ℚ) ^ Int.log 2 q ≤ q := Int.zpow_log_le_self (by norm_num) hq
    have h5 : u = 2 ^ Int.log 2 q / 2 ^ 52 := by
      rw [hu, zpow_sub₀ (by norm_num)]; norm_num
    rw [h5]
    have : (2 : ℚ) ^ Int.log 2 q ≤ q := by exact_mod_cast h4
    calc (2 : ℚ) ^ Int.log 2 q / 2 ^ 52 / 2 = 2 ^ Int.log 2 q / 2 ^ 53 := by ring
      _ ≤ q / 2 ^ 53 := by gcongr

example : FftOk env97.fft ∧ 2 * 5 + 1 ≤ 2 ^ env97.fft.twoAdicity := ⟨fftOk97, by decide⟩
example : FftOk env7681.fft ∧ env7681.gamma ≠ 0 ∧ 2 * (6 * 5 + 3 * 5) ≤ 2 ^ env7681.fft.twoAdicity ∧
    2 * (16 * 5 + 1) + 2 ≤ 2 ^ env7681.fft.twoAdicity :=
  ⟨fftOk7681, by decide +kernel, by decide, by decide⟩
example : runFibonacciExample env97 33 1 1 5 = .ok () := by decide +kernel
example : runR1csExample env7681 33 1 1 5 5 10 3 2 = .ok () := by decide +kernel
example : runR1csPeBench env7681 33 1 1 5 1 3 2 = .ok () := by decide +kernel
example : runHprExample rng7681 1 env7681 33 1 1 1 = .ok () := by decide +kernel
example : (rangeExampleWitness id 5 10 : List K97) = [0, 2, 4, 6, 8] := by decide +kernel

end VO
