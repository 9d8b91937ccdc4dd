import Verif.Model.PovExamples
import Verif.Props.CircuitPe
import Verif.Props.CircuitSnark
import Verif.Props.Examples

/-
Property theorems C133: the example circuit of `/repo/voproof/benches/pov_bench.rs` and
`/repo/voproof/tests/pov_test.rs`, run with both POV proof systems.
-/

set_option linter.unusedSectionVars false

namespace VO
open Spec

variable {F G1 G2 GT : Type} [Field F] [DecidableEq F]
  [AddCommGroup G1] [Module F G1] [DecidableEq G1] [AddCommGroup G2] [Module F G2]
  [AddCommGroup GT] [Module F GT] [DecidableEq GT]

private def povEx1 : Circuit F :=
  ⟨[], [],
      [], [],
      1, [],
      [⟨[], none, none⟩], [],
      [],
      [], []⟩

private def povEx2 : Circuit F :=
  ⟨[], [],
      [], [],
      2, [],
      [⟨[], none, none⟩,
        ⟨[], none, none⟩], [],
      [],
      [], []⟩

private def povEx3 : Circuit F :=
  ⟨[], [],
      [], [],
      3, [],
      [⟨[], none, none⟩,
        ⟨[], none, none⟩,
        ⟨[], none, none⟩], [],
      [],
      [], []⟩

private def povEx4 : Circuit F :=
  ⟨[⟨0, 1, 3⟩], [],
      [], [],
      3, [],
      [⟨[⟨.add, 0, .left⟩], none, none⟩,
        ⟨[⟨.add, 0, .right⟩], none, none⟩,
        ⟨[], none, none⟩,
        ⟨[], some (.bin .add 0), none⟩], [],
      [((0, 1), 3)],
      [], []⟩

private def povEx5 : Circuit F :=
  ⟨[⟨0, 1, 3⟩], [⟨1, 2, 4⟩],
      [], [],
      3, [],
      [⟨[⟨.add, 0, .left⟩], none, none⟩,
        ⟨[⟨.add, 0, .right⟩, ⟨.mul, 0, .left⟩], none, none⟩,
        ⟨[⟨.mul, 0, .right⟩], none, none⟩,
        ⟨[], some (.bin .add 0), none⟩,
        ⟨[], some (.bin .mul 0), none⟩], [],
      [((0, 1), 3)],
      [((1, 2), 4)], []⟩

private def povEx6 : Circuit F :=
  ⟨[⟨0, 1, 3⟩], [⟨1, 2, 4⟩, ⟨3, 4, 5⟩],
      [], [],
      3, [],
      [⟨[⟨.add, 0, .left⟩], none, none⟩,
        ⟨[⟨.add, 0, .right⟩, ⟨.mul, 0, .left⟩], none, none⟩,
        ⟨[⟨.mul, 0, .right⟩], none, none⟩,
        ⟨[⟨.mul, 1, .left⟩], some (.bin .add 0), none⟩,
        ⟨[⟨.mul, 1, .right⟩], some (.bin .mul 0), none⟩,
        ⟨[], some (.bin .mul 1), none⟩], [],
      [((0, 1), 3)],
      [((3, 4), 5), ((1, 2), 4)], []⟩

private def povEx7 : Circuit F :=
  ⟨[⟨0, 1, 3⟩, ⟨0, 3, 6⟩], [⟨1, 2, 4⟩, ⟨3, 4, 5⟩],
      [], [],
      3, [],
      [⟨[⟨.add, 0, .left⟩, ⟨.add, 1, .left⟩], none, none⟩,
        ⟨[⟨.add, 0, .right⟩, ⟨.mul, 0, .left⟩], none, none⟩,
        ⟨[⟨.mul, 0, .right⟩], none, none⟩,
        ⟨[⟨.mul, 1, .left⟩, ⟨.add, 1, .right⟩], some (.bin .add 0), none⟩,
        ⟨[⟨.mul, 1, .right⟩], some (.bin .mul 0), none⟩,
        ⟨[], some (.bin .mul 1), none⟩,
        ⟨[], some (.bin .add 1), none⟩], [],
      [((0, 3), 6), ((0, 1), 3)],
      [((3, 4), 5), ((1, 2), 4)], []⟩

private def povEx8 : Circuit F :=
  ⟨[⟨0, 1, 3⟩, ⟨0, 3, 6⟩], [⟨1, 2, 4⟩, ⟨3, 4, 5⟩, ⟨5, 6, 7⟩],
      [], [],
      3, [],
      [⟨[⟨.add, 0, .left⟩, ⟨.add, 1, .left⟩], none, none⟩,
        ⟨[⟨.add, 0, .right⟩, ⟨.mul, 0, .left⟩], none, none⟩,
        ⟨[⟨.mul, 0, .right⟩], none, none⟩,
        ⟨[⟨.mul, 1, .left⟩, ⟨.add, 1, .right⟩], some (.bin .add 0), none⟩,
        ⟨[⟨.mul, 1, .right⟩], some (.bin .mul 0), none⟩,
        ⟨[⟨.mul, 2, .left⟩], some (.bin .mul 1), none⟩,
        ⟨[⟨.mul, 2, .right⟩], some (.bin .add 1), none⟩,
        ⟨[], some (.bin .mul 2), none⟩], [],
      [((0, 3), 6), ((0, 1), 3)],
      [((5, 6), 7), ((3, 4), 5), ((1, 2), 4)], []⟩

private def povEx9 : Circuit F :=
  ⟨[⟨0, 1, 3⟩, ⟨0, 3, 6⟩], [⟨1, 2, 4⟩, ⟨3, 4, 5⟩, ⟨5, 6, 7⟩],
      [⟨8, 10⟩], [],
      3, [],
      [⟨[⟨.add, 0, .left⟩, ⟨.add, 1, .left⟩], none, none⟩,
        ⟨[⟨.add, 0, .right⟩, ⟨.mul, 0, .left⟩], none, none⟩,
        ⟨[⟨.mul, 0, .right⟩], none, none⟩,
        ⟨[⟨.mul, 1, .left⟩, ⟨.add, 1, .right⟩], some (.bin .add 0), none⟩,
        ⟨[⟨.mul, 1, .right⟩], some (.bin .mul 0), none⟩,
        ⟨[⟨.mul, 2, .left⟩], some (.bin .mul 1), none⟩,
        ⟨[⟨.mul, 2, .right⟩], some (.bin .add 1), none⟩,
        ⟨[], some (.bin .mul 2), none⟩,
        ⟨[], some (.const 0), none⟩], [],
      [((0, 3), 6), ((0, 1), 3)],
      [((5, 6), 7), ((3, 4), 5), ((1, 2), 4)], [(10, 8)]⟩

private def povEx10 : Circuit F :=
  ⟨[⟨0, 1, 3⟩, ⟨0, 3, 6⟩], [⟨1, 2, 4⟩, ⟨3, 4, 5⟩, ⟨5, 6, 7⟩, ⟨7, 8, 9⟩],
      [⟨8, 10⟩], [],
      3, [],
      [⟨[⟨.add, 0, .left⟩, ⟨.add, 1, .left⟩], none, none⟩,
        ⟨[⟨.add, 0, .right⟩, ⟨.mul, 0, .left⟩], none, none⟩,
        ⟨[⟨.mul, 0, .right⟩], none, none⟩,
        ⟨[⟨.mul, 1, .left⟩, ⟨.add, 1, .right⟩], some (.bin .add 0), none⟩,
        ⟨[⟨.mul, 1, .right⟩], some (.bin .mul 0), none⟩,
        ⟨[⟨.mul, 2, .left⟩], some (.bin .mul 1), none⟩,
        ⟨[⟨.mul, 2, .right⟩], some (.bin .add 1), none⟩,
        ⟨[⟨.mul, 3, .left⟩], some (.bin .mul 2), none⟩,
        ⟨[⟨.mul, 3, .right⟩], some (.const 0), none⟩,
        ⟨[], some (.bin .mul 3), none⟩], [],
      [((0, 3), 6), ((0, 1), 3)],
      [((7, 8), 9), ((5, 6), 7), ((3, 4), 5), ((1, 2), 4)], [(10, 8)]⟩

private def povEx11 : Circuit F :=
  ⟨[⟨0, 1, 3⟩, ⟨0, 3, 6⟩], [⟨1, 2, 4⟩, ⟨3, 4, 5⟩, ⟨5, 6, 7⟩, ⟨7, 8, 9⟩],
      [⟨8, 10⟩], [],
      3, [9],
      [⟨[⟨.add, 0, .left⟩, ⟨.add, 1, .left⟩], none, none⟩,
        ⟨[⟨.add, 0, .right⟩, ⟨.mul, 0, .left⟩], none, none⟩,
        ⟨[⟨.mul, 0, .right⟩], none, none⟩,
        ⟨[⟨.mul, 1, .left⟩, ⟨.add, 1, .right⟩], some (.bin .add 0), none⟩,
        ⟨[⟨.mul, 1, .right⟩], some (.bin .mul 0), none⟩,
        ⟨[⟨.mul, 2, .left⟩], some (.bin .mul 1), none⟩,
        ⟨[⟨.mul, 2, .right⟩], some (.bin .add 1), none⟩,
        ⟨[⟨.mul, 3, .left⟩], some (.bin .mul 2), none⟩,
        ⟨[⟨.mul, 3, .right⟩], some (.const 0), none⟩,
        ⟨[], some (.bin .mul 3), none⟩], [],
      [((0, 3), 6), ((0, 1), 3)],
      [((7, 8), 9), ((5, 6), 7), ((3, 4), 5), ((1, 2), 4)], [(10, 8)]⟩

private def povEx12 : Circuit F :=
  ⟨[⟨0, 1, 3⟩, ⟨0, 3, 6⟩], [⟨1, 2, 4⟩, ⟨3, 4, 5⟩, ⟨5, 6, 7⟩, ⟨7, 8, 9⟩],
      [⟨8, 10⟩], [.input ⟨.add, 0, .left⟩],
      3, [9],
      [⟨[⟨.add, 0, .left⟩, ⟨.add, 1, .left⟩], none, none⟩,
        ⟨[⟨.add, 0, .right⟩, ⟨.mul, 0, .left⟩], none, none⟩,
        ⟨[⟨.mul, 0, .right⟩], none, none⟩,
        ⟨[⟨.mul, 1, .left⟩, ⟨.add, 1, .right⟩], some (.bin .add 0), none⟩,
        ⟨[⟨.mul, 1, .right⟩], some (.bin .mul 0), none⟩,
        ⟨[⟨.mul, 2, .left⟩], some (.bin .mul 1), none⟩,
        ⟨[⟨.mul, 2, .right⟩], some (.bin .add 1), none⟩,
        ⟨[⟨.mul, 3, .left⟩], some (.bin .mul 2), none⟩,
        ⟨[⟨.mul, 3, .right⟩], some (.const 0), none⟩,
        ⟨[], some (.bin .mul 3), none⟩], [],
      [((0, 3), 6), ((0, 1), 3)],
      [((7, 8), 9), ((5, 6), 7), ((3, 4), 5), ((1, 2), 4)], [(10, 8)]⟩

/-- The circuit of the example. -/
def povExampleCircuit : Circuit F :=
  ⟨[⟨0, 1, 3⟩, ⟨0, 3, 6⟩], [⟨1, 2, 4⟩, ⟨3, 4, 5⟩, ⟨5, 6, 7⟩, ⟨7, 8, 9⟩],
      [⟨8, 10⟩], [.input ⟨.add, 0, .left⟩, .output (.bin .mul 3)],
      3, [9],
      [⟨[⟨.add, 0, .left⟩, ⟨.add, 1, .left⟩], none, none⟩,
        ⟨[⟨.add, 0, .right⟩, ⟨.mul, 0, .left⟩], none, none⟩,
        ⟨[⟨.mul, 0, .right⟩], none, none⟩,
        ⟨[⟨.mul, 1, .left⟩, ⟨.add, 1, .right⟩], some (.bin .add 0), none⟩,
        ⟨[⟨.mul, 1, .right⟩], some (.bin .mul 0), none⟩,
        ⟨[⟨.mul, 2, .left⟩], some (.bin .mul 1), none⟩,
        ⟨[⟨.mul, 2, .right⟩], some (.bin .add 1), none⟩,
        ⟨[⟨.mul, 3, .left⟩], some (.bin .mul 2), none⟩,
        ⟨[⟨.mul, 3, .right⟩], some (.const 0), none⟩,
        ⟨[], some (.bin .mul 3), none⟩], [],
      [((0, 3), 6), ((0, 1), 3)],
      [((7, 8), 9), ((5, 6), 7), ((3, 4), 5), ((1, 2), 4)], [(10, 8)]⟩

private theorem povEx_step0 : (Circuit.new : Circuit F).step (.input) = .ok povEx1 := rfl

private theorem povEx_step1 : (povEx1 : Circuit F).step (.input) = .ok povEx2 := rfl

private theorem povEx_step2 : (povEx2 : Circuit F).step (.input) = .ok povEx3 := rfl

private theorem povEx_step3 : (povEx3 : Circuit F).step (.bin .add 0 1) = .ok povEx4 := rfl

private theorem povEx_step4 : (povEx4 : Circuit F).step (.bin .mul 1 2) = .ok povEx5 := rfl

private theorem povEx_step5 : (povEx5 : Circuit F).step (.bin .mul 3 4) = .ok povEx6 := rfl

private theorem povEx_step6 : (povEx6 : Circuit F).step (.bin .add 0 3) = .ok povEx7 := rfl

private theorem povEx_step7 : (povEx7 : Circuit F).step (.bin .mul 6 5) = .ok povEx8 := rfl

private theorem povEx_step8 : (povEx8 : Circuit F).step (.const 10) = .ok povEx9 := rfl

private theorem povEx_step9 : (povEx9 : Circuit F).step (.bin .mul 7 8) = .ok povEx10 := rfl

private theorem povEx_step10 : (povEx10 : Circuit F).step (.complete) = .ok povEx11 := rfl

private theorem povEx_step11 : (povEx11 : Circuit F).step (.markPublic 0) = .ok povEx12 := rfl

private theorem povEx_step12 : (povEx12 : Circuit F).step (.markPublic 9) = .ok povExampleCircuit := rfl

theorem povExample_builds : Builds (Circuit.new : Circuit F) povExampleCalls povExampleCircuit :=
  .cons (by simp [refs]) povEx_step0 (
  .cons (by simp [refs, povEx1]) povEx_step1 (
  .cons (by simp [refs, povEx2]) povEx_step2 (
  .cons (by simp [refs, povEx3]) povEx_step3 (
  .cons (by simp [refs, povEx4]) povEx_step4 (
  .cons (by simp [refs, povEx5]) povEx_step5 (
  .cons (by simp [refs, povEx6]) povEx_step6 (
  .cons (by simp [refs, povEx7]) povEx_step7 (
  .cons (by simp [refs, povEx8]) povEx_step8 (
  .cons (by simp [refs, povEx9]) povEx_step9 (
  .cons (by simp [refs, povEx10]) povEx_step10 (
  .cons (by simp [refs, povEx11]) povEx_step11 (
  .cons (by simp [refs, povEx12]) povEx_step12 (
  .nil _)))))))))))))

theorem povExample_run : Circuit.run (Circuit.new : Circuit F) povExampleCalls = .ok povExampleCircuit := by
  unfold povExampleCalls
  simp only [Circuit.run, povEx_step0, povEx_step1, povEx_step2, povEx_step3, povEx_step4, povEx_step5, povEx_step6, povEx_step7, povEx_step8, povEx_step9, povEx_step10, povEx_step11, povEx_step12]
/-- The values of the variables. -/
def povExampleVal (a b c : F) (v : ℕ) : F :=
  [a, b, c, a + b, b * c, (a + b) * (b * c), a + (a + b), (a + b) * (b * c) * (a + (a + b)), 10,
    (a + b) * (b * c) * (a + (a + b)) * 10].getD v 0

theorem povExample_highLevel : ∀ x ∈ (povExampleCalls : List (Call F)), HighLevel x := by
  intro x hx
  simp only [povExampleCalls, List.mem_cons, List.not_mem_nil, or_false] at hx
  rcases hx with rfl | rfl | rfl | rfl | rfl | rfl | rfl | rfl | rfl | rfl | rfl | rfl | rfl <;> trivial

theorem povExample_execution (a b c : F) :
    Execution (povExampleCircuit : Circuit F) [a, b, c] (povExampleVal a b c) := by
  refine ⟨?_, ?_, ?_⟩
  · intro i hi
    have : i < 3 := hi
    interval_cases i <;> rfl
  · intro k i g hg
    cases k
    · have hi : i < 2 := (List.getElem?_eq_some_iff.mp hg).1
      interval_cases i <;> (obtain rfl := Option.some.inj hg; rfl)
    · have hi : i < 4 := (List.getElem?_eq_some_iff.mp hg).1
      interval_cases i <;> (obtain rfl := Option.some.inj hg; rfl)
  · intro i g hg
    have hi : i < 1 := (List.getElem?_eq_some_iff.mp hg).1
    interval_cases i
    obtain rfl := Option.some.inj hg
    rfl

theorem povExample_system : ∃ p : POV F, POV.ofCircuit (povExampleCircuit : Circuit F) = .ok p ∧
    p.nmul = 4 ∧ p.nadd = 2 ∧ p.consts = [10] := ⟨_, rfl, rfl, rfl, rfl⟩

/-- **C133.** The first part of the example succeeds for every three inputs: the system has 4 multiplications,
2 additions and the constant 10, its public values are `a` and `10 · (2a + b) · (a + b) · b · c`, and the
assertions hold. -/
theorem C133_triple (a b c : F) : ∃ p c' w, POV.ofCircuit (povExampleCircuit : Circuit F) = .ok p ∧
    p.nmul = 4 ∧ p.nadd = 2 ∧ p.consts = [10] ∧
    (povExampleCircuit : Circuit F).evaluate [a, b, c] = .ok c' ∧
    c'.getInstance = .ok ⟨[4, 17], [a, 10 * (2 * a + b) * (a + b) * b * c]⟩ ∧ c'.getWitness = .ok w ∧
    p.satisfy ⟨[4, 17], [a, 10 * (2 * a + b) * (a + b) * b * c]⟩ w = .ok true ∧
    povExampleTriple a b c = .ok (p, ⟨[4, 17], [a, 10 * (2 * a + b) * (a + b) * b * c]⟩, w) := by
  obtain ⟨p, hp, q1, q2, q3⟩ := povExample_system (F := F)
  have hb := povExample_builds (F := F)
  have hl := povExample_highLevel (F := F)
  obtain ⟨c', hev⟩ := (C31_errors _ _ hb hl [a, b, c]).2.2 (by simp [povExampleCircuit]) rfl
  obtain ⟨hsame, -, -, -, hval⟩ := C31_values _ _ _ hb hl _ hev
  have hval := hval _ (povExample_execution a b c)
  have hp' : POV.ofCircuit c' = .ok p := by rw [(C34_system _ _ hb).2.2 c' hsame, hp]
  obtain ⟨ins, w, h1, h2, h3, -, -, h6, -, h8⟩ := C34_honest _ _ c' hb hl _ hev p hp'
  have hins := getInstance_claim _ c' hsame ins h1
  have hvals : ins.vals = [a, 10 * (2 * a + b) * (a + b) * b * c] := by
    have e : publicVars (povExampleCalls : List (Call F)) = [0, 9] := rfl
    rw [e, List.map_cons, List.map_cons, List.map_nil, hval 0 (by simp [povExampleCircuit]),
      hval 9 (by simp [povExampleCircuit])] at h6
    have : [a, 10 * (2 * a + b) * (a + b) * b * c] = [povExampleVal a b c 0, povExampleVal a b c 9] := by
      simp only [povExampleVal, List.getD_cons_zero, List.getD_cons_succ]
      congr 2
      ring
    rw [this]
    exact (List.map_injective_iff.mpr (Option.some_injective F) (by rw [← h6]; rfl)).symm
  have hins' : ins = ⟨[4, 17], [a, 10 * (2 * a + b) * (a + b) * b * c]⟩ := by
    rw [hins, hvals]; rfl
  rw [hins'] at h1 h8
  have hsat := h8.mpr (by intro q hq; simp [asserted, povExampleCalls] at hq)
  refine ⟨p, c', w, hp, q1, q2, q3, hev, h1, h2, hsat, ?_⟩
  obtain ⟨s1, s2, s3⟩ := h3
  rw [q1, q2, q3] at s1 s2 s3
  have g1 : c'.getAddNum = 2 ∧ c'.getMulNum = 4 ∧ c'.getConstNum = 1 := by
    rw [hsame.1]; exact ⟨rfl, rfl, rfl⟩
  unfold povExampleTriple
  rw [povExample_run]
  simp only [bind, Except.bind, hev, h1, h2, hp', hsat, assertR]
  rw [if_pos g1, if_pos ⟨s1, s2, s3⟩]
  rfl

/-- **C133.** The example with `VOProofPOV`, for every three inputs: setup and indexing succeed, the outcome of
the whole run is that of `prove` (verification never fails), and `prove` succeeds unless a challenge takes an
exceptional value. -/
theorem C133_pov (env : Env F G1 G2 GT) (hf : FftOk env.fft) (hγ : env.gamma ≠ 0) (β : F) (g : G1)
    (h : G2) (hfft : 44 ≤ 2 ^ env.fft.twoAdicity) (a b c : F) :
    ∃ p w pp pk vk, povExampleTriple a b c = .ok (p, ⟨[4, 17], [a, 10 * (2 * a + b) * (a + b) * b * c]⟩, w) ∧
      kzgSetup 48 β g h = .ok pp ∧ povIndex env.gamma pp p = .ok (pk, vk) ∧
      runPovExample env β g h a b c =
        (povProve env pk ⟨[4, 17], [a, 10 * (2 * a + b) * (a + b) * b * c]⟩ w).map (fun _ => ()) ∧
      PovCompletes env β g 48 p 7 ⟨[4, 17], [a, 10 * (2 * a + b) * (a + b) * b * c]⟩ w pk vk := by
  obtain ⟨p, c', w, hp, q1, q2, q3, hev, h1, h2, -, htr⟩ := C133_triple a b c
  have hs : ∃ pp : UniversalParams G1 G2, kzgSetup 48 β g h = .ok pp := by
    unfold kzgSetup
    rw [if_neg (by omega)]
    exact ⟨_, rfl⟩
  obtain ⟨pp, hs⟩ := hs
  obtain ⟨vals, w', pk, vk, g1, g2, -, -, hidx, hver, hcomp⟩ := C121_complete env hf hγ β g h 48 pp hs
    povExampleCalls povExampleCircuit povExample_builds povExample_highLevel p hp (by simp [povExampleCircuit])
    (by rw [show publicVars (povExampleCalls : List (Call F)) = [0, 9] from rfl]; decide)
    (by simp [gateCount, povExampleCircuit]) (by simpa [gateCount, povExampleCircuit] using hfft)
    [a, b, c] c' hev (by intro q hq; simp [asserted, povExampleCalls] at hq)
  rw [h1] at g1
  rw [h2] at g2
  obtain rfl := Except.ok.inj g2
  rw [← Except.ok.inj g1] at hver hcomp
  refine ⟨p, w, pp, pk, vk, htr, hs, hidx, ?_, hcomp⟩
  unfold runPovExample
  have hmd : povMaxDegree p.getSize + 10 = 48 := by simp [povMaxDegree, POV.getSize, q1, q2, q3]
  rw [htr]
  simp only [bind, Except.bind, hmd, hs, hidx]
  rcases hpr : povProve env pk _ _ with e | π
  · rfl
  · exact hver π hpr

/-- **C133.** The same with `VOProofPOVProverEfficient`. -/
theorem C133_pov_prover_efficient (env : Env F G1 G2 GT) (hf : FftOk env.fft) (hγ : env.gamma ≠ 0) (β : F)
    (g : G1) (h : G2) (hfft : 44 ≤ 2 ^ env.fft.twoAdicity) (a b c : F) :
    ∃ p w pp pk vk, povExampleTriple a b c = .ok (p, ⟨[4, 17], [a, 10 * (2 * a + b) * (a + b) * b * c]⟩, w) ∧
      kzgSetup 42 β g h = .ok pp ∧ povPeIndex env.gamma pp p = .ok (pk, vk) ∧
      runPovPeExample env β g h a b c =
        (povPeProve env pk ⟨[4, 17], [a, 10 * (2 * a + b) * (a + b) * b * c]⟩ w).map (fun _ => ()) ∧
      PovPeCompletes env β g 42 p 7 ⟨[4, 17], [a, 10 * (2 * a + b) * (a + b) * b * c]⟩ w pk vk := by
  obtain ⟨p, c', w, hp, q1, q2, q3, hev, h1, h2, -, htr⟩ := C133_triple a b c
  have hs : ∃ pp : UniversalParams G1 G2, kzgSetup 42 β g h = .ok pp := by
    unfold kzgSetup
    rw [if_neg (by omega)]
    exact ⟨_, rfl⟩
  obtain ⟨pp, hs⟩ := hs
  obtain ⟨vals, w', pk, vk, g1, g2, -, -, hidx, hver, hcomp⟩ := C132_complete env hf hγ β g h 42 pp hs
    povExampleCalls povExampleCircuit povExample_builds povExample_highLevel p hp (by simp [povExampleCircuit])
    (by rw [show publicVars (povExampleCalls : List (Call F)) = [0, 9] from rfl]; decide)
    (by
      intro v hv k hk hkv
      rw [show publicVars (povExampleCalls : List (Call F)) = [0, 9] from rfl] at hv
      simp only [povExampleCircuit, List.mem_singleton] at hk
      subst hk
      subst hkv
      simp at hv)
    (by simp [gateCount, povExampleCircuit]) (by simpa [gateCount, povExampleCircuit] using hfft)
    [a, b, c] c' hev (by intro q hq; simp [asserted, povExampleCalls] at hq)
  rw [h1] at g1
  rw [h2] at g2
  obtain rfl := Except.ok.inj g2
  rw [← Except.ok.inj g1] at hver hcomp
  refine ⟨p, w, pp, pk, vk, htr, hs, hidx, ?_, hcomp⟩
  unfold runPovPeExample
  have hmd : povPeMaxDegree p.getSize + 10 = 42 := by simp [povPeMaxDegree, POV.getSize, q1, q2, q3]
  rw [htr]
  simp only [bind, Except.bind, hmd, hs, hidx]
  rcases hpr : povPeProve env pk _ _ with e | π
  · rfl
  · exact hver π hpr

/-- **C133 (deviation).** For this circuit the prover-efficient verifier guarantees nothing: for every pair of
claimed public values there are accepted proofs, for all challenges outside the exceptional values of an
honest run. -/
theorem C133_prover_efficient_forgery (env : Env F G1 G2 GT) (hγ : env.gamma ≠ 0) (β : F) (g : G1) (h : G2)
    (hnd : NonDegenerate env.e h) (D : ℕ) (pp : UniversalParams G1 G2) (hs : kzgSetup D β g h = .ok pp)
    (hD : 32 ≤ D) (p : POV F) (hp : POV.ofCircuit (povExampleCircuit : Circuit F) = .ok p) (x y : F) :
    ∃ (w : POVWitness F) (U V : Polynomial F) (pk : PovPePK F G1 G2) (vk : PovPeVK G1 G2),
      povPeIndex env.gamma pp p = .ok (pk, vk) ∧
      PovPeForges env β g p 7 ⟨[4, 17], [x, y]⟩ w vk U V := by
  refine C132_forgery env hγ β g h hnd D pp hs povExampleCalls povExampleCircuit povExample_builds
    povExample_highLevel p hp (by simp [povExampleCircuit])
    (by rw [show publicVars (povExampleCalls : List (Call F)) = [0, 9] from rfl]; decide)
    (by simpa [gateCount, povExampleCircuit] using hD) [x, y] ?_
  refine ⟨fun v => if v = 0 then x else if v = 9 then y else 0, ?_, ?_, ?_⟩
  · intro k hk
    simp only [povExampleCircuit, List.mem_cons, List.not_mem_nil, or_false] at hk
    rcases hk with rfl | rfl | rfl | rfl <;> simp
  · intro q hq
    simp [asserted, povExampleCalls] at hq
  · rw [show publicVars (povExampleCalls : List (Call F)) = [0, 9] from rfl]
    simp [povExampleCircuit]

/-- With the inputs of the program the public values are 1 and 720. -/
example : (10 * (2 * 1 + 2) * (1 + 2) * 2 * 3 : ℚ) = 720 := by norm_num

/-- The hypotheses are met, and the whole program runs, over the field of 7681 elements. -/
example : FftOk env7681.fft ∧ env7681.gamma ≠ 0 ∧ 44 ≤ 2 ^ env7681.fft.twoAdicity :=
  ⟨fftOk7681, by decide +kernel, by decide⟩
example : runPovExample env7681 33 1 1 1 2 3 = .ok () := by decide +kernel
example : runPovPeExample env7681 33 1 1 1 2 3 = .ok () := by decide +kernel

end VO
