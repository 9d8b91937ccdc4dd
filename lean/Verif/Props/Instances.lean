import Verif.Props.EvalBinding
import Verif.Props.ArkPov
import Verif.Props.Examples

/-
Concrete instances, over the field with 7681 elements, of theorems that are stated with many hypotheses:
every hypothesis is discharged for a small non-trivial system (C121, C131, C132, C134, C135-C138, C140,
C141).
-/

set_option linter.unusedSectionVars false

namespace VO
open Spec
open VO.Plonk (K7681)

section Instances

local notation "K" => K7681

/-! ## Constraint systems -/

/-- `x^3 = 27` as an R1CS with two rows. -/
def cube7681 : R1CS K7681 :=
  ⟨⟨[0, 1], [2, 2], [1, 1]⟩, ⟨[0, 1], [2, 3], [1, 1]⟩, ⟨[0, 1], [3, 1], [1, 1]⟩, 2, 4, 1⟩

theorem cube7681_lens : R1csLens cube7681 := by refine ⟨⟨?_, ?_⟩, ⟨?_, ?_⟩, ?_, ?_⟩ <;> rfl

theorem powers13 (n : ℕ) (hn : n ≤ 40) :
    ∀ i < n, ∀ j < n, (13 : K7681) ^ i = (13 : K7681) ^ j → i = j := by
  have h : ∀ i < 40, ∀ j < 40, (13 : K7681) ^ i = (13 : K7681) ^ j → i = j := by decide +kernel
  intro i hi j hj
  exact h i (by omega) j (by omega)

/-- C136: a witness that is not a cube root of 27, committed to with non-zero trailing coefficients; at
most 123 out of 7681 choices. -/
example (s : R1csStrategy K) (hs : s.Bounded 18)
    (hA : s.A = polyOf [3, 9, 3, 3, 9, 27, 1, 27, 3, 8, 0, 77]) :
    Odds K 123 fun t : K × K × K × K × K × K × K × K × K × K =>
      let (μ, ν, β, α, ω, z, ξ, ξ2, τ, r) := t
      R1csAccepts K K K cube7681 18 13 [27] s μ ν β α ω z ξ ξ2 τ r := by
  refine Odds.mono (C136_r1cs cube7681 cube7681_lens 2 4 6 1 18 rfl rfl (by decide +kernel) rfl (by decide)
    (by decide) (by decide) (by unfold InRange; decide +kernel) (by unfold InRange; decide +kernel)
    (by unfold InRange; decide +kernel) (by decide) 13 (powers13 _ (by decide)) [27] s hs ?_) (by decide) (fun _ h => h)
  have : r1csRead 2 4 1 s.A = [3, 8] := by
    rw [hA]; simp [r1csRead, List.range_succ, coeff_polyOf]
  rw [this]
  decide +kernel

/-- C136 for the prover-efficient system. -/
example (s : R1csPeStrategy K) (hs : s.Bounded 10) (hW : s.W = polyOf [3, 8, 0, 77]) :
    Odds K 82 fun t : K × K × K × K × K × K × K × K × K × K =>
      let (μ, ν, β, α, ω, z, ξ, ξ2, τ, r) := t
      R1csPeAccepts K K K cube7681 10 13 [27] s μ ν β α ω z ξ ξ2 τ r := by
  refine Odds.mono (C136_r1cs_pe cube7681 cube7681_lens 2 4 6 1 10 rfl rfl (by decide +kernel) rfl (by decide)
    (by decide) (by decide) (by decide) (by unfold InRange; decide +kernel)
    (by unfold InRange; decide +kernel) (by unfold InRange; decide +kernel) (by decide) 13 (powers13 _ (by decide)) [27] s hs ?_) (by decide) (fun _ h => h)
  have : r1csPeRead 4 1 [27] s.W = [3, 8] := by
    rw [hW]; simp [r1csPeRead, List.range_succ, coeff_polyOf]
  rw [this]
  decide +kernel

/-- `2a + 3b + c + 5 = x` and `ab = c` as an HPR system. -/
def hpr7681 : HPR K7681 := ⟨⟨[0], [0], [2]⟩, ⟨[0], [0], [3]⟩, ⟨[0], [0], [1]⟩, [0], [5], 1, 1, 1⟩

theorem hpr7681_lens : HprLens hpr7681 := by refine ⟨⟨?_, ?_⟩, ⟨?_, ?_⟩, ⟨?_, ?_⟩, ?_, ?_⟩ <;> decide

/-- C137: `4 * 5` is not `21`. -/
example (s : R1csStrategy K) (hs : s.Bounded 15) (hA : s.A = polyOf [4, 5, 21, 0, 0, 0, 0, 0, 77]) :
    Odds K 96 fun t : K × K × K × K × K × K × K × K × K × K =>
      let (μ, ν, β, α, ω, z, ξ, ξ2, τ, r) := t
      HprAccepts K K K hpr7681 15 13 [48] s μ ν β α ω z ξ ξ2 τ r := by
  refine Odds.mono (C137_hpr hpr7681 hpr7681_lens rfl 1 1 4 15 rfl rfl (by decide +kernel) (by decide)
    (by decide) (by decide) (by unfold InRange; decide +kernel) (by unfold InRange; decide +kernel)
    (by unfold InRange; decide +kernel) (by decide +kernel) (by decide) 13 (powers13 _ (by decide)) [48] (by decide) s hs ?_) (by decide) (fun _ h => h)
  have h : ∀ j, hprRead 1 j s.A = [([4, 5, 21, 0, 0, 0, 0, 0, 77] : List K).getD j 0] := by
    intro j; rw [hA]; simp [hprRead, List.range_succ, coeff_polyOf]
  rw [h, h, h]
  decide +kernel

/-- C138: `78` is the third number of the sequence, not `77`. -/
example (s : FibStrategy K) (hs : s.Bounded 5) (hW : s.W = polyOf [9, 23, 78]) :
    Odds K 34 fun t : K × K × K × K × K × K × K =>
      let (α, ω, z, ξ, ξ2, β, r) := t
      FibAccepts K K K 3 5 (polyOf [1, 2, 3]) ⟨4, 5, 77⟩ s α ω z ξ ξ2 β r := by
  refine C138_fibonacci 3 5 (by decide) (by decide) ⟨4, 5, 77⟩ _
    (natDegree_of_degLt (degree_polyOf_lt _) (by decide)) s hs ?_
  rw [hW]
  rintro ⟨-, -, -, h⟩
  rw [coeff_polyOf] at h
  revert h
  decide +kernel

/-- C138 (range check): `7` is not in the range `0..5`. -/
example (s : RcStrategy K) (hs : s.Bounded 5) (hW : s.W = polyOf [1, 4, 7]) :
    Odds K 46 fun t : K × K × K × K × K × K × K × K =>
      let (β, α, ω, z, ξ, ξ2, τ, r) := t
      RcAccepts K K K ⟨3, 5⟩ 5 s β α ω z ξ ξ2 τ r := by
  refine C138_range_check ⟨3, 5⟩ (by decide) (by decide) 5 (by decide)
    (by intro k h1 h2; have h2 : k ≤ 3 := h2; interval_cases k <;> decide +kernel) s hs ?_
  rw [hW]
  intro h
  obtain ⟨i, hi, e⟩ := h 2 (by decide)
  rw [coeff_polyOf] at e
  have hi : i < 5 := hi
  interval_cases i <;> revert e <;> decide +kernel

/-! ## POV -/

/-- The assignment read off short polynomials. -/
theorem pe_read7681 (u v : List K7681) :
    povRead 3 (pePoly 3 1 1 (polyOf u) (polyOf v) (polyOf [5]))
      = ⟨[u.getD 0 0, u.getD 1 0, u.getD 2 0], [u.getD 3 0, u.getD 4 0 + v.getD 0 0,
          u.getD 5 0 + v.getD 1 0],
        [u.getD 6 0 + v.getD 2 0, u.getD 7 0 + v.getD 3 0, u.getD 8 0 + v.getD 4 0 + 5]⟩ := by
  simp [povRead, List.range_succ, coeff_pePoly, coeff_polyOf]

/-- C135 (prover-efficient): the copy constraint between positions 0 and 4 is broken. -/
example (s : PovPeStrategy K) (hs : s.Bounded 13) (hU : s.U = polyOf [2, 1, 0, 5])
    (hV : s.V = polyOf [3, 0, 10, 4]) :
    Odds K 92 fun t : K × K × K × K × K × K × K × K × K =>
      let (ζ, ζ1, α, ω, z, ξ, ξ2, β, r) := t
      PovPeAccepts K K K ⟨[5], [(0, 4), (3, 8)], 1, 1⟩ 3 13 13 ⟨[6], [10]⟩ s ζ ζ1 α ω z ξ ξ2 β r := by
  refine Odds.mono (C135_pov_pe (F := K) ⟨[5], [(0, 4), (3, 8)], 1, 1⟩ 3 13 rfl (by simp) (by decide) 13
    (powers13 _ (by decide)) forest_example (by decide) ⟨[6], [10]⟩ rfl (by decide) (by decide) s hs ?_)
    (by decide) (fun _ h => h)
  rw [hU, hV]
  show ¬ PovPeEnforced _ _ (povRead 3 (pePoly 3 1 1 _ _ (polyOf [5])))
  rw [pe_read7681]
  rintro ⟨-, h, -⟩
  obtain ⟨a, h1, h2⟩ := h (0, 4) (by simp)
  have h1 : some (2 : K) = some a := h1
  have h2 : some ((0 : K) + 3) = some a := h2
  rw [← h1] at h2
  revert h2
  decide +kernel

/-- C135 (prover-efficient, padded): the addition gate is broken. -/
example (s : PovPeStrategy K) (hs : s.Bounded 13) (hU : s.U = polyOf [2, 1, 0, 5])
    (hV : s.V = polyOf [2, 0, 10, 4]) :
    Odds K 92 fun t : K × K × K × K × K × K × K × K × K =>
      let (ζ, ζ1, α, ω, z, ξ, ξ2, β, r) := t
      PovPeAccepts K K K ⟨[5], [(0, 4), (3, 8)], 1, 1⟩ 3 13 13 ⟨[6], [10]⟩ s ζ ζ1 α ω z ξ ξ2 β r := by
  refine Odds.mono (C135_pov_pe_padded (F := K) ⟨[5], [(0, 4), (3, 8)], 1, 1⟩ 3 13 rfl (by simp) (by decide) 13
    (powers13 _ (by decide)) forest_example (by decide) ⟨[6], [10]⟩ rfl (by decide) (by decide) ?_ s hs
    ?_ ?_ ?_) (by decide) (fun _ h => h)
  · intro i hi h
    simp only [List.mem_singleton] at hi
    subst hi
    exact absurd h (by decide)
  · intro j h1 h2
    have h1 : 4 ≤ j := h1
    have h2 : j < 9 := h2
    rw [hU, coeff_polyOf]
    interval_cases j <;> rfl
  · intro j h1 h2
    have h1 : 4 ≤ j := h1
    have h2 : j < 5 := h2
    rw [hV, coeff_polyOf]
    interval_cases j; rfl
  · rw [hU, hV]
    show POV.satisfy _ _ (povRead 3 (pePoly 3 1 1 _ _ (polyOf [5]))) ≠ _
    rw [pe_read7681]
    decide +kernel

/-! ## Circuits -/

/-- `x * y + 7 = x * z`, with `x`, `y`, `z` and `x * y` public. -/
def calls7681 : List (Call K7681) :=
  [.input, .input, .input, .bin .mul 0 1, .bin .mul 0 2, .const 7, .bin .add 3 5, .assertEq 4 6, .complete,
    .markPublic 0, .markPublic 1, .markPublic 2, .markPublic 3]

theorem calls7681_high : ∀ x ∈ calls7681, HighLevel x := by
  intro x hx
  simp only [calls7681, List.mem_cons, List.not_mem_nil, or_false] at hx
  rcases hx with rfl | rfl | rfl | rfl | rfl | rfl | rfl | rfl | rfl | rfl | rfl | rfl | rfl <;> trivial

theorem calls7681_builds : ∃ c : Circuit K7681, Builds Circuit.new calls7681 c ∧ gateCount c = 4 ∧
    c.mulGates = [⟨0, 1, 3⟩, ⟨0, 2, 4⟩] ∧ c.addGates = [⟨3, 5, 6⟩] ∧ c.constGates = [⟨5, 7⟩] ∧
    c.vars.length = 7 ∧ (∃ p, POV.ofCircuit c = .ok p) ∧
    ∃ c', c.evaluate [1, 3, 10] = .ok c' ∧ valueOf c' 4 = valueOf c' 6 ∧
      [0, 1, 2, 3].map (valueOf c') = [some 1, some 3, some 10, some 3] := by
  refine ⟨_, .cons (by simp [refs]) rfl (.cons (by simp [refs]) rfl (.cons (by simp [refs]) rfl
    (.cons (by decide +kernel) rfl (.cons (by decide +kernel) rfl
    (.cons (by simp [refs]) rfl (.cons (by decide +kernel) rfl (.cons (by decide +kernel) rfl
    (.cons (by simp [refs]) rfl
    (.cons (by decide +kernel) rfl (.cons (by decide +kernel) rfl (.cons (by decide +kernel) rfl
    (.cons (by decide +kernel) rfl
    (.nil _))))))))))))), rfl, rfl, rfl, rfl, rfl, ⟨_, rfl⟩, _, rfl, by decide +kernel, by decide +kernel⟩

theorem forest_one : Forest (asserted calls7681) := by
  intro k hk h
  have hk : k < 1 := hk
  obtain rfl : k = 0 := by omega
  have key : ∀ a b, Linked [] a b → a = b := by
    intro a b hab
    induction hab with
    | rel a b hab => exact absurd hab (by simp)
    | refl a => rfl
    | symm a b _ ih => exact ih.symm
    | trans a b c _ _ h1 h2 => exact h1.trans h2
  have : (4 : ℕ) = 6 := key _ _ h
  omega

/-- The claim that `2 * 3 + 7 = 2 * 100` is false. -/
theorem calls7681_false (c : Circuit K7681) (hb : Builds Circuit.new calls7681 c)
    (hm : c.mulGates = [⟨0, 1, 3⟩, ⟨0, 2, 4⟩]) (ha : c.addGates = [⟨3, 5, 6⟩]) (hk : c.constGates = [⟨5, 7⟩])
    (hv : c.vars.length = 7) : ¬ CircuitTrue calls7681 c [2, 3, 100, 6] := by
  rintro ⟨input, c', hev, heq, hpub⟩
  obtain ⟨-, val, hx, hval, -⟩ := C31_values calls7681 c c' hb calls7681_high input hev
  rw [show publicVars calls7681 = [0, 1, 2, 3] from rfl, List.map_cons, List.map_cons, List.map_cons, List.map_cons,
    hval 0 (by omega), hval 1 (by omega), hval 2 (by omega), hval 3 (by omega)] at hpub
  simp only [List.map_cons, List.cons.injEq, Option.some.injEq] at hpub
  have e0 := heq (4, 6) (by simp [calls7681, asserted])
  rw [hval 4 (by omega), hval 6 (by omega), Option.some.injEq] at e0
  have e1 : val 4 = val 0 * val 2 := hx.bin .mul 1 ⟨0, 2, 4⟩ (by show c.mulGates[1]? = _; rw [hm]; rfl)
  have e2 : val 6 = val 3 + val 5 := hx.bin .add 0 ⟨3, 5, 6⟩ (by show c.addGates[0]? = _; rw [ha]; rfl)
  have e3 : val 5 = 7 := hx.const 0 ⟨5, 7⟩ (by rw [hk]; rfl)
  rw [e1, e2, e3, hpub.1, hpub.2.2.1, hpub.2.2.2.1] at e0
  revert e0
  decide +kernel

/-- C140 (and C121): at most 157 out of 7681 choices, for every prover. -/
example : ∃ (c : Circuit K) (p : POV K), Builds Circuit.new calls7681 c ∧ POV.ofCircuit c = .ok p ∧
    ∀ s : PovStrategy K, s.Bounded 22 → Odds K 157 fun t : K × K × K × K × K × K × K × K × K =>
      let (ζ, ζ1, α, ω, z, ξ, ξ2, β, r) := t
      PovAccepts K K K p 4 22 13 (claim c [2, 3, 100, 6]) s ζ ζ1 α ω z ξ ξ2 β r := by
  obtain ⟨c, hb, hg, hm, ha, hk, hv, ⟨p, hp⟩, -⟩ := calls7681_builds
  refine ⟨c, p, hb, hp, fun s hs => ?_⟩
  have := C140_circuit (G1 := K) (G2 := K) (GT := K) calls7681 c hb calls7681_high p hp (by simp [hk]) (by decide)
    forest_one 22 (by rw [hg, hm]; decide) 13 (powers13 _ (by omega)) [2, 3, 100, 6] rfl
    (calls7681_false c hb hm ha hk hv) s hs
  rw [hg] at this
  exact this

/-- C140 and C132 (prover-efficient): `1 * 3` is not `5`. -/
example : ∃ (c : Circuit K) (p : POV K), Builds Circuit.new calls7681 c ∧ POV.ofCircuit c = .ok p ∧
    ∀ s : PovPeStrategy K, s.Bounded 18 → Odds K 128 fun t : K × K × K × K × K × K × K × K × K =>
      let (ζ, ζ1, α, ω, z, ξ, ξ2, β, r) := t
      PovPeAccepts K K K p 4 18 13 (claim c [1, 3, 10, 5]) s ζ ζ1 α ω z ξ ξ2 β r := by
  obtain ⟨c, hb, hg, hm, ha, hk, hv, ⟨p, hp⟩, -⟩ := calls7681_builds
  refine ⟨c, p, hb, hp, fun s hs => ?_⟩
  have := C140_circuit_pe (G1 := K) (G2 := K) (GT := K) calls7681 c hb calls7681_high p hp (by simp [hk]) (by decide)
    forest_one 18 (by rw [hg, hm]; decide) 13 (powers13 _ (by omega)) [1, 3, 10, 5] rfl
    ?_ s hs
  · rw [hg, hm] at this
    exact this
  · rintro ⟨val, h1, -, h3⟩
    rw [show publicVars calls7681 = [0, 1, 2, 3] from rfl] at h3
    simp [hk] at h3
    have := h1 ⟨0, 1, 3⟩ (by simp [hm]) (by rw [h3.2.1]; decide +kernel)
    rw [h3.1, h3.2.1, h3.2.2.2] at this
    revert this
    decide +kernel

/-- C121 and C132 (completeness): `1 * 3 + 7 = 1 * 10`. -/
example : ∃ (c c' : Circuit K) (p : POV K) (w : POVWitness K) (pp : UniversalParams K K),
    Builds Circuit.new calls7681 c ∧ POV.ofCircuit c = .ok p ∧ c.evaluate [1, 3, 10] = .ok c' ∧
    kzgSetup 22 (33 : K) (1 : K) (1 : K) = .ok pp ∧ c'.getWitness = .ok w ∧
    (∃ pk vk, povIndex env7681.gamma pp p = .ok (pk, vk) ∧
      PovCompletes env7681 33 1 22 p 4 (claim c [1, 3, 10, 3]) w pk vk) ∧
    (∃ pk vk, povPeIndex env7681.gamma pp p = .ok (pk, vk) ∧
      PovPeCompletes env7681 33 1 22 p 4 (claim c [1, 3, 10, 3]) w pk vk) := by
  obtain ⟨c, hb, hg, hm, ha, hk, hv, ⟨p, hp⟩, c', hev, heq, hpv⟩ := calls7681_builds
  obtain ⟨pp, hpp⟩ : ∃ pp, kzgSetup 22 (33 : K) (1 : K) (1 : K) = .ok pp := ⟨_, rfl⟩
  have heq' : ∀ q ∈ asserted calls7681, valueOf c' q.1 = valueOf c' q.2 := by
    intro q hq
    obtain rfl : q = (4, 6) := by simpa [calls7681, asserted] using hq
    exact heq
  obtain ⟨vals, w, pk, vk, k1, k2, k3, k4, k5, -, k7⟩ := C121_complete env7681 fftOk7681 (by decide +kernel) 33
    (1 : K) (1 : K) 22 pp hpp calls7681 c hb calls7681_high p hp (by simp [hk]) (by decide)
    (by rw [hg, hm]; decide) (by rw [hg]; decide) [1, 3, 10] c' hev heq'
  obtain ⟨vals', w', pk', vk', j1, j2, j3, j4, j5, -, j7⟩ := C132_complete env7681 fftOk7681 (by decide +kernel) 33
    (1 : K) (1 : K) 22 pp hpp calls7681 c hb calls7681_high p hp (by simp [hk]) (by decide)
    (by rw [hk]; intro v hv k hk' e; simp only [List.mem_singleton] at hk'; subst hk'
        subst e; exact absurd hv (by decide))
    (by rw [hg, hm]; decide) (by rw [hg]; decide) [1, 3, 10] c' hev heq'
  have hvals : ∀ v : List K, (publicVars calls7681).map (valueOf c') = v.map some → v = [1, 3, 10, 3] := by
    intro v hv'
    have : v.map some = [1, 3, 10, 3].map some := hv'.symm.trans hpv
    exact List.map_injective_iff.mpr (Option.some_injective _) this
  obtain rfl := hvals _ k3
  obtain rfl := hvals _ j3
  obtain rfl := Except.ok.inj (k2.symm.trans j2)
  rw [hg] at k7 j7
  exact ⟨c, c', p, w, pp, hb, hp, hev, hpp, k2, ⟨pk, vk, k5, k7⟩, ⟨pk', vk', j5, j7⟩⟩

/-! ## Arkworks constraint systems -/

/-- `y * y = x` with `x` public. -/
def square7681 : ArkMatrices K7681 := ⟨2, 1, 1, [[(1, 2)]], [[(1, 2)]], [[(1, 1)]]⟩

theorem square7681_wf : ArkWf square7681 := ⟨by decide, rfl, rfl, rfl, by decide⟩

/-- `13` generates the field's units, so it is not a square. -/
theorem square7681_false : ¬ ∃ w, ArkHolds square7681 [13] w := by
  rintro ⟨w, h1, h2, h3⟩
  obtain ⟨y, rfl⟩ : ∃ y, w = [y] := List.length_eq_one_iff.mp h2
  have h := h3 0 (by decide)
  have h : y * y = 13 := by
    simpa [square7681, lcValue] using h
  have h2 : (13 : K7681) ^ 3840 = 1 := by
    rw [← h, ← pow_two, ← pow_mul]
    exact ZMod.pow_card_sub_one_eq_one (by rintro rfl; revert h; decide +kernel)
  exact absurd h2 (by decide +kernel)

/-- C140 and C131: R1CS. -/
example : ∃ r, R1CS.ofArk square7681 = .ok r ∧
    ∀ s : R1csStrategy K, s.Bounded 11 → Odds K 79 fun t : K × K × K × K × K × K × K × K × K × K =>
      let (μ, ν, β, α, ω, z, ξ, ξ2, τ, ρ) := t
      R1csAccepts K K K r 11 13 [13] s μ ν β α ω z ξ ξ2 τ ρ :=
  ⟨_, rfl, fun s hs => C140_ark square7681 square7681_wf 1 3 3 1 11 rfl rfl (by decide) rfl (by decide) (by decide)
    (by decide) 13 (powers13 _ (by decide)) [13] rfl square7681_false _ rfl s hs⟩

/-- C140 and C131: prover-efficient R1CS. -/
example : ∃ r, R1CS.ofArk square7681 = .ok r ∧
    ∀ s : R1csPeStrategy K, s.Bounded 5 → Odds K 49 fun t : K × K × K × K × K × K × K × K × K × K =>
      let (μ, ν, β, α, ω, z, ξ, ξ2, τ, ρ) := t
      R1csPeAccepts K K K r 5 13 [13] s μ ν β α ω z ξ ξ2 τ ρ :=
  ⟨_, rfl, fun s hs => C140_ark_pe square7681 square7681_wf 1 3 3 1 5 rfl rfl (by decide) rfl (by decide) (by decide)
    (by decide) (by decide) 13 (powers13 _ (by decide)) [13] rfl square7681_false _ rfl s hs⟩

/-- C131 (completeness), both systems. -/
example : ∃ r pp, R1CS.ofArk square7681 = .ok r ∧ kzgSetup 11 (33 : K) (1 : K) (1 : K) = .ok pp ∧
    (∃ pk vk, r1csIndex env7681.gamma pp r = .ok (pk, vk) ∧
      R1csCompletes env7681 33 1 11 r 1 3 3 [9] [3] pk vk) ∧
    (∃ pk vk, r1csPeIndex env7681.gamma pp r = .ok (pk, vk) ∧
      R1csPeCompletes env7681 33 1 11 r 1 3 3 1 [9] [3] pk vk) := by
  obtain ⟨pp, hpp⟩ : ∃ pp, kzgSetup 11 (33 : K) (1 : K) (1 : K) = .ok pp := ⟨_, rfl⟩
  have hsat : ArkHolds square7681 [9] [3] := ⟨rfl, rfl, by decide +kernel⟩
  obtain ⟨r, pk, vk, h1, -, h2, -, h3⟩ := C131_complete env7681 fftOk7681 (by decide +kernel) 33 (1 : K) (1 : K) 11 pp
    hpp square7681 square7681_wf 1 3 3 rfl rfl (by decide) (by decide) (by decide) (by decide) (by decide)
    (by decide) [9] [3] hsat
  obtain ⟨r', pk', vk', g1, -, g2, -, g3⟩ := C131_prover_efficient_complete env7681 fftOk7681 (by decide +kernel) 33
    (1 : K) (1 : K) 11 pp hpp square7681 square7681_wf 1 3 3 1 rfl rfl (by decide) rfl (by decide) (by decide)
    (by decide) (by decide) (by decide) (by decide) [9] [3] hsat
  obtain rfl := Except.ok.inj (h1.symm.trans g1)
  exact ⟨r, pp, h1, hpp, ⟨pk, vk, h2, h3⟩, ⟨pk', vk', g2, g3⟩⟩

/-- The circuit that the example translates to. -/
theorem square7681_circuit : ∃ r c, R1CS.ofArk square7681 = .ok r ∧ Circuit.ofR1CS (fun l => l) r = .ok c ∧
    c.assertEquals.Nodup ∧ gateCount c ≤ 12 ∧ c.constGates ≠ [] :=
  ⟨_, _, rfl, rfl, by decide +kernel, by decide +kernel, by decide +kernel⟩

/-- C140 and C134: translation to POV. -/
example : ∃ (r : R1CS K) (c : Circuit K) (p : POV K) (ins : POVInstance K), R1CS.ofArk square7681 = .ok r ∧
    Circuit.ofR1CS (fun l => l) r = .ok c ∧ povPairFromR1cs (fun l => l) r [13] = .ok (p, ins) ∧
    ∀ s : PovStrategy K, s.Bounded 72 → Odds K 477 fun t : K × K × K × K × K × K × K × K × K =>
      let (ζ, ζ1, α, ω, z, ξ, ξ2, β, r) := t
      PovAccepts K K K p (gateCount c) 72 13 ins s ζ ζ1 α ω z ξ ξ2 β r := by
  obtain ⟨r, c, hr, hc, hnd, hg, -⟩ := square7681_circuit
  obtain ⟨p, -, hpair, -⟩ := C134_pair (fun l => l) (fun l => List.Perm.refl l) square7681 square7681_wf r hr c hc [13] rfl
  refine ⟨r, c, p, _, hr, hc, hpair, fun s hs => ?_⟩
  exact Odds.mono (C140_ark_pov (fun l => l) (fun l => List.Perm.refl l) square7681 square7681_wf r hr c hc hnd [13] rfl
    p _ hpair 72 (by omega) 13 (powers13 _ (by omega)) square7681_false s hs) (by omega) (fun _ h => h)

/-- C134 (completeness), both systems. -/
example : ∃ (r : R1CS K) (c : Circuit K) (pp : UniversalParams K K) (p : POV K) (ins : POVInstance K)
    (wit : POVWitness K), R1CS.ofArk square7681 = .ok r ∧ Circuit.ofR1CS (fun l => l) r = .ok c ∧
    kzgSetup 72 (33 : K) (1 : K) (1 : K) = .ok pp ∧ povTripleFromR1cs (fun l => l) r [9] [3] = .ok (p, ins, wit) ∧
    (∃ pk vk, povIndex env7681.gamma pp p = .ok (pk, vk) ∧
      PovCompletes env7681 33 1 72 p (gateCount c) ins wit pk vk) ∧
    (∃ pk vk, povPeIndex env7681.gamma pp p = .ok (pk, vk) ∧
      PovPeCompletes env7681 33 1 72 p (gateCount c) ins wit pk vk) := by
  obtain ⟨r, c, hr, hc, hnd, hg, -⟩ := square7681_circuit
  obtain ⟨pp, hpp⟩ : ∃ pp, kzgSetup 72 (33 : K) (1 : K) (1 : K) = .ok pp := ⟨_, rfl⟩
  have hsat : ArkHolds square7681 [9] [3] := ⟨rfl, rfl, by decide +kernel⟩
  have hm : c.mulGates.length ≤ gateCount c := by unfold gateCount; omega
  have ht : (512 : ℕ) ≤ 2 ^ env7681.fft.twoAdicity := by decide
  obtain ⟨p, ins, wit, pk, vk, h1, -, -, h2, -, h3⟩ := C134_complete env7681 fftOk7681 (by decide +kernel) 33 (1 : K)
    (1 : K) 72 pp hpp (fun l => l) (fun l => List.Perm.refl l) square7681 square7681_wf r hr c hc (by omega)
    (by omega) [9] [3] hsat
  obtain ⟨p', ins', wit', pk', vk', g1, -, -, g2, -, g3⟩ := C134_prover_efficient_complete env7681 fftOk7681
    (by decide +kernel) 33 (1 : K) (1 : K) 72 pp hpp (fun l => l) (fun l => List.Perm.refl l) square7681 square7681_wf r
    hr c hc (by omega) (by omega) [9] [3] hsat
  have := h1.symm.trans g1
  simp only [Except.ok.injEq, Prod.mk.injEq] at this
  obtain ⟨rfl, rfl, rfl⟩ := this
  exact ⟨r, c, pp, p, ins, wit, hr, hc, hpp, h1, ⟨pk, vk, h2, h3⟩, ⟨pk', vk', g2, g3⟩⟩

/-! ## Binding of the values sent (C141) -/

/-- C141 with every strategy, for the systems above. -/
example (s : PovPeStrategy K) (hs : s.Bounded 13) :
    Odds K 17 fun t : K × K × K × K × K × K × K × K × K =>
      let (ζ, ζ1, α, ω, z, ξ, ξ2, β, r) := t
      PovPeAccepts K K K ⟨[5], [(0, 4), (3, 8)], 1, 1⟩ 3 13 13 ⟨[6], [10]⟩ s ζ ζ1 α ω z ξ ξ2 β r ∧
        ¬ (s.y [ζ, ζ1, α, ω, z] = s.U.eval (ω / z) ∧
           s.y2 [ζ, ζ1, α, ω, z] = (s.R [ζ, ζ1]).eval (ω / z)) :=
  C141_pov_pe (F := K) ⟨[5], [(0, 4), (3, 8)], 1, 1⟩ 3 13 rfl (by simp) (by decide) 13 (by decide +kernel)
    (by decide) ⟨[6], [10]⟩ s hs

example (s : R1csStrategy K) (hs : s.Bounded 18) :
    Odds K 21 fun t : K × K × K × K × K × K × K × K × K × K =>
      let (μ, ν, β, α, ω, z, ξ, ξ2, τ, r) := t
      R1csAccepts K K K cube7681 18 13 [27] s μ ν β α ω z ξ ξ2 τ r ∧
        ¬ (s.y [μ, ν, β, α, ω, z] = (s.Q [μ, ν]).eval (ω / z) ∧
           s.y1 [μ, ν, β, α, ω, z] = s.A.eval (ω / z)) :=
  C141_r1cs cube7681 cube7681_lens 2 4 6 1 18 rfl rfl (by decide +kernel) rfl (by decide)
    (by decide) (by decide) (by decide) 13 (by decide +kernel) [27] s hs

example (s : R1csStrategy K) (hs : s.Bounded 15) :
    Odds K 18 fun t : K × K × K × K × K × K × K × K × K × K =>
      let (μ, ν, β, α, ω, z, ξ, ξ2, τ, r) := t
      HprAccepts K K K hpr7681 15 13 [48] s μ ν β α ω z ξ ξ2 τ r ∧
        ¬ (s.y [μ, ν, β, α, ω, z] = (s.Q [μ, ν]).eval (ω / z) ∧
           s.y1 [μ, ν, β, α, ω, z] = s.A.eval (ω / z)) :=
  C141_hpr hpr7681 hpr7681_lens rfl 1 1 4 15 rfl rfl (by decide +kernel) (by decide)
    (by decide) (by decide) (by decide) 13 (by decide +kernel) [48] s hs

example (s : R1csPeStrategy K) (hs : s.Bounded 10) :
    Odds K 14 fun t : K × K × K × K × K × K × K × K × K × K =>
      let (μ, ν, β, α, ω, z, ξ, ξ2, τ, r) := t
      R1csPeAccepts K K K cube7681 10 13 [27] s μ ν β α ω z ξ ξ2 τ r ∧
        ¬ (s.y [μ, ν, β, α, ω, z] = (s.U [μ, ν]).eval (ω / z) ∧
           s.y1 [μ, ν, β, α, ω, z] = s.Y.eval (ω / z) ∧
           s.y2 [μ, ν, β, α, ω, z] = (s.C [μ]).eval (ω / z)) :=
  C141_r1cs_pe cube7681 cube7681_lens 2 4 6 10 rfl rfl (by decide +kernel) (by decide)
    (by decide) (by decide) (by decide) (by decide) 13 (by decide +kernel) [27] s hs

end Instances

end VO
