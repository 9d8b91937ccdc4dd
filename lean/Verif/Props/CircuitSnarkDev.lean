import Verif.Props.CircuitSnark
import Verif.Lemmas.SnarkExample

/-
Property theorems C122: circuits and R1CS for which the POV proof system accepts proofs of false
statements (`/repo/voproof/src/cs/circuit/fan_in_two.rs`, `/repo/voproof/src/cs/pov.rs`,
`/repo/voproof/src/snarks/voproof_pov.rs`), and concrete cases for C121.
-/

set_option linter.unusedSectionVars false

namespace VO
open Spec

variable {F G1 G2 GT : Type} [Field F] [DecidableEq F]
  [AddCommGroup G1] [Module F G1] [DecidableEq G1] [AddCommGroup G2] [Module F G2]
  [AddCommGroup GT] [Module F GT] [DecidableEq GT]

/-- **C122.** The POV prover does not need the copy constraints: for every witness that satisfies the
gates and the instance and is invariant under the product of the swaps of the wire pairs (in their
order), `index` and `prove` work exactly as C41 says for a satisfying witness. -/
theorem C122_invariant_suffices (env : Env F G1 G2 GT) (hf : FftOk env.fft) (hγ : env.gamma ≠ 0)
    (β : F) (g : G1) (h : G2) (D : ℕ) (pp : UniversalParams G1 G2) (hs : kzgSetup D β g h = .ok pp)
    (cs : POV F) (hne : cs.consts ≠ []) (c : ℕ) (hc : c = cs.nmul + cs.nadd + cs.consts.length)
    (hD : 6 * c - cs.nmul ≤ D) (hfft : 6 * c + 2 ≤ 2 ^ env.fft.twoAdicity)
    (ins : POVInstance F) (hlen : ins.idx.length = ins.vals.length) (hnd : ins.idx.Nodup)
    (w : POVWitness F) (hsh : PovShape cs w) (hgate : GatesHold cs w) (hinst : InstanceHolds w ins)
    (hwr : ∀ p ∈ cs.wires, p.1 < 3 * c ∧ p.2 < 3 * c)
    (hinv : Invariant (cs.wires.map (fun p => Equiv.swap p.1 p.2)).prod
      (fun i => (povVec w)[i]?)) :
    ∃ pk vk, povIndex env.gamma pp cs = .ok (pk, vk) ∧
      PovCompletes env β g D cs c ins w pk vk :=
  pov_complete env hf hγ β g h D pp hs cs hne c hc hD hfft ins hlen hnd w hsh hgate hinst hwr
    (fun k _ => by
      have := hinv k
      rw [List.getD_eq_getElem?_getD, List.getD_eq_getElem?_getD]
      exact congrArg (fun o => o.getD 0) this)

theorem mapM_append_ok {α β : Type} (f : α → Res β) (l1 l2 : List α) (r : List β)
    (h : (l1 ++ l2).mapM f = .ok r) :
    ∃ r1 r2, l1.mapM f = .ok r1 ∧ l2.mapM f = .ok r2 ∧ r = r1 ++ r2 := by
  induction l1 generalizing r with
  | nil => exact ⟨[], r, rfl, h, rfl⟩
  | cons a l1 ih =>
    rw [List.cons_append] at h
    obtain ⟨b, bs, hb, hbs, rfl⟩ := (mapM_cons_ok _ _ _ _).mp h
    obtain ⟨r1, r2, h1, h2, rfl⟩ := ih bs hbs
    exact ⟨b :: r1, r2, (mapM_cons_ok _ _ _ _).mpr ⟨b, r1, hb, h1, rfl⟩, h2, rfl⟩

theorem mapM_append_mk {α β : Type} (f : α → Res β) (l1 l2 : List α) (r1 r2 : List β)
    (h1 : l1.mapM f = .ok r1) (h2 : l2.mapM f = .ok r2) : (l1 ++ l2).mapM f = .ok (r1 ++ r2) := by
  induction l1 generalizing r1 with
  | nil => obtain rfl : [] = r1 := Except.ok.inj h1; exact h2
  | cons a l1 ih =>
    obtain ⟨b, bs, hb, hbs, rfl⟩ := (mapM_cons_ok _ _ _ _).mp h1
    rw [List.cons_append]
    exact (mapM_cons_ok _ _ _ _).mpr ⟨b, bs ++ r2, hb, ih bs hbs, rfl⟩

/-- The values of an evaluated circuit that satisfy the equalities `as ++ bs` are invariant under the
permutation of the circuit that asserts `as`, the equality `q` twice, and `bs`. -/
theorem repeated_invariant (l : List (Call F)) (c c' : Circuit F) (h : Builds Circuit.new l c)
    (hl : ∀ x ∈ l, HighLevel x) (input : List F) (hev : c.evaluate input = .ok c') (p : POV F)
    (hp : POV.ofCircuit c' = .ok p) (wit : POVWitness F) (hw : c'.getWitness = .ok wit)
    (as bs : List (ℕ × ℕ)) (q : ℕ × ℕ) (hq : asserted l = as ++ q :: q :: bs)
    (heq : ∀ r ∈ as ++ bs, valueOf c' r.1 = valueOf c' r.2) :
    Invariant (p.wires.map (fun p => Equiv.swap p.1 p.2)).prod (fun i => (povVec wit)[i]?) := by
  have hg := (Circuit.builds_good h hl Circuit.good_new).1
  have ha : c.assertEquals = asserted l := by
    rw [Circuit.builds_asserts h]; rfl
  have hs := Circuit.evaluate_same hev
  have hw' : Wired c' := hs.wired hg.wired
  obtain ⟨-, val, hx, hv, -⟩ := C31_values l c c' h hl input hev
  have hv' : ∀ v < c'.vars.length, valueOf c' v = some (val v) := by
    intro v hlt; rw [hs.length] at hlt; exact hv v hlt
  obtain ⟨wires, hwir, rfl⟩ := Circuit.ofCircuit_ok hp
  obtain rfl : wit = Circuit.witnessOf c' val := by
    have := Circuit.getWitness_eq hw' hv'
    rw [hw] at this
    exact Except.ok.inj this
  obtain ⟨hcomp, eqs, he, hwires⟩ := Circuit.getWiring_ok.mp hwir
  rw [hs.assertEquals, ha, hq] at he
  obtain ⟨e1, e2, h1, h2, rfl⟩ := mapM_append_ok _ _ _ _ he
  obtain ⟨b, e3, hb, h3, rfl⟩ := (mapM_cons_ok _ _ _ _).mp h2
  obtain ⟨b', e4, hb', h4, rfl⟩ := (mapM_cons_ok _ _ _ _).mp h3
  rw [hb] at hb'
  obtain rfl := Except.ok.inj hb'
  set vw := c'.vars.flatMap (fun x => Circuit.windows2 ((Circuit.wiresOf x).map c'.getWireGlobalIndex)) with hvw
  have e : (wires.map (fun p => Equiv.swap p.1 p.2)).prod
      = ((vw ++ (e1 ++ e4)).map (fun p => Equiv.swap p.1 p.2)).prod := by
    rw [hwires]
    simp only [List.map_append, List.prod_append, List.map_cons, List.prod_cons]
    rw [← mul_assoc (Equiv.swap b.1 b.2), Equiv.swap_mul_self, one_mul]
  show Invariant (wires.map _).prod _
  rw [e]
  -- the circuit without the repeated assertion
  let d : Circuit F := { c' with assertEquals := as ++ bs }
  have hdw : Wired d := ⟨hw'.inputs, hw'.nodup, hw'.driver, hw'.range⟩
  have hd : d.getWiring = .ok (vw ++ (e1 ++ e4)) :=
    Circuit.getWiring_ok.mpr ⟨hcomp, e1 ++ e4, mapM_append_mk _ _ _ _ _ h1 h4, rfl⟩
  intro i
  refine C11_complete (vw ++ (e1 ++ e4)) (fun i => (povVec (Circuit.witnessOf c' val))[i]?) ?_ i
  intro r hr
  obtain ⟨w, w', v, v', c1, c2, rfl, hor⟩ := Circuit.wiring_pair hdw hd hr
  have c1 : Carries c' w v := c1
  have c2 : Carries c' w' v' := c2
  show (povVec (Circuit.witnessOf c' val))[c'.getWireGlobalIndex w]?
    = (povVec (Circuit.witnessOf c' val))[c'.getWireGlobalIndex w']?
  rw [Circuit.witnessOf_at val c1, Circuit.witnessOf_at val c2]
  rcases hor with rfl | hm
  · rfl
  · have := heq _ hm
    simp only at this
    rw [hv' _ (hw'.range _ _ c1), hv' _ (hw'.range _ _ c2)] at this
    exact this

/-- **C122 (deviation).** An equality asserted twice in a row is not enforced at all by the POV proof
system.  For every circuit built by high-level calls that asserts `q` twice in a row (and has a
constant gate and distinct public variables), and all inputs on which it evaluates so that the *other*
asserted equalities hold, whether or not `q` holds: from the values of this evaluation `prove` makes a
proof exactly as for a true statement, and `verify` accepts every proof it makes. -/
theorem C122_repeated_assertion (env : Env F G1 G2 GT) (hf : FftOk env.fft) (hγ : env.gamma ≠ 0)
    (β : F) (g : G1) (h : G2) (D : ℕ) (pp : UniversalParams G1 G2) (hs : kzgSetup D β g h = .ok pp)
    (l : List (Call F)) (c : Circuit F) (hb : Builds Circuit.new l c) (hl : ∀ x ∈ l, HighLevel x)
    (p : POV F) (hp : POV.ofCircuit c = .ok p) (hne : c.constGates ≠ [])
    (hpub : (publicVars l).Nodup) (hD : 6 * gateCount c - c.mulGates.length ≤ D)
    (hfft : 6 * gateCount c + 2 ≤ 2 ^ env.fft.twoAdicity)
    (as bs : List (ℕ × ℕ)) (q : ℕ × ℕ) (hq : asserted l = as ++ q :: q :: bs)
    (input : List F) (c' : Circuit F) (hev : c.evaluate input = .ok c')
    (heq : ∀ r ∈ as ++ bs, valueOf c' r.1 = valueOf c' r.2) :
    ∃ vals w pk vk, c'.getInstance = .ok (claim c vals) ∧ c'.getWitness = .ok w ∧
      (publicVars l).map (valueOf c') = vals.map some ∧
      povIndex env.gamma pp p = .ok (pk, vk) ∧
      (∀ π, povProve env pk (claim c vals) w = .ok π →
        povVerify env vk (claim c vals) π = .ok ()) ∧
      PovCompletes env β g D p (gateCount c) (claim c vals) w pk vk := by
  have hsame := Circuit.evaluate_same hev
  have hp' : POV.ofCircuit c' = .ok p := by rw [(C34_system l c hb).2.2 c' hsame, hp]
  obtain ⟨ins, wit, h1, h2, h3, h4, h5, h6, -, -⟩ := C34_honest l c c' hb hl input hev p hp'
  have hins := getInstance_claim c c' hsame ins h1
  obtain ⟨vals, rfl⟩ : ∃ vals, ins = claim c vals := ⟨_, hins⟩
  obtain ⟨q1, q2, q3⟩ := (C34_system l c hb).2.1 p hp
  have hpne : p.consts ≠ [] := by rw [q3]; simpa using hne
  have hc : gateCount c = p.nmul + p.nadd + p.consts.length := by
    rw [q1, q2, q3, List.length_map]; rfl
  obtain ⟨a1, a2, -⟩ := claim_positions l c hb hl vals
  have hvl : vals.length = (publicVars l).length := by
    have := congrArg List.length h6
    simpa [claim] using this.symm
  obtain ⟨wires, hw, hpw⟩ := Circuit.ofCircuit_ok hp
  have hpwires : p.wires = wires := by rw [hpw]
  obtain ⟨pk, vk, hidx, hrun⟩ := C122_invariant_suffices env hf hγ β g h D pp hs p hpne (gateCount c)
    hc (by rw [q1]; exact hD) hfft (claim c vals) (by rw [a1]; exact hvl.symm) (a2 hpub) wit h3 h4 h5
    (by rw [hpwires]; exact (C33_succeeds_iff l c hb).2 wires hw)
    (repeated_invariant l c c' hb hl input hev p hp' wit h2 as bs q hq heq)
  exact ⟨vals, wit, pk, vk, h1, h2, h6, hidx,
    fun π hπ => C81_pov env β g h D pp hs p pk vk hidx _ _ π hπ, hrun⟩

/-! ### Concrete cases -/

/-- Build a circuit, evaluate it, make keys, prove and verify the resulting claim. -/
def circuitRun97 (l : List (Call K97)) (input : List K97) : Res (List K97) := do
  let c ← (Circuit.new : Circuit K97).run l
  let c' ← c.evaluate input
  let p ← POV.ofCircuit c
  let ins ← c'.getInstance
  let w ← c'.getWitness
  povRun97 p ins w
  return ins.vals

/-- `x * x` is public, `x + x` is asserted equal to 6. -/
def trueCalls97 : List (Call K97) :=
  [.input, .bin .mul 0 0, .bin .add 0 0, .const 6, .assertEq 2 3, .complete, .markPublic 1]

/-- The hypotheses of C121 hold for this circuit and the input 3: it is built, its POV system exists,
it has a constant gate, distinct public variables, few enough gates, and asserted equalities that hold
on 3; and the run returns an accepted proof for the public value 9. -/
example : buildsB Circuit.new trueCalls97 = true ∧ publicVars trueCalls97 = [1] ∧
    asserted trueCalls97 = [(2, 3)] ∧
    ((Circuit.new : Circuit K97).run trueCalls97).map (fun c =>
      (gateCount c, c.constGates.length, (POV.ofCircuit c).isOk)) = .ok (3, 1, true) ∧
    circuitRun97 trueCalls97 [3] = .ok [9] := by decide +kernel

/-- On input 4 the asserted equality fails and `prove` returns no proof. -/
example : (circuitRun97 trueCalls97 [4]).isOk = false := by decide +kernel

/-- `x * x` is public and asserted equal to 5, which is not a square modulo 97; the equality is
asserted `n` times. -/
def falseCalls97 (n : ℕ) : List (Call K97) :=
  [.input, .bin .mul 0 0, .const 5] ++ List.replicate n (.assertEq 1 2) ++ [.complete, .markPublic 1]

theorem falseCalls97_false (n : ℕ) (hn : 0 < n) (c : Circuit K97)
    (hb : Builds Circuit.new (falseCalls97 n) c) (hl : ∀ x ∈ falseCalls97 n, HighLevel x)
    (hg : c.mulGates = [⟨0, 0, 1⟩] ∧ c.constGates = [⟨2, 5⟩] ∧ c.vars.length = 3)
    (vals : List K97) : ¬ CircuitTrue (falseCalls97 n) c vals := by
  rintro ⟨input, c', hev, heq, -⟩
  obtain ⟨-, val, hx, hv, -⟩ := C31_values _ c c' hb hl input hev
  have h1 := hx.bin .mul 0 ⟨0, 0, 1⟩ (by show c.mulGates[0]? = _; rw [hg.1]; rfl)
  have h2 := hx.const 0 ⟨2, 5⟩ (by rw [hg.2.1]; rfl)
  have hq : (1, 2) ∈ asserted (falseCalls97 n) := by
    obtain ⟨m, rfl⟩ : ∃ m, n = m + 1 := ⟨n - 1, by omega⟩
    simp [falseCalls97, asserted, List.replicate_succ]
  have h3 := heq _ hq
  simp only at h3
  rw [hv 1 (by omega), hv 2 (by omega)] at h3
  have h3 := Option.some.inj h3
  have key : ∀ a : K97, a * a ≠ 5 := by decide +kernel
  exact key (val 0) (by
    have h1 : val 1 = val 0 * val 0 := h1
    have h2 : val 2 = 5 := h2
    rw [← h1, h3, h2])

/-- The statement is false however often the equality is asserted (so C121's soundness theorem
applies to it when it is asserted once). -/
example : buildsB Circuit.new (falseCalls97 1) = true ∧ publicVars (falseCalls97 1) = [1] ∧
    ((Circuit.new : Circuit K97).run (falseCalls97 1)).map (fun c =>
      (c.mulGates, c.constGates.map (fun g => (g.value, g.output)), c.vars.length, gateCount c))
      = .ok ([⟨0, 0, 1⟩], [(5, 2)], 3, 2) ∧
    ∀ i < 6, ∀ j < 6, (5 : K97) ^ i = (5 : K97) ^ j → i = j := by decide +kernel

/-- **C122 (deviation).** Concretely: with the equality asserted once `prove` fails for `x = 3`; with
the equality asserted twice it returns a proof of the false statement, which `verify` accepts. -/
theorem C122_false_circuit_accepted : (circuitRun97 (falseCalls97 1) [3]).isOk = false ∧
    circuitRun97 (falseCalls97 2) [3] = .ok [9] := by decide +kernel

/-- The R1CS `x * 1 = 0` listed `n` times. -/
def rowR1CS97 (n : ℕ) : R1CS K97 :=
  ⟨⟨List.range n, List.replicate n 1, List.replicate n 1⟩,
    ⟨List.range n, List.replicate n 0, List.replicate n 1⟩, ⟨[], [], []⟩, n, 2, 1⟩

/-- Translate an R1CS with an assignment, make keys, prove and verify. -/
def r1csPovRun97 (r : R1CS K97) (x w : List K97) : Res (List K97) := do
  let t ← povTripleFromR1cs id r x w
  povRun97 t.1 t.2.1 t.2.2
  return t.2.1.vals

/-- **C122 (deviation).** Concretely for R1CS: `x * 1 = 0` has no satisfying assignment with `x = 5`,
but if the constraint is listed twice `prove` returns an accepted POV proof for `x = 5`. -/
theorem C122_false_r1cs_accepted : ¬ R1CSHolds (rowR1CS97 2) [5] [] ∧
    r1csPovRun97 (rowR1CS97 1) [0] [] = .ok [0] ∧
    (r1csPovRun97 (rowR1CS97 1) [5] []).isOk = false ∧
    r1csPovRun97 (rowR1CS97 2) [5] [] = .ok [5] := by
  refine ⟨?_, by decide +kernel, by decide +kernel, by decide +kernel⟩
  intro h
  have := h 0 (by decide)
  revert this
  decide +kernel

end VO
