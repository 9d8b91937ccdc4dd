import Verif.Props.ArkSnark
import Verif.Props.CircuitPe
import Verif.Props.CircuitSnark
import Verif.Lemmas.CircuitBlank

/-
Property theorems C134: from an arkworks constraint system through the circuit translation to the two POV
proof systems (`/repo/voproof/src/cs/r1cs.rs`, `/repo/voproof/src/cs/circuit/mod.rs`,
`/repo/voproof/src/cs/pov.rs`, `/repo/voproof/src/snarks/voproof_pov.rs`,
`/repo/voproof/src/snarks/voproof_pov_prover_efficient.rs`; the pipeline of `/repo/voproof/tests/pov_test.rs`).
-/

set_option linter.unusedSectionVars false

namespace VO
open Spec

variable {F G1 G2 GT : Type} [Field F] [DecidableEq F]
  [AddCommGroup G1] [Module F G1] [DecidableEq G1] [AddCommGroup G2] [Module F G2] [DecidableEq G2]
  [AddCommGroup GT] [Module F GT] [DecidableEq GT]

namespace Spec

/-- Every variable other than the constant one occurs in some constraint with a coefficient other than
zero. -/
def ArkUsed (m : ArkMatrices F) : Prop :=
  ∀ j, 1 ≤ j → j < m.numInstanceVariables + m.numWitnessVariables →
    ∃ row ∈ m.a ++ m.b ++ m.c, ∃ e ∈ row, e.2 = j ∧ e.1 ≠ 0

end Spec

theorem lists_arkSparse (m : List (List (F × ℕ))) (i j : ℕ) :
    Lists (arkSparse m) i j ↔ ∃ row, m[i]? = some row ∧ ∃ e ∈ row, e.2 = j ∧ e.1 ≠ 0 := by
  unfold Lists
  rw [triples_arkSparse]
  unfold arkTriples
  simp only [List.mem_map, List.mem_flatMap, Prod.exists, Prod.mk.injEq, List.mem_zipIdx_iff_getElem?]
  constructor
  · rintro ⟨u, hu, a, b, c, ⟨row, k, hrow, v, n, he, h1, h2, h3⟩, ⟨rfl, rfl⟩, rfl⟩
    subst h1 h2 h3
    exact ⟨row, hrow, v, n, he, rfl, hu⟩
  · rintro ⟨row, hrow, v, n, he, rfl, hv⟩
    exact ⟨v, hv, i, n, v, ⟨row, i, hrow, v, n, he, rfl, rfl, rfl⟩, ⟨rfl, rfl⟩, rfl⟩

/-- **C134.** The translation of an arkworks constraint system to a circuit: it succeeds if and only if there is
a variable besides the constant one and every variable is used by some constraint, for every iteration order of
the hash map. -/
theorem C134_translates_iff (perm : Order F) (hperm : ∀ l, (perm l).Perm l) (m : ArkMatrices F) (hm : ArkWf m)
    (r : R1CS F) (hr : R1CS.ofArk m = .ok r) :
    (∃ c, Circuit.ofR1CS perm r = .ok c) ↔
      2 ≤ m.numInstanceVariables + m.numWitnessVariables ∧ ArkUsed m := by
  have hr' := hr
  rw [R1CS.ofArk, if_neg (by have := hm.one_var; omega)] at hr'
  obtain rfl := Except.ok.inj hr'
  rw [C36_succeeds_iff perm hperm]
  simp only [List.mem_cons, List.not_mem_nil, or_false, forall_eq_or_imp, forall_eq, exists_eq_or_imp,
    exists_eq_left, lists_arkSparse]
  have hrange : ∀ t : List (List (F × ℕ)), t.length = m.numConstraints → (∀ row ∈ t, row ∈ m.a ++ m.b ++ m.c) →
      ∀ i j, (∃ row, t[i]? = some row ∧ ∃ e ∈ row, e.2 = j ∧ e.1 ≠ 0) →
        i < m.numConstraints ∧ j < m.numInstanceVariables + m.numWitnessVariables := by
    rintro t ht hsub i j ⟨row, hrow, e, he, rfl, -⟩
    obtain ⟨hi, hg⟩ := List.getElem?_eq_some_iff.mp hrow
    exact ⟨by omega, hm.cols row (hsub row (List.mem_of_getElem? hrow)) e he⟩
  have hex : ∀ (t : List (List (F × ℕ))) (j : ℕ),
      (∃ (i : ℕ) (row : List (F × ℕ)), t[i]? = some row ∧ ∃ e ∈ row, e.2 = j ∧ e.1 ≠ 0) ↔
        ∃ row ∈ t, ∃ e ∈ row, e.2 = j ∧ e.1 ≠ 0 := by
    intro t j
    constructor
    · rintro ⟨i, row, hrow, he⟩
      exact ⟨row, List.mem_of_getElem? hrow, he⟩
    · rintro ⟨row, hrow, he⟩
      obtain ⟨i, hi, rfl⟩ := List.mem_iff_getElem.mp hrow
      exact ⟨i, _, List.getElem?_eq_getElem hi, he⟩
  simp only [hex]
  unfold ArkUsed
  have hiff : ∀ j, ((∃ row ∈ m.a, ∃ e ∈ row, e.2 = j ∧ e.1 ≠ 0) ∨
      (∃ row ∈ m.b, ∃ e ∈ row, e.2 = j ∧ e.1 ≠ 0) ∨ ∃ row ∈ m.c, ∃ e ∈ row, e.2 = j ∧ e.1 ≠ 0) ↔
      ∃ row ∈ m.a ++ m.b ++ m.c, ∃ e ∈ row, e.2 = j ∧ e.1 ≠ 0 := by
    intro j
    simp only [List.mem_append, or_assoc, or_and_right, exists_or]
  simp only [hiff]
  refine and_congr_right fun _ => ⟨fun h => h.2, fun h => ⟨⟨?_, ?_, ?_⟩, h⟩⟩
  · exact hrange m.a hm.rows_a (fun row h => by simp [h])
  · exact hrange m.b hm.rows_b (fun row h => by simp [h])
  · exact hrange m.c hm.rows_c (fun row h => by simp [h])

theorem ark_history (perm : Order F) (hperm : ∀ l, (perm l).Perm l) (m : ArkMatrices F) (hm : ArkWf m)
    (r : R1CS F) (hr : R1CS.ofArk m = .ok r) (circ : Circuit F) (hc : Circuit.ofR1CS perm r = .ok circ) :
    ∃ l, Builds Circuit.new l circ ∧ (∀ x ∈ l, HighLevel x) ∧ (publicVars l).Nodup ∧
      (∀ v ∈ publicVars l, ∀ k ∈ circ.constGates, k.output ≠ v) ∧ asserted l = circ.assertEquals := by
  obtain ⟨r', hr', -, e1, e2, e3, -⟩ := ofArk_facts m hm
  obtain rfl := Except.ok.inj (hr.symm.trans hr')
  obtain ⟨h2, -⟩ := (C36_succeeds_iff perm hperm r).mp ⟨circ, hc⟩
  obtain ⟨l, hb, hl, hpv, -, hn⟩ := C36_history perm hperm r circ hc (by
    have := hm.one_var; omega)
  refine ⟨l, hb, hl, by rw [hpv]; exact List.nodup_range, ?_, ?_⟩
  · intro v hv k hk hkv
    rw [hpv, List.mem_range] at hv
    obtain ⟨i, hi, rfl⟩ := List.mem_iff_getElem.mp hk
    have hg := (Circuit.builds_good hb hl Circuit.good_new).1
    have := Circuit.driven_ge hg (w := .const i) (v := v) ⟨_, List.getElem?_eq_getElem hi, hkv⟩
    omega
  · rw [Circuit.builds_asserts hb]; rfl

/-- The steps of `pov_triple_from_r1cs_triple`. -/
theorem triple_parts (perm : Order F) (r : R1CS F) (circ : Circuit F) (hc : Circuit.ofR1CS perm r = .ok circ)
    (x w : List F) (p : POV F) (ins : POVInstance F) (wit : POVWitness F)
    (ht : povTripleFromR1cs perm r x w = .ok (p, ins, wit)) :
    ∃ c', circ.evaluate (x ++ w) = .ok c' ∧ c'.getInstance = .ok ins ∧
      c'.getWitness = .ok wit ∧ POV.ofCircuit c' = .ok p := by
  unfold povTripleFromR1cs at ht
  rw [hc] at ht
  simp only [bind, Except.bind] at ht
  split at ht
  · cases ht
  rename_i c1 hc1
  split at ht
  · cases ht
  rename_i i1 hi1
  split at ht
  · cases ht
  rename_i w1 hw1
  split at ht
  · cases ht
  rename_i p1 hp1
  simp only [pure, Except.pure, Except.ok.injEq, Prod.mk.injEq] at ht
  obtain ⟨rfl, rfl, rfl⟩ := ht
  exact ⟨c1, unwrapR_ok hc1, unwrapR_ok hi1, unwrapR_ok hw1, hp1⟩

/-- Reading the public wires after the public values have been assigned. -/
theorem publics_mapM {c c1 : Circuit F} (hs : SameShape c c1) (pio : List GateWire) (vs : List ℕ) (x : List F)
    (hf : List.Forall₂ (Carries c) pio vs) (hlen : x.length = pio.length)
    (hq : ∀ q ∈ x.zip pio, ∀ v, Carries c q.2 v → valueOf c1 v = some q.1) :
    pio.mapM c1.getWireValue = .ok x := by
  induction hf generalizing x with
  | nil => obtain rfl := List.eq_nil_of_length_eq_zero (by simpa using hlen); rfl
  | @cons w v ws vs hwv hrest ih =>
    rcases x with _ | ⟨a, x⟩
    · simp at hlen
    rw [mapM_cons_ok]
    refine ⟨a, x, ?_, ih x (by simpa using hlen) (fun q hqm => hq q (by simp [hqm])), rfl⟩
    unfold Circuit.getWireValue
    rw [Circuit.wire_var ((hs.carries w v).mpr hwv)]
    exact (Circuit.getVarValue_ok c1 v a).mpr (hq (a, w) (by simp) v hwv)

/-- **C134.** From an arkworks constraint system to an accepted POV proof: for every system all of whose variables
are used, every hash map order and every satisfying assignment, the translation yields a satisfied POV system whose
public values are the public inputs, and `VOProofPOV` makes an accepted proof unless a challenge takes an
exceptional value. -/
theorem C134_complete (env : Env F G1 G2 GT) (hf : FftOk env.fft) (hγ : env.gamma ≠ 0) (β : F)
    (g : G1) (h : G2) (D : ℕ) (pp : UniversalParams G1 G2) (hs : kzgSetup D β g h = .ok pp)
    (perm : Order F) (hperm : ∀ l, (perm l).Perm l) (m : ArkMatrices F) (hm : ArkWf m) (r : R1CS F)
    (hr : R1CS.ofArk m = .ok r) (circ : Circuit F) (hc : Circuit.ofR1CS perm r = .ok circ)
    (hD : 6 * gateCount circ - circ.mulGates.length ≤ D)
    (hfft : 6 * gateCount circ + 2 ≤ 2 ^ env.fft.twoAdicity)
    (x w : List F) (hsat : ArkHolds m x w) :
    ∃ p ins wit pk vk, povTripleFromR1cs perm r x w = .ok (p, ins, wit) ∧ ins.vals = x ∧
      p.satisfy ins wit = .ok true ∧ povIndex env.gamma pp p = .ok (pk, vk) ∧
      (∀ π, povProve env pk ins wit = .ok π → povVerify env vk ins π = .ok ()) ∧
      PovCompletes env β g D p (gateCount circ) ins wit pk vk := by
  obtain ⟨r', hr', -, e1, e2, e3, -, -, -, -, hiff⟩ := ofArk_facts m hm
  obtain rfl := Except.ok.inj (hr.symm.trans hr')
  obtain ⟨hx, hw, -⟩ := id hsat
  have hh := (hiff x w hx hw).mpr hsat
  obtain ⟨p, ins, wit, pk, vk, k1, k2, k3, k4, k5⟩ := C121_r1cs_complete env hf hγ β g h D pp hs perm hperm r
    circ hc hD hfft x w (by omega) (by omega) hh
  obtain ⟨p', ins', wit', t1, -, -, t2⟩ := C36_triple perm hperm r ⟨circ, hc⟩ x w (by omega) (by omega)
  rw [k1] at t1
  obtain ⟨rfl, rfl, rfl⟩ := Except.ok.inj t1
  exact ⟨p, ins, wit, pk, vk, k1, k2, t2.mpr hh, k3, k4, k5⟩

/-- **C134.** Soundness: if no witness satisfies the arkworks system together with the public inputs `x`, and the
translated circuit has no repeated equality (see C36 for repeated constraints), then whatever polynomial the prover
commits to first, `VOProofPOV` rejects except for few challenges. -/
theorem C134_sound (perm : Order F) (hperm : ∀ l, (perm l).Perm l) (m : ArkMatrices F) (hm : ArkWf m)
    (r : R1CS F) (hr : R1CS.ofArk m = .ok r) (circ : Circuit F) (hc : Circuit.ofR1CS perm r = .ok circ)
    (hnd : circ.assertEquals.Nodup) (x : List F) (hx : x.length + 1 = m.numInstanceVariables)
    (p : POV F) (ins : POVInstance F) (hpair : povPairFromR1cs perm r x = .ok (p, ins)) (D : ℕ)
    (hD : 6 * gateCount circ - circ.mulGates.length ≤ D) (γ : F)
    (hγ : ∀ i < 3 * gateCount circ, ∀ j < 3 * gateCount circ, γ ^ i = γ ^ j → i = j)
    (hfalse : ¬ ∃ w, ArkHolds m x w) (W : Polynomial F) (dW : W.natDegree ≤ D) :
    PovRejects G1 G2 GT p (gateCount circ) D γ ins W := by
  obtain ⟨r', hr', -, e1, e2, e3, -, -, -, -, hiff⟩ := ofArk_facts m hm
  obtain rfl := Except.ok.inj (hr.symm.trans hr')
  have h2 := ((C36_succeeds_iff perm hperm r).mp ⟨circ, hc⟩).1
  have hone := hm.one_var
  by_cases hi : r.inputSize < r.ncols
  · refine C121_r1cs_sound perm hperm r hi circ hc hnd x p ins hpair D hD γ hγ ?_ W dW
    rintro ⟨w, hw, hh⟩
    exact hfalse ⟨w, (hiff x w hx (by omega)).mp hh⟩
  · omega

/-- **C134.** The same pipeline with the prover-efficient POV system. -/
theorem C134_prover_efficient_complete (env : Env F G1 G2 GT) (hf : FftOk env.fft) (hγ : env.gamma ≠ 0) (β : F)
    (g : G1) (h : G2) (D : ℕ) (pp : UniversalParams G1 G2) (hs : kzgSetup D β g h = .ok pp)
    (perm : Order F) (hperm : ∀ l, (perm l).Perm l) (m : ArkMatrices F) (hm : ArkWf m) (r : R1CS F)
    (hr : R1CS.ofArk m = .ok r) (circ : Circuit F) (hc : Circuit.ofR1CS perm r = .ok circ)
    (hD : 4 * gateCount circ + circ.mulGates.length ≤ D)
    (hfft : 6 * gateCount circ + 2 ≤ 2 ^ env.fft.twoAdicity)
    (x w : List F) (hsat : ArkHolds m x w) :
    ∃ p ins wit pk vk, povTripleFromR1cs perm r x w = .ok (p, ins, wit) ∧ ins.vals = x ∧
      p.satisfy ins wit = .ok true ∧ povPeIndex env.gamma pp p = .ok (pk, vk) ∧
      (∀ π, povPeProve env pk ins wit = .ok π → povPeVerify env vk ins π = .ok ()) ∧
      PovPeCompletes env β g D p (gateCount circ) ins wit pk vk := by
  obtain ⟨r', hr', -, e1, e2, e3, -, -, -, -, hiff⟩ := ofArk_facts m hm
  obtain rfl := Except.ok.inj (hr.symm.trans hr')
  obtain ⟨hx, hw, -⟩ := id hsat
  have hh := (hiff x w hx hw).mpr hsat
  obtain ⟨l, hb, hl, hnd, hpc, has⟩ := ark_history perm hperm m hm r hr circ hc
  obtain ⟨c', hev, heq⟩ := C36_equivalent perm hperm r circ hc x w (by omega)
  have hsame := Circuit.evaluate_same hev
  obtain ⟨p, ins, wit, t1, -, t3, t2⟩ := C36_triple perm hperm r ⟨circ, hc⟩ x w (by omega) (by omega)
  obtain ⟨c'', hev', g1, g2, g3⟩ := triple_parts perm r circ hc x w p ins wit t1
  obtain rfl := Except.ok.inj (hev.symm.trans hev')
  have hp : POV.ofCircuit circ = .ok p := by rw [← (C34_system l circ hb).2.2 c' hsame, g3]
  obtain ⟨vals, w', pk, vk, k1, k2, k3, k4, k5, k6, k7⟩ := C132_complete env hf hγ β g h D pp hs l circ hb hl p hp
    (C36_has_constant perm hperm r circ hc) hnd (fun v hv k hk hkv => absurd hkv (hpc v hv k hk)) hD hfft
    (x ++ w) c' hev (by rw [has]; exact heq.mpr hh)
  rw [g1] at k1
  rw [g2] at k2
  obtain rfl := Except.ok.inj k1
  obtain rfl := Except.ok.inj k2
  exact ⟨p, _, wit, pk, vk, t1, t3, t2.mpr hh, k5, k6, k7⟩

theorem assignPublicGo_total {c0 : Circuit F} (pio : List GateWire) (vs : List ℕ)
    (hf : List.Forall₂ (Carries c0) pio vs) : ∀ (c : Circuit F) (x : List F), SameShape c0 c →
    (∀ v ∈ vs, v < c.vars.length) → vs.Nodup → (∀ v ∈ vs, valueOf c v = none) →
    ∃ c', c.assignPublicGo (x.zip pio) = .ok c' := by
  induction hf with
  | nil => intro c x hs _ _ _; exact ⟨c, by cases x <;> rfl⟩
  | @cons w v ws vs hwv hrest ih =>
    intro c x hs hlt hnd hnone
    rcases x with _ | ⟨a, x⟩
    · exact ⟨c, rfl⟩
    have hv := hlt v (by simp)
    have hx : c.vars[v]? = some c.vars[v] := List.getElem?_eq_getElem hv
    have hval : c.vars[v].value = none := by
      have := hnone v (by simp)
      unfold valueOf at this
      rw [hx] at this
      exact this
    have h1 : c.assignNoOverwrite v a = .ok { c with vars := c.vars.set v { c.vars[v] with value := some a } } := by
      unfold Circuit.assignNoOverwrite
      rw [hx]
      simp only [hval]
    obtain ⟨s1, -, -, s4⟩ := Circuit.assignNoOverwrite_ok h1
    rw [List.nodup_cons] at hnd
    obtain ⟨c', hc'⟩ := ih _ x (hs.trans s1) (by
      intro u hu
      rw [s1.length]
      exact hlt u (by simp [hu])) hnd.2 (by
      intro u hu
      rw [s4 u (fun e => hnd.1 (e ▸ hu))]
      exact hnone u (by simp [hu]))
    refine ⟨c', ?_⟩
    rw [List.zip_cons_cons]
    unfold Circuit.assignPublicGo
    rw [Circuit.wire_var ((hs.carries w v).mpr hwv)]
    simp only [bind, Except.bind, h1]
    exact hc'

/-- **C134.** The verifier derives the statement from the system and the public inputs alone:
`pov_pair_from_r1cs_pair` succeeds for every list of public inputs of the right length, with the POV system of the
translated circuit, the public positions of the first inputs and the given values (it is the pair that the prover
gets from `pov_triple_from_r1cs_triple`). -/
theorem C134_pair (perm : Order F) (hperm : ∀ l, (perm l).Perm l) (m : ArkMatrices F) (hm : ArkWf m)
    (r : R1CS F) (hr : R1CS.ofArk m = .ok r) (circ : Circuit F) (hc : Circuit.ofR1CS perm r = .ok circ)
    (x : List F) (hx : x.length + 1 = m.numInstanceVariables) :
    ∃ p, POV.ofCircuit circ = .ok p ∧ povPairFromR1cs perm r x = .ok (p, claim circ x) ∧
      ∀ w, w.length = m.numWitnessVariables →
        ∃ wit, povTripleFromR1cs perm r x w = .ok (p, claim circ x, wit) := by
  obtain ⟨r', hr', -, e1, e2, e3, -, -, -, -, hiff⟩ := ofArk_facts m hm
  obtain rfl := Except.ok.inj (hr.symm.trans hr')
  have hone := hm.one_var
  have h2 := ((C36_succeeds_iff perm hperm r).mp ⟨circ, hc⟩).1
  obtain ⟨⟨-, -, -⟩, l, xs, zv, hb, hl, pv, hn, ho, ha, hxs, hz, hv, hconst⟩ :=
    Circuit.ofR1CS_spec perm hperm r circ hc
  rw [List.take_range, min_eq_left (by omega)] at pv
  have hg := (Circuit.builds_good hb hl Circuit.good_new).1
  obtain ⟨ws, hpub, hf⟩ := Circuit.builds_public hb hl Circuit.good_new
  rw [show (Circuit.new : Circuit F).publicIo = [] from rfl, List.nil_append] at hpub
  rw [← hpub, pv] at hf
  have hblank := Circuit.blank_ofR1CS hc
  have hlt : ∀ v ∈ List.range r.inputSize, v < circ.vars.length := by
    intro v hv
    have := hg.ordered.numInputs_le
    have := List.mem_range.mp hv
    omega
  obtain ⟨c1, hgo⟩ := assignPublicGo_total circ.publicIo (List.range r.inputSize) hf circ x
    (SameShape.refl circ) hlt List.nodup_range (by
      intro v hv
      have hv' := hlt v hv
      have hvx : circ.vars[v]? = some circ.vars[v] := List.getElem?_eq_getElem hv'
      unfold valueOf
      rw [hvx, Option.bind_some]
      exact hblank _ (List.getElem_mem _))
  have hcomp : circ.isComplete = true := by
    unfold Circuit.isComplete
    rcases hcc : circ.outputs with _ | _
    · exact absurd hcc ho
    · rfl
  have hlen : circ.publicIo.length = x.length := by rw [hf.length_eq, List.length_range]; omega
  have hio : circ.assignPublicIo x = .ok c1 := by
    unfold Circuit.assignPublicIo Circuit.assertIoSize Circuit.getIoSize Circuit.assertComplete
    rw [if_pos hcomp]
    simp only [bind, Except.bind, pure, Except.pure]
    rw [if_neg (by omega)]
    exact hgo
  have hs := Circuit.assignPublicIo_same hio
  have htrip : ∀ w, w.length = m.numWitnessVariables →
      ∃ p wit, POV.ofCircuit circ = .ok p ∧ povTripleFromR1cs perm r x w = .ok (p, claim circ x, wit) := by
    intro w hw
    obtain ⟨p, ins, wit, t1, -, t3, -⟩ := C36_triple perm hperm r ⟨circ, hc⟩ x w (by omega) (by omega)
    obtain ⟨c2, hev, g1, -, g3⟩ := triple_parts perm r circ hc x w p ins wit t1
    have hs2 := Circuit.evaluate_same hev
    refine ⟨p, wit, by rw [← (C34_system l circ hb).2.2 c2 hs2, g3], ?_⟩
    have := getInstance_claim circ c2 hs2 ins g1
    rw [t3] at this
    rw [t1, this]
  obtain ⟨p, -, hp, -⟩ := htrip (List.replicate m.numWitnessVariables 0) (by simp)
  refine ⟨p, hp, ?_, ?_⟩
  · have hm : circ.publicIo.mapM c1.getWireValue = .ok x :=
      publics_mapM hs _ _ x hf hlen.symm (Circuit.assignPublicGo_values _ hgo).2
    have hin : c1.getInstance = .ok (claim circ x) := by
      unfold Circuit.getInstance
      rw [hs.publicIo, hm]
      simp only [bind, Except.bind, pure, Except.pure, Except.ok.injEq]
      unfold claim
      rw [hs.1]
      rfl
    have hp1 : POV.ofCircuit c1 = .ok p := by rw [(C34_system l circ hb).2.2 c1 hs, hp]
    unfold povPairFromR1cs
    rw [hc]
    simp only [bind, Except.bind, hio, unwrapR, hin, hp1]
    rfl
  · intro w hw
    obtain ⟨p', wit, hp', ht⟩ := htrip w hw
    obtain rfl := Except.ok.inj (hp.symm.trans hp')
    exact ⟨wit, ht⟩

/-- Values for the variables of a circuit: the public inputs as claimed, the other inputs, the constants and
the additions zero, the multiplications right. -/
def forgedVal (circ : Circuit F) (x : List F) (v : ℕ) : F :=
  if v < circ.numInputs then x.getD v 0
  else match (circ.vars[v]?).bind (·.outputWire) with
    | some (.bin .mul i) => match circ.mulGates[i]? with
      | some g =>
        if h : g.left < v ∧ g.right < v then
          have := h.1
          have := h.2
          forgedVal circ x g.left * forgedVal circ x g.right
        else 0
      | none => 0
    | _ => 0
termination_by v

theorem forgedVal_output {circ : Circuit F} (hg : Circuit.Good circ) (x : List F) {w : OutputGateWire} {v : ℕ}
    (h : Carries circ (.output w) v) :
    (∀ i, w = .bin .mul i → ∀ g, circ.mulGates[i]? = some g →
      forgedVal circ x v = forgedVal circ x g.left * forgedVal circ x g.right) ∧
    ((∀ i, w ≠ .bin .mul i) → forgedVal circ x v = 0) := by
  have hge := Circuit.driven_ge hg h
  have hlt := hg.wired.range _ _ h
  have hx : circ.vars[v]? = some circ.vars[v] := List.getElem?_eq_getElem hlt
  have hd : (circ.vars[v]?).bind (·.outputWire) = some w := by
    rw [hx, Option.bind_some]
    exact (hg.wired.driver v _ hx w).mpr h
  constructor
  · rintro i rfl g hgi
    obtain ⟨g', hgi', hout⟩ := h
    obtain rfl := Option.some.inj (hgi.symm.trans hgi')
    have hb := hg.ordered.before .mul i g hgi
    rw [forgedVal, if_neg (by omega), hd]
    simp only [hgi]
    rw [dif_pos (by omega)]
  · intro hne
    rw [forgedVal, if_neg (by omega), hd]
    match w, hne with
    | .bin .mul i, hne => exact absurd rfl (hne i)
    | .bin .add i, _ => rfl
    | .const i, _ => rfl

/-- **C134 (deviation).** The prover-efficient POV system guarantees nothing about a translated R1CS: for every
arkworks system that translates and all claimed public inputs, whether or not they belong to a satisfying
assignment, there are proofs that the verifier accepts, for all challenges outside the exceptional values of
an honest run. -/
theorem C134_prover_efficient_forgery (env : Env F G1 G2 GT) (hγ : env.gamma ≠ 0) (β : F) (g : G1) (h : G2)
    (hnd : NonDegenerate env.e h) (D : ℕ) (pp : UniversalParams G1 G2)
    (hs : kzgSetup D β g h = .ok pp) (perm : Order F) (hperm : ∀ l, (perm l).Perm l) (m : ArkMatrices F)
    (hm : ArkWf m) (r : R1CS F) (hr : R1CS.ofArk m = .ok r) (circ : Circuit F)
    (hc : Circuit.ofR1CS perm r = .ok circ) (hD : 4 * gateCount circ + circ.mulGates.length ≤ D)
    (x : List F) (hx : x.length + 1 = m.numInstanceVariables) :
    ∃ p ins w pk vk, ∃ (U V : Polynomial F), povPairFromR1cs perm r x = .ok (p, ins) ∧ ins.vals = x ∧
      povPeIndex env.gamma pp p = .ok (pk, vk) ∧
      PovPeForges env β g p (gateCount circ) ins w vk U V := by
  obtain ⟨p, hp, hpair, -⟩ := C134_pair perm hperm m hm r hr circ hc x hx
  obtain ⟨r', hr', -, e1, e2, e3, -⟩ := ofArk_facts m hm
  obtain rfl := Except.ok.inj (hr.symm.trans hr')
  have hone := hm.one_var
  have h2 := ((C36_succeeds_iff perm hperm r).mp ⟨circ, hc⟩).1
  obtain ⟨-, l, xs, zv, hb, hl, pv, hn, ho, ha, hxs, hz, hv, ⟨iz, hzc⟩, hadd⟩ :=
    Circuit.ofR1CS_spec perm hperm r circ hc
  rw [List.take_range, min_eq_left (by omega)] at pv
  have hg := (Circuit.builds_good hb hl Circuit.good_new).1
  have htrue : PeCircuitTrue l circ x := by
    refine ⟨forgedVal circ x, ?_, ?_, ?_⟩
    · intro k hk _
      obtain ⟨i, hi, hki⟩ := List.mem_iff_getElem.mp hk
      have hki' : circ.mulGates[i]? = some k := by rw [List.getElem?_eq_getElem hi, hki]
      exact (forgedVal_output hg x (w := .bin .mul i) ⟨k, hki', rfl⟩).1 i rfl k hki'
    · intro q hq
      rw [ha] at hq
      obtain ⟨y, hy, rfl⟩ := List.mem_map.mp hq
      obtain ⟨i, hi⟩ := hadd y hy
      rw [(forgedVal_output hg x hi).2 (by simp), (forgedVal_output hg x hzc).2 (by simp)]
    · rw [pv, List.forall₂_iff_get]
      refine ⟨by rw [List.length_range]; omega, fun i h1 h2 => ?_⟩
      simp only [List.get_eq_getElem, List.getElem_range]
      have hi : i < circ.numInputs := by rw [List.length_range] at h1; omega
      refine ⟨fun k hk hkv => ?_, fun _ => ?_⟩
      · obtain ⟨j, hj, rfl⟩ := List.mem_iff_getElem.mp hk
        have := Circuit.driven_ge hg (w := .const j) (v := i) ⟨_, List.getElem?_eq_getElem hj, hkv⟩
        omega
      · rw [forgedVal, if_pos hi, List.getD_eq_getElem _ _ h2]
  obtain ⟨w, U, V, pk, vk, hidx, hrest⟩ := C132_forgery env hγ β g h hnd D pp hs l circ hb hl p hp
    (C36_has_constant perm hperm r circ hc) (by rw [pv]; exact List.nodup_range) hD x htrue
  exact ⟨p, claim circ x, w, pk, vk, U, V, hpair, rfl, hidx, hrest⟩

/-- The system of the single constraint `w * w = x` of C131 meets the hypotheses. -/
example : ArkWf square97 ∧ ArkUsed square97 ∧ 2 ≤ square97.numInstanceVariables + square97.numWitnessVariables ∧
    ArkHolds square97 [9] [3] := by
  refine ⟨⟨by decide, rfl, rfl, rfl, by decide⟩, ?_, by decide, ⟨rfl, rfl, by decide +kernel⟩⟩
  intro j h1 h2
  have : j < 3 := h2
  interval_cases j
  · exact ⟨[(1, 1)], by simp [square97], (1, 1), by simp, rfl, by decide +kernel⟩
  · exact ⟨[(1, 2)], by simp [square97], (1, 2), by simp, rfl, by decide +kernel⟩

end VO
