import Verif.Props.CircuitPov
import Verif.Props.PovSound
import Verif.Props.ProverOkPov
import Verif.Props.R1csCircuit

/-
Property theorems C121: from a circuit to the POV proof system
(`/repo/voproof/src/cs/circuit/fan_in_two.rs`, `/repo/voproof/src/cs/pov.rs`,
`/repo/voproof/src/snarks/voproof_pov.rs`).
-/

set_option linter.unusedSectionVars false

namespace VO
open Spec
open Polynomial (X toLaurent)
open LaurentPolynomial (T)

variable {F G1 G2 GT : Type} [Field F] [DecidableEq F]
  [AddCommGroup G1] [Module F G1] [DecidableEq G1] [AddCommGroup G2] [Module F G2]
  [AddCommGroup GT] [Module F GT] [DecidableEq GT]

namespace Spec

/-- The statement a proof for a circuit is about: there are inputs on which the circuit, built by
the calls `l`, evaluates to values that satisfy all asserted equalities and give the variables made
public the values `vals`, in order. -/
def CircuitTrue (l : List (Call F)) (c : Circuit F) (vals : List F) : Prop :=
  ∃ input c', c.evaluate input = .ok c' ∧
    (∀ q ∈ asserted l, valueOf c' q.1 = valueOf c' q.2) ∧
    (publicVars l).map (valueOf c') = vals.map some

/-- The public positions the verifier of a circuit uses, with claimed values. -/
def claim (c : Circuit F) (vals : List F) : POVInstance F :=
  ⟨c.publicIo.map c.getWireGlobalIndex, vals⟩

end Spec

/-- Round-by-round rejection: for a commitment to `W`, whatever polynomials of degree at most
`D` and values the prover sends after each challenge, only few values of the next challenge help:
`3c - 1` of `ζ`, `3c - 1` of `ζ1`, 5 of `α`, `D + 3c - cm + 1` of `ω`, `2D + 6c - cm - 1` of `z`, one of
`ξ`, `D + 1` trapdoors `β` and one value of the randomizer of `batch_check`.  For all others `verify`
rejects, with the key that `index` builds.  (The conclusion of C54.) -/
def PovRejects (G1 G2 GT : Type) [AddCommGroup G1] [Module F G1] [DecidableEq G1]
    [AddCommGroup G2] [Module F G2] [AddCommGroup GT] [Module F GT] [DecidableEq GT]
    (cs : POV F) (c D : ℕ) (γ : F) (ins : POVInstance F) (W : Polynomial F) : Prop :=
    ∃ badζ : Finset F, badζ.card ≤ 3 * c - 1 ∧ ∀ ζ, ζ ∉ badζ →
    ∃ badζ1 : Finset F, badζ1.card ≤ 3 * c - 1 ∧ ∀ ζ1, ζ1 ∉ badζ1 →
    ∀ R : Polynomial F, R.natDegree ≤ D →
    ∃ badα : Finset F, badα.card ≤ 5 ∧ ∀ α, α ∉ badα →
    ∀ P1 : Polynomial F, P1.natDegree ≤ D →
    ∃ badω : Finset F, badω.card ≤ D + 3 * c - cs.nmul + 1 ∧ ∀ ω, ω ∉ badω →
    ∀ H1 H2 : Polynomial F, H1.natDegree ≤ D → H2.natDegree ≤ D →
    ∃ badz : Finset F, badz.card ≤ 2 * D + 6 * c - cs.nmul - 1 ∧ ∀ z, z ∉ badz →
    ∀ y y2 : F,
    ∃ badξ : Finset F, badξ.card ≤ 1 ∧ ∀ ξ, ξ ∉ badξ → ∀ ξ2,
    ∀ Q1 Q2 : Polynomial F, Q1.natDegree ≤ D → Q2.natDegree ≤ D →
    ∃ badβ : Finset F, badβ.card ≤ D + 1 ∧ ∀ β, β ∉ badβ → ∃ r0 : F,
    ∀ (env : Env F G1 G2 GT) (g : G1) (h : G2), env.rngU128 ≠ r0 → env.gamma = γ → g ≠ 0 →
    NonDegenerate env.e h →
    ∀ (pp : UniversalParams G1 G2), kzgSetup D β g h = .ok pp →
    ∀ pk vk, povIndex γ pp cs = .ok (pk, vk) →
      let S := permPoly (3 * c) γ (cs.wires.map (fun p => Equiv.swap p.1 p.2)).prod
      let K := polyOf cs.consts
      let cm := fun p : Polynomial F => p.eval β • g
      let it := fun p : Polynomial F => (Item.cm (cm p) : Item F G1)
      let pre := fun (first : F) (l : List (Item F G1)) =>
        [.fld first, .nats ins.idx, .flds ins.vals, it S, it K] ++ l
      let G := povGPoly c cs.nadd cs.nmul (D + 1) γ ζ ζ1 α ω z y ((selPoly ins.idx).eval (ω / z)) y2
        ((instPoly ins.idx ins.vals).eval z) W S K P1 H1 H2
      env.hash (pre 1 [it W]) = ζ →
      env.hash (pre 2 [it W]) = ζ1 →
      env.hash (pre 1 [it W, it R]) = α →
      env.hash (pre 1 [it W, it R, it P1]) = ω →
      env.hash (pre 1 [it W, it R, it P1, it H1, it H2]) = z →
      env.hash (pre 1 [it W, it R, it P1, it H1, it H2, it G, .fld (ω / z), .fld y, .fld y2,
        .fld z]) = ξ →
      env.hash (pre 2 [it W, it R, it P1, it H1, it H2, it G, .fld (ω / z), .fld y, .fld y2,
        .fld z]) = ξ2 →
      povVerify env vk ins ⟨cm W, cm R, cm P1, cm H1, cm H2, y, y2, cm Q1, cm Q2⟩ ≠ .ok ()

/-- The public positions of a circuit are distinct positions of the POV witness if the variables
made public are distinct. -/
theorem claim_positions (l : List (Call F)) (c : Circuit F) (h : Builds Circuit.new l c)
    (hl : ∀ x ∈ l, HighLevel x) (vals : List F) :
    (claim c vals).idx.length = (publicVars l).length ∧
    ((publicVars l).Nodup → (claim c vals).idx.Nodup) ∧
    ∀ i ∈ (claim c vals).idx, i < 3 * gateCount c := by
  obtain ⟨ws, hpub, hf⟩ := Circuit.builds_public h hl Circuit.good_new
  rw [show (Circuit.new : Circuit F).publicIo = [] from rfl, List.nil_append] at hpub
  simp only [claim, hpub]
  clear hpub
  generalize publicVars l = pv at hf
  induction hf with
  | nil => simp
  | @cons w v ws vs hwv hrest ih =>
    obtain ⟨i1, i2, i3⟩ := ih
    refine ⟨by simpa using i1, ?_, ?_⟩
    · intro hnd
      rw [List.nodup_cons] at hnd
      rw [List.map_cons, List.nodup_cons]
      refine ⟨?_, i2 hnd.2⟩
      intro hm
      obtain ⟨w', hw', he⟩ := List.mem_map.mp hm
      obtain ⟨v', hv', hc'⟩ : ∃ v' ∈ vs, Carries c w' v' := by
        clear i1 i2 i3 hnd hm
        induction hrest with
        | nil => simp at hw'
        | @cons a b as bs hab hr ih2 =>
          rcases List.mem_cons.mp hw' with rfl | hm
          · exact ⟨b, by simp, hab⟩
          · obtain ⟨v', h1, h2⟩ := ih2 hm
            exact ⟨v', by simp [h1], h2⟩
      obtain rfl := Circuit.index_inj hc' hwv he
      have : v = v' := Circuit.carries_fun hwv hc'
      exact hnd.1 (this ▸ hv')
    · intro i hi
      rw [List.map_cons] at hi
      rcases List.mem_cons.mp hi with rfl | hi
      · exact Circuit.index_lt hwv
      · exact i3 i hi

theorem getInstance_claim (c c' : Circuit F) (hs : SameShape c c') (ins : POVInstance F)
    (hi : c'.getInstance = .ok ins) : ins = claim c ins.vals := by
  unfold Circuit.getInstance at hi
  rcases hm : c'.publicIo.mapM c'.getWireValue with e | vs
  · rw [hm] at hi; cases hi
  · rw [hm] at hi
    obtain rfl := Except.ok.inj hi
    simp only [claim, hs.publicIo]
    congr 1
    apply List.map_congr_left
    intro w _
    rw [hs.1]; rfl

/-- **C121.** From circuit to accepted proof.  Take any circuit built by high-level calls with at least
one constant gate and distinct public variables, and inputs on which it evaluates so that all asserted
equalities hold.  Then `get_instance` and `get_witness` return the public values and a witness that
`satisfy` accepts, `index` makes keys for the circuit's POV system if the setup is large enough, every
proof that `prove` returns for them is accepted by `verify`, and `prove` returns one unless a
challenge takes one of the exceptional values listed in C41. -/
theorem C121_complete (env : Env F G1 G2 GT) (hf : FftOk env.fft) (hγ : env.gamma ≠ 0) (β : F) (g : G1)
    (h : G2) (D : ℕ) (pp : UniversalParams G1 G2) (hs : kzgSetup D β g h = .ok pp)
    (l : List (Call F)) (c : Circuit F) (hb : Builds Circuit.new l c) (hl : ∀ x ∈ l, HighLevel x)
    (p : POV F) (hp : POV.ofCircuit c = .ok p) (hne : c.constGates ≠ [])
    (hpub : (publicVars l).Nodup) (hD : 6 * gateCount c - c.mulGates.length ≤ D)
    (hfft : 6 * gateCount c + 2 ≤ 2 ^ env.fft.twoAdicity)
    (input : List F) (c' : Circuit F) (hev : c.evaluate input = .ok c')
    (heq : ∀ q ∈ asserted l, valueOf c' q.1 = valueOf c' q.2) :
    ∃ vals w pk vk, c'.getInstance = .ok (claim c vals) ∧ c'.getWitness = .ok w ∧
      (publicVars l).map (valueOf c') = vals.map some ∧
      p.satisfy (claim c vals) w = .ok true ∧
      povIndex env.gamma pp p = .ok (pk, vk) ∧
      (∀ π, povProve env pk (claim c vals) w = .ok π →
        povVerify env vk (claim c vals) π = .ok ()) ∧
      PovCompletes env β g D p (gateCount c) (claim c vals) w pk vk := by
  have hsame := Circuit.evaluate_same hev
  have hp' : POV.ofCircuit c' = .ok p := by rw [(C34_system l c hb).2.2 c' hsame, hp]
  obtain ⟨ins, wit, h1, h2, h3, -, -, h6, -, h8⟩ := C34_honest l c c' hb hl input hev p hp'
  have hins := getInstance_claim c c' hsame ins h1
  obtain ⟨vals, rfl⟩ : ∃ vals, ins = claim c vals := ⟨_, hins⟩
  obtain ⟨q1, q2, q3⟩ := (C34_system l c hb).2.1 p hp
  have hpne : p.consts ≠ [] := by rw [q3]; simpa using hne
  have hc : gateCount c = p.nmul + p.nadd + p.consts.length := by
    rw [q1, q2, q3, List.length_map]; rfl
  obtain ⟨a1, a2, -⟩ := claim_positions l c hb hl vals
  have hvl : vals.length = (publicVars l).length := by
    have := congrArg List.length h6
    simpa [claim] using this.symm
  obtain ⟨pk, vk, hidx, hrun⟩ := C41_complete env hf hγ β g h D pp hs p hpne (gateCount c) hc
    (by rw [q1]; exact hD) hfft (claim c vals) (by rw [a1]; exact hvl.symm) (a2 hpub) wit h3 (h8.mpr heq)
  exact ⟨vals, wit, pk, vk, h1, h2, h6, h8.mpr heq, hidx,
    fun π hπ => C81_pov env β g h D pp hs p pk vk hidx _ _ π hπ, hrun⟩

/-- **C121.** Soundness for circuits.  Take any circuit built by high-level calls with at least one
constant gate, distinct public variables and asserted equalities that form a forest, and let the powers
of `γ` below three times the number of gates be distinct.  If there are no inputs on which the circuit
evaluates so that all asserted equalities hold and the public variables have the claimed values, then
whatever polynomial `W` the prover commits to, it is rejected except for few challenges
(`PovRejects`). -/
theorem C121_sound (l : List (Call F)) (c : Circuit F) (hb : Builds Circuit.new l c)
    (hl : ∀ x ∈ l, HighLevel x) (p : POV F) (hp : POV.ofCircuit c = .ok p) (hne : c.constGates ≠ [])
    (hpub : (publicVars l).Nodup) (hforest : Forest (asserted l)) (D : ℕ)
    (hD : 6 * gateCount c - c.mulGates.length ≤ D) (γ : F)
    (hγ : ∀ i < 3 * gateCount c, ∀ j < 3 * gateCount c, γ ^ i = γ ^ j → i = j)
    (vals : List F) (hvals : vals.length = (publicVars l).length) (hfalse : ¬ CircuitTrue l c vals)
    (W : Polynomial F) (dW : W.natDegree ≤ D) :
    PovRejects G1 G2 GT p (gateCount c) D γ (claim c vals) W := by
  obtain ⟨q1, q2, q3⟩ := (C34_system l c hb).2.1 p hp
  have hpne : p.consts ≠ [] := by rw [q3]; simpa using hne
  have hc : gateCount c = p.nmul + p.nadd + p.consts.length := by
    rw [q1, q2, q3, List.length_map]; rfl
  obtain ⟨a1, a2, a3⟩ := claim_positions l c hb hl vals
  obtain ⟨wires, hw, hpw⟩ := Circuit.ofCircuit_ok hp
  have hpwires : p.wires = wires := by rw [hpw]
  have hshape : PovShape p (povRead (gateCount c) W) := by
    refine ⟨?_, ?_, ?_⟩ <;> simp [povRead, hc]
  have hbad : p.satisfy (claim c vals) (povRead (gateCount c) W) ≠ .ok true := by
    intro hsat
    obtain ⟨g1, g2, g3⟩ := (C27_satisfy p (claim c vals) _ hshape).1.mp hsat
    obtain ⟨input, c', hev, -, heq, hval⟩ := C35_sound l c hb hl p hp _ hshape g1 g2
    exact hfalse ⟨input, c', hev, heq, hval vals hvals g3⟩
  exact C54_sound p (gateCount c) D hc hpne (by rw [q1]; exact hD) γ hγ
    (by rw [hpwires]; exact (C33_forest l c hb wires hw).mpr hforest)
    (by rw [hpwires]; exact (C33_succeeds_iff l c hb).2 wires hw)
    (claim c vals) (by rw [a1]; exact hvals.symm) (a2 hpub) a3 W dW hbad

theorem unwrapR_ok {α : Type} {a : Res α} {b : α} (h : unwrapR a = .ok b) : a = .ok b := by
  unfold unwrapR at h
  split at h
  · exact h
  · cases h

/-- **C121.** From R1CS to accepted POV proof: for an assignment that satisfies an R1CS whose
translation succeeds and makes at least one constant gate, `pov_triple_from_r1cs_triple` returns a POV
system, instance and witness, `index` makes keys if the setup is large enough, every proof that `prove`
returns is accepted, and `prove` returns one unless a challenge takes an exceptional value. -/
theorem C121_r1cs_complete (env : Env F G1 G2 GT) (hf : FftOk env.fft) (hγ : env.gamma ≠ 0) (β : F)
    (g : G1) (h : G2) (D : ℕ) (pp : UniversalParams G1 G2) (hs : kzgSetup D β g h = .ok pp)
    (perm : Order F) (hperm : ∀ l, (perm l).Perm l) (r : R1CS F) (circ : Circuit F)
    (hc : Circuit.ofR1CS perm r = .ok circ)
    (hD : 6 * gateCount circ - circ.mulGates.length ≤ D)
    (hfft : 6 * gateCount circ + 2 ≤ 2 ^ env.fft.twoAdicity)
    (x w : List F) (hx : x.length = r.inputSize) (hlen : 1 + x.length + w.length = r.ncols)
    (hsat : R1CSHolds r x w) :
    ∃ p ins wit pk vk, povTripleFromR1cs perm r x w = .ok (p, ins, wit) ∧ ins.vals = x ∧
      povIndex env.gamma pp p = .ok (pk, vk) ∧
      (∀ π, povProve env pk ins wit = .ok π → povVerify env vk ins π = .ok ()) ∧
      PovCompletes env β g D p (gateCount circ) ins wit pk vk := by
  obtain ⟨p, ins, wit, ht, hsh, hv, hiff⟩ := C36_triple perm hperm r ⟨circ, hc⟩ x w hx hlen
  obtain ⟨l, hb, hl, hpv, -, -⟩ := C36_history perm hperm r circ hc (by omega)
  refine ⟨p, ins, wit, ?_⟩
  have hp : ∃ c', SameShape circ c' ∧ c'.getInstance = .ok ins ∧ POV.ofCircuit c' = .ok p := by
    have ht := ht
    unfold povTripleFromR1cs at ht
    rw [hc] at ht
    simp only [bind, Except.bind] at ht
    split at ht
    · cases ht
    rename_i c' hc'
    split at ht
    · cases ht
    rename_i i' hi'
    split at ht
    · cases ht
    rename_i w' hw'
    split at ht
    · cases ht
    rename_i p' hp'
    simp only [pure, Except.pure, Except.ok.injEq, Prod.mk.injEq] at ht
    obtain ⟨rfl, rfl, rfl⟩ := ht
    exact ⟨c', Circuit.evaluate_same (unwrapR_ok hc'), unwrapR_ok hi', hp'⟩
  obtain ⟨c', hsame, hi', hp'⟩ := hp
  have hp : POV.ofCircuit circ = .ok p := by rw [← (C34_system l circ hb).2.2 c' hsame, hp']
  obtain ⟨vals, rfl⟩ : ∃ vals, ins = claim circ vals := ⟨_, getInstance_claim circ c' hsame ins hi'⟩
  obtain ⟨q1, q2, q3⟩ := (C34_system l circ hb).2.1 p hp
  have hpne : p.consts ≠ [] := by rw [q3]; simpa using C36_has_constant perm hperm r circ hc
  have hcc : gateCount circ = p.nmul + p.nadd + p.consts.length := by
    rw [q1, q2, q3, List.length_map]; rfl
  obtain ⟨a1, a2, -⟩ := claim_positions l circ hb hl vals
  have hvx : vals = x := hv
  obtain ⟨pk, vk, hidx, hrun⟩ := C41_complete env hf hγ β g h D pp hs p hpne (gateCount circ) hcc
    (by rw [q1]; exact hD) hfft (claim circ vals)
    (by rw [a1, hpv, List.length_range]; show _ = vals.length; rw [hvx, hx])
    (a2 (by rw [hpv]; exact List.nodup_range)) wit hsh (hiff.mpr hsat)
  exact ⟨pk, vk, ht, hv, hidx, fun π hπ => C81_pov env β g h D pp hs p pk vk hidx _ _ π hπ, hrun⟩

/-- **C121.** Soundness of the POV proof system for R1CS: for public inputs `x` for which no witness
satisfies the R1CS, with the system and instance that `pov_pair_from_r1cs_pair` makes, a prover is
rejected except for few challenges, provided the translation makes at least one constant gate and
asserts no equality twice (without the last condition this is false, see C122). -/
theorem C121_r1cs_sound (perm : Order F) (hperm : ∀ l, (perm l).Perm l) (r : R1CS F)
    (hi : r.inputSize < r.ncols) (circ : Circuit F) (hc : Circuit.ofR1CS perm r = .ok circ)
    (hnd : circ.assertEquals.Nodup) (x : List F) (p : POV F)
    (ins : POVInstance F) (hpair : povPairFromR1cs perm r x = .ok (p, ins)) (D : ℕ)
    (hD : 6 * gateCount circ - circ.mulGates.length ≤ D) (γ : F)
    (hγ : ∀ i < 3 * gateCount circ, ∀ j < 3 * gateCount circ, γ ^ i = γ ^ j → i = j)
    (hfalse : ¬ ∃ w, 1 + x.length + w.length = r.ncols ∧ R1CSHolds r x w)
    (W : Polynomial F) (dW : W.natDegree ≤ D) :
    PovRejects G1 G2 GT p (gateCount circ) D γ ins W := by
  obtain ⟨hx, hv, hsound⟩ := C36_pair_sound perm hperm r hi x p ins hpair
  obtain ⟨l, hb, hl, hpv, -, -⟩ := C36_history perm hperm r circ hc hi
  have hp : ∃ c', SameShape circ c' ∧ c'.getInstance = .ok ins ∧ POV.ofCircuit c' = .ok p := by
    have ht := hpair
    unfold povPairFromR1cs at ht
    rw [hc] at ht
    simp only [bind, Except.bind] at ht
    split at ht
    · cases ht
    rename_i c' hc'
    split at ht
    · cases ht
    rename_i i' hi'
    split at ht
    · cases ht
    rename_i p' hp'
    simp only [pure, Except.pure, Except.ok.injEq, Prod.mk.injEq] at ht
    obtain ⟨rfl, rfl⟩ := ht
    exact ⟨c', Circuit.assignPublicIo_same (unwrapR_ok hc'), unwrapR_ok hi', hp'⟩
  obtain ⟨c', hsame, hi', hp'⟩ := hp
  have hp : POV.ofCircuit circ = .ok p := by rw [← (C34_system l circ hb).2.2 c' hsame, hp']
  obtain ⟨vals, rfl⟩ : ∃ vals, ins = claim circ vals := ⟨_, getInstance_claim circ c' hsame ins hi'⟩
  obtain ⟨q1, q2, q3⟩ := (C34_system l circ hb).2.1 p hp
  have hpne : p.consts ≠ [] := by rw [q3]; simpa using C36_has_constant perm hperm r circ hc
  have hcc : gateCount circ = p.nmul + p.nadd + p.consts.length := by
    rw [q1, q2, q3, List.length_map]; rfl
  obtain ⟨a1, a2, a3⟩ := claim_positions l circ hb hl vals
  have hvx : vals = x := hv
  obtain ⟨wires, hw, hpw⟩ := Circuit.ofCircuit_ok hp
  have hpwires : p.wires = wires := by rw [hpw]
  have hshape : PovShape p (povRead (gateCount circ) W) := by
    refine ⟨?_, ?_, ?_⟩ <;> simp [povRead, hcc]
  exact C54_sound p (gateCount circ) D hcc hpne (by rw [q1]; exact hD) γ hγ
    (by rw [hpwires]; exact (C36_forest perm hperm r circ hc wires hw).mpr hnd)
    (by rw [hpwires]; exact (C33_succeeds_iff l circ hb).2 wires hw)
    (claim circ vals) (by rw [a1, hpv, List.length_range]; show _ = vals.length; rw [hvx, hx])
    (a2 (by rw [hpv]; exact List.nodup_range)) a3 W dW
    (fun hsat => hfalse (hsound _ hshape hsat))

end VO
