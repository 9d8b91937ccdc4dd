import Verif.Lemmas.CircuitPe
import Verif.Props.CircuitSnark
import Verif.Props.PovPeSound
import Verif.Props.ProverOkExamples

/-
Property theorems C132: from a circuit to the prover-efficient POV proof system
(`/repo/voproof/src/cs/circuit/fan_in_two.rs`, `/repo/voproof/src/cs/pov.rs`,
`/repo/voproof/src/snarks/voproof_pov_prover_efficient.rs`).
-/

set_option linter.unusedSectionVars false

namespace VO
open Spec
open Polynomial (X toLaurent)
open LaurentPolynomial (T)

variable {F G1 G2 GT : Type} [Field F] [DecidableEq F]
  [AddCommGroup G1] [Module F G1] [DecidableEq G1] [AddCommGroup G2] [Module F G2]
  [AddCommGroup GT] [Module F GT] [DecidableEq GT]

namespace Spec

/-- What the prover-efficient verifier of a circuit can be convinced of: there are values of the variables
for which the multiplication gates with a non-zero right input and the asserted equalities hold and the
variables made public have the claimed values, the claimed value being shifted by the constant if the
variable is a constant of the circuit.  Nothing is said about additions, about constants that are not
public, or about multiplications by zero. -/
def PeCircuitTrue (l : List (Call F)) (c : Circuit F) (vals : List F) : Prop :=
  ∃ val : ℕ → F,
    (∀ g ∈ c.mulGates, val g.right ≠ 0 → val g.output = val g.left * val g.right) ∧
    (∀ q ∈ asserted l, val q.1 = val q.2) ∧
    List.Forall₂ (fun v x => (∀ g ∈ c.constGates, g.output = v → val v = x + g.value) ∧
      ((∀ g ∈ c.constGates, g.output ≠ v) → val v = x)) (publicVars l) vals

end Spec

/-- The conclusion of C70, for `c` gates: which challenges make `povPeProve` succeed, with an accepted
proof. -/
def PovPeCompletes (env : Env F G1 G2 GT) (β : F) (g : G1) (D : ℕ) (cs : POV F) (c : ℕ)
    (ins : POVInstance F) (w : POVWitness F) (pk : PovPePK F G1 G2) (vk : PovPeVK G1 G2) : Prop :=
    let σ := (cs.wires.map (fun p => Equiv.swap p.1 p.2)).prod
    let U := polyOf (peU c cs.nmul w (env.rngF 0))
    let V := polyOf (peV c cs.nadd cs.nmul w (env.rngF 1))
    let S := permPoly (3 * c) env.gamma σ
    let K := polyOf cs.consts
    let I := selPoly ins.idx
    let N := instPoly ins.idx ins.vals
    let cm := fun p : Polynomial F => (Item.cm (p.eval β • g) : Item F G1)
    let pre := fun (first : F) (l : List (Item F G1)) =>
      [.fld first, .nats ins.idx, .flds ins.vals, cm S, cm K] ++ l
    let ζ := env.hash (pre 1 [cm U, cm V])
    let ζ1 := env.hash (pre 2 [cm U, cm V])
    ((∃ j, j < 3 * c ∧ (povVec w).getD j 0 + ζ * env.gamma ^ σ j + ζ1 = 0) →
      povPeProve env pk ins w = .error .panic) ∧
    ((∀ j, j < 3 * c → (povVec w).getD j 0 + ζ * env.gamma ^ σ j + ζ1 ≠ 0) →
      let R := grandPoly (3 * c) env.gamma ζ ζ1 (fun j => (povVec w).getD j 0)
        (fun j => env.gamma ^ σ j) (env.rngF 2)
      let α := env.hash (pre 1 [cm U, cm V, cm R])
      let P1 := blindPoly (3 * c) (c + cs.nmul + 1) (env.rngF 3)
        (povPeBase c cs.nadd cs.nmul env.gamma ζ ζ1 α U V S K I N R)
      let ω := env.hash (pre 1 [cm U, cm V, cm R, cm P1])
      (ω = 0 → povPeProve env pk ins w = .error .panic) ∧
      (ω ≠ 0 →
      ∃ H1 H2 : Polynomial F, H1.degree < ((4 * c + cs.nmul : ℕ) : WithBot ℕ) ∧
        H2.degree < ((4 * c + cs.nmul : ℕ) : WithBot ℕ) ∧
        hadamardLaurent ω (povPePolys c cs.nadd cs.nmul env.gamma ζ ζ1 α U V S K I N R P1)
          = T (-((4 * c + cs.nmul : ℕ) : ℤ)) * toLaurent H1 + T 1 * toLaurent H2 ∧
        let Ĥ1 := X ^ (D + 1 - (4 * c + cs.nmul)) * H1
        let z := env.hash (pre 1 [cm U, cm V, cm R, cm P1, cm Ĥ1, cm H2])
        let G := povPeGPoly c cs.nadd cs.nmul (D + 1) env.gamma ζ ζ1 α ω z (U.eval (ω / z))
          (I.eval (ω / z)) (R.eval (ω / z)) (N.eval z) U V S K P1 Ĥ1 H2
        let good := (z ≠ 0 ∧ z ≠ 1 ∧ z ≠ ω ∧ env.gamma * z ≠ 1) ∧ U.natDegree ≠ 0 ∧
          R.natDegree ≠ 0 ∧ G.natDegree ≠ 0
        (good → ∃ π, povPeProve env pk ins w = .ok π ∧ povPeVerify env vk ins π = .ok ()) ∧
        (¬ good → povPeProve env pk ins w = .error .panic)))

/-- The conclusion of C72: commitments to `U` and `V` can be completed to an accepted proof, for all
challenges outside the exceptional values of the honest run. `w` is the encoded assignment. -/
def PovPeForges (env : Env F G1 G2 GT) (β : F) (g : G1) (cs : POV F) (c : ℕ)
    (ins : POVInstance F) (w : POVWitness F) (vk : PovPeVK G1 G2) (U V : Polynomial F) : Prop :=
    let pre := fun (first : F) (l : List (Item F G1)) =>
      [.fld first, .nats ins.idx, .flds ins.vals, .cm vk.cmSigma, .cm vk.cmD] ++ l
    let cmU := U.eval β • g
    let cmV := V.eval β • g
    let ζ := env.hash (pre 1 [.cm cmU, .cm cmV])
    let ζ1 := env.hash (pre 2 [.cm cmU, .cm cmV])
    (∀ i, i < 3 * c → (povVec w).getD i 0
      + ζ * env.gamma ^ (cs.wires.map (fun p => Equiv.swap p.1 p.2)).prod i + ζ1 ≠ 0) →
    ∃ cmR cmT1 : G1,
    let ω := env.hash (pre 1 [.cm cmU, .cm cmV, .cm cmR, .cm cmT1])
    (ω ≠ 0 ∨ 0 ∉ ins.idx) →
    ∃ cmH1 cmH2 : G1,
    let z := env.hash (pre 1 [.cm cmU, .cm cmV, .cm cmR, .cm cmT1, .cm cmH1, .cm cmH2])
    z ≠ 0 → z ≠ 1 → z ≠ ω → env.gamma * z ≠ 1 →
    ∃ (y y2 : F) (capW capW1 : G1),
      povPeVerify env vk ins ⟨cmU, cmV, cmR, cmT1, cmH1, cmH2, y, y2, capW, capW1⟩ = .ok ()

/-- **C132.** From circuit to accepted prover-efficient proof.  As C121: any circuit built by high-level calls
with at least one constant gate and distinct public variables, none of them a non-zero constant, and inputs on
which it evaluates so that all asserted equalities hold. -/
theorem C132_complete (env : Env F G1 G2 GT) (hf : FftOk env.fft) (hγ : env.gamma ≠ 0) (β : F) (g : G1)
    (h : G2) (D : ℕ) (pp : UniversalParams G1 G2) (hs : kzgSetup D β g h = .ok pp)
    (l : List (Call F)) (c : Circuit F) (hb : Builds Circuit.new l c) (hl : ∀ x ∈ l, HighLevel x)
    (p : POV F) (hp : POV.ofCircuit c = .ok p) (hne : c.constGates ≠ [])
    (hpub : (publicVars l).Nodup)
    (hpc : ∀ v ∈ publicVars l, ∀ k ∈ c.constGates, k.output = v → k.value = 0)
    (hD : 4 * gateCount c + c.mulGates.length ≤ D)
    (hfft : 6 * gateCount c + 2 ≤ 2 ^ env.fft.twoAdicity)
    (input : List F) (c' : Circuit F) (hev : c.evaluate input = .ok c')
    (heq : ∀ q ∈ asserted l, valueOf c' q.1 = valueOf c' q.2) :
    ∃ vals w pk vk, c'.getInstance = .ok (claim c vals) ∧ c'.getWitness = .ok w ∧
      (publicVars l).map (valueOf c') = vals.map some ∧
      p.satisfy (claim c vals) w = .ok true ∧
      povPeIndex env.gamma pp p = .ok (pk, vk) ∧
      (∀ π, povPeProve env pk (claim c vals) w = .ok π →
        povPeVerify env vk (claim c vals) π = .ok ()) ∧
      PovPeCompletes env β g D p (gateCount c) (claim c vals) w pk vk := by
  have hsame := Circuit.evaluate_same hev
  have hg := (Circuit.builds_good hb hl Circuit.good_new).1
  have hp' : POV.ofCircuit c' = .ok p := by rw [(C34_system l c hb).2.2 c' hsame, hp]
  obtain ⟨ins, wit, h1, h2, h3, -, -, h6, -, h8⟩ := C34_honest l c c' hb hl input hev p hp'
  have hins := getInstance_claim c c' hsame ins h1
  obtain ⟨vals, rfl⟩ : ∃ vals, ins = claim c vals := ⟨_, hins⟩
  obtain ⟨q1, q2, q3⟩ := (C34_system l c hb).2.1 p hp
  have hpne : p.consts ≠ [] := by rw [q3]; simpa using hne
  have hc : gateCount c = p.nmul + p.nadd + p.consts.length := by
    rw [q1, q2, q3, List.length_map]; rfl
  obtain ⟨a1, a2, -⟩ := claim_positions l c hb hl vals
  have hvl : vals.length = (publicVars l).length := by
    have := congrArg List.length h6
    simpa [claim] using this.symm
  obtain ⟨ws, hpio, hfa⟩ := Circuit.builds_publicDriver hb hl Circuit.good_new
  rw [show (Circuit.new : Circuit F).publicIo = [] from rfl, List.nil_append] at hpio
  have hzero : ∀ i ∈ (claim c vals).idx, 2 * gateCount c + p.nadd + p.nmul ≤ i →
      p.consts.getD (i - (2 * gateCount c + p.nadd + p.nmul)) 0 = 0 := by
    intro i hi hle
    rw [q1, q2] at hle ⊢
    rw [q3]
    simp only [claim, hpio, List.mem_map] at hi
    obtain ⟨w, hw, rfl⟩ := hi
    obtain ⟨v, hv, hwv⟩ : ∃ v ∈ publicVars l, Carries c w v ∧ ((∃ o, w = .output o) ∨ v < c.numInputs) := by
      clear hpc hpub h6 hvl a1 a2 hpio
      generalize publicVars l = pv at hfa
      induction hfa with
      | nil => simp at hw
      | @cons a b as bs hab _ ih =>
        rcases List.mem_cons.mp hw with rfl | hm
        · exact ⟨b, by simp, hab⟩
        · obtain ⟨v, g1, g2⟩ := ih hm
          exact ⟨v, by simp [g1], g2⟩
    obtain ⟨e1, e2⟩ := Circuit.public_shift hg hwv.1 hwv.2
    by_cases hno : ∀ k ∈ c.constGates, k.output ≠ v
    · exact absurd (e2 hno) (by omega)
    · push Not at hno
      obtain ⟨k, hk, hkv⟩ := hno
      rw [(e1 k hk hkv).2, hpc v hv k hk hkv]
  obtain ⟨pk, vk, hidx, hrun⟩ := C70_complete env hf hγ β g h D pp hs p hpne (gateCount c) hc
    (by rw [q1]; exact hD) hfft (claim c vals) (by rw [a1]; exact hvl.symm) (a2 hpub) hzero wit h3 (h8.mpr heq)
  exact ⟨vals, wit, pk, vk, h1, h2, h6, h8.mpr heq, hidx,
    fun π hπ => C81_pov_prover_efficient env β g h D pp hs p pk vk hidx _ _ π hπ, hrun⟩

/-- The public positions of a witness with the given values. -/
theorem public_values {c : Circuit F} (hg : Circuit.Good c) (p : POV F) (q1 : p.nmul = c.mulGates.length)
    (q2 : p.nadd = c.addGates.length) (q3 : p.consts = c.constGates.map (·.value))
    (hc : p.getSize.n = gateCount c) (wit : POVWitness F) (val : ℕ → F)
    (hval : ∀ w v, Carries c w v → (povVec wit)[c.getWireGlobalIndex w]? = some (val v))
    (ws : List GateWire) (vs : List ℕ) (xs : List F)
    (hfa : List.Forall₂ (fun w v => Carries c w v ∧ ((∃ o, w = .output o) ∨ v < c.numInputs)) ws vs)
    (hlen : xs.length = vs.length) :
    (∀ q ∈ (ws.map c.getWireGlobalIndex).zip xs, (povVec wit)[q.1]? = some (q.2 +
      if 2 * p.getSize.n + p.nadd + p.nmul ≤ q.1 then
        p.consts.getD (q.1 - (2 * p.getSize.n + p.nadd + p.nmul)) 0 else 0)) ↔
    List.Forall₂ (fun v x => (∀ g ∈ c.constGates, g.output = v → val v = x + g.value) ∧
      ((∀ g ∈ c.constGates, g.output ≠ v) → val v = x)) vs xs := by
  rw [hc, q1, q2, q3]
  induction hfa generalizing xs with
  | nil =>
    obtain rfl : xs = [] := List.eq_nil_of_length_eq_zero (by simpa using hlen)
    simp
  | @cons w v ws vs hwv _ ih =>
    rcases xs with _ | ⟨x, xs⟩
    · simp at hlen
    have ih := ih xs (by simpa using hlen)
    rw [List.forall₂_cons, ← ih]
    simp only [List.map_cons, List.zip_cons_cons, List.mem_cons, forall_eq_or_imp]
    apply and_congr_left
    intro _
    obtain ⟨e1, e2⟩ := Circuit.public_shift hg hwv.1 hwv.2
    rw [hval w v hwv.1, Option.some.injEq]
    by_cases hno : ∀ k ∈ c.constGates, k.output ≠ v
    · rw [if_neg (by have := e2 hno; omega), add_zero]
      exact ⟨fun h => ⟨fun k hk hkv => absurd hkv (hno k hk), fun _ => h⟩, fun h => h.2 hno⟩
    · have hno' := hno
      push Not at hno'
      obtain ⟨k, hk, hkv⟩ := hno'
      rw [if_pos (e1 k hk hkv).1, (e1 k hk hkv).2]
      refine ⟨fun h => ⟨fun k' hk' hkv' => ?_, fun h' => absurd h' hno⟩, fun h => h.1 k hk hkv⟩
      rw [h, ← (e1 k hk hkv).2, (e1 k' hk' hkv').2]

/-- **C132.** What the prover-efficient verifier guarantees for circuits: if the claim is not `PeCircuitTrue`,
whatever polynomials `U`, `V` the prover commits to, it is rejected except for few challenges. -/
theorem C132_enforced (l : List (Call F)) (c : Circuit F) (hb : Builds Circuit.new l c)
    (hl : ∀ x ∈ l, HighLevel x) (p : POV F) (hp : POV.ofCircuit c = .ok p) (hne : c.constGates ≠ [])
    (hpub : (publicVars l).Nodup) (hforest : Forest (asserted l)) (D : ℕ)
    (hD : 4 * gateCount c + c.mulGates.length ≤ D) (γ : F)
    (hγ : ∀ i < 3 * gateCount c, ∀ j < 3 * gateCount c, γ ^ i = γ ^ j → i = j)
    (vals : List F) (hvals : vals.length = (publicVars l).length) (hfalse : ¬ PeCircuitTrue l c vals)
    (U V : Polynomial F) (dU : U.natDegree ≤ D) (dV : V.natDegree ≤ D) :
    PovPeRejects G1 G2 GT p (gateCount c) D γ (claim c vals) U V := by
  have hg := (Circuit.builds_good hb hl Circuit.good_new).1
  obtain ⟨q1, q2, q3⟩ := (C34_system l c hb).2.1 p hp
  have hpne : p.consts ≠ [] := by rw [q3]; simpa using hne
  have hc : gateCount c = p.nmul + p.nadd + p.consts.length := by
    rw [q1, q2, q3, List.length_map]; rfl
  have hsz : p.getSize.n = gateCount c := by show _ + _ + _ = _; omega
  obtain ⟨a1, a2, a3⟩ := claim_positions l c hb hl vals
  obtain ⟨wires, hw, hpw⟩ := Circuit.ofCircuit_ok hp
  have hpwires : p.wires = wires := by rw [hpw]
  set wit := povRead (gateCount c) (pePoly (gateCount c) p.nadd p.nmul U V (polyOf p.consts)) with hwit
  have hshape : PovShape p wit := by
    refine ⟨?_, ?_, ?_⟩ <;> simp [hwit, povRead, hc]
  obtain ⟨ws, hpio, hfa⟩ := Circuit.builds_publicDriver hb hl Circuit.good_new
  rw [show (Circuit.new : Circuit F).publicIo = [] from rfl, List.nil_append] at hpio
  have hbad : ¬ PovPeEnforced p (claim c vals) wit := by
    rintro ⟨g1, g2, g3⟩
    obtain ⟨val, hval, heq⟩ := values_of_wiring l c hb hl p hp wit hshape g2
    refine hfalse ⟨val, ?_, heq, ?_⟩
    · intro k hk hr
      obtain ⟨i, hi, hki⟩ := List.mem_iff_getElem.mp hk
      have hki' : (c.gates .mul)[i]? = some k := by
        show c.mulGates[i]? = some k
        rw [List.getElem?_eq_getElem hi, hki]
      obtain ⟨x0, x1, x2⟩ := Circuit.mul_columns (by rw [hc]; exact hshape.1)
        (by rw [hc]; exact hshape.2.1) hi
        (hval (.input ⟨.mul, i, .left⟩) k.left ⟨k, hki', rfl⟩)
        (hval (.input ⟨.mul, i, .right⟩) k.right ⟨k, hki', rfl⟩)
        (hval (.output (.bin .mul i)) k.output ⟨k, hki', rfl⟩)
      have := g1 i (by omega) (by rw [x1]; exact hr)
      rw [x0, x1, x2] at this
      exact this
    · refine (public_values hg p q1 q2 q3 hsz wit val hval ws _ vals hfa hvals).mp ?_
      rw [← hpio]
      exact g3
  exact C71_enforced p (gateCount c) D hc hpne (by rw [q1]; exact hD) γ hγ
    (by rw [hpwires]; exact (C33_forest l c hb wires hw).mpr hforest)
    (by rw [hpwires]; exact (C33_succeeds_iff l c hb).2 wires hw)
    (claim c vals) (by rw [a1]; exact hvals.symm) (a2 hpub) a3 U V dU dV hbad

/-- **C132 (deviation).** Nothing more is guaranteed: every claim that is `PeCircuitTrue` has proofs that
the verifier accepts, for all challenges outside the exceptional values of an honest run, whether or not there
are inputs on which the circuit gives the claimed values. -/
theorem C132_forgery (env : Env F G1 G2 GT) (hγ : env.gamma ≠ 0) (β : F) (g : G1) (h : G2)
    (hnd : NonDegenerate env.e h) (D : ℕ) (pp : UniversalParams G1 G2)
    (hs : kzgSetup D β g h = .ok pp) (l : List (Call F)) (c : Circuit F) (hb : Builds Circuit.new l c)
    (hl : ∀ x ∈ l, HighLevel x) (p : POV F) (hp : POV.ofCircuit c = .ok p) (hne : c.constGates ≠ [])
    (hpub : (publicVars l).Nodup) (hD : 4 * gateCount c + c.mulGates.length ≤ D)
    (vals : List F) (htrue : PeCircuitTrue l c vals) :
    ∃ (w : POVWitness F) (U V : Polynomial F) (pk : PovPePK F G1 G2) (vk : PovPeVK G1 G2),
      povPeIndex env.gamma pp p = .ok (pk, vk) ∧
      PovPeForges env β g p (gateCount c) (claim c vals) w vk U V := by
  have hg := (Circuit.builds_good hb hl Circuit.good_new).1
  obtain ⟨q1, q2, q3⟩ := (C34_system l c hb).2.1 p hp
  have hpne : p.consts ≠ [] := by rw [q3]; simpa using hne
  have hc : gateCount c = p.nmul + p.nadd + p.consts.length := by
    rw [q1, q2, q3, List.length_map]; rfl
  have hsz : p.getSize.n = gateCount c := by show _ + _ + _ = _; omega
  obtain ⟨val, hmul, heq, hpv⟩ := htrue
  have hvals : vals.length = (publicVars l).length := hpv.length_eq.symm
  obtain ⟨a1, a2, a3⟩ := claim_positions l c hb hl vals
  obtain ⟨ws, hpio, hfa⟩ := Circuit.builds_publicDriver hb hl Circuit.good_new
  rw [show (Circuit.new : Circuit F).publicIo = [] from rfl, List.nil_append] at hpio
  obtain ⟨hshape, hwiring⟩ := wiring_of_values l c hb p hp val heq
  have hval : ∀ w v, Carries c w v →
      (povVec (Circuit.witnessOf c val))[c.getWireGlobalIndex w]? = some (val v) :=
    fun w v hwv => Circuit.witnessOf_at val hwv
  have hen : PovPeEnforced p (claim c vals) (Circuit.witnessOf c val) := by
    refine ⟨?_, hwiring, ?_⟩
    · intro i hi hr
      rw [q1] at hi
      have hki' : (c.gates .mul)[i]? = some c.mulGates[i] := List.getElem?_eq_getElem hi
      obtain ⟨x0, x1, x2⟩ := Circuit.mul_columns (by rw [hc]; exact hshape.1)
        (by rw [hc]; exact hshape.2.1) hi
        (hval (.input ⟨.mul, i, .left⟩) _ ⟨_, hki', rfl⟩)
        (hval (.input ⟨.mul, i, .right⟩) _ ⟨_, hki', rfl⟩)
        (hval (.output (.bin .mul i)) _ ⟨_, hki', rfl⟩)
      rw [x0, x1, x2]
      rw [x1] at hr
      exact hmul _ (List.getElem_mem hi) hr
    · have := (public_values hg p q1 q2 q3 hsz _ val hval ws _ vals hfa hvals).mpr hpv
      rw [← hpio] at this
      exact this
  obtain ⟨U, V, -, pk, vk, hidx, hrest⟩ := C72_not_enforced env hγ β g h hnd D pp hs p hpne (gateCount c)
    hc (by rw [q1]; exact hD) (claim c vals) (by rw [a1]; exact hvals.symm) (a2 hpub) _ hshape hen
  exact ⟨_, U, V, pk, vk, hidx, hrest⟩

/-- **C132 (deviation).** In particular, for a circuit without multiplications and asserted equalities every
claim about its public variables has accepted proofs. -/
theorem C132_additions_unprotected (l : List (Call F)) (c : Circuit F) (hpub : (publicVars l).Nodup)
    (hmul : c.mulGates = []) (hass : asserted l = []) (hconst : ∀ v ∈ publicVars l, ∀ k ∈ c.constGates,
      k.output ≠ v) (vals : List F) (hvals : vals.length = (publicVars l).length) :
    PeCircuitTrue l c vals := by
  refine ⟨fun v => vals.getD ((publicVars l).idxOf v) 0, by simp [hmul], by simp [hass], ?_⟩
  rw [List.forall₂_iff_get]
  refine ⟨hvals.symm, fun i h1 h2 => ⟨fun k hk hkv => ?_, fun _ => ?_⟩⟩
  · exact absurd hkv (hconst _ (List.get_mem _ _) k hk)
  · simp only [List.get_eq_getElem]
    rw [hpub.idxOf_getElem i h1, List.getD_eq_getElem _ _ h2]

/-! ## Examples -/

section Examples

/-- `x`, `y`, `x + y + 7` with the three variables public. -/
private def addCalls : List (Call ℚ) :=
  [.input, .input, .bin .add 0 1, .const 7, .bin .add 2 3, .complete, .markPublic 0, .markPublic 1,
    .markPublic 4]

private def addCirc : Circuit ℚ :=
  ⟨[⟨0, 1, 2⟩, ⟨2, 3, 4⟩], [], [⟨3, 7⟩],
    [.input ⟨.add, 0, .left⟩, .input ⟨.add, 0, .right⟩, .output (.bin .add 1)], 2, [4],
    [⟨[⟨.add, 0, .left⟩], none, none⟩, ⟨[⟨.add, 0, .right⟩], none, none⟩,
      ⟨[⟨.add, 1, .left⟩], some (.bin .add 0), none⟩, ⟨[⟨.add, 1, .right⟩], some (.const 0), none⟩,
      ⟨[], some (.bin .add 1), none⟩], [], [((2, 3), 4), ((0, 1), 2)], [], [(7, 3)]⟩

private theorem addCirc_run : Circuit.run Circuit.new addCalls = .ok addCirc := rfl

private theorem addCirc_builds : Builds Circuit.new addCalls addCirc := by
  refine .cons (by simp [refs]) rfl (.cons (by simp [refs]) rfl (.cons (by decide +kernel) rfl
    (.cons (by simp [refs]) rfl (.cons (by decide +kernel) rfl (.cons (by simp [refs]) rfl
    (.cons (by decide +kernel) rfl (.cons (by decide +kernel) rfl (.cons (by decide +kernel) rfl
    (.nil _)))))))))

/-- The claim `1 + 1 + 7 = 100` is false, and the prover-efficient verifier can be convinced of it. -/
example : ¬ CircuitTrue addCalls addCirc [1, 1, 100] ∧ PeCircuitTrue addCalls addCirc [1, 1, 100] := by
  constructor
  · rintro ⟨input, c', hev, -, hpub⟩
    obtain ⟨-, val, hx, hv, -⟩ := C31_values addCalls addCirc c' addCirc_builds
      (by intro x hx; simp only [addCalls, List.mem_cons, List.not_mem_nil, or_false] at hx
          rcases hx with rfl | rfl | rfl | rfl | rfl | rfl | rfl | rfl | rfl <;> trivial) input hev
    rw [show publicVars addCalls = [0, 1, 4] from rfl, List.map_cons, List.map_cons, List.map_cons,
      hv 0 (by decide), hv 1 (by decide), hv 4 (by decide)] at hpub
    simp only [List.map_cons, List.cons.injEq, Option.some.injEq] at hpub
    have e1 : val 2 = val 0 + val 1 := hx.bin .add 0 ⟨0, 1, 2⟩ rfl
    have e2 : val 4 = val 2 + val 3 := hx.bin .add 1 ⟨2, 3, 4⟩ rfl
    have e3 : val 3 = 7 := hx.const 0 ⟨3, 7⟩ rfl
    rw [e2, e1, e3, hpub.1, hpub.2.1] at hpub
    norm_num at hpub
  · exact C132_additions_unprotected _ _ (by decide +kernel) rfl rfl
      (by
        intro v hv k hk
        rw [show publicVars addCalls = [0, 1, 4] from rfl] at hv
        simp only [addCirc, List.mem_singleton] at hk
        subst hk
        rintro rfl
        simp at hv) _ rfl

/-- With a multiplication of public variables there are claims that are rejected. -/
example (l : List (Call ℚ)) (c : Circuit ℚ) (hl : l = [.input, .input, .bin .mul 0 1, .const 7, .bin .add 2 3,
    .complete, .markPublic 0, .markPublic 1, .markPublic 2]) (hr : Circuit.run Circuit.new l = .ok c) :
    PeCircuitTrue l c [2, 3, 6] ∧ ¬ PeCircuitTrue l c [2, 3, 7] := by
  subst hl
  obtain rfl : c = _ := (Except.ok.inj (hr.symm.trans rfl) : c = (⟨[⟨2, 3, 4⟩], [⟨0, 1, 2⟩], [⟨3, 7⟩],
    [.input ⟨.mul, 0, .left⟩, .input ⟨.mul, 0, .right⟩, .output (.bin .mul 0)], 2, [4],
    [⟨[⟨.mul, 0, .left⟩], none, none⟩, ⟨[⟨.mul, 0, .right⟩], none, none⟩,
      ⟨[⟨.add, 0, .left⟩], some (.bin .mul 0), none⟩, ⟨[⟨.add, 0, .right⟩], some (.const 0), none⟩,
      ⟨[], some (.bin .add 0), none⟩], [], [((2, 3), 4)], [((0, 1), 2)], [(7, 3)]⟩ : Circuit ℚ))
  constructor
  · refine ⟨fun v => [2, 3, 6].getD v 0, ?_, ?_, ?_⟩
    · simp; norm_num
    · simp [asserted]
    · simp [publicVars]
  · rintro ⟨val, h1, -, h3⟩
    simp [publicVars] at h3
    have := h1 ⟨0, 1, 2⟩ (by simp) (by simp [h3.2.1])
    simp only [h3.1, h3.2.1, h3.2.2] at this
    norm_num at this

end Examples

end VO
