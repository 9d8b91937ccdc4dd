import Verif.Lemmas.Odds
import Verif.Props.PlonkShape

/-
C142: how often the honest PLONK prover fails, as one number.
-/

set_option linter.unusedSectionVars false

namespace VO

open VO.Plonk VO.Spec VO.Spec.Plonk

variable {F : Type} [Field F] [DecidableEq F] [Fintype F]

/-- A challenge that `Mostly` is good, followed by others. -/
theorem _root_.VO.Spec.Plonk.Mostly.odds {T : Type} [Fintype T] {n k : ℕ} {Q : F → Prop}
    {P : F × T → Prop} (h : Mostly n Q) (hk : ∀ x, Q x → Odds F k fun t => P (x, t)) :
    Odds F (n + k) P := by
  obtain ⟨bad, hc, hb⟩ := h
  exact Odds.step bad hc fun x hx => hk x (hb x hx)

/-- The nested `Mostly` of `C105_succeeds` and `C110_succeeds`, counted. -/
theorem succeeds_odds (T n : ℕ) (Ok : F → F → F → F → F → F → F → F → F → F → F → F → F → F → Prop)
    (h : Mostly (3 * T ^ 2 + 2) fun zeta : F =>
      ∀ beta, Mostly (4 * n + 1) fun gamma : F =>
      Mostly 3 fun delta : F => Mostly (2 * n + 3) fun epsilon : F =>
      ∀ alpha range logic fixed var lookup, Mostly n fun z : F => ∀ aw saw,
        Ok zeta beta gamma delta epsilon alpha range logic fixed var lookup z aw saw) :
    Odds F (3 * T ^ 2 + 7 * n + 9)
      fun t : F × F × F × F × F × F × F × F × F × F × F × F × F × F =>
      let (zeta, beta, gamma, delta, epsilon, alpha, range, logic, fixed, var, lookup, z, aw, saw) := t
      ¬ Ok zeta beta gamma delta epsilon alpha range logic fixed var lookup z aw saw := by
  refine Odds.mono (k := (3 * T ^ 2 + 2) + ((4 * n + 1) + (3 + ((2 * n + 3) + (n + 0))))) ?_ (by omega)
    (fun _ h => h)
  refine h.odds fun zeta h => Odds.skip fun beta => (h beta).odds fun gamma h => h.odds fun delta h =>
    h.odds fun epsilon h => Odds.skip fun alpha => Odds.skip fun range => Odds.skip fun logic =>
    Odds.skip fun fixed => Odds.skip fun var => Odds.skip fun lookup =>
    (h alpha range logic fixed var lookup).odds fun z h => ?_
  have : {t : F × F | ¬ Ok zeta beta gamma delta epsilon alpha range logic fixed var lookup z t.1 t.2}
      = ∅ := by
    ext t
    simpa using h t.1 t.2
  unfold Odds
  simp only [] at this ⊢
  rw [this]
  simp

/-- **C142.** Completeness error: with room for the domain of eight times the size in the field, enough
powers in the commitment key and no row twice in the lookup table, a prover and a verifier built for
the same circuit preprocess it, and if the prover's values satisfy the circuit then the probability, over
uniform challenges, that `prove` does not return a proof or `verify` does not accept it is at most
`(3T² + 7n + 9) / |F|`, where `T` is the number of rows of the table and `n` the size of the domain. -/
theorem C142_prove {R : FieldRep F} {K : PField F} {E : EdCurve F} {P : PCS F} {d n : ℕ}
    (hK : PFieldOk K) (hP : PcsComplete P d) {c cv : Composer F} (hc : Reach R E c)
    (hs : OwnSat E c) (hn : n = circuitBound c) (hd : n ≤ d)
    (h8 : Nat.clog 2 (8 * n) ≤ K.fft.twoAdicity) (hT : c.lookup_table.Nodup)
    (hrv : Reach R E cv) (hcv : SameCircuit cv c) {tr : Transcript F P.Comm} (htr : tr.countP isChal = 0)
    (r1 r2 : F × F × F × F) :
    ∃ v : Verifier P, Verifier.preprocess K (P := P) ⟨none, cv, tr⟩ = .ok v ∧
      Odds F (3 * c.lookup_table.length ^ 2 + 7 * n + 9)
        fun t : F × F × F × F × F × F × F × F × F × F × F × F × F × F =>
        let (zeta, beta, gamma, delta, epsilon, alpha, range, logic, fixed, var, lookup, z, aw, saw) := t
        let ro : Transcript F P.Comm → F := coins [zeta, beta, gamma, delta, epsilon, alpha, range,
          logic, fixed, var, lookup, z, aw, saw]
        ¬ ∃ pr s, Prover.prove K E ro ⟨none, c, tr⟩ r1 r2 = .ok (pr, s) ∧
          v.verify K E ro pr c.public_inputs = .ok () := by
  subst hn
  obtain ⟨v, hv, h⟩ := C105_succeeds hK hP hc hs hd h8 hT hrv hcv htr r1 r2
  exact ⟨v, hv, succeeds_odds _ _ _ h⟩

/-- **C142 (circuits).** The same for the `Circuit` interface: a circuit compiled once with any values,
then `gen_proof` with other values and `verify_proof`. -/
theorem C142_circuit {R : FieldRep F} {K : PField F} {E : EdCurve F} {P : PCS F} {d m n : ℕ}
    (hK : PFieldOk K) (hP : PcsComplete P d) {C C' : Circ F} (hg : SameGadget R E C.gadget C'.gadget)
    {rp rv r r' rn : (F × F × F × F) × (F × F × F × F)} {cp cv c : Composer F}
    (hcp : Filled C rp cp) (hcv : Filled C rv cv) (hc : Filled C' r c) (hs : OwnSat E c)
    (hn : n = circuitBound c) (hd : n ≤ d)
    (hsize : C.size = C'.size) (hns : n ≤ C.size) (hm : C.size ≤ m)
    (h8 : Nat.clog 2 (8 * n) ≤ K.fft.twoAdicity) (hT : c.lookup_table.Nodup) (label : String) :
    ∃ pk vk, circuitCompile K P m C rp rv = .ok (pk, vk, c.intended_pi_pos) ∧
      Odds F (3 * c.lookup_table.length ^ 2 + 7 * n + 9)
        fun t : F × F × F × F × F × F × F × F × F × F × F × F × F × F =>
        let (zeta, beta, gamma, delta, epsilon, alpha, range, logic, fixed, var, lookup, z, aw, saw) := t
        let ro : Transcript F P.Comm → F := coins [zeta, beta, gamma, delta, epsilon, alpha, range,
          logic, fixed, var, lookup, z, aw, saw]
        ¬ ∃ pr, circuitProve K E P ro m C' pk label r r' = .ok (pr, c.public_inputs) ∧
          circuitVerify K E P ro m vk pr c.public_inputs label rn = .ok () := by
  obtain ⟨pk, vk, hk, h⟩ := C129_compile_once hK hP hg hcp hcv hc hs hn hd hsize hns hm h8 hT label
    (r' := r') (rn := rn)
  exact ⟨pk, vk, hk, succeeds_odds _ _ _ h⟩

/-- For the small circuit with a table of two rows over the field with 7681 elements: failure in at most
77 of 7681 cases. -/
example : ∃ pk vk, circuitCompile pf7681 (idealPcs K7681 8) 8 (exCirc 0 0)
      ((1, 2, 3, 4), (5, 6, 7, 8)) ((1, 2, 3, 4), (5, 6, 7, 8)) = .ok (pk, vk, [5]) ∧
    Odds K7681 77 fun t : K7681 × K7681 × K7681 × K7681 × K7681 × K7681 × K7681 × K7681 × K7681 ×
        K7681 × K7681 × K7681 × K7681 × K7681 =>
      let (zeta, beta, gamma, delta, epsilon, alpha, range, logic, fixed, var, lookup, z, aw, saw) := t
      let ro : Transcript K7681 (idealPcs K7681 8).Comm → K7681 := coins [zeta, beta, gamma, delta,
        epsilon, alpha, range, logic, fixed, var, lookup, z, aw, saw]
      ¬ ∃ pr, circuitProve pf7681 E7681 (idealPcs K7681 8) ro 8 (exCirc 1 2) pk "t"
          ((1, 2, 3, 4), (5, 6, 7, 8)) ((1, 2, 3, 4), (5, 6, 7, 8)) = .ok (pr, (exC 1 2).public_inputs) ∧
        circuitVerify pf7681 E7681 (idealPcs K7681 8) ro 8 vk pr (exC 1 2).public_inputs "t"
          ((1, 2, 3, 4), (5, 6, 7, 8)) = .ok () := by
  obtain ⟨-, h2, -, h4⟩ := exC_size
  obtain ⟨pk, vk, h, ho⟩ := C142_circuit (m := 8) pf7681_ok (ideal_complete (F := K7681) 8)
    (exCirc_same 0 0 1 2) (r' := ((1, 2, 3, 4), (5, 6, 7, 8)))
    (rn := ((1, 2, 3, 4), (5, 6, 7, 8))) (exCirc_filled 0 0) (exCirc_filled 0 0) (exCirc_filled 1 2)
    ((exC_facts 1 2).2 rfl rfl) h4.symm le_rfl rfl le_rfl le_rfl
    (by decide +kernel) (by rw [h2]; decide +kernel) "t"
  have e1 : (exC 1 2).intended_pi_pos = [5] := by decide +kernel
  rw [e1] at h
  refine ⟨pk, vk, h, ho.mono ?_ fun _ h => h⟩
  rw [h2]
  decide

end VO
