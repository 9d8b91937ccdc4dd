import Verif.Lemmas.ProverOk
import Verif.Lemmas.FibonacciComplete
import Verif.Props.Permutation
import Verif.Model.Pov
import Verif.Model.PovPe

set_option linter.unusedSectionVars false

/-
C81 for the two POV SNARKs: a proof returned by `prove` is accepted by `verify`, whatever the
witness.
-/

namespace VO
open Spec
open Polynomial (X)

variable {F G1 G2 GT : Type} [Field F] [DecidableEq F]
  [AddCommGroup G1] [Module F G1] [DecidableEq G1] [AddCommGroup G2] [Module F G2]
  [AddCommGroup GT] [Module F GT] [DecidableEq GT]

theorem permVec_length {γ : F} {wires : List (ℕ × ℕ)} {n : ℕ} {v : List F}
    (h : permutationVectorFromWires γ wires (n : ℤ) = .ok v) : v.length = n := by
  by_cases hbad : γ = 0 ∨ ∃ p ∈ wires, ¬ (p.1 < n ∧ p.2 < n)
  · rw [(C11_abort γ wires n).mpr hbad] at h; cases h
  · push Not at hbad
    obtain ⟨v', h1, h2, -⟩ := C11_vector γ hbad.1 wires n hbad.2
    rw [h] at h1
    obtain rfl := Except.ok.inj h1
    exact h2

/-- **C81 (prover-efficient POV).** For every setup, system, instance and witness (satisfying or not),
hash function, blinding values and FFT constants: if `prove` returns a proof, `verify` accepts it. -/
theorem C81_pov_prover_efficient (env : Env F G1 G2 GT) (τ : F) (g : G1) (h : G2) (D : ℕ)
    (pp : UniversalParams G1 G2) (hs : kzgSetup D τ g h = .ok pp) (cs : POV F)
    (pk : PovPePK F G1 G2) (vk : PovPeVK G1 G2) (hidx : povPeIndex env.gamma pp cs = .ok (pk, vk))
    (x : POVInstance F) (w : POVWitness F) (π : PovPeProof F G1)
    (hok : povPeProve env pk x w = .ok π) : povPeVerify env vk x π = .ok () := by
  obtain ⟨hp, kvk, hkvk, hvk⟩ := setup_inv hs
  unfold povPeIndex at hidx
  obtain ⟨_, ha, hidx⟩ := bind_ok hidx
  obtain ⟨sigma, hsig, hidx⟩ := bind_ok hidx
  obtain ⟨cmS, hcS, hidx⟩ := bind_ok hidx
  obtain ⟨cmD, hcD, hidx⟩ := bind_ok hidx
  obtain ⟨kvk', hkv', hidx⟩ := bind_ok hidx
  rw [hkvk] at hkv'
  obtain rfl := Except.ok.inj hkv'
  obtain ⟨rfl, rfl⟩ := Prod.mk.inj (Except.ok.inj hidx)
  have ha := assertR_ok ha
  rw [hp] at hcS hcD hok
  rw [hp, length_srs] at ha
  set sz := cs.getSize with hsz
  unfold povPeProve at hok
  simp only [hp, length_srs] at hok ⊢
  obtain ⟨xv, hxv, hok⟩ := bind_ok hok
  obtain ⟨u, hu, hok⟩ := bind_ok hok
  obtain ⟨v, hv, hok⟩ := bind_ok hok
  obtain ⟨cmU, hcU, hok⟩ := bind_ok hok
  obtain ⟨cmV, hcV, hok⟩ := bind_ok hok
  obtain ⟨t, ht, hok⟩ := bind_ok hok
  obtain ⟨rv, hrv, hok⟩ := bind_ok hok
  obtain ⟨cmR, hcR, hok⟩ := bind_ok hok
  obtain ⟨cmT1, hcT1, hok⟩ := bind_ok hok
  obtain ⟨d, hd, hok⟩ := bind_ok hok
  obtain ⟨cmH1, hcH1, hok⟩ := bind_ok hok
  obtain ⟨cmH2, hcH2, hok⟩ := bind_ok hok
  obtain ⟨oz, hoz, hok⟩ := bind_ok hok
  obtain ⟨k, hk, hok⟩ := bind_ok hok
  obtain ⟨gv, hgv, hok⟩ := bind_ok hok
  obtain ⟨_, hchk, hok⟩ := bind_ok hok
  obtain ⟨⟨capW, capW1⟩, hbo, hok⟩ := bind_ok hok
  obtain rfl := Except.ok.inj hok
  set c := sz.n with hc
  have ls : sigma.length = 3 * c := permVec_length (n := 3 * c) (by push_cast; exact hsig)
  have ld : cs.consts.length = (-(sz.nadd : ℤ) - sz.nmul + c).toNat := by
    have e1 : sz.nadd = cs.nadd := rfl
    have e2 : sz.nmul = cs.nmul := rfl
    have e3 : c = cs.consts.length + cs.nmul + cs.nadd := rfl
    omega
  have hcpos : 1 ≤ c := by
    have := (commitVector_inv hcS).1
    have := List.length_pos_of_ne_nil this
    omega
  have lu : u.length = 3 * c + 1 := by
    obtain ⟨u', -, hu'⟩ := bind_ok hu
    exact zeroPadAndConcat_inv (by push_cast; rfl) hu'
  have lv : v.length = 3 * c + 1 := by
    obtain ⟨u', -, hu'⟩ := bind_ok hv
    exact zeroPadAndConcat_inv (by push_cast; rfl) hu'
  have lr : rv.length = 3 * c + 1 := by
    obtain ⟨u', -, hu'⟩ := bind_ok hrv
    exact zeroPadAndConcat_inv (by push_cast; rfl) hu'
  have eS := commitVector_inv' hcS ls.ge
  have eD := commitVector_inv' hcD ld.ge
  have eU := commitVector_inv' hcU lu.ge
  have eV := commitVector_inv' hcV lv.ge
  have eR := commitVector_inv' hcR lr.ge
  generalize hT1 : PovPeRun.mkT1 env.rngF _ = t1 at hcT1 hgv hd hcH1 hcH2
  have lt1 : t1.length = sz.nmul + c + 3 := by
    rw [← hT1]; simp [PovPeRun.mkT1, length_expressionVector, sampleVec]; omega
  generalize hM : ((sz.nmul : ℤ) + c + 3 * c).toNat = M at hcH1 hcH2 hgv hbo
  generalize hh1 : hVec1 M _ = h1 at hcH1 hgv
  generalize hh2 : hVec2 M _ = h2 at hcH2 hgv
  have l1 : h1.length = M := by rw [← hh1]; exact length_hVec1 _ _
  have l2 : h2.length = M := by rw [← hh2]; exact length_hVec2 _ _
  have hMD : M ≤ D := by unfold povPeMaxDegree at ha; omega
  have eT1 := commitVector_inv' hcT1 (by omega)
  obtain ⟨-, -, eH1⟩ := commitVector_inv hcH1
  have eH2 := commitVector_inv' hcH2 l2.ge
  have dl : ∀ v : List F, v.length ≤ D + 1 → (polyOf v).degree < ((D + 1 : ℕ) : WithBot ℕ) :=
    fun v hv => degLt_mono (degree_polyOf_lt v) hv
  obtain ⟨lgv, hcg⟩ := gvec_commit τ g
    [(k.c18, fun i => vectorIndex u i, polyOf u), (k.c19, fun i => vectorIndex v i, polyOf v),
      (k.c21, fun i => vectorIndex cs.consts i, polyOf cs.consts),
      (k.c22, fun i => vectorIndex sigma i, polyOf sigma),
      (k.c23, fun i => vectorIndex t1 i, polyOf t1),
      (k.c24, fun i => vectorIndex h1 (-((D + 1 : ℕ) : ℤ) + i + ((sz.nmul : ℤ) + c) + 3 * c),
        X ^ (D + 1 - h1.length) * polyOf h1),
      (k.c25, fun i => vectorIndex h2 i, polyOf h2)] (by
      simp only [List.forall_mem_cons, List.not_mem_nil, false_imp_iff, implies_true, and_true]
      refine ⟨⟨rep_vec _, dl _ (by omega)⟩, ⟨rep_vec _, dl _ (by omega)⟩, ⟨rep_vec _, dl _ (by omega)⟩,
        ⟨rep_vec _, dl _ (by omega)⟩, ⟨rep_vec _, dl _ (by omega)⟩, ⟨?_, ?_⟩,
        ⟨rep_vec _, dl _ (by omega)⟩⟩
      · refine ((rep_vec h1).shift (D + 1 - h1.length)).congrf ?_
        intro i
        congr 1
        omega
      · exact degLt_mono (degLt_X_pow_mul (degree_polyOf_lt h1) _) (by omega)) hgv
  simp only [List.map_cons, List.map_nil] at hcg
  rw [← eU, ← eV, ← eD, ← eS, ← eT1, ← eH1, ← eH2] at hcg
  have hGz := checkPolyEval_inv hchk
  have hchkB := batchOpen_inv env.e hvk (fs := [u, rv]) (gs := [gv]) (r := env.rngU128) hbo (by
    intro f hf
    simp only [List.cons_append, List.nil_append, List.mem_cons, List.not_mem_nil, or_false] at hf
    rcases hf with rfl | rfl | rfl <;> omega)
  have en : (3 * (c : ℤ) + 1) = ((3 * c + 1 : ℕ) : ℤ) := by push_cast; rfl
  have ey : ∀ v : List F, v.length = 3 * c + 1 → ∀ a,
      evalVectorExpression a (3 * (c : ℤ) + 1) (fun i => vectorIndex v i) = (polyOf v).eval a := by
    intro v hv a
    rw [en, (rep_vec _).eval (3 * c + 1) (hv ▸ degree_polyOf_lt v)]
  simp only [List.map_cons, List.map_nil, ← eU, ← eR, hGz, ← ey u lu oz, ← ey rv lr oz] at hchkB
  have hkg : kvk.g = g := hvk.1
  have hcg' : povPeCmG kvk.g k cmU cmV cmD cmS cmT1 cmH1 cmH2 = (polyOf gv).eval τ • g := by
    rw [hkg]; exact hcg
  rw [← hcg'] at hchkB
  simp only [povPeVerify, hoz, hk, bind, Except.bind]
  exact if_pos hchkB

/-- **C81 (POV).** For every setup, system, instance and witness (satisfying or not), hash function,
blinding values and FFT constants: if `prove` returns a proof, `verify` accepts it. -/
theorem C81_pov (env : Env F G1 G2 GT) (τ : F) (g : G1) (h : G2) (D : ℕ)
    (pp : UniversalParams G1 G2) (hs : kzgSetup D τ g h = .ok pp) (cs : POV F)
    (pk : PovPK F G1 G2) (vk : PovVK G1 G2) (hidx : povIndex env.gamma pp cs = .ok (pk, vk))
    (x : POVInstance F) (w : POVWitness F) (π : PovProof F G1)
    (hok : povProve env pk x w = .ok π) : povVerify env vk x π = .ok () := by
  obtain ⟨hp, kvk, hkvk, hvk⟩ := setup_inv hs
  unfold povIndex at hidx
  obtain ⟨_, ha, hidx⟩ := bind_ok hidx
  obtain ⟨sigma, hsig, hidx⟩ := bind_ok hidx
  obtain ⟨cmS, hcS, hidx⟩ := bind_ok hidx
  obtain ⟨cmD, hcD, hidx⟩ := bind_ok hidx
  obtain ⟨kvk', hkv', hidx⟩ := bind_ok hidx
  rw [hkvk] at hkv'
  obtain rfl := Except.ok.inj hkv'
  obtain ⟨rfl, rfl⟩ := Prod.mk.inj (Except.ok.inj hidx)
  have ha := assertR_ok ha
  rw [hp] at hcS hcD hok
  rw [hp, length_srs] at ha
  set sz := cs.getSize with hsz
  unfold povProve at hok
  simp only [hp, length_srs] at hok ⊢
  obtain ⟨xv, hxv, hok⟩ := bind_ok hok
  obtain ⟨wv, hw, hok⟩ := bind_ok hok
  obtain ⟨cmW, hcW, hok⟩ := bind_ok hok
  obtain ⟨t, ht, hok⟩ := bind_ok hok
  obtain ⟨rv, hrv, hok⟩ := bind_ok hok
  obtain ⟨cmR, hcR, hok⟩ := bind_ok hok
  obtain ⟨cmT1, hcT1, hok⟩ := bind_ok hok
  obtain ⟨d, hd, hok⟩ := bind_ok hok
  obtain ⟨cmH1, hcH1, hok⟩ := bind_ok hok
  obtain ⟨cmH2, hcH2, hok⟩ := bind_ok hok
  obtain ⟨oz, hoz, hok⟩ := bind_ok hok
  obtain ⟨k, hk, hok⟩ := bind_ok hok
  obtain ⟨gv, hgv, hok⟩ := bind_ok hok
  obtain ⟨_, hchk, hok⟩ := bind_ok hok
  obtain ⟨⟨capW, capW1⟩, hbo, hok⟩ := bind_ok hok
  obtain rfl := Except.ok.inj hok
  set c := sz.n with hc
  have ls : sigma.length = 3 * c := permVec_length (n := 3 * c) (by push_cast; exact hsig)
  have hmc : sz.nmul ≤ c := by
    have e2 : sz.nmul = cs.nmul := rfl
    have e3 : c = cs.consts.length + cs.nmul + cs.nadd := rfl
    omega
  have ld : cs.consts.length = (-(sz.nadd : ℤ) - sz.nmul + c).toNat := by
    have e1 : sz.nadd = cs.nadd := rfl
    have e2 : sz.nmul = cs.nmul := rfl
    have e3 : c = cs.consts.length + cs.nmul + cs.nadd := rfl
    omega
  have hcpos : 1 ≤ c := by
    have := (commitVector_inv hcS).1
    have := List.length_pos_of_ne_nil this
    omega
  have lw : wv.length = 3 * c + 1 := zeroPadAndConcat_inv (by push_cast; rfl) hw
  have lr : rv.length = 3 * c + 1 := by
    obtain ⟨u', -, hu'⟩ := bind_ok hrv
    exact zeroPadAndConcat_inv (by push_cast; rfl) hu'
  have eS := commitVector_inv' hcS ls.ge
  have eD := commitVector_inv' hcD ld.ge
  have eW := commitVector_inv' hcW lw.ge
  have eR := commitVector_inv' hcR lr.ge
  generalize hT1 : PovRun.mkT1 env.rngF _ = t1 at hcT1 hgv hd hcH1 hcH2
  have lt1 : t1.length = 3 * c + 3 - sz.nmul := by
    rw [← hT1]; simp [PovRun.mkT1, length_expressionVector, sampleVec]; omega
  generalize hM : (-(sz.nmul : ℤ) + 3 * c + 3 * c).toNat = M at hcH1 hcH2 hgv hbo
  generalize hh1 : hVec1 M _ = h1 at hcH1 hgv
  generalize hh2 : hVec2 M _ = h2 at hcH2 hgv
  have l1 : h1.length = M := by rw [← hh1]; exact length_hVec1 _ _
  have l2 : h2.length = M := by rw [← hh2]; exact length_hVec2 _ _
  have hMD : M ≤ D := by unfold povMaxDegree at ha; omega
  have eT1 := commitVector_inv' hcT1 (by omega)
  obtain ⟨-, -, eH1⟩ := commitVector_inv hcH1
  have eH2 := commitVector_inv' hcH2 l2.ge
  have dl : ∀ v : List F, v.length ≤ D + 1 → (polyOf v).degree < ((D + 1 : ℕ) : WithBot ℕ) :=
    fun v hv => degLt_mono (degree_polyOf_lt v) hv
  obtain ⟨lgv, hcg⟩ := gvec_commit τ g
    [(k.c20, fun i => vectorIndex wv i, polyOf wv),
      (k.c21, fun i => vectorIndex cs.consts i, polyOf cs.consts),
      (k.c23, fun i => vectorIndex sigma i, polyOf sigma),
      (k.c24, fun i => vectorIndex t1 i, polyOf t1),
      (k.c25, fun i => vectorIndex h1 (-((D + 1 : ℕ) : ℤ) + i + (-(sz.nmul : ℤ) + 3 * c) + 3 * c),
        X ^ (D + 1 - h1.length) * polyOf h1),
      (k.c26, fun i => vectorIndex h2 i, polyOf h2)] (by
      simp only [List.forall_mem_cons, List.not_mem_nil, false_imp_iff, implies_true, and_true]
      refine ⟨⟨rep_vec _, dl _ (by omega)⟩, ⟨rep_vec _, dl _ (by omega)⟩,
        ⟨rep_vec _, dl _ (by omega)⟩, ⟨rep_vec _, dl _ (by omega)⟩, ⟨?_, ?_⟩,
        ⟨rep_vec _, dl _ (by omega)⟩⟩
      · refine ((rep_vec h1).shift (D + 1 - h1.length)).congrf ?_
        intro i
        congr 1
        omega
      · exact degLt_mono (degLt_X_pow_mul (degree_polyOf_lt h1) _) (by omega)) hgv
  simp only [List.map_cons, List.map_nil] at hcg
  rw [← eW, ← eD, ← eS, ← eT1, ← eH1, ← eH2] at hcg
  have hGz := checkPolyEval_inv hchk
  have hchkB := batchOpen_inv env.e hvk (fs := [wv, rv]) (gs := [gv]) (r := env.rngU128) hbo (by
    intro f hf
    simp only [List.cons_append, List.nil_append, List.mem_cons, List.not_mem_nil, or_false] at hf
    rcases hf with rfl | rfl | rfl <;> omega)
  have en : (3 * (c : ℤ) + 1) = ((3 * c + 1 : ℕ) : ℤ) := by push_cast; rfl
  have ey : ∀ v : List F, v.length = 3 * c + 1 → ∀ a,
      evalVectorExpression a (3 * (c : ℤ) + 1) (fun i => vectorIndex v i) = (polyOf v).eval a := by
    intro v hv a
    rw [en, (rep_vec _).eval (3 * c + 1) (hv ▸ degree_polyOf_lt v)]
  simp only [List.map_cons, List.map_nil, ← eW, ← eR, hGz, ← ey wv lw oz, ← ey rv lr oz] at hchkB
  have hkg : kvk.g = g := hvk.1
  have hcg' : povCmG kvk.g k cmW cmD cmS cmT1 cmH1 cmH2 = (polyOf gv).eval τ • g := by
    rw [hkg]; exact hcg
  rw [← hcg'] at hchkB
  simp only [povVerify, hoz, hk, bind, Except.bind]
  exact if_pos hchkB

end VO
