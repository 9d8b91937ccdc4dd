import Verif.Lemmas.ProverOk
import Verif.Lemmas.HadamardChecks
import Verif.Model.HprSnark

set_option linter.unusedSectionVars false

/-
C81 for the HPR SNARK: a proof returned by `prove` is accepted by `verify`, whatever the witness.
-/

namespace VO
open Spec
open Polynomial (X)

variable {F G1 G2 GT : Type} [Field F] [DecidableEq F]
  [AddCommGroup G1] [Module F G1] [DecidableEq G1] [AddCommGroup G2] [Module F G2]
  [AddCommGroup GT] [Module F GT] [DecidableEq GT]

/-- **C81 (HPR).** For every setup, system, instance and witness (satisfying or not), hash function,
blinding values and FFT constants: if `prove` returns a proof, `verify` accepts it.  The three
matrices are assumed to list the number of entries that `get_size` records, which is the number of
entries of the first one for all three (cs/hpr.rs:39-47); on other systems see
`C44_wrong_density`. -/
theorem C81_hpr (env : Env F G1 G2 GT) (τ : F) (g : G1) (h : G2) (D : ℕ)
    (pp : UniversalParams G1 G2) (hs : kzgSetup D τ g h = .ok pp) (cs : HPR F)
    (hden : cs.b.rows.length + cs.c.rows.length = 2 * cs.a.rows.length)
    (pk : HprPK F G1 G2) (vk : HprVK G1 G2) (hidx : hprIndex env.gamma pp cs = .ok (pk, vk))
    (x : List F) (w : List F × List F × List F) (π : HprProof F G1)
    (hok : hprProve env pk x w = .ok π) : hprVerify env vk x π = .ok () := by
  obtain ⟨hp, kvk, hkvk, hvk⟩ := setup_inv hs
  unfold hprIndex at hidx
  obtain ⟨sz, hsz, hidx⟩ := bind_ok hidx
  obtain ⟨_, ha, hidx⟩ := bind_ok hidx
  obtain ⟨cmU, hcU, hidx⟩ := bind_ok hidx
  obtain ⟨cmW, hcW, hidx⟩ := bind_ok hidx
  obtain ⟨cmV, hcV, hidx⟩ := bind_ok hidx
  obtain ⟨cmY, hcY, hidx⟩ := bind_ok hidx
  obtain ⟨kvk', hkv', hidx⟩ := bind_ok hidx
  rw [hkvk] at hkv'
  obtain rfl := Except.ok.inj hkv'
  obtain ⟨rfl, rfl⟩ := Prod.mk.inj (Except.ok.inj hidx)
  have ha := assertR_ok ha
  rw [hp, length_srs] at ha
  rw [hp] at hcU hcW hcV hcY hok
  unfold HPR.getSize at hsz
  obtain ⟨_, b1, hsz⟩ := bind_ok hsz
  obtain ⟨_, b2, hsz⟩ := bind_ok hsz
  obtain ⟨_, b3, hsz⟩ := bind_ok hsz
  obtain ⟨_, b4, hsz⟩ := bind_ok hsz
  obtain ⟨_, b5, hsz⟩ := bind_ok hsz
  obtain ⟨_, b6, hsz⟩ := bind_ok hsz
  obtain ⟨_, b7, hsz⟩ := bind_ok hsz
  obtain ⟨_, b8, hsz⟩ := bind_ok hsz
  have b7 := assertR_ok b7
  have b1 := assertR_ok b1
  have b2 := assertR_ok b2
  have b3 := assertR_ok b3
  have b4 := assertR_ok b4
  have b5 := assertR_ok b5
  have b6 := assertR_ok b6
  have hsz := (Except.ok.inj hsz).symm
  have eT : sz.total = cs.a.rows.length + cs.a.rows.length + cs.a.rows.length + cs.drows.length := by
    rw [hsz]; rfl
  have eT' : sz.total = sz.adensity + sz.bdensity + sz.cdensity + sz.ddensity := rfl
  clear hsz
  generalize hmat : concatMatrixHorizontally sz.ncols cs.a cs.b cs.c cs.drows cs.dvals = mat at hcU hcW hcV hcY hok ⊢
  have lmr : mat.rows.length = sz.total := by rw [← hmat]; simp [concatMatrixHorizontally]; omega
  have lmc : mat.cols.length = sz.total := by rw [← hmat]; simp [concatMatrixHorizontally]; omega
  have lmv : mat.vals.length = sz.total := by rw [← hmat]; simp [concatMatrixHorizontally]; omega
  generalize hu : intArrayToPowerVector mat.rows env.gamma = u at hcU hcW hcV hcY hok ⊢
  generalize hw : intArrayToPowerVector mat.cols env.gamma = wm at hcU hcW hcV hcY hok ⊢
  have lu : u.length = sz.total := by rw [← hu]; simp [lmr]
  have lwm : wm.length = sz.total := by rw [← hw]; simp [lmc]
  generalize hy : hadamardVector u wm = ym at hcU hcW hcV hcY hok ⊢
  have ly : ym.length = sz.total := by rw [← hy]; simp [lu, lwm]
  generalize hvm : mat.vals = vm at hcV hok lmv ⊢
  unfold hprProve at hok
  simp only [hp, length_srs] at hok ⊢
  obtain ⟨u1, hu1, hok⟩ := bind_ok hok
  obtain ⟨cmU1, hcU1, hok⟩ := bind_ok hok
  obtain ⟨s, hs1, hok⟩ := bind_ok hok
  obtain ⟨cmS, hcS, hok⟩ := bind_ok hok
  obtain ⟨cmH, hcH, hok⟩ := bind_ok hok
  obtain ⟨cmR, hcR, hok⟩ := bind_ok hok
  obtain ⟨cmT, hcT, hok⟩ := bind_ok hok
  obtain ⟨d, hd, hok⟩ := bind_ok hok
  obtain ⟨cmH2, hcH2, hok⟩ := bind_ok hok
  obtain ⟨cmH3, hcH3, hok⟩ := bind_ok hok
  obtain ⟨oz, hoz, hok⟩ := bind_ok hok
  obtain ⟨k, hk, hok⟩ := bind_ok hok
  obtain ⟨gv, hgv, hok⟩ := bind_ok hok
  obtain ⟨_, hchk, hok⟩ := bind_ok hok
  obtain ⟨⟨capW, capW1⟩, hbo, hok⟩ := bind_ok hok
  obtain rfl := Except.ok.inj hok
  generalize hn : 3 * sz.ncols + sz.total + 1 = n at *
  have lu1 : u1.length = n + 1 := zeroPadAndConcat_inv (by rw [← hn]; push_cast; rfl) hu1
  have ls : s.length = sz.nrows + 3 * sz.ncols + 1 := by
    obtain ⟨c, hc, hs'⟩ := bind_ok hs1
    obtain rfl := Except.ok.inj hs'
    have e2 := (sparseMvp_inv hc).1
    simp [concatNegVector, e2]
    omega
  generalize hh : hprH env.gamma _ _ u wm sz.ncols = hv at *
  have lh : hv.length = n := by rw [← hh]; simp [hprH, lu, lwm]; omega
  generalize hrr : hprR env.rngF _ x u1 s hv vm sz.nrows sz.ncols sz.total = rv at *
  have lr : rv.length = n + 1 := by rw [← hrr]; simp [hprR]; omega
  generalize hT : HprRun.mkT env.rngF _ = t at hcT hgv hd hcH2 hcH3
  have lt : t.length = 2 * sz.ncols + sz.total + 4 := by
    rw [← hT]; simp [HprRun.mkT, length_expressionVector]; omega
  generalize hM : 2 * sz.ncols + sz.total + 1 + n = M at *
  generalize hh2 : hVec1 M _ = h2 at hcH2 hgv
  generalize hh3 : hVec2 M _ = h3 at hcH3 hgv
  have l2 : h2.length = M := by rw [← hh2]; exact length_hVec1 _ _
  have l3 : h3.length = M := by rw [← hh3]; exact length_hVec2 _ _
  have hMD : M ≤ D := by unfold hprMaxDegree at ha; omega
  have bu := (commitVector_inv hcU).2.1
  have bw := (commitVector_inv hcW).2.1
  have bv := (commitVector_inv hcV).2.1
  have by' := (commitVector_inv hcY).2.1
  have bu1 := (commitVector_inv hcU1).2.1
  have bs := (commitVector_inv hcS).2.1
  have bh := (commitVector_inv hcH).2.1
  have br := (commitVector_inv hcR).2.1
  have bt := (commitVector_inv hcT).2.1
  have eU := commitVector_inv' hcU lu.ge
  have eW := commitVector_inv' hcW lwm.ge
  have eV := commitVector_inv' hcV lmv.ge
  have eY := commitVector_inv' hcY ly.ge
  have eU1 := commitVector_inv' hcU1 lu1.ge
  have eS := commitVector_inv' hcS ls.ge
  have eH := commitVector_inv' hcH lh.ge
  have eR := commitVector_inv' hcR lr.ge
  have eTt := commitVector_inv' hcT (by omega)
  obtain ⟨-, -, eH2⟩ := commitVector_inv hcH2
  have eH3 := commitVector_inv' hcH3 l3.ge
  have dl : ∀ v : List F, v.length ≤ D + 1 → (polyOf v).degree < ((D + 1 : ℕ) : WithBot ℕ) :=
    fun v hv => degLt_mono (degree_polyOf_lt v) hv
  obtain ⟨lgv, hcg⟩ := gvec_commit τ g
    [(k.c35, fun i => vectorIndex s i, polyOf s), (k.c37, fun i => vectorIndex hv i, polyOf hv),
      (k.c38, fun i => vectorIndex wm i, polyOf wm), (k.c39, fun i => vectorIndex u i, polyOf u),
      (k.c40, fun i => vectorIndex ym i, polyOf ym), (k.c41, fun i => vectorIndex u1 i, polyOf u1),
      (k.c42, fun i => vectorIndex vm i, polyOf vm), (k.c43, fun i => vectorIndex rv i, polyOf rv),
      (k.c44, fun i => vectorIndex t i, polyOf t),
      (k.c45, fun i => vectorIndex h2 (-((D + 1 : ℕ) : ℤ) + i
        + (2 * sz.ncols + sz.total + 1 : ℕ) + (n : ℕ)), X ^ (D + 1 - h2.length) * polyOf h2),
      (k.c46, fun i => vectorIndex h3 i, polyOf h3)] (by
      simp only [List.forall_mem_cons, List.not_mem_nil, false_imp_iff, implies_true, and_true]
      refine ⟨⟨rep_vec _, dl _ bs⟩, ⟨rep_vec _, dl _ bh⟩, ⟨rep_vec _, dl _ bw⟩,
        ⟨rep_vec _, dl _ bu⟩, ⟨rep_vec _, dl _ by'⟩, ⟨rep_vec _, dl _ bu1⟩, ⟨rep_vec _, dl _ bv⟩,
        ⟨rep_vec _, dl _ br⟩, ⟨rep_vec _, dl _ bt⟩, ⟨?_, ?_⟩, ⟨rep_vec _, dl _ (by omega)⟩⟩
      · refine ((rep_vec h2).shift (D + 1 - h2.length)).congrf ?_
        intro i
        congr 1
        omega
      · exact degLt_mono (degLt_X_pow_mul (degree_polyOf_lt h2) _) (by omega)) hgv
  simp only [List.map_cons, List.map_nil] at hcg
  rw [← eS, ← eH, ← eW, ← eU, ← eY, ← eU1, ← eV, ← eR, ← eTt, ← eH2, ← eH3] at hcg
  have hGz := checkPolyEval_inv hchk
  have hchkB := batchOpen_inv env.e hvk (fs := [hv, u1]) (gs := [gv]) (r := env.rngU128) hbo (by
    intro f hf
    simp only [List.cons_append, List.nil_append, List.mem_cons, List.not_mem_nil, or_false] at hf
    rcases hf with rfl | rfl | rfl <;> omega)
  have ey : ∀ v : List F, v.length ≤ n + 1 → ∀ a,
      evalVectorExpression a ((n + 1 : ℕ) : ℤ) (fun i => vectorIndex v i) = (polyOf v).eval a := by
    intro v hv a
    rw [(rep_vec _).eval (n + 1) (degLt_mono (degree_polyOf_lt v) hv)]
  simp only [List.map_cons, List.map_nil, ← eH, ← eU1, hGz, ← ey hv (by omega) oz,
    ← ey u1 (by omega) oz] at hchkB
  have hkg : kvk.g = g := hvk.1
  have hcg' : r1csCmG kvk.g k cmS cmH cmW cmU cmY cmU1 cmV cmR cmT cmH2 cmH3
      = (polyOf gv).eval τ • g := by
    rw [hkg]; exact hcg
  rw [← hcg'] at hchkB
  simp only [hprVerify, hoz, hk, bind, Except.bind]
  exact if_pos hchkB

end VO
