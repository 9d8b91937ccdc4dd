import Verif.Lemmas.ProverOk
import Verif.Lemmas.HadamardChecks
import Verif.Model.R1csPe

set_option linter.unusedSectionVars false

/-
C81 for the prover-efficient R1CS SNARK: a proof returned by `prove` is accepted by `verify`,
whatever the witness.
-/

namespace VO
open Spec
open Polynomial (X)

variable {F G1 G2 GT : Type} [Field F] [DecidableEq F]
  [AddCommGroup G1] [Module F G1] [DecidableEq G1] [AddCommGroup G2] [Module F G2]
  [AddCommGroup GT] [Module F GT] [DecidableEq GT]

set_option maxHeartbeats 2000000 in
/-- **C81 (prover-efficient R1CS).** For every setup, system with at most one more column than listed
entries, instance and witness (satisfying or not), hash function, blinding values and FFT constants:
if `prove` returns a proof, `verify` accepts it.  (With more columns the prover truncates the vector
whose value it sends.) -/
theorem C81_r1cs_prover_efficient (env : Env F G1 G2 GT) (τ : F) (g : G1) (h : G2) (D : ℕ)
    (pp : UniversalParams G1 G2) (hs : kzgSetup D τ g h = .ok pp) (cs : R1CS F)
    (hcol : cs.ncols ≤ cs.a.rows.length + cs.b.rows.length + cs.c.rows.length + 1)
    (pk : R1csPePK F G1 G2) (vk : R1csPeVK G1 G2)
    (hidx : r1csPeIndex env.gamma pp cs = .ok (pk, vk)) (x w : List F) (π : R1csPeProof F G1)
    (hok : r1csPeProve env pk x w = .ok π) : r1csPeVerify env vk x π = .ok () := by
  obtain ⟨hp, kvk, hkvk, hvk⟩ := setup_inv hs
  unfold r1csPeIndex at hidx
  obtain ⟨sz, hsz, hidx⟩ := bind_ok hidx
  obtain ⟨_, ha, hidx⟩ := bind_ok hidx
  obtain ⟨cmU, hcU, hidx⟩ := bind_ok hidx
  obtain ⟨cmW, hcW, hidx⟩ := bind_ok hidx
  obtain ⟨cmV, hcV, hidx⟩ := bind_ok hidx
  obtain ⟨cmY, hcY, hidx⟩ := bind_ok hidx
  obtain ⟨kvk', hkv', hidx⟩ := bind_ok hidx
  rw [hkvk] at hkv'
  obtain rfl := Except.ok.inj hkv'
  obtain ⟨rfl, rfl⟩ := Prod.mk.inj (Except.ok.inj hidx)
  have ha := assertR_ok ha
  rw [hp, length_srs] at ha
  rw [hp] at hcU hcW hcV hcY hok
  unfold R1CS.getSize at hsz
  obtain ⟨_, b1, hsz⟩ := bind_ok hsz
  obtain ⟨_, b2, hsz⟩ := bind_ok hsz
  obtain ⟨_, b3, hsz⟩ := bind_ok hsz
  obtain ⟨_, b4, hsz⟩ := bind_ok hsz
  obtain ⟨_, b5, hsz⟩ := bind_ok hsz
  obtain ⟨_, b6, hsz⟩ := bind_ok hsz
  have b1 := assertR_ok b1
  have b2 := assertR_ok b2
  have b3 := assertR_ok b3
  have b4 := assertR_ok b4
  have b5 := assertR_ok b5
  have b6 := assertR_ok b6
  have hsz := (Except.ok.inj hsz).symm
  have eT : sz.total = cs.a.rows.length + cs.b.rows.length + cs.c.rows.length := by rw [hsz]; rfl
  have eT' : sz.total = sz.adensity + sz.bdensity + sz.cdensity := rfl
  have eK : sz.ncols = cs.ncols := by rw [hsz]
  rw [← eT, ← eK] at hcol
  clear hsz
  generalize hmat : concatMatrixVertically sz.nrows cs.a cs.c cs.b = mat at hcU hcW hcV hcY hok ⊢
  have lmr : mat.rows.length = sz.total := by rw [← hmat]; simp [concatMatrixVertically]; omega
  have lmc : mat.cols.length = sz.total := by rw [← hmat]; simp [concatMatrixVertically]; omega
  have lmv : mat.vals.length = sz.total := by rw [← hmat]; simp [concatMatrixVertically]; omega
  generalize hu : intArrayToPowerVector mat.rows env.gamma = u at hcU hcW hcV hcY hok ⊢
  generalize hw : intArrayToPowerVector mat.cols env.gamma = wm at hcU hcW hcV hcY hok ⊢
  have lu : u.length = sz.total := by rw [← hu]; simp [lmr]
  have lwm : wm.length = sz.total := by rw [← hw]; simp [lmc]
  generalize hy : hadamardVector u wm = ym at hcU hcW hcV hcY hok ⊢
  have ly : ym.length = sz.total := by rw [← hy]; simp [lu, lwm]
  generalize hvm : mat.vals = vm at hcV hok lmv ⊢
  unfold r1csPeProve at hok
  simp only [hp, length_srs] at hok ⊢
  obtain ⟨y1, hy1, hok⟩ := bind_ok hok
  obtain ⟨cmY1, hcY1, hok⟩ := bind_ok hok
  obtain ⟨wv, hwv, hok⟩ := bind_ok hok
  obtain ⟨cmWv, hcWv, hok⟩ := bind_ok hok
  obtain ⟨c, hc, hok⟩ := bind_ok hok
  obtain ⟨cmR, hcR, hok⟩ := bind_ok hok
  obtain ⟨cmC, hcC, hok⟩ := bind_ok hok
  obtain ⟨cmRnu, hcRnu, hok⟩ := bind_ok hok
  obtain ⟨cmT, hcT, hok⟩ := bind_ok hok
  obtain ⟨cmRt, hcRt, hok⟩ := bind_ok hok
  obtain ⟨cmT1, hcT1, hok⟩ := bind_ok hok
  obtain ⟨d, hd, hok⟩ := bind_ok hok
  obtain ⟨cmH1, hcH1, hok⟩ := bind_ok hok
  obtain ⟨cmH2, hcH2, hok⟩ := bind_ok hok
  obtain ⟨oz, hoz, hok⟩ := bind_ok hok
  obtain ⟨k, hk, hok⟩ := bind_ok hok
  obtain ⟨gv, hgv, hok⟩ := bind_ok hok
  obtain ⟨_, hchk, hok⟩ := bind_ok hok
  obtain ⟨⟨capW, capW1⟩, hbo, hok⟩ := bind_ok hok
  obtain rfl := Except.ok.inj hok
  generalize hn : sz.total = n at *
  have ly1 : y1.length = n + 1 := by
    obtain ⟨m, hm, hu'⟩ := bind_ok hy1
    exact zeroPadAndConcat_inv rfl hu'
  have lwv : wv.length = n + 1 := zeroPadAndConcat_inv rfl hwv
  have lc : c.length = sz.ncols := by
    have e2 := (sparseMvp_inv hc).1
    omega
  generalize hr : r1csPeR env.gamma _ (3 * sz.nrows) = r at *
  have lr : r.length = 3 * sz.nrows := by rw [← hr]; simp [r1csPeR]; omega
  generalize hrn : r1csPeR env.gamma _ sz.ncols = rnu at *
  have lrn : rnu.length = sz.ncols := by rw [← hrn]; simp [r1csPeR]
  generalize hti : uwinverseVector _ u _ wm = t at *
  have lt : t.length = n := by rw [← hti]; simp [lu, lwm]
  generalize hrt : r1csPeRt env.rngF _ _ _ _ _ _ _ _ _ _ _ = rt at *
  have lrt : rt.length = n + 1 := by rw [← hrt]; simp [r1csPeRt]
  generalize hT : R1csPeRun.mkT1 env.rngF _ = t1 at hcT1 hgv hd hcH1 hcH2
  have lt1 : t1.length = 2 * sz.nrows + 3 := by
    rw [← hT]; simp [R1csPeRun.mkT1, length_expressionVector]; omega
  generalize hM : 2 * sz.nrows + n = M at *
  generalize hh1 : hVec1 M _ = h1 at hcH1 hgv
  generalize hh2 : hVec2 M _ = h2 at hcH2 hgv
  have l1 : h1.length = M := by rw [← hh1]; exact length_hVec1 _ _
  have l2 : h2.length = M := by rw [← hh2]; exact length_hVec2 _ _
  have hMD : M ≤ D := by unfold r1csPeMaxDegree at ha; omega
  have bu := (commitVector_inv hcU).2.1
  have bw := (commitVector_inv hcW).2.1
  have bv := (commitVector_inv hcV).2.1
  have by' := (commitVector_inv hcY).2.1
  have by1 := (commitVector_inv hcY1).2.1
  have bwv := (commitVector_inv hcWv).2.1
  have br := (commitVector_inv hcR).2.1
  have bc := (commitVector_inv hcC).2.1
  have brn := (commitVector_inv hcRnu).2.1
  have bt := (commitVector_inv hcT).2.1
  have brt := (commitVector_inv hcRt).2.1
  have bt1 := (commitVector_inv hcT1).2.1
  have eU := commitVector_inv' hcU lu.ge
  have eW := commitVector_inv' hcW lwm.ge
  have eV := commitVector_inv' hcV lmv.ge
  have eY := commitVector_inv' hcY ly.ge
  have eY1 := commitVector_inv' hcY1 ly1.ge
  have eWv := commitVector_inv' hcWv lwv.ge
  have eR := commitVector_inv' hcR lr.ge
  have eC := commitVector_inv' hcC lc.ge
  have eRnu := commitVector_inv' hcRnu lrn.ge
  have eTt := commitVector_inv' hcT lt.ge
  have eRt := commitVector_inv' hcRt lrt.ge
  have eT1 := commitVector_inv' hcT1 (by omega)
  obtain ⟨-, -, eH1⟩ := commitVector_inv hcH1
  have eH2 := commitVector_inv' hcH2 l2.ge
  have dl : ∀ v : List F, v.length ≤ D + 1 → (polyOf v).degree < ((D + 1 : ℕ) : WithBot ℕ) :=
    fun v hv => degLt_mono (degree_polyOf_lt v) hv
  obtain ⟨lgv, hcg⟩ := gvec_commit τ g
    [(k.c36, fun i => vectorIndex r i, polyOf r), (k.c38, fun i => vectorIndex rnu i, polyOf rnu),
      (k.c39, fun i => vectorIndex c i, polyOf c), (k.c40, fun i => vectorIndex wm i, polyOf wm),
      (k.c41, fun i => vectorIndex u i, polyOf u), (k.c42, fun i => vectorIndex ym i, polyOf ym),
      (k.c43, fun i => vectorIndex y1 i, polyOf y1), (k.c44, fun i => vectorIndex wv i, polyOf wv),
      (k.c45, fun i => vectorIndex vm i, polyOf vm), (k.c46, fun i => vectorIndex rt i, polyOf rt),
      (k.c47, fun i => vectorIndex t1 i, polyOf t1),
      (k.c48, fun i => vectorIndex h1 (-((D + 1 : ℕ) : ℤ) + i
        + (2 * sz.nrows : ℕ) + (n : ℕ)), X ^ (D + 1 - h1.length) * polyOf h1),
      (k.c49, fun i => vectorIndex h2 i, polyOf h2)] (by
      simp only [List.forall_mem_cons, List.not_mem_nil, false_imp_iff, implies_true, and_true]
      refine ⟨⟨rep_vec _, dl _ br⟩, ⟨rep_vec _, dl _ brn⟩, ⟨rep_vec _, dl _ bc⟩,
        ⟨rep_vec _, dl _ bw⟩, ⟨rep_vec _, dl _ bu⟩, ⟨rep_vec _, dl _ by'⟩, ⟨rep_vec _, dl _ by1⟩,
        ⟨rep_vec _, dl _ bwv⟩, ⟨rep_vec _, dl _ bv⟩, ⟨rep_vec _, dl _ brt⟩, ⟨rep_vec _, dl _ bt1⟩,
        ⟨?_, ?_⟩, ⟨rep_vec _, dl _ (by omega)⟩⟩
      · refine ((rep_vec h1).shift (D + 1 - h1.length)).congrf ?_
        intro i
        congr 1
        omega
      · exact degLt_mono (degLt_X_pow_mul (degree_polyOf_lt h1) _) (by omega)) hgv
  simp only [List.map_cons, List.map_nil] at hcg
  rw [← eR, ← eRnu, ← eC, ← eW, ← eU, ← eY, ← eY1, ← eWv, ← eV, ← eRt, ← eT1, ← eH1, ← eH2] at hcg
  have hGz := checkPolyEval_inv hchk
  have hchkB := batchOpen_inv env.e hvk (fs := [t, y1, c]) (gs := [gv]) (r := env.rngU128) hbo (by
    intro f hf
    simp only [List.cons_append, List.nil_append, List.mem_cons, List.not_mem_nil, or_false] at hf
    rcases hf with rfl | rfl | rfl | rfl <;> omega)
  have ey : ∀ v : List F, v.length ≤ n + 1 → ∀ a,
      evalVectorExpression a ((n + 1 : ℕ) : ℤ) (fun i => vectorIndex v i) = (polyOf v).eval a := by
    intro v hv a
    rw [(rep_vec _).eval (n + 1) (degLt_mono (degree_polyOf_lt v) hv)]
  simp only [List.map_cons, List.map_nil, ← eTt, ← eY1, ← eC, hGz, ← ey t (by omega) oz,
    ← ey y1 (by omega) oz, ← ey c (by omega) oz] at hchkB
  have hkg : kvk.g = g := hvk.1
  have hcg' : r1csPeCmG kvk.g k cmR cmRnu cmC cmW cmU cmY cmY1 cmWv cmV cmRt cmT1 cmH1 cmH2
      = (polyOf gv).eval τ • g := by
    rw [hkg]; exact hcg
  rw [← hcg'] at hchkB
  simp only [r1csPeVerify, hoz, hk, bind, Except.bind]
  exact if_pos hchkB

end VO
