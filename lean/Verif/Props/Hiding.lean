import Verif.Lemmas.Hiding
import Verif.Lemmas.FibonacciComplete
import Verif.Lemmas.SnarkExample
import Verif.Model.Pov
import Verif.Model.PovPe
import Verif.Model.R1csSnark
import Verif.Model.R1csPe
import Verif.Model.HprSnark
import Verif.Model.Fibonacci
import Verif.Model.RangeCheck

set_option linter.unusedSectionVars false

/-
C83 and C84: what the blinding of the provers hides and what it does not.
-/

namespace VO
open Spec
open Polynomial (X C)

variable {F G1 G2 GT : Type} [Field F] [DecidableEq F]
  [AddCommGroup G1] [Module F G1] [DecidableEq G1] [AddCommGroup G2] [Module F G2]
  [AddCommGroup GT] [Module F GT] [DecidableEq GT]

/-! ## C83 -/

/-- **C83.** With one blinding entry a commitment alone hides the vector perfectly: every multiple of
the generator is the commitment of `u` for exactly one value of the blinding entry, whatever `u`. -/
theorem C83_commitment_hides (τ : F) (hτ : τ ≠ 0) (g : G1) (hg : g ≠ 0) (D n : ℕ) (hn : n ≤ D)
    (u : List F) (hu : u.length = n) (s : F) :
    ∃! δ : F, commitVector (srs τ g D) (u ++ [δ]) (n + 1) = .ok (s • g) := by
  have hp : τ ^ n ≠ 0 := pow_ne_zero _ hτ
  refine ⟨(s - (polyOf u).eval τ) / τ ^ n, ?_, ?_⟩
  · simp only
    rw [commitVector_exact τ g D n u _ hu hn]
    congr 2
    field_simp
    ring
  · intro δ h
    rw [commitVector_exact τ g D n u _ hu hn] at h
    have h1 := sub_eq_zero.2 (Except.ok.inj h)
    rw [← sub_smul] at h1
    rcases smul_eq_zero.1 h1 with h2 | h2
    · field_simp
      linear_combination h2
    · exact absurd h2 hg

/-- **C83.** Likewise the published value at a point `a ≠ 0` alone: every value is attained for exactly
one value of the blinding entry. -/
theorem C83_value_hides (n : ℕ) (u : List F) (hu : u.length = n) (a : F) (ha : a ≠ 0) (y : F) :
    ∃! δ : F, (polyOf (u ++ [δ])).eval a = y := by
  have hp : a ^ n ≠ 0 := pow_ne_zero _ ha
  have he : ∀ δ : F, (polyOf (u ++ [δ])).eval a = (polyOf u).eval a + δ * a ^ n := by
    intro δ; simp [polyOf_append, polyOf_cons, hu]
  refine ⟨(y - (polyOf u).eval a) / a ^ n, ?_, ?_⟩
  · simp only [he]; field_simp; ring
  · intro δ h
    simp only [he] at h
    rw [eq_div_iff hp]
    linear_combination h

/-- **C83.** Two blinding entries would hide the vector from an observer of the commitment and of one
value: every pair of a commitment and a value is attained for exactly one pair of entries. -/
theorem C83_two_blinders_hide (τ : F) (hτ : τ ≠ 0) (g : G1) (hg : g ≠ 0) (D n : ℕ) (hn : n + 1 ≤ D)
    (u : List F) (hu : u.length = n) (a : F) (ha : a ≠ 0) (hne : a ≠ τ) (s y : F) :
    ∃! δ : F × F, commitVector (srs τ g D) (u ++ [δ.1, δ.2]) (n + 2) = .ok (s • g) ∧
      (polyOf (u ++ [δ.1, δ.2])).eval a = y := by
  have hp : τ ^ n ≠ 0 := pow_ne_zero _ hτ
  have hq : a ^ n ≠ 0 := pow_ne_zero _ ha
  have hd : τ - a ≠ 0 := sub_ne_zero.2 (Ne.symm hne)
  have hl : ∀ δ : F × F, u ++ [δ.1, δ.2] = (u ++ [δ.1]) ++ [δ.2] := by intro δ; simp
  have hcm : ∀ δ : F × F, commitVector (srs τ g D) (u ++ [δ.1, δ.2]) (n + 2)
      = .ok (((polyOf u).eval τ + τ ^ n * (δ.1 + τ * δ.2)) • g) := by
    intro δ
    rw [hl, commitVector_exact τ g D (n + 1) (u ++ [δ.1]) δ.2 (by simp [hu]) hn]
    congr 2
    simp [polyOf_append, polyOf_cons, hu]
    ring
  have hev : ∀ δ : F × F, (polyOf (u ++ [δ.1, δ.2])).eval a
      = (polyOf u).eval a + a ^ n * (δ.1 + a * δ.2) := by
    intro δ
    simp [polyOf_append, polyOf_cons, hu]
    exact Or.inl (mul_comm _ _)
  obtain ⟨S, hS⟩ : ∃ S, S = (s - (polyOf u).eval τ) / τ ^ n := ⟨_, rfl⟩
  obtain ⟨Y, hY⟩ : ∃ Y, Y = (y - (polyOf u).eval a) / a ^ n := ⟨_, rfl⟩
  have hS' : τ ^ n * S = s - (polyOf u).eval τ := by rw [hS]; field_simp
  have hY' : a ^ n * Y = y - (polyOf u).eval a := by rw [hY]; field_simp
  have h2 : ((S - Y) / (τ - a)) * (τ - a) = S - Y := by field_simp
  refine ⟨(Y - a * ((S - Y) / (τ - a)), (S - Y) / (τ - a)), ⟨?_, ?_⟩, ?_⟩
  · rw [hcm]
    congr 2
    simp only
    linear_combination hS' + τ ^ n * h2
  · rw [hev]
    simp only
    linear_combination hY'
  · rintro ⟨d1, d2⟩ ⟨h3, h4⟩
    rw [hcm] at h3
    rw [hev] at h4
    simp only at h3 h4
    have h5 := sub_eq_zero.2 (Except.ok.inj h3)
    rw [← sub_smul] at h5
    rcases smul_eq_zero.1 h5 with h6 | h6
    · have e1 : d1 + τ * d2 = S := by
        apply mul_left_cancel₀ hp; linear_combination h6 - hS'
      have e2 : d1 + a * d2 = Y := by
        apply mul_left_cancel₀ hq; linear_combination h4 - hY'
      have e3 : d2 = (S - Y) / (τ - a) := by
        rw [eq_div_iff hd]; linear_combination e1 - e2
      rw [← e3]
      ext
      · simp only; linear_combination e2
      · rfl
    · exact absurd h6 hg

example : (commitVector (srs (3 : ℚ) (5 : ℚ) 4) ([1, 2] ++ [(2 : ℚ)]) 3 = (.ok (25 • 5 : ℚ) : Res ℚ)) ∧
    (commitVector (srs (3 : ℚ) (5 : ℚ) 4) ([7, 0] ++ [(2 : ℚ)]) 3 = (.ok (25 • 5 : ℚ) : Res ℚ)) := by
  decide +kernel

/-! ## C84 -/

theorem evalVec_eq (v : List F) (n : ℕ) (hv : v.length = n) (a : F) :
    evalVectorExpression a (n : ℤ) (fun i => vectorIndex v i) = (polyOf v).eval a := by
  rw [(rep_vec _).eval n (hv ▸ degree_polyOf_lt v)]

/-- **C84 (POV).** From a proof alone, and whatever the source of the blinding values, everybody can
confirm a guess of the whole witness. -/
theorem C84_pov (env : Env F G1 G2 GT) (τ : F) (g : G1) (hg : g ≠ 0) (h : G2) (D : ℕ)
    (pp : UniversalParams G1 G2) (hs : kzgSetup D τ g h = .ok pp) (cs : POV F)
    (pk : PovPK F G1 G2) (vk : PovVK G1 G2) (hidx : povIndex env.gamma pp cs = .ok (pk, vk))
    (x : POVInstance F) (w : POVWitness F) (π : PovProof F G1)
    (hok : povProve env pk x w = .ok π) (a : F)
    (hadef : a = env.hash (povPrefix 1 x vk.cmSigma vk.cmD ++ [.cm π.cmW, .cm π.cmR, .cm π.cmT1])
      / env.hash (povPrefix 1 x vk.cmSigma vk.cmD
        ++ [.cm π.cmW, .cm π.cmR, .cm π.cmT1, .cm π.cmH1, .cm π.cmH2]))
    (ha : a ≠ 0) :
    GuessesConfirmed pp.powersOfG τ (3 * vk.size.n) π.cmW a π.y (w.w0 ++ w.w1 ++ w.w2) := by
  obtain ⟨hp, kvk, hkvk, hvk⟩ := setup_inv hs
  unfold povIndex at hidx
  obtain ⟨_, -, hidx⟩ := bind_ok hidx
  obtain ⟨sigma, -, hidx⟩ := bind_ok hidx
  obtain ⟨cmS, -, hidx⟩ := bind_ok hidx
  obtain ⟨cmD, -, hidx⟩ := bind_ok hidx
  obtain ⟨kvk', -, hidx⟩ := bind_ok hidx
  obtain ⟨rfl, rfl⟩ := Prod.mk.inj (Except.ok.inj hidx)
  unfold povProve at hok
  obtain ⟨xv, -, hok⟩ := bind_ok hok
  obtain ⟨wv, hw, hok⟩ := bind_ok hok
  obtain ⟨cmW, hcW, hok⟩ := bind_ok hok
  obtain ⟨t, -, hok⟩ := bind_ok hok
  obtain ⟨rv, -, hok⟩ := bind_ok hok
  obtain ⟨cmR, -, hok⟩ := bind_ok hok
  obtain ⟨cmT1, -, hok⟩ := bind_ok hok
  obtain ⟨d, -, hok⟩ := bind_ok hok
  obtain ⟨cmH1, -, hok⟩ := bind_ok hok
  obtain ⟨cmH2, -, hok⟩ := bind_ok hok
  obtain ⟨oz, hoz, hok⟩ := bind_ok hok
  obtain ⟨k, -, hok⟩ := bind_ok hok
  obtain ⟨gv, -, hok⟩ := bind_ok hok
  obtain ⟨_, -, hok⟩ := bind_ok hok
  obtain ⟨⟨capW, capW1⟩, -, hok⟩ := bind_ok hok
  obtain rfl := Except.ok.inj hok
  have hoz' := (divR_inv hoz).2
  simp only at hadef hoz' ⊢
  rw [← hadef] at hoz'
  subst hoz'
  rw [hp] at hcW ⊢
  have lw := zeroPadAndConcat_inv (m := 3 * cs.getSize.n) (by push_cast; rfl) hw
  have hy := evalVec_eq wv (3 * cs.getSize.n + 1) lw oz
  push_cast at hy
  rw [hy]
  exact guess_confirmed τ g hg D _ _ _ wv cmW oz ha (by simpa [povW, sampleVec] using hw) hcW

/-- **C84 (prover-efficient POV).** From a proof alone everybody can confirm a guess of the first two parts of the
witness: the left inputs of all gates and the right inputs of the multiplication gates. -/
theorem C84_pov_prover_efficient (env : Env F G1 G2 GT) (τ : F) (g : G1) (hg : g ≠ 0) (h : G2) (D : ℕ)
    (pp : UniversalParams G1 G2) (hs : kzgSetup D τ g h = .ok pp) (cs : POV F)
    (pk : PovPePK F G1 G2) (vk : PovPeVK G1 G2) (hidx : povPeIndex env.gamma pp cs = .ok (pk, vk))
    (x : POVInstance F) (w : POVWitness F) (π : PovPeProof F G1)
    (hok : povPeProve env pk x w = .ok π) (a : F)
    (hadef : a = env.hash (povPrefix 1 x vk.cmSigma vk.cmD ++ [.cm π.cmU, .cm π.cmV, .cm π.cmR, .cm π.cmT1])
      / env.hash (povPrefix 1 x vk.cmSigma vk.cmD
        ++ [.cm π.cmU, .cm π.cmV, .cm π.cmR, .cm π.cmT1, .cm π.cmH1, .cm π.cmH2]))
    (ha : a ≠ 0) :
    GuessesConfirmed pp.powersOfG τ (3 * vk.size.n) π.cmU a π.y
      (w.w0.take vk.size.n ++ w.w1.take vk.size.nmul) := by
  obtain ⟨hp, kvk, hkvk, hvk⟩ := setup_inv hs
  unfold povPeIndex at hidx
  obtain ⟨_, -, hidx⟩ := bind_ok hidx
  obtain ⟨sigma, -, hidx⟩ := bind_ok hidx
  obtain ⟨cmS, -, hidx⟩ := bind_ok hidx
  obtain ⟨cmD, -, hidx⟩ := bind_ok hidx
  obtain ⟨kvk', -, hidx⟩ := bind_ok hidx
  obtain ⟨rfl, rfl⟩ := Prod.mk.inj (Except.ok.inj hidx)
  unfold povPeProve at hok
  obtain ⟨xv, -, hok⟩ := bind_ok hok
  obtain ⟨u, hu, hok⟩ := bind_ok hok
  obtain ⟨v, -, hok⟩ := bind_ok hok
  obtain ⟨cmU, hcU, hok⟩ := bind_ok hok
  obtain ⟨cmV, -, hok⟩ := bind_ok hok
  obtain ⟨t, -, hok⟩ := bind_ok hok
  obtain ⟨rv, -, hok⟩ := bind_ok hok
  obtain ⟨cmR, -, hok⟩ := bind_ok hok
  obtain ⟨cmT1, -, hok⟩ := bind_ok hok
  obtain ⟨d, -, hok⟩ := bind_ok hok
  obtain ⟨cmH1, -, hok⟩ := bind_ok hok
  obtain ⟨cmH2, -, hok⟩ := bind_ok hok
  obtain ⟨oz, hoz, hok⟩ := bind_ok hok
  obtain ⟨k, -, hok⟩ := bind_ok hok
  obtain ⟨gv, -, hok⟩ := bind_ok hok
  obtain ⟨_, -, hok⟩ := bind_ok hok
  obtain ⟨⟨capW, capW1⟩, -, hok⟩ := bind_ok hok
  obtain rfl := Except.ok.inj hok
  have hoz' := (divR_inv hoz).2
  simp only at hadef hoz' ⊢
  rw [← hadef] at hoz'
  subst hoz'
  rw [hp] at hcU ⊢
  unfold povPeU at hu
  obtain ⟨u', hu', hu⟩ := bind_ok hu
  have hu'' : u' = w.w0.take cs.getSize.n ++ w.w1.take cs.getSize.nmul := by
    unfold concatSubvec at hu'
    split_ifs at hu'
    rw [← Except.ok.inj hu']; simp
  have lu := zeroPadAndConcat_inv (m := 3 * cs.getSize.n) (by push_cast; rfl) hu
  have hy := evalVec_eq u (3 * cs.getSize.n + 1) lu oz
  push_cast at hy
  rw [hy, ← hu'']
  exact guess_confirmed τ g hg D _ _ _ u cmU oz ha (by simpa [sampleVec] using hu) hcU

/-- **C84 (R1CS).** From a proof alone everybody can confirm a guess of the whole assignment: the guessed
vector is `Az ‖ Bz ‖ Cz ‖ z` with `z = (1, x, w)`. -/
theorem C84_r1cs (env : Env F G1 G2 GT) (τ : F) (g : G1) (hg : g ≠ 0) (h : G2) (D : ℕ)
    (pp : UniversalParams G1 G2) (hs : kzgSetup D τ g h = .ok pp) (cs : R1CS F)
    (pk : R1csPK F G1 G2) (vk : R1csVK G1 G2) (hidx : r1csIndex env.gamma pp cs = .ok (pk, vk))
    (x w : List F) (π : R1csProof F G1)
    (hok : r1csProve env pk x w = .ok π) (a : F)
    (hadef : a = env.hash (r1csPrefix 1 x vk.cmU vk.cmW vk.cmV vk.cmY
        ++ [.cm π.cmU1, .cm π.cmS, .cm π.cmH, .cm π.cmR, .cm π.cmT])
      / env.hash (r1csPrefix 1 x vk.cmU vk.cmW vk.cmV vk.cmY
        ++ [.cm π.cmU1, .cm π.cmS, .cm π.cmH, .cm π.cmR, .cm π.cmT, .cm π.cmH2, .cm π.cmH3]))
    (ha : a ≠ 0) :
    ∃ m, sparseMvp (3 * vk.size.nrows) vk.size.ncols pk.mat (1 :: (x ++ w)) = .ok m ∧
      GuessesConfirmed pp.powersOfG τ (vk.size.ncols + vk.size.total) π.cmU1 a π.y1
        (m ++ (1 :: (x ++ w))) := by
  obtain ⟨hp, kvk, hkvk, hvk⟩ := setup_inv hs
  unfold r1csIndex at hidx
  obtain ⟨size, -, hidx⟩ := bind_ok hidx
  obtain ⟨_, -, hidx⟩ := bind_ok hidx
  obtain ⟨cmU, -, hidx⟩ := bind_ok hidx
  obtain ⟨cmW, -, hidx⟩ := bind_ok hidx
  obtain ⟨cmV, -, hidx⟩ := bind_ok hidx
  obtain ⟨cmY, -, hidx⟩ := bind_ok hidx
  obtain ⟨kvk', -, hidx⟩ := bind_ok hidx
  obtain ⟨rfl, rfl⟩ := Prod.mk.inj (Except.ok.inj hidx)
  unfold r1csProve at hok
  obtain ⟨u1, hu, hok⟩ := bind_ok hok
  obtain ⟨cmU1, hcU, hok⟩ := bind_ok hok
  obtain ⟨s, -, hok⟩ := bind_ok hok
  obtain ⟨cmS, -, hok⟩ := bind_ok hok
  obtain ⟨cmH, -, hok⟩ := bind_ok hok
  obtain ⟨cmR, -, hok⟩ := bind_ok hok
  obtain ⟨cmT, -, hok⟩ := bind_ok hok
  obtain ⟨d, -, hok⟩ := bind_ok hok
  obtain ⟨cmH2, -, hok⟩ := bind_ok hok
  obtain ⟨cmH3, -, hok⟩ := bind_ok hok
  obtain ⟨oz, hoz, hok⟩ := bind_ok hok
  obtain ⟨k, -, hok⟩ := bind_ok hok
  obtain ⟨gv, -, hok⟩ := bind_ok hok
  obtain ⟨_, -, hok⟩ := bind_ok hok
  obtain ⟨⟨capW, capW1⟩, -, hok⟩ := bind_ok hok
  obtain rfl := Except.ok.inj hok
  have hoz' := (divR_inv hoz).2
  simp only at hadef hoz' ⊢
  rw [← hadef] at hoz'
  subst hoz'
  rw [hp] at hcU ⊢
  unfold r1csU1 at hu
  obtain ⟨m, hm, hu⟩ := bind_ok hu
  have lu := zeroPadAndConcat_inv (m := size.ncols + size.total) (by push_cast; rfl) hu
  have hy := evalVec_eq u1 (size.ncols + size.total + 1) lu oz
  rw [hy]
  exact ⟨m, hm, guess_confirmed τ g hg D _ _ _ u1 cmU1 oz ha (by simpa [sampleVec] using hu) hcU⟩

/-- **C84 (prover-efficient R1CS).** From a proof alone everybody can confirm a guess of the products `Az ‖ Cz ‖ Bz`
with `z = (1, x, w)`. -/
theorem C84_r1cs_prover_efficient (env : Env F G1 G2 GT) (τ : F) (g : G1) (hg : g ≠ 0) (h : G2) (D : ℕ)
    (pp : UniversalParams G1 G2) (hs : kzgSetup D τ g h = .ok pp) (cs : R1CS F)
    (pk : R1csPePK F G1 G2) (vk : R1csPeVK G1 G2) (hidx : r1csPeIndex env.gamma pp cs = .ok (pk, vk))
    (x w : List F) (π : R1csPeProof F G1)
    (hok : r1csPeProve env pk x w = .ok π) (a : F)
    (hadef : a = env.hash (r1csPrefix 1 x vk.cmU vk.cmW vk.cmV vk.cmY
        ++ [.cm π.cmY1, .cm π.cmW, .cm π.cmR, .cm π.cmC, .cm π.cmRnu, .cm π.cmT, .cm π.cmRt, .cm π.cmT1])
      / env.hash (r1csPrefix 1 x vk.cmU vk.cmW vk.cmV vk.cmY
        ++ [.cm π.cmY1, .cm π.cmW, .cm π.cmR, .cm π.cmC, .cm π.cmRnu, .cm π.cmT, .cm π.cmRt, .cm π.cmT1,
          .cm π.cmH1, .cm π.cmH2]))
    (ha : a ≠ 0) :
    ∃ m, sparseMvp (3 * vk.size.nrows) vk.size.ncols pk.mat (1 :: (x ++ w)) = .ok m ∧
      GuessesConfirmed pp.powersOfG τ vk.size.total π.cmY1 a π.y1 m := by
  obtain ⟨hp, kvk, hkvk, hvk⟩ := setup_inv hs
  unfold r1csPeIndex at hidx
  obtain ⟨size, -, hidx⟩ := bind_ok hidx
  obtain ⟨_, -, hidx⟩ := bind_ok hidx
  obtain ⟨cmU, -, hidx⟩ := bind_ok hidx
  obtain ⟨cmW, -, hidx⟩ := bind_ok hidx
  obtain ⟨cmV, -, hidx⟩ := bind_ok hidx
  obtain ⟨cmY, -, hidx⟩ := bind_ok hidx
  obtain ⟨kvk', -, hidx⟩ := bind_ok hidx
  obtain ⟨rfl, rfl⟩ := Prod.mk.inj (Except.ok.inj hidx)
  unfold r1csPeProve at hok
  obtain ⟨y1v, hu, hok⟩ := bind_ok hok
  obtain ⟨cmY1, hcU, hok⟩ := bind_ok hok
  obtain ⟨wv, -, hok⟩ := bind_ok hok
  obtain ⟨cmW, -, hok⟩ := bind_ok hok
  obtain ⟨c, -, hok⟩ := bind_ok hok
  obtain ⟨cmR, -, hok⟩ := bind_ok hok
  obtain ⟨cmC, -, hok⟩ := bind_ok hok
  obtain ⟨cmRnu, -, hok⟩ := bind_ok hok
  obtain ⟨cmT, -, hok⟩ := bind_ok hok
  obtain ⟨cmRt, -, hok⟩ := bind_ok hok
  obtain ⟨cmT1, -, hok⟩ := bind_ok hok
  obtain ⟨d, -, hok⟩ := bind_ok hok
  obtain ⟨cmH1, -, hok⟩ := bind_ok hok
  obtain ⟨cmH2, -, hok⟩ := bind_ok hok
  obtain ⟨oz, hoz, hok⟩ := bind_ok hok
  obtain ⟨k, -, hok⟩ := bind_ok hok
  obtain ⟨gv, -, hok⟩ := bind_ok hok
  obtain ⟨_, -, hok⟩ := bind_ok hok
  obtain ⟨⟨capW, capW1⟩, -, hok⟩ := bind_ok hok
  obtain rfl := Except.ok.inj hok
  have hoz' := (divR_inv hoz).2
  simp only at hadef hoz' ⊢
  rw [← hadef] at hoz'
  subst hoz'
  rw [hp] at hcU ⊢
  unfold r1csPeY1 at hu
  obtain ⟨m, hm, hu⟩ := bind_ok hu
  have lu := zeroPadAndConcat_inv (m := size.total) (by push_cast; rfl) hu
  have hy := evalVec_eq y1v (size.total + 1) lu oz
  rw [hy]
  exact ⟨m, hm, guess_confirmed τ g hg D _ _ _ y1v cmY1 oz ha (by simpa [sampleVec] using hu) hcU⟩

/-- **C84 (HPR).** From a proof alone everybody can confirm a guess of the whole witness. -/
theorem C84_hpr (env : Env F G1 G2 GT) (τ : F) (g : G1) (hg : g ≠ 0) (h : G2) (D : ℕ)
    (pp : UniversalParams G1 G2) (hs : kzgSetup D τ g h = .ok pp) (cs : HPR F)
    (pk : HprPK F G1 G2) (vk : HprVK G1 G2) (hidx : hprIndex env.gamma pp cs = .ok (pk, vk))
    (x : List F) (w : List F × List F × List F) (π : HprProof F G1)
    (hok : hprProve env pk x w = .ok π) (a : F)
    (hadef : a = env.hash (r1csPrefix 1 x vk.cmU vk.cmW vk.cmV vk.cmY
        ++ [.cm π.cmW1, .cm π.cmS, .cm π.cmH, .cm π.cmR, .cm π.cmT])
      / env.hash (r1csPrefix 1 x vk.cmU vk.cmW vk.cmV vk.cmY
        ++ [.cm π.cmW1, .cm π.cmS, .cm π.cmH, .cm π.cmR, .cm π.cmT, .cm π.cmH2, .cm π.cmH3]))
    (ha : a ≠ 0) :
    GuessesConfirmed pp.powersOfG τ (3 * vk.size.ncols + vk.size.total + 1) π.cmW1 a π.y1
      (w.1 ++ w.2.1 ++ w.2.2) := by
  obtain ⟨hp, kvk, hkvk, hvk⟩ := setup_inv hs
  unfold hprIndex at hidx
  obtain ⟨size, -, hidx⟩ := bind_ok hidx
  obtain ⟨_, -, hidx⟩ := bind_ok hidx
  obtain ⟨cmU, -, hidx⟩ := bind_ok hidx
  obtain ⟨cmW, -, hidx⟩ := bind_ok hidx
  obtain ⟨cmV, -, hidx⟩ := bind_ok hidx
  obtain ⟨cmY, -, hidx⟩ := bind_ok hidx
  obtain ⟨kvk', -, hidx⟩ := bind_ok hidx
  obtain ⟨rfl, rfl⟩ := Prod.mk.inj (Except.ok.inj hidx)
  unfold hprProve at hok
  obtain ⟨w1, hu, hok⟩ := bind_ok hok
  obtain ⟨cmW1, hcU, hok⟩ := bind_ok hok
  obtain ⟨s, -, hok⟩ := bind_ok hok
  obtain ⟨cmS, -, hok⟩ := bind_ok hok
  obtain ⟨cmH, -, hok⟩ := bind_ok hok
  obtain ⟨cmR, -, hok⟩ := bind_ok hok
  obtain ⟨cmT, -, hok⟩ := bind_ok hok
  obtain ⟨d, -, hok⟩ := bind_ok hok
  obtain ⟨cmH2, -, hok⟩ := bind_ok hok
  obtain ⟨cmH3, -, hok⟩ := bind_ok hok
  obtain ⟨oz, hoz, hok⟩ := bind_ok hok
  obtain ⟨k, -, hok⟩ := bind_ok hok
  obtain ⟨gv, -, hok⟩ := bind_ok hok
  obtain ⟨_, -, hok⟩ := bind_ok hok
  obtain ⟨⟨capW, capW1⟩, -, hok⟩ := bind_ok hok
  obtain rfl := Except.ok.inj hok
  have hoz' := (divR_inv hoz).2
  simp only at hadef hoz' ⊢
  rw [← hadef] at hoz'
  subst hoz'
  rw [hp] at hcU ⊢
  unfold hprW1 at hu
  have lu := zeroPadAndConcat_inv (m := 3 * size.ncols + size.total + 1) (by push_cast; rfl) hu
  have hy := evalVec_eq w1 (3 * size.ncols + size.total + 1 + 1) lu oz
  rw [hy]
  exact guess_confirmed τ g hg D _ _ _ w1 cmW1 oz ha (by simpa [sampleVec] using hu) hcU

/-- **C84 (Fibonacci).** From a proof alone everybody can confirm a guess of the whole witness. -/
theorem C84_fibonacci (env : Env F G1 G2 GT) (τ : F) (g : G1) (hg : g ≠ 0) (h : G2) (D : ℕ)
    (pp : UniversalParams G1 G2) (hs : kzgSetup D τ g h = .ok pp) (cs : Fibonacci F)
    (pk : FibPK F G1 G2) (vk : FibVK G1 G2) (hidx : fibIndex pp cs = .ok (pk, vk))
    (x : FibInstance F) (w : List F) (π : FibProof F G1)
    (hok : fibProve env pk x w = .ok π) (a : F)
    (hadef : a = fibOmega env vk.cmT π.cmW π.cmR π.cmT1
      / fibZ env vk.cmT π.cmW π.cmR π.cmT1 π.cmH1 π.cmH2)
    (ha : a ≠ 0) :
    GuessesConfirmed pp.powersOfG τ vk.n π.cmW a π.y w := by
  obtain ⟨hp, kvk, hkvk, hvk⟩ := setup_inv hs
  unfold fibIndex at hidx
  obtain ⟨_, -, hidx⟩ := bind_ok hidx
  obtain ⟨cmT, -, hidx⟩ := bind_ok hidx
  obtain ⟨kvk', -, hidx⟩ := bind_ok hidx
  obtain ⟨rfl, rfl⟩ := Prod.mk.inj (Except.ok.inj hidx)
  unfold fibProve at hok
  obtain ⟨wv, hu, hok⟩ := bind_ok hok
  obtain ⟨cmW, hcU, hok⟩ := bind_ok hok
  obtain ⟨rv, -, hok⟩ := bind_ok hok
  obtain ⟨cmR, -, hok⟩ := bind_ok hok
  obtain ⟨cmT1, -, hok⟩ := bind_ok hok
  obtain ⟨d, -, hok⟩ := bind_ok hok
  obtain ⟨_, -, hok⟩ := bind_ok hok
  obtain ⟨cmH1, -, hok⟩ := bind_ok hok
  obtain ⟨cmH2, -, hok⟩ := bind_ok hok
  obtain ⟨oz, hoz, hok⟩ := bind_ok hok
  obtain ⟨evals, -, hok⟩ := bind_ok hok
  obtain ⟨_, -, hok⟩ := bind_ok hok
  obtain ⟨k, -, hok⟩ := bind_ok hok
  obtain ⟨gv, -, hok⟩ := bind_ok hok
  obtain ⟨cmG', -, hok⟩ := bind_ok hok
  obtain ⟨_, -, hok⟩ := bind_ok hok
  obtain ⟨_, -, hok⟩ := bind_ok hok
  obtain ⟨_, -, hok⟩ := bind_ok hok
  obtain ⟨⟨capW, capW1⟩, -, hok⟩ := bind_ok hok
  obtain rfl := Except.ok.inj hok
  have hoz' := (divR_inv hoz).2
  simp only at hadef hoz' ⊢
  rw [← hadef] at hoz'
  subst hoz'
  rw [hp] at hcU ⊢
  unfold fibW at hu
  have lu := zeroPadAndConcat_inv (m := cs.n) (by push_cast; rfl) hu
  have hy := evalVec_eq wv (cs.n + 1) lu oz
  push_cast at hy
  rw [hy]
  exact guess_confirmed τ g hg D _ _ _ wv cmW oz ha (by simpa [sampleVec] using hu) hcU

theorem rcCounts_count (cs : RangeCheck) (w r : List F) (hw : w.length = cs.lookupSize) :
    rcCounts cs (w ++ r) (rcTable cs.range)
      = (List.range cs.range).map (fun (i : ℕ) => ((w.count (i : F) : ℕ) : F)) := by
  unfold rcCounts
  refine List.map_congr_left (fun i hi => ?_)
  have ht : (rcTable cs.range : List F).getD i 0 = (i : F) := by
    rw [List.getD_eq_getElem _ _ (by simpa [rcTable] using hi)]
    simp [rcTable]
  rw [ht, ← hw]
  have key : ∀ (w r : List F) (acc : F), (List.range w.length).foldl
      (fun acc j => if (w ++ r).getD j 0 = (i : F) then acc + 1 else acc) acc
      = acc + ((w.count (i : F) : ℕ) : F) := by
    intro w r
    induction w with
    | nil => intro acc; simp
    | cons b w ih =>
      intro acc
      rw [List.length_cons, List.range_succ_eq_map, List.foldl_cons, List.foldl_map]
      simp only [List.cons_append, List.getD_cons_zero, List.getD_cons_succ]
      rw [ih, List.count_cons]
      by_cases hb : b = (i : F)
      · simp [hb]; ring
      · simp [hb]
  rw [key]; simp

/-- **C84 (range check).** From a proof alone everybody can confirm a guess of how often each value of the
range occurs in the witness. -/
theorem C84_range_check (env : Env F G1 G2 GT) (τ : F) (g : G1) (hg : g ≠ 0) (h : G2) (D : ℕ)
    (pp : UniversalParams G1 G2) (hs : kzgSetup D τ g h = .ok pp) (cs : RangeCheck)
    (pk : RcPK F G1 G2) (vk : RcVK G1 G2) (hidx : rcIndex pp cs = .ok (pk, vk))
    (w : List F) (hwl : w.length = cs.lookupSize) (π : RcProof F G1)
    (hok : rcProve env pk w = .ok π) (a : F)
    (hadef : a = rcOmega env vk.cmT π.cmW π.cmM π.cmR π.cmS π.cmRt π.cmT1
      / rcZ env vk.cmT π.cmW π.cmM π.cmR π.cmS π.cmRt π.cmT1 π.cmH1 π.cmH2)
    (ha : a ≠ 0) :
    GuessesConfirmed pp.powersOfG τ vk.size.n π.cmM a π.y2
      ((List.range cs.range).map (fun (i : ℕ) => ((w.count (i : F) : ℕ) : F))) := by
  obtain ⟨hp, kvk, hkvk, hvk⟩ := setup_inv hs
  unfold rcIndex at hidx
  obtain ⟨_, -, hidx⟩ := bind_ok hidx
  obtain ⟨cmT, -, hidx⟩ := bind_ok hidx
  obtain ⟨kvk', -, hidx⟩ := bind_ok hidx
  obtain ⟨rfl, rfl⟩ := Prod.mk.inj (Except.ok.inj hidx)
  unfold rcProve at hok
  obtain ⟨wv, hw, hok⟩ := bind_ok hok
  obtain ⟨cmW, -, hok⟩ := bind_ok hok
  obtain ⟨mv, hu, hok⟩ := bind_ok hok
  obtain ⟨cmM, hcU, hok⟩ := bind_ok hok
  obtain ⟨rv, -, hok⟩ := bind_ok hok
  obtain ⟨cmR, -, hok⟩ := bind_ok hok
  obtain ⟨sv, -, hok⟩ := bind_ok hok
  obtain ⟨cmS, -, hok⟩ := bind_ok hok
  obtain ⟨cmRt, -, hok⟩ := bind_ok hok
  obtain ⟨cmT1, -, hok⟩ := bind_ok hok
  obtain ⟨d, -, hok⟩ := bind_ok hok
  obtain ⟨_, -, hok⟩ := bind_ok hok
  obtain ⟨cmH1, -, hok⟩ := bind_ok hok
  obtain ⟨cmH2, -, hok⟩ := bind_ok hok
  obtain ⟨oz, hoz, hok⟩ := bind_ok hok
  obtain ⟨evals, -, hok⟩ := bind_ok hok
  obtain ⟨_, -, hok⟩ := bind_ok hok
  obtain ⟨k, -, hok⟩ := bind_ok hok
  obtain ⟨gv, -, hok⟩ := bind_ok hok
  obtain ⟨cmG', -, hok⟩ := bind_ok hok
  obtain ⟨_, -, hok⟩ := bind_ok hok
  obtain ⟨_, -, hok⟩ := bind_ok hok
  obtain ⟨_, -, hok⟩ := bind_ok hok
  obtain ⟨⟨capW, capW1⟩, -, hok⟩ := bind_ok hok
  obtain rfl := Except.ok.inj hok
  have hoz' := (divR_inv hoz).2
  simp only at hadef hoz' ⊢
  rw [← hadef] at hoz'
  subst hoz'
  rw [hp] at hcU ⊢
  unfold rcM at hu
  have lu := zeroPadAndConcat_inv (m := cs.n) (by push_cast; rfl) hu
  have hy := evalVec_eq mv (cs.n + 1) lu oz
  push_cast at hy
  rw [hy]
  have hwv := (zeroPadAndConcat_eq (m := cs.n) (by push_cast; rfl) hw).2
  rw [padTo, List.append_assoc] at hwv
  rw [← rcCounts_count cs w _ hwl, ← hwv]
  exact guess_confirmed τ g hg D _ _ _ mv cmM oz ha (by simpa [sampleVec] using hu) hcU

/-! The hypotheses hold, and the test tells the witness from other guesses, on concrete runs. -/

/-- The test on the proof of a concrete POV run, for a guess of the witness. -/
def povGuess97 (u : List K97) : Res Bool := do
  let cs : POV K97 := ⟨[5], [(0, 4), (3, 8)], 1, 1⟩
  let x : POVInstance K97 := ⟨[6], [10]⟩
  let pp ← kzgSetup 30 (33 : K97) (1 : K97) (1 : K97)
  let (pk, vk) ← povIndex env97.gamma pp cs
  let π ← povProve env97 pk x ⟨[2, 1, 0], [5, 2, 0], [10, 3, 5]⟩
  let pre : List (Item K97 K97) := povPrefix 1 x vk.cmSigma vk.cmD
  let a := env97.hash (pre ++ [.cm π.cmW, .cm π.cmR, .cm π.cmT1])
      / env97.hash (pre ++ [.cm π.cmW, .cm π.cmR, .cm π.cmT1, .cm π.cmH1, .cm π.cmH2])
  assertR (a ≠ 0)
  return confirmsGuess pp.powersOfG (3 * vk.size.n) π.cmW a π.y u

example : povGuess97 [2, 1, 0, 5, 2, 0, 10, 3, 5] = .ok true := by decide +kernel
example : povGuess97 [5, 1, 0, 2, 2, 0, 10, 3, 5] = .ok false := by decide +kernel
example : povGuess97 [2, 1, 0, 5, 2, 0, 10, 3, 6] = .ok false := by decide +kernel

/-- The test on the proof of a concrete Fibonacci run. -/
def fibGuess97 (u : List K97) : Res Bool := do
  let pp ← kzgSetup 30 (33 : K97) (1 : K97) (1 : K97)
  let (pk, vk) ← fibIndex (G1 := K97) (G2 := K97) pp (Fibonacci.mk 3 [1, 2, 3])
  let π ← fibProve env97 pk ⟨4, 5, 78⟩ [9, 23, 78]
  let a := fibOmega env97 vk.cmT π.cmW π.cmR π.cmT1
    / fibZ env97 vk.cmT π.cmW π.cmR π.cmT1 π.cmH1 π.cmH2
  assertR (a ≠ 0)
  return confirmsGuess pp.powersOfG vk.n π.cmW a π.y u

example : fibGuess97 [9, 23, 78] = .ok true := by decide +kernel
example : fibGuess97 [9, 24, 78] = .ok false := by decide +kernel

/-- The test on the proof of a concrete HPR run. -/
def hprGuess97 (u : List K97) : Res Bool := do
  let pp ← kzgSetup 40 (33 : K97) (1 : K97) (1 : K97)
  let (pk, vk) ← hprIndex (G1 := K97) (G2 := K97) env97.gamma pp
    ⟨⟨[0], [0], [2]⟩, ⟨[0], [0], [3]⟩, ⟨[0], [0], [1]⟩, [0], [5], 1, 1, 1⟩
  let π ← hprProve env97 pk [48] ([4], [5], [20])
  let pre : List (Item K97 K97) := r1csPrefix 1 [48] vk.cmU vk.cmW vk.cmV vk.cmY
  let a := env97.hash (pre ++ [.cm π.cmW1, .cm π.cmS, .cm π.cmH, .cm π.cmR, .cm π.cmT])
    / env97.hash (pre ++ [.cm π.cmW1, .cm π.cmS, .cm π.cmH, .cm π.cmR, .cm π.cmT, .cm π.cmH2,
      .cm π.cmH3])
  assertR (a ≠ 0)
  return confirmsGuess pp.powersOfG (3 * vk.size.ncols + vk.size.total + 1) π.cmW1 a π.y1 u

example : hprGuess97 [4, 5, 20] = .ok true := by decide +kernel
example : hprGuess97 [5, 4, 20] = .ok false := by decide +kernel

/-- The test on the proof of a concrete R1CS run: `w1² = w2`, `w1 w2 = x`. -/
def r1csGuess97 (u : List K97) : Res Bool := do
  let pp ← kzgSetup 30 (33 : K97) (1 : K97) (1 : K97)
  let (pk, vk) ← r1csIndex (G1 := K97) (G2 := K97) env97.gamma pp
    ⟨⟨[0, 1], [2, 2], [1, 1]⟩, ⟨[0, 1], [2, 3], [1, 1]⟩, ⟨[0, 1], [3, 1], [1, 1]⟩, 2, 4, 1⟩
  let π ← r1csProve env97 pk [27] [3, 9]
  let pre : List (Item K97 K97) := r1csPrefix 1 [27] vk.cmU vk.cmW vk.cmV vk.cmY
  let a := env97.hash (pre ++ [.cm π.cmU1, .cm π.cmS, .cm π.cmH, .cm π.cmR, .cm π.cmT])
    / env97.hash (pre ++ [.cm π.cmU1, .cm π.cmS, .cm π.cmH, .cm π.cmR, .cm π.cmT, .cm π.cmH2,
      .cm π.cmH3])
  assertR (a ≠ 0)
  return confirmsGuess pp.powersOfG (vk.size.ncols + vk.size.total) π.cmU1 a π.y1 u

example : r1csGuess97 [3, 3, 3, 9, 9, 27, 1, 27, 3, 9] = .ok true := by decide +kernel
example : r1csGuess97 [3, 3, 3, 9, 9, 27, 1, 27, 3, 10] = .ok false := by decide +kernel

end VO
