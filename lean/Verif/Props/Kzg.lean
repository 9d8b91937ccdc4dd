import Mathlib.Tactic.NormNum
import Mathlib.Tactic.FieldSimp
import Verif.Lemmas.Kzg
import Verif.Lemmas.KzgExample

/-
Property theorems C17-C23, C47, C50: the KZG polynomial commitment scheme
(`/repo/voproof/src/kzg/mod.rs`, `/repo/voproof/src/kzg/data_structures.rs`,
`/repo/voproof/src/snarks/mod.rs:36-57`).
-/

set_option linter.unusedSectionVars false

namespace VO
open Spec

variable {F G1 G2 GT : Type} [Field F] [DecidableEq F]
  [AddCommGroup G1] [Module F G1] [AddCommGroup G2] [Module F G2]
  [AddCommGroup GT] [Module F GT] [DecidableEq GT]

/-! ## C17 -/

/-- **C17.** `setup(D)` fails exactly for `D = 0`; otherwise it returns `D + 1` powers, the `i`-th
being `β^i g`, with `h` and `βh` (also in prepared form), and `max_degree` is `D`. -/
theorem C17_setup (D : ℕ) (β : F) (g : G1) (h : G2) :
    (D = 0 → kzgSetup D β g h = .error .degreeIsZero) ∧
    (D ≠ 0 → ∃ pp : UniversalParams G1 G2, kzgSetup D β g h = .ok pp ∧
      pp.powersOfG = srs β g D ∧ pp.h = h ∧ pp.betaH = β • h ∧ pp.preparedH = h ∧
      pp.preparedBetaH = β • h ∧ pp.maxDegree = .ok D) := by
  have hgo : ∀ n (c : F), powersGo β n c = (List.range n).map (fun i => c * β ^ i) := by
    intro n
    induction n with
    | zero => intro c; rfl
    | succ n ih =>
      intro c
      rw [powersGo, ih, List.range_succ_eq_map, List.map_cons, List.map_map]
      congr 1
      · simp
      · apply List.map_congr_left; intro i _; simp only [Function.comp, Nat.succ_eq_add_one]; ring
  have hp : ((1 : F) :: powersGo β D β).map (fun b => b • g) = srs β g D := by
    rw [srs, List.range_succ_eq_map, List.map_cons, List.map_cons, List.map_map, hgo, List.map_map]
    congr 1
    · simp
    · apply List.map_congr_left; intro i _
      simp only [Function.comp, Nat.succ_eq_add_one, pow_succ', ]
  constructor
  · rintro rfl; rfl
  · intro hD
    refine ⟨_, if_neg (by omega), hp, rfl, rfl, rfl, rfl, ?_⟩
    unfold UniversalParams.maxDegree
    simp only [hp]
    rw [if_neg, length_srs]
    · rfl
    · intro hc; have := congrArg List.length hc; rw [length_srs] at this; simp at this

/-- **C17.** The verifier key derived from a successful setup is honest. -/
theorem C17_setup_vk (D : ℕ) (β : F) (g : G1) (h : G2) (pp : UniversalParams G1 G2)
    (hs : kzgSetup D β g h = .ok pp) : ∃ vk, vkOf pp = .ok vk ∧ HonestVk β g h vk := by
  by_cases hD : D = 0
  · rw [(C17_setup D β g h).1 hD] at hs; cases hs
  · obtain ⟨pp', h1, h2, h3, h4, h5, h6, -⟩ := (C17_setup D β g h).2 hD
    rw [hs] at h1
    obtain rfl := Except.ok.inj h1
    refine ⟨⟨g, pp.h, pp.betaH, pp.preparedH, pp.preparedBetaH⟩, ?_, rfl, h3, h4, h5, h6⟩
    simp only [vkOf, h2, srs, List.range_succ_eq_map, List.map_cons, pow_zero, one_smul]

example : kzgSetup 2 (3 : ℚ) (5 : ℚ) (7 : ℚ) = .ok ⟨[5, 15, 45], 7, 21, 7, 21⟩ := by decide +kernel

/-! ## C18 -/

/-- **C18.** Committing to a polynomial succeeds exactly when it fits in the key, with value
`f(β) g`. -/
theorem C18_commit (β : F) (g : G1) (D : ℕ) (v : List F) :
    ((polyOf v).natDegree ≤ D →
      kzgCommit (srs β g D) (polyFromVec v) = .ok ((polyOf v).eval β • g)) ∧
    (D < (polyOf v).natDegree →
      kzgCommit (srs β g D) (polyFromVec v)
        = .error (.tooManyCoefficients ((polyOf v).natDegree + 1) (D + 1))) := by
  constructor
  · intro h
    rw [kzgCommit_ok β g D _ (by rwa [polyDegree_polyFromVec]), polyOf_polyFromVec]
  · intro h
    unfold kzgCommit
    rw [polyDegree_polyFromVec, length_srs, checkDegree_err (by omega)]
    rfl

/-- **C18.** The same for committing to a coefficient vector: the vector may end in zeros, must not be
empty, and must fit with its zeros. -/
theorem C18_commit_coefficients (β : F) (g : G1) (D : ℕ) (v : List F) :
    (v ≠ [] → v.length ≤ D + 1 →
      commitWithCoefficients (srs β g D) v = .ok ((polyOf v).eval β • g)) ∧
    (D + 1 < v.length → commitWithCoefficients (srs β g D) v
        = .error (.tooManyCoefficients v.length (D + 1))) ∧
    (v = [] → commitWithCoefficients (srs β g D) v = .error .panic) := by
  refine ⟨fun h1 h2 => commitWithCoefficients_ok β g D v h1 h2, ?_, ?_⟩
  · intro h
    unfold commitWithCoefficients
    rw [if_neg (by rintro rfl; simp at h), length_srs, checkDegree_err (by omega)]
    simp only [bind, Except.bind]
    rw [show v.length - 1 + 1 = v.length by omega]
  · rintro rfl; rfl

/-- **C18.** Commitments are additive and homogeneous: adding `c` times the commitment of `q` to that
of `p` (`AddAssign<(F, &Commitment)>`) is the commitment of `p + c q`. -/
theorem C18_homomorphic (β : F) (g : G1) (D : ℕ) (p q : List F) (c : F)
    (hp : (polyOf p).natDegree ≤ D) (hq : (polyOf q).natDegree ≤ D) :
    ∃ cp cq, kzgCommit (srs β g D) (polyFromVec p) = .ok cp ∧
      kzgCommit (srs β g D) (polyFromVec q) = .ok cq ∧
      kzgCommit (srs β g D) (polyAdd p (polyScale q c)) = .ok (commitmentAddAssign cp c cq) := by
  refine ⟨_, _, (C18_commit β g D p).1 hp, (C18_commit β g D q).1 hq, ?_⟩
  have hd : polyDegree (polyAdd p (polyScale q c)) ≤ D := by
    rw [polyAdd, polyDegree_polyFromVec, polyOf_addLists, polyOf_polyScale]
    refine (Polynomial.natDegree_add_le _ _).trans (max_le hp ?_)
    refine (Polynomial.natDegree_mul_le).trans ?_
    simpa using hq
  rw [kzgCommit_ok β g D _ hd, polyOf_polyAdd, polyOf_polyScale, commitmentAddAssign]
  simp only [Polynomial.eval_add, Polynomial.eval_mul, Polynomial.eval_C]
  congr 1
  module

/-- **C18.** Skipping leading zeros does not change the commitment: committing to `0^k ‖ v` with the
full key is committing to `v` with the key from position `k` on. -/
theorem C18_leading_zeros (β : F) (g : G1) (D k : ℕ) (v : List F) (hv : v ≠ [])
    (hfit : k + v.length ≤ D + 1) :
    commitWithCoefficients (srs β g D) (List.replicate k 0 ++ v)
      = commitWithCoefficients ((srs β g D).drop k) v := by
  have hpos := List.length_pos_of_ne_nil hv
  rw [commitWithCoefficients_ok β g D _ (by simp [hv]) (by simpa using hfit),
    srs_drop _ _ _ _ (by omega), commitWithCoefficients_ok _ _ _ _ hv (by omega), polyOf_append]
  simp [smul_smul, mul_comm]

example : kzgCommit (srs (3 : ℚ) (5 : ℚ) 2) ([1, 2, 1] : List ℚ) = .ok 80 := by decide +kernel

/-! ## C19 -/

/-- **C19.** For a non-constant polynomial that fits, `open` at any point returns a proof which `check`
accepts for the honest commitment and the true value. -/
theorem C19_open_complete (e : G1 →ₗ[F] G2 →ₗ[F] GT) (β : F) (g : G1) (h : G2) (D : ℕ)
    (vk : VerifierKey G1 G2) (hvk : HonestVk β g h vk) (v : List F) (z : F)
    (h0 : (polyOf v).natDegree ≠ 0) (hD : (polyOf v).natDegree ≤ D) :
    ∃ c w, kzgCommit (srs β g D) (polyFromVec v) = .ok c ∧
      kzgOpen (srs β g D) (polyFromVec v) z = .ok w ∧
      kzgCheck e vk c z ((polyOf v).eval z) w = true := by
  obtain ⟨q, h1, -, h3, h4⟩ := computeWitness_spec (polyFromVec v) z
    (by rwa [polyDegree_polyFromVec])
  rw [polyOf_polyFromVec] at h4
  have hdeg : polyDegree (polyFromVec v) ≤ D := by rwa [polyDegree_polyFromVec]
  refine ⟨_, (polyOf q).eval β • g, (C18_commit β g D v).1 hD, ?_, ?_⟩
  · unfold kzgOpen
    rw [length_srs, checkDegree_ok (by omega), h1]
    simp only [bind, Except.bind, openWithWitness_eq]
    rw [kzgCommit_ok]
    unfold polyDegree at hdeg ⊢; omega
  · obtain ⟨e1, e2, e3, -, -⟩ := hvk
    have he := congrArg (Polynomial.eval β) h4
    simp only [Polynomial.eval_add, Polynomial.eval_mul, Polynomial.eval_sub, Polynomial.eval_X,
      Polynomial.eval_C] at he
    unfold kzgCheck
    rw [decide_eq_true_eq, e1, e2, e3, ← sub_smul, ← sub_smul, he]
    simp only [map_smul, LinearMap.smul_apply, smul_smul]
    congr 1; ring

/-- **C19.** The polynomial whose commitment `open` returns is the quotient of `f - f(z)` by `X - z`. -/
theorem C19_witness (v : List F) (z : F) (h0 : (polyOf v).natDegree ≠ 0) :
    ∃ q, computeWitness (polyFromVec v) z = .ok q ∧
      polyOf v - Polynomial.C ((polyOf v).eval z) = (Polynomial.X - Polynomial.C z) * polyOf q := by
  obtain ⟨q, h1, -, -, h4⟩ := computeWitness_spec (polyFromVec v) z
    (by rwa [polyDegree_polyFromVec])
  rw [polyOf_polyFromVec] at h4
  exact ⟨q, h1, by linear_combination h4⟩

/-- **C19, deviation.** For a constant polynomial (0 included) that fits, `open` aborts. -/
theorem C19_open_constant_aborts (β : F) (g : G1) (D : ℕ) (v : List F) (z : F)
    (h0 : (polyOf v).natDegree = 0) :
    kzgOpen (srs β g D) (polyFromVec v) z = .error .panic := by
  unfold kzgOpen
  rw [length_srs, polyDegree_polyFromVec, h0, checkDegree_ok (by omega), computeWitness,
    if_pos (by rw [polyDegree_polyFromVec, h0])]
  rfl

/-- An honest key over the rationals. -/
example : HonestVk (3 : ℚ) (5 : ℚ) (7 : ℚ) ⟨5, 7, 21, 7, 21⟩ := by
  refine ⟨rfl, rfl, ?_, rfl, ?_⟩ <;> norm_num

example : kzgOpen (srs (3 : ℚ) (5 : ℚ) 2) ([1, 2, 1] : List ℚ) 2 = .ok 35 ∧
    kzgCheck mulPairing (⟨5, 7, 21, 7, 21⟩ : VerifierKey ℚ ℚ) 80 (2 : ℚ) 9 35 = true := by
  refine ⟨by decide +kernel, ?_⟩
  simp [kzgCheck, mulPairing_apply]; norm_num

/-! ## C20 -/

/-- **C20.** With a non-degenerate pairing, `check` accepts exactly when
`commitment - value g = (β - point) proof`. -/
theorem C20_check_iff (e : G1 →ₗ[F] G2 →ₗ[F] GT) (β : F) (g : G1) (h : G2) (hnd : NonDegenerate e h)
    (vk : VerifierKey G1 G2) (hvk : HonestVk β g h vk) (c : G1) (z v : F) (w : G1) :
    kzgCheck e vk c z v w = true ↔ c - v • g = (β - z) • w := by
  obtain ⟨e1, e2, e3, -, -⟩ := hvk
  unfold kzgCheck
  rw [decide_eq_true_eq, e1, e2, e3, ← sub_smul, map_smul, ← LinearMap.smul_apply, ← map_smul]
  constructor
  · intro hh
    have : e (c - v • g - (β - z) • w) h = 0 := by
      rw [map_sub, LinearMap.sub_apply, hh, sub_self]
    exact sub_eq_zero.mp (hnd _ this)
  · intro hh; rw [hh]

/-- **C20.** For each commitment, point and proof at most one value is accepted. -/
theorem C20_value_unique (e : G1 →ₗ[F] G2 →ₗ[F] GT) (β : F) (g : G1) (h : G2)
    (hnd : NonDegenerate e h) (hg : g ≠ 0) (vk : VerifierKey G1 G2) (hvk : HonestVk β g h vk)
    (c : G1) (z v v' : F) (w : G1) (h1 : kzgCheck e vk c z v w = true)
    (h2 : kzgCheck e vk c z v' w = true) : v = v' := by
  rw [C20_check_iff e β g h hnd vk hvk] at h1 h2
  have h3 : (v - v') • g = 0 := by
    rw [sub_smul, sub_eq_zero]
    have := h1.trans h2.symm
    exact sub_right_injective this
  rcases smul_eq_zero.mp h3 with h | h
  · exact sub_eq_zero.mp h
  · exact absurd h hg

/-- **C20.** Opening a committed polynomial to a wrong value with a committed witness polynomial
succeeds for at most `max (deg f) (deg q + 1)` trapdoors. -/
theorem C20_binding (f q : Polynomial F) (z v : F) (hv : f.eval z ≠ v) :
    ∃ bad : Finset F, bad.card ≤ max f.natDegree (q.natDegree + 1) ∧
      ∀ (e : G1 →ₗ[F] G2 →ₗ[F] GT) (β : F), β ∉ bad → ∀ (g : G1), g ≠ 0 → ∀ (h : G2),
        NonDegenerate e h → ∀ vk : VerifierKey G1 G2, HonestVk β g h vk →
          kzgCheck e vk (f.eval β • g) z v (q.eval β • g) = false := by
  classical
  set P : Polynomial F := f - Polynomial.C v - (Polynomial.X - Polynomial.C z) * q with hP
  have hne : P ≠ 0 := by
    intro hc
    have := congrArg (Polynomial.eval z) hc
    simp only [hP, Polynomial.eval_sub, Polynomial.eval_mul, Polynomial.eval_X, Polynomial.eval_C,
      sub_self, zero_mul, sub_zero, Polynomial.eval_zero] at this
    exact hv (sub_eq_zero.mp this)
  refine ⟨P.roots.toFinset, ?_, ?_⟩
  · refine (Multiset.toFinset_card_le _).trans ((Polynomial.card_roots' P).trans ?_)
    refine (Polynomial.natDegree_sub_le _ _).trans (max_le_max ?_ ?_)
    · rw [Polynomial.natDegree_sub_C]
    · refine Polynomial.natDegree_mul_le.trans ?_
      rw [Polynomial.natDegree_X_sub_C]; omega
  · intro e β hβ g hg h hnd vk hvk
    by_contra hc
    rw [Bool.not_eq_false, C20_check_iff e β g h hnd vk hvk, ← sub_smul, smul_smul, ← sub_eq_zero,
      ← sub_smul] at hc
    rcases smul_eq_zero.mp hc with h1 | h1
    · apply hβ
      rw [Multiset.mem_toFinset, Polynomial.mem_roots hne, Polynomial.IsRoot, hP]
      simpa using h1
    · exact hg h1

example : NonDegenerate mulPairing (7 : ℚ) := by
  intro x hx; rw [mulPairing_apply] at hx; simpa using hx

/-! ## C21 -/

/-- **C21.** For any two families of non-constant polynomials that fit in the key, any points,
challenges and randomizer, `batch_open` succeeds and `batch_check` accepts the honest commitments
with the true values. -/
theorem C21_batch_complete (e : G1 →ₗ[F] G2 →ₗ[F] GT) (β : F) (g : G1) (h : G2) (D : ℕ)
    (vk : VerifierKey G1 G2) (hvk : HonestVk β g h vk) (fs gs : List (List F)) (z zz xi xi2 r : F)
    (hf : ∀ f ∈ fs ++ gs, (polyOf f).natDegree ≠ 0 ∧ (polyOf f).natDegree ≤ D) :
    ∃ w w2, batchOpen (srs β g D) (fs.map polyFromVec) (gs.map polyFromVec) z zz xi xi2 = .ok (w, w2) ∧
      batchCheck e vk (fs.map (fun f => (polyOf f).eval β • g)) (gs.map (fun f => (polyOf f).eval β • g))
        z zz xi xi2 (fs.map (fun f => (polyOf f).eval z)) (gs.map (fun f => (polyOf f).eval zz))
        w w2 r = true := by
  obtain ⟨q, q2, h1, h2, h3⟩ := batchOpen_ok β g D (fs.map polyFromVec) (gs.map polyFromVec)
    z zz xi xi2 (by
      intro f hm
      rw [← List.map_append] at hm
      obtain ⟨v, hv, rfl⟩ := List.mem_map.mp hm
      rw [polyDegree_polyFromVec]; exact hf v hv)
  refine ⟨_, _, h1, ?_⟩
  rw [batchCheck_eq e β g h vk hvk]
  have key : ∀ (fs : List (List F)) (z xi : F) (q : Polynomial F),
      (Polynomial.X - Polynomial.C z) * q = batchTarget z xi (fs.map polyFromVec) 1 →
      geomSum xi (((fs.map (fun f => (polyOf f).eval β • g)).zip
        (fs.map (fun f => (polyOf f).eval z))).map (fun p => p.1 - p.2 • g)) 1
        - (β - z) • q.eval β • g = 0 := by
    intro fs z xi q hq
    have hz : ((fs.map (fun f => (polyOf f).eval β • g)).zip
        (fs.map (fun f => (polyOf f).eval z))).map (fun p => p.1 - p.2 • g)
        = (fs.map (fun f => (polyOf f).eval β - (polyOf f).eval z)).map (fun a => a • g) := by
      rw [List.zip_map', List.map_map, List.map_map]
      apply List.map_congr_left
      intro f _
      simp only [Function.comp, sub_smul]
    have he := congrArg (Polynomial.eval β) hq
    rw [eval_batchTarget, List.map_map] at he
    simp only [Polynomial.eval_mul, Polynomial.eval_sub, Polynomial.eval_X, Polynomial.eval_C] at he
    rw [hz, geomSum_smul, smul_smul, he, ← sub_smul]
    simp only [Function.comp_def, polyOf_polyFromVec, sub_self, zero_smul]
  rw [key fs z xi q h2, key gs zz xi2 q2 h3]
  simp

/-- **C21, deviation.** If one of the polynomials is constant, `batch_open` aborts. -/
theorem C21_batch_constant_aborts (β : F) (g : G1) (D : ℕ) (fs gs : List (List F))
    (z zz xi xi2 : F) (hfit : ∀ f ∈ fs ++ gs, (polyOf f).natDegree ≤ D)
    (hc : ∃ f ∈ fs ++ gs, (polyOf f).natDegree = 0) :
    batchOpen (srs β g D) (fs.map polyFromVec) (gs.map polyFromVec) z zz xi xi2 = .error .panic := by
  apply batchOpen_panic
  · intro f hm
    rw [← List.map_append] at hm
    obtain ⟨v, hv, rfl⟩ := List.mem_map.mp hm
    rw [polyDegree_polyFromVec, length_srs]; have := hfit v hv; omega
  · obtain ⟨f, hm, h0⟩ := hc
    refine ⟨polyFromVec f, ?_, by rw [polyDegree_polyFromVec, h0]⟩
    rw [← List.map_append]
    exact List.mem_map.mpr ⟨f, hm, rfl⟩

example : ∀ f ∈ [[1, 2], [0, 0, (3 : ℚ)]] ++ [[4, 5, 6]],
    (polyOf f).natDegree ≠ 0 ∧ (polyOf f).natDegree ≤ 2 := by
  intro f hf
  rw [← polyDegree_polyFromVec]
  fin_cases hf <;> decide +kernel

/-! ## C22 -/

/-- **C22.** `batch_check` accepts exactly when the two combined openings, weighted by the randomizer,
cancel. -/
theorem C22_batch_iff (e : G1 →ₗ[F] G2 →ₗ[F] GT) (β : F) (g : G1) (h : G2) (hnd : NonDegenerate e h)
    (vk : VerifierKey G1 G2) (hvk : HonestVk β g h vk) (fcs gcs : List G1) (fvs gvs : List F)
    (hl : fcs.length = fvs.length) (hl2 : gcs.length = gvs.length)
    (z zz xi xi2 : F) (w w2 : G1) (r : F) :
    batchCheck e vk fcs gcs z zz xi xi2 fvs gvs w w2 r = true ↔
      (combine xi fcs - combine xi fvs • g - (β - z) • w)
        + r • (combine xi2 gcs - combine xi2 gvs • g - (β - zz) • w2) = 0 := by
  rw [batchCheck_eq e β g h vk hvk, ← geomSum_sub, ← geomSum_sub, List.map_fst_zip (by omega),
    List.map_snd_zip (by omega), List.map_fst_zip (by omega), List.map_snd_zip (by omega)]
  simp only [geomSum_eq_combine]
  constructor
  · exact hnd _
  · intro hh; rw [hh]; simp

/-- **C22.** If a batch is accepted for two different randomizers, both combined openings are accepted
by the plain `check`: a bad batch passes for at most one randomizer. -/
theorem C22_randomizer (e : G1 →ₗ[F] G2 →ₗ[F] GT) (β : F) (g : G1) (h : G2)
    (hnd : NonDegenerate e h) (vk : VerifierKey G1 G2) (hvk : HonestVk β g h vk)
    (fcs gcs : List G1) (fvs gvs : List F) (hl : fcs.length = fvs.length)
    (hl2 : gcs.length = gvs.length) (z zz xi xi2 : F) (w w2 : G1) (r r' : F) (hr : r ≠ r')
    (h1 : batchCheck e vk fcs gcs z zz xi xi2 fvs gvs w w2 r = true)
    (h2 : batchCheck e vk fcs gcs z zz xi xi2 fvs gvs w w2 r' = true) :
    kzgCheck e vk (combine xi fcs) z (combine xi fvs) w = true ∧
    kzgCheck e vk (combine xi2 gcs) zz (combine xi2 gvs) w2 = true := by
  rw [C22_batch_iff e β g h hnd vk hvk _ _ _ _ hl hl2] at h1 h2
  rw [C20_check_iff e β g h hnd vk hvk, C20_check_iff e β g h hnd vk hvk]
  set A := combine xi fcs - combine xi fvs • g - (β - z) • w
  set B := combine xi2 gcs - combine xi2 gvs • g - (β - zz) • w2
  have hB : B = 0 := by
    have : (r - r') • B = 0 := by
      have := h1.trans h2.symm
      rw [sub_smul, sub_eq_zero]; exact add_left_cancel this
    rcases smul_eq_zero.mp this with h | h
    · exact absurd (sub_eq_zero.mp h) hr
    · exact h
  have hA : A = 0 := by rw [hB, smul_zero, add_zero] at h1; exact h1
  exact ⟨sub_eq_zero.mp hA, sub_eq_zero.mp hB⟩

/-- **C22.** Soundness of the batch: if some claimed value is wrong (in either family), then except for
at most `m - 1` values of the family's combination challenge (`m` its number of claims), at most
`D + 1` trapdoors and one randomizer, `batch_check` rejects every pair of committed proofs. -/
theorem C22_batch_sound (fs : List (List F)) (fvs : List F) (hl : fs.length = fvs.length) (z : F)
    (D : ℕ) (hD : ∀ f ∈ fs, (polyOf f).natDegree ≤ D)
    (hwrong : ∃ i, i < fs.length ∧ (polyOf (fs.getD i [])).eval z ≠ fvs.getD i 0) :
    ∃ badXi : Finset F, badXi.card ≤ fs.length - 1 ∧ ∀ xi, xi ∉ badXi →
      ∀ q : Polynomial F, q.natDegree ≤ D → ∃ badBeta : Finset F, badBeta.card ≤ D + 1 ∧
        ∀ (e : G1 →ₗ[F] G2 →ₗ[F] GT) (β : F), β ∉ badBeta → ∀ (g : G1), g ≠ 0 → ∀ (h : G2),
          NonDegenerate e h → ∀ vk : VerifierKey G1 G2, HonestVk β g h vk →
            ∀ (cs : List G1) (vs : List F), cs.length = vs.length → ∀ (zz xi2 : F) (w2 : G1),
              (∃ r0, ∀ r, r ≠ r0 →
                batchCheck e vk (fs.map (fun f => (polyOf f).eval β • g)) cs z zz xi xi2 fvs vs
                  (q.eval β • g) w2 r = false) ∧
              (∃ r0, ∀ r, r ≠ r0 →
                batchCheck e vk cs (fs.map (fun f => (polyOf f).eval β • g)) zz z xi2 xi vs fvs
                  w2 (q.eval β • g) r = false) := by
  classical
  -- the combined claim error as a polynomial in the challenge
  set errs : List F := fs.zipWith (fun f v => (polyOf f).eval z - v) fvs with herrs
  have hle : errs.length = fs.length := by simp [herrs, hl]
  have hne : polyOf errs ≠ 0 := by
    intro hc
    obtain ⟨i, hi, hw⟩ := hwrong
    have := congrArg (fun p => Polynomial.coeff p i) hc
    simp only [coeff_polyOf, Polynomial.coeff_zero] at this
    rw [List.getD_eq_getElem _ _ (by omega)] at this
    simp only [herrs, List.getElem_zipWith] at this
    apply hw
    rw [List.getD_eq_getElem _ _ hi, List.getD_eq_getElem _ _ (by omega)]
    exact sub_eq_zero.mp this
  refine ⟨(polyOf errs).roots.toFinset, ?_, ?_⟩
  · refine (Multiset.toFinset_card_le _).trans ((Polynomial.card_roots' _).trans ?_)
    have := degree_polyOf_lt errs
    rw [hle] at this
    have := Polynomial.natDegree_lt_iff_degree_lt hne |>.mpr this
    omega
  · intro xi hxi q hq
    have hxi' : (polyOf errs).eval xi ≠ 0 := by
      intro hc; apply hxi
      rw [Multiset.mem_toFinset, Polynomial.mem_roots hne]; exact hc
    set f : Polynomial F := combine xi (fs.map polyOf) with hf
    set v : F := combine xi fvs with hv
    have hfev : ∀ x, f.eval x = combine xi (fs.map (fun f => (polyOf f).eval x)) := by
      intro x; rw [hf, eval_combine, List.map_map]; rfl
    have hfd : f.natDegree ≤ D := by
      rw [hf]
      apply natDegree_combine_le
      intro p hp
      obtain ⟨l, hl, rfl⟩ := List.mem_map.mp hp
      exact hD l hl
    have hvz : f.eval z ≠ v := by
      rw [hfev, hv]
      intro hc
      apply hxi'
      have : combine xi errs = combine xi (fs.map (fun f => (polyOf f).eval z)) - combine xi fvs := by
        rw [← combine_sub _ _ _ (by simpa using hl)]
        congr 1
        rw [herrs, List.zipWith_map_left]
      rw [← combine_eq_eval, this, hc, sub_self]
    obtain ⟨bad, hb, hbad⟩ := C20_binding (G1 := G1) (G2 := G2) (GT := GT) f q z v hvz
    refine ⟨bad, hb.trans (by omega), ?_⟩
    intro e β hβ g hg h hnd vk hvk cs vs hcs zz xi2 w2
    have hrej := hbad e β hβ g hg h hnd vk hvk
    have hcomm : combine xi (fs.map (fun f => (polyOf f).eval β • g)) = f.eval β • g := by
      rw [hfev, combine_smul, List.map_map]; rfl
    constructor
    · by_contra hc
      push Not at hc
      obtain ⟨r1, -, h1⟩ := hc 0
      obtain ⟨r2, h12, h2⟩ := hc r1
      rw [Bool.ne_false_iff] at h1 h2
      have hlen : (fs.map (fun f => (polyOf f).eval β • g)).length = fvs.length := by simpa using hl
      have := (C22_randomizer e β g h hnd vk hvk _ _ _ _ hlen hcs _ _ _ _ _ _ r2 r1 h12 h2 h1).1
      rw [hcomm, hrej] at this; cases this
    · by_contra hc
      push Not at hc
      obtain ⟨r1, -, h1⟩ := hc 0
      obtain ⟨r2, h12, h2⟩ := hc r1
      rw [Bool.ne_false_iff] at h1 h2
      have hlen : (fs.map (fun f => (polyOf f).eval β • g)).length = fvs.length := by simpa using hl
      have := (C22_randomizer e β g h hnd vk hvk _ _ _ _ hcs hlen _ _ _ _ _ _ r2 r1 h12 h2 h1).2
      rw [hcomm, hrej] at this; cases this

/-- **C22, deviation.** Whoever knows the (non-zero) randomizer can open any commitments to any values
at two different points: one pair of group elements, computed without the trapdoor, is accepted
under every honest key with generator `g`. -/
theorem C22_known_randomizer_forgery (g : G1) (fcs gcs : List G1) (fvs gvs : List F)
    (z zz xi xi2 r : F) (hz : z ≠ zz) (hr : r ≠ 0) :
    ∃ w w2 : G1, ∀ (e : G1 →ₗ[F] G2 →ₗ[F] GT) (β : F) (h : G2) (vk : VerifierKey G1 G2),
      HonestVk β g h vk → batchCheck e vk fcs gcs z zz xi xi2 fvs gvs w w2 r = true := by
  set A := geomSum xi ((fcs.zip fvs).map (fun p => p.1 - p.2 • g)) 1
  set B := geomSum xi2 ((gcs.zip gvs).map (fun p => p.1 - p.2 • g)) 1
  refine ⟨(zz - z)⁻¹ • (A + r • B), -((r * (zz - z))⁻¹ • (A + r • B)), ?_⟩
  intro e β h vk hvk
  rw [batchCheck_eq e β g h vk hvk]
  have hzz : zz - z ≠ 0 := sub_ne_zero.mpr (Ne.symm hz)
  have : (A - (β - z) • ((zz - z)⁻¹ • (A + r • B)))
      + r • (B - (β - zz) • (-((r * (zz - z))⁻¹ • (A + r • B)))) = 0 := by
    have e1 : (A - (β - z) • ((zz - z)⁻¹ • (A + r • B)))
      + r • (B - (β - zz) • (-((r * (zz - z))⁻¹ • (A + r • B))))
      = (1 - (β - z) * (zz - z)⁻¹ + r * (β - zz) * (r * (zz - z))⁻¹) • (A + r • B) := by module
    have e2 : (1 - (β - z) * (zz - z)⁻¹ + r * (β - zz) * (r * (zz - z))⁻¹) = 0 := by
      field_simp; ring
    rw [e1, e2, zero_smul]
  rw [this]; simp

/-! ## C23 -/

/-- **C23.** `vector_to_commitment` commits to the polynomial of the vector, shifted by
`degree - |v|` when `degree ≥ |v|`, whenever it fits; otherwise it fails: with the "too many
coefficients" error when the shift itself is still inside the key, with an abort beyond it; it
aborts on the empty vector. -/
theorem C23_vector_commitment (β : F) (g : G1) (D : ℕ) (v : List F) (d : ℕ) (hv : v ≠ []) :
    (v.length ≤ d → d ≤ D + 1 →
      vectorToCommitment (srs β g D) v d
        = .ok ((Polynomial.X ^ (d - v.length) * polyOf v).eval β • g)) ∧
    (d < v.length → v.length ≤ D + 1 →
      vectorToCommitment (srs β g D) v d = .ok ((polyOf v).eval β • g)) ∧
    (D + 1 < max d v.length → d - v.length ≤ D + 1 → ∃ n,
      vectorToCommitment (srs β g D) v d = .error (.tooManyCoefficients v.length n)) ∧
    (D + 1 < d - v.length → vectorToCommitment (srs β g D) v d = .error .panic) := by
  have hpos := List.length_pos_of_ne_nil hv
  refine ⟨?_, ?_, ?_, ?_⟩
  · intro h1 h2
    unfold vectorToCommitment
    rw [if_neg (by omega), sliceFrom_ok (by rw [length_srs]; omega)]
    simp only [bind, Except.bind]
    rw [srs_drop _ _ _ _ (by omega), commitWithCoefficients_ok _ _ _ _ hv (by omega), smul_smul]
    simp [mul_comm]
  · intro h1 h2
    unfold vectorToCommitment
    rw [if_pos h1, sliceFrom_ok (by omega)]
    simp only [bind, Except.bind, List.drop_zero]
    exact commitWithCoefficients_ok _ _ _ _ hv h2
  · intro h1 h2
    unfold vectorToCommitment
    rw [sliceFrom_ok (by rw [length_srs]; split_ifs <;> omega)]
    simp only [bind, Except.bind]
    refine ⟨((srs β g D).drop (if d < v.length then 0 else d - v.length)).length, ?_⟩
    unfold commitWithCoefficients
    rw [if_neg hv, checkDegree_err]
    · simp only [bind, Except.bind]
      rw [show v.length - 1 + 1 = v.length by omega]
    · rw [List.length_drop, length_srs]
      split_ifs <;> omega
  · intro h1
    unfold vectorToCommitment
    rw [if_neg (by omega), sliceFrom, length_srs, if_pos h1]
    rfl

/-- **C23.** The empty vector always aborts. -/
theorem C23_empty_aborts (β : F) (g : G1) (D d : ℕ) :
    vectorToCommitment (srs β g D) ([] : List F) d = .error .panic := by
  unfold vectorToCommitment sliceFrom
  split_ifs <;> rfl

example : vectorToCommitment (srs (2 : ℚ) (1 : ℚ) 4) ([3, 1] : List ℚ) 4 = .ok 20 := by
  decide +kernel

/-! ## C47 -/

/-- **C47.** `prepare` returns the table of `2^i C` for every bit `i`. -/
theorem C47_prepared (bits : ℕ) (c : G1) :
    prepareTable bits c = (List.range bits).map (fun i => 2 ^ i • c) := by
  induction bits generalizing c with
  | zero => rfl
  | succ n ih =>
    rw [prepareTable, ih, List.range_succ_eq_map, List.map_cons, List.map_map]
    congr 1
    · simp
    · apply List.map_congr_left
      intro i _
      simp only [Function.comp, Nat.succ_eq_add_one, pow_succ, mul_smul, two_smul]

/-- **C47.** The prepared verifier key holds that table for `g` and the prepared points unchanged. -/
theorem C47_prepared_vk (bits : ℕ) (vk : VerifierKey G1 G2) :
    (prepareVk bits vk).preparedG = (List.range bits).map (fun i => 2 ^ i • vk.g) ∧
    (prepareVk bits vk).preparedH = vk.preparedH ∧
    (prepareVk bits vk).preparedBetaH = vk.preparedBetaH :=
  ⟨C47_prepared bits vk.g, rfl, rfl⟩

/-- **C47.** The table suffices to multiply by any scalar of that many bits: summing the entries at
the set bits gives the product. -/
theorem C47_table_mul (bits n : ℕ) (hn : n < 2 ^ bits) (c : G1) :
    (((prepareTable bits c).zipIdx.filter (fun p => n.testBit p.2)).map Prod.fst).sum = n • c := by
  suffices h : ∀ (bits n s : ℕ) (c : G1), n < 2 ^ bits →
      ((((prepareTable bits c).zipIdx s).filter (fun p => n.testBit (p.2 - s))).map Prod.fst).sum
        = n • c by
    simpa using h bits n 0 c hn
  intro bits
  induction bits with
  | zero => intro n s c h; simp at h; subst h; simp [prepareTable]
  | succ b ih =>
    intro n s c h
    rw [prepareTable, List.zipIdx_cons, List.filter_cons]
    have h2 : n / 2 < 2 ^ b := by rw [pow_succ] at h; omega
    have hrec := ih (n / 2) (s + 1) (c + c) h2
    have hfil : ((prepareTable b (c + c)).zipIdx (s + 1)).filter (fun p => n.testBit (p.2 - s))
        = ((prepareTable b (c + c)).zipIdx (s + 1)).filter
            (fun p => (n / 2).testBit (p.2 - (s + 1))) := by
      apply List.filter_congr
      intro p hp
      have hge : s + 1 ≤ p.2 := List.le_snd_of_mem_zipIdx hp
      rw [← Nat.testBit_succ]
      congr 1
      omega
    rw [hfil]
    have hc : n • c = (n % 2) • c + (n / 2) • (c + c) := by
      rw [← two_smul ℕ c, smul_smul, ← add_smul]
      congr 1; omega
    simp only [Nat.sub_self, Nat.testBit_zero]
    rcases Nat.mod_two_eq_zero_or_one n with h0 | h1
    · rw [if_neg (by simp [h0]), hrec, hc, h0]; simp
    · rw [if_pos (by simp [h1]), List.map_cons, List.sum_cons, hrec, hc, h1]; simp

example : prepareTable 4 (3 : ℚ) = [3, 6, 12, 24] := by decide +kernel

/-! ## C50 -/

/-- **C50.** On a sorted slice the binary search finds exactly the elements of the slice. -/
theorem C50_binary_search (l : List ℕ) (hl : l.Pairwise (· ≤ ·)) (x : ℕ) :
    binarySearchFound l x = true ↔ x ∈ l := by
  have hmono : ∀ i j, i ≤ j → j < l.length → l.getD i 0 ≤ l.getD j 0 := by
    intro i j hij hj
    rw [List.getD_eq_getElem _ _ (by omega), List.getD_eq_getElem _ _ hj]
    rcases hij.lt_or_eq with h | rfl
    · exact List.pairwise_iff_getElem.mp hl i j (by omega) hj h
    · exact le_refl _
  have key : ∀ size left, left + size ≤ l.length →
      (binarySearchGo l x left size = true ↔
        ∃ i, left ≤ i ∧ i < left + size ∧ l.getD i 0 = x) := by
    intro size
    induction size using Nat.strong_induction_on with
    | _ size ih =>
      intro left hb
      rw [binarySearchGo]
      by_cases h0 : size = 0
      · subst h0; simp; omega
      · simp only [h0, dite_false]
        split_ifs with h1 h2
        · rw [ih _ (by omega) _ (by omega)]
          constructor
          · rintro ⟨i, hi, hi2, e⟩; exact ⟨i, by omega, by omega, e⟩
          · rintro ⟨i, hi, hi2, e⟩
            refine ⟨i, ?_, by omega, e⟩
            by_contra hlt
            have := hmono i (left + size / 2) (by omega) (by omega)
            omega
        · rw [ih _ (by omega) _ (by omega)]
          constructor
          · rintro ⟨i, hi, hi2, e⟩; exact ⟨i, by omega, by omega, e⟩
          · rintro ⟨i, hi, hi2, e⟩
            refine ⟨i, by omega, ?_, e⟩
            by_contra hlt
            have := hmono (left + size / 2) i (by omega) (by omega)
            omega
        · simp only [true_iff]
          exact ⟨left + size / 2, by omega, by omega, by omega⟩
  rw [binarySearchFound, key _ 0 (by omega), List.mem_iff_getElem]
  constructor
  · rintro ⟨i, -, hi, e⟩
    have hi' : i < l.length := by omega
    exact ⟨i, hi', by rw [← List.getD_eq_getElem _ 0 hi', e]⟩
  · rintro ⟨i, hi, e⟩
    exact ⟨i, by omega, by omega, by rw [List.getD_eq_getElem _ 0 hi, e]⟩

example : binarySearchFound [3, 5, 8] 5 = true ∧ binarySearchFound [3, 5, 8] 4 = false := by
  decide +kernel

/-- **C50.** `check_degrees_and_bounds` accepts exactly the polynomials without a degree bound, and
those whose bound is one of the enforced ones (given in a sorted slice), at least the degree and at
most the maximum. -/
theorem C50_bounds (supported maxDegree : ℕ) (enforced : Option (List ℕ))
    (hs : ∀ l, enforced = some l → l.Pairwise (· ≤ ·)) (deg : ℕ) (bound : Option ℕ) :
    checkDegreesAndBounds supported maxDegree enforced deg bound = .ok () ↔
      ∀ b, bound = some b → (∃ l, enforced = some l ∧ b ∈ l) ∧ deg ≤ b ∧ b ≤ maxDegree := by
  unfold checkDegreesAndBounds
  cases bound with
  | none => simp
  | some b =>
    cases enforced with
    | none => simp
    | some l =>
      simp only [C50_binary_search l (hs l rfl), Option.some.injEq, forall_eq', exists_eq_left']
      by_cases hm : b ∈ l
      · simp only [hm, not_true_eq_false, if_false, true_and]
        by_cases hb : b < deg ∨ b > maxDegree
        · simp only [hb, if_true]
          constructor
          · intro h; cases h
          · intro h; omega
        · simp only [hb, if_false, true_iff]; omega
      · simp [hm]

/-- **C50.** Every rejection is an error value naming the bound, never a panic. -/
theorem C50_no_panic (supported maxDegree : ℕ) (enforced : Option (List ℕ)) (deg : ℕ)
    (bound : Option ℕ) :
    checkDegreesAndBounds supported maxDegree enforced deg bound ≠ .error .panic := by
  unfold checkDegreesAndBounds
  cases bound with
  | none => simp
  | some b =>
    cases enforced with
    | none => simp
    | some l => simp only; split_ifs <;> simp

example : checkDegreesAndBounds 10 10 (some [3, 5, 8]) 4 (some 5) = .ok () := by decide +kernel

end VO
