import Verif.Lemmas.PoseidonSim2
import Verif.Lemmas.PlonkGadget3

/-
The circuit of `/repo/plonk-hashing/src/poseidon/zprize_constraints.rs`.
-/

set_option linter.unusedSectionVars false

namespace VO.Poseidon

open VO.Plonk VO.Spec.Plonk VO.Spec.Poseidon Matrix

variable {F : Type} [Field F] [DecidableEq F] {R : FieldRep F} {E : EdCurve F}

theorem divC_ok {x y z : F} {c c' : Composer F} (h : divC x y c = .ok (z, c')) : y ≠ 0 ∧ c' = c := by
  unfold divC at h
  split at h
  · exact (panicC_ok.1 h).elim
  · next hq => exact ⟨hq, (pureC_ok.1 h).2.symm⟩

theorem divC_run {x y : F} (h : y ≠ 0) (c : Composer F) : divC x y c = .ok (x / y, c) := by
  unfold divC
  rw [if_neg h]
  rfl

theorem fullAffine_same {c c' d : Composer F} {x0 x1 x2 x : Var} {q0 q1 q2 q3 q4 : F}
    (h : fullAffineTransformGate x0 x1 x2 q0 q1 q2 q3 q4 c = .ok (x, c')) (hs : Same c d) :
    ∃ d', fullAffineTransformGate x0 x1 x2 q0 q1 q2 q3 q4 d = .ok (x, d') ∧ Same c' d' := by
  unfold fullAffineTransformGate at h ⊢
  obtain ⟨s0, c1, h1, g1⟩ := bindC_ok.1 h
  obtain ⟨hs0, rfl⟩ := valueOfVar_ok.1 h1
  obtain ⟨s1, c2, h2, g2⟩ := bindC_ok.1 g1
  obtain ⟨hs1, rfl⟩ := valueOfVar_ok.1 h2
  obtain ⟨s2, c3, h3, g3⟩ := bindC_ok.1 g2
  obtain ⟨hs2, rfl⟩ := valueOfVar_ok.1 h3
  obtain ⟨w, c4, h4, g4⟩ := bindC_ok.1 g3
  obtain ⟨hq, rfl⟩ := divC_ok h4
  obtain ⟨y, c5, h5, g5⟩ := bindC_ok.1 g4
  obtain ⟨u, c6, h6, g6⟩ := bindC_ok.1 g5
  obtain ⟨rfl, rfl⟩ := pureC_ok.1 g6
  have lt : ∀ {x : Var} {s : F}, c4.variables[x]? = some s → x < d.variables.length := fun h => by
    rw [hs.2]; exact (List.getElem?_eq_some_iff.1 h).1
  obtain ⟨e3, he, hs3⟩ := addInput_same (s2 := (q0 * ownV d x0 ^ 5 + q1 * ownV d x1 ^ 5 + q2 * ownV d x2 ^ 5
    + q3) / (-q4)) h5 hs
  obtain ⟨e4, he4, hs4⟩ := pushGate_same h6 hs3
  exact ⟨e4, bindC_ok.2 ⟨_, _, valueOfVar_run (lt hs0), bindC_ok.2 ⟨_, _, valueOfVar_run (lt hs1),
    bindC_ok.2 ⟨_, _, valueOfVar_run (lt hs2), bindC_ok.2 ⟨_, _, divC_run hq _, bindC_ok.2 ⟨_, _, he,
      bindC_ok.2 ⟨_, _, he4, rfl⟩⟩⟩⟩⟩⟩, hs4⟩

theorem partialAffine_same {c c' d : Composer F} {x0 x1 x2 x : Var} {q0 q1 q2 q3 q4 : F}
    (h : partialAffineTransformGate x0 x1 x2 q0 q1 q2 q3 q4 c = .ok (x, c')) (hs : Same c d) :
    ∃ d', partialAffineTransformGate x0 x1 x2 q0 q1 q2 q3 q4 d = .ok (x, d') ∧ Same c' d' := by
  unfold partialAffineTransformGate at h ⊢
  obtain ⟨s0, c1, h1, g1⟩ := bindC_ok.1 h
  obtain ⟨hs0, rfl⟩ := valueOfVar_ok.1 h1
  obtain ⟨s1, c2, h2, g2⟩ := bindC_ok.1 g1
  obtain ⟨hs1, rfl⟩ := valueOfVar_ok.1 h2
  obtain ⟨s2, c3, h3, g3⟩ := bindC_ok.1 g2
  obtain ⟨hs2, rfl⟩ := valueOfVar_ok.1 h3
  obtain ⟨w, c4, h4, g4⟩ := bindC_ok.1 g3
  obtain ⟨hq, rfl⟩ := divC_ok h4
  obtain ⟨y, c5, h5, g5⟩ := bindC_ok.1 g4
  obtain ⟨u, c6, h6, g6⟩ := bindC_ok.1 g5
  obtain ⟨rfl, rfl⟩ := pureC_ok.1 g6
  have lt : ∀ {x : Var} {s : F}, c4.variables[x]? = some s → x < d.variables.length := fun h => by
    rw [hs.2]; exact (List.getElem?_eq_some_iff.1 h).1
  obtain ⟨e3, he, hs3⟩ := addInput_same (s2 := (q0 * ownV d x0 ^ 5 + q1 * ownV d x1 + q2 * ownV d x2
    + q3) / (-q4)) h5 hs
  obtain ⟨e4, he4, hs4⟩ := pushGate_same h6 hs3
  exact ⟨e4, bindC_ok.2 ⟨_, _, valueOfVar_run (lt hs0), bindC_ok.2 ⟨_, _, valueOfVar_run (lt hs1),
    bindC_ok.2 ⟨_, _, valueOfVar_run (lt hs2), bindC_ok.2 ⟨_, _, divC_run hq _, bindC_ok.2 ⟨_, _, he,
      bindC_ok.2 ⟨_, _, he4, rfl⟩⟩⟩⟩⟩⟩, hs4⟩

theorem sim_fullAffine {c : Composer F} (hw : WF c) {x0 x1 x2 : Var} (h0 : InV c x0) (h1 : InV c x1)
    (h2 : InV c x2) (q0 q1 q2 q3 : F) :
    Sim R E c (fullAffineTransformGate x0 x1 x2 q0 q1 q2 q3 (-1))
      (fun v => (.ok (v x0 ^ 5 * q0 + v x1 ^ 5 * q1 + v x2 ^ 5 * q2 + q3) : Res F)) (fun v x => v x) InV := by
  have hq : (-1 : F) ≠ 0 := neg_ne_zero.2 one_ne_zero
  obtain ⟨x, c', hr⟩ := fullAffine_run (q0 := q0) (q1 := q1) (q2 := q2) (q3 := q3) hw hq h0 h1 h2
  obtain ⟨-, hw', he, hx, -, ho, hs⟩ := fullAffine_fwd hw hr
  refine ⟨x, c', hr, .more .none (.full_affine_transform_gate x0 x1 x2 q0 q1 q2 q3 (-1)) hr, ho, hx, ?_,
    fun c2 h2 => fullAffine_same hr h2⟩
  intro E' T N pub w v h
  have := hs E' T N pub w v h
  show Except.ok _ = Except.ok _
  congr 1
  linear_combination this

theorem sim_partialAffine {c : Composer F} (hw : WF c) {x0 x1 x2 : Var} (h0 : InV c x0) (h1 : InV c x1)
    (h2 : InV c x2) (q0 q1 q2 q3 : F) :
    Sim R E c (partialAffineTransformGate x0 x1 x2 q0 q1 q2 q3 (-1))
      (fun v => (.ok (v x0 ^ 5 * q0 + v x1 * q1 + v x2 * q2 + q3) : Res F)) (fun v x => v x) InV := by
  have hq : (-1 : F) ≠ 0 := neg_ne_zero.2 one_ne_zero
  obtain ⟨x, c', hr⟩ := partialAffine_run (q0 := q0) (q1 := q1) (q2 := q2) (q3 := q3) hw hq h0 h1 h2
  obtain ⟨-, hw', he, hx, -, ho, hs⟩ := partialAffine_fwd hw hr
  refine ⟨x, c', hr, .more .none (.partial_affine_transform_gate x0 x1 x2 q0 q1 q2 q3 (-1)) hr, ho, hx, ?_,
    fun c2 h2 => partialAffine_same hr h2⟩
  intro E' T N pub w v h
  have := hs E' T N pub w v h
  show Except.ok _ = Except.ok _
  congr 1
  linear_combination this

theorem idx_pure {m : Type → Type} [Monad m] {V F : Type} (S : Prim m V F) {α : Type} {l : List α} {i : ℕ}
    {x : α} (h : l[i]? = some x) : idx S l i = pure x := by
  unfold idx; rw [h]

/-- The constants a round of the circuit adds in front of the S-box: only the first round does. -/
def zzPre (rc : List F) (off : ℕ) : Fin 3 → F := if off = 0 then slice 3 rc 0 else 0

/-- The constants a round of the circuit adds behind the matrix: those of the next round. -/
def zzPost (rc : List F) (off : ℕ) : Fin 3 → F := if rc.length = off + 3 then 0 else slice 3 rc (off + 3)

/-- The rounds of the circuit on values. -/
def zzFullN (M : Matrix (Fin 3) (Fin 3) F) (k : Constants F) (off : ℕ) (st : List F) : Res (ℕ × List F) :=
  .ok (off + 3, List.ofFn (sboxAll (vec 3 st + zzPre k.roundConstants off) ᵥ* Mᵀ + zzPost k.roundConstants off))

/-- See `zzFullN`. -/
def zzPartialN (M : Matrix (Fin 3) (Fin 3) F) (k : Constants F) (off : ℕ) (st : List F) : Res (ℕ × List F) :=
  .ok (off + 3, List.ofFn (sboxFirst (vec 3 st) ᵥ* Mᵀ + slice 3 k.roundConstants (off + 3)))

/-- Enough constants are left for a round at this offset. -/
def Left (rc : List F) (off : ℕ) : Prop := rc.length = off + 3 ∨ off + 6 ≤ rc.length

theorem drop_getElem?_slice (rc : List F) (off j : ℕ) (h : off + j < rc.length) :
    (rc.drop off)[j]? = some (rc.getD (off + j) 0) := by
  rw [List.getElem?_drop, List.getElem?_eq_getElem h]
  simp [List.getD_eq_getElem?_getD, h]

theorem sim_zzFull (M : Matrix (Fin 3) (Fin 3) F) (k : Constants F) (hk : k.mds.m = rows M) (off : ℕ)
    (hl : Left k.roundConstants off) (state : List Var) (c : Composer F) (hw : WF c) (hs : InN 3 c state) :
    Sim R E c (zzFullRound k off state) (fun v => zzFullN M k off (state.map v))
      (fun v q => (q.1, q.2.map v)) (InR 3 (off + 3)) := by
  obtain ⟨hin, hlen⟩ := hs
  match state, hlen, hin with
  | [s0, s1, s2], _, hin =>
    have h0 : InV c s0 := hin s0 (by simp)
    have h1 : InV c s1 := hin s1 (by simp)
    have h2 : InV c s2 := hin s2 (by simp)
    have hrow0 : k.mds.m[0]? = some (List.ofFn (M 0)) := by rw [hk]; rfl
    have hrow1 : k.mds.m[1]? = some (List.ofFn (M 1)) := by rw [hk]; rfl
    have hrow2 : k.mds.m[2]? = some (List.ofFn (M 2)) := by rw [hk]; rfl
    have hent0 : ∀ i : Fin 3, (List.ofFn (M i))[0]? = some (M i 0) := fun i => rfl
    have hent1 : ∀ i : Fin 3, (List.ofFn (M i))[1]? = some (M i 1) := fun i => rfl
    have hent2 : ∀ i : Fin 3, (List.ofFn (M i))[2]? = some (M i 2) := fun i => rfl
    have hadd : Sim R E c (if off = 0 then do
        let k0 ← idx (plonkSpec (F := F)) (k.roundConstants.drop off) 0
        let r0 ← (plonkSpec (F := F)).addi s0 k0
        let k1 ← idx (plonkSpec (F := F)) (k.roundConstants.drop off) 1
        let r1 ← (plonkSpec (F := F)).addi s1 k1
        let k2 ← idx (plonkSpec (F := F)) (k.roundConstants.drop off) 2
        let r2 ← (plonkSpec (F := F)).addi s2 k2
        pure (r0, r1, r2)
      else pure (s0, s1, s2) : CM F (Var × Var × Var))
      (fun v => (.ok (v s0 + zzPre k.roundConstants off 0, v s1 + zzPre k.roundConstants off 1,
        v s2 + zzPre k.roundConstants off 2) : Res (F × F × F)))
      (fun v q => (v q.1, v q.2.1, v q.2.2)) (fun c q => InV c q.1 ∧ InV c q.2.1 ∧ InV c q.2.2) := by
      unfold zzPre
      by_cases ho : off = 0
      · subst ho
        simp only [if_true]
        have hb : 3 ≤ k.roundConstants.length := by rcases hl with h | h <;> omega
        rw [idx_pure _ (drop_getElem?_slice _ 0 0 (by omega)), idx_pure _ (drop_getElem?_slice _ 0 1 (by omega)),
          idx_pure _ (drop_getElem?_slice _ 0 2 (by omega))]
        simp only [pure_bind]
        refine Sim.congr (na := fun v => (do
          let r0 ← (nativeSpec (F := F)).addi (v s0) (slice 3 k.roundConstants 0 0)
          let r1 ← (nativeSpec (F := F)).addi (v s1) (slice 3 k.roundConstants 0 1)
          let r2 ← (nativeSpec (F := F)).addi (v s2) (slice 3 k.roundConstants 0 2)
          pure (r0, r1, r2) : Res (F × F × F))) ?_ fun v => rfl
        refine Sim.bind hw (sim_addi hw h0 _) fun r0 c1 hw1 he1 i0 => ?_
        refine Sim.bind hw1 (sim_addi hw1 (h1.mono he1) _) fun r1 c2 hw2 he2 i1 => ?_
        refine Sim.bind hw2 (sim_addi hw2 (h2.mono (he1.trans he2)) _) fun r2 c3 hw3 he3 i2 => ?_
        exact Sim.pure _ _ ⟨i0.mono (he2.trans he3), i1.mono he3, i2⟩ fun v => rfl
      · simp only [if_neg ho]
        exact Sim.pure _ _ ⟨h0, h1, h2⟩ fun v => by simp
    have hpost : (if (k.roundConstants.drop off).length = 3 then pure ((0 : F), (0 : F), (0 : F)) else do
        let c0 ← idx (plonkSpec (F := F)) (k.roundConstants.drop off) 3
        let c1 ← idx (plonkSpec (F := F)) (k.roundConstants.drop off) 4
        let c2 ← idx (plonkSpec (F := F)) (k.roundConstants.drop off) 5
        pure (c0, c1, c2) : CM F (F × F × F)) = pure (zzPost k.roundConstants off 0,
          zzPost k.roundConstants off 1, zzPost k.roundConstants off 2) := by
      unfold zzPost
      rw [List.length_drop]
      by_cases he : k.roundConstants.length = off + 3
      · rw [if_pos (by omega), if_pos he]
        rfl
      · have hb : off + 6 ≤ k.roundConstants.length := by rcases hl with h | h <;> omega
        rw [if_neg (by omega), if_neg he]
        rw [idx_pure _ (drop_getElem?_slice _ off 3 (by omega)), idx_pure _ (drop_getElem?_slice _ off 4 (by omega)),
          idx_pure _ (drop_getElem?_slice _ off 5 (by omega))]
        simp only [pure_bind]
        rfl
    unfold zzFullRound
    simp only
    rw [idx_pure _ (show ([s0, s1, s2] : List Var)[0]? = some s0 from rfl),
      idx_pure _ (show ([s0, s1, s2] : List Var)[1]? = some s1 from rfl),
      idx_pure _ (show ([s0, s1, s2] : List Var)[2]? = some s2 from rfl), hpost,
      idx_pure _ hrow0, idx_pure _ hrow1, idx_pure _ hrow2]
    simp only [pure_bind]
    rw [idx_pure _ (hent0 0), idx_pure _ (hent1 0), idx_pure _ (hent2 0),
      idx_pure _ (hent0 1), idx_pure _ (hent1 1), idx_pure _ (hent2 1),
      idx_pure _ (hent0 2), idx_pure _ (hent1 2), idx_pure _ (hent2 2)]
    simp only [pure_bind]
    let e : ℕ → F × F × F → Res F := fun i q => if h : i < 3 then .ok (q.1 ^ 5 * M ⟨i, h⟩ 0
      + q.2.1 ^ 5 * M ⟨i, h⟩ 1 + q.2.2 ^ 5 * M ⟨i, h⟩ 2 + zzPost k.roundConstants off ⟨i, h⟩) else .ok 0
    refine Sim.congr (na := fun v => (do
      let q ← (.ok (v s0 + zzPre k.roundConstants off 0, v s1 + zzPre k.roundConstants off 1,
        v s2 + zzPre k.roundConstants off 2) : Res (F × F × F))
      let t0 ← e 0 q
      let t1 ← e 1 q
      let t2 ← e 2 q
      pure (off + 3, [t0, t1, t2]) : Res (ℕ × List F))) ?_ ?_
    · refine Sim.bind hw hadd fun q c1 hw1 he1 i1 => ?_
      refine Sim.bind hw1 (sim_fullAffine hw1 i1.1 i1.2.1 i1.2.2 _ _ _ _) fun t0 c2 hw2 he2 i2 => ?_
      refine Sim.bind hw2 (sim_fullAffine hw2 (i1.1.mono he2) (i1.2.1.mono he2) (i1.2.2.mono he2) _ _ _ _)
        fun t1 c3 hw3 he3 i3 => ?_
      refine Sim.bind hw3 (sim_fullAffine hw3 (i1.1.mono (he2.trans he3)) (i1.2.1.mono (he2.trans he3))
        (i1.2.2.mono (he2.trans he3)) _ _ _ _) fun t2 c4 hw4 he4 i4 => ?_
      refine Sim.pure _ _ ⟨⟨?_, rfl⟩, rfl⟩ fun v => rfl
      exact InL.cons (i2.mono (he3.trans he4)) (InL.cons (i3.mono he4) (InL.cons i4 fun _ h => by simp at h))
    · intro v
      unfold zzFullN
      simp only [ok_bind, e, show (0 : ℕ) < 3 by omega, show (1 : ℕ) < 3 by omega, show (2 : ℕ) < 3 by omega,
        dif_pos]
      show Except.ok _ = Except.ok _
      congr 2
      rw [List.ofFn_succ, List.ofFn_succ, List.ofFn_succ, List.ofFn_zero]
      simp [Matrix.vecMul, dotProduct, Fin.sum_univ_three, sboxAll, vec, Matrix.transpose_apply]

theorem sim_zzPartial (M : Matrix (Fin 3) (Fin 3) F) (k : Constants F) (hk : k.mds.m = rows M) (off : ℕ)
    (hl : off + 6 ≤ k.roundConstants.length) (state : List Var) (c : Composer F) (hw : WF c) (hs : InN 3 c state) :
    Sim R E c (zzPartialRound k off state) (fun v => zzPartialN M k off (state.map v))
      (fun v q => (q.1, q.2.map v)) (InR 3 (off + 3)) := by
  obtain ⟨hin, hlen⟩ := hs
  match state, hlen, hin with
  | [s0, s1, s2], _, hin =>
    have h0 : InV c s0 := hin s0 (by simp)
    have h1 : InV c s1 := hin s1 (by simp)
    have h2 : InV c s2 := hin s2 (by simp)
    have hrow0 : k.mds.m[0]? = some (List.ofFn (M 0)) := by rw [hk]; rfl
    have hrow1 : k.mds.m[1]? = some (List.ofFn (M 1)) := by rw [hk]; rfl
    have hrow2 : k.mds.m[2]? = some (List.ofFn (M 2)) := by rw [hk]; rfl
    have hent0 : ∀ i : Fin 3, (List.ofFn (M i))[0]? = some (M i 0) := fun i => rfl
    have hent1 : ∀ i : Fin 3, (List.ofFn (M i))[1]? = some (M i 1) := fun i => rfl
    have hent2 : ∀ i : Fin 3, (List.ofFn (M i))[2]? = some (M i 2) := fun i => rfl
    unfold zzPartialRound
    simp only
    rw [idx_pure _ (show ([s0, s1, s2] : List Var)[0]? = some s0 from rfl),
      idx_pure _ (show ([s0, s1, s2] : List Var)[1]? = some s1 from rfl),
      idx_pure _ (show ([s0, s1, s2] : List Var)[2]? = some s2 from rfl),
      idx_pure _ hrow0, idx_pure _ hrow1, idx_pure _ hrow2]
    simp only [pure_bind]
    rw [idx_pure _ (hent0 0), idx_pure _ (hent1 0), idx_pure _ (hent2 0),
      idx_pure _ (hent0 1), idx_pure _ (hent1 1), idx_pure _ (hent2 1),
      idx_pure _ (hent0 2), idx_pure _ (hent1 2), idx_pure _ (hent2 2),
      idx_pure _ (drop_getElem?_slice _ off 3 (by omega)), idx_pure _ (drop_getElem?_slice _ off 4 (by omega)),
      idx_pure _ (drop_getElem?_slice _ off 5 (by omega))]
    simp only [pure_bind]
    let e : ℕ → F × F × F → Res F := fun i q => if h : i < 3 then .ok (q.1 ^ 5 * M ⟨i, h⟩ 0
      + q.2.1 * M ⟨i, h⟩ 1 + q.2.2 * M ⟨i, h⟩ 2 + slice 3 k.roundConstants (off + 3) ⟨i, h⟩) else .ok 0
    refine Sim.congr (na := fun v => (do
      let t0 ← e 0 (v s0, v s1, v s2)
      let t1 ← e 1 (v s0, v s1, v s2)
      let t2 ← e 2 (v s0, v s1, v s2)
      pure (off + 3, [t0, t1, t2]) : Res (ℕ × List F))) ?_ ?_
    · refine Sim.bind hw (sim_partialAffine hw h0 h1 h2 _ _ _ _) fun t0 c2 hw2 he2 i2 => ?_
      refine Sim.bind hw2 (sim_partialAffine hw2 (h0.mono he2) (h1.mono he2) (h2.mono he2) _ _ _ _)
        fun t1 c3 hw3 he3 i3 => ?_
      refine Sim.bind hw3 (sim_partialAffine hw3 (h0.mono (he2.trans he3)) (h1.mono (he2.trans he3))
        (h2.mono (he2.trans he3)) _ _ _ _) fun t2 c4 hw4 he4 i4 => ?_
      refine Sim.pure _ _ ⟨⟨?_, rfl⟩, rfl⟩ fun v => rfl
      exact InL.cons (i2.mono (he3.trans he4)) (InL.cons (i3.mono he4) (InL.cons i4 fun _ h => by simp at h))
    · intro v
      unfold zzPartialN
      simp only [ok_bind, e, show (0 : ℕ) < 3 by omega, show (1 : ℕ) < 3 by omega, show (2 : ℕ) < 3 by omega,
        dif_pos]
      show Except.ok _ = Except.ok _
      congr 2
      rw [List.ofFn_succ, List.ofFn_succ, List.ofFn_succ, List.ofFn_zero]
      simp [Matrix.vecMul, dotProduct, Fin.sum_univ_three, sboxFirst, vec, Matrix.transpose_apply,
        Function.update_apply]

/-- `sim_repeat` for rounds that need a condition on the offset. -/
theorem sim_repeat' {w : ℕ} (k : Constants F) (P : ℕ → Prop)
    (rp : Constants F → ℕ → List Var → CM F (ℕ × List Var)) (rn : Constants F → ℕ → List F → Res (ℕ × List F))
    (hr : ∀ (off : ℕ), P off → ∀ (state : List Var) (c : Composer F), WF c → InN w c state →
      Sim R E c (rp k off state) (fun v => rn k off (state.map v)) (fun v q => (q.1, q.2.map v))
        (InR w (off + w))) :
    ∀ (m off : ℕ) (state : List Var) (c : Composer F), (∀ i < m, P (off + i * w)) → WF c → InN w c state →
    Sim R E c (repeatRound rp k m off state) (fun v => repeatRound rn k m off (state.map v))
      (fun v q => (q.1, q.2.map v)) (InR w (off + m * w))
  | 0, off, state, c, _, hw, hs => Sim.pure _ _ ⟨hs, by simp⟩ fun v => rfl
  | m + 1, off, state, c, hP, hw, hs => by
    unfold repeatRound
    refine Sim.bind hw (hr off (by simpa using hP 0 (by omega)) state c hw hs) fun q c1 hw1 he1 h1 => ?_
    have := sim_repeat' k P rp rn hr m q.1 q.2 c1 (fun i hi => by
      rw [h1.2]
      have := hP (i + 1) (by omega)
      rwa [show off + (i + 1) * w = off + w + i * w by rw [Nat.succ_mul]; omega] at this) hw1 h1.1
    rw [h1.2] at this
    rw [show off + w + m * w = off + (m + 1) * w by rw [Nat.succ_mul]; omega] at this
    rw [← h1.2] at this
    exact this

/-- The constants of a hash of the circuit: enough for all rounds, or for all rounds and one more. -/
structure ZFits (k : Constants F) : Prop where
  full : 0 < k.halfFullRounds
  part : 0 < k.partialRounds
  enough : k.roundConstants.length = (2 * k.halfFullRounds + k.partialRounds) * 3 ∨
    (2 * k.halfFullRounds + k.partialRounds) * 3 + 3 ≤ k.roundConstants.length

theorem sim_zzOutput (M : Matrix (Fin 3) (Fin 3) F) (h : Hasher Var F) (hk : h.constants.mds.m = rows M)
    (hf : ZFits h.constants) (h0 : h.offset = 0) {c : Composer F} (hw : WF c) (hs : InN 3 c h.elements) :
    Sim R E c (zzOutputHash h)
      (fun v => outputHashWith (nativeSpec (F := F)) (zzFullN M) (zzPartialN M) (hmap v h))
      (fun v r => (v r.1, hmap v r.2)) (fun c r => InV c r.1 ∧ InN 3 c r.2.elements) := by
  have f1 := hf.full
  have f2 := hf.part
  have f3 := hf.enough
  have hfull := sim_repeat' (R := R) (E := E) (w := 3) h.constants (Left h.constants.roundConstants) zzFullRound
    (zzFullN M) fun off hP st c hw hs => sim_zzFull M _ hk off hP st c hw hs
  have hpart := sim_repeat' (R := R) (E := E) (w := 3) h.constants
    (fun off => off + 6 ≤ h.constants.roundConstants.length) zzPartialRound
    (zzPartialN M) fun off hP st c hw hs => sim_zzPartial M _ hk off hP st c hw hs
  unfold zzOutputHash
  rw [outputHashWith_eq]
  refine Sim.congr (na := fun v => _) ?_ fun v => (outputHashWith_eq _ _ _ _).symm
  refine Sim.bind hw (hfull _ _ _ _ ?_ hw hs) fun q c1 hw1 he1 h1 => ?_
  · intro i hi
    unfold Left
    omega
  refine Sim.bind hw1 (hpart _ _ _ _ ?_ hw1 h1.1) fun q2 c2 hw2 he2 h2 => ?_
  · intro i hi
    rw [h1.2]
    omega
  refine Sim.bind hw2 (hfull _ _ _ _ ?_ hw2 h2.1) fun q3 c3 hw3 he3 h3 => ?_
  · intro i hi
    rw [h2.2, h1.2]
    unfold Left
    omega
  refine Sim.bind hw3 (sim_idx h3.1.1 (by rw [h3.1.2]; omega)) fun r c4 hw4 he4 h4 => ?_
  exact Sim.pure _ _ ⟨h4, h3.1.mono he4⟩ fun v => rfl

/-- What the state of the circuit in front of round `r` is ahead of the state of the permutation. -/
def ahead (rc : List F) (r : ℕ) : Fin 3 → F :=
  if r = 0 then 0 else if rc.length = 3 * r then 0 else slice 3 rc (3 * r)

theorem zzFullN_ahead (M : Matrix (Fin 3) (Fin 3) F) (k : Constants F) (r : ℕ) (x : Fin 3 → F)
    (h : k.roundConstants.length ≠ 3 * r) :
    zzFullN M k (3 * r) (List.ofFn (x + ahead k.roundConstants r)) = .ok (3 * (r + 1), List.ofFn
      (sboxAll (x + slice 3 k.roundConstants (3 * r)) ᵥ* Mᵀ + ahead k.roundConstants (r + 1))) := by
  unfold zzFullN
  rw [vec_ofFn]
  congr 2
  congr 3
  · by_cases hr : r = 0
    · subst hr
      simp [ahead, zzPre]
    · simp [ahead, zzPre, hr, h]

theorem zzPartialN_ahead (M : Matrix (Fin 3) (Fin 3) F) (k : Constants F) (r : ℕ) (x : Fin 3 → F)
    (hr : r ≠ 0) (h : k.roundConstants.length ≠ 3 * r) (h' : k.roundConstants.length ≠ 3 * (r + 1)) :
    zzPartialN M k (3 * r) (List.ofFn (x + ahead k.roundConstants r)) = .ok (3 * (r + 1), List.ofFn
      (sboxFirst (x + slice 3 k.roundConstants (3 * r)) ᵥ* Mᵀ + ahead k.roundConstants (r + 1))) := by
  unfold zzPartialN
  rw [vec_ofFn]
  congr 2
  congr 3
  · simp [ahead, hr, h]
  · unfold ahead
    rw [if_neg (Nat.succ_ne_zero r), if_neg h']
    rfl

theorem repeat_ahead (k : Constants F) (rn : Constants F → ℕ → List F → Res (ℕ × List F))
    (f : ℕ → (Fin 3 → F) → Fin 3 → F) :
    ∀ (m r : ℕ) (x : Fin 3 → F), (∀ i, r ≤ i → i < r + m → ∀ y, rn k (3 * i) (List.ofFn (y + ahead k.roundConstants i))
      = .ok (3 * (i + 1), List.ofFn (f i y + ahead k.roundConstants (i + 1)))) →
    repeatRound rn k m (3 * r) (List.ofFn (x + ahead k.roundConstants r))
      = .ok (3 * (r + m), List.ofFn (steps f r m x + ahead k.roundConstants (r + m)))
  | 0, r, x, _ => rfl
  | m + 1, r, x, h => by
    unfold repeatRound
    rw [h r le_rfl (by omega) x, ok_bind]
    have := repeat_ahead k rn f m (r + 1) (f r x) fun i hi hj => h i (by omega) (by omega)
    simp only
    rw [this, show r + 1 + m = r + (m + 1) by omega]
    rfl

theorem zz_value (M : Matrix (Fin 3) (Fin 3) F) (h : Hasher F F) (hf : ZFits h.constants) (h0 : h.offset = 0)
    (x : Fin 3 → F) (hx : h.elements = List.ofFn x) :
    outputHashWith (nativeSpec (F := F)) (zzFullN M) (zzPartialN M) h
      = .ok ((permutation Mᵀ (fun r => slice 3 h.constants.roundConstants (r * 3)) h.constants.halfFullRounds
          h.constants.partialRounds x + ahead h.constants.roundConstants
            (2 * h.constants.halfFullRounds + h.constants.partialRounds)) 1,
        ⟨(2 * h.constants.halfFullRounds + h.constants.partialRounds) * 3,
          List.ofFn (permutation Mᵀ (fun r => slice 3 h.constants.roundConstants (r * 3))
            h.constants.halfFullRounds h.constants.partialRounds x + ahead h.constants.roundConstants
            (2 * h.constants.halfFullRounds + h.constants.partialRounds)), h.pos, h.constants⟩) := by
  have f1 := hf.full
  have f2 := hf.part
  have f3 := hf.enough
  set k := h.constants with hk
  have a1 := repeat_ahead k (zzFullN M) (fun r y => sboxAll (y + slice 3 k.roundConstants (3 * r)) ᵥ* Mᵀ)
    k.halfFullRounds 0 x fun i hi hj y => zzFullN_ahead M k i y (by omega)
  have a2 := repeat_ahead k (zzPartialN M) (fun r y => sboxFirst (y + slice 3 k.roundConstants (3 * r)) ᵥ* Mᵀ)
    k.partialRounds (0 + k.halfFullRounds) (steps
      (fun r y => sboxAll (y + slice 3 k.roundConstants (3 * r)) ᵥ* Mᵀ) 0 k.halfFullRounds x)
    fun i hi hj y => zzPartialN_ahead M k i y (by omega) (by omega) (by omega)
  have a3 := fun z => repeat_ahead k (zzFullN M) (fun r y => sboxAll (y + slice 3 k.roundConstants (3 * r)) ᵥ* Mᵀ)
    k.halfFullRounds (0 + k.halfFullRounds + k.partialRounds) z fun i hi hj y => zzFullN_ahead M k i y (by omega)
  have e0 : ahead k.roundConstants 0 = 0 := rfl
  rw [e0, add_zero, Nat.mul_zero] at a1
  rw [outputHashWith_eq, ← hk, max_eq_right (Nat.succ_le_of_lt f1), max_eq_right (Nat.succ_le_of_lt f2), h0, hx,
    a1, ok_bind]
  simp only
  rw [a2, ok_bind]
  simp only
  rw [a3, ok_bind]
  simp only
  have e1 : 0 + k.halfFullRounds + k.partialRounds + k.halfFullRounds = 2 * k.halfFullRounds + k.partialRounds := by
    omega
  rw [e1]
  unfold permutation Spec.Poseidon.rounds
  simp only [Nat.mul_comm _ 3, Nat.zero_add]
  rfl

end VO.Poseidon
