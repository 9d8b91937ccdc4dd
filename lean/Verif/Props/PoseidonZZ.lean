import Verif.Props.PoseidonGadget
import Verif.Lemmas.PoseidonZZ

/-
C117: the Poseidon circuit with the affine gates, `PlonkSpecZZ` in
`/repo/plonk-hashing/src/poseidon/zprize_constraints.rs`. Its width is 3.
-/

set_option linter.unusedSectionVars false

namespace VO

open VO.Poseidon VO.Spec.Poseidon VO.Plonk VO.Spec.Plonk Matrix

variable {F : Type} [Field F] [DecidableEq F] {R : FieldRep F} {E : EdCurve F}

/-! ### C117 -/

theorem hash_zz_run {c : Composer F} (hw : WF c) (k : Constants F) (xs : List Var)
    (hl : xs.length ≤ 2) : ∃ c1, NewVar c c1 c.variables.length k.domainTag ∧
      addInput k.domainTag c = .ok (c.variables.length, c1) ∧
      hashCallsZZ k xs c
        = ((do
            let r ← zzOutputHash ⟨0, c.variables.length :: xs ++
              List.replicate (2 - xs.length) c.zero_var, 1 + xs.length, k⟩
            pure (some r.1) : CM F (Option Var))) c1 := by
  obtain ⟨c1, h1, hN⟩ := addInput_run hw k.domainTag
  refine ⟨c1, hN, h1, ?_⟩
  have e : hasherNew (plonkSpec (F := F)) 3 k c
      = .ok (⟨0, c.variables.length :: List.replicate 2 c.zero_var, 1, k⟩, c1) := by
    unfold hasherNew
    refine bindC_ok.2 ⟨List.replicate 3 c.zero_var, c, rfl, bindC_ok.2 ⟨_, c1, h1, ?_⟩⟩
    rw [if_neg (by omega)]
    rfl
  have e2 : inputs ⟨0, c.variables.length :: List.replicate 2 c.zero_var, 1, k⟩ xs
      = some ⟨0, c.variables.length :: xs ++ List.replicate (2 - xs.length) c.zero_var, 1 + xs.length, k⟩ := by
    rw [inputs_eq, if_pos (Or.inl (by simp; omega)), Nat.add_comm 1]
    simp only [List.drop_succ_cons, List.drop_replicate, List.take_succ_cons, List.take_zero]
    rfl
  unfold hashCallsZZ
  have bind_run : ∀ {α β : Type} (m : CM F α) (f : α → CM F β) (a : α) (d : Composer F), m c = .ok (a, d) →
      (m >>= f) c = f a d := fun m f a d h => by
    show (m c >>= fun p => f p.1 p.2) = _
    rw [h]
    rfl
  rw [bind_run _ _ _ _ e]
  rw [e2]

theorem zz_in {c d : Composer F} (hw : WF c) (hd : d.variables.length = c.variables.length + 1) (xs : List Var)
    (hl : xs.length ≤ 2) (hx : ∀ x ∈ xs, x < c.variables.length) :
    InN 3 d (c.variables.length :: xs ++ List.replicate (2 - xs.length) c.zero_var) := by
  have hz := hw.zero
  refine ⟨?_, by simp; omega⟩
  intro y hy
  unfold InV
  rw [hd]
  rw [List.cons_append, List.mem_cons, List.mem_append] at hy
  rcases hy with rfl | hy | hy
  · omega
  · have := hx y hy; omega
  · rw [List.eq_of_mem_replicate hy]; omega

theorem ahead_surplus {k : Constants F} (hk : ZFits k) :
    ahead k.roundConstants (2 * k.halfFullRounds + k.partialRounds) = surplus k := by
  have := hk.full
  unfold ahead surplus
  rw [if_neg (by omega), Nat.mul_comm]

/-- The circuit, for every matrix and every list of constants it accepts: in every satisfying assignment the
result is the element 1 of the permutation with the *transposed* matrix, plus the surplus. -/
theorem C117_general {c : Composer F} (hc : Reach R E c) {k : Constants F} (hm : IsMat 3 3 k.mds.m)
    (hk : ZFits k) (xs : List Var) (hl : xs.length ≤ 2) (hx : ∀ x ∈ xs, x < c.variables.length) :
    ∃ r c', hashCallsZZ k xs c = .ok (some r, c') ∧ Calls R E c c' ∧
      (∀ E', OwnSat E' c → OwnSat E' c' ∧ ownV c' r =
        permutation (mat 3 3 k.mds.m)ᵀ (fun r => slice 3 k.roundConstants (r * 3)) k.halfFullRounds
          k.partialRounds (start 2 k.domainTag (xs.map (ownV c))) 1 + surplus k 1) ∧
      ∀ E' T N pub w v, Sat E' T N c' pub w v → v r =
        permutation (mat 3 3 k.mds.m)ᵀ (fun r => slice 3 k.roundConstants (r * 3)) k.halfFullRounds
          k.partialRounds (start 2 (v c.variables.length) (xs.map v)) 1 + surplus k 1 := by
  have hw := Reach.wf hc
  obtain ⟨c1, hN, ha, hrun⟩ := hash_zz_run hw k xs hl
  obtain ⟨⟨r, h'⟩, c', h1, h2, h3, h4, h5, h6⟩ := sim_zzOutput (R := R) (E := E) (mat 3 3 k.mds.m)
    (⟨0, c.variables.length :: xs ++ List.replicate (2 - xs.length) c.zero_var, 1 + xs.length, k⟩ : Hasher Var F)
    (rows_mat hm).symm hk rfl hN.wf (zz_in hw (by rw [hN.vars]; simp) xs hl hx)
  obtain ⟨hw', he'⟩ := Calls.wf hN.wf h2
  have key : ∀ E' T N pub w v, Sat E' T N c' pub w v → v r =
        permutation (mat 3 3 k.mds.m)ᵀ (fun r => slice 3 k.roundConstants (r * 3)) k.halfFullRounds
          k.partialRounds (start 2 (v c.variables.length) (xs.map v)) 1 + surplus k 1 := by
    intro E' T N pub w v hs
    have h7 := h5 E' T N pub w v hs
    have hv0 : v c.zero_var = 0 := hw.zeroSound E' T N pub w v (hN.ext.sat (he'.sat hs))
    simp only [hmap, List.map_append, List.map_cons, List.map_replicate, hv0] at h7
    have e1 : v c.variables.length :: xs.map v ++ List.replicate (2 - xs.length) 0
        = List.ofFn (start 2 (v c.variables.length) (xs.map v)) := by
      have := start_ofFn (n := 2) (v c.variables.length) (xs.map v) (by rw [List.length_map]; exact hl)
      rwa [List.length_map] at this
    rw [e1, zz_value (mat 3 3 k.mds.m)
      ⟨0, List.ofFn (start 2 (v c.variables.length) (xs.map v)), 1 + xs.length, k⟩ hk rfl _ rfl] at h7
    simp only [Except.ok.injEq, Prod.mk.injEq] at h7
    rw [← h7.1, ahead_surplus hk]
    rfl
  refine ⟨r, c', by rw [hrun]; exact bindC_ok.2 ⟨_, _, h1, rfl⟩,
    Calls.trans' (.more .none (.add_input k.domainTag) ha) h2, fun E' hs => ?_, key⟩
  have ho := h3 E' (hN.own E' hs)
  refine ⟨ho, ?_⟩
  have := key _ _ _ _ _ _ (ho c'.n le_rfl)
  have e1 : ownV c' c.variables.length = k.domainTag := by
    rw [he'.ownV (by rw [hN.vars]; simp), hN.val]
  have e2 : xs.map (ownV c') = xs.map (ownV c) := by
    apply List.map_congr_left
    intro y hy
    exact (hN.ext.trans he').ownV (hx y hy)
  rw [e1, e2] at this
  exact this

/-- For a symmetric matrix and exactly as many constants as the rounds need, the circuit computes the native
hash, with the domain tag of the assignment. -/
theorem C117_hash {c : Composer F} (hc : Reach R E c) {k : Constants F} (hk : Fits 2 k)
    (hsym : (mat 3 3 k.mds.m)ᵀ = mat 3 3 k.mds.m)
    (he : k.roundConstants.length = (2 * k.halfFullRounds + k.partialRounds) * 3)
    (xs : List Var) (hl : xs.length ≤ 2) (hx : ∀ x ∈ xs, x < c.variables.length) :
    ∃ r c', hashCallsZZ k xs c = .ok (some r, c') ∧ Calls R E c c' ∧
      (∀ E', OwnSat E' c → OwnSat E' c' ∧
        hashCalls (nativeSpec (F := F)) 3 k (xs.map (ownV c)) = .ok (some (ownV c' r))) ∧
      ∀ E' T N pub w v, Sat E' T N c' pub w v →
        hashCalls (nativeSpec (F := F)) 3 { k with domainTag := v c.variables.length } (xs.map v)
          = .ok (some (v r)) := by
  obtain ⟨r, c', h1, h2, h3, h4⟩ := C117_general (R := R) (E := E) hc hk.shape ⟨hk.full, hk.part, Or.inl he⟩
    xs hl hx
  have hz : surplus k 1 = 0 := by unfold surplus; rw [if_pos he]; rfl
  refine ⟨r, c', h1, h2, fun E' hs => ⟨(h3 E' hs).1, ?_⟩, fun E' T N pub w v hs => ?_⟩
  · rw [C115_hash (n := 2) (by omega) hk _ (by rw [List.length_map]; exact hl), (h3 E' hs).2, hsym, hz, add_zero]
    rfl
  · have hk' : Fits 2 { k with domainTag := v c.variables.length } := ⟨hk.shape, hk.full, hk.part, hk.enough⟩
    rw [C115_hash (n := 2) (by omega) hk' _ (by rw [List.length_map]; exact hl), h4 E' T N pub w v hs, hsym, hz,
      add_zero]
    rfl

/-- Deviation: with at least three constants more than the rounds need, which the native hash ignores, the
result of the circuit is off by one of them. -/
theorem C117_surplus {c : Composer F} (hc : Reach R E c) {k : Constants F} (hk : Fits 2 k)
    (hsym : (mat 3 3 k.mds.m)ᵀ = mat 3 3 k.mds.m)
    (he : (2 * k.halfFullRounds + k.partialRounds) * 3 + 3 ≤ k.roundConstants.length)
    (xs : List Var) (hl : xs.length ≤ 2) (hx : ∀ x ∈ xs, x < c.variables.length) :
    ∃ r c' y, hashCallsZZ k xs c = .ok (some r, c') ∧
      hashCalls (nativeSpec (F := F)) 3 k (xs.map (ownV c)) = .ok (some y) ∧
      ∀ E', OwnSat E' c → OwnSat E' c' ∧
        ownV c' r = y + k.roundConstants.getD ((2 * k.halfFullRounds + k.partialRounds) * 3 + 1) 0 := by
  obtain ⟨r, c', h1, h2, h3, h4⟩ := C117_general (R := R) (E := E) hc hk.shape ⟨hk.full, hk.part, Or.inr he⟩
    xs hl hx
  refine ⟨r, c', _, h1, C115_hash (n := 2) (by omega) hk _ (by rw [List.length_map]; exact hl), fun E' hs =>
    ⟨(h3 E' hs).1, ?_⟩⟩
  rw [(h3 E' hs).2, hsym]
  unfold surplus
  rw [if_neg (by omega)]
  rfl

/-- Deviation: the circuit multiplies by the matrix from the other side, so for every matrix the result is
the native hash with the transposed matrix. -/
theorem C117_transposed {c : Composer F} (hc : Reach R E c) {k : Constants F} (hk : Fits 2 k)
    (he : k.roundConstants.length = (2 * k.halfFullRounds + k.partialRounds) * 3)
    (xs : List Var) (hl : xs.length ≤ 2) (hx : ∀ x ∈ xs, x < c.variables.length) :
    ∃ r c', hashCallsZZ k xs c = .ok (some r, c') ∧
      ∀ E', OwnSat E' c → OwnSat E' c' ∧
        hashCalls (nativeSpec (F := F)) 3 { k with mds := { k.mds with m := rows (mat 3 3 k.mds.m)ᵀ } }
          (xs.map (ownV c)) = .ok (some (ownV c' r)) := by
  obtain ⟨r, c', h1, h2, h3, h4⟩ := C117_general (R := R) (E := E) hc hk.shape ⟨hk.full, hk.part, Or.inl he⟩
    xs hl hx
  have hz : surplus k 1 = 0 := by unfold surplus; rw [if_pos he]; rfl
  refine ⟨r, c', h1, fun E' hs => ⟨(h3 E' hs).1, ?_⟩⟩
  have hk' : Fits 2 { k with mds := { k.mds with m := rows (mat 3 3 k.mds.m)ᵀ } } :=
    ⟨isMat_rows _, hk.full, hk.part, hk.enough⟩
  rw [C115_hash (n := 2) (by omega) hk' _ (by rw [List.length_map]; exact hl), (h3 E' hs).2, hz, add_zero]
  unfold perm
  simp only [mat_rows]
  rfl

/-- The matrix of `constants97` is symmetric, and the constants are exactly those the rounds need. -/
example : ∃ (c c' : Composer K97) (x y r : Var), Reach R97 E97 c ∧
    hashCallsZZ constants97 [x, y] c = .ok (some r, c') ∧ OwnSat E97 c' ∧
    hashCalls (nativeSpec (F := K97)) 3 constants97 [10, 20] = .ok (some (ownV c' r)) := by
  obtain ⟨c, x, y, z, h, hs, hx, hy, hz, vx, vy, vz⟩ := input3 R97 E97 10 20 0
  have hxy : ∀ u ∈ [x, y], u < c.variables.length := by
    intro u hu
    simp only [List.mem_cons, List.not_mem_nil, or_false] at hu
    rcases hu with rfl | rfl <;> assumption
  obtain ⟨r, c', h1, h2, h3, h4⟩ := C117_hash h fits97 (by decide +kernel) (by decide) [x, y] (by simp) hxy
  have h5 := h3 E97 hs
  simp only [List.map_cons, List.map_nil, vx, vy] at h5
  exact ⟨c, c', x, y, r, h, h1, h5.1, h5.2⟩

/-- Three constants more: the circuit and the native hash disagree. -/
example : ∃ (c c' : Composer K97) (x y r : Var) (t : K97), Reach R97 E97 c ∧
    hashCallsZZ { constants97 with roundConstants := [1, 2, 3, 4, 5, 6, 7, 8, 9, 10, 11, 12] } [x, y] c
      = .ok (some r, c') ∧ OwnSat E97 c' ∧
    hashCalls (nativeSpec (F := K97)) 3
      { constants97 with roundConstants := [1, 2, 3, 4, 5, 6, 7, 8, 9, 10, 11, 12] } [10, 20] = .ok (some t) ∧
    ownV c' r = t + 11 := by
  obtain ⟨c, x, y, z, h, hs, hx, hy, hz, vx, vy, vz⟩ := input3 R97 E97 10 20 0
  have hxy : ∀ u ∈ [x, y], u < c.variables.length := by
    intro u hu
    simp only [List.mem_cons, List.not_mem_nil, or_false] at hu
    rcases hu with rfl | rfl <;> assumption
  obtain ⟨r, c', t, h1, h2, h3⟩ := C117_surplus (R := R97) (E := E97) h
    (k := { constants97 with roundConstants := [1, 2, 3, 4, 5, 6, 7, 8, 9, 10, 11, 12] })
    ⟨by unfold IsMat; decide +kernel, by decide, by decide, by decide⟩ (by decide +kernel) (by decide) [x, y]
    (by simp) hxy
  simp only [List.map_cons, List.map_nil, vx, vy] at h2
  exact ⟨c, c', x, y, r, t, h, h1, (h3 E97 hs).1, h2, (h3 E97 hs).2⟩

end VO
