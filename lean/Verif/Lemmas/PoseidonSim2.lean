import Verif.Lemmas.PoseidonSim

/-
The rounds and the hasher as circuits.
-/

set_option linter.unusedSectionVars false

namespace VO.Poseidon

open VO.Plonk VO.Spec.Plonk

variable {F : Type} [Field F] [DecidableEq F] {R : FieldRep F} {E : EdCurve F}

theorem sim_power5 {c : Composer F} (hw : WF c) {x : Var} (hx : InV c x) :
    Sim R E c (powerOf5 (plonkSpec (F := F)) x) (fun v => powerOf5 (nativeSpec (F := F)) (v x))
      (fun v x => v x) InV := by
  unfold powerOf5
  refine Sim.bind hw (sim_mul hw hx hx) fun t c1 hw1 he1 ht => ?_
  refine Sim.bind hw1 (sim_mul hw1 ht ht) fun t2 c2 hw2 he2 ht2 => ?_
  exact sim_mul hw2 ht2 (hx.mono (he1.trans he2))

theorem sim_quintic_pre {c : Composer F} (hw : WF c) {x : Var} (hx : InV c x) (a : F) :
    Sim R E c (quinticSBox (plonkSpec (F := F)) x (some a) none)
      (fun v => quinticSBox (nativeSpec (F := F)) (v x) (some a) none) (fun v x => v x) InV := by
  unfold quinticSBox
  refine Sim.bind hw (sim_addi hw hx a) fun t c1 hw1 he1 ht => ?_
  refine Sim.bind hw1 (sim_power5 hw1 ht) fun t2 c2 hw2 he2 ht2 => ?_
  exact Sim.pure _ _ ht2 fun v => rfl

theorem sim_quintic {c : Composer F} (hw : WF c) {x : Var} (hx : InV c x) :
    Sim R E c (quinticSBox (plonkSpec (F := F)) x none none)
      (fun v => quinticSBox (nativeSpec (F := F)) (v x) none none) (fun v x => v x) InV := by
  unfold quinticSBox
  refine Sim.bind hw (Sim.pure (na := fun v => pure (v x)) x (fun v x => v x) hx fun v => rfl)
    fun t c1 hw1 he1 ht => ?_
  refine Sim.bind hw1 (sim_power5 hw1 ht) fun t2 c2 hw2 he2 ht2 => ?_
  exact Sim.pure _ _ ht2 fun v => rfl

/-- A list of variables of the composer, of a given length. -/
def InN (k : ℕ) (c : Composer F) (xs : List Var) : Prop := InL c xs ∧ xs.length = k

theorem InN.mono {c c' : Composer F} (h : Ext c c') {k : ℕ} {xs : List Var} (hx : InN k c xs) : InN k c' xs :=
  ⟨hx.1.mono h, hx.2⟩

theorem InL.tail {c : Composer F} {x : Var} {xs : List Var} (h : InL c (x :: xs)) : InL c xs :=
  fun y hy => h y (List.mem_cons_of_mem _ hy)

theorem InL.head {c : Composer F} {x : Var} {xs : List Var} (h : InL c (x :: xs)) : InV c x :=
  h x List.mem_cons_self

theorem InL.cons {c : Composer F} {x : Var} {xs : List Var} (h : InV c x) (h' : InL c xs) : InL c (x :: xs) := by
  intro y hy
  rcases List.mem_cons.1 hy with rfl | hy
  · exact h
  · exact h' y hy

theorem sim_sboxZip : ∀ (xs : List Var) (cs : List F) {c : Composer F}, WF c → InL c xs →
    Sim R E c (sboxZip (plonkSpec (F := F)) xs cs) (fun v => sboxZip (nativeSpec (F := F)) (xs.map v) cs)
      (fun v ys => ys.map v) (InN xs.length)
  | [], cs, c, hw, hx => by
    cases cs <;> exact Sim.pure _ _ ⟨hx, rfl⟩ fun v => rfl
  | x :: xs, [], c, hw, hx => Sim.pure _ _ ⟨hx, rfl⟩ fun v => rfl
  | x :: xs, k :: ks, c, hw, hx => by
    have e : ∀ v : Var → F, sboxZip (nativeSpec (F := F)) ((x :: xs).map v) (k :: ks) = (do
      let y ← quinticSBox (nativeSpec (F := F)) (v x) (some k) none
      let ys ← sboxZip (nativeSpec (F := F)) (xs.map v) ks
      pure (y :: ys)) := fun v => rfl
    refine Sim.congr ?_ fun v => (e v).symm
    obtain ⟨y, c1, r1, k1, o1, i1, s1, m1⟩ := sim_quintic_pre (R := R) (E := E) hw hx.head k
    obtain ⟨hw1, he1⟩ := Calls.wf hw k1
    obtain ⟨ys, c2, r2, k2, o2, i2, s2, m2⟩ := sim_sboxZip xs ks hw1 (hx.tail.mono he1)
    obtain ⟨hw2, he2⟩ := Calls.wf hw1 k2
    refine ⟨y :: ys, c2, bindC_ok.2 ⟨y, c1, r1, bindC_ok.2 ⟨ys, c2, r2, rfl⟩⟩, k1.trans' k2,
      fun E' h => o2 E' (o1 E' h), ⟨InL.cons (i1.mono he2) i2.1, by simp [i2.2]⟩, ?_, ?_⟩
    · intro E' T N pub w v hs
      have e1 := s1 E' T N pub w v (he2.sat hs)
      have e2 := s2 E' T N pub w v hs
      simp only at e1 e2 ⊢
      rw [e1, ok_bind, e2]
      rfl
    · intro d hd
      obtain ⟨d1, h1, hd1⟩ := m1 d hd
      obtain ⟨d2, h2, hd2⟩ := m2 d1 hd1
      exact ⟨d2, bindC_ok.2 ⟨y, d1, h1, bindC_ok.2 ⟨ys, d2, h2, rfl⟩⟩, hd2⟩

theorem sim_addRoundConstants : ∀ (xs : List Var) (cs : List F) {c : Composer F}, WF c → InL c xs →
    Sim R E c (addRoundConstants (plonkSpec (F := F)) xs cs)
      (fun v => addRoundConstants (nativeSpec (F := F)) (xs.map v) cs)
      (fun v ys => ys.map v) (InN xs.length)
  | [], cs, c, hw, hx => by
    cases cs <;> exact Sim.pure _ _ ⟨hx, rfl⟩ fun v => rfl
  | x :: xs, [], c, hw, hx => Sim.pure _ _ ⟨hx, rfl⟩ fun v => rfl
  | x :: xs, k :: ks, c, hw, hx => by
    have e : ∀ v : Var → F, addRoundConstants (nativeSpec (F := F)) ((x :: xs).map v) (k :: ks) = (do
      let y ← (nativeSpec (F := F)).addi (v x) k
      let ys ← addRoundConstants (nativeSpec (F := F)) (xs.map v) ks
      pure (y :: ys)) := fun v => rfl
    refine Sim.congr ?_ fun v => (e v).symm
    obtain ⟨y, c1, r1, k1, o1, i1, s1, m1⟩ := sim_addi (R := R) (E := E) hw hx.head k
    obtain ⟨hw1, he1⟩ := Calls.wf hw k1
    obtain ⟨ys, c2, r2, k2, o2, i2, s2, m2⟩ := sim_addRoundConstants xs ks hw1 (hx.tail.mono he1)
    obtain ⟨hw2, he2⟩ := Calls.wf hw1 k2
    refine ⟨y :: ys, c2, bindC_ok.2 ⟨y, c1, r1, bindC_ok.2 ⟨ys, c2, r2, rfl⟩⟩, k1.trans' k2,
      fun E' h => o2 E' (o1 E' h), ⟨InL.cons (i1.mono he2) i2.1, by simp [i2.2]⟩, ?_, ?_⟩
    · intro E' T N pub w v hs
      have e1 := s1 E' T N pub w v (he2.sat hs)
      have e2 := s2 E' T N pub w v hs
      simp only at e1 e2 ⊢
      rw [e1, ok_bind, e2]
      rfl
    · intro d hd
      obtain ⟨d1, h1, hd1⟩ := m1 d hd
      obtain ⟨d2, h2, hd2⟩ := m2 d1 hd1
      exact ⟨d2, bindC_ok.2 ⟨y, d1, h1, bindC_ok.2 ⟨ys, d2, h2, rfl⟩⟩, hd2⟩

theorem sim_mdsEntry (state : List Var) (j : ℕ) : ∀ (rows : List (List F)) (i : ℕ) (val : Var) {c : Composer F},
    WF c → InL c state → InV c val → i + rows.length ≤ state.length → (∀ r ∈ rows, j < r.length) →
    Sim R E c (mdsEntry (plonkSpec (F := F)) state j i rows val)
      (fun v => mdsEntry (nativeSpec (F := F)) (state.map v) j i rows (v val)) (fun v x => v x) InV
  | [], i, val, c, hw, hs, hv, hi, hr => Sim.pure _ _ hv fun v => rfl
  | row :: rest, i, val, c, hw, hs, hv, hi, hr => by
    simp only [List.length_cons] at hi
    obtain ⟨s, c0, r0, k0, o0, i0, s0, m0⟩ := sim_idx (R := R) (E := E) hs (by omega : i < state.length)
    obtain ⟨hw0, he0⟩ := Calls.wf hw k0
    obtain ⟨q, c1, r1, k1, o1, i1, s1, m1⟩ := sim_idx_const (R := R) (E := E) (c := c0)
      (hr row List.mem_cons_self)
    obtain ⟨hw1, he1⟩ := Calls.wf hw0 k1
    obtain ⟨t, c2, r2, k2, o2, i2, s2, m2⟩ := sim_muli (R := R) (E := E) hw1 (i0.mono he1) q
    obtain ⟨hw2, he2⟩ := Calls.wf hw1 k2
    obtain ⟨u, c3, r3, k3, o3, i3, s3, m3⟩ := sim_add (R := R) (E := E) hw2
      (hv.mono ((he0.trans he1).trans he2)) i2
    obtain ⟨hw3, he3⟩ := Calls.wf hw2 k3
    obtain ⟨z, c4, r4, k4, o4, i4, s4, m4⟩ := sim_mdsEntry state j rest (i + 1) u hw3
      (hs.mono (((he0.trans he1).trans he2).trans he3)) i3 (by omega)
      (fun r h => hr r (List.mem_cons_of_mem _ h))
    obtain ⟨hw4, he4⟩ := Calls.wf hw3 k4
    refine ⟨z, c4, ?_, (((k0.trans' k1).trans' k2).trans' k3).trans' k4,
      fun E' h => o4 E' (o3 E' (o2 E' (o1 E' (o0 E' h)))), i4, ?_, ?_⟩
    · unfold mdsEntry
      exact bindC_ok.2 ⟨s, c0, r0, bindC_ok.2 ⟨q, c1, r1, bindC_ok.2 ⟨t, c2, r2, bindC_ok.2 ⟨u, c3, r3, r4⟩⟩⟩⟩
    · intro E' T N pub w v hs
      have h3 := he4.sat hs
      have h2 := he3.sat h3
      have h1 := he2.sat h2
      have h0 := he1.sat h1
      show mdsEntry (nativeSpec (F := F)) (state.map v) j i (row :: rest) (v val) = _
      unfold mdsEntry
      have e1 := s1 E' T N pub w v h1
      have e2 := s2 E' T N pub w v h2
      have e3 := s3 E' T N pub w v h3
      have e4 := s4 E' T N pub w v hs
      have e0 := s0 E' T N pub w v h0
      simp only at e0 e1 e2 e3 e4
      rw [e0, ok_bind, e1, ok_bind, e2, ok_bind, e3, ok_bind, e4]
    · intro d hd
      obtain ⟨d0, h0, hd0⟩ := m0 d hd
      obtain ⟨d1, h1, hd1⟩ := m1 d0 hd0
      obtain ⟨d2, h2, hd2⟩ := m2 d1 hd1
      obtain ⟨d3, h3, hd3⟩ := m3 d2 hd2
      obtain ⟨d4, h4, hd4⟩ := m4 d3 hd3
      refine ⟨d4, ?_, hd4⟩
      unfold mdsEntry
      exact bindC_ok.2 ⟨s, d0, h0, bindC_ok.2 ⟨q, d1, h1, bindC_ok.2 ⟨t, d2, h2, bindC_ok.2 ⟨u, d3, h3, h4⟩⟩⟩⟩

theorem sim_mdsLoop (M : List (List F)) (state : List Var) (hM : M.length ≤ state.length) :
    ∀ (vals : List Var) (j : ℕ) {c : Composer F}, WF c → InL c state → InL c vals →
    (∀ r ∈ M, j + vals.length ≤ r.length) →
    Sim R E c (mdsLoop (plonkSpec (F := F)) M state j vals)
      (fun v => mdsLoop (nativeSpec (F := F)) M (state.map v) j (vals.map v)) (fun v ys => ys.map v)
      (InN vals.length)
  | [], j, c, hw, hs, hv, hr => Sim.pure _ _ ⟨hv, rfl⟩ fun v => rfl
  | val :: rest, j, c, hw, hs, hv, hr => by
    simp only [List.length_cons] at hr
    obtain ⟨y, c1, r1, k1, o1, i1, s1, m1⟩ := sim_mdsEntry (R := R) (E := E) state j M 0 val hw hs hv.head
      (by omega) (fun r h => by have := hr r h; omega)
    obtain ⟨hw1, he1⟩ := Calls.wf hw k1
    obtain ⟨ys, c2, r2, k2, o2, i2, s2, m2⟩ := sim_mdsLoop M state hM rest (j + 1) hw1 (hs.mono he1)
      (hv.tail.mono he1) (fun r h => by have := hr r h; omega)
    obtain ⟨hw2, he2⟩ := Calls.wf hw1 k2
    refine ⟨y :: ys, c2, ?_, k1.trans' k2,
      fun E' h => o2 E' (o1 E' h), ⟨InL.cons (i1.mono he2) i2.1, by simp [i2.2]⟩, ?_, ?_⟩
    · unfold mdsLoop
      exact bindC_ok.2 ⟨y, c1, r1, bindC_ok.2 ⟨ys, c2, r2, rfl⟩⟩
    · intro E' T N pub w v hs
      show mdsLoop (nativeSpec (F := F)) M (state.map v) j (v val :: rest.map v) = _
      unfold mdsLoop
      have e1 := s1 E' T N pub w v (he2.sat hs)
      have e2 := s2 E' T N pub w v hs
      simp only at e1 e2 ⊢
      rw [e1, ok_bind, e2]
      rfl
    · intro d hd
      obtain ⟨d1, h1, hd1⟩ := m1 d hd
      obtain ⟨d2, h2, hd2⟩ := m2 d1 hd1
      refine ⟨d2, ?_, hd2⟩
      unfold mdsLoop
      exact bindC_ok.2 ⟨y, d1, h1, bindC_ok.2 ⟨ys, d2, h2, rfl⟩⟩

/-- The matrix covers a state of width `w`. -/
structure Shape (w : ℕ) (k : Constants F) : Prop where
  rows : k.mds.m.length ≤ w
  cols : ∀ r ∈ k.mds.m, w ≤ r.length
  two : 2 ≤ w

theorem sim_productMds {w : ℕ} {k : Constants F} (hk : Shape w k) {state : List Var} {c : Composer F} (hw : WF c)
    (hs : InN w c state) :
    Sim R E c (productMds (plonkSpec (F := F)) k state)
      (fun v => productMds (nativeSpec (F := F)) k (state.map v)) (fun v ys => ys.map v) (InN w) := by
  have e : ∀ v : Var → F, productMds (nativeSpec (F := F)) k (state.map v)
      = (nativeSpec (F := F)).zeros state.length >>= fun result =>
        mdsLoop (nativeSpec (F := F)) k.mds.m (state.map v) 0 result := fun v => by
    unfold productMds; rw [List.length_map]
  obtain ⟨z, c1, r1, k1, o1, i1, s1, m1⟩ := sim_zeros (R := R) (E := E) hw state.length
  obtain ⟨hw1, he1⟩ := Calls.wf hw k1
  obtain ⟨ys, c2, r2, k2, o2, i2, s2, m2⟩ := sim_mdsLoop (R := R) (E := E) k.mds.m state
    (by rw [hs.2]; exact hk.rows) z 0 hw1 (hs.1.mono he1) i1.1
    (fun r h => by rw [i1.2, hs.2]; have := hk.cols r h; omega)
  obtain ⟨hw2, he2⟩ := Calls.wf hw1 k2
  refine ⟨ys, c2, bindC_ok.2 ⟨z, c1, r1, r2⟩, k1.trans' k2, fun E' h => o2 E' (o1 E' h),
    ⟨i2.1, by rw [i2.2, i1.2, hs.2]⟩, ?_, ?_⟩
  · intro E' T N pub w v hs'
    have e2 := s2 E' T N pub w v hs'
    have e1 := s1 E' T N pub w v (he2.sat hs')
    simp only at e1 e2 ⊢
    rw [e, e1, ok_bind, e2]
  · intro d hd
    obtain ⟨d1, h1, hd1⟩ := m1 d hd
    obtain ⟨d2, h2, hd2⟩ := m2 d1 hd1
    exact ⟨d2, bindC_ok.2 ⟨z, d1, h1, h2⟩, hd2⟩

/-- The result of a round: offset and state. -/
def InR (w off : ℕ) (c : Composer F) (q : ℕ × List Var) : Prop := InN w c q.2 ∧ q.1 = off

theorem sim_fullRound {w : ℕ} {k : Constants F} (hk : Shape w k) {state : List Var} {c : Composer F} (hw : WF c)
    (hs : InN w c state) (off : ℕ) :
    Sim R E c (fullRound (plonkSpec (F := F)) k off state)
      (fun v => fullRound (nativeSpec (F := F)) k off (state.map v)) (fun v q => (q.1, q.2.map v))
      (InR w (off + w)) := by
  unfold fullRound
  refine Sim.bind hw (sim_sboxZip state (k.roundConstants.drop off) hw hs.1) fun st c1 hw1 he1 h1 => ?_
  refine Sim.bind hw1 (sim_productMds hk hw1 ⟨h1.1, h1.2.trans hs.2⟩) fun st2 c2 hw2 he2 h2 => ?_
  refine Sim.pure _ _ ⟨h2, by rw [hs.2]⟩ fun v => ?_
  rw [List.length_map]
  rfl

theorem sim_partialRound {w : ℕ} {k : Constants F} (hk : Shape w k) {state : List Var} {c : Composer F} (hw : WF c)
    (hs : InN w c state) (off : ℕ) :
    Sim R E c (partialRound (plonkSpec (F := F)) k off state)
      (fun v => partialRound (nativeSpec (F := F)) k off (state.map v)) (fun v q => (q.1, q.2.map v))
      (InR w (off + w)) := by
  unfold partialRound
  refine Sim.bind hw (sim_addRoundConstants state (k.roundConstants.drop off) hw hs.1)
    fun st c1 hw1 he1 h1 => ?_
  have h2 := hk.two
  cases st with
  | nil => have := h1.2; have := hs.2; simp at *; omega
  | cons x xs =>
    simp only [List.map_cons]
    refine Sim.bind hw1 (sim_quintic hw1 h1.1.head) fun y c2 hw2 he2 hy => ?_
    have hn : InN w c2 (y :: xs) := ⟨InL.cons hy (h1.1.tail.mono he2), by
      have := h1.2; have := hs.2; simp only [List.length_cons] at *; omega⟩
    refine Sim.bind hw2
      (Sim.congr (sim_productMds hk hw2 hn) fun v => by rw [List.map_cons]) fun st2 c3 hw3 he3 h3 => ?_
    refine Sim.pure _ _ ⟨h3, by rw [hs.2]⟩ fun v => ?_
    rw [List.length_map]
    rfl

theorem sim_repeat {w : ℕ} (k : Constants F)
    (rp : Constants F → ℕ → List Var → CM F (ℕ × List Var)) (rn : Constants F → ℕ → List F → Res (ℕ × List F))
    (hr : ∀ (off : ℕ) (state : List Var) (c : Composer F), WF c → InN w c state →
      Sim R E c (rp k off state) (fun v => rn k off (state.map v)) (fun v q => (q.1, q.2.map v))
        (InR w (off + w))) :
    ∀ (m off : ℕ) (state : List Var) (c : Composer F), WF c → InN w c state →
    Sim R E c (repeatRound rp k m off state) (fun v => repeatRound rn k m off (state.map v))
      (fun v q => (q.1, q.2.map v)) (InR w (off + m * w))
  | 0, off, state, c, hw, hs => Sim.pure _ _ ⟨hs, by simp⟩ fun v => rfl
  | m + 1, off, state, c, hw, hs => by
    unfold repeatRound
    refine Sim.bind hw (hr off state c hw hs) fun q c1 hw1 he1 h1 => ?_
    have := sim_repeat k rp rn hr m q.1 q.2 c1 hw1 h1.1
    rw [h1.2] at this
    rw [show off + w + m * w = off + (m + 1) * w by rw [Nat.succ_mul]; omega] at this
    rw [← h1.2] at this
    exact this

/-- The hasher with values instead of variables. -/
def hmap (v : Var → F) (h : Hasher Var F) : Hasher F F := ⟨h.offset, h.elements.map v, h.pos, h.constants⟩

theorem sim_outputHash {w : ℕ} (h : Hasher Var F) (hk : Shape w h.constants) {c : Composer F} (hw : WF c)
    (hs : InN w c h.elements) :
    Sim R E c (outputHash (plonkSpec (F := F)) h) (fun v => outputHash (nativeSpec (F := F)) (hmap v h))
      (fun v r => (v r.1, hmap v r.2)) (fun c r => InV c r.1 ∧ InN w c r.2.elements) := by
  have hf := sim_repeat (R := R) (E := E) (w := w) h.constants (fullRound (plonkSpec (F := F)))
    (fullRound (nativeSpec (F := F))) fun off st c hw hs => sim_fullRound hk hw hs off
  have hp := sim_repeat (R := R) (E := E) (w := w) h.constants (partialRound (plonkSpec (F := F)))
    (partialRound (nativeSpec (F := F))) fun off st c hw hs => sim_partialRound hk hw hs off
  unfold outputHash
  rw [outputHashWith_eq]
  refine Sim.congr (na := fun v => _) ?_ fun v => (outputHashWith_eq _ _ _ _).symm
  refine Sim.bind hw (hf _ _ _ _ hw hs) fun q c1 hw1 he1 h1 => ?_
  refine Sim.bind hw1 (hp _ _ _ _ hw1 h1.1) fun q2 c2 hw2 he2 h2 => ?_
  refine Sim.bind hw2 (hf _ _ _ _ hw2 h2.1) fun q3 c3 hw3 he3 h3 => ?_
  refine Sim.bind hw3 (sim_idx h3.1.1 (by rw [h3.1.2]; exact hk.two)) fun r c4 hw4 he4 h4 => ?_
  exact Sim.pure _ _ ⟨h4, h3.1.mono he4⟩ fun v => rfl

end VO.Poseidon
