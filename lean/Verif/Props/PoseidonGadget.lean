import Verif.Props.PoseidonHash
import Verif.Lemmas.PoseidonSim2
import Verif.Spec.PlonkSnark

/-
C116: the Poseidon hasher as a circuit, `PlonkSpecRef` in `/repo/plonk-hashing/src/poseidon/poseidon_ref.rs`.
-/

set_option linter.unusedSectionVars false

namespace VO

open VO.Poseidon VO.Spec.Poseidon VO.Plonk VO.Spec.Plonk

variable {F : Type} [Field F] [DecidableEq F] {R : FieldRep F} {E : EdCurve F}

/-! ### C116 -/

theorem shape_of_fits {n : ℕ} (hn : 0 < n) {k : Constants F} (hk : IsMat (n + 1) (n + 1) k.mds.m) :
    Shape (n + 1) k := ⟨hk.1.le, fun r hr => (hk.2 r hr).ge, by omega⟩

/-- `output_hash` of a hasher whose elements are variables of the composer: in every satisfying assignment the
result and the new state have the values that the native hasher computes. -/
theorem C116_output {c : Composer F} (hc : Reach R E c) {n : ℕ} (hn : 0 < n) (h : Hasher Var F)
    (hk : IsMat (n + 1) (n + 1) h.constants.mds.m) (hl : h.elements.length = n + 1)
    (hx : ∀ x ∈ h.elements, x < c.variables.length) :
    ∃ r h' c', outputHash (plonkSpec (F := F)) h c = .ok ((r, h'), c') ∧ Calls R E c c' ∧
      (∀ E', OwnSat E' c → OwnSat E' c') ∧
      ∀ E' T N pub w v, Sat E' T N c' pub w v →
        outputHash (nativeSpec (F := F)) ⟨h.offset, h.elements.map v, h.pos, h.constants⟩
          = .ok (v r, ⟨h'.offset, h'.elements.map v, h'.pos, h'.constants⟩) := by
  obtain ⟨⟨r, h'⟩, c', h1, h2, h3, h4, h5, h6⟩ := sim_outputHash (R := R) (E := E) h
    (shape_of_fits hn hk) (Reach.wf hc) ⟨hx, hl⟩
  exact ⟨r, h', c', h1, h2, h3, h5⟩

/-- The calls of a user in a circuit: `new` allocates the domain tag as a new variable. -/
theorem hash_plonk_run {c : Composer F} (hw : WF c) {n : ℕ} (k : Constants F) (xs : List Var)
    (hl : xs.length ≤ n) : ∃ c1, NewVar c c1 c.variables.length k.domainTag ∧
      addInput k.domainTag c = .ok (c.variables.length, c1) ∧
      hashCalls (plonkSpec (F := F)) (n + 1) k xs c
        = ((do
            let r ← outputHash (plonkSpec (F := F)) ⟨0, c.variables.length :: xs ++
              List.replicate (n - xs.length) c.zero_var, 1 + xs.length, k⟩
            pure (some r.1) : CM F (Option Var))) c1 := by
  obtain ⟨c1, h1, hN⟩ := addInput_run hw k.domainTag
  refine ⟨c1, hN, h1, ?_⟩
  have e : hasherNew (plonkSpec (F := F)) (n + 1) k c
      = .ok (⟨0, c.variables.length :: List.replicate n c.zero_var, 1, k⟩, c1) := by
    unfold hasherNew
    refine bindC_ok.2 ⟨List.replicate (n + 1) c.zero_var, c, rfl, bindC_ok.2 ⟨_, c1, h1, ?_⟩⟩
    rw [if_neg (Nat.succ_ne_zero n)]
    rfl
  have e2 : inputs ⟨0, c.variables.length :: List.replicate n c.zero_var, 1, k⟩ xs
      = some ⟨0, c.variables.length :: xs ++ List.replicate (n - xs.length) c.zero_var, 1 + xs.length, k⟩ := by
    rw [inputs_eq, if_pos (Or.inl (by simp; omega)), Nat.add_comm 1]
    simp
  unfold hashCalls
  have bind_run : ∀ {α β : Type} (m : CM F α) (f : α → CM F β) (a : α) (d : Composer F), m c = .ok (a, d) →
      (m >>= f) c = f a d := fun m f a d h => by
    show (m c >>= fun p => f p.1 p.2) = _
    rw [h]
    rfl
  rw [bind_run _ _ _ _ e]
  rw [e2]

/-- `new`, `input` and `output_hash` in a circuit: the own values are those of the native hash with the domain
tag of the constants. In every satisfying assignment the result is the hash of the values of the inputs with
the domain tag that the assignment gives to the variable made by `new`, the first variable behind those of
`c`. -/
theorem C116_hash {c : Composer F} (hc : Reach R E c) {n : ℕ} (hn : 0 < n) {k : Constants F} (hk : Fits n k)
    (xs : List Var) (hl : xs.length ≤ n) (hx : ∀ x ∈ xs, x < c.variables.length) :
    ∃ r c', hashCalls (plonkSpec (F := F)) (n + 1) k xs c = .ok (some r, c') ∧ Calls R E c c' ∧
      (∀ E', OwnSat E' c → OwnSat E' c' ∧
        hashCalls (nativeSpec (F := F)) (n + 1) k (xs.map (ownV c)) = .ok (some (ownV c' r))) ∧
      ∀ E' T N pub w v, Sat E' T N c' pub w v →
        hashCalls (nativeSpec (F := F)) (n + 1) { k with domainTag := v c.variables.length } (xs.map v)
          = .ok (some (v r)) := by
  have hw := Reach.wf hc
  obtain ⟨c1, hN, ha, hrun⟩ := hash_plonk_run hw k xs hl
  have hz := hw.zero
  have hin : InN (n + 1) c1 (c.variables.length :: xs ++ List.replicate (n - xs.length) c.zero_var) := by
    refine ⟨?_, by simp; omega⟩
    intro y hy
    unfold InV
    rw [hN.vars, List.length_append, List.length_singleton]
    rw [List.cons_append, List.mem_cons, List.mem_append] at hy
    rcases hy with rfl | hy | hy
    · omega
    · have := hx y hy; omega
    · rw [List.eq_of_mem_replicate hy]; omega
  obtain ⟨⟨r, h'⟩, c', h1, h2, h3, h4, h5, h6⟩ := sim_outputHash (R := R) (E := E)
    (⟨0, c.variables.length :: xs ++ List.replicate (n - xs.length) c.zero_var, 1 + xs.length, k⟩ : Hasher Var F)
    (shape_of_fits hn hk.shape) hN.wf hin
  obtain ⟨hw', he'⟩ := Calls.wf hN.wf h2
  have key : ∀ E' T N pub w v, Sat E' T N c' pub w v →
        hashCalls (nativeSpec (F := F)) (n + 1) { k with domainTag := v c.variables.length } (xs.map v)
          = .ok (some (v r)) := by
    intro E' T N pub w v hs
    have hk' : Fits n { k with domainTag := v c.variables.length } := ⟨hk.shape, hk.full, hk.part, hk.enough⟩
    have h7 := h5 E' T N pub w v hs
    have hv0 : v c.zero_var = 0 := hw.zeroSound E' T N pub w v (hN.ext.sat (he'.sat hs))
    simp only [hmap, List.map_append, List.map_cons, List.map_replicate, hv0] at h7
    have e1 : v c.variables.length :: xs.map v ++ List.replicate (n - xs.length) 0
        = List.ofFn (start n (v c.variables.length) (xs.map v)) := by
      have := start_ofFn (n := n) (v c.variables.length) (xs.map v) (by rw [List.length_map]; exact hl)
      rwa [List.length_map] at this
    rw [e1] at h7
    rw [C115_state hn hk ⟨0, List.ofFn (start n (v c.variables.length) (xs.map v)), 1 + xs.length, k⟩ rfl rfl _ rfl]
      at h7
    rw [C115_hash hn hk' _ (by rw [List.length_map]; exact hl)]
    simp only [Except.ok.injEq, Prod.mk.injEq] at h7
    rw [← h7.1]
    rfl
  refine ⟨r, c', by rw [hrun]; exact bindC_ok.2 ⟨_, _, h1, rfl⟩,
    Calls.trans' (.more .none (.add_input k.domainTag) ha) h2, fun E' hs => ?_, key⟩
  have ho := h3 E' (hN.own E' hs)
  refine ⟨ho, ?_⟩
  have := key _ _ _ _ _ _ (ho c'.n le_rfl)
  have e1 : ownV c' c.variables.length = k.domainTag := by
    rw [he'.ownV (by rw [hN.vars]; simp), hN.val]
  have e2 : xs.map (ownV c') = xs.map (ownV c) := by
    apply List.map_congr_left
    intro y hy
    exact (hN.ext.trans he').ownV (hx y hy)
  rw [e1, e2] at this
  exact this

theorem same_sat {c c2 : Composer F} (h : Same c c2) {E : EdCurve F} {T : List (F × F × F × F)}
    {N : ℕ} {pub : ℕ → F} {w : WireData → F} {v : Var → F} (hs : Sat E T N c2 pub w v) :
    Sat E T N c pub w v := by
  rw [h.1] at hs
  exact ⟨hs.fits, hs.pubZero, hs.rows, hs.copy⟩

/-- Deviation: nothing binds the domain tag. For every field element `t` a satisfied composer can be continued
to an assignment that satisfies the circuit, with the same values of all earlier variables and the same public
inputs, in which the result is the hash with the tag `t`. -/
theorem C116_tag_free {c : Composer F} (hc : Reach R E c) {E' : EdCurve F} (hs : OwnSat E' c) {n : ℕ} (hn : 0 < n)
    {k : Constants F} (hk : Fits n k) (xs : List Var) (hl : xs.length ≤ n)
    (hx : ∀ x ∈ xs, x < c.variables.length) {r : Var} {c' : Composer F}
    (h : hashCalls (plonkSpec (F := F)) (n + 1) k xs c = .ok (some r, c')) (t : F) (N : ℕ) (hN : c'.n ≤ N) :
    ∃ w v, Sat E' c'.lookup_table N c' (ownPub c') w v ∧ (∀ y < c.variables.length, v y = ownV c y) ∧
      hashCalls (nativeSpec (F := F)) (n + 1) { k with domainTag := t } (xs.map (ownV c)) = .ok (some (v r)) := by
  have hw := Reach.wf hc
  obtain ⟨c1, hN1, ha, hrun⟩ := hash_plonk_run hw k xs hl
  have hz := hw.zero
  have hin : ∀ d : Composer F, d.variables.length = c.variables.length + 1 →
      InN (n + 1) d (c.variables.length :: xs ++ List.replicate (n - xs.length) c.zero_var) := by
    intro d hd
    refine ⟨?_, by simp; omega⟩
    intro y hy
    unfold InV
    rw [hd]
    rw [List.cons_append, List.mem_cons, List.mem_append] at hy
    rcases hy with rfl | hy | hy
    · omega
    · have := hx y hy; omega
    · rw [List.eq_of_mem_replicate hy]; omega
  obtain ⟨⟨r', h'⟩, c'', h1, h2, h3, h4, h5, h6⟩ := sim_outputHash (R := R) (E := E)
    (⟨0, c.variables.length :: xs ++ List.replicate (n - xs.length) c.zero_var, 1 + xs.length, k⟩ : Hasher Var F)
    (shape_of_fits hn hk.shape) hN1.wf (hin c1 (by rw [hN1.vars]; simp))
  have e0 : hashCalls (plonkSpec (F := F)) (n + 1) k xs c = .ok (some r', c'') := by
    rw [hrun]; exact bindC_ok.2 ⟨_, _, h1, rfl⟩
  rw [e0] at h
  simp only [Except.ok.injEq, Prod.mk.injEq, Option.some.injEq] at h
  obtain ⟨rfl, rfl⟩ := h
  -- the same composer with another tag
  obtain ⟨d1, hd1, hsame⟩ := addInput_same (s2 := t) ha (Same.refl c)
  have hNd := addInput_fwd hw hd1
  obtain ⟨d2, hd2, hsame2⟩ := h6 d1 hsame
  obtain ⟨⟨r2, h2'⟩, d2', g1, g2, g3, -, g5, -⟩ := sim_outputHash (R := R) (E := E)
    (⟨0, c.variables.length :: xs ++ List.replicate (n - xs.length) c.zero_var, 1 + xs.length, k⟩ : Hasher Var F)
    (shape_of_fits hn hk.shape) hNd.wf (hin d1 (by rw [hNd.vars]; simp))
  rw [hd2] at g1
  simp only [Except.ok.injEq, Prod.mk.injEq] at g1
  obtain ⟨⟨rfl, rfl⟩, rfl⟩ := g1
  have ho := g3 E' (hNd.own E' hs)
  obtain ⟨hwd, hed⟩ := Calls.wf hNd.wf g2
  have hn2 : d2.n = c''.n := by rw [hsame2.1]
  have hp2 : ownPub d2 = ownPub c'' := by
    funext i
    unfold ownPub
    rw [hsame2.1]
  have ht2 : d2.lookup_table = c''.lookup_table := by rw [hsame2.1]
  have hsat := ho N (by omega)
  rw [hp2, ht2] at hsat
  refine ⟨ownW d2, ownV d2, same_sat hsame2 hsat, fun y hy => (hNd.ext.trans hed).ownV hy, ?_⟩
  have h7 := g5 _ _ _ _ _ _ hsat
  have hv0 : ownV d2 c.zero_var = 0 := hw.zeroSound _ _ _ _ _ _ (hNd.ext.sat (hed.sat hsat))
  have hvt : ownV d2 c.variables.length = t := by
    rw [hed.ownV (by rw [hNd.vars]; simp), hNd.val]
  have hxs : xs.map (ownV d2) = xs.map (ownV c) := by
    apply List.map_congr_left
    intro y hy
    exact (hNd.ext.trans hed).ownV (hx y hy)
  simp only [hmap, List.map_append, List.map_cons, List.map_replicate, hv0, hvt, hxs] at h7
  have hk' : Fits n { k with domainTag := t } := ⟨hk.shape, hk.full, hk.part, hk.enough⟩
  have e1 : t :: xs.map (ownV c) ++ List.replicate (n - xs.length) 0
      = List.ofFn (start n t (xs.map (ownV c))) := by
    have := start_ofFn (n := n) t (xs.map (ownV c)) (by rw [List.length_map]; exact hl)
    rwa [List.length_map] at this
  rw [e1] at h7
  rw [C115_state hn hk ⟨0, List.ofFn (start n t (xs.map (ownV c))), 1 + xs.length, k⟩ rfl rfl _ rfl] at h7
  rw [C115_hash hn hk' _ (by rw [List.length_map]; exact hl)]
  simp only [Except.ok.injEq, Prod.mk.injEq] at h7
  rw [← h7.1]
  rfl

/-- A circuit with two inputs; a second tag gives another hash for the same inputs. -/
example : ∃ (c c' : Composer K97) (x y r : Var), Reach R97 E97 c ∧ OwnSat E97 c ∧
    hashCalls (plonkSpec (F := K97)) 3 constants97 [x, y] c = .ok (some r, c') ∧
    ∃ w v, Sat E97 c'.lookup_table c'.n c' (ownPub c') w v ∧ v x = ownV c' x ∧ v y = ownV c' y ∧
      v r ≠ ownV c' r := by
  obtain ⟨c, x, y, z, h, hs, hx, hy, hz, vx, vy, vz⟩ := input3 R97 E97 10 20 0
  have hxy : ∀ u ∈ [x, y], u < c.variables.length := by
    intro u hu
    simp only [List.mem_cons, List.not_mem_nil, or_false] at hu
    rcases hu with rfl | rfl <;> assumption
  obtain ⟨r, c', h1, h2, h3, h4⟩ := C116_hash h (by omega) fits97 [x, y] (by simp) hxy
  obtain ⟨w, v, k1, k2, k3⟩ := C116_tag_free h hs (by omega) fits97 [x, y] (by simp) hxy h1 4 c'.n le_rfl
  have e := (Calls.wf (Reach.wf h) h2).2
  have h5 := (h3 E97 hs).2
  simp only [List.map_cons, List.map_nil, vx, vy] at h5 k3
  refine ⟨c, c', x, y, r, h, hs, h1, w, v, k1, ?_, ?_, ?_⟩
  · rw [k2 x hx, e.ownV hx]
  · rw [k2 y hy, e.ownV hy]
  · intro he
    rw [he, ← h5] at k3
    revert k3
    decide +kernel

end VO
