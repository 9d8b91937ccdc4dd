import Verif.Model.PlonkBench
import Verif.Props.PlonkErr
import Verif.Props.PlonkExamples

/-
C148: the benchmark circuit.
-/

set_option linter.unusedSectionVars false

namespace VO

open VO.Plonk VO.Spec VO.Spec.Plonk

variable {F : Type} [Field F] [DecidableEq F] {R : FieldRep F} {E : EdCurve F}

namespace Plonk

/-- `k` turns of the loop. -/
def dummies : ℕ → CM F (Except PErr Unit)
  | 0 => pure (.ok ())
  | k + 1 => addDummyConstraints >>= fun _ => dummies k

theorem Grow.dummy : Grow 2 [] (addDummyConstraints : CM F Unit) := by
  unfold addDummyConstraints
  exact Grow.cast (.skip (.input _) fun _ => .skip (.input _) fun _ => .skip (.input _) fun _ =>
    .skip (.input _) fun _ => (Grow.gate _ _ _ _ _).thenRows (k' := 1) fun _ =>
    .skip .zero fun _ => Grow.gate _ _ _ _ _) (by norm_num) rfl

/-- The rows after `k` turns, and when the loop goes on. -/
theorem bench_bound {n d : ℕ} (h4 : 4 ≤ n) : 2 ^ Nat.clog 2 n < 2 ^ d - 1 ↔ n ≤ 2 ^ (d - 1) ∧ 1 ≤ d := by
  have hc : 2 ≤ Nat.clog 2 n := by
    by_contra h
    have := (Nat.clog_le_iff_le_pow (b := 2) (by norm_num) (x := n) (y := 1)).1 (by omega)
    omega
  have h4' : 4 ≤ 2 ^ Nat.clog 2 n := by
    calc 4 = 2 ^ 2 := rfl
      _ ≤ _ := Nat.pow_le_pow_right (by norm_num) hc
  constructor
  · intro h
    have h1 : 2 ^ Nat.clog 2 n < 2 ^ d := by omega
    have h2 := (Nat.pow_lt_pow_iff_right (a := 2) (by norm_num)).1 h1
    exact ⟨(Nat.clog_le_iff_le_pow (by norm_num)).1 (by omega), by omega⟩
  · rintro ⟨h1, h2⟩
    have h3 := (Nat.clog_le_iff_le_pow (b := 2) (by norm_num)).2 h1
    have h5 : 2 ^ Nat.clog 2 n ≤ 2 ^ (d - 1) := Nat.pow_le_pow_right (by norm_num) h3
    have h6 : 2 ^ d = 2 * 2 ^ (d - 1) := by rw [← pow_succ']; congr 1; omega
    omega

theorem benchLoop_succ (size fuel : ℕ) (c : Composer F) : benchLoop size (fuel + 1) c =
    if circuitBound c < size - 1 then
      match (addDummyConstraints : CM F Unit) c with
      | .ok (_, c') => benchLoop size fuel c'
      | .error e => .error e
    else .ok ((), c) := rfl

/-- The loop is `k` turns, where `k` is the number that brings the rows above half of the size. -/
theorem benchLoop_eq (d : ℕ) : ∀ (k fuel : ℕ) (c : Composer F), WF c → 4 ≤ c.n →
    c.lookup_table.length ≤ 4 → k < fuel →
    (∀ j < k, c.n + 2 * j ≤ 2 ^ (d - 1) ∧ 1 ≤ d) → ¬ (c.n + 2 * k ≤ 2 ^ (d - 1) ∧ 1 ≤ d) →
    ∃ c', benchLoop (2 ^ d) fuel c = .ok ((), c') ∧ dummies k c = .ok (.ok (), c')
  | k, 0, c, _, _, _, hf, _, _ => by omega
  | 0, fuel + 1, c, hw, h4, hl, hf, h1, h2 => by
    refine ⟨c, ?_, rfl⟩
    have hb : ¬ circuitBound c < 2 ^ d - 1 := by
      unfold circuitBound
      rw [Nat.max_eq_left (by omega), bench_bound h4]
      exact h2
    rw [benchLoop_succ, if_neg hb]
  | k + 1, fuel + 1, c, hw, h4, hl, hf, h1, h2 => by
    obtain ⟨c1, e1⟩ := addDummyConstraints_run hw
    obtain ⟨w1, -, -⟩ := addDummyConstraints_fwd hw e1
    obtain ⟨n1, t1, -⟩ := Grow.dummy _ _ _ e1
    obtain ⟨c', e2, e3⟩ := benchLoop_eq d k fuel c1 w1 (by omega) (by rw [t1]; exact hl) (by omega)
      (fun j hj => by
        have := h1 (j + 1) (by omega)
        omega) (by rw [n1]; rwa [show c.n + 2 + 2 * k = c.n + 2 * (k + 1) by omega])
    refine ⟨c', ?_, bindC_ok.2 ⟨_, _, e1, e3⟩⟩
    have hb : circuitBound c < 2 ^ d - 1 := by
      unfold circuitBound
      rw [Nat.max_eq_left (by omega), bench_bound h4]
      simpa using h1 0 (by omega)
    rw [benchLoop_succ, if_pos hb, e1]
    exact e2

theorem dummies_facts : ∀ (k : ℕ) (c : Composer F), WF c → ∃ c', dummies k c = .ok (.ok (), c') ∧
    c'.n = c.n + 2 * k ∧ c'.lookup_table = c.lookup_table ∧ c'.intended_pi_pos = c.intended_pi_pos ∧
    (Reach R E c → Reach R E c') ∧
    (OwnSat E c → ((6 : F), (7 : F), (-20 : F), (1 : F)) ∈ c.lookup_table →
        ((-20 : F), (6 : F), (7 : F), (0 : F)) ∈ c.lookup_table → OwnSat E c')
  | 0, c, _ => ⟨c, rfl, rfl, rfl, rfl, fun h => h, fun h _ _ => h⟩
  | k + 1, c, hw => by
    obtain ⟨c1, e1⟩ := addDummyConstraints_run hw
    obtain ⟨w1, -, o1⟩ := addDummyConstraints_fwd hw e1
    obtain ⟨n1, t1, p1⟩ := Grow.dummy _ _ _ e1
    obtain ⟨c', e2, n2, t2, p2, r2, o2⟩ := dummies_facts k c1 w1
    refine ⟨c', bindC_ok.2 ⟨_, _, e1, e2⟩, by omega, t2.trans t1, by rw [p2, p1]; simp,
      fun h => r2 (.call h .add_dummy_constraints e1), fun h ha hb => ?_⟩
    exact o2 (o1 E h ha hb) (by rw [t1]; exact ha) (by rw [t1]; exact hb)

theorem dummies_same (k : ℕ) : SameGadget R E (dummies k : CM F _) (dummies k) := by
  induction k with
  | zero => exact .done _
  | succ k ih => exact .call (.same .add_dummy_constraints) fun _ => ih

theorem benchLoop_reach (size : ℕ) : ∀ (fuel : ℕ) (c : Composer F) (u : Unit) (c' : Composer F),
    Reach R E c → benchLoop size fuel c = .ok (u, c') → Reach R E c'
  | 0, c, u, c', _, h => by cases h
  | fuel + 1, c, u, c', hr, h => by
    rw [benchLoop_succ] at h
    split at h
    · split at h
      · rename_i e1
        exact benchLoop_reach size fuel _ u c' (.call hr .add_dummy_constraints e1) h
      · cases h
    · cases h
      exact hr

theorem bench_builds (d : ℕ) : Builds R E (benchCirc d : Circ F) := by
  intro c x c' hr h
  change benchGadget (2 ^ d) c = _ at h
  unfold benchGadget at h
  obtain ⟨u, c1, e1, g1⟩ := bindC_ok.1 h
  obtain ⟨u2, c2, e2, g2⟩ := bindC_ok.1 g1
  obtain ⟨-, rfl⟩ := pureC_ok.1 g2
  exact benchLoop_reach _ _ _ _ _ (.call hr .add_dummy_lookup_table e1) e2

/-- The number of turns. -/
def benchTurns (d : ℕ) : ℕ := 2 ^ (d - 2) - 1

theorem benchTurns_spec (d : ℕ) :
    (∀ j < benchTurns d, 4 + 2 * j ≤ 2 ^ (d - 1) ∧ 1 ≤ d) ∧
      ¬ (4 + 2 * benchTurns d ≤ 2 ^ (d - 1) ∧ 1 ≤ d) ∧ benchTurns d < 2 ^ d := by
  unfold benchTurns
  have hpos : 1 ≤ 2 ^ (d - 2) := Nat.one_le_two_pow
  rcases Nat.lt_or_ge d 2 with h | h
  · have : d = 0 ∨ d = 1 := by omega
    rcases this with rfl | rfl <;> simp
  · have h6 : 2 ^ (d - 1) = 2 * 2 ^ (d - 2) := by rw [← pow_succ']; congr 1; omega
    have h7 : 2 ^ d = 2 * 2 ^ (d - 1) := by rw [← pow_succ']; congr 1; omega
    refine ⟨fun j hj => ⟨by omega, by omega⟩, by omega, by omega⟩

/-- The gadget on a new composer. -/
theorem bench_run (R : FieldRep F) (d : ℕ) (r : (F × F × F × F) × (F × F × F × F)) :
    ∃ c, Filled (benchCirc d : Circ F) r c ∧
      Filled (⟨addDummyLookupTable >>= fun _ => dummies (benchTurns d), 2 ^ d⟩ : Circ F) r c ∧
      c.n = 4 + 2 * benchTurns d ∧
      c.lookup_table = [(6, 7, -20, 1), (-20, 6, 7, 0), (3, 1, 4, 9)] ∧ c.public_inputs = [] ∧
      c.intended_pi_pos = [] ∧ OwnSat E c := by
  obtain ⟨c0, e0, r0, s0, n0, -⟩ := C85_new (R := R) (E := E) r.1 r.2
  obtain ⟨-, b2, b3⟩ := newComposer_rows e0
  have hw := Reach.wf r0
  obtain ⟨c1, h1⟩ := addDummyLookupTable_run c0
  obtain ⟨w1, -, ht, o1⟩ := addDummyLookupTable_fwd hw h1
  have r1 : Reach R E c1 := .call r0 .add_dummy_lookup_table h1
  have hc1 : c1.n = c0.n ∧ c1.intended_pi_pos = c0.intended_pi_pos := by
    have : addDummyLookupTable c0 = .ok ((), _) := rfl
    rw [this] at h1
    cases h1
    exact ⟨rfl, rfl⟩
  rw [b2, List.nil_append] at ht
  obtain ⟨t1, t2, t3⟩ := benchTurns_spec d
  obtain ⟨c2, h2, h3⟩ := benchLoop_eq d (benchTurns d) (2 ^ d) c1 w1 (by omega) (by rw [ht]; simp) t3
    (by rw [hc1.1, n0]; exact t1) (by rw [hc1.1, n0]; exact t2)
  obtain ⟨c2', h3', f1, f2, f3, f4, f5⟩ := dummies_facts (R := R) (E := E) (benchTurns d) c1 w1
  rw [h3] at h3'
  cases h3'
  have hpos : c2.intended_pi_pos = [] := by rw [f3, hc1.2, b3]
  refine ⟨c2, ⟨c0, e0, ?_⟩, ⟨c0, e0, bindC_ok.2 ⟨_, _, h1, h3⟩⟩, by rw [f1, hc1.1, n0], by rw [f2, ht],
    ?_, hpos, ?_⟩
  · exact bindC_ok.2 ⟨_, _, h1, bindC_ok.2 ⟨_, _, h2, rfl⟩⟩
  · have hp := (Reach.wf (f4 r1)).pis
    rw [hpos] at hp
    exact List.eq_nil_iff_forall_not_mem.2 fun e he => by simpa using hp e he
  · exact f5 (o1 E s0) (by rw [ht]; simp) (by rw [ht]; simp)

theorem bench_filled_same {d : ℕ} {r r' : (F × F × F × F) × (F × F × F × F)} {c c' : Composer F}
    (h : Filled (benchCirc d : Circ F) r c) (h' : Filled (benchCirc d : Circ F) r' c') :
    SameCircuit c c' := by
  have E : EdCurve F := ⟨0, 0, fun _ _ => true⟩
  have R : FieldRep F := ⟨fun _ => 0, 0, 0⟩
  obtain ⟨c1, g1, k1, -⟩ := bench_run (R := R) (E := E) d r
  obtain ⟨c2, g2, k2, -⟩ := bench_run (R := R) (E := E) d r'
  obtain rfl := h.uniq g1
  obtain rfl := h'.uniq g2
  exact C129_gadget (R := R) (E := E) (.call (.same .add_dummy_lookup_table) fun _ => dummies_same _) k1 k2

theorem bench_table_nodup :
    ([(6, 7, -20, 1), (-20, 6, 7, 0), (3, 1, 4, 9)] : List (F × F × F × F)).Nodup := by
  have h10 : (1 : F) ≠ 0 := one_ne_zero
  simp only [List.nodup_cons, List.mem_cons, List.not_mem_nil, or_false, not_false_eq_true,
    List.nodup_nil, and_true, Prod.mk.injEq]
  refine ⟨?_, ?_⟩
  · rintro (⟨-, -, -, h⟩ | ⟨h1, -, -, h4⟩)
    · exact h10 h
    · apply h10
      linear_combination 3 * h1 + h4
  · rintro ⟨h1, -, -, h4⟩
    apply h10
    linear_combination -2 * h1 + 5 * h4

end Plonk

/-- **C148.** For degrees from 2 on the loop of the benchmark's gadget ends, and the gadget leaves `2^(degree-1) + 2` rows, a circuit of the declared padded size `2^degree`,
no public inputs, and values that satisfy it. (Deviation: the documentation of `new` promises
`2^degree` constraints.) -/
theorem C148_runs (E : EdCurve F) {d : ℕ} (hd : 2 ≤ d) (r : (F × F × F × F) × (F × F × F × F)) :
    ∃ c, Filled (benchCirc d) r c ∧ c.n = 2 ^ (d - 1) + 2 ∧ circuitBound c = (benchCirc d : Circ F).size ∧
      c.public_inputs = [] ∧ c.intended_pi_pos = [] ∧
      c.lookup_table = [(6, 7, -20, 1), (-20, 6, 7, 0), (3, 1, 4, 9)] ∧ OwnSat E c := by
  obtain ⟨c, h1, -, h2, h3, h4, h5, h6⟩ := bench_run (R := ⟨fun _ => 0, 0, 0⟩) (E := E) d r
  have hp : 1 ≤ 2 ^ (d - 2) := Nat.one_le_two_pow
  have e1 : 2 ^ (d - 1) = 2 * 2 ^ (d - 2) := by rw [← pow_succ']; congr 1; omega
  have e2 : 2 ^ d = 2 * 2 ^ (d - 1) := by rw [← pow_succ']; congr 1; omega
  have hn : c.n = 2 ^ (d - 1) + 2 := by rw [h2]; unfold benchTurns; omega
  refine ⟨c, h1, hn, ?_, h4, h5, h3, h6⟩
  show _ = 2 ^ d
  unfold circuitBound
  rw [h3, Nat.max_eq_left (by rw [hn]; simp only [List.length_cons, List.length_nil]; omega)]
  congr 1
  apply le_antisymm
  · exact (Nat.clog_le_iff_le_pow (by norm_num)).2 (by omega)
  · by_contra h
    have := (Nat.clog_le_iff_le_pow (b := 2) (by norm_num) (x := c.n) (y := d - 1)).1 (by omega)
    omega

/-- **C148.** For the degrees 0 and 1 the gadget also succeeds, but the circuit is larger than the declared
padded size. -/
theorem C148_small {d : ℕ} (hd : d ≤ 1) (r : (F × F × F × F) × (F × F × F × F)) :
    ∃ c, Filled (benchCirc d) r c ∧ circuitBound c = 4 ∧ (benchCirc d : Circ F).size ≤ 2 := by
  obtain ⟨c, h1, -, h2, h3, -⟩ := bench_run (R := ⟨fun _ => 0, 0, 0⟩)
    (E := (⟨0, 0, fun _ _ => true⟩ : EdCurve F)) d r
  have h0 : benchTurns d = 0 := by
    unfold benchTurns
    rw [show d - 2 = 0 by omega]
    rfl
  have hn : c.n = 4 := by rw [h2, h0]
  refine ⟨c, h1, ?_, ?_⟩
  · unfold circuitBound
    rw [hn, h3]
    show 2 ^ Nat.clog 2 (max 4 3) = 4
    decide +kernel
  · show 2 ^ d ≤ 2
    calc 2 ^ d ≤ 2 ^ 1 := Nat.pow_le_pow_right (by norm_num) hd
      _ = 2 := rfl

/-- **C148.** From degree 3 on the circuit has fewer rows than the documentation promises. -/
theorem C148_fewer_rows {d : ℕ} (hd : 3 ≤ d) {r : (F × F × F × F) × (F × F × F × F)} {c : Composer F}
    (h : Filled (benchCirc d) r c) : c.n < 2 ^ d := by
  obtain ⟨c', h1, h2, -⟩ := C148_runs (⟨0, 0, fun _ _ => true⟩ : EdCurve F) (by omega : 2 ≤ d) r
  obtain rfl := h.uniq h1
  have e2 : 2 ^ d = 2 * 2 ^ (d - 1) := by rw [← pow_succ']; congr 1; omega
  have e3 : 2 ^ (d - 1) = 2 * 2 ^ (d - 2) := by rw [← pow_succ']; congr 1; omega
  have e4 : 2 ^ (d - 2) = 2 * 2 ^ (d - 3) := by rw [← pow_succ']; congr 1; omega
  have hp : 1 ≤ 2 ^ (d - 3) := Nat.one_le_two_pow
  omega

/-- **C148.** The benchmark: with parameters of degree at least `2^degree` and a field with a domain of
eight times that size, the circuit compiles, and then `gen_proof` followed by `verify_proof` with the
returned (empty) public inputs fails with probability at most `(7·2^degree + 36) / |F|` over the
challenges. The parameters of the code are `2^19` and the degrees `5` to `18`. -/
theorem C148_accepts [Fintype F] {K : PField F} {P : PCS F} {dd m d : ℕ} (hK : PFieldOk K)
    (hP : PcsComplete P dd) (E : EdCurve F) (hd : 2 ≤ d) (hdd : 2 ^ d ≤ dd) (hm : 2 ^ d ≤ m)
    (h8 : d + 3 ≤ K.fft.twoAdicity) (rp rv r r' rn : (F × F × F × F) × (F × F × F × F))
    (label : String) :
    ∃ pk vk, circuitCompile K P m (benchCirc d) rp rv = .ok (pk, vk, []) ∧
      Odds F (7 * 2 ^ d + 36)
        fun t : F × F × F × F × F × F × F × F × F × F × F × F × F × F =>
        let (zeta, beta, gamma, delta, epsilon, alpha, range, logic, fixed, var, lookup, z, aw, saw) := t
        let ro : Transcript F P.Comm → F := coins [zeta, beta, gamma, delta, epsilon, alpha, range,
          logic, fixed, var, lookup, z, aw, saw]
        ¬ ∃ pr, circuitProve K E P ro m (benchCirc d) pk label r r' = .ok (pr, []) ∧
          circuitVerify K E P ro m vk pr [] label rn = .ok () := by
  obtain ⟨cp, hp, -⟩ := C148_runs E hd rp
  obtain ⟨cv, hv, -⟩ := C148_runs E hd rv
  obtain ⟨c, hc, -, hb, h1, h2, h3, hs⟩ := C148_runs E hd r
  obtain ⟨pk, vk, k1, k2⟩ := C110_succeeds (R := ⟨fun _ => 0, 0, 0⟩) (E := E) (n := 2 ^ d) hK hP
    (bench_builds d) (bench_builds d) hp hv hc hs hb.symm hdd (bench_filled_same hp hc)
    (bench_filled_same hv hc) rfl le_rfl hm
    (by
      refine (Nat.clog_le_of_le_pow ?_).trans h8
      rw [pow_add]
      omega)
    (by rw [h3]; exact bench_table_nodup) label (r' := r') (rn := rn)
  rw [h2] at k1
  rw [h1, h3] at k2
  exact ⟨pk, vk, k1, (succeeds_odds _ _ _ k2).mono (by simp only [List.length_cons, List.length_nil]; omega)
    fun _ h => h⟩

/-- Degree 3 over the field with 7681 elements: six rows and at most 92 of 7681 cases. -/
example (r r' rn : (K7681 × K7681 × K7681 × K7681) × (K7681 × K7681 × K7681 × K7681)) :
    ∃ pk vk, circuitCompile pf7681 (idealPcs K7681 8) 8 (benchCirc 3) r r = .ok (pk, vk, []) ∧
    Odds K7681 92 fun t : K7681 × K7681 × K7681 × K7681 × K7681 × K7681 × K7681 × K7681 × K7681 ×
        K7681 × K7681 × K7681 × K7681 × K7681 =>
      let (zeta, beta, gamma, delta, epsilon, alpha, range, logic, fixed, var, lookup, z, aw, saw) := t
      let ro : Transcript K7681 (idealPcs K7681 8).Comm → K7681 := coins [zeta, beta, gamma, delta,
        epsilon, alpha, range, logic, fixed, var, lookup, z, aw, saw]
      ¬ ∃ pr, circuitProve pf7681 E7681 (idealPcs K7681 8) ro 8 (benchCirc 3) pk "ark" r r'
            = .ok (pr, []) ∧
        circuitVerify pf7681 E7681 (idealPcs K7681 8) ro 8 vk pr [] "ark" rn = .ok () :=
  C148_accepts pf7681_ok (ideal_complete (F := K7681) 8) E7681 (by norm_num) le_rfl le_rfl
    (by decide +kernel) r r r r' rn "ark"

example (r : (K7681 × K7681 × K7681 × K7681) × (K7681 × K7681 × K7681 × K7681)) :
    ∃ c : Composer K7681, Filled (benchCirc 3) r c ∧ c.n = 6 := by
  obtain ⟨c, h1, h2, -⟩ := C148_runs E7681 (by norm_num : 2 ≤ 3) r
  exact ⟨c, h1, h2⟩

end VO
