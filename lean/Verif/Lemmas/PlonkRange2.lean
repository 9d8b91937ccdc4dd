import Verif.Lemmas.PlonkRange

/-
The range gate: what it enforces and when it succeeds.
-/

set_option linter.unusedSectionVars false

namespace VO.Plonk

open VO.Spec.Plonk

variable {F : Type} [Field F] [DecidableEq F]

theorem wpos_row (n0 t : ℕ) :
    wpos n0 (4 * t) = .fourth (n0 + t) ∧ wpos n0 (4 * t + 1) = .output (n0 + t) ∧
    wpos n0 (4 * t + 2) = .right (n0 + t) ∧ wpos n0 (4 * t + 3) = .left (n0 + t) := by
  unfold wpos
  refine ⟨?_, ?_, ?_, ?_⟩
  · rw [if_pos (by omega)]; congr 2; omega
  · rw [if_neg (by omega), if_pos (by omega)]; congr 2; omega
  · rw [if_neg (by omega), if_neg (by omega), if_pos (by omega)]; congr 2; omega
  · rw [if_neg (by omega), if_neg (by omega), if_neg (by omega)]; congr 2; omega

/-- The range equations of a row are digits between consecutive positions. -/
theorem rangeOk_iff {N n0 t : ℕ} (hN : n0 + t + 1 < N) (w : WireData → F) :
    RangeOk (rowAt N w (n0 + t)) ↔
      ∀ s < 4, IsQuad (w (wpos n0 (4 * t + s + 1)) - 4 * w (wpos n0 (4 * t + s))) := by
  obtain ⟨e0, e1, e2, e3⟩ := wpos_row n0 t
  have e4 := (wpos_row n0 (t + 1)).1
  have hm : (n0 + t + 1) % N = n0 + (t + 1) := by rw [Nat.mod_eq_of_lt hN]; omega
  unfold RangeOk rowAt
  simp only [hm]
  constructor
  · rintro ⟨h0, h1, h2, h3⟩ s hs
    have : s = 0 ∨ s = 1 ∨ s = 2 ∨ s = 3 := by omega
    rcases this with rfl | rfl | rfl | rfl
    · rw [add_zero, e1, e0]; exact h0
    · rw [show 4 * t + 1 + 1 = 4 * t + 2 by ring, e2, e1]; exact h1
    · rw [show 4 * t + 2 + 1 = 4 * t + 3 by ring, e3, e2]; exact h2
    · rw [show 4 * t + 3 + 1 = 4 * (t + 1) by ring, e4, e3]; exact h3
  · intro h
    have h0 := h 0 (by norm_num)
    have h1 := h 1 (by norm_num)
    have h2 := h 2 (by norm_num)
    have h3 := h 3 (by norm_num)
    rw [add_zero, e1, e0] at h0
    rw [show 4 * t + 1 + 1 = 4 * t + 2 by ring, e2, e1] at h1
    rw [show 4 * t + 2 + 1 = 4 * t + 3 by ring, e3, e2] at h2
    rw [show 4 * t + 3 + 1 = 4 * (t + 1) by ring, e4, e3] at h3
    exact ⟨h0, h1, h2, h3⟩

/-- Base-four accumulation from zero. -/
theorem quad_chain {a : ℕ → F} {k : ℕ} (h0 : a 0 = 0)
    (h : ∀ j < k, IsQuad (a (j + 1) - 4 * a j)) : ∃ m < 4 ^ k, a k = ((m : ℕ) : F) := by
  induction k with
  | zero => exact ⟨0, by norm_num, by simpa using h0⟩
  | succ k ih =>
    obtain ⟨m, hm, e⟩ := ih (fun j hj => h j (by omega))
    obtain ⟨q, hq, e2⟩ := isQuad_iff.1 (h k (by omega))
    refine ⟨4 * m + q, by rw [pow_succ]; omega, ?_⟩
    push_cast
    rw [← e, ← e2]
    ring

/-- The numbers of gates and pads of a range gate. -/
theorem range_count {numBits g : ℕ} (he : numBits % 2 = 0)
    (hg : g = if numBits % 8 = 0 then numBits / 8 else numBits / 8 + 1) :
    g * 4 + 1 - (1 + (g * 4 * 2 - numBits) / 2) = numBits / 2 ∧
    (1 + (g * 4 * 2 - numBits) / 2) + numBits / 2 = g * 4 + 1 := by
  split at hg <;> omega

/-- The range gate, taken apart. -/
theorem rangeGate_parts {R : FieldRep F} {c c' : Composer F} (hw : WF c) {x : Var}
    {numBits : ℕ} {u : Unit} (h : rangeGate R x numBits c = .ok (u, c')) :
    numBits % 2 = 0 ∧ 0 < numBits ∧ numBits ≤ R.bigBits ∧ x < c.variables.length ∧
    ∃ g pad ys c1 last, pad + numBits / 2 = 4 * g + 1 ∧ 0 < pad ∧
      ys.length = numBits / 2 ∧ RInv c (List.replicate pad c.zero_var ++ ys) c1 ∧
      ys.getLast? = some last ∧
      assertEqual last x (rangeEnd c1 g c.zero_var) = .ok (u, c') ∧
      (∀ (j : ℕ) y, ys[j]? = some y →
        c1.variables[y]? = some
          ((R.toNat (ownV c x) % 2 ^ numBits / 4 ^ (numBits / 2 - 1 - j) : ℕ) : F)) := by
  unfold rangeGate at h
  obtain ⟨u0, c0, h0, g0⟩ := bindC_ok.1 h
  obtain ⟨heven, rfl⟩ := assertC_ok.1 h0
  obtain ⟨wv, c1, h1, g1⟩ := bindC_ok.1 g0
  obtain ⟨hwv, rfl⟩ := valueOfVar_ok.1 h1
  generalize hg : (if numBits % 8 = 0 then numBits / 8 else numBits / 8 + 1) = g at g1
  obtain ⟨hk, hpk⟩ := range_count heven hg.symm
  obtain ⟨z, c2, h2, g2⟩ := bindC_ok.1 g1
  obtain ⟨rfl, rfl⟩ := zeroVar_ok.1 h2
  obtain ⟨u1, c3, h3, g3⟩ := bindC_ok.1 g2
  obtain ⟨accs, c4, h4, g4⟩ := bindC_ok.1 g3
  set pad := 1 + (g * 4 * 2 - numBits) / 2 with hpad
  have hxl : x < c.variables.length := (List.getElem?_eq_some_iff.1 hwv).1
  obtain ⟨c3', e3, r3, v3⟩ := RInv.pad (z := c.zero_var) pad (RInv.start hw) hw.zero
  rw [List.length_nil] at e3
  rw [h3] at e3
  injection e3 with e3
  injection e3 with _ e3
  subst e3
  rw [hk] at h4
  have g4' : ∃ c5, ((do
      extendRangeSelectors (g + 1)
      bump (g + 1)
      clearLastRange
      pushL c.zero_var
      pushR c.zero_var
      pushO c.zero_var) : CM F Unit) c4 = .ok ((), c5) ∧
      (match accs.getLast? with
        | none => panicC
        | some last => assertEqual last x : CM F Unit) c5 = .ok (u, c') := by
    obtain ⟨v1, d1, a1, b1⟩ := bindC_ok.1 g4
    obtain ⟨v2, d2, a2, b2⟩ := bindC_ok.1 b1
    obtain ⟨v3, d3, a3, b3⟩ := bindC_ok.1 b2
    obtain ⟨v4, d4, a4, b4⟩ := bindC_ok.1 b3
    obtain ⟨v5, d5, a5, b5⟩ := bindC_ok.1 b4
    obtain ⟨v6, d6, a6, b6⟩ := bindC_ok.1 b5
    exact ⟨d6, bindC_ok.2 ⟨v1, d1, a1, bindC_ok.2 ⟨v2, d2, a2, bindC_ok.2 ⟨v3, d3, a3,
      bindC_ok.2 ⟨v4, d4, a4, bindC_ok.2 ⟨v5, d5, a5, a6⟩⟩⟩⟩⟩, b6⟩
  obtain ⟨c5, e5, g5⟩ := g4'
  rw [rangeEnd_run] at e5
  injection e5 with e5
  injection e5 with _ e5
  subst e5
  have hpos : 0 < numBits := by
    by_contra hcon
    have : numBits / 2 = 0 := by omega
    rw [this] at h4
    unfold accLoop at h4
    obtain ⟨rfl, rfl⟩ := pureC_ok.1 h4
    exact (panicC_ok.1 g5).elim
  obtain ⟨k, hk1⟩ : ∃ k, numBits / 2 = k + 1 := ⟨numBits / 2 - 1, by omega⟩
  have hb := h4
  rw [hk1] at hb
  have hb := accLoop_bits hb
  have hbl : (bitsLe R wv).length = R.bigBits := by simp [bitsLe]
  have hbig : numBits ≤ R.bigBits := by omega
  obtain ⟨ys, c4', e4, r4, l4, p4, v4⟩ := RInv.acc (bits := bitsLe R wv) (numQuads := g * 4)
    (numBits / 2) (acc := 0) r3 (by simp only [List.nil_append, List.length_replicate]; omega)
    (by simpa using hb)
  simp only [List.nil_append, List.length_replicate] at e4 r4 v4
  rw [h4] at e4
  injection e4 with e4
  injection e4 with e4a e4b
  subst e4a
  subst e4b
  refine ⟨heven, hpos, hbig, hxl, g, pad, accs, c4, ?_⟩
  cases hlast : accs.getLast? with
  | none => rw [hlast] at g5; exact (panicC_ok.1 g5).elim
  | some last =>
    rw [hlast] at g5
    refine ⟨last, by omega, by omega, l4, r4, rfl, g5, ?_⟩
    intro j y hy
    have hm : R.toNat (ownV c x) = R.toNat wv := by rw [ownV_of_some hwv]
    rw [hm]
    have hlt : R.toNat wv % 2 ^ numBits < 2 ^ numBits := Nat.mod_lt _ (by positivity)
    have hzero : (0 : F) = ((R.toNat wv % 2 ^ numBits / 4 ^ (g * 4 + 1 - pad) : ℕ) : F) := by
      rw [hk, Nat.div_eq_of_lt, Nat.cast_zero]
      calc R.toNat wv % 2 ^ numBits < 2 ^ numBits := hlt
        _ = 4 ^ (numBits / 2) := by
          rw [show (4 : ℕ) = 2 ^ 2 by norm_num, ← pow_mul]
          congr 1; omega
    have := v4 (R.toNat wv % 2 ^ numBits) (by
      intro i hi
      have hi' : i < R.bigBits := by omega
      have hi2 : i < numBits := by omega
      simp [bitsLe, List.getElem?_map, List.getElem?_range hi', Nat.testBit_mod_two_pow, hi2])
      hzero j y hy
    rw [this]
    congr 4
    omega

theorem rangeGate_fwd {R : FieldRep F} {c c' : Composer F} (hw : WF c) {x : Var}
    {numBits : ℕ} {u : Unit} (h : rangeGate R x numBits c = .ok (u, c')) :
    numBits % 2 = 0 ∧ 0 < numBits ∧ numBits ≤ R.bigBits ∧ x < c.variables.length ∧
    WF c' ∧ Ext c c' ∧
    (∀ E T N pub w v, Sat E T N c' pub w v → ∃ m < 2 ^ numBits, v x = ((m : ℕ) : F)) ∧
    (RepOk R → ∀ E, OwnSat E c → R.toNat (ownV c x) < 2 ^ numBits → OwnSat E c') := by
  obtain ⟨heven, hpos, hbig, hxl, g, pad, ys, c1, last, hpk, hpad, hyl, hR, hlast, hassert, hval⟩ :=
    rangeGate_parts hw h
  have hlen : (List.replicate pad c.zero_var ++ ys).length = 4 * g + 1 := by
    simp only [List.length_append, List.length_replicate]; omega
  set xs := List.replicate pad c.zero_var ++ ys with hxs
  obtain ⟨hwE, hextE, hwire⟩ := rangeEnd_facts hw hR hlen
  obtain ⟨hP, hPv⟩ := assertEqual_fwd hwE hassert
  have hn : (rangeEnd c1 g c.zero_var).n = c.n + (g + 1) := by
    show c1.n + (g + 1) = _
    rw [hR.n]
  have hsel : Lens c1 c.n := by
    rw [hR.eq]
    exact ⟨hw.sel.1, hw.sel.2, hw.sel.3, hw.sel.4, hw.sel.5, hw.sel.6, hw.sel.7, hw.sel.8,
      hw.sel.9, hw.sel.10, hw.sel.11, hw.sel.12, hw.sel.13, hw.sel.14, hw.sel.15⟩
  have hxz : xs[pad - 1]? = some c.zero_var := by
    rw [hxs, List.getElem?_append_left (by simp; omega), List.getElem?_replicate, if_pos (by omega)]
  have hxl' : xs[4 * g]? = some last := by
    rw [List.getLast?_eq_getElem?] at hlast
    rw [hxs, List.getElem?_append_right (by simp; omega), List.length_replicate, ← hlast]
    congr 1; omega
  have hpow : (2 : ℕ) ^ numBits = 4 ^ (numBits / 2) := by
    rw [show (4 : ℕ) = 2 ^ 2 by norm_num, ← pow_mul]
    congr 1; omega
  refine ⟨heven, hpos, hbig, hxl, hP.wf, hextE.trans hP.ext, ?_, ?_⟩
  · intro E T N pub w v hs
    have hsE := hP.ext.sat hs
    have hN : c.n + (g + 1) < N := by
      have := hs.fits
      rw [hP.n, hn] at this
      omega
    have heq := assertEqual_sound hwE hassert hs
    have hquad : ∀ j < 4 * g, IsQuad (w (wpos c.n (j + 1)) - 4 * w (wpos c.n j)) := by
      intro j hj
      have hrow := (hsE.rows (c.n + j / 4) (by rw [hn]; omega)).range (by
        rw [gateAt_rangeEnd hsel, if_neg (by omega), if_pos (by omega)]
        exact one_ne_zero)
      have := (rangeOk_iff (by omega) w).1 hrow (j % 4) (by omega)
      rwa [show 4 * (j / 4) + j % 4 = j by omega] at this
    have hz : w (wpos c.n (pad - 1)) = 0 := by
      rw [hsE.copy _ _ (hwire _ _ hxz)]
      exact hw.zeroSound _ _ _ _ _ _ (hextE.sat hsE)
    obtain ⟨m, hm, e⟩ := quad_chain (a := fun j => w (wpos c.n (pad - 1 + j))) (k := numBits / 2)
      hz (fun j hj => hquad (pad - 1 + j) (by omega))
    refine ⟨m, by rw [hpow]; exact hm, ?_⟩
    rw [← heq, ← hsE.copy _ _ (hwire _ _ hxl'), ← e]
    congr 2
    omega
  · intro hrep E hs hlt
    rw [Nat.mod_eq_of_lt hlt] at hval
    have hzv : ownV c1 c.zero_var = 0 := by
      have h0 := hw.zeroVal hs
      rw [← h0]
      obtain ⟨t, ht⟩ := hR.vars
      unfold ownV
      rw [← ht]
      exact getD_append_left' _ hw.zero
    set m := R.toNat (ownV c x) with hm
    have hxv : ∀ (j : ℕ) y, xs[j]? = some y → ownV c1 y = ((m / 4 ^ (4 * g - j) : ℕ) : F) := by
      intro j y hy
      by_cases hj : j < pad
      · rw [hxs, List.getElem?_append_left (by simpa using hj), List.getElem?_replicate,
          if_pos hj] at hy
        cases hy
        rw [hzv, Nat.div_eq_of_lt, Nat.cast_zero]
        refine lt_of_lt_of_le hlt ?_
        rw [hpow]
        exact Nat.pow_le_pow_right (by norm_num) (by omega)
      · rw [hxs, List.getElem?_append_right (by simpa using hj), List.length_replicate] at hy
        have hjl : j < 4 * g + 1 := by
          have := (List.getElem?_eq_some_iff.1 hy).1
          omega
        have hidx : numBits / 2 - 1 - (j - pad) = 4 * g - j := by omega
        rw [ownV_of_some (hval _ _ hy), hidx]
    have hownE : OwnSat E (rangeEnd c1 g c.zero_var) := by
      refine hs.ext hw hwE hextE (fun i hi => hwE.ownPub_zero hi) ?_
      intro N hN i h1 h2
      rw [hn] at h2 hN
      have hpub : ownPub (rangeEnd c1 g c.zero_var) i = 0 := by
        refine hwE.ownPub_zero ?_
        intro hi
        have : i ∈ c1.intended_pi_pos := hi
        rw [hR.eq] at this
        have := hw.int i this
        omega
      rw [hpub, gateAt_rangeEnd hsel, if_neg (by omega)]
      split
      · next hi =>
        refine ⟨?_, ?_, fun h => absurd rfl h, fun h => absurd rfl h, fun h => absurd rfl h,
          fun h => absurd rfl h⟩
        · simp [ArithOk, gate0]
        · intro _
          obtain ⟨t, rfl⟩ : ∃ t, i = c.n + t := ⟨i - c.n, by omega⟩
          rw [rangeOk_iff (by omega)]
          intro s hs4
          have key : ∀ j, j < 4 * g + 1 → ownW (rangeEnd c1 g c.zero_var) (wpos c.n j)
              = ((m / 4 ^ (4 * g - j) : ℕ) : F) := by
            intro j hj
            have hj' : xs[j]? = some xs[j] := List.getElem?_eq_getElem (by omega)
            have h3 := hwE.agree _ _ (hwire _ _ hj')
            unfold ownW
            rw [h3]
            exact hxv j _ hj'
          rw [key _ (by omega), key _ (by omega)]
          have e : 4 * g - (4 * t + s) = (4 * g - (4 * t + s + 1)) + 1 := by omega
          rw [e, pow_succ, ← Nat.div_div_eq_div_mul]
          have := Nat.div_add_mod (m / 4 ^ (4 * g - (4 * t + s + 1))) 4
          rw [isQuad_iff]
          refine ⟨m / 4 ^ (4 * g - (4 * t + s + 1)) % 4, Nat.mod_lt _ (by norm_num), ?_⟩
          generalize m / 4 ^ (4 * g - (4 * t + s + 1)) = q at this ⊢
          have hq : ((q : ℕ) : F) = 4 * ((q / 4 : ℕ) : F) + ((q % 4 : ℕ) : F) := by
            conv_lhs => rw [← this]
            push_cast
            rfl
          rw [hq]
          ring
      · refine ⟨?_, fun h => absurd rfl h, fun h => absurd rfl h, fun h => absurd rfl h,
          fun h => absurd rfl h, fun h => absurd rfl h⟩
        simp [ArithOk, gate0]
    refine hP.own hownE ?_
    have e1 : ownV c' last = ownV c x := by
      have : ownV c' last = ownV c1 last := by unfold ownV; rw [hPv]; rfl
      rw [this, hxv _ _ hxl']
      simp [hm, hrep.cast]
    have e2 : ownV c' x = ownV c x := (hextE.trans hP.ext).ownV hxl
    rw [e1, e2]
    simp

theorem rangeGate_run {R : FieldRep F} {c : Composer F} (hw : WF c) {x : Var}
    {numBits : ℕ} (heven : numBits % 2 = 0) (hpos : 0 < numBits) (hbig : numBits ≤ R.bigBits)
    (hx : x < c.variables.length) : ∃ c', rangeGate R x numBits c = .ok ((), c') := by
  generalize hg : (if numBits % 8 = 0 then numBits / 8 else numBits / 8 + 1) = g
  obtain ⟨hk, hpk⟩ := range_count heven hg.symm
  set pad := 1 + (g * 4 * 2 - numBits) / 2 with hpad
  obtain ⟨c3, e3, r3, v3⟩ := RInv.pad (z := c.zero_var) pad (RInv.start hw) hw.zero
  have hbl : (bitsLe R (ownV c x)).length = R.bigBits := by simp [bitsLe]
  obtain ⟨ys, c4, e4, r4, l4, p4, -⟩ := RInv.acc (bits := bitsLe R (ownV c x)) (numQuads := g * 4)
    (numBits / 2) (acc := 0) r3 (by simp only [List.nil_append, List.length_replicate]; omega)
    (by simp only [List.nil_append, List.length_replicate]; omega)
  simp only [List.nil_append, List.length_replicate, List.length_nil] at e3 e4 r4
  have hlen : (List.replicate pad c.zero_var ++ ys).length = 4 * g + 1 := by
    simp only [List.length_append, List.length_replicate]; omega
  obtain ⟨hwE, hextE, hwire⟩ := rangeEnd_facts hw r4 hlen
  obtain ⟨last, hlast⟩ : ∃ l, ys.getLast? = some l := by
    cases h : ys.getLast? with
    | none => rw [List.getLast?_eq_none_iff] at h; rw [h] at l4; simp at l4; omega
    | some l => exact ⟨l, rfl⟩
  have hll : last < c4.variables.length := by
    have h1 : last ∈ ys := List.mem_of_getLast? hlast
    obtain ⟨j, hj, e⟩ := List.getElem_of_mem h1
    refine r4.xsv (pad + j) last ?_
    rw [List.getElem?_append_right (by simp), List.length_replicate, Nat.add_sub_cancel_left,
      List.getElem?_eq_getElem hj, e]
  obtain ⟨c', h'⟩ := assertEqual_run hwE (a := last) (b := x) hll (hextE.lt hx)
  refine ⟨c', ?_⟩
  unfold rangeGate
  refine bindC_ok.2 ⟨(), c, assertC_ok.2 ⟨heven, rfl⟩, bindC_ok.2 ⟨_, _, valueOfVar_run hx, ?_⟩⟩
  simp only [hg]
  refine bindC_ok.2 ⟨_, _, rfl, bindC_ok.2 ⟨_, _, e3, bindC_ok.2 ⟨ys, c4, ?_, ?_⟩⟩⟩
  · rw [hk]; exact e4
  obtain ⟨v1, d1, a1, b1⟩ := bindC_ok.1 (rangeEnd_run c4 g c.zero_var)
  obtain ⟨v2, d2, a2, b2⟩ := bindC_ok.1 b1
  obtain ⟨v3, d3, a3, b3⟩ := bindC_ok.1 b2
  obtain ⟨v4, d4, a4, b4⟩ := bindC_ok.1 b3
  obtain ⟨v5, d5, a5, b5⟩ := bindC_ok.1 b4
  refine bindC_ok.2 ⟨v1, d1, a1, bindC_ok.2 ⟨v2, d2, a2, bindC_ok.2 ⟨v3, d3, a3,
      bindC_ok.2 ⟨v4, d4, a4, bindC_ok.2 ⟨v5, d5, a5, bindC_ok.2 ⟨_, _, b5, ?_⟩⟩⟩⟩⟩⟩
  rw [hlast]
  exact h'

end VO.Plonk
