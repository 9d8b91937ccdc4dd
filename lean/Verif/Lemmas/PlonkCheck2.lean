import Verif.Lemmas.PlonkCheck
import Verif.Lemmas.PlonkReach
import Verif.Lemmas.PlonkPre
import Verif.Model.PlonkCheck

/-
The rows of a reachable composer: on the range and logic rows the composer's own values always
satisfy the gate.
-/

set_option linter.unusedSectionVars false

namespace VO.Plonk

open VO.Spec.Plonk

variable {F : Type} [Field F] [DecidableEq F]

/-- What is known of a row of a reachable composer. -/
structure HonRow (R : FieldRep F) (c : Composer F) (i : ℕ) : Prop where
  arith : (gateAt c i).arith = 0 ∨ (gateAt c i).arith = 1
  pi : i ∈ c.intended_pi_pos → (gateAt c i).arith = 1 ∨ (gateAt c i).lookup = 1
  range : (gateAt c i).range ≠ 0 → i + 1 < c.n ∧ RangeOk (rowAt c.n (ownW c) i)
  logic : (gateAt c i).logic ≠ 0 → i + 1 < c.n ∧
    LogicOk (gateAt c i) (rowAt c.n (ownW c) i) ∧
    ∃ x A B, (gateAt c i).logic = (if x then -1 else 1) ∧ A < 2 ^ (R.modBits - 1) ∧
      B < 2 ^ (R.modBits - 1) ∧ (rowAt c.n (ownW c) i).a = ((A : ℕ) : F) ∧
      (rowAt c.n (ownW c) i).b = ((B : ℕ) : F) ∧
      (rowAt c.n (ownW c) i).d = ((opN x A B : ℕ) : F)

theorem rowAt_ext {c c' : Composer F} (hw : WF c) (he : Ext c c') {i : ℕ} (hi : i + 1 < c.n) :
    rowAt c'.n (ownW c') i = rowAt c.n (ownW c) i := by
  have h1 : (i + 1) % c.n = i + 1 := Nat.mod_eq_of_lt hi
  have h2 : (i + 1) % c'.n = i + 1 := Nat.mod_eq_of_lt (lt_of_lt_of_le hi he.n)
  unfold rowAt
  rw [h1, h2]
  congr 1 <;> exact he.ownW hw (by simp only [WireData.row]; omega)

theorem HonRow.ext {R : FieldRep F} {c c' : Composer F} {i : ℕ} (h : HonRow R c i) (hw : WF c)
    (he : Ext c c') (hi : i < c.n) : HonRow R c' i := by
  have hg := he.gate i hi
  refine ⟨by rw [hg]; exact h.arith, ?_, ?_, ?_⟩
  · rw [hg, he.int i hi]; exact h.pi
  · rw [hg]
    intro hr
    obtain ⟨h1, h2⟩ := h.range hr
    exact ⟨lt_of_lt_of_le h1 he.n, by rw [rowAt_ext hw he h1]; exact h2⟩
  · rw [hg]
    intro hr
    obtain ⟨h1, h2⟩ := h.logic hr
    exact ⟨lt_of_lt_of_le h1 he.n, by rw [rowAt_ext hw he h1]; exact h2⟩

theorem honRow_plain {R : FieldRep F} {n0 : ℕ} {c : Composer F} (h : PlainC n0 c) {i : ℕ}
    (h1 : n0 ≤ i) (h2 : i < c.n) : HonRow R c i := by
  have := h.rows i h1 h2
  exact ⟨this.arith, this.pi, fun hr => absurd this.range hr, fun hr => absurd this.logic hr⟩

/-- The range gate: all new rows are honest, whatever the value of the witness. -/
theorem rangeGate_hon {R : FieldRep F} {c c' : Composer F} (hw : WF c)
    (hz : ownV c c.zero_var = 0) {x : Var} {numBits : ℕ} {u : Unit}
    (h : rangeGate R x numBits c = .ok (u, c')) {i : ℕ} (h1 : c.n ≤ i) (h2 : i < c'.n) :
    HonRow R c' i := by
  obtain ⟨heven, hpos, hbig, hxl, g, pad, ys, c1, last, hpk, hpad, hyl, hR, hlast, hassert, hval⟩ :=
    rangeGate_parts hw h
  have hlen : (List.replicate pad c.zero_var ++ ys).length = 4 * g + 1 := by
    simp only [List.length_append, List.length_replicate]; omega
  set xs := List.replicate pad c.zero_var ++ ys with hxs
  obtain ⟨hwE, hextE, hwire⟩ := rangeEnd_facts hw hR hlen
  obtain ⟨hP, hPv⟩ := assertEqual_fwd hwE hassert
  have hn : (rangeEnd c1 g c.zero_var).n = c.n + (g + 1) := by
    show c1.n + (g + 1) = _
    rw [hR.n]
  have hsel : Lens c1 c.n := by
    rw [hR.eq]
    exact ⟨hw.sel.1, hw.sel.2, hw.sel.3, hw.sel.4, hw.sel.5, hw.sel.6, hw.sel.7, hw.sel.8,
      hw.sel.9, hw.sel.10, hw.sel.11, hw.sel.12, hw.sel.13, hw.sel.14, hw.sel.15⟩
  have hnotpi : ∀ j ∈ (rangeEnd c1 g c.zero_var).intended_pi_pos, j < c.n := by
    intro j hj
    have : j ∈ c1.intended_pi_pos := hj
    rw [hR.eq] at this
    exact hw.int j this
  rcases Nat.lt_or_ge i (c.n + (g + 1)) with hlt | hge
  · -- a row of the gate itself
    refine HonRow.ext ?_ hwE hP.ext (by rw [hn]; exact hlt)
    have hg : gateAt (rangeEnd c1 g c.zero_var) i
        = if i < c.n + g then { (gate0 : Gate F) with range := 1 } else gate0 := by
      rw [gateAt_rangeEnd hsel, if_neg (by omega)]
    refine ⟨?_, fun hi => absurd (hnotpi i hi) (by omega), ?_, ?_⟩
    · rw [hg]; split_ifs <;> exact Or.inl rfl
    · rw [hg, hn]
      intro hr
      have hi : i < c.n + g := by
        by_contra hc
        rw [if_neg hc] at hr
        exact hr rfl
      refine ⟨by omega, ?_⟩
      obtain ⟨t, rfl⟩ : ∃ t, i = c.n + t := ⟨i - c.n, by omega⟩
      rw [rangeOk_iff (by omega)]
      set m := R.toNat (ownV c x) % 2 ^ numBits with hm
      have hpow : (2 : ℕ) ^ numBits = 4 ^ (numBits / 2) := by
        rw [show (4 : ℕ) = 2 ^ 2 by norm_num, ← pow_mul]
        congr 1; omega
      have hmlt : m < 2 ^ numBits := Nat.mod_lt _ (by positivity)
      have hzv : ownV c1 c.zero_var = 0 := by
        rw [← hz]
        obtain ⟨t, ht⟩ := hR.vars
        unfold ownV
        rw [← ht]
        exact getD_append_left' _ hw.zero
      have hxv : ∀ (j : ℕ) y, xs[j]? = some y → ownV c1 y = ((m / 4 ^ (4 * g - j) : ℕ) : F) := by
        intro j y hy
        by_cases hj : j < pad
        · rw [hxs, List.getElem?_append_left (by simpa using hj), List.getElem?_replicate,
            if_pos hj] at hy
          cases hy
          rw [hzv, Nat.div_eq_of_lt, Nat.cast_zero]
          refine lt_of_lt_of_le hmlt ?_
          rw [hpow]
          exact Nat.pow_le_pow_right (by norm_num) (by omega)
        · rw [hxs, List.getElem?_append_right (by simpa using hj), List.length_replicate] at hy
          have hjl : j < 4 * g + 1 := by
            have := (List.getElem?_eq_some_iff.1 hy).1
            omega
          have hidx : numBits / 2 - 1 - (j - pad) = 4 * g - j := by omega
          rw [ownV_of_some (hval _ _ hy), hidx]
      have key : ∀ j, j < 4 * g + 1 → ownW (rangeEnd c1 g c.zero_var) (wpos c.n j)
          = ((m / 4 ^ (4 * g - j) : ℕ) : F) := by
        intro j hj
        have hj' : xs[j]? = some xs[j] := List.getElem?_eq_getElem (by omega)
        have h3 := hwE.agree _ _ (hwire _ _ hj')
        unfold ownW
        rw [h3]
        exact hxv j _ hj'
      intro s hs4
      rw [key _ (by omega), key _ (by omega), isQuad_iff]
      refine ⟨m / 4 ^ (4 * g - (4 * t + s + 1)) % 4, Nat.mod_lt _ (by norm_num), ?_⟩
      have := acc_step (F := F) m (k := 4 * g) (j := 4 * t + s) (by omega)
      rw [← this]
      ring
    · rw [hg]
      intro hr
      split_ifs at hr <;> exact absurd rfl hr
  · -- the row of the final assertion
    have hPl : PlainC (c.n + (g + 1)) c' := by
      refine (plain_eq last x).elim ?_ hassert
      refine ⟨hwE.sel.q_arith, hwE.sel.q_range, hwE.sel.q_logic, hwE.sel.q_lookup, hwE.int, ?_⟩
      intro j hj1 hj2
      rw [hn] at hj2
      omega
    exact honRow_plain hPl hge h2

theorem logicArg_le (R : FieldRep F) (x : F) (k : ℕ) : logicArg R x k ≤ R.toNat x :=
  (Nat.mod_le _ _).trans (Nat.div_le_self _ _)

/-- Part of an accumulator stays below the modulus. -/
theorem div4_lt {m b e : ℕ} (h : m < 2 ^ b) (he : 0 < e) : m / 4 ^ e < 2 ^ (b - 1) := by
  have h4 : 4 ≤ 4 ^ e := by
    calc 4 = 4 ^ 1 := by norm_num
      _ ≤ 4 ^ e := Nat.pow_le_pow_right (by norm_num) he
  rcases b with _ | b
  · have : m = 0 := by simpa using h
    simp [this]
  · rw [Nat.add_sub_cancel]
    rw [pow_succ] at h
    rw [Nat.div_lt_iff_lt_mul (by positivity)]
    calc m < 2 ^ b * 2 := h
      _ ≤ 2 ^ b * 4 ^ e := Nat.mul_le_mul_left _ (by omega)

theorem opN_div (x : Bool) (A B e : ℕ) :
    opN x A B / 4 ^ e = opN x (A / 4 ^ e) (B / 4 ^ e) := by
  unfold opN
  rw [four_pow]
  cases x
  · simp only [Bool.false_eq_true, if_false, Nat.and_div_two_pow]
  · simp only [if_true, Nat.xor_div_two_pow]

/-- The logic gates: all new rows are honest. -/
theorem logicGate_hon {R : FieldRep F} (hrep : RepOk R) {c c' : Composer F} (hw : WF c)
    (hz : ownV c c.zero_var = 0) {a b o : Var} {numBits : ℕ} {isXor : Bool}
    (h : logicGate R a b numBits isXor c = .ok (o, c')) {i : ℕ} (h1 : c.n ≤ i) (h2 : i < c'.n) :
    HonRow R c' i := by
  obtain ⟨he, h256, hl, ha, hb, rfl, hB, hv⟩ := logicGate_fwd hw h
  set k := numBits / 2 with hk
  have hpow : (2 : ℕ) ^ numBits = 4 ^ k := by rw [four_pow]; congr 1; omega
  have hlast := lrows_getLast c isXor k
  have hwf := hB.wf' hlast not_usesNext_gate0
  set A := logicArg R (ownV c a) numBits with hA
  set B := logicArg R (ownV c b) numBits with hB'
  have hAlt : A < 4 ^ k := by rw [← hpow]; exact logicArg_lt _ _ _
  have hBlt : B < 4 ^ k := by rw [← hpow]; exact logicArg_lt _ _ _
  have hOlt : opN isXor A B < 4 ^ k := by
    rw [← hpow]; exact opN_lt _ (logicArg_lt _ _ _) (logicArg_lt _ _ _)
  have hAm : A < 2 ^ R.modBits := lt_of_le_of_lt (logicArg_le ..) (hrep.lt _)
  have hBm : B < 2 ^ R.modBits := lt_of_le_of_lt (logicArg_le ..) (hrep.lt _)
  have hz : ownV c' c.zero_var = 0 := by
    rw [hB.ext.ownV hw.zero]; exact hz
  have get : ∀ t s, (logicVals A B isXor k k : List F)[t]? = some s →
      ownV c' (c.variables.length + t) = s := by
    intro t s ht
    refine ownV_of_some ?_
    rw [hv, List.getElem?_append_right (by omega), Nat.add_sub_cancel_left]
    exact ht
  have col : ∀ (off : ℕ) (M : ℕ), M < 4 ^ k →
      (∀ i < k, ownV c' (c.variables.length + (4 * i + off))
        = ((M / 4 ^ (k - (i + 1)) : ℕ) : F)) →
      ∀ j ≤ k, ownV c' (lacc c off j) = ((M / 4 ^ (k - j) : ℕ) : F) := by
    intro off M hM hcol j hj
    unfold lacc
    split
    · next h0 => rw [hz, h0, Nat.sub_zero, Nat.div_eq_of_lt hM, Nat.cast_zero]
    · next h0 =>
      have := hcol (j - 1) (by omega)
      rw [show j - 1 + 1 = j by omega] at this
      rw [add_assoc]
      exact this
  have c0 := col 0 A hAlt (fun i hi => get _ _ (logicVals_get A B isXor k hi).1)
  have c1 := col 1 B hBlt (fun i hi => get _ _ (logicVals_get A B isXor k hi).2.1)
  have c3 := col 3 _ hOlt (fun i hi => get _ _ (logicVals_get A B isXor k hi).2.2.2)
  obtain ⟨hrows, -⟩ := logic_rows (E := ⟨0, 0, fun _ _ => true⟩) (T := c'.lookup_table) c0 c1 c3
    (fun i hi => by rw [add_assoc]; exact get _ _ (logicVals_get A B isXor k hi).2.2.1)
  have hn : c'.n = c.n + (k + 1) := by rw [hB.n, lrows_length]
  obtain ⟨j, rfl⟩ : ∃ j, i = c.n + j := ⟨i - c.n, by omega⟩
  have hW : ∀ x p, OnWire c' x p → ownW c' p = ownV c' x := by
    intro x p hp
    unfold ownW
    rw [hwf.agree x p hp]
  have hnp : c.n + j ∉ c'.intended_pi_pos := fun hi => by
    have := hB.noPi _ hi
    omega
  rcases Nat.lt_or_ge j k with hj | hj
  · have r1 := lrows_lt c isXor hj
    have hg := hB.gate j _ r1
    obtain ⟨r', r2⟩ : ∃ r', (lrows c isXor k)[j + 1]? = some r' :=
      ⟨_, List.getElem?_eq_getElem (by rw [lrows_length]; omega)⟩
    have hm : (c.n + j + 1) % c'.n = c.n + (j + 1) := by rw [Nat.mod_eq_of_lt (by omega)]; omega
    have hrow : rowAt c'.n (ownW c') (c.n + j)
        = BRow.vals ⟨logicG isXor, lacc c 0 j, lacc c 1 j, c.variables.length + 4 * j + 2,
            lacc c 3 j⟩ r' (ownV c') := by
      unfold rowAt BRow.vals
      rw [hm, hW _ _ (hB.left j _ r1), hW _ _ (hB.right j _ r1), hW _ _ (hB.output j _ r1),
        hW _ _ (hB.fourth j _ r1), hW _ _ (hB.left _ _ r2), hW _ _ (hB.right _ _ r2),
        hW _ _ (hB.fourth _ _ r2)]
    refine ⟨Or.inl (by rw [hg]; rfl), fun h => absurd h hnp, fun h => ?_, fun h => ?_⟩
    · rw [hg] at h; exact absurd rfl h
    · refine ⟨by omega, ?_, ?_⟩
      · rw [hrow, hg]
        rw [hg] at h
        exact (hrows j _ _ r1 r2).logic h
      · refine ⟨isXor, A / 4 ^ (k - j), B / 4 ^ (k - j), by rw [hg]; rfl,
          div4_lt hAm (by omega), div4_lt hBm (by omega), ?_, ?_, ?_⟩
        · rw [hrow]; exact c0 j hj.le
        · rw [hrow]; exact c1 j hj.le
        · rw [hrow, ← opN_div]; exact c3 j hj.le
  · have hj : j = k := by omega
    subst hj
    have hg := hB.gate _ _ (lrows_last c isXor k)
    refine ⟨Or.inl (by rw [hg]; rfl), fun h => absurd h hnp, fun h => ?_, fun h => ?_⟩ <;>
    · rw [hg] at h; exact absurd rfl h

theorem reach_zero {R : FieldRep F} {E : EdCurve F} {c : Composer F} (h : Reach R E c) :
    ownV c c.zero_var = 0 := by
  induction h with
  | new h =>
    obtain ⟨c', h1, hw, ho, -⟩ := newComposer_ok (F := F) _ _
    rw [h] at h1
    cases h1
    exact hw.zeroVal (ho ⟨0, 0, fun _ _ => true⟩)
  | call hr hm h ih =>
    have hw := Reach.wf hr
    have he := (Method.post hm hw h).2
    rw [he.zero, he.ownV hw.zero]
    exact ih

theorem reach_hon {R : FieldRep F} {E : EdCurve F} (hrep : RepOk R) {c : Composer F}
    (h : Reach R E c) : ∀ i < c.n, HonRow R c i := by
  induction h with
  | @new r1 r2 c h =>
    unfold newComposer at h
    split at h
    · rename_i c' hc
      simp only [Except.ok.injEq] at h
      subst h
      have : PlainC 0 c' := by
        refine Plain.elim ?_ (c := emptyComposer) ⟨rfl, rfl, rfl, rfl, by simp [emptyComposer],
          fun i _ hi => absurd hi (Nat.not_lt_zero _)⟩ hc
        exact Plain.bind (plain_wit _) fun _ => Plain.bind (plain_modify _) fun _ => plain_blind _ _
      exact fun i hi => honRow_plain this (Nat.zero_le _) hi
    · cases h
  | @call α m c c' a hr hm h ih =>
    intro i hi
    have hw := Reach.wf hr
    obtain ⟨hw', he⟩ := Method.post hm hw h
    rcases Nat.lt_or_ge i c.n with hlt | hge
    · exact (ih i hlt).ext hw he hlt
    · rcases Method.plain hm c.n with hb | hp
      · cases hb with
        | range x k => exact rangeGate_hon hw (reach_zero hr) h hge hi
        | logic a b k x => exact logicGate_hon hrep hw (reach_zero hr) h hge hi
      · refine honRow_plain (hp.elim ?_ h) hge hi
        exact ⟨hw.sel.q_arith, hw.sel.q_range, hw.sel.q_logic, hw.sel.q_lookup, hw.int,
          fun i h1 h2 => absurd h2 (by omega)⟩

end VO.Plonk
