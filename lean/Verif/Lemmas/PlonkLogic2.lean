import Mathlib.Tactic.LinearCombination
import Verif.Lemmas.PlonkLogic

/-
What the xor/and gate enforces and when its own values satisfy it.
-/

set_option linter.unusedSectionVars false

namespace VO.Plonk

open VO.Spec.Plonk

variable {F : Type} [Field F] [DecidableEq F]

theorem xorPoly_eq {a b : ℕ} (ha : a < 4) (hb : b < 4) (o : F) :
    xorAndPoly (a : F) (b : F) ((a : F) * b) o (-1) = -6 * (o - ((a ^^^ b : ℕ) : F)) := by
  unfold xorAndPoly
  interval_cases a <;> interval_cases b <;>
    simp only [Nat.reduceXor, Nat.reduceAnd] <;> push_cast <;> ring

theorem andPoly_eq {a b : ℕ} (ha : a < 4) (hb : b < 4) (o : F) :
    xorAndPoly (a : F) (b : F) ((a : F) * b) o 1 = 12 * (o - ((a &&& b : ℕ) : F)) := by
  unfold xorAndPoly
  interval_cases a <;> interval_cases b <;>
    simp only [Nat.reduceXor, Nat.reduceAnd] <;> push_cast <;> ring

theorem opPoly_zero {isXor : Bool} {a b : ℕ} (ha : a < 4) (hb : b < 4) :
    xorAndPoly (a : F) (b : F) ((a : F) * b) ((opN isXor a b : ℕ) : F)
      (logicG isXor : Gate F).c = 0 := by
  cases isXor
  · exact (andPoly_eq ha hb _).trans (by simp [opN])
  · exact (xorPoly_eq ha hb _).trans (by simp [opN])

theorem opPoly_sound (h2 : (2 : F) ≠ 0) (h3 : (3 : F) ≠ 0) {isXor : Bool} {a b : ℕ} (ha : a < 4)
    (hb : b < 4) {o : F}
    (h : xorAndPoly (a : F) (b : F) ((a : F) * b) o (logicG isXor : Gate F).c = 0) :
    o = ((opN isXor a b : ℕ) : F) := by
  have h6 : (-6 : F) ≠ 0 := by
    have : (-6 : F) = -(2 * 3) := by norm_num
    rw [this]
    exact neg_ne_zero.2 (mul_ne_zero h2 h3)
  have h12 : (12 : F) ≠ 0 := by
    have : (12 : F) = 2 * 2 * 3 := by norm_num
    rw [this]
    exact mul_ne_zero (mul_ne_zero h2 h2) h3
  cases isXor
  · have e := (andPoly_eq ha hb o).symm.trans h
    rcases mul_eq_zero.1 e with e | e
    · exact absurd e h12
    · exact sub_eq_zero.1 e
  · have e := (xorPoly_eq ha hb o).symm.trans h
    rcases mul_eq_zero.1 e with e | e
    · exact absurd e h6
    · exact sub_eq_zero.1 e

theorem opN_step (isXor : Bool) {A B a b : ℕ} (ha : a < 4) (hb : b < 4) :
    opN isXor (4 * A + a) (4 * B + b) = 4 * opN isXor A B + opN isXor a b := by
  have h4 : (4 : ℕ) = 2 ^ 2 := by norm_num
  have e := Nat.div_add_mod (opN isXor (4 * A + a) (4 * B + b)) 4
  have e1 : (4 * A + a) / 4 = A := by omega
  have e2 : (4 * A + a) % 4 = a := by omega
  have e3 : (4 * B + b) / 4 = B := by omega
  have e4 : (4 * B + b) % 4 = b := by omega
  rw [← e]
  congr 1
  · congr 1
    unfold opN
    split
    · rw [h4, Nat.xor_div_two_pow, ← h4, e1, e3]
    · rw [h4, Nat.and_div_two_pow, ← h4, e1, e3]
  · unfold opN
    split
    · rw [h4, Nat.xor_mod_two_pow, ← h4, e2, e4]
    · rw [h4, Nat.and_mod_two_pow, ← h4, e2, e4]

theorem not_usesNext_gate0 : ¬ UsesNext (gate0 : Gate F) := by
  unfold UsesNext gate0
  simp

/-- In every satisfying assignment the three columns hold two numbers and the result of the
operation on them. -/
theorem logic_sound (h2 : (2 : F) ≠ 0) (h3 : (3 : F) ≠ 0) {c c' : Composer F} (hw : WF c)
    {isXor : Bool} {k : ℕ} (h : Block c c' (lrows c isXor k)) {E : EdCurve F}
    {T : List (F × F × F × F)} {N : ℕ} {pub : ℕ → F} {w : WireData → F} {v : Var → F}
    (hs : Sat E T N c' pub w v) :
    ∀ j ≤ k, ∃ A B, A < 4 ^ j ∧ B < 4 ^ j ∧ v (lacc c 0 j) = ((A : ℕ) : F) ∧
      v (lacc c 1 j) = ((B : ℕ) : F) ∧ v (lacc c 3 j) = ((opN isXor A B : ℕ) : F) := by
  intro j
  induction j with
  | zero =>
    intro _
    have hz : v c.zero_var = 0 := hw.zeroSound _ _ _ _ _ _ (h.ext.sat hs)
    refine ⟨0, 0, by norm_num, by norm_num, ?_⟩
    unfold lacc
    simp [hz, opN]
  | succ j ih =>
    intro hj
    obtain ⟨A, B, hA, hB, eA, eB, eO⟩ := ih (by omega)
    have hr := lrows_lt c isXor (k := k) (j := j) (by omega)
    obtain ⟨r', hr', ea, eb, ed⟩ : ∃ r', (lrows c isXor k)[j + 1]? = some r' ∧
        r'.a = lacc c 0 (j + 1) ∧ r'.b = lacc c 1 (j + 1) ∧ r'.d = lacc c 3 (j + 1) := by
      rcases Nat.lt_or_ge (j + 1) k with hjk | hjk
      · exact ⟨_, lrows_lt c isXor hjk, rfl, rfl, rfl⟩
      · obtain rfl : k = j + 1 := by omega
        exact ⟨_, lrows_last c isXor _, rfl, rfl, rfl⟩
    have hrow := (h.row hs hr hr').logic (by
      show (if isXor = true then (-1 : F) else 1) ≠ 0
      split
      · exact neg_ne_zero.2 one_ne_zero
      · exact one_ne_zero)
    unfold LogicOk BRow.vals at hrow
    simp only [ea, eb, ed] at hrow
    obtain ⟨q1, q2, q3, q4, q5⟩ := hrow
    obtain ⟨a, ha, ea'⟩ := isQuad_iff.1 q1
    obtain ⟨b, hb, eb'⟩ := isQuad_iff.1 q2
    rw [q4, ea', eb'] at q5
    have hO := opPoly_sound h2 h3 ha hb q5
    refine ⟨4 * A + a, 4 * B + b, by rw [pow_succ]; omega, by rw [pow_succ]; omega, ?_, ?_, ?_⟩
    · push_cast
      rw [← eA, ← ea']; ring
    · push_cast
      rw [← eB, ← eb']; ring
    · rw [opN_step isXor ha hb]
      push_cast
      rw [← eO, ← hO]; ring

/-- Values that make the rows of a logic gate hold. -/
theorem logic_rows {c : Composer F} {isXor : Bool} {k A B : ℕ} {v : Var → F}
    {E : EdCurve F} {T : List (F × F × F × F)}
    (h0 : ∀ j ≤ k, v (lacc c 0 j) = ((A / 4 ^ (k - j) : ℕ) : F))
    (h1 : ∀ j ≤ k, v (lacc c 1 j) = ((B / 4 ^ (k - j) : ℕ) : F))
    (h3 : ∀ j ≤ k, v (lacc c 3 j) = ((opN isXor A B / 4 ^ (k - j) : ℕ) : F))
    (ho : ∀ j < k, v (c.variables.length + 4 * j + 2)
      = ((A / 4 ^ (k - (j + 1)) % 4 * (B / 4 ^ (k - (j + 1)) % 4) : ℕ) : F)) :
    (∀ (j : ℕ) r r', (lrows c isXor k)[j]? = some r → (lrows c isXor k)[j + 1]? = some r' →
      RowOk E T r.g (r.vals r' v) 0) ∧
    RowOk E T (gate0 : Gate F) (BRow.vals ⟨gate0, lacc c 0 k, lacc c 1 k, c.zero_var, lacc c 3 k⟩
      (⟨gate0, lacc c 0 k, lacc c 1 k, c.zero_var, lacc c 3 k⟩ : BRow F) v) 0 := by
  constructor
  · intro j r r' hr hr'
    have hlen := (List.getElem?_eq_some_iff.1 hr').1
    rw [lrows_length] at hlen
    have hjk : j < k := by omega
    rw [lrows_lt c isXor hjk] at hr
    cases hr
    obtain ⟨ea, eb, ed⟩ : r'.a = lacc c 0 (j + 1) ∧ r'.b = lacc c 1 (j + 1) ∧
        r'.d = lacc c 3 (j + 1) := by
      rcases lrows_cases hr' with ⟨_, rfl⟩ | ⟨e, rfl⟩
      · exact ⟨rfl, rfl, rfl⟩
      · rw [e]; exact ⟨rfl, rfl, rfl⟩
    have d1 : v (lacc c 0 (j + 1)) - 4 * v (lacc c 0 j)
        = ((A / 4 ^ (k - (j + 1)) % 4 : ℕ) : F) := by
      rw [h0 _ (by omega), h0 _ (by omega), ← acc_step A hjk]; ring
    have d2 : v (lacc c 1 (j + 1)) - 4 * v (lacc c 1 j)
        = ((B / 4 ^ (k - (j + 1)) % 4 : ℕ) : F) := by
      rw [h1 _ (by omega), h1 _ (by omega), ← acc_step B hjk]; ring
    have d3 : v (lacc c 3 (j + 1)) - 4 * v (lacc c 3 j)
        = ((opN isXor A B / 4 ^ (k - (j + 1)) % 4 : ℕ) : F) := by
      rw [h3 _ (by omega), h3 _ (by omega), ← acc_step (opN isXor A B) hjk]; ring
    refine ⟨?_, fun h => absurd rfl h, ?_, fun h => absurd rfl h, fun h => absurd rfl h,
      fun h => absurd rfl h⟩
    · simp [ArithOk, logicG, gate0]
    · intro _
      unfold LogicOk BRow.vals
      simp only [ea, eb, ed, d1, d2, d3, ho j hjk]
      refine ⟨isQuad_nat (quad_lt_four _ _), isQuad_nat (quad_lt_four _ _),
        isQuad_nat (quad_lt_four _ _), by push_cast; rfl, ?_⟩
      rw [opN_digit]
      push_cast
      exact opPoly_zero (quad_lt_four _ _) (quad_lt_four _ _)
  · refine ⟨?_, fun h => absurd rfl h, fun h => absurd rfl h, fun h => absurd rfl h,
      fun h => absurd rfl h, fun h => absurd rfl h⟩
    simp [ArithOk, gate0]

theorem logicVals_length (A B : ℕ) (isXor : Bool) (k j : ℕ) :
    (logicVals A B isXor k j : List F).length = 4 * j := by
  induction j with
  | zero => rfl
  | succ j ih => simp [logicVals, ih]; omega

theorem logicVals_get (A B : ℕ) (isXor : Bool) (k : ℕ) {j i : ℕ} (hi : i < j) :
    (logicVals A B isXor k j : List F)[4 * i]? = some ((A / 4 ^ (k - (i + 1)) : ℕ) : F) ∧
    (logicVals A B isXor k j : List F)[4 * i + 1]? = some ((B / 4 ^ (k - (i + 1)) : ℕ) : F) ∧
    (logicVals A B isXor k j : List F)[4 * i + 2]? =
      some ((A / 4 ^ (k - (i + 1)) % 4 * (B / 4 ^ (k - (i + 1)) % 4) : ℕ) : F) ∧
    (logicVals A B isXor k j : List F)[4 * i + 3]? =
      some ((opN isXor A B / 4 ^ (k - (i + 1)) : ℕ) : F) := by
  induction j with
  | zero => omega
  | succ j ih =>
    have hl := logicVals_length (F := F) A B isXor k j
    rcases Nat.lt_or_ge i j with h | h
    · obtain ⟨e0, e1, e2, e3⟩ := ih h
      unfold logicVals
      exact ⟨getElem?_append_some e0, getElem?_append_some e1, getElem?_append_some e2,
        getElem?_append_some e3⟩
    · obtain rfl : i = j := by omega
      unfold logicVals
      refine ⟨?_, ?_, ?_, ?_⟩ <;>
      · rw [List.getElem?_append_right (by omega), hl]
        simp

/-- A completed logic gate, as seen from outside. -/
theorem logicGate_post {R : FieldRep F} {c c' : Composer F} (hw : WF c) {a b o : Var}
    {numBits : ℕ} {isXor : Bool} (h : logicGate R a b numBits isXor c = .ok (o, c')) :
    numBits % 2 = 0 ∧ numBits ≤ 256 ∧ (numBits ≤ R.bigBits - (256 - numBits)) ∧
    a < c.variables.length ∧ b < c.variables.length ∧ o < c'.variables.length ∧
    WF c' ∧ Ext c c' ∧ c'.n = c.n + (numBits / 2 + 1) ∧
    ((2 : F) ≠ 0 → (3 : F) ≠ 0 → ∀ E T N pub w v, Sat E T N c' pub w v →
      ∃ A B, A < 2 ^ numBits ∧ B < 2 ^ numBits ∧ v o = ((opN isXor A B : ℕ) : F)) ∧
    (∀ E, OwnSat E c → OwnSat E c' ∧ ownV c' o = ((opN isXor (logicArg R (ownV c a) numBits)
      (logicArg R (ownV c b) numBits) : ℕ) : F)) ∧
    (∀ E T N pub w v, Sat E T N c pub w v → c'.n ≤ N → ∀ A B, A < 2 ^ numBits → B < 2 ^ numBits →
      ∃ pub' w' v', Sat E T N c' pub' w' v' ∧ (∀ x < c.variables.length, v' x = v x) ∧
        (∀ i < c.n, pub' i = pub i) ∧ v' o = ((opN isXor A B : ℕ) : F)) := by
  obtain ⟨he, h256, hl, ha, hb, rfl, hB, hv⟩ := logicGate_fwd hw h
  set k := numBits / 2 with hk
  have hpow : (2 : ℕ) ^ numBits = 4 ^ k := by rw [four_pow]; congr 1; omega
  have hlast := lrows_getLast c isXor k
  have hwf := hB.wf' hlast not_usesNext_gate0
  have hvl : c'.variables.length = c.variables.length + 4 * k := by
    rw [hv, List.length_append, logicVals_length]
  refine ⟨he, h256, hl, ha, hb, by rw [hvl]; exact lacc_lt hw (by norm_num) (le_refl _), hwf,
    hB.ext, by rw [hB.n, lrows_length], ?_, ?_, ?_⟩
  · intro h2 h3 E T N pub w v hs
    obtain ⟨A, B, hA, hB', _, _, hO⟩ := logic_sound h2 h3 hw hB hs k (le_refl _)
    exact ⟨A, B, by rw [hpow]; exact hA, by rw [hpow]; exact hB', hO⟩
  · intro E hs
    set A := logicArg R (ownV c a) numBits with hA
    set B := logicArg R (ownV c b) numBits with hB'
    have hAlt : A < 4 ^ k := by rw [← hpow]; exact logicArg_lt _ _ _
    have hBlt : B < 4 ^ k := by rw [← hpow]; exact logicArg_lt _ _ _
    have hOlt : opN isXor A B < 4 ^ k := by
      rw [← hpow]; exact opN_lt _ (logicArg_lt _ _ _) (logicArg_lt _ _ _)
    have hz : ownV c' c.zero_var = 0 := by
      rw [hB.ext.ownV hw.zero]; exact hw.zeroVal hs
    have get : ∀ t s, (logicVals A B isXor k k : List F)[t]? = some s →
        ownV c' (c.variables.length + t) = s := by
      intro t s ht
      refine ownV_of_some ?_
      rw [hv, List.getElem?_append_right (by omega), Nat.add_sub_cancel_left]
      exact ht
    have col : ∀ (off : ℕ) (M : ℕ), M < 4 ^ k →
        (∀ i < k, ownV c' (c.variables.length + (4 * i + off))
          = ((M / 4 ^ (k - (i + 1)) : ℕ) : F)) →
        ∀ j ≤ k, ownV c' (lacc c off j) = ((M / 4 ^ (k - j) : ℕ) : F) := by
      intro off M hM hcol j hj
      unfold lacc
      split
      · next h0 => rw [hz, h0, Nat.sub_zero, Nat.div_eq_of_lt hM, Nat.cast_zero]
      · next h0 =>
        have := hcol (j - 1) (by omega)
        rw [show j - 1 + 1 = j by omega] at this
        rw [add_assoc]
        exact this
    have c0 := col 0 A hAlt (fun i hi => get _ _ (logicVals_get A B isXor k hi).1)
    have c1 := col 1 B hBlt (fun i hi => get _ _ (logicVals_get A B isXor k hi).2.1)
    have c3 := col 3 _ hOlt (fun i hi => get _ _ (logicVals_get A B isXor k hi).2.2.2)
    obtain ⟨hrows, hend⟩ := logic_rows (E := E) (T := c'.lookup_table) c0 c1 c3 (fun i hi => by
      rw [add_assoc]; exact get _ _ (logicVals_get A B isXor k hi).2.2.1)
    refine ⟨hB.own hw hlast not_usesNext_gate0 hs hrows hend, ?_⟩
    have := c3 k (le_refl _)
    rw [Nat.sub_self, pow_zero, Nat.div_one] at this
    exact this
  · intro E T N pub w v hs hN A B hA hB'
    have hOlt := opN_lt isXor hA hB'
    rw [hpow] at hA hB' hOlt
    set L := c.variables.length with hL
    let v' : Var → F := fun x => if x < L then v x else
      match (x - L) % 4 with
      | 0 => ((A / 4 ^ (k - ((x - L) / 4 + 1)) : ℕ) : F)
      | 1 => ((B / 4 ^ (k - ((x - L) / 4 + 1)) : ℕ) : F)
      | 2 => ((A / 4 ^ (k - ((x - L) / 4 + 1)) % 4 * (B / 4 ^ (k - ((x - L) / 4 + 1)) % 4) : ℕ) : F)
      | _ => ((opN isXor A B / 4 ^ (k - ((x - L) / 4 + 1)) : ℕ) : F)
    have hv' : ∀ x < L, v' x = v x := fun x hx => if_pos hx
    have hz : v' c.zero_var = 0 := by
      rw [hv' _ hw.zero]
      exact hw.zeroSound _ _ _ _ _ _ hs
    have col : ∀ (off : ℕ) (M : ℕ), M < 4 ^ k →
        (∀ i < k, v' (L + (4 * i + off)) = ((M / 4 ^ (k - (i + 1)) : ℕ) : F)) →
        ∀ j ≤ k, v' (lacc c off j) = ((M / 4 ^ (k - j) : ℕ) : F) := by
      intro off M hM hcol j hj
      unfold lacc
      split
      · next h0 => rw [hz, h0, Nat.sub_zero, Nat.div_eq_of_lt hM, Nat.cast_zero]
      · next h0 =>
        have := hcol (j - 1) (by omega)
        rw [show j - 1 + 1 = j by omega] at this
        rw [add_assoc]
        exact this
    have red : ∀ i off, off < 4 → ¬ (L + (4 * i + off) < L) ∧
        (L + (4 * i + off) - L) % 4 = off ∧ (L + (4 * i + off) - L) / 4 = i := by
      intro i off ho
      omega
    have c0 := col 0 A hA (fun i hi => by
      obtain ⟨r1, r2, r3⟩ := red i 0 (by norm_num)
      show (if _ then _ else _) = _
      rw [if_neg r1, r2, r3]
      rfl)
    have c1 := col 1 B hB' (fun i hi => by
      obtain ⟨r1, r2, r3⟩ := red i 1 (by norm_num)
      show (if _ then _ else _) = _
      rw [if_neg r1, r2, r3]
      rfl)
    have c3 := col 3 _ hOlt (fun i hi => by
      obtain ⟨r1, r2, r3⟩ := red i 3 (by norm_num)
      show (if _ then _ else _) = _
      rw [if_neg r1, r2, r3]
      rfl)
    obtain ⟨hrows, hend⟩ := logic_rows (E := E) (T := T) c0 c1 c3 (fun i hi => by
      obtain ⟨r1, r2, r3⟩ := red i 2 (by norm_num)
      rw [add_assoc]
      show (if _ then _ else _) = _
      rw [if_neg r1, r2, r3]
      rfl)
    refine ⟨_, _, v', hB.satExt hw hlast not_usesNext_gate0 hs hN v' hv' hrows hend, hv', ?_, ?_⟩
    · intro i hi
      exact if_pos hi
    · have := c3 k (le_refl _)
      rw [Nat.sub_self, pow_zero, Nat.div_one] at this
      exact this

end VO.Plonk
