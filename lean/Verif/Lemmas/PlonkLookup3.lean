import Verif.Lemmas.PlonkLookup2
import Verif.Lemmas.PlonkWidgets

/-
Tables, padding and compression.
-/

set_option linter.unusedSectionVars false

namespace VO.Plonk

open VO.Spec VO.Spec.Plonk Polynomial

variable {F : Type} [Field F] [DecidableEq F]

theorem error_bind {ε α β : Type} (e : ε) (f : α → Except ε β) :
    (Except.error e >>= f) = .error e := rfl

/-! ### Tables -/

theorem foldlM_append {α : Type} (f : Table F → α → Res (Table F)) (g : α → Table F) (l : List α)
    (T : Table F) (h : ∀ T, ∀ a ∈ l, f T a = .ok (T ++ g a)) :
    l.foldlM f T = .ok (T ++ l.flatMap g) := by
  induction l generalizing T with
  | nil => simp; rfl
  | cons a l ih =>
    rw [List.foldlM_cons, h T a (by simp), ok_bind, ih _ fun T b hb => h T b (by simp [hb])]
    simp

theorem foldlM_panic {α β : Type} (f : β → α → Res β) (l : List α) (T : β)
    (h : ∀ T, ∀ a ∈ l, f T a = .error .panic ∨ ∃ T', f T a = .ok T')
    (hp : ∃ a ∈ l, ∀ T, f T a = .error .panic) : l.foldlM f T = .error .panic := by
  induction l generalizing T with
  | nil => simp at hp
  | cons a l ih =>
    rw [List.foldlM_cons]
    obtain ⟨b, hb, hp⟩ := hp
    rcases h T a (by simp) with h1 | ⟨T', h1⟩
    · rw [h1]; rfl
    · rw [h1, ok_bind]
      rcases List.mem_cons.1 hb with rfl | hb
      · rw [hp] at h1; cases h1
      · exact ih T' (fun T c hc => h T c (by simp [hc])) ⟨b, hb, hp⟩

theorem u64_ok {checks : Bool} {x : ℕ} (h : x < 2 ^ 64) : u64 checks x = .ok x := by
  rw [u64, if_pos h]

theorem insertOpRow_run (checks : Bool) (op : LookupOp) {a b n : ℕ} (ha : a < 2 ^ n)
    (hb : b < 2 ^ n) (hn : n < 64) (hm : op = .mul → n ≤ 32 ∨ checks = false) (T : Table F) :
    insertOpRow checks op T a b (2 ^ n)
      = .ok (T ++ [((a : F), (b : F), ((op.val a b % 2 ^ n : ℕ) : F), op.tag)]) := by
  have hp : (2 : ℕ) ^ n ≠ 0 := by positivity
  have h63 : (2 : ℕ) ^ n ≤ 2 ^ 63 := Nat.pow_le_pow_right (by norm_num) (by omega)
  have key : ∃ s, u64 checks (op.val a b) = .ok s ∧ s % 2 ^ n = op.val a b % 2 ^ n := by
    by_cases h : op.val a b < 2 ^ 64
    · exact ⟨_, u64_ok h, rfl⟩
    · cases op with
      | add =>
        simp only [LookupOp.val] at h
        have : (2 : ℕ) ^ 64 = 2 ^ 63 + 2 ^ 63 := by norm_num
        omega
      | mul =>
        simp only [LookupOp.val] at h ⊢
        rcases hm rfl with hm | hm
        · exfalso
          apply h
          have h32 : (2 : ℕ) ^ n ≤ 2 ^ 32 := Nat.pow_le_pow_right (by norm_num) hm
          calc a * b < 2 ^ 32 * 2 ^ 32 := Nat.mul_lt_mul'' (by omega) (by omega)
            _ = 2 ^ 64 := by norm_num
        · refine ⟨a * b % 2 ^ 64, ?_, ?_⟩
          · rw [u64, if_neg h, hm]; rfl
          · exact Nat.mod_mod_of_dvd _ (pow_dvd_pow 2 (by omega))
      | xor =>
        exfalso
        apply h
        have := Nat.xor_lt_two_pow ha hb
        simp only [LookupOp.val]
        omega
      | and =>
        exfalso
        apply h
        have : a &&& b ≤ a := Nat.and_le_left
        simp only [LookupOp.val]
        omega
  obtain ⟨s, h1, h2⟩ := key
  unfold insertOpRow
  rw [h1, ok_bind, assertR, if_pos hp, ok_bind, h2]
  rfl

theorem insertMulti_eq (checks : Bool) (op : LookupOp) (T : Table F) (lower n : ℕ) :
    insertMulti checks op T lower n =
      if 64 ≤ n then (if checks then .error .panic else .ok T)
      else if checks = true ∧ op = .mul ∧ 32 < n ∧ lower < 2 ^ n then .error .panic
      else .ok (T ++ opRows op lower n) := by
  unfold insertMulti
  by_cases h64 : 64 ≤ n
  · rw [if_pos h64]
    have hp : ¬ (2 : ℕ) ^ n < 2 ^ 64 := by
      have : (2 : ℕ) ^ 64 ≤ 2 ^ n := Nat.pow_le_pow_right (by norm_num) h64
      omega
    rw [u64, if_neg hp]
    cases checks
    · have : (2 : ℕ) ^ n % 2 ^ 64 = 0 := Nat.mod_eq_zero_of_dvd (pow_dvd_pow 2 h64)
      simp only [Bool.false_eq_true, if_false, ok_bind, this, Nat.zero_sub]
      rfl
    · rfl
  rw [if_neg h64]
  have hlt : (2 : ℕ) ^ n < 2 ^ 64 := Nat.pow_lt_pow_right (by norm_num) (by omega)
  rw [u64_ok hlt, ok_bind]
  have hmem : ∀ a, a ∈ List.range' lower (2 ^ n - lower) ↔ lower ≤ a ∧ a < 2 ^ n := by
    intro a; rw [List.mem_range'_1]; omega
  by_cases hm : checks = true ∧ op = .mul ∧ 32 < n ∧ lower < 2 ^ n
  · rw [if_pos hm]
    obtain ⟨rfl, rfl, h32, hl⟩ := hm
    have hstep : ∀ (T : Table F) (a b : ℕ), insertOpRow true .mul T a b (2 ^ n) = .error .panic ∨
        ∃ T', insertOpRow true .mul T a b (2 ^ n) = .ok T' := by
      intro T a b
      unfold insertOpRow
      have hp : (2 : ℕ) ^ n ≠ 0 := by positivity
      by_cases h : LookupOp.mul.val a b < 2 ^ 64
      · right
        rw [u64_ok h, ok_bind, assertR, if_pos hp, ok_bind]
        exact ⟨_, rfl⟩
      · left
        rw [u64, if_neg h]; rfl
    have hin : ∀ (T : Table F) (a : ℕ), (List.range' lower (2 ^ n - lower)).foldlM
        (fun T b => insertOpRow true .mul T a b (2 ^ n)) T = .error .panic ∨ ∃ T',
        (List.range' lower (2 ^ n - lower)).foldlM
        (fun T b => insertOpRow true .mul T a b (2 ^ n)) T = .ok T' := by
      intro T a
      generalize List.range' lower (2 ^ n - lower) = l
      induction l generalizing T with
      | nil => exact Or.inr ⟨_, rfl⟩
      | cons b l ih =>
        rw [List.foldlM_cons]
        rcases hstep T a b with h | ⟨T', h⟩
        · rw [h]; exact Or.inl rfl
        · rw [h, ok_bind]; exact ih T'
    have htop : (2 ^ n - 1) ∈ List.range' lower (2 ^ n - lower) := (hmem _).2 ⟨by omega, by
      have : 0 < (2 : ℕ) ^ n := by positivity
      omega⟩
    apply foldlM_panic
    · intro T a _; exact hin T a
    · refine ⟨2 ^ n - 1, htop, fun T => ?_⟩
      apply foldlM_panic
      · intro T b _; exact hstep T _ b
      · refine ⟨2 ^ n - 1, htop, fun T => ?_⟩
        have h33 : (2 : ℕ) ^ 33 ≤ 2 ^ n := Nat.pow_le_pow_right (by norm_num) (by omega)
        have hbig : ¬ LookupOp.mul.val (2 ^ n - 1) (2 ^ n - 1) < 2 ^ 64 := by
          simp only [LookupOp.val, not_lt]
          calc (2 : ℕ) ^ 64 = 2 ^ 32 * 2 ^ 32 := by norm_num
            _ ≤ _ := Nat.mul_le_mul (by omega) (by omega)
        unfold insertOpRow
        rw [u64, if_neg hbig]; rfl
  · rw [if_neg hm]
    unfold opRows
    apply foldlM_append
    intro T a ha
    have := foldlM_append (fun (T : Table F) b => insertOpRow checks op T a b (2 ^ n))
      (fun b => [((a : F), (b : F), ((op.val a b % 2 ^ n : ℕ) : F), op.tag)])
      (List.range' lower (2 ^ n - lower)) T ?_
    · rw [this]
      congr 2
      rw [← List.map_eq_flatMap]
    · intro T b hb
      have ha := (hmem a).1 ha
      have hb := (hmem b).1 hb
      refine insertOpRow_run checks op ha.2 hb.2 (by omega) ?_ T
      intro hop
      by_contra hc
      push Not at hc
      exact hm ⟨by simpa using hc.2, hop, hc.1, by omega⟩

theorem tableLookup_append (T T' : Table F) (a b d : F) :
    tableLookup (T ++ T') a b d = match tableLookup T a b d with
      | .ok c => .ok c
      | .error _ => tableLookup T' a b d := by
  unfold tableLookup
  rw [List.find?_append]
  cases T.find? _ <;> simp

theorem tableLookup_none {T : Table F} {a b d : F} :
    tableLookup T a b d = .error .elementNotIndexed ↔ ∀ c, (a, b, c, d) ∉ T := by
  unfold tableLookup
  constructor
  · intro h c hc
    cases hf : T.find? (fun row => decide (row.1 = a ∧ row.2.1 = b ∧ row.2.2.2 = d)) with
    | some r => rw [hf] at h; cases h
    | none =>
      rw [List.find?_eq_none] at hf
      exact absurd (by simp) (hf _ hc)
  · intro h
    have : T.find? (fun row => decide (row.1 = a ∧ row.2.1 = b ∧ row.2.2.2 = d)) = none := by
      rw [List.find?_eq_none]
      rintro ⟨x, y, z, w⟩ hr hc
      simp only [decide_eq_true_eq] at hc
      obtain ⟨rfl, rfl, rfl⟩ := hc
      exact h z hr
    rw [this]

theorem tableLookup_mem {T : Table F} {a b c d : F} (h : tableLookup T a b d = .ok c) :
    (a, b, c, d) ∈ T := by
  unfold tableLookup at h
  cases hf : T.find? (fun row => decide (row.1 = a ∧ row.2.1 = b ∧ row.2.2.2 = d)) with
  | none => rw [hf] at h; cases h
  | some r =>
    rw [hf] at h
    simp only [Except.ok.injEq] at h
    have h1 := List.mem_of_find?_eq_some hf
    have h2 := List.find?_some hf
    simp only [decide_eq_true_eq] at h2
    obtain ⟨rfl, rfl, rfl⟩ := h2
    rw [← h]
    exact h1

theorem tableLookup_total (T : Table F) (a b d : F) :
    tableLookup T a b d = .error .elementNotIndexed ∨ ∃ c, tableLookup T a b d = .ok c := by
  unfold tableLookup
  cases T.find? _ with
  | none => exact Or.inl rfl
  | some r => exact Or.inr ⟨_, rfl⟩

theorem mem_opRows {op : LookupOp} {lower n : ℕ} {r : F × F × F × F} :
    r ∈ opRows op lower n ↔ ∃ a b : ℕ, lower ≤ a ∧ a < 2 ^ n ∧ lower ≤ b ∧ b < 2 ^ n ∧
      r = ((a : F), (b : F), ((op.val a b % 2 ^ n : ℕ) : F), op.tag) := by
  unfold opRows
  simp only [List.mem_flatMap, List.mem_map, List.mem_range'_1]
  constructor
  · rintro ⟨a, ha, b, hb, rfl⟩
    exact ⟨a, b, ha.1, by omega, hb.1, by omega, rfl⟩
  · rintro ⟨a, b, h1, h2, h3, h4, rfl⟩
    exact ⟨a, ⟨h1, by omega⟩, b, ⟨h3, by omega⟩, rfl⟩

theorem opRows_length (op : LookupOp) (lower n : ℕ) :
    (opRows op lower n : Table F).length = (2 ^ n - lower) ^ 2 := by
  unfold opRows
  rw [List.length_flatMap]
  simp [List.map_const', pow_two]

/-- Lookups in one operation's rows. -/
theorem lookup_opRows (op op' : LookupOp) (lower n : ℕ) {a b : ℕ}
    (htag : (op'.tag : F) = op.tag → op' = op)
    (inj : ∀ i j : ℕ, (i < 2 ^ n) → (j = a ∨ j = b) → (i : F) = (j : F) → i = j) :
    tableLookup (opRows op lower n : Table F) a b op'.tag =
      if op' = op ∧ lower ≤ a ∧ a < 2 ^ n ∧ lower ≤ b ∧ b < 2 ^ n then
        .ok ((op.val a b % 2 ^ n : ℕ) : F) else .error .elementNotIndexed := by
  by_cases h : op' = op ∧ lower ≤ a ∧ a < 2 ^ n ∧ lower ≤ b ∧ b < 2 ^ n
  · rw [if_pos h]
    obtain ⟨rfl, h1, h2, h3, h4⟩ := h
    rcases tableLookup_total (opRows op' lower n : Table F) (a : F) (b : F) op'.tag with h | ⟨c, h⟩
    · rw [tableLookup_none] at h
      exact absurd (mem_opRows.2 ⟨a, b, h1, h2, h3, h4, rfl⟩) (h _)
    · rw [h]
      obtain ⟨a', b', k1, k2, k3, k4, e⟩ := mem_opRows.1 (tableLookup_mem h)
      simp only [Prod.mk.injEq, and_true] at e
      obtain ⟨e1, e2, e3⟩ := e
      have := inj a' a k2 (Or.inl rfl) e1.symm
      have := inj b' b k4 (Or.inr rfl) e2.symm
      subst_vars
      rfl
  · rw [if_neg h, tableLookup_none]
    intro c hc
    apply h
    obtain ⟨a', b', k1, k2, k3, k4, e⟩ := mem_opRows.1 hc
    simp only [Prod.mk.injEq] at e
    obtain ⟨e1, e2, -, e4⟩ := e
    have h1 := inj a' a k2 (Or.inl rfl) e1.symm
    have h2 := inj b' b k4 (Or.inr rfl) e2.symm
    subst h1 h2
    exact ⟨htag e4, k1, k2, k3, k4⟩

theorem tag_inj (h2 : (2 : F) ≠ 0) (h3 : (3 : F) ≠ 0) {op op' : LookupOp}
    (h : (op.tag : F) = op'.tag) : op = op' := by
  have e3 : (2 : F) + 1 = 3 := by norm_num
  have e2 : (1 : F) + 1 = 2 := by norm_num
  cases op <;> cases op' <;> simp only [LookupOp.tag] at h <;> first | rfl | exfalso
  · exact one_ne_zero h.symm
  · exact one_ne_zero (by linear_combination h : (1 : F) = 0)
  · exact h2 h.symm
  · exact one_ne_zero h
  · exact h2 (by linear_combination h)
  · exact one_ne_zero (by linear_combination -h : (1 : F) = 0)
  · exact one_ne_zero (by linear_combination -h : (1 : F) = 0)
  · exact h2 (by linear_combination -h)
  · exact h3 (by linear_combination -h)
  · exact h2 h
  · exact one_ne_zero (by linear_combination h : (1 : F) = 0)
  · exact h3 (by linear_combination h)

/-! ### Padding and compression -/

theorem compress_rows (rows : Table F) (zeta : F) :
    msCompress [rows.map (·.1), rows.map (·.2.1), rows.map (·.2.2.1), rows.map (·.2.2.2)] zeta
      = if zeta = 0 ∨ zeta = 1 then .error .panic else .ok (rows.map (compressRow zeta)) := by
  unfold msCompress
  simp only [assertR]
  rw [if_pos (by simp), ok_bind]
  by_cases h0 : zeta = 0
  · rw [if_neg (by simpa using h0), if_pos (Or.inl h0)]; rfl
  by_cases h1 : zeta = 1
  · rw [if_pos h0, ok_bind, if_neg (by simpa using h1), if_pos (Or.inr h1)]; rfl
  rw [if_pos h0, ok_bind, if_pos h1, ok_bind, if_neg (by tauto)]
  simp only [List.reverse_cons, List.reverse_nil, List.nil_append, List.cons_append,
    List.foldl_cons, List.foldl_nil]
  congr 1
  induction rows with
  | nil => rfl
  | cons r rows ih =>
    simp only [List.map_cons, List.zip_cons_cons]
    rw [ih]
    congr 1
    simp only [compressRow]
    ring

theorem msPad_eq (m : List F) {n : ℕ} (hn : 2 ^ Nat.log 2 n = n) :
    msPad m n = .ok ((if m = [] then [0] else m)
      ++ List.replicate (n - (if m = [] then [0] else m).length) ((if m = [] then [0] else m).headD 0)) := by
  unfold msPad
  rw [assertR, if_pos hn, ok_bind]
  cases m with
  | nil => rfl
  | cons a m => rfl

theorem preprocess_eq (T : Table F) {n : ℕ} (hn : 2 ^ Nat.log 2 n = n) :
    preprocessTable T n = .ok (vecToMultiset (padRows T n)) := by
  unfold preprocessTable
  rw [assertR, if_pos hn, ok_bind, mapM_ok (g := fun col => (if col = [] then [0] else col)
      ++ List.replicate (n - (if col = [] then [0] else col).length)
        ((if col = [] then [0] else col).headD 0)) _ fun col _ => msPad_eq col hn]
  unfold vecToMultiset padRows
  cases T with
  | nil => simp
  | cons r T => simp

theorem query_eq (ct0 : F) (rows : List (F × F × F × F × F)) (zeta : F) :
    msCompress (queryCols ct0 rows) zeta = if zeta = 0 ∨ zeta = 1 then .error .panic
      else .ok (rows.map fun r => if r.1 = 0 then ct0 else compressRow zeta r.2) := by
  have e : queryCols ct0 rows
      = vecToMultiset (rows.map fun r => if r.1 = 0 then (ct0, 0, 0, 0) else r.2) := by
    unfold queryCols vecToMultiset
    simp only [List.map_map, List.cons.injEq, and_true]
    refine ⟨?_, ?_, ?_, ?_⟩ <;> apply List.map_congr_left <;> intro r _ <;>
      simp only [Function.comp_apply] <;> split_ifs <;> rfl
  rw [e, vecToMultiset, compress_rows]
  congr 2
  rw [List.map_map]
  apply List.map_congr_left
  intro r _
  simp only [Function.comp_apply]
  split_ifs
  · simp [compressRow]
  · rfl

theorem mem_padRows {T : Table F} (hT : T ≠ []) {n : ℕ} {r : F × F × F × F} :
    r ∈ padRows T n ↔ r ∈ T := by
  unfold padRows
  rw [if_neg hT]
  cases T with
  | nil => exact absurd rfl hT
  | cons a T =>
    simp only [List.mem_append, List.mem_replicate, List.headD_cons]
    constructor
    · rintro (h | ⟨-, rfl⟩)
      · exact h
      · simp
    · exact Or.inl

theorem padRows_length {T : Table F} {n : ℕ} (hT : T.length ≤ n) (hn : 0 < n) :
    (padRows T n).length = n := by
  unfold padRows
  split_ifs with h
  · subst h; simp; omega
  · simp; omega

theorem _root_.VO.Spec.Plonk.Mostly.list {α : Type} {P : α → F → Prop} {k : ℕ} (l : List α)
    (h : ∀ a ∈ l, Mostly k (P a)) : Mostly (l.length * k) fun x => ∀ a ∈ l, P a x := by
  induction l with
  | nil => exact .of_forall _ (by simp)
  | cons a l ih =>
    refine ((h a (by simp)).and (ih fun b hb => h b (by simp [hb]))).mono ?_ ?_
    · rw [List.length_cons]; ring_nf; rfl
    · rintro x ⟨h1, h2⟩ b hb
      rcases List.mem_cons.1 hb with rfl | hb
      exacts [h1, h2 b hb]

theorem compressRow_mostly {r r' : F × F × F × F} (h : r ≠ r') :
    Mostly 3 fun zeta : F => compressRow zeta r ≠ compressRow zeta r' := by
  refine (mostly_cubic (r.1 - r'.1) (r.2.1 - r'.2.1) (r.2.2.1 - r'.2.2.1) (r.2.2.2 - r'.2.2.2)
    ?_).mono le_rfl ?_
  · by_contra hc
    push Not at hc
    simp only [sub_eq_zero] at hc
    exact h (Prod.ext hc.1 (Prod.ext hc.2.1 (Prod.ext hc.2.2.1 hc.2.2.2)))
  · intro x hx hc
    apply hx
    simp only [compressRow] at hc
    linear_combination hc

/-- A tuple that is not a row is not compressed to the compression of a row. -/
theorem compress_notin (rows : Table F) {r : F × F × F × F} (h : r ∉ rows) :
    Mostly (3 * rows.length) fun zeta : F => compressRow zeta r ∉ rows.map (compressRow zeta) := by
  refine (Mostly.list (P := fun r' zeta => compressRow zeta r' ≠ compressRow zeta r) (k := 3) rows
    fun r' hr' => compressRow_mostly (fun hc => h (hc ▸ hr'))).mono (by omega) ?_
  intro x hx hc
  obtain ⟨r', hr', e⟩ := List.mem_map.1 hc
  exact hx r' hr' e

theorem contiguous_pad {l : List F} (hl : l.Nodup) (a : F) (k : ℕ) (ha : a ∉ l) :
    Contiguous ((a :: l) ++ List.replicate k a) := by
  refine ⟨(a :: l).length, ?_⟩
  rw [List.rotate_append_length_eq]
  have hd : ((a :: l) ++ List.replicate k a).eraseDups = a :: l := by
    rw [List.eraseDups_append]
    have h1 : (List.replicate k a).removeAll (a :: l) = [] := by
      simp [List.removeAll]
    have h2 : ∀ m : List F, m.Nodup → m.eraseDups = m := by
      intro m hm
      induction m using List.reverseRecOn with
      | nil => simp
      | append_singleton m x ih =>
        rw [List.nodup_append] at hm
        rw [eraseDups_snoc, if_neg, ih hm.1]
        intro hx
        exact hm.2.2 x hx x (by simp) rfl
    rw [h1, h2 _ (List.nodup_cons.2 ⟨ha, hl⟩)]
    simp
  unfold grouped
  rw [hd]
  simp only [List.count_nil, add_zero, List.flatMap_cons]
  have ca : ((a :: l) ++ List.replicate k a).count a = k + 1 := by
    rw [List.count_append, List.count_replicate_self, List.count_cons_self,
      List.count_eq_zero_of_not_mem ha]; omega
  rw [ca, List.replicate_succ', List.append_assoc]
  congr 1
  rw [List.singleton_append]
  congr 1
  symm
  have : ∀ x ∈ l, List.replicate (((a :: l) ++ List.replicate k a).count x) x = [x] := by
    intro x hx
    have hxa : a ≠ x := fun hc => ha (hc ▸ hx)
    rw [List.count_append, List.count_cons_of_ne hxa, List.count_eq_one_of_mem hl hx,
      List.count_replicate]
    simp [hxa]
  have h2 : ∀ (m : List F) (g : F → List F), (∀ x ∈ m, g x = [x]) → m.flatMap g = m := by
    intro m g hg
    induction m with
    | nil => rfl
    | cons x m ih =>
      rw [List.flatMap_cons, hg x (by simp), ih fun y hy => hg y (by simp [hy])]; rfl
  exact h2 l _ this

/-- A table of distinct rows, padded and compressed, is contiguous for almost every `ζ`. -/
theorem contiguous_table {T : Table F} (hT : T.Nodup) (n : ℕ) :
    Mostly (3 * T.length ^ 2) fun zeta : F => Contiguous ((padRows T n).map (compressRow zeta)) := by
  rcases T with _ | ⟨r, T⟩
  · refine .of_forall _ fun zeta => ?_
    unfold padRows
    simp only [if_true, List.map_append, List.map_cons, List.map_nil, List.map_replicate,
      List.headD_cons]
    exact contiguous_pad (List.nodup_nil) _ _ (by simp)
  · have hm : Mostly ((r :: T).length * ((r :: T).length * 3)) fun zeta : F =>
        ∀ x ∈ r :: T, ∀ y ∈ r :: T, x ≠ y → compressRow zeta x ≠ compressRow zeta y := by
      refine Mostly.list _ fun x _ => Mostly.list _ fun y _ => ?_
      by_cases h : x = y
      · exact .of_forall _ fun _ hc => absurd h hc
      · exact (compressRow_mostly h).mono le_rfl fun _ hx _ => hx
    refine hm.mono (by ring_nf; rfl) fun zeta hz => ?_
    have hinj : ((r :: T).map (compressRow zeta)).Nodup := by
      refine List.Nodup.map_on ?_ hT
      intro x hx y hy hxy
      by_contra hc
      exact hz x hx y hy hc hxy
    unfold padRows
    simp only [reduceCtorEq, if_false, List.map_append, List.map_replicate, List.headD_cons]
    rw [List.map_cons] at hinj ⊢
    exact contiguous_pad (List.nodup_cons.1 hinj).2 _ _ (List.nodup_cons.1 hinj).1

end VO.Plonk
