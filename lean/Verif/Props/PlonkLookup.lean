import Verif.Lemmas.PlonkLookup3
import Verif.Lemmas.PlonkExample2

/-
C102-C104: lookup tables and the lookup argument of `/repo/plonk-core`.
-/

set_option linter.unusedSectionVars false

namespace VO

open VO.Plonk VO.Spec VO.Spec.Plonk

variable {F : Type} [Field F] [DecidableEq F]

/-! ### C102: tables -/

/-- `insert_multi_*` appends exactly the rows of the operation, for operands from the lower bound to
`2 ^ n`, in order. With overflow checks it panics for `n ≥ 64` and, for multiplication, for `n > 32`
(unless there is no row to add); without, it adds nothing for `n ≥ 64` and the right rows
otherwise. -/
theorem C102_insert_multi (checks : Bool) (op : LookupOp) (T : Table F) (lower n : ℕ) :
    insertMulti checks op T lower n =
      if 64 ≤ n then (if checks then .error .panic else .ok T)
      else if checks = true ∧ op = .mul ∧ 32 < n ∧ lower < 2 ^ n then .error .panic
      else .ok (T ++ opRows op lower n) :=
  insertMulti_eq checks op T lower n

/-- The rows: which and how many. -/
theorem C102_rows (op : LookupOp) (lower n : ℕ) :
    (∀ r : F × F × F × F, r ∈ opRows op lower n ↔ ∃ a b : ℕ, lower ≤ a ∧ a < 2 ^ n ∧ lower ≤ b ∧
      b < 2 ^ n ∧ r = ((a : F), (b : F), ((op.val a b % 2 ^ n : ℕ) : F), op.tag)) ∧
    (opRows op lower n : Table F).length = (2 ^ n - lower) ^ 2 :=
  ⟨fun _ => mem_opRows, opRows_length op lower n⟩

/-- `lookup` fails exactly when no row has the three values, and otherwise completes them to a
row. -/
theorem C102_lookup (T : Table F) (a b d : F) :
    (tableLookup T a b d = .error .elementNotIndexed ↔ ∀ c, (a, b, c, d) ∉ T) ∧
    (∀ c, tableLookup T a b d = .ok c → (a, b, c, d) ∈ T) ∧
    (tableLookup T a b d = .error .elementNotIndexed ∨ ∃ c, tableLookup T a b d = .ok c) :=
  ⟨tableLookup_none, fun _ h => tableLookup_mem h, tableLookup_total T a b d⟩

/-- Tables of several operations do not disturb each other: in a table made by any sequence of
`insert_multi_*` calls, a lookup with an operation's tag gives the operation's value modulo the
bound of the first call for that operation whose range contains both operands, and fails when there
is none. The field must have characteristic above 3 and tell the operands apart. -/
theorem C102_multi (h2 : (2 : F) ≠ 0) (h3 : (3 : F) ≠ 0) (op : LookupOp) (a b : ℕ)
    (calls : List (LookupOp × ℕ × ℕ))
    (inj : ∀ e ∈ calls, ∀ i j : ℕ, i < 2 ^ e.2.2 → (j = a ∨ j = b) → (i : F) = (j : F) → i = j) :
    tableLookup (calls.flatMap fun e => (opRows e.1 e.2.1 e.2.2 : Table F)) a b op.tag =
      match calls.find? (fun e => op = e.1 ∧ e.2.1 ≤ a ∧ a < 2 ^ e.2.2 ∧ e.2.1 ≤ b
        ∧ b < 2 ^ e.2.2) with
      | some e => .ok ((op.val a b % 2 ^ e.2.2 : ℕ) : F)
      | none => .error .elementNotIndexed := by
  induction calls with
  | nil => rfl
  | cons e calls ih =>
    rw [List.flatMap_cons, tableLookup_append,
      lookup_opRows e.1 op e.2.1 e.2.2 (fun h => tag_inj h2 h3 h) (inj e (by simp)),
      ih fun e' he' => inj e' (by simp [he']), List.find?_cons]
    by_cases h : op = e.1 ∧ e.2.1 ≤ a ∧ a < 2 ^ e.2.2 ∧ e.2.1 ≤ b ∧ b < 2 ^ e.2.2
    · rw [if_pos h, decide_eq_true h]
      simp only [h.1]
    · rw [if_neg h, decide_eq_false h]

/-- `value_from_table` pushes a row of the table onto the witness columns, or fails. -/
theorem C102_value_from_table (f : Quad F) (T : Table F) (l r d : F) :
    (∀ f', valueFromTable f T l r d = .ok f' → ∃ o, (l, r, o, d) ∈ T ∧
      f' = ⟨f.p1 ++ [l], f.p2 ++ [r], f.p3 ++ [o], f.p4 ++ [d]⟩) ∧
    (valueFromTable f T l r d = .error .elementNotIndexed ↔ ∀ o, (l, r, o, d) ∉ T) := by
  rcases tableLookup_total T l r d with h | ⟨c, h⟩
  · have e : valueFromTable f T l r d = .error .elementNotIndexed := by
      unfold valueFromTable; rw [h]; rfl
    exact ⟨fun f' hf => (by rw [e] at hf; cases hf), fun _ => tableLookup_none.1 h, fun _ => e⟩
  · have e : valueFromTable f T l r d
        = .ok ⟨f.p1 ++ [l], f.p2 ++ [r], f.p3 ++ [c], f.p4 ++ [d]⟩ := by
      unfold valueFromTable; rw [h]; rfl
    refine ⟨fun f' hf => ?_, ⟨fun hc => (by rw [e] at hc; cases hc), fun hc => ?_⟩⟩
    · rw [e] at hf
      simp only [Except.ok.injEq] at hf
      exact ⟨c, tableLookup_mem h, hf.symm⟩
    · exact absurd (tableLookup_mem h) (hc c)

/-- Preprocessing pads with the first row; it panics exactly when `n` is not a power of two. An
empty table becomes a table of zero rows. -/
theorem C102_preprocess (T : Table F) (n : ℕ) :
    preprocessTable T n = (if 2 ^ Nat.log 2 n = n then .ok (vecToMultiset (padRows T n))
      else .error .panic) ∧
    (T ≠ [] → ∀ r, r ∈ padRows T n ↔ r ∈ T) ∧
    (T.length ≤ n → 0 < n → (padRows T n).length = n) ∧
    (T = [] → 0 < n → ∀ r, r ∈ padRows T n ↔ r = (0, 0, 0, 0)) := by
  refine ⟨?_, fun h r => mem_padRows h, padRows_length, ?_⟩
  · split_ifs with h
    · exact preprocess_eq T h
    · unfold preprocessTable
      rw [assertR, if_neg h]; rfl
  · rintro rfl hn r
    simp only [padRows, if_true, List.mem_append, List.mem_singleton, List.mem_replicate,
      List.headD_cons]
    tauto

example : tableLookup ([(LookupOp.xor, 0, 3), (.add, 1, 4), (.mul, 0, 2)].flatMap
    fun e => (opRows e.1 e.2.1 e.2.2 : Table K7681)) 5 6 LookupOp.add.tag = .ok 11 := by
  decide +kernel

example : ∀ e ∈ [(LookupOp.xor, 0, 3), (.add, 1, 4), (.mul, 0, 2)], ∀ i j : ℕ, i < 2 ^ e.2.2 →
    (j = 5 ∨ j = 6) → (i : K7681) = (j : K7681) → i = j := by
  intro e he i j hi hj h
  have hi : i < 16 := by
    simp only [List.mem_cons, List.not_mem_nil, or_false] at he
    rcases he with rfl | rfl | rfl <;> simp only at hi <;> omega
  rcases hj with rfl | rfl <;> interval_cases i <;> first | rfl | (revert h; decide +kernel)

/-! ### C103: sorting queries into the table -/

/-- `t.combine_split(f)` succeeds exactly when every element of `f` is in `t`; the two halves are
the even and the odd places of the elements of both, equal ones together, in the order of `t`. -/
theorem C103_combine_split (t f : List F) :
    (combineSplit t f = .error .elementNotIndexed ↔ ¬ ∀ x ∈ f, x ∈ t) ∧
    ((∀ x ∈ f, x ∈ t) → ∃ h1 h2, combineSplit t f = .ok (h1, h2) ∧
      (∀ i, h1[i]? = (grouped t f)[2 * i]?) ∧ (∀ i, h2[i]? = (grouped t f)[2 * i + 1]?)) ∧
    ((∀ x ∈ f, x ∈ t) → (grouped t f).Perm (t ++ f)) := by
  refine ⟨?_, fun h => ?_, grouped_perm⟩
  · rw [combineSplit_eq]
    by_cases h : ∀ x ∈ f, x ∈ t
    · rw [if_pos h]
      exact ⟨fun hc => (by cases hc), fun hc => absurd h hc⟩
    · rw [if_neg h]
      exact ⟨fun _ => h, fun _ => rfl⟩
  · rw [combineSplit_eq, if_pos h]
    exact ⟨_, _, rfl, fun i => (evens_getElem? _ i).1, fun i => (evens_getElem? _ i).2⟩

/-- The example in the source: `t = {2, 4, 1, 3}`, `f = {2, 3, 3, 2}`. -/
example : grouped [2, 4, 1, 3] [2, 3, 3, 2] = ([2, 2, 2, 4, 1, 3, 3, 3] : List K7681) ∧
    combineSplit [2, 4, 1, 3] [2, 3, 3, 2] = .ok (([2, 2, 1, 3], [2, 4, 3, 3]) : List K7681 × _) := by
  decide +kernel

/-- The compressed table and the compressed queries: rows with selector zero query the first row of
the table. Compression panics exactly for the challenges `0` and `1`. -/
theorem C103_compress (T : Table F) {n : ℕ} (hn : 2 ^ Nat.log 2 n = n)
    (rows : List (F × F × F × F × F)) (ct0 zeta : F) :
    (∃ cols, preprocessTable T n = .ok cols ∧
      msCompress cols zeta = if zeta = 0 ∨ zeta = 1 then .error .panic
        else .ok ((padRows T n).map (compressRow zeta))) ∧
    msCompress (queryCols ct0 rows) zeta = if zeta = 0 ∨ zeta = 1 then .error .panic
      else .ok (rows.map fun r => if r.1 = 0 then ct0 else compressRow zeta r.2) :=
  ⟨⟨_, preprocess_eq T hn, compress_rows _ _⟩, query_eq ct0 rows zeta⟩

/-- Compression hides nothing from the argument: a tuple that is not a row of the table is, for all
but `3n` challenges, not compressed to the compression of a row. -/
theorem C103_compress_sound (rows : Table F) {r : F × F × F × F} (h : r ∉ rows) :
    Mostly (3 * rows.length) fun zeta : F => compressRow zeta r ∉ rows.map (compressRow zeta) :=
  compress_notin rows h

/-! ### C104: the lookup argument -/

/-- Soundness: if some queried value is not in the table, then whatever the two halves, for all but
`4n + 1` values of `δ` and `2n` of `ε` no accumulator passes the verifier's checks. -/
theorem C104_sound {n : ℕ} {f t : ℕ → F} (h : ∃ k < n, ∀ i < n, t i ≠ f k) (h1 h2 : ℕ → F) :
    Mostly (4 * n + 1) fun delta : F => Mostly (2 * n) fun epsilon : F =>
      ∀ z, ¬ LookupCheck n delta epsilon f t h1 h2 z := by
  obtain ⟨k, hk, h⟩ := h
  exact lookup_sound hk h h1 h2

/-- Completeness: if every query is in the table and equal entries of the table stand together
(cyclically), the honest prover's accumulator is computed unless a denominator is zero, which for
`δ ≠ -1` happens for at most `2n` values of `ε`, and it passes the checks. -/
theorem C104_complete {D : Dom F} (hD : DomOk D) {t f : List F} (lt : t.length = D.size)
    (lf : f.length = D.size) (hf : ∀ x ∈ f, x ∈ t) (hc : Contiguous t) :
    ∃ h1 h2, combineSplit t f = .ok (h1, h2) ∧ h1.length = D.size ∧ h2.length = D.size ∧
      ∀ delta : F,
        (∀ epsilon, (∃ i < D.size,
            (epsilon * (1 + delta) + h1.getD i 0 + delta * h2.getD i 0)
              * (epsilon * (1 + delta) + h2.getD i 0 + delta * h1.getD ((i + 1) % D.size) 0) = 0) →
          computeLookupPermutationPoly D f t h1 h2 delta epsilon = .error .panic) ∧
        (∀ epsilon, (∀ i < D.size,
            (epsilon * (1 + delta) + h1.getD i 0 + delta * h2.getD i 0)
              * (epsilon * (1 + delta) + h2.getD i 0 + delta * h1.getD ((i + 1) % D.size) 0) ≠ 0) →
          ∃ z, computeLookupPermutationPoly D f t h1 h2 delta epsilon = .ok z ∧
            (polyOf z).degree < D.size ∧
            LookupCheck D.size delta epsilon (fun i => f.getD i 0) (fun i => t.getD i 0)
              (fun i => h1.getD i 0) (fun i => h2.getD i 0) fun i => polyEval z (D.omega ^ i)) ∧
        (delta ≠ -1 → Mostly (2 * D.size) fun epsilon : F => ∀ i < D.size,
            (epsilon * (1 + delta) + h1.getD i 0 + delta * h2.getD i 0)
              * (epsilon * (1 + delta) + h2.getD i 0 + delta * h1.getD ((i + 1) % D.size) 0) ≠ 0) := by
  have hs : (grouped t f).length = 2 * D.size := by
    rw [(grouped_perm hf).length_eq, List.length_append, lt, lf]; ring
  have l1 : (evens (grouped t f)).length = D.size := by
    rw [(evens_length _).1, hs]; omega
  have l2 : (odds (grouped t f)).length = D.size := by
    rw [(evens_length _).2, hs]; omega
  refine ⟨evens (grouped t f), odds (grouped t f), by rw [combineSplit_eq, if_pos hf], l1, l2, ?_⟩
  intro delta
  refine ⟨fun epsilon h => lookupPoly_panic lf lt l1 l2 delta epsilon h, fun epsilon h => ?_,
    fun hd => half_mostly D.size hd _ _⟩
  obtain ⟨z, z1, z2, z3⟩ := lookupPoly_run hD lf lt l1 l2 delta epsilon h
  exact ⟨z, z1, z2, lookupCheck_of_run hD.pos h z3 (lookup_prod_eq lt lf hf hc delta epsilon)⟩

/-- A table without duplicate rows, padded and compressed, is contiguous for all but `3 |T|²`
challenges. -/
theorem C104_distinct_rows {T : Table F} (hT : T.Nodup) (n : ℕ) :
    Mostly (3 * T.length ^ 2) fun zeta : F => Contiguous ((padRows T n).map (compressRow zeta)) :=
  contiguous_table hT n

/-- Deviation: a table that holds a row twice with another row in between (two operations inserted
twice, say) makes the honest prover fail: for the table `a, b, a, b` and queries `a, a, a, a` the
halves are computed without an error, but for all but `17` values of `δ` and `8` of `ε` no
accumulator passes the checks. -/
theorem C104_deviation_duplicates {a b : F} (hab : a ≠ b) :
    ∃ h1 h2, combineSplit [a, b, a, b] [a, a, a, a] = .ok (h1, h2) ∧
      Mostly 17 fun delta : F => Mostly 8 fun epsilon : F => ∀ z, ¬ LookupCheck 4 delta epsilon
        (fun i => [a, a, a, a].getD i 0) (fun i => [a, b, a, b].getD i 0) (fun i => h1.getD i 0)
        (fun i => h2.getD i 0) z := by
  refine ⟨_, _, by rw [combineSplit_eq, if_pos (by simp)], ?_⟩
  have hg : grouped [a, b, a, b] [a, a, a, a] = [a, a, a, a, a, a, b, b] := by
    have e : [a, b, a, b].eraseDups = [a, b] := by
      simp [List.eraseDups_cons, Ne.symm hab]
    unfold grouped
    rw [e]
    simp [List.count_cons, hab, Ne.symm hab, List.replicate]
  rw [hg]
  simp only [evens, odds]
  refine (lookup_sound_pairs (n := 4) ⟨(b, b), ?_⟩).mono le_rfl fun _ h => h
  have hA : (Finset.univ.filter fun i => pairsA (fun i : Fin 4 => [a, a, a, a].getD i 0)
      (fun i : Fin 4 => [a, b, a, b].getD i 0) i = (b, b)).card = 0 := by
    rw [Finset.card_eq_zero, Finset.filter_eq_empty_iff]
    rintro (i | i) - <;> fin_cases i <;> simp [pairsA, cnext, hab]
  have hB : 0 < (Finset.univ.filter fun i => pairsB (fun i : Fin 4 => [a, a, a, b].getD i 0)
      (fun i : Fin 4 => [a, a, a, b].getD i 0) i = (b, b)).card := by
    rw [Finset.card_pos]
    exact ⟨.inl 3, by simp [pairsB]⟩
  omega

/-- The terms `lookup::compute_quotient_i` adds are the query check and the two accumulator checks:
for a lookup row the query polynomial must be the compressed wires. A row that violates one of them
makes the term non-zero for all but three separation challenges. -/
theorem C104_quotient (q ct f t tNext h1 h1Next h2 z2 z2Next l1 delta epsilon : F) :
    let acc := z2 * ((1 + delta) * (epsilon + f) * (epsilon * (1 + delta) + t + delta * tNext))
      - z2Next * ((epsilon * (1 + delta) + h1 + delta * h2)
        * (epsilon * (1 + delta) + h2 + delta * h1Next))
    ((q * (ct - f) = 0 ∧ acc = 0 ∧ (z2 - 1) * l1 = 0) → ∀ s,
      lookupQuotient q ct f t tNext h1 h1Next h2 z2 z2Next l1 delta epsilon s = 0) ∧
    (¬ (q * (ct - f) = 0 ∧ acc = 0 ∧ (z2 - 1) * l1 = 0) → Mostly 3 fun s =>
      lookupQuotient q ct f t tNext h1 h1Next h2 z2 z2Next l1 delta epsilon s ≠ 0) := by
  intro acc
  have e : ∀ s, lookupQuotient q ct f t tNext h1 h1Next h2 z2 z2Next l1 delta epsilon s
      = 0 + (q * (ct - f) * s + acc * s ^ 2 + (z2 - 1) * l1 * s ^ 3) := by
    intro s
    simp only [lookupQuotient, acc]
    ring
  constructor
  · rintro ⟨h1, h2, h3⟩ s
    rw [e, h1, h2, h3]; ring
  · intro h
    refine (mostly_cubic 0 (q * (ct - f)) acc ((z2 - 1) * l1) ?_).mono le_rfl fun s hs => ?_
    · tauto
    · rw [e]; exact hs

/-- A table of the kind the honest prover handles: the rows 3, 5, 6 padded with 3. -/
example : Contiguous ([3, 5, 6, 3, 3, 3, 3, 3] : List K7681) ∧
    (∀ x ∈ ([5, 3, 3, 6, 5, 3, 3, 3] : List K7681), x ∈ ([3, 5, 6, 3, 3, 3, 3, 3] : List K7681)) ∧
    D8.size = 8 :=
  ⟨⟨3, by decide +kernel⟩, fun x hx => by simp at hx ⊢; tauto, rfl⟩

example : (∃ k < 8, ∀ i < 8, (fun i => ([3, 5, 6, 3, 3, 3, 3, 3] : List K7681).getD i 0) i
    ≠ (fun i => ([5, 3, 3, 7, 5, 3, 3, 3] : List K7681).getD i 0) k) := ⟨3, by decide +kernel⟩

end VO
