import Verif.Lemmas.PlonkBlock

/-
The xor/and gate.
-/

set_option linter.unusedSectionVars false

namespace VO.Plonk

open VO.Spec.Plonk

variable {F : Type} [Field F] [DecidableEq F]

/-- The bitwise operation of the gate. -/
def opN (isXor : Bool) (a b : ℕ) : ℕ := if isXor then a ^^^ b else a &&& b

theorem four_pow (e : ℕ) : (4 : ℕ) ^ e = 2 ^ (2 * e) := by rw [pow_mul]; norm_num

theorem opN_digit (isXor : Bool) (a b e : ℕ) :
    opN isXor a b / 4 ^ e % 4 = opN isXor (a / 4 ^ e % 4) (b / 4 ^ e % 4) := by
  have h4 : (4 : ℕ) = 2 ^ 2 := by norm_num
  unfold opN
  rw [four_pow]
  cases isXor
  · simp only [Bool.false_eq_true, if_false]
    rw [Nat.and_div_two_pow, h4, Nat.and_mod_two_pow]
  · simp only [if_true]
    rw [Nat.xor_div_two_pow, h4, Nat.xor_mod_two_pow]

theorem opN_lt (isXor : Bool) {a b n : ℕ} (ha : a < 2 ^ n) (hb : b < 2 ^ n) :
    opN isXor a b < 2 ^ n := by
  unfold opN
  split
  · exact Nat.xor_lt_two_pow ha hb
  · exact Nat.and_lt_two_pow _ hb

/-- The `i`-th accumulator variable of a column. -/
def lacc (c0 : Composer F) (off i : ℕ) : Var :=
  if i = 0 then c0.zero_var else c0.variables.length + 4 * (i - 1) + off

/-- The composer inside the loop, after `j` rounds. -/
def lcomp (c0 : Composer F) (j : ℕ) (vals : List F) (pm : List (List WireData)) : Composer F :=
  { c0 with
    n := c0.n + (j + 1)
    w_l := c0.w_l ++ (List.range (j + 1)).map (lacc c0 0)
    w_r := c0.w_r ++ (List.range (j + 1)).map (lacc c0 1)
    w_4 := c0.w_4 ++ (List.range (j + 1)).map (lacc c0 3)
    w_o := c0.w_o ++ (List.range j).map (fun i => c0.variables.length + 4 * i + 2)
    «variables» := c0.variables ++ vals
    perm := pm }

/-- The wire map inside the loop. -/
structure LInv (c0 : Composer F) (j : ℕ) (vals : List F) (pm : List (List WireData)) : Prop where
  vlen : vals.length = 4 * j
  plen : pm.length = c0.variables.length + 4 * j
  on : ∀ y q, OnP pm y q ↔ OnP c0.perm y q ∨
    (∃ i ≤ j, (y = lacc c0 0 i ∧ q = .left (c0.n + i)) ∨ (y = lacc c0 1 i ∧ q = .right (c0.n + i)) ∨
      (y = lacc c0 3 i ∧ q = .fourth (c0.n + i))) ∨
    ∃ i < j, y = c0.variables.length + 4 * i + 2 ∧ q = .output (c0.n + i)
  nod : NodP pm

theorem lacc_lt {c0 : Composer F} (hw : WF c0) {off i j : ℕ} (ho : off < 4) (hi : i ≤ j) :
    lacc c0 off i < c0.variables.length + 4 * j := by
  have := hw.zero
  unfold lacc
  split <;> omega

/-- One round of the loop. -/
theorem logic_round {c0 : Composer F} (hw : WF c0) {j : ℕ} {vals : List F}
    {pm : List (List WireData)} (h : LInv c0 j vals pm) (la ra pq oa : F) :
    ∃ pm', (do
      let va ← addInput la
      let vb ← addInput ra
      let vc ← addInput pq
      let v4 ← addInput oa
      let n ← gateCount
      addVariableToMap va (.left n)
      addVariableToMap vb (.right n)
      addVariableToMap v4 (.fourth n)
      addVariableToMap vc (.output (n - 1))
      pushL va
      pushR vb
      pushO vc
      push4 v4
      bump 1 : CM F Unit) (lcomp c0 j vals pm) =
        .ok ((), lcomp c0 (j + 1) (vals ++ [la, ra, pq, oa]) pm') ∧
      LInv c0 (j + 1) (vals ++ [la, ra, pq, oa]) pm' := by
  set L := c0.variables.length + 4 * j with hL
  set P := pm ++ [[]] ++ [[]] ++ [[]] ++ [[]] with hP
  have hPl : P.length = L + 4 := by simp [hP, h.plen, hL]
  set n1 := c0.n + (j + 1) with hn1
  set pm' := permAdd (permAdd (permAdd (permAdd P L (.left n1)) (L + 1) (.right n1)) (L + 3)
    (.fourth n1)) (L + 2) (.output (n1 - 1)) with hpm'
  have l0 : lacc c0 0 (j + 1) = L := by simp [lacc, hL]
  have l1 : lacc c0 1 (j + 1) = L + 1 := by simp [lacc, hL]
  have l3 : lacc c0 3 (j + 1) = L + 3 := by simp [lacc, hL]
  refine ⟨pm', ?_, ?_⟩
  · refine bindC_ok.2 ⟨L, { lcomp c0 j vals pm with «variables» := c0.variables ++ vals ++ [la], perm := pm ++ [[]] }, ?_, ?_⟩
    · show Except.ok (pm.length, _) = _
      rw [h.plen]
      rfl
    refine bindC_ok.2 ⟨L + 1, { lcomp c0 j vals pm with «variables» := c0.variables ++ vals ++ [la] ++ [ra], perm := pm ++ [[]] ++ [[]] }, ?_, ?_⟩
    · show Except.ok ((pm ++ [[]]).length, _) = _
      rw [List.length_append, h.plen]
      rfl
    refine bindC_ok.2 ⟨L + 2, { lcomp c0 j vals pm with «variables» := c0.variables ++ vals ++ [la] ++ [ra] ++ [pq], perm := pm ++ [[]] ++ [[]] ++ [[]] }, ?_, ?_⟩
    · show Except.ok ((pm ++ [[]] ++ [[]]).length, _) = _
      rw [List.length_append, List.length_append, h.plen]
      rfl
    refine bindC_ok.2 ⟨L + 3, { lcomp c0 j vals pm with «variables» := c0.variables ++ vals ++ [la] ++ [ra] ++ [pq] ++ [oa], perm := P }, ?_, ?_⟩
    · show Except.ok ((pm ++ [[]] ++ [[]] ++ [[]]).length, _) = _
      rw [List.length_append, List.length_append, List.length_append, h.plen]
      rfl
    refine bindC_ok.2 ⟨n1, _, rfl, ?_⟩
    refine bindC_ok.2 ⟨(), _, addVariableToMap_run (by show L < P.length; omega), ?_⟩
    refine bindC_ok.2 ⟨(), _, addVariableToMap_run
      (by show _ < (permAdd _ _ _).length; rw [permAdd_length]; show L + 1 < P.length; omega), ?_⟩
    refine bindC_ok.2 ⟨(), _, addVariableToMap_run
      (by show _ < (permAdd (permAdd _ _ _) _ _).length; simp only [permAdd_length]
          show L + 3 < P.length; omega), ?_⟩
    refine bindC_ok.2 ⟨(), _, addVariableToMap_run
      (by show _ < (permAdd (permAdd (permAdd _ _ _) _ _) _ _).length; simp only [permAdd_length]
          show L + 2 < P.length; omega), ?_⟩
    refine bindC_ok.2 ⟨(), _, rfl, bindC_ok.2 ⟨(), _, rfl, bindC_ok.2 ⟨(), _, rfl, bindC_ok.2
      ⟨(), _, rfl, ?_⟩⟩⟩⟩
    show Except.ok ((), _) = _
    congr 2
    simp only [lcomp, List.range_succ, List.map_append, List.map_cons, List.map_nil,
      List.append_assoc, l0, l1, l3, hL]
    rfl
  · refine ⟨by simp [h.vlen]; omega, by rw [hpm']; simp only [permAdd_length]; omega, ?_, ?_⟩
    swap
    · have hPn : NodP P := h.nod.input.input.input.input
      have hPo : ∀ y q, OnP P y q ↔ OnP pm y q := fun y q => by
        rw [hP, onP_append_nil, onP_append_nil, onP_append_nil, onP_append_nil]
      have f1 : ∀ y q, OnP P y q → (q = .left n1 ∨ q = .right n1 ∨ q = .fourth n1 ∨
          q = .output (n1 - 1)) → False := by
        intro y q ho he
        rcases (h.on y q).1 ((hPo y q).1 ho) with h1 | ⟨i, h1, h2⟩ | ⟨i, h1, h2⟩
        · have := hw.rowLt y q h1
          rcases he with rfl | rfl | rfl | rfl <;> simp only [WireData.row] at this <;> omega
        · rcases h2 with ⟨_, rfl⟩ | ⟨_, rfl⟩ | ⟨_, rfl⟩ <;>
            simp only [reduceCtorEq, false_or, or_false, WireData.left.injEq, WireData.right.injEq,
              WireData.fourth.injEq] at he <;> omega
        · obtain ⟨_, rfl⟩ := h2
          simp only [reduceCtorEq, false_or, WireData.output.injEq] at he
          omega
      refine NodP.add (NodP.add (NodP.add (NodP.add hPn ?_) ?_) ?_) ?_
      · intro ho; exact f1 _ _ ho (by simp)
      · rw [onP_permAdd (by omega)]
        rintro (ho | ⟨_, ho⟩)
        · exact f1 _ _ ho (by simp)
        · cases ho
      · rw [onP_permAdd (by simp only [permAdd_length]; omega), onP_permAdd (by omega)]
        rintro ((ho | ⟨_, ho⟩) | ⟨_, ho⟩)
        · exact f1 _ _ ho (by simp)
        · cases ho
        · cases ho
      · rw [onP_permAdd (by simp only [permAdd_length]; omega),
          onP_permAdd (by simp only [permAdd_length]; omega), onP_permAdd (by omega)]
        rintro (((ho | ⟨_, ho⟩) | ⟨_, ho⟩) | ⟨_, ho⟩)
        · exact f1 _ _ ho (by simp)
        · cases ho
        · cases ho
        · cases ho
    intro y q
    rw [hpm', onP_permAdd (by simp only [permAdd_length]; omega),
      onP_permAdd (by simp only [permAdd_length]; omega),
      onP_permAdd (by simp only [permAdd_length]; omega), onP_permAdd (by omega), hP,
      onP_append_nil, onP_append_nil, onP_append_nil, onP_append_nil, h.on]
    constructor
    · rintro (((((h1 | ⟨i, h1, h2⟩ | ⟨i, h1, h2⟩) | h1) | h1) | h1) | h1)
      · exact Or.inl h1
      · exact Or.inr (Or.inl ⟨i, by omega, h2⟩)
      · exact Or.inr (Or.inr ⟨i, by omega, h2⟩)
      · exact Or.inr (Or.inl ⟨j + 1, le_refl _, Or.inl (by rw [l0]; exact h1)⟩)
      · exact Or.inr (Or.inl ⟨j + 1, le_refl _, Or.inr (Or.inl (by rw [l1]; exact h1))⟩)
      · exact Or.inr (Or.inl ⟨j + 1, le_refl _, Or.inr (Or.inr (by rw [l3]; exact h1))⟩)
      · exact Or.inr (Or.inr ⟨j, by omega, h1.1, by rw [h1.2, hn1]; congr 1⟩)
    · rintro (h1 | ⟨i, h1, h2⟩ | ⟨i, h1, h2⟩)
      · exact Or.inl (Or.inl (Or.inl (Or.inl (Or.inl h1))))
      · rcases Nat.lt_or_ge i (j + 1) with hi | hi
        · exact Or.inl (Or.inl (Or.inl (Or.inl (Or.inr (Or.inl ⟨i, by omega, h2⟩)))))
        · obtain rfl : i = j + 1 := by omega
          rw [l0, l1, l3] at h2
          rcases h2 with h2 | h2 | h2
          · exact Or.inl (Or.inl (Or.inl (Or.inr h2)))
          · exact Or.inl (Or.inl (Or.inr h2))
          · exact Or.inl (Or.inr h2)
      · rcases Nat.lt_or_ge i j with hi | hi
        · exact Or.inl (Or.inl (Or.inl (Or.inl (Or.inr (Or.inr ⟨i, hi, h2⟩)))))
        · obtain rfl : i = j := by omega
          exact Or.inr ⟨h2.1, by rw [h2.2, hn1]; congr 1⟩

/-- The values added by rounds `0, …, j - 1`, for inputs `A` and `B` of `k` quads. -/
def logicVals (A B : ℕ) (isXor : Bool) (k : ℕ) : ℕ → List F
  | 0 => []
  | j + 1 => logicVals A B isXor k j ++
    [((A / 4 ^ (k - (j + 1)) : ℕ) : F), ((B / 4 ^ (k - (j + 1)) : ℕ) : F),
     ((A / 4 ^ (k - (j + 1)) % 4 * (B / 4 ^ (k - (j + 1)) % 4) : ℕ) : F),
     ((opN isXor A B / 4 ^ (k - (j + 1)) : ℕ) : F)]

theorem acc_step (m : ℕ) {k j : ℕ} (hj : j < k) :
    ((m / 4 ^ (k - j) : ℕ) : F) * 4 + ((m / 4 ^ (k - (j + 1)) % 4 : ℕ) : F)
      = ((m / 4 ^ (k - (j + 1)) : ℕ) : F) := by
  have e : k - j = (k - (j + 1)) + 1 := by omega
  rw [e, pow_succ, ← Nat.div_div_eq_div_mul]
  generalize m / 4 ^ (k - (j + 1)) = q
  have := Nat.div_add_mod q 4
  conv_rhs => rw [← this]
  push_cast
  ring

theorem quad_lt_four (m e : ℕ) : m / 4 ^ e % 4 < 4 := Nat.mod_lt _ (by norm_num)

theorem opN_eq (isXor : Bool) (a b : ℕ) :
    (if isXor = true then Nat.xor a b else Nat.land a b) = opN isXor a b := rfl

theorem logicLoop_run {c0 : Composer F} (hw : WF c0) {aBits bBits : List Bool} {isXor : Bool}
    {A B k : ℕ} (hA : ∀ i < k, quadAt aBits i = some (A / 4 ^ (k - (i + 1)) % 4))
    (hB : ∀ i < k, quadAt bBits i = some (B / 4 ^ (k - (i + 1)) % 4)) (m : ℕ) :
    ∀ {j : ℕ} {pm : List (List WireData)}, j + m = k →
      LInv c0 j (logicVals A B isXor k j : List F) pm →
      ∃ pm', logicLoop aBits bBits isXor j m ((A / 4 ^ (k - j) : ℕ) : F)
        ((B / 4 ^ (k - j) : ℕ) : F) ((opN isXor A B / 4 ^ (k - j) : ℕ) : F)
        (lcomp c0 j (logicVals A B isXor k j) pm)
          = .ok ((), lcomp c0 k (logicVals A B isXor k k) pm') ∧
        LInv c0 k (logicVals A B isXor k k : List F) pm' := by
  induction m with
  | zero =>
    intro j pm hj h
    obtain rfl : j = k := by omega
    exact ⟨pm, rfl, h⟩
  | succ m ih =>
    intro j pm hj h
    have hjk : j < k := by omega
    obtain ⟨pm1, hr, h1⟩ := logic_round hw h ((A / 4 ^ (k - (j + 1)) : ℕ) : F)
      ((B / 4 ^ (k - (j + 1)) : ℕ) : F)
      ((A / 4 ^ (k - (j + 1)) % 4 * (B / 4 ^ (k - (j + 1)) % 4) : ℕ) : F)
      ((opN isXor A B / 4 ^ (k - (j + 1)) : ℕ) : F)
    obtain ⟨pm2, hr2, h2⟩ := ih (j := j + 1) (pm := pm1) (by omega) h1
    refine ⟨pm2, ?_, h2⟩
    unfold logicLoop
    rw [hA j hjk, hB j hjk]
    simp only [opN_eq, ← opN_digit, acc_step _ hjk]
    refine bindC_ok.2 ⟨(), _, assertC_ok.2 ⟨quad_lt_four _ _, rfl⟩, ?_⟩
    refine bindC_ok.2 ⟨(), _, assertC_ok.2 ⟨quad_lt_four _ _, rfl⟩, ?_⟩
    refine bindC_ok.2 ⟨(), _, assertC_ok.2 ⟨by rw [← opN_digit]; exact quad_lt_four _ _, rfl⟩, ?_⟩
    obtain ⟨v1, d1, a1, hr⟩ := bindC_ok.1 hr
    obtain ⟨v2, d2, a2, hr⟩ := bindC_ok.1 hr
    obtain ⟨v3, d3, a3, hr⟩ := bindC_ok.1 hr
    obtain ⟨v4, d4, a4, hr⟩ := bindC_ok.1 hr
    obtain ⟨v5, d5, a5, hr⟩ := bindC_ok.1 hr
    obtain ⟨v6, d6, a6, hr⟩ := bindC_ok.1 hr
    obtain ⟨v7, d7, a7, hr⟩ := bindC_ok.1 hr
    obtain ⟨v8, d8, a8, hr⟩ := bindC_ok.1 hr
    obtain ⟨v9, d9, a9, hr⟩ := bindC_ok.1 hr
    obtain ⟨v10, d10, a10, hr⟩ := bindC_ok.1 hr
    obtain ⟨v11, d11, a11, hr⟩ := bindC_ok.1 hr
    obtain ⟨v12, d12, a12, hr⟩ := bindC_ok.1 hr
    obtain ⟨v13, d13, a13, hr⟩ := bindC_ok.1 hr
    exact bindC_ok.2 ⟨v1, d1, a1, bindC_ok.2 ⟨v2, d2, a2, bindC_ok.2 ⟨v3, d3, a3, bindC_ok.2
      ⟨v4, d4, a4, bindC_ok.2 ⟨v5, d5, a5, bindC_ok.2 ⟨v6, d6, a6, bindC_ok.2 ⟨v7, d7, a7,
      bindC_ok.2 ⟨v8, d8, a8, bindC_ok.2 ⟨v9, d9, a9, bindC_ok.2 ⟨v10, d10, a10, bindC_ok.2
      ⟨v11, d11, a11, bindC_ok.2 ⟨v12, d12, a12, bindC_ok.2 ⟨v13, d13, a13, bindC_ok.2
      ⟨(), _, hr, hr2⟩⟩⟩⟩⟩⟩⟩⟩⟩⟩⟩⟩⟩⟩

/-- The selectors appended. -/
def selApp (c : Composer F) (gs : List (Gate F)) : Composer F :=
  { c with
    q_m := c.q_m ++ gs.map (·.m), q_l := c.q_l ++ gs.map (·.l), q_r := c.q_r ++ gs.map (·.r)
    q_o := c.q_o ++ gs.map (·.o), q_4 := c.q_4 ++ gs.map (·.q4), q_c := c.q_c ++ gs.map (·.c)
    q_hl := c.q_hl ++ gs.map (·.hl), q_hr := c.q_hr ++ gs.map (·.hr)
    q_h4 := c.q_h4 ++ gs.map (·.h4), q_arith := c.q_arith ++ gs.map (·.arith)
    q_range := c.q_range ++ gs.map (·.range), q_logic := c.q_logic ++ gs.map (·.logic)
    q_fixed_group_add := c.q_fixed_group_add ++ gs.map (·.fixed)
    q_variable_group_add := c.q_variable_group_add ++ gs.map (·.var)
    q_lookup := c.q_lookup ++ gs.map (·.lookup) }

theorem selApp_app (c : Composer F) (gs hs : List (Gate F)) :
    selApp (selApp c gs) hs = selApp c (gs ++ hs) := by
  simp [selApp]

/-- The gate of the active rows. -/
def logicG (isXor : Bool) : Gate F :=
  { (gate0 : Gate F) with c := if isXor then -1 else 1, logic := if isXor then -1 else 1 }

theorem logicSelectors_run (isXor : Bool) (k : ℕ) (c : Composer F) :
    logicSelectors isXor k c = .ok ((), selApp c (List.replicate k (logicG isXor))) := by
  induction k generalizing c with
  | zero =>
    show Except.ok ((), c) = _
    simp [selApp]
  | succ k ih =>
    refine bindC_ok.2 ⟨(), selApp c [logicG isXor], rfl, ?_⟩
    rw [ih, selApp_app]
    rfl

theorem gateAt_selApp_lt {c : Composer F} {n0 : ℕ} (hl : Lens c n0) {gs : List (Gate F)} {i : ℕ}
    (hi : i < n0) : gateAt (selApp c gs) i = gateAt c i := by
  unfold gateAt selApp
  simp only
  rw [getD_append_left' _ (by rw [hl.q_m]; exact hi), getD_append_left' _ (by rw [hl.q_l]; exact hi),
    getD_append_left' _ (by rw [hl.q_r]; exact hi), getD_append_left' _ (by rw [hl.q_o]; exact hi),
    getD_append_left' _ (by rw [hl.q_4]; exact hi), getD_append_left' _ (by rw [hl.q_c]; exact hi),
    getD_append_left' _ (by rw [hl.q_hl]; exact hi),
    getD_append_left' _ (by rw [hl.q_hr]; exact hi),
    getD_append_left' _ (by rw [hl.q_h4]; exact hi),
    getD_append_left' _ (by rw [hl.q_arith]; exact hi),
    getD_append_left' _ (by rw [hl.q_range]; exact hi),
    getD_append_left' _ (by rw [hl.q_logic]; exact hi),
    getD_append_left' _ (by rw [hl.q_fixed]; exact hi),
    getD_append_left' _ (by rw [hl.q_var]; exact hi),
    getD_append_left' _ (by rw [hl.q_lookup]; exact hi)]

theorem getD_append_map {α : Type} {l : List F} {n0 j : ℕ} (h : l.length = n0) {gs : List α}
    {g : α} (hg : gs[j]? = some g) (f : α → F) : (l ++ gs.map f).getD (n0 + j) 0 = f g := by
  rw [List.getD_eq_getElem?_getD, List.getElem?_append_right (by omega), h,
    Nat.add_sub_cancel_left, List.getElem?_map, hg]
  rfl

theorem gateAt_selApp {c : Composer F} {n0 : ℕ} (hl : Lens c n0) {gs : List (Gate F)} {j : ℕ}
    {g : Gate F} (hg : gs[j]? = some g) : gateAt (selApp c gs) (n0 + j) = g := by
  unfold gateAt selApp
  simp only
  rw [getD_append_map hl.q_m hg, getD_append_map hl.q_l hg, getD_append_map hl.q_r hg,
    getD_append_map hl.q_o hg, getD_append_map hl.q_4 hg, getD_append_map hl.q_c hg,
    getD_append_map hl.q_hl hg, getD_append_map hl.q_hr hg, getD_append_map hl.q_h4 hg,
    getD_append_map hl.q_arith hg, getD_append_map hl.q_range hg, getD_append_map hl.q_logic hg,
    getD_append_map hl.q_fixed hg, getD_append_map hl.q_var hg, getD_append_map hl.q_lookup hg]

/-- The rows of the gate. -/
def lrows (c0 : Composer F) (isXor : Bool) (k : ℕ) : List (BRow F) :=
  (List.range k).map (fun i => ⟨logicG isXor, lacc c0 0 i, lacc c0 1 i,
    c0.variables.length + 4 * i + 2, lacc c0 3 i⟩) ++
  [⟨gate0, lacc c0 0 k, lacc c0 1 k, c0.zero_var, lacc c0 3 k⟩]

/-- The composer when the gate is complete. -/
def lfinal (c0 : Composer F) (isXor : Bool) (k : ℕ) (vals : List F) (pm : List (List WireData)) :
    Composer F :=
  selApp { lcomp c0 k vals pm with
    w_o := c0.w_o ++ (List.range k).map (fun i => c0.variables.length + 4 * i + 2) ++ [c0.zero_var]
    perm := permAdd pm c0.zero_var (.output (c0.n + k)) }
    (List.replicate k (logicG isXor) ++ [gate0])

theorem lrows_cases {c0 : Composer F} {isXor : Bool} {k j : ℕ} {r : BRow F}
    (h : (lrows c0 isXor k)[j]? = some r) :
    (j < k ∧ r = ⟨logicG isXor, lacc c0 0 j, lacc c0 1 j, c0.variables.length + 4 * j + 2,
      lacc c0 3 j⟩) ∨
    (j = k ∧ r = ⟨gate0, lacc c0 0 k, lacc c0 1 k, c0.zero_var, lacc c0 3 k⟩) := by
  unfold lrows at h
  rcases getElem?_snoc h with h1 | ⟨h1, h2⟩
  · have hj := (List.getElem?_eq_some_iff.1 h1).1
    simp only [List.length_map, List.length_range] at hj
    left
    rw [List.getElem?_map, List.getElem?_range hj] at h1
    exact ⟨hj, (Option.some.inj h1).symm⟩
  · right
    simp only [List.length_map, List.length_range] at h1
    exact ⟨h1, h2⟩

theorem lrows_lt (c0 : Composer F) (isXor : Bool) {k j : ℕ} (h : j < k) :
    (lrows c0 isXor k)[j]? = some ⟨logicG isXor, lacc c0 0 j, lacc c0 1 j,
      c0.variables.length + 4 * j + 2, lacc c0 3 j⟩ := by
  unfold lrows
  rw [List.getElem?_append_left (by simpa using h), List.getElem?_map, List.getElem?_range h]
  rfl

theorem lrows_last (c0 : Composer F) (isXor : Bool) (k : ℕ) :
    (lrows c0 isXor k)[k]? = some ⟨gate0, lacc c0 0 k, lacc c0 1 k, c0.zero_var,
      lacc c0 3 k⟩ := by
  unfold lrows
  rw [List.getElem?_append_right (by simp)]
  simp

theorem lrows_length (c0 : Composer F) (isXor : Bool) (k : ℕ) :
    (lrows c0 isXor k).length = k + 1 := by simp [lrows]

theorem lrows_getLast (c0 : Composer F) (isXor : Bool) (k : ℕ) :
    (lrows c0 isXor k).getLast? = some ⟨gate0, lacc c0 0 k, lacc c0 1 k, c0.zero_var,
      lacc c0 3 k⟩ := by
  simp [lrows]

theorem getElem?_app_map {l : List ℕ} {n0 j m : ℕ} (h : l.length = n0) (f : ℕ → ℕ) (hj : j < m)
    (t : List ℕ) : (l ++ ((List.range m).map f ++ t))[n0 + j]? = some (f j) := by
  rw [List.getElem?_append_right (by omega), h, Nat.add_sub_cancel_left,
    List.getElem?_append_left (by simpa using hj), List.getElem?_map, List.getElem?_range hj]
  rfl

theorem getElem?_app_inv {l t : List ℕ} {i y : ℕ} (h : (l ++ t)[i]? = some y) :
    l[i]? = some y ∨ y ∈ t := by
  rw [List.getElem?_append] at h
  split at h
  · exact Or.inl h
  · exact Or.inr (List.mem_of_getElem? h)

theorem lfinal_block {c0 : Composer F} (hw : WF c0) {isXor : Bool} {k : ℕ} {vals : List F}
    {pm : List (List WireData)} (h : LInv c0 k vals pm) :
    Block c0 (lfinal c0 isXor k vals pm) (lrows c0 isXor k) := by
  have hzp : c0.zero_var < pm.length := by rw [h.plen]; have := hw.zero; omega
  have hsel : Lens ({ lcomp c0 k vals pm with
    w_o := c0.w_o ++ (List.range k).map (fun i => c0.variables.length + 4 * i + 2) ++ [c0.zero_var]
    perm := permAdd pm c0.zero_var (.output (c0.n + k)) } : Composer F) c0.n :=
    ⟨hw.sel.1, hw.sel.2, hw.sel.3, hw.sel.4, hw.sel.5, hw.sel.6, hw.sel.7, hw.sel.8,
      hw.sel.9, hw.sel.10, hw.sel.11, hw.sel.12, hw.sel.13, hw.sel.14, hw.sel.15⟩
  have hon : ∀ y q, OnWire (lfinal c0 isXor k vals pm) y q ↔ _ := fun y q =>
    (onP_permAdd hzp y q).trans (or_congr_left (h.on y q))
  have hvl : (c0.variables ++ vals).length = c0.variables.length + 4 * k := by
    rw [List.length_append, h.vlen]
  have hwv : ∀ p x, wireVar c0 p = some x → wireVar (lfinal c0 isXor k vals pm) p = some x := by
    intro p x hp
    cases p with
    | output i =>
      show (c0.w_o ++ _ ++ _)[i]? = some x
      rw [List.append_assoc]
      exact getElem?_append_some hp
    | _ => exact getElem?_append_some hp
  have hext : Ext c0 (lfinal c0 isXor k vals pm) := by
    refine ⟨?_, ?_, rfl, ?_, hwv, List.prefix_append _ _, ?_, fun _ h => h, fun _ _ => Iff.rfl,
      fun _ _ => rfl, ?_⟩
    · show c0.n ≤ c0.n + (k + 1)
      omega
    · intro i hi
      exact (gateAt_selApp_lt hsel hi).trans rfl
    · intro x p hp
      exact (hon x p).2 (Or.inl (Or.inl hp))
    · show c0.perm.length ≤ (permAdd pm _ _).length
      rw [permAdd_length, h.plen, hw.permLen]
      omega
    · intro x p hp
      rcases (hon x p).1 hp with (h1 | ⟨i, hi, h1 | h1 | h1⟩ | ⟨i, hi, h1⟩) | h1
      · exact Or.inl h1
      all_goals rw [h1.2]; exact Or.inr (Nat.le_add_right _ _)
  have hnew : ∀ (j : ℕ) r, (lrows c0 isXor k)[j]? = some r →
      gateAt (lfinal c0 isXor k vals pm) (c0.n + j) = r.g ∧
      OnWire (lfinal c0 isXor k vals pm) r.a (.left (c0.n + j)) ∧
      OnWire (lfinal c0 isXor k vals pm) r.b (.right (c0.n + j)) ∧
      OnWire (lfinal c0 isXor k vals pm) r.o (.output (c0.n + j)) ∧
      OnWire (lfinal c0 isXor k vals pm) r.d (.fourth (c0.n + j)) := by
    intro j r hj
    rcases lrows_cases hj with ⟨hjk, rfl⟩ | ⟨rfl, rfl⟩
    · refine ⟨gateAt_selApp hsel (by
          rw [List.getElem?_append_left (by simpa using hjk), List.getElem?_replicate, if_pos hjk]),
        (hon _ _).2 (Or.inl (Or.inr (Or.inl ⟨j, by omega, Or.inl ⟨rfl, rfl⟩⟩))),
        (hon _ _).2 (Or.inl (Or.inr (Or.inl ⟨j, by omega, Or.inr (Or.inl ⟨rfl, rfl⟩)⟩))),
        (hon _ _).2 (Or.inl (Or.inr (Or.inr ⟨j, hjk, rfl, rfl⟩))),
        (hon _ _).2 (Or.inl (Or.inr (Or.inl ⟨j, by omega, Or.inr (Or.inr ⟨rfl, rfl⟩)⟩)))⟩
    · refine ⟨gateAt_selApp hsel (by rw [List.getElem?_append_right (by simp)]; simp),
        (hon _ _).2 (Or.inl (Or.inr (Or.inl ⟨j, le_refl _, Or.inl ⟨rfl, rfl⟩⟩))),
        (hon _ _).2 (Or.inl (Or.inr (Or.inl ⟨j, le_refl _, Or.inr (Or.inl ⟨rfl, rfl⟩)⟩))),
        (hon _ _).2 (Or.inr ⟨rfl, rfl⟩),
        (hon _ _).2 (Or.inl (Or.inr (Or.inl ⟨j, le_refl _, Or.inr (Or.inr ⟨rfl, rfl⟩)⟩)))⟩
  have hnod : NodP (permAdd pm c0.zero_var (.output (c0.n + k))) := by
    refine h.nod.add ?_
    rw [h.on]
    rintro (h1 | ⟨i, h1, h2⟩ | ⟨i, h1, h2⟩)
    · have := hw.rowLt _ _ h1
      simp only [WireData.row] at this
      omega
    · rcases h2 with ⟨_, h2⟩ | ⟨_, h2⟩ | ⟨_, h2⟩ <;> cases h2
    · have := h2.2
      simp only [WireData.output.injEq] at this
      omega
  refine ⟨⟨?_, ?_, ?_, ?_, ?_, ?_, ?_, ?_, ?_, ?_, hw.pis, ?_, hnod⟩, hext, ?_, fun j r hj => (hnew j r hj).1,
    fun j r hj => (hnew j r hj).2.1, fun j r hj => (hnew j r hj).2.2.1,
    fun j r hj => (hnew j r hj).2.2.2.1, fun j r hj => (hnew j r hj).2.2.2.2, hw.int, rfl⟩
  · constructor <;> simp [lfinal, selApp, lcomp, hw.sel.1, hw.sel.2, hw.sel.3, hw.sel.4, hw.sel.5,
      hw.sel.6, hw.sel.7, hw.sel.8, hw.sel.9, hw.sel.10, hw.sel.11, hw.sel.12, hw.sel.13,
      hw.sel.14, hw.sel.15]
  · simp [lfinal, selApp, lcomp, hw.w_l]
  · simp [lfinal, selApp, lcomp, hw.w_r]
  · simp [lfinal, selApp, lcomp, hw.w_o]
  · simp [lfinal, selApp, lcomp, hw.w_4]
  · show (permAdd pm _ _).length = (c0.variables ++ vals).length
    rw [permAdd_length, h.plen, hvl]
  · show c0.zero_var < (c0.variables ++ vals).length
    rw [hvl]
    have := hw.zero
    omega
  · intro x p hp
    rcases (hon x p).1 hp with (h1 | ⟨i, hi, h1 | h1 | h1⟩ | ⟨i, hi, h1⟩) | h1
    · exact hwv p x (hw.agree x p h1)
    · obtain ⟨rfl, rfl⟩ := h1
      have := getElem?_app_map hw.w_l (lacc c0 0) (Nat.lt_succ_of_le hi) []
      rw [List.append_nil] at this
      exact this
    · obtain ⟨rfl, rfl⟩ := h1
      have := getElem?_app_map hw.w_r (lacc c0 1) (Nat.lt_succ_of_le hi) []
      rw [List.append_nil] at this
      exact this
    · obtain ⟨rfl, rfl⟩ := h1
      have := getElem?_app_map hw.w_4 (lacc c0 3) (Nat.lt_succ_of_le hi) []
      rw [List.append_nil] at this
      exact this
    · obtain ⟨rfl, rfl⟩ := h1
      show (c0.w_o ++ _ ++ _)[c0.n + i]? = _
      rw [List.append_assoc]
      exact getElem?_app_map hw.w_o (fun i => c0.variables.length + 4 * i + 2) hi _
    · obtain ⟨rfl, rfl⟩ := h1
      show (c0.w_o ++ _ ++ _)[c0.n + k]? = _
      rw [List.getElem?_append_right (by simp [hw.w_o])]
      simp [hw.w_o]
  · intro p x hp
    show x < (c0.variables ++ vals).length
    rw [hvl]
    have hz := hw.zero
    have hm : ∀ off, off < 4 → ∀ y ∈ (List.range (k + 1)).map (lacc c0 off),
        y < c0.variables.length + 4 * k := by
      intro off ho y hy
      obtain ⟨i, hi, rfl⟩ := List.mem_map.1 hy
      exact lacc_lt hw ho (by have := List.mem_range.1 hi; omega)
    cases p with
    | left i =>
      rcases getElem?_app_inv hp with h1 | h1
      · have := hw.valid (.left i) x h1; omega
      · exact hm 0 (by norm_num) _ h1
    | right i =>
      rcases getElem?_app_inv hp with h1 | h1
      · have := hw.valid (.right i) x h1; omega
      · exact hm 1 (by norm_num) _ h1
    | fourth i =>
      rcases getElem?_app_inv hp with h1 | h1
      · have := hw.valid (.fourth i) x h1; omega
      · exact hm 3 (by norm_num) _ h1
    | output i =>
      rcases getElem?_app_inv hp with h1 | h1
      · rcases getElem?_app_inv h1 with h2 | h2
        · have := hw.valid (.output i) x h2; omega
        · obtain ⟨t, ht, rfl⟩ := List.mem_map.1 h2
          have := List.mem_range.1 ht
          omega
      · rw [List.mem_singleton] at h1
        omega
  · intro i hi
    have := hw.int i hi
    show i < c0.n + (k + 1)
    omega
  · intro E T N pub w v hs
    exact hw.zeroSound E T N pub w v (hext.sat hs)
  · rw [lrows_length]
    rfl

/-- The number a logic gate reads from a variable's value. -/
def logicArg (R : FieldRep F) (x : F) (numBits : ℕ) : ℕ :=
  R.toNat x / 2 ^ (R.bigBits - 256) % 2 ^ numBits

theorem quadAt_tail {R : FieldRep F} {x : F} {numBits i : ℕ} (he : numBits % 2 = 0)
    (hl : numBits ≤ R.bigBits - (256 - numBits)) (h256 : numBits ≤ 256) (hi : i < numBits / 2) :
    quadAt (bitsBeTail R x numBits) i
      = some (logicArg R x numBits / 4 ^ (numBits / 2 - (i + 1)) % 4) := by
  have hbit : ∀ t, t < numBits → (bitsBeTail R x numBits)[t]?
      = some ((logicArg R x numBits).testBit (numBits - 1 - t)) := by
    intro t ht
    have hlen : (bitsLe R x).length = R.bigBits := by simp [bitsLe]
    unfold bitsBeTail
    rw [List.getElem?_drop, List.getElem?_reverse (by omega), hlen]
    unfold bitsLe
    rw [List.getElem?_map, List.getElem?_range (by omega)]
    unfold logicArg
    rw [Nat.testBit_mod_two_pow, Nat.testBit_div_two_pow]
    simp only [Option.map_some, Option.some.injEq]
    have e : R.bigBits - 1 - (256 - numBits + t) = numBits - 1 - t + (R.bigBits - 256) := by omega
    rw [decide_eq_true (by omega), Bool.true_and, e]
  unfold quadAt
  rw [hbit (2 * i) (by omega), hbit (2 * i + 1) (by omega)]
  simp only [Option.some.injEq]
  rw [← quad_eq]
  have e1 : numBits - 1 - 2 * i = 2 * (numBits / 2 - (i + 1)) + 1 := by omega
  have e2 : numBits - 1 - (2 * i + 1) = 2 * (numBits / 2 - (i + 1)) := by omega
  rw [e1, e2]
  omega

theorem logicArg_lt (R : FieldRep F) (x : F) (numBits : ℕ) : logicArg R x numBits < 2 ^ numBits :=
  Nat.mod_lt _ (by positivity)

theorem linv_start {c0 : Composer F} (hw : WF c0) :
    LInv c0 0 [] (permAdd (permAdd (permAdd c0.perm c0.zero_var (.left c0.n)) c0.zero_var
      (.right c0.n)) c0.zero_var (.fourth c0.n)) := by
  have hz : c0.zero_var < c0.perm.length := by rw [hw.permLen]; exact hw.zero
  refine ⟨rfl, by simp [permAdd_length, hw.permLen], ?_, ?_⟩
  swap
  · have f : ∀ y q, OnP c0.perm y q → q.row = c0.n → False := fun y q h e => by
      have := hw.rowLt y q h; omega
    refine NodP.add (NodP.add (NodP.add hw.nod ?_) ?_) ?_
    · intro h; exact f _ _ h rfl
    · rw [onP_permAdd hz]
      rintro (h | ⟨_, h⟩)
      · exact f _ _ h rfl
      · cases h
    · rw [onP_permAdd (by simpa [permAdd_length]), onP_permAdd hz]
      rintro ((h | ⟨_, h⟩) | ⟨_, h⟩)
      · exact f _ _ h rfl
      · cases h
      · cases h
  intro y q
  rw [onP_permAdd (by simpa [permAdd_length]), onP_permAdd (by simpa [permAdd_length]),
    onP_permAdd hz]
  simp only [Nat.not_lt_zero, false_and, exists_false, or_false, Nat.le_zero, exists_eq_left, lacc,
    if_true, add_zero]
  tauto

theorem logicGate_run {R : FieldRep F} {c : Composer F} (hw : WF c) {a b : Var} {numBits : ℕ}
    {isXor : Bool} (he : numBits % 2 = 0) (h256 : numBits ≤ 256)
    (hl : numBits ≤ R.bigBits - (256 - numBits)) (ha : a < c.variables.length)
    (hb : b < c.variables.length) :
    ∃ pm, logicGate R a b numBits isXor c = .ok (lacc c 3 (numBits / 2),
        lfinal c isXor (numBits / 2) (logicVals (logicArg R (ownV c a) numBits)
          (logicArg R (ownV c b) numBits) isXor (numBits / 2) (numBits / 2)) pm) ∧
      LInv c (numBits / 2) (logicVals (logicArg R (ownV c a) numBits)
          (logicArg R (ownV c b) numBits) isXor (numBits / 2) (numBits / 2) : List F) pm := by
  set k := numBits / 2 with hk
  set A := logicArg R (ownV c a) numBits with hA
  set B := logicArg R (ownV c b) numBits with hB
  have hz : c.zero_var < c.perm.length := by rw [hw.permLen]; exact hw.zero
  have hpow : (2 : ℕ) ^ numBits = 4 ^ k := by
    rw [four_pow]; congr 1; omega
  have hA0 : A / 4 ^ (k - 0) = 0 := by
    rw [Nat.sub_zero, Nat.div_eq_of_lt]
    rw [← hpow]; exact logicArg_lt _ _ _
  have hB0 : B / 4 ^ (k - 0) = 0 := by
    rw [Nat.sub_zero, Nat.div_eq_of_lt]
    rw [← hpow]; exact logicArg_lt _ _ _
  have hO0 : opN isXor A B / 4 ^ (k - 0) = 0 := by
    rw [Nat.sub_zero, Nat.div_eq_of_lt]
    rw [← hpow]; exact opN_lt _ (logicArg_lt _ _ _) (logicArg_lt _ _ _)
  obtain ⟨pm, hloop, hinv⟩ := logicLoop_run (isXor := isXor) hw
    (fun i hi => quadAt_tail (x := ownV c a) he hl h256 hi)
    (fun i hi => quadAt_tail (x := ownV c b) he hl h256 hi) k (j := 0) (by omega)
    (linv_start hw)
  rw [hA0, hB0, hO0, Nat.cast_zero] at hloop
  refine ⟨pm, ?_, hinv⟩
  have hlen : ∀ y, (bitsBeTail R y numBits).length = R.bigBits - (256 - numBits) := by
    intro y; simp [bitsBeTail, bitsLe]
  unfold logicGate
  refine bindC_ok.2 ⟨(), _, assertC_ok.2 ⟨he, rfl⟩, ?_⟩
  refine bindC_ok.2 ⟨_, _, valueOfVar_run ha, ?_⟩
  refine bindC_ok.2 ⟨(), _, assertC_ok.2 ⟨h256, rfl⟩, ?_⟩
  refine bindC_ok.2 ⟨_, _, valueOfVar_run hb, ?_⟩
  refine bindC_ok.2 ⟨(), _, assertC_ok.2 ⟨by rw [hlen]; exact hl, rfl⟩, ?_⟩
  refine bindC_ok.2 ⟨(), _, assertC_ok.2 ⟨by rw [hlen]; exact hl, rfl⟩, ?_⟩
  refine bindC_ok.2 ⟨_, _, rfl, bindC_ok.2 ⟨_, _, rfl, ?_⟩⟩
  refine bindC_ok.2 ⟨(), _, addVariableToMap_run hz, ?_⟩
  refine bindC_ok.2 ⟨(), _, addVariableToMap_run
    (by show _ < (permAdd _ _ _).length; rw [permAdd_length]; exact hz), ?_⟩
  refine bindC_ok.2 ⟨(), _, addVariableToMap_run
    (by show _ < (permAdd (permAdd _ _ _) _ _).length; simp only [permAdd_length]; exact hz), ?_⟩
  refine bindC_ok.2 ⟨(), _, rfl, bindC_ok.2 ⟨(), _, rfl, bindC_ok.2 ⟨(), _, rfl, bindC_ok.2
    ⟨(), lcomp c 0 [] (permAdd (permAdd (permAdd c.perm c.zero_var (.left c.n)) c.zero_var
      (.right c.n)) c.zero_var (.fourth c.n)), ?_, ?_⟩⟩⟩⟩
  · simp [bump, lcomp, lacc]
  refine bindC_ok.2 ⟨(), _, hloop, ?_⟩
  refine bindC_ok.2 ⟨_, _, rfl, ?_⟩
  refine bindC_ok.2 ⟨(), _, addVariableToMap_run
    (by show c.zero_var < pm.length; rw [hinv.plen]; have := hw.zero; omega), ?_⟩
  refine bindC_ok.2 ⟨(), _, rfl, ?_⟩
  refine bindC_ok.2 ⟨(), _, logicSelectors_run _ _ _, ?_⟩
  refine bindC_ok.2 ⟨(), lfinal c isXor k (logicVals A B isXor k k) pm, ?_, ?_⟩
  · show Except.ok ((), selApp (selApp _ _) [gate0]) = _
    rw [selApp_app]
    rfl
  · unfold lastFourth
    have : (lfinal c isXor k (logicVals A B isXor k k) pm).w_4.getLast? = some (lacc c 3 k) := by
      show (c.w_4 ++ (List.range (k + 1)).map (lacc c 3)).getLast? = _
      rw [List.range_succ]
      simp
    rw [this]

theorem logicGate_fwd {R : FieldRep F} {c c' : Composer F} (hw : WF c) {a b o : Var} {numBits : ℕ}
    {isXor : Bool} (h : logicGate R a b numBits isXor c = .ok (o, c')) :
    numBits % 2 = 0 ∧ numBits ≤ 256 ∧ numBits ≤ R.bigBits - (256 - numBits) ∧
    a < c.variables.length ∧ b < c.variables.length ∧ o = lacc c 3 (numBits / 2) ∧
    Block c c' (lrows c isXor (numBits / 2)) ∧
    c'.variables = c.variables ++ logicVals (logicArg R (ownV c a) numBits)
          (logicArg R (ownV c b) numBits) isXor (numBits / 2) (numBits / 2) := by
  have hpre : numBits % 2 = 0 ∧ numBits ≤ 256 ∧ numBits ≤ R.bigBits - (256 - numBits) ∧
    a < c.variables.length ∧ b < c.variables.length := by
    unfold logicGate at h
    obtain ⟨u0, c0, h0, g0⟩ := bindC_ok.1 h
    obtain ⟨heven, rfl⟩ := assertC_ok.1 h0
    obtain ⟨av, c1, h1, g1⟩ := bindC_ok.1 g0
    obtain ⟨hav, rfl⟩ := valueOfVar_ok.1 h1
    obtain ⟨u2, c2, h2, g2⟩ := bindC_ok.1 g1
    obtain ⟨h256, rfl⟩ := assertC_ok.1 h2
    obtain ⟨bv, c3, h3, g3⟩ := bindC_ok.1 g2
    obtain ⟨hbv, rfl⟩ := valueOfVar_ok.1 h3
    obtain ⟨u4, c4, h4, g4⟩ := bindC_ok.1 g3
    obtain ⟨hl, rfl⟩ := assertC_ok.1 h4
    have hlen : ∀ y, (bitsBeTail R y numBits).length = R.bigBits - (256 - numBits) := by
      intro y; simp [bitsBeTail, bitsLe]
    rw [hlen] at hl
    exact ⟨heven, h256, hl, (List.getElem?_eq_some_iff.1 hav).1, (List.getElem?_eq_some_iff.1 hbv).1⟩
  obtain ⟨he, h256, hl, ha, hb⟩ := hpre
  obtain ⟨pm, hr, hinv⟩ := logicGate_run (isXor := isXor) hw he h256 hl ha hb
  rw [hr] at h
  cases h
  exact ⟨he, h256, hl, ha, hb, rfl, lfinal_block hw hinv, rfl⟩

end VO.Plonk
