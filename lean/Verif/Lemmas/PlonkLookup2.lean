import Verif.Lemmas.PlonkLookup

/-
The product argument of the lookups.
-/

set_option linter.unusedSectionVars false

namespace VO.Plonk

open VO.Spec VO.Spec.Plonk Polynomial

variable {F : Type} [Field F] [DecidableEq F]

/-! ### Products over the neighbours in a cycle -/

/-- The product over the steps of a path. -/
def pathProd (g : F → F → F) : F → List F → F → F
  | a, [], b => g a b
  | a, x :: l, b => g a x * pathProd g x l b

/-- The product over the steps of a cycle. -/
def cycProd (g : F → F → F) : List F → F
  | [] => 1
  | a :: l => pathProd g a l a

theorem pathProd_append (g : F → F → F) (a : F) (l : List F) (x : F) (m : List F) (b : F) :
    pathProd g a (l ++ x :: m) b = pathProd g a l x * pathProd g x m b := by
  induction l generalizing a with
  | nil => rfl
  | cons y l ih => rw [List.cons_append, pathProd, ih, pathProd, mul_assoc]

theorem cycProd_rotate1 (g : F → F → F) (l : List F) : cycProd g (l.rotate 1) = cycProd g l := by
  cases l with
  | nil => rfl
  | cons a l =>
    rw [List.rotate_cons_succ, List.rotate_zero]
    cases l with
    | nil => rfl
    | cons b l =>
      rw [List.cons_append]
      show pathProd g b (l ++ [a]) b = pathProd g a (b :: l) a
      rw [pathProd_append, pathProd, pathProd, mul_comm]

theorem cycProd_rotate (g : F → F → F) (l : List F) (m : ℕ) : cycProd g (l.rotate m) = cycProd g l := by
  induction m with
  | zero => rw [List.rotate_zero]
  | succ m ih => rw [← List.rotate_rotate, cycProd_rotate1, ih]

theorem pathProd_range (g : F → F → F) (a : F) (l : List F) (b : F) :
    pathProd g a l b = ∏ i ∈ Finset.range (l.length + 1),
      g ((a :: l).getD i 0) ((l ++ [b]).getD i 0) := by
  induction l generalizing a with
  | nil => simp [pathProd]
  | cons x l ih =>
    rw [pathProd, ih, Finset.prod_range_succ' _ (x :: l).length]
    simp only [List.length_cons, List.getD_cons_succ, List.cons_append, List.getD_cons_zero]
    rw [mul_comm]

theorem cycProd_range (g : F → F → F) (l : List F) :
    cycProd g l = ∏ i ∈ Finset.range l.length, g (l.getD i 0) (l.getD ((i + 1) % l.length) 0) := by
  cases l with
  | nil => simp [cycProd]
  | cons a l =>
    rw [cycProd, pathProd_range, List.length_cons]
    refine Finset.prod_congr rfl fun i hi => ?_
    have hi := Finset.mem_range.1 hi
    congr 1
    rcases Nat.lt_or_ge i l.length with h | h
    · rw [List.getD_append _ _ _ _ h, Nat.mod_eq_of_lt (by omega), List.getD_cons_succ]
    · have : i = l.length := by omega
      subst this
      rw [List.getD_append_right _ _ _ _ le_rfl, Nat.mod_self]
      simp

theorem pathProd_replicate (g : F → F → F) (a : F) (k : ℕ) (l : List F) (b : F) :
    pathProd g a (List.replicate k a ++ l) b = g a a ^ k * pathProd g a l b := by
  induction k with
  | zero => simp
  | succ k ih => rw [List.replicate_succ, List.cons_append, pathProd, ih]; ring

theorem pathProd_buckets (g : F → F → F) (a : F) (L : List F) (c : F → ℕ) (hc : ∀ x ∈ L, 0 < c x)
    (b : F) : pathProd g a (L.flatMap fun x => List.replicate (c x) x) b
      = (L.map fun x => g x x ^ (c x - 1)).prod * pathProd g a L b := by
  induction L generalizing a with
  | nil => simp
  | cons x L ih =>
    obtain ⟨k, hk⟩ : ∃ k, c x = k + 1 := ⟨c x - 1, by have := hc x (by simp); omega⟩
    rw [List.flatMap_cons, hk, List.replicate_succ, List.cons_append, pathProd, pathProd_replicate,
      ih x fun y hy => hc y (by simp [hy]), List.map_cons, List.prod_cons, pathProd, hk]
    simp only [Nat.add_sub_cancel]
    ring

theorem cycProd_buckets (g : F → F → F) (L : List F) (c : F → ℕ) (hc : ∀ x ∈ L, 0 < c x) :
    cycProd g (L.flatMap fun x => List.replicate (c x) x)
      = (L.map fun x => g x x ^ (c x - 1)).prod * cycProd g L := by
  cases L with
  | nil => simp [cycProd]
  | cons x L =>
    obtain ⟨k, hk⟩ : ∃ k, c x = k + 1 := ⟨c x - 1, by have := hc x (by simp); omega⟩
    rw [List.flatMap_cons, hk, List.replicate_succ, List.cons_append]
    show pathProd g x _ x = _ * pathProd g x L x
    rw [pathProd_replicate, pathProd_buckets g x L c fun y hy => hc y (by simp [hy]), List.map_cons,
      List.prod_cons, hk]
    simp only [Nat.add_sub_cancel]
    ring

theorem prod_pow_count (L f : List F) (d : F → F) (hL : L.Nodup) (hf : ∀ x ∈ f, x ∈ L) :
    (L.map fun x => d x ^ f.count x).prod = (f.map d).prod := by
  induction f with
  | nil => simp
  | cons y f ih =>
    rw [List.map_cons, List.prod_cons, ← ih fun x hx => hf x (by simp [hx])]
    have hy : y ∈ L := hf y (by simp)
    have e : ∀ x, d x ^ (y :: f).count x = (if x = y then d y else 1) * d x ^ f.count x := by
      intro x
      by_cases h : x = y
      · subst h; simp [pow_succ, mul_comm]
      · simp [h, Ne.symm h]
    rw [show (fun x => d x ^ (y :: f).count x)
      = fun x => (if x = y then d y else 1) * d x ^ f.count x from funext e, List.prod_map_mul]
    congr 1
    clear ih hf e
    induction L with
    | nil => simp at hy
    | cons x L ihL =>
      rw [List.map_cons, List.prod_cons]
      obtain ⟨hx, hL⟩ := List.nodup_cons.1 hL
      by_cases h : x = y
      · subst h
        rw [if_pos rfl, List.prod_eq_one, mul_one]
        intro a ha
        obtain ⟨b, hb, rfl⟩ := List.mem_map.1 ha
        rw [if_neg]
        rintro rfl
        exact hx hb
      · rw [if_neg h, one_mul, ihL hL]
        rcases List.mem_cons.1 hy with h' | h'
        · exact absurd h'.symm h
        · exact h'

/-- The product of the sorted concatenation. -/
theorem cycProd_grouped (g : F → F → F) {t f : List F} (hf : ∀ x ∈ f, x ∈ t) (hc : Contiguous t) :
    cycProd g (grouped t f) = (f.map fun x => g x x).prod * cycProd g t := by
  obtain ⟨m, hm⟩ := hc
  have hpos : ∀ x ∈ t.eraseDups, 0 < t.count x := fun x hx =>
    List.count_pos_iff.2 (List.mem_eraseDups.1 hx)
  have e1 : cycProd g t = (t.eraseDups.map fun x => g x x ^ (t.count x - 1)).prod
      * cycProd g t.eraseDups := by
    rw [← cycProd_rotate g t m, hm, grouped]
    simp only [List.count_nil, add_zero]
    exact cycProd_buckets g _ _ hpos
  rw [e1, grouped, cycProd_buckets g _ _ fun x hx => by have := hpos x hx; omega]
  rw [← prod_pow_count t.eraseDups f (fun x => g x x) (nodup_eraseDups t)
    fun x hx => List.mem_eraseDups.2 (hf x hx), ← mul_assoc, ← List.prod_map_mul]
  congr 2
  apply List.map_congr_left
  intro x hx
  rw [← pow_add]
  congr 1
  have := hpos x hx
  omega

theorem prod_range_double (n : ℕ) (h : ℕ → F) :
    ∏ i ∈ Finset.range (2 * n), h i = ∏ i ∈ Finset.range n, h (2 * i) * h (2 * i + 1) := by
  induction n with
  | zero => simp
  | succ n ih =>
    rw [show 2 * (n + 1) = 2 * n + 1 + 1 by ring, Finset.prod_range_succ, Finset.prod_range_succ, ih,
      Finset.prod_range_succ]
    ring

/-! ### The factors of a row -/

/-- The factor of the two halves at row `i`. -/
def halfFactor (n : ℕ) (delta epsilon : F) (h1 h2 : ℕ → F) (i : ℕ) : F :=
  (epsilon * (1 + delta) + h1 i + delta * h2 i)
    * (epsilon * (1 + delta) + h2 i + delta * h1 ((i + 1) % n))

/-- The factor of query and table at row `i`. -/
def queryFactor (n : ℕ) (delta epsilon : F) (f t : ℕ → F) (i : ℕ) : F :=
  (1 + delta) * (epsilon + f i) * (epsilon * (1 + delta) + t i + delta * t ((i + 1) % n))

/-- Completeness of the product. -/
theorem lookup_prod_eq {t f : List F} {n : ℕ} (ht : t.length = n) (hl : f.length = n)
    (hf : ∀ x ∈ f, x ∈ t) (hc : Contiguous t) (delta epsilon : F) :
    ∏ i ∈ Finset.range n, queryFactor n delta epsilon (fun i => f.getD i 0) (fun i => t.getD i 0) i
      = ∏ i ∈ Finset.range n, halfFactor n delta epsilon (fun i => (evens (grouped t f)).getD i 0)
          (fun i => (odds (grouped t f)).getD i 0) i := by
  let g : F → F → F := fun a b => epsilon * (1 + delta) + a + delta * b
  have hs : (grouped t f).length = 2 * n := by
    rw [(grouped_perm hf).length_eq, List.length_append, ht, hl]; ring
  have key := cycProd_grouped g hf hc
  rw [cycProd_range, cycProd_range, hs, ht, prod_range_double] at key
  have e1 : (f.map fun x => g x x).prod
      = ∏ i ∈ Finset.range n, (1 + delta) * (epsilon + f.getD i 0) := by
    rw [← hl]
    have : ∀ l : List F, (l.map fun x => g x x).prod
        = ∏ i ∈ Finset.range l.length, (1 + delta) * (epsilon + l.getD i 0) := by
      intro l
      induction l with
      | nil => simp
      | cons a l ih =>
        rw [List.map_cons, List.prod_cons, ih, List.length_cons, Finset.prod_range_succ' _ l.length]
        simp only [List.getD_cons_succ, List.getD_cons_zero, g]
        ring
    exact this f
  rw [e1, ← Finset.prod_mul_distrib] at key
  unfold queryFactor halfFactor
  rw [← key]
  refine Finset.prod_congr rfl fun i hi => ?_
  have hi := Finset.mem_range.1 hi
  have he : ∀ j, (evens (grouped t f)).getD j 0 = (grouped t f).getD (2 * j) 0 := fun j => by
    rw [List.getD_eq_getElem?_getD, (evens_getElem? _ j).1, List.getD_eq_getElem?_getD]
  have ho : ∀ j, (odds (grouped t f)).getD j 0 = (grouped t f).getD (2 * j + 1) 0 := fun j => by
    rw [List.getD_eq_getElem?_getD, (evens_getElem? _ j).2, List.getD_eq_getElem?_getD]
  simp only [he, ho, g]
  rw [Nat.mod_eq_of_lt (show 2 * i + 1 < 2 * n by omega)]
  have : (2 * i + 1 + 1) % (2 * n) = 2 * ((i + 1) % n) := by
    rw [show 2 * i + 1 + 1 = 2 * (i + 1) by ring, Nat.mul_mod_mul_left]
  rw [this]

theorem lookupCheck_iff {n : ℕ} {delta epsilon : F} {f t h1 h2 z : ℕ → F} :
    LookupCheck n delta epsilon f t h1 h2 z ↔ z 0 = 1 ∧ ∀ i < n,
      z ((i + 1) % n) * halfFactor n delta epsilon h1 h2 i
        = z i * queryFactor n delta epsilon f t i := Iff.rfl

theorem lookupCheck_prod {n : ℕ} {delta epsilon : F} {f t h1 h2 z : ℕ → F}
    (h : LookupCheck n delta epsilon f t h1 h2 z) :
    ∏ i ∈ Finset.range n, queryFactor n delta epsilon f t i
      = ∏ i ∈ Finset.range n, halfFactor n delta epsilon h1 h2 i := by
  have h := lookupCheck_iff.1 h
  have := telescope (n := n) (fun i => z (i % n)) (queryFactor n delta epsilon f t)
    (halfFactor n delta epsilon h1 h2) (by simpa using h.1) (fun i hi => by
      have := h.2 i hi
      simp only [Nat.mod_eq_of_lt hi]
      exact this)
  simp only [Nat.mod_self, h.1, one_mul] at this
  exact this.symm

theorem lookupCheck_of_run {n : ℕ} (hn : 0 < n) {delta epsilon : F} {f t h1 h2 z : ℕ → F}
    (h : ∀ i < n, halfFactor n delta epsilon h1 h2 i ≠ 0)
    (hz : ∀ i < n, z i = ∏ j ∈ Finset.range i,
      (queryFactor n delta epsilon f t j * (halfFactor n delta epsilon h1 h2 j)⁻¹))
    (hp : ∏ i ∈ Finset.range n, queryFactor n delta epsilon f t i
      = ∏ i ∈ Finset.range n, halfFactor n delta epsilon h1 h2 i) :
    LookupCheck n delta epsilon f t h1 h2 z := by
  rw [lookupCheck_iff]
  refine ⟨by rw [hz 0 hn]; simp, ?_⟩
  intro i hi
  have hne := h i hi
  have hstep : (∏ j ∈ Finset.range (i + 1), (queryFactor n delta epsilon f t j
      * (halfFactor n delta epsilon h1 h2 j)⁻¹)) * halfFactor n delta epsilon h1 h2 i
      = z i * queryFactor n delta epsilon f t i := by
    rw [Finset.prod_range_succ, hz i hi]
    field_simp
  rcases Nat.lt_or_ge (i + 1) n with h' | h'
  · rw [Nat.mod_eq_of_lt h', hz _ h', hstep]
  · have : i + 1 = n := by omega
    rw [this, Nat.mod_self, hz 0 hn, Finset.prod_range_zero, ← hstep, this]
    congr 1
    rw [Finset.prod_mul_distrib, hp, ← Finset.prod_mul_distrib]
    exact (Finset.prod_eq_one fun j hj =>
      mul_inv_cancel₀ (h j (Finset.mem_range.1 hj))).symm

/-- Few challenges make a denominator zero. -/
theorem half_mostly (n : ℕ) {delta : F} (hd : delta ≠ -1) (h1 h2 : ℕ → F) :
    Mostly (2 * n) fun epsilon : F => ∀ i < n, halfFactor n delta epsilon h1 h2 i ≠ 0 := by
  have hs : (1 + delta) ≠ 0 := fun hc => hd (by linear_combination hc)
  refine ⟨(Finset.range n).image (fun i => -(h1 i + delta * h2 i) / (1 + delta))
    ∪ (Finset.range n).image (fun i => -(h2 i + delta * h1 ((i + 1) % n)) / (1 + delta)), ?_, ?_⟩
  · refine (Finset.card_union_le _ _).trans ?_
    have a1 := Finset.card_image_le (s := Finset.range n)
      (f := fun i => -(h1 i + delta * h2 i) / (1 + delta))
    have a2 := Finset.card_image_le (s := Finset.range n)
      (f := fun i => -(h2 i + delta * h1 ((i + 1) % n)) / (1 + delta))
    rw [Finset.card_range] at a1 a2
    omega
  · intro e he i hi h0
    apply he
    rw [Finset.mem_union, Finset.mem_image, Finset.mem_image]
    rcases mul_eq_zero.1 h0 with h | h
    · left
      refine ⟨i, Finset.mem_range.2 hi, ?_⟩
      rw [div_eq_iff hs]; linear_combination -h
    · right
      refine ⟨i, Finset.mem_range.2 hi, ?_⟩
      rw [div_eq_iff hs]; linear_combination -h

/-- The two products as products over pairs. -/
theorem query_prod_pairs (n : ℕ) (delta epsilon : F) (f t : ℕ → F) :
    ∏ i ∈ Finset.range n, queryFactor n delta epsilon f t i
      = ∏ i : Fin n ⊕ Fin n, (epsilon * (1 + delta)
        + ((pairsA (fun i : Fin n => f i) (fun i : Fin n => t i) i).1
          + delta * (pairsA (fun i : Fin n => f i) (fun i : Fin n => t i) i).2)) := by
  rw [Fintype.prod_sum_type, ← Finset.prod_mul_distrib, ← Fin.prod_univ_eq_prod_range]
  refine Finset.prod_congr rfl fun i _ => ?_
  simp only [queryFactor, pairsA, cnext]
  ring

theorem half_prod_pairs (n : ℕ) (delta epsilon : F) (h1 h2 : ℕ → F) :
    ∏ i ∈ Finset.range n, halfFactor n delta epsilon h1 h2 i
      = ∏ i : Fin n ⊕ Fin n, (epsilon * (1 + delta)
        + ((pairsB (fun i : Fin n => h1 i) (fun i : Fin n => h2 i) i).1
          + delta * (pairsB (fun i : Fin n => h1 i) (fun i : Fin n => h2 i) i).2)) := by
  rw [Fintype.prod_sum_type, ← Finset.prod_mul_distrib, ← Fin.prod_univ_eq_prod_range]
  refine Finset.prod_congr rfl fun i _ => ?_
  simp only [halfFactor, pairsB, cnext]
  ring

/-- Soundness, for any two families of pairs that differ. -/
theorem lookup_sound_pairs {n : ℕ} {f t h1 h2 : ℕ → F}
    (h : ∃ π, (Finset.univ.filter fun i => pairsA (fun i : Fin n => f i) (fun i : Fin n => t i) i = π).card
      ≠ (Finset.univ.filter fun i => pairsB (fun i : Fin n => h1 i) (fun i : Fin n => h2 i) i = π).card) :
    Mostly (4 * n + 1) fun delta : F => Mostly (2 * n) fun epsilon : F =>
      ∀ z, ¬ LookupCheck n delta epsilon f t h1 h2 z := by
  obtain ⟨π, hπ⟩ := h
  have hcard : Fintype.card (Fin n ⊕ Fin n) = 2 * n := by simp; ring
  have key := pairs_mostly _ _ π hπ
  rw [hcard] at key
  refine key.mono (by omega) fun delta hd => hd.mono le_rfl fun epsilon he z hz => he ?_
  rw [← query_prod_pairs, ← half_prod_pairs]
  exact lookupCheck_prod hz

theorem lookup_sound {n : ℕ} {f t : ℕ → F} {k : ℕ} (hk : k < n) (h : ∀ i < n, t i ≠ f k)
    (h1 h2 : ℕ → F) :
    Mostly (4 * n + 1) fun delta : F => Mostly (2 * n) fun epsilon : F =>
      ∀ z, ¬ LookupCheck n delta epsilon f t h1 h2 z :=
  lookup_sound_pairs (pairs_differ (fun i : Fin n => f i) (fun i : Fin n => t i)
    (fun i : Fin n => h1 i) (fun i : Fin n => h2 i) ⟨k, hk⟩ fun i => h i i.2)

/-! ### The polynomial -/

theorem ok_bind {ε α β : Type} (a : α) (f : α → Except ε β) : (Except.ok a >>= f) = f a := rfl

theorem rotate1_ok {l : List F} (h : l ≠ []) : rotate1 l = .ok (l.rotate 1) := by
  cases l with
  | nil => exact absurd rfl h
  | cons a l => simp [rotate1]

theorem getD_rotate1 {l : List F} {n i : ℕ} (hl : l.length = n) (hi : i < n) :
    (l.rotate 1).getD i 0 = l.getD ((i + 1) % n) 0 := by
  have hn : 0 < n := by omega
  rw [List.getD_eq_getElem _ _ (by rw [List.length_rotate]; omega), List.getElem_rotate,
    List.getD_eq_getElem _ _ (by rw [hl]; exact Nat.mod_lt _ hn)]
  simp [hl]

theorem lookupRows_eq {n : ℕ} {f t h1 h2 : List F} (lf : f.length = n) (lt : t.length = n)
    (l1 : h1.length = n) (l2 : h2.length = n) :
    f.zip (t.zip ((t.rotate 1).zip (h1.zip ((h1.rotate 1).zip h2))))
      = (List.range n).map fun i => (f.getD i 0, t.getD i 0, t.getD ((i + 1) % n) 0, h1.getD i 0,
          h1.getD ((i + 1) % n) 0, h2.getD i 0) := by
  apply List.ext_getElem
  · simp [lf, lt, l1, l2]
  · intro i a b
    have hi : i < n := by simpa using b
    simp only [List.getElem_zip, List.getElem_map, List.getElem_range]
    rw [← getD_rotate1 lt hi, ← getD_rotate1 l1 hi, List.getD_eq_getElem _ _ (by omega),
      List.getD_eq_getElem _ _ (by omega), List.getD_eq_getElem _ _ (by rw [List.length_rotate]; omega),
      List.getD_eq_getElem _ _ (by omega), List.getD_eq_getElem _ _ (by rw [List.length_rotate]; omega),
      List.getD_eq_getElem _ _ (by omega)]

theorem lookupRatio_eq (n : ℕ) (delta epsilon : F) (f t h1 h2 : ℕ → F) (i : ℕ) :
    lookupRatio delta epsilon (f i) (t i) (t ((i + 1) % n)) (h1 i) (h1 ((i + 1) % n)) (h2 i)
      = if halfFactor n delta epsilon h1 h2 i = 0 then .error .panic
        else .ok (queryFactor n delta epsilon f t i * (halfFactor n delta epsilon h1 h2 i)⁻¹) := by
  unfold lookupRatio halfFactor queryFactor
  simp only [mul_comm delta]

theorem lookupPoly_run {D : Dom F} (hD : DomOk D) {f t h1 h2 : List F} (lf : f.length = D.size)
    (lt : t.length = D.size) (l1 : h1.length = D.size) (l2 : h2.length = D.size) (delta epsilon : F)
    (h : ∀ i < D.size, halfFactor D.size delta epsilon (fun i => h1.getD i 0)
      (fun i => h2.getD i 0) i ≠ 0) :
    ∃ z, computeLookupPermutationPoly D f t h1 h2 delta epsilon = .ok z ∧
      (polyOf z).degree < D.size ∧
      ∀ i < D.size, polyEval z (D.omega ^ i) = ∏ j ∈ Finset.range i,
        (queryFactor D.size delta epsilon (fun i => f.getD i 0) (fun i => t.getD i 0) j
          * (halfFactor D.size delta epsilon (fun i => h1.getD i 0) (fun i => h2.getD i 0) j)⁻¹) := by
  let args := (List.range D.size).map fun i =>
    queryFactor D.size delta epsilon (fun i => f.getD i 0) (fun i => t.getD i 0) i
      * (halfFactor D.size delta epsilon (fun i => h1.getD i 0) (fun i => h2.getD i 0) i)⁻¹
  have hargs : args.length = D.size := by simp [args]
  have hpos := hD.pos
  have tn : t ≠ [] := by intro hc; rw [hc] at lt; simp at lt; omega
  have hn1 : h1 ≠ [] := by intro hc; rw [hc] at l1; simp at l1; omega
  have hmap : (f.zip (t.zip ((t.rotate 1).zip (h1.zip ((h1.rotate 1).zip h2))))).mapM (fun e =>
      lookupRatio delta epsilon e.1 e.2.1 e.2.2.1 e.2.2.2.1 e.2.2.2.2.1 e.2.2.2.2.2) = .ok args := by
    rw [lookupRows_eq lf lt l1 l2, List.mapM_map]
    rw [mapM_ok (g := fun i => queryFactor D.size delta epsilon (fun i => f.getD i 0)
      (fun i => t.getD i 0) i * (halfFactor D.size delta epsilon (fun i => h1.getD i 0)
        (fun i => h2.getD i 0) i)⁻¹)]
    intro i hi
    have hi : i < D.size := by simpa using hi
    simp only [Function.comp_apply]
    rw [lookupRatio_eq D.size delta epsilon (fun i => f.getD i 0) (fun i => t.getD i 0)
      (fun i => h1.getD i 0) (fun i => h2.getD i 0) i, if_neg (h i hi)]
  have hlen : (runProduct args).dropLast.length = D.size := by
    simp [runProduct_length, hargs]
  refine ⟨D.ifft (runProduct args).dropLast, ?_, ifft_degree hD hlen, ?_⟩
  · unfold computeLookupPermutationPoly
    rw [rotate1_ok tn, rotate1_ok hn1]
    simp only [assertR, lf, lt, l1, l2, if_true, ok_bind, hmap, hlen]
    rfl
  · intro i hi
    rw [polyEval_eq, ifft_eval hD hlen hi]
    have e : (runProduct args).dropLast.getD i 0 = (runProduct args).getD i 0 := by
      rw [List.getD_eq_getElem _ _ (by rw [hlen]; exact hi),
        List.getD_eq_getElem _ _ (by rw [runProduct_length]; omega), List.getElem_dropLast]
    rw [e, runProduct_getD _ _ (by omega)]
    refine Finset.prod_congr rfl fun j hj => ?_
    have hj := Finset.mem_range.1 hj
    rw [List.getD_eq_getElem _ _ (by omega)]
    simp [args]

theorem lookupPoly_panic {D : Dom F} {f t h1 h2 : List F} (lf : f.length = D.size)
    (lt : t.length = D.size) (l1 : h1.length = D.size) (l2 : h2.length = D.size) (delta epsilon : F)
    (h : ∃ i < D.size, halfFactor D.size delta epsilon (fun i => h1.getD i 0)
      (fun i => h2.getD i 0) i = 0) :
    computeLookupPermutationPoly D f t h1 h2 delta epsilon = .error .panic := by
  have hpos : 0 < D.size := by obtain ⟨i, hi, -⟩ := h; omega
  have tn : t ≠ [] := by intro hc; rw [hc] at lt; simp at lt; omega
  have hn1 : h1 ≠ [] := by intro hc; rw [hc] at l1; simp at l1; omega
  have hmap : (f.zip (t.zip ((t.rotate 1).zip (h1.zip ((h1.rotate 1).zip h2))))).mapM (fun e =>
      lookupRatio delta epsilon e.1 e.2.1 e.2.2.1 e.2.2.2.1 e.2.2.2.2.1 e.2.2.2.2.2)
      = .error .panic := by
    rw [lookupRows_eq lf lt l1 l2, List.mapM_map]
    apply mapM_panic
    · intro i _
      simp only [Function.comp_apply]
      rw [lookupRatio_eq D.size delta epsilon (fun i => f.getD i 0) (fun i => t.getD i 0)
        (fun i => h1.getD i 0) (fun i => h2.getD i 0) i]
      split_ifs
      · exact Or.inl rfl
      · exact Or.inr ⟨_, rfl⟩
    · obtain ⟨i, hi, h0⟩ := h
      refine ⟨i, by simpa using hi, ?_⟩
      simp only [Function.comp_apply]
      rw [lookupRatio_eq D.size delta epsilon (fun i => f.getD i 0) (fun i => t.getD i 0)
        (fun i => h1.getD i 0) (fun i => h2.getD i 0) i, if_pos h0]
  unfold computeLookupPermutationPoly
  rw [rotate1_ok tn, rotate1_ok hn1]
  simp only [assertR, lf, lt, l1, l2, if_true, ok_bind, hmap]
  rfl

end VO.Plonk
