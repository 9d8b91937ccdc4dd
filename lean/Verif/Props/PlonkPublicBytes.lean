import Verif.Props.PlonkSerialize

/-
Property theorems C160: public inputs that are read from bytes (`/repo/plonk-core/src/proof_system/pi.rs:28-36` and
100-116, `proof.rs:237-258`).
-/

set_option linter.unusedSectionVars false

namespace VO.Plonk
open VO VO.Spec

variable {F : Type} {cf : Codec F}

theorem put_mem (k : ℕ) (v : F) : ∀ {m : List (ℕ × F)} (_ : m.Pairwise fun a b => a.1 < b.1),
    ((btreePut k v m).Pairwise fun a b => a.1 < b.1) ∧
      ∀ e, e ∈ btreePut k v m ↔ e = (k, v) ∨ e ∈ m ∧ e.1 ≠ k
  | [], _ => by simp [btreePut]
  | (k', x) :: m, h => by
    obtain ⟨h1, h2⟩ := List.pairwise_cons.1 h
    obtain ⟨i1, i2⟩ := put_mem k v h2
    rw [btreePut]
    split_ifs with c1 c2
    · refine ⟨List.pairwise_cons.2 ⟨fun a ha => ?_, h⟩, fun e => ?_⟩
      · rcases List.mem_cons.1 ha with rfl | ha
        · exact c1
        · exact lt_trans c1 (h1 a ha)
      · rw [List.mem_cons]
        refine or_congr Iff.rfl ⟨fun he => ⟨he, ?_⟩, And.left⟩
        rcases List.mem_cons.1 he with rfl | he
        · exact c1.ne'
        · exact (lt_trans c1 (h1 e he)).ne'
    · subst c2
      refine ⟨List.pairwise_cons.2 ⟨h1, h2⟩, fun e => ?_⟩
      rw [List.mem_cons, List.mem_cons]
      refine or_congr Iff.rfl ⟨fun he => ⟨.inr he, (h1 e he).ne'⟩, ?_⟩
      rintro ⟨rfl | he, hn⟩
      · exact absurd rfl hn
      · exact he
    · refine ⟨List.pairwise_cons.2 ⟨fun a ha => ?_, i1⟩, fun e => ?_⟩
      · rcases (i2 a).1 ha with rfl | ⟨ha, -⟩
        · exact lt_of_le_of_ne (not_lt.1 c1) (Ne.symm c2)
        · exact h1 a ha
      · rw [List.mem_cons, i2 e, List.mem_cons]
        constructor
        · rintro (rfl | rfl | ⟨he, hn⟩)
          · exact .inr ⟨.inl rfl, Ne.symm c2⟩
          · exact .inl rfl
          · exact .inr ⟨.inr he, hn⟩
        · rintro (rfl | ⟨rfl | he, hn⟩)
          · exact .inr (.inl rfl)
          · exact .inl rfl
          · exact .inr (.inr ⟨he, hn⟩)

/-- Among the entries `l`, `v` is the value that was written last for position `k`. -/
def LastValue (l : List (ℕ × F)) (k : ℕ) (v : F) : Prop :=
  ∃ a b, l = a ++ (k, v) :: b ∧ ∀ e ∈ b, e.1 ≠ k

theorem lastValue_snoc {l : List (ℕ × F)} {e : ℕ × F} {k : ℕ} {v : F} :
    LastValue (l ++ [e]) k v ↔ (k, v) = e ∨ LastValue l k v ∧ k ≠ e.1 := by
  constructor
  · rintro ⟨a, b, h, hb⟩
    rcases List.eq_nil_or_concat b with rfl | ⟨b, e', rfl⟩
    · rw [List.append_singleton_inj] at h
      exact .inl h.2.symm
    · have h' : l ++ [e] = (a ++ (k, v) :: b) ++ [e'] := by simpa using h
      obtain ⟨rfl, rfl⟩ := List.append_singleton_inj.1 h'
      exact .inr ⟨⟨a, b, rfl, fun x hx => hb x (by simp [hx])⟩, Ne.symm (hb e (by simp))⟩
  · rintro (rfl | ⟨⟨a, b, rfl, hb⟩, hn⟩)
    · exact ⟨l, [], rfl, by simp⟩
    · refine ⟨a, b ++ [e], by simp, fun x hx => ?_⟩
      rcases List.mem_append.1 hx with hx | hx
      · exact hb x hx
      · rw [List.mem_singleton.1 hx]
        exact Ne.symm hn

theorem foldl_last (l : List (ℕ × F)) :
    ((l.foldl (fun m e => btreePut e.1 e.2 m) []).Pairwise fun a b => a.1 < b.1) ∧
    ∀ k v, (k, v) ∈ l.foldl (fun m e => btreePut e.1 e.2 m) [] ↔ LastValue l k v := by
  induction l using List.reverseRecOn with
  | nil => exact ⟨by simp, fun k v => by simp [LastValue]⟩
  | append_singleton l e ih =>
    rw [List.foldl_append, List.foldl_cons, List.foldl_nil]
    obtain ⟨h1, h2⟩ := put_mem e.1 e.2 ih.1
    refine ⟨h1, fun k v => ?_⟩
    rw [h2, lastValue_snoc, ih.2]

end VO.Plonk

namespace VO
open Plonk Spec Spec.Plonk

variable {F : Type} {cf : Codec F}

/-- **C160.** Entries written in any order, with repetitions, are read as the map that has the last value of every
position, in the order of the positions; values that are zero are kept. -/
theorem C160_read (hf : Lawful cf) (l : List (ℕ × F)) (hl : l.length < 2 ^ 64) (hx : ∀ e ∈ l, e.1 < 2 ^ 64)
    (rest : List UInt8) : ∃ m, decPi cf (piBytes cf l ++ rest) = some (m, rest) ∧
      (m.Pairwise fun a b => a.1 < b.1) ∧ ∀ k v, (k, v) ∈ m ↔ LastValue l k v := by
  have h1 := decMany_mem (entryCodec cf) l (fun a ha r => entryCodec_ok hf a (hx a ha) r) rest
  have h2 : (l.flatMap fun e => encU64 e.1 ++ cf.enc e.2) = l.flatMap (entryCodec cf).enc := rfl
  refine ⟨_, ?_, foldl_last l⟩
  unfold decPi piBytes
  rw [List.append_assoc, decU64_encU64 _ hl]
  simp only [Option.bind_eq_bind, Option.bind_some, h2, h1]
  rfl

/-- **C160.** Whatever bytes are read, and whatever the encoding of field elements: the map has increasing
positions. -/
theorem C160_sorted {b rest : List UInt8} {m : List (ℕ × F)} (h : decPi cf b = some (m, rest)) :
    m.Pairwise fun a b => a.1 < b.1 := by
  unfold decPi at h
  simp only [Option.bind_eq_bind, Option.bind_eq_some_iff, Option.pure_def, Option.some.injEq, Prod.mk.injEq] at h
  obtain ⟨⟨n, b'⟩, -, ⟨l, b''⟩, -, rfl, -⟩ := h
  exact (foldl_last l).1

/-- Bytes are read as at most one map. Two maps that are read are equal exactly if they have the same entries. -/
theorem C160_same {b b' rest rest' : List UInt8} {m m' : List (ℕ × F)} (h : decPi cf b = some (m, rest))
    (h' : decPi cf b' = some (m', rest')) : m = m' ↔ ∀ e, e ∈ m ↔ e ∈ m' := by
  refine ⟨fun h _ => by rw [h], fun he => ?_⟩
  exact List.Perm.eq_of_pairwise (le := fun a b : ℕ × F => a.1 < b.1)
    (fun a b _ _ h1 h2 => absurd h1 (lt_asymm h2)) (C160_sorted h) (C160_sorted h')
    ((List.perm_ext_iff_of_nodup ((C160_sorted h).imp fun h e => by rw [e] at h; exact lt_irrefl _ h)
      ((C160_sorted h').imp fun h e => by rw [e] at h; exact lt_irrefl _ h)).2 he)

variable [Field F] [DecidableEq F]

/-- **C160.** `as_evals` of a map that was read: the values at their places and zero elsewhere, or a panic, exactly
when `n` is not a power of two or the map has a position that is not below `n`, if only with the value zero. -/
theorem C160_as_evals {b rest : List UInt8} {m : List (ℕ × F)} (h : decPi cf b = some (m, rest)) (n : ℕ) :
    (((∃ k, n = 2 ^ k) ∧ ∀ e ∈ m, e.1 < n) → ∃ v, asEvals m n = .ok v ∧ v.length = n ∧
      (∀ e ∈ m, v.getD e.1 0 = e.2) ∧ ∀ i, (∀ e ∈ m, e.1 ≠ i) → v.getD i 0 = 0) ∧
    (¬ ((∃ k, n = 2 ^ k) ∧ ∀ e ∈ m, e.1 < n) → asEvals m n = .error .panic) := by
  have hs := C160_sorted h
  have e2 : (∃ k, n = 2 ^ k) ↔ 2 ^ Nat.log 2 n = n :=
    ⟨fun ⟨k, hk⟩ => by rw [hk, Nat.log_pow (by norm_num)], fun h => ⟨_, h.symm⟩⟩
  constructor
  · rintro ⟨hn, hl⟩
    obtain ⟨v, h1, h2, h3⟩ := asEvals_run (e2.1 hn) hs hl
    refine ⟨v, h1, h2, fun e he => ?_, fun i hi => ?_⟩
    · rw [h3]
      exact piAt_mem hs he
    · rw [h3]
      exact pubOf_absent hi
  · intro hc
    unfold asEvals
    by_cases hn : 2 ^ Nat.log 2 n = n
    · have : ∃ e ∈ m, n ≤ e.1 := by
        by_contra hno
        push Not at hno
        exact hc ⟨e2.2 hn, hno⟩
      simp only [assertR, hn, if_true, ok_bind]
      exact asEvals_fold_panic m _ (by simpa using this)
    · simp only [assertR, hn, if_false, error_bind]

/-- **C160.** So `verify` panics on public inputs with a position beyond the rows of the domain, whatever the proof,
the key and the hash function. -/
theorem C160_verify_panics (K : PField F) (E : EdCurve F) {P : PCS F} (ro : Transcript F P.Comm → F) (vk : VKey P)
    (tr : Transcript F P.Comm) {m : List (ℕ × F)} {D : Dom F}
    (hD : Dom.new K.fft vk.n = some D) (hm : ∃ e ∈ m, D.size ≤ e.1) (pr : PlonkProof P) :
    plonkVerify K E P ro vk tr m pr = .error .panic := by
  have hp : asEvals m D.size = .error .panic := by
    unfold asEvals
    by_cases hn : 2 ^ Nat.log 2 D.size = D.size
    · simp only [assertR, hn, if_true, ok_bind]
      exact asEvals_fold_panic m _ (by simpa using hm)
    · simp only [assertR, hn, if_false, error_bind]
  have hd : newDom K vk.n = .ok D := by
    unfold newDom
    rw [hD]
  unfold plonkVerify
  rw [hd]
  show verifyWith E P D vk m pr _ = _
  generalize verifierChals ro tr m pr = ch
  have ha : ∀ (q : Prop) [Decidable q], liftP (assertR q) = .ok () ∨ liftP (assertR q) = .error PErr.panic := by
    intro q _
    unfold assertR
    split_ifs
    · exact .inl rfl
    · exact .inr rfl
  unfold verifyWith
  rcases ha (ch.beta ≠ ch.gamma) with h | h <;> rw [h] <;> [skip; rfl]
  rcases ha (ch.beta ≠ ch.delta) with h | h <;> rw [h] <;> [skip; rfl]
  rcases ha (ch.beta ≠ ch.epsilon) with h | h <;> rw [h] <;> [skip; rfl]
  rcases ha (ch.gamma ≠ ch.delta) with h | h <;> rw [h] <;> [skip; rfl]
  rcases ha (ch.gamma ≠ ch.epsilon) with h | h <;> rw [h] <;> [skip; rfl]
  rcases ha (ch.delta ≠ ch.epsilon) with h | h <;> rw [h] <;> [skip; rfl]
  have hl : (∃ x, firstLagrangeEval D (vanishAt D ch.z) ch.z = .ok x) ∨
      firstLagrangeEval D (vanishAt D ch.z) ch.z = .error .panic := by
    unfold firstLagrangeEval
    by_cases hz : (D.size : F) * (ch.z - 1) = 0
    · exact .inr (if_pos hz)
    · exact .inl ⟨_, if_neg hz⟩
  rcases hl with ⟨x, h⟩ | h
  · simp only [h, hp]
    rfl
  · simp only [h]
    rfl

/-- **C160.** Hence there are bytes that are read as public inputs and make every verification with this key panic. -/
theorem C160_verify_bytes (hf : Lawful cf) (K : PField F) (E : EdCurve F) {P : PCS F} (ro : Transcript F P.Comm → F)
    (vk : VKey P) (tr : Transcript F P.Comm) {D : Dom F} (hD : Dom.new K.fft vk.n = some D) (hs : D.size < 2 ^ 64) :
    ∃ b m, decPi cf b = some (m, []) ∧ (∀ e ∈ m, e.2 = 0) ∧
      ∀ pr : PlonkProof P, plonkVerify K E P ro vk tr m pr = .error .panic := by
  obtain ⟨m, h1, -, h3⟩ := C160_read hf [(D.size, 0)] (by norm_num) (by simpa using hs) []
  refine ⟨_, m, h1, fun e he => ?_, C160_verify_panics K E ro vk tr hD
    ⟨(D.size, 0), (h3 _ _).2 ⟨[], [], rfl, by simp⟩, le_refl _⟩⟩
  obtain ⟨a, b, h, -⟩ := (h3 e.1 e.2).1 he
  have : e ∈ [(D.size, (0 : F))] := by rw [h]; simp
  rw [List.mem_singleton.1 this]

/-! Concrete cases. -/

/-- A key for three gates: a zero at position 4 is read from 17 bytes, and no proof is refused or accepted any more. -/
example (K : PField K97) (h : 2 ≤ K.fft.twoAdicity) (ro : Transcript K97 pcs97.Comm → K97)
    (tr : Transcript K97 pcs97.Comm) (sel : Gate pcs97.Comm) (sig tab : WitVals pcs97.Comm) (pr : PlonkProof pcs97) :
    decPi codec97 [1, 0, 0, 0, 0, 0, 0, 0, 4, 0, 0, 0, 0, 0, 0, 0, 0] = some ([(4, 0)], []) ∧
      plonkVerify K E97 pcs97 ro ⟨3, sel, sig, tab⟩ tr [(4, 0)] pr = .error .panic := by
  have hc : Nat.clog 2 3 = 2 := by decide +kernel
  refine ⟨by decide +kernel, C160_verify_panics (D := ⟨4, K.fft.root 2⟩) K E97 ro _ tr ?_ ⟨(4, 0), by simp, le_refl _⟩
    pr⟩
  show Dom.new K.fft 3 = _
  rw [Dom.new, hc, if_pos h]
  norm_num

/-- Three entries, one position twice: the last value holds. -/
example : ∃ m, decPi codec97 (piBytes codec97 [(7, 1), (2, 3), (2, 5)] ++ [9]) = some (m, [9]) ∧
    (2, 5) ∈ m ∧ (2, 3) ∉ m ∧ (7, 1) ∈ m := by
  obtain ⟨m, h1, -, h3⟩ := C160_read codec97_faithful.1 [(7, 1), (2, 3), (2, 5)] (by norm_num)
    (by simp) [9]
  refine ⟨m, h1, (h3 2 5).2 ⟨[(7, 1), (2, 3)], [], rfl, by simp⟩, fun h => ?_,
    (h3 7 1).2 ⟨[], [(2, 3), (2, 5)], rfl, by simp⟩⟩
  obtain ⟨a, b, e, hb⟩ := (h3 2 3).1 h
  match a, e with
  | [_], e =>
    have : b = [(2, 5)] := by
      have := e.symm
      simp only [List.cons_append, List.nil_append, List.cons.injEq] at this
      exact this.2.2
    exact hb (2, 5) (by simp [this]) rfl
  | [_, _], e =>
    simp only [List.cons_append, List.nil_append, List.cons.injEq, Prod.mk.injEq] at e
    exact absurd e.2.2.1.2 (by decide)
  | [], e =>
    simp only [List.nil_append, List.cons.injEq, Prod.mk.injEq] at e
    exact absurd e.1.1 (by decide)
  | _ :: _ :: _ :: _, e => simp at e

/-- Bytes for a zero at position 4, read without complaint: `as_evals(4)` panics, `as_evals(8)` gives zeros. -/
example : ∃ m, decPi codec97 (piBytes codec97 [(4, 0)]) = some (m, []) ∧ asEvals m 4 = .error .panic ∧
    ∃ v, asEvals m 8 = .ok v ∧ v.length = 8 := by
  refine ⟨[(4, 0)], by decide +kernel, ?_, ?_⟩
  · exact (C160_as_evals (cf := codec97) (b := piBytes codec97 [(4, 0)]) (rest := []) (by decide +kernel) 4).2
      (fun h => by simpa using h.2 (4, 0) (by simp))
  · obtain ⟨v, h1, h2, -⟩ := (C160_as_evals (cf := codec97) (b := piBytes codec97 [(4, 0)]) (rest := [])
      (m := [(4, 0)]) (by decide +kernel) 8).1 ⟨⟨3, rfl⟩, by simp⟩
    exact ⟨v, h1, h2⟩

end VO
