import Verif.Lemmas.PoseidonGrain2
import Mathlib.Data.Nat.Bitwise

/-
C119: the generator of round constants, `/repo/plonk-hashing/src/poseidon/round_constant.rs`.
-/

namespace VO

open VO.Poseidon VO.Spec.Poseidon

/-! ### C119 -/

theorem appendBits_eq (s : List Bool) (n v : ℕ) : appendBits s n v = s ++ bitsBE n v := by
  unfold appendBits bitsBE
  congr 1
  apply List.ext_getElem
  · simp
  · intro i h1 h2
    simp only [List.length_map, List.length_reverse, List.length_range] at h1
    simp only [List.getElem_map, List.getElem_reverse, List.getElem_range, List.getElem_ofFn, List.length_range]
    unfold Nat.testBit
    rw [Nat.and_comm]

/-- The initial sequence has the layout of the paper. -/
theorem C119_initial (field sbox size t rf rp : ℕ) :
    initialSequence field sbox size t rf rp = initialState field sbox size t rf rp ∧
      (initialState field sbox size t rf rp).length = 80 := by
  constructor
  · unfold initialSequence initialState
    simp only [appendBits_eq, List.nil_append]
    congr 1
  · simp [initialState, bitsBE]

/-- The sequence of the register that starts in the initial state exists. -/
theorem C119_stream (field sbox size t rf rp : ℕ) : ∃ b, IsGrain b ∧
    ∀ i < 80, (initialState field sbox size t rf rp)[i]? = some (b i) := by
  obtain ⟨b, h1, h2⟩ := exists_stream _ (C119_initial field sbox size t rf rp).2
  refine ⟨b, h1, fun i hi => ?_⟩
  rw [← h2]
  simp [window, hi]

theorem window_of_init {b : ℕ → Bool} {s : List Bool} (hs : s.length = 80) (h : ∀ i < 80, s[i]? = some (b i)) :
    s = window b 0 := by
  apply List.ext_getElem
  · rw [hs, window_length]
  · intro i h1 h2
    have := h i (by omega)
    rw [List.getElem?_eq_getElem h1, Option.some.injEq] at this
    simp [window, this]

theorem init_one {b : ℕ → Bool} {field sbox size t rf rp : ℕ}
    (h : ∀ i < 80, (initialState field sbox size t rf rp)[i]? = some (b i)) : ∃ i < 80, b i = true := by
  refine ⟨79, by omega, ?_⟩
  have e := h 79 (by omega)
  unfold initialState at e
  rw [List.getElem?_append_right (by simp [bitsBE])] at e
  simp [bitsBE] at e
  exact e

/-- `new` accepts the initial sequence and drops 160 bits; the state always has 80 bits, so no index is out of
range. -/
theorem C119_new {b : ℕ → Bool} (hb : IsGrain b) {s : List Bool} (hs : s.length = 80)
    (h : ∀ i < 80, s[i]? = some (b i)) :
    ∃ s', grainNew s = .ok s' ∧ s'.length = 80 ∧ ∀ i < 80, s'[i]? = some (b (160 + i)) := by
  refine ⟨window b 160, ?_, window_length b 160, fun i hi => by simp [window, hi]⟩
  rw [window_of_init hs h]
  unfold grainNew
  rw [if_pos (window_length b 0), skip_window hb]
  simp only
  rw [if_pos (window_length b _)]

/-- One step of the register: the next bit of the sequence. -/
theorem C119_bit {b : ℕ → Bool} (hb : IsGrain b) (p : ℕ) {s : List Bool} (hs : s.length = 80)
    (h : ∀ i < 80, s[i]? = some (b (p + i))) :
    (generateNewBit s).1 = b (p + 80) ∧ (generateNewBit s).2.length = 80 ∧
      ∀ i < 80, (generateNewBit s).2[i]? = some (b (p + 1 + i)) := by
  have e : s = window b p := by
    apply List.ext_getElem
    · rw [hs, window_length]
    · intro i h1 h2
      have := h i (by omega)
      rw [List.getElem?_eq_getElem h1, Option.some.injEq] at this
      simp [window, this]
  rw [e, window_gen hb]
  exact ⟨rfl, window_length b _, fun i hi => by simp [window, hi]⟩

/-- `next` returns for every reachable state, after finitely many steps: whatever the initial state of 80
bits, if it is not zero, and however many bits have been drawn. -/
theorem C119_next_returns {b : ℕ → Bool} (hb : IsGrain b) (hn : ∃ i < 80, b i = true) (p : ℕ) {s : List Bool}
    (hs : s.length = 80) (h : ∀ i < 80, s[i]? = some (b (p + i))) :
    ∃ k, (∀ j < k, b (p + 80 + 2 * j) = false) ∧ b (p + 80 + 2 * k) = true ∧ ∀ fuel, k ≤ fuel →
      ∃ s', grainNext fuel s = some (b (p + 80 + 2 * k + 1), s') ∧ s'.length = 80 ∧
        ∀ i < 80, s'[i]? = some (b (p + 2 * k + 2 + i)) := by
  have e : s = window b p := by
    apply List.ext_getElem
    · rw [hs, window_length]
    · intro i h1 h2
      have := h i (by omega)
      rw [List.getElem?_eq_getElem h1, Option.some.injEq] at this
      simp [window, this]
  obtain ⟨k, h1, h2⟩ := first_one hb hn (p + 80)
  refine ⟨k, h1, h2, fun fuel hf => ⟨window b (p + 2 * k + 2), ?_, window_length b _, fun i hi => by simp [window, hi]⟩⟩
  rw [e]
  exact next_window hb hf h1 h2

section generate

variable {F : Type} (conv : List ℕ → Option F)

/-- The parameters `generate_constants` accepts. -/
def Accepted (sizeInBits field size t rf rp : ℕ) : Prop :=
  (sizeInBits + 8 - 1) / 8 = 32 ∧ (size + 7) / 8 = 32 ∧ rf + rp < 2 ^ 16 ∧ (rf + rp) * t < 2 ^ 16 ∧ field = 1

theorem generate_eq {sizeInBits size t rf rp : ℕ} (sbox fuel : ℕ) (ha : Accepted sizeInBits 1 size t rf rp)
    {b : ℕ → Bool} (hb : IsGrain b) (h : ∀ i < 80, (initialState 1 sbox size t rf rp)[i]? = some (b i)) :
    generateConstants conv sizeInBits fuel 1 sbox size t rf rp
      = .ok ((constantsLoop conv fuel size ((rf + rp) * t) (window b 160)).map Prod.fst) := by
  obtain ⟨h1, h2, h3, h4, -⟩ := ha
  have hg : grainNew (initialSequence 1 sbox size t rf rp) = .ok (window b 160) := by
    rw [(C119_initial 1 sbox size t rf rp).1, window_of_init (C119_initial 1 sbox size t rf rp).2 h]
    unfold grainNew
    rw [if_pos (window_length b 0), skip_window hb]
    simp only
    rw [if_pos (window_length b _)]
  unfold generateConstants
  simp only [assertR, h1, h2, h3, h4, if_true, hg]
  rfl

/-- The constants are those of the paper: integers of `size` bits, made of the bits of the self-shrinking
register behind the first 160, are drawn one after the other, and the accepted ones are the constants, as many
as there are rounds times the width. The program returns exactly when enough integers are accepted. -/
theorem C119_constants {sizeInBits size t rf rp : ℕ} (sbox : ℕ) (ha : Accepted sizeInBits 1 size t rf rp)
    {b : ℕ → Bool} (hb : IsGrain b) (h : ∀ i < 80, (initialState 1 sbox size t rf rp)[i]? = some (b i))
    (cs : List F) :
    (∃ fuel, generateConstants conv sizeInBits fuel 1 sbox size t rf rp = .ok (some cs)) ↔
      cs.length = (rf + rp) * t ∧ ∃ q, DrawnAll b size (fun n => conv (bytesLE 32 n)) 240 cs q := by
  have hn := init_one h
  constructor
  · rintro ⟨fuel, hf⟩
    rw [generate_eq conv sbox fuel ha hb h] at hf
    simp only [Except.ok.injEq, Option.map_eq_some_iff] at hf
    obtain ⟨⟨fs, s⟩, h1, rfl⟩ := hf
    obtain ⟨q, -, h2, h3⟩ := constantsLoop_sound hb hn ha.2.1 fuel _ _ h1
    exact ⟨h3, _, h2⟩
  · rintro ⟨h1, q, h2⟩
    obtain ⟨q', f0, -, h3⟩ := constantsLoop_complete hb hn ha.2.1 h2 160 rfl
    refine ⟨f0, ?_⟩
    rw [generate_eq conv sbox f0 ha hb h, ← h1, h3 f0 le_rfl]
    rfl

/-- Parameters it does not accept make it panic, however many steps it has. -/
theorem C119_rejects {sizeInBits field size t rf rp : ℕ} (sbox fuel : ℕ)
    (ha : ¬ Accepted sizeInBits field size t rf rp) :
    generateConstants conv sizeInBits fuel field sbox size t rf rp = .error .panic := by
  unfold generateConstants
  unfold Accepted at ha
  obtain ⟨b, hb, h⟩ := C119_stream field sbox size t rf rp
  have hg : grainNew (initialSequence field sbox size t rf rp) = .ok (window b 160) := by
    rw [(C119_initial field sbox size t rf rp).1, window_of_init (C119_initial field sbox size t rf rp).2 h]
    unfold grainNew
    rw [if_pos (window_length b 0), skip_window hb]
    simp only
    rw [if_pos (window_length b _)]
  simp only [assertR, hg]
  by_cases h1 : (sizeInBits + 8 - 1) / 8 = 32
  · by_cases h2 : (size + 7) / 8 = 32
    · by_cases h3 : rf + rp < 2 ^ 16
      · by_cases h4 : (rf + rp) * t < 2 ^ 16
        · by_cases h5 : field = 1
          · exact absurd ⟨h1, h2, h3, h4, h5⟩ ha
          · rw [if_pos h1, h1, if_pos h2, if_pos h3, if_pos h4, if_neg h5]; rfl
        · rw [if_pos h1, h1, if_pos h2, if_pos h3, if_neg h4]; rfl
      · rw [if_pos h1, h1, if_pos h2, if_neg h3]; rfl
    · rw [if_pos h1, h1, if_neg h2]; rfl
  · rw [if_neg h1]; rfl

theorem shrunk_exists {b : ℕ → Bool} (hb : IsGrain b) (hn : ∃ i < 80, b i = true) : ∀ n p,
    ∃ l q, Shrunk b p l q ∧ l.length = n
  | 0, p => ⟨[], p, .done p, rfl⟩
  | n + 1, p => by
    obtain ⟨k, h1, h2⟩ := first_one hb hn p
    obtain ⟨l, q, h3, h4⟩ := shrunk_exists hb hn n (p + 2 * k + 2)
    exact ⟨_ :: l, q, .next p k h1 h2 h3, by simp [h4]⟩

theorem drawnAll_exists {b : ℕ → Bool} (hb : IsGrain b) (hn : ∃ i < 80, b i = true) (size : ℕ)
    {acc : ℕ → Option F} (ha : ∀ n, n < 2 ^ size → (acc n).isSome = true) : ∀ n p,
    ∃ cs q, DrawnAll b size acc p cs q ∧ cs.length = n
  | 0, p => ⟨[], p, .nil p, rfl⟩
  | n + 1, p => by
    obtain ⟨l, q, h1, h2⟩ := shrunk_exists hb hn size p
    have hl : ∀ l : List Bool, ofBits l < 2 ^ l.length := by
      intro l
      induction l using List.reverseRecOn with
      | nil => simp [ofBits]
      | append_singleton l x ih =>
        have : ofBits [x] ≤ 1 := by cases x <;> simp [ofBits]
        simp only [ofBits_append, List.length_append, List.length_singleton, pow_succ, pow_zero, one_mul]
        omega
    obtain ⟨f, hf⟩ := Option.isSome_iff_exists.1 (ha (ofBits l) (by rw [← h2]; exact hl l))
    obtain ⟨cs, r, h3, h4⟩ := drawnAll_exists hb hn size ha n q
    exact ⟨f :: cs, r, .cons (.yes h1 h2 hf) h3, by simp [h4]⟩

/-- When every integer of the given size is accepted the program returns, for all accepted parameters. -/
theorem C119_returns {sizeInBits size t rf rp : ℕ} (sbox : ℕ) (ha : Accepted sizeInBits 1 size t rf rp)
    (hc : ∀ n, n < 2 ^ size → (conv (bytesLE 32 n)).isSome = true) :
    ∃ fuel cs, generateConstants conv sizeInBits fuel 1 sbox size t rf rp = .ok (some cs) ∧
      cs.length = (rf + rp) * t := by
  obtain ⟨b, hb, h⟩ := C119_stream 1 sbox size t rf rp
  obtain ⟨cs, q, h1, h2⟩ := drawnAll_exists hb (init_one h) size (acc := fun n => conv (bytesLE 32 n)) hc
    ((rf + rp) * t) 240
  obtain ⟨fuel, hf⟩ := (C119_constants conv sbox ha hb h cs).2 ⟨h2, q, h1⟩
  exact ⟨fuel, cs, hf, h2⟩

end generate

/-- Constants of width 3 with 8 full and 55 partial rounds; and a width that is too large. -/
example : (∃ fuel cs, generateConstants (fun B => some (B.foldr (fun x n => x + 256 * n) 0)) 255 fuel 1 1 255 3 8 55
      = .ok (some cs) ∧ cs.length = 189) ∧ ¬ Accepted 255 1 255 1100 8 57 := by
  refine ⟨?_, by unfold Accepted; omega⟩
  obtain ⟨fuel, cs, h1, h2⟩ := C119_returns (fun B => some (B.foldr (fun x n => x + 256 * n) 0)) (sizeInBits := 255)
    (size := 255) (t := 3) (rf := 8) (rp := 55) 1 (by unfold Accepted; omega) (by simp)
  exact ⟨fuel, cs, h1, h2⟩

/-- The first bits of the register with the initial state of the example, and the first draw. -/
example : (skipBits 3 (initialState 1 1 255 3 8 55)).length = 80 ∧
    (grainNext 50 (window (fun i => i % 3 == 0) 0)).isSome = true := by decide +kernel

end VO
