import Verif.Lemmas.PoseidonGrain
import Mathlib.Data.List.Induction

/-
The program of `/repo/plonk-hashing/src/poseidon/round_constant.rs` follows the description in
`Spec/PoseidonGrain`.
-/

namespace VO.Poseidon

open VO.Spec.Poseidon

/-- The state of the register when `p` bits have been shifted out. -/
def window (b : ℕ → Bool) (p : ℕ) : List Bool := (List.range 80).map fun i => b (p + i)

theorem window_length (b : ℕ → Bool) (p : ℕ) : (window b p).length = 80 := by simp [window]

theorem window_bit (b : ℕ → Bool) (p i : ℕ) (h : i < 80) : grainBit (window b p) i = b (p + i) := by
  simp [grainBit, window, List.getD_eq_getElem?_getD, h]

theorem window_gen {b : ℕ → Bool} (hb : IsGrain b) (p : ℕ) :
    generateNewBit (window b p) = (b (p + 80), window b (p + 1)) := by
  have e : (((((grainBit (window b p) 62 ^^ grainBit (window b p) 51) ^^ grainBit (window b p) 38) ^^
      grainBit (window b p) 23) ^^ grainBit (window b p) 13) ^^ grainBit (window b p) 0) = b (p + 80) := by
    rw [hb p, window_bit b p 62 (by omega), window_bit b p 51 (by omega), window_bit b p 38 (by omega),
      window_bit b p 23 (by omega), window_bit b p 13 (by omega), window_bit b p 0 (by omega)]
    simp only [Nat.add_zero, Bool.xor_assoc]
  unfold generateNewBit
  simp only [e]
  refine Prod.ext rfl ?_
  show (window b p).tail ++ [b (p + 80)] = window b (p + 1)
  apply List.ext_getElem
  · simp [window]
  · intro i h1 h2
    rw [window_length] at h2
    by_cases hi : i < 79
    · rw [List.getElem_append_left (by simp [window]; omega)]
      simp [window]
      congr 1
      omega
    · have : i = 79 := by omega
      subst this
      rw [List.getElem_append_right (by simp [window])]
      simp [window]

theorem skip_window {b : ℕ → Bool} (hb : IsGrain b) : ∀ (n p : ℕ), skipBits n (window b p) = window b (p + n)
  | 0, p => rfl
  | n + 1, p => by
    unfold skipBits
    rw [window_gen hb, skip_window hb n (p + 1), show p + 1 + n = p + (n + 1) by omega]

theorem nextLoop_window {b : ℕ → Bool} (hb : IsGrain b) : ∀ (k fuel p : ℕ), k ≤ fuel →
    (∀ j < k, b (p + 80 + 2 * j) = false) → b (p + 80 + 2 * k) = true →
    nextLoop fuel (b (p + 80)) (window b (p + 1)) = some (window b (p + 2 * k + 1))
  | 0, fuel, p, _, _, h => by
    rw [show b (p + 80) = true from h]
    cases fuel <;> rfl
  | k + 1, 0, p, hk, _, _ => by omega
  | k + 1, fuel + 1, p, hk, h1, h2 => by
    rw [show b (p + 80) = false from h1 0 (by omega)]
    unfold nextLoop
    simp only [window_gen hb]
    rw [show p + 1 + 1 + 80 = p + 2 + 80 by omega, show p + 1 + 1 + 1 = p + 2 + 1 by omega]
    rw [nextLoop_window hb k fuel (p + 2) (by omega)]
    · rw [show p + 2 + 2 * k + 1 = p + 2 * (k + 1) + 1 by omega]
    · intro j hj
      have := h1 (j + 1) (by omega)
      rwa [show p + 80 + 2 * (j + 1) = p + 2 + 80 + 2 * j by omega] at this
    · rwa [show p + 80 + 2 * (k + 1) = p + 2 + 80 + 2 * k by omega] at h2

theorem next_window {b : ℕ → Bool} (hb : IsGrain b) {k fuel p : ℕ} (hk : k ≤ fuel)
    (h1 : ∀ j < k, b (p + 80 + 2 * j) = false) (h2 : b (p + 80 + 2 * k) = true) :
    grainNext fuel (window b p) = some (b (p + 80 + 2 * k + 1), window b (p + 2 * k + 2)) := by
  unfold grainNext
  simp only [window_gen hb]
  rw [nextLoop_window hb k fuel p hk h1 h2]
  simp only [Option.bind_eq_bind, Option.bind_some, window_gen hb]
  rw [show p + 2 * k + 1 + 80 = p + 80 + 2 * k + 1 by omega]
  rfl

/-- The loop of `next_byte` gives some output bits, and needs only finitely many steps. -/
theorem byteLoop_window {b : ℕ → Bool} (hb : IsGrain b) (hn : ∃ i < 80, b i = true) : ∀ (n p acc : ℕ),
    ∃ l q f0, Shrunk b (p + 80) l (q + 80) ∧ l.length = n ∧ ∀ fuel, f0 ≤ fuel →
      byteLoop fuel n acc (window b p)
        = some (l.foldl (fun a x => (2 * a) % 256 + x.toNat) acc, window b q)
  | 0, p, acc => ⟨[], p, 0, .done _, rfl, fun _ _ => rfl⟩
  | n + 1, p, acc => by
    obtain ⟨k, h1, h2⟩ := first_one hb hn (p + 80)
    obtain ⟨l, q, f0, g1, g2, g3⟩ := byteLoop_window hb hn n (p + 2 * k + 2)
      ((2 * acc) % 256 + (b (p + 80 + 2 * k + 1)).toNat)
    rw [show p + 2 * k + 2 + 80 = p + 80 + 2 * k + 2 by omega] at g1
    refine ⟨_ :: l, q, max k f0, .next _ k h1 h2 g1, by simp [g2], fun fuel hf => ?_⟩
    unfold byteLoop
    rw [next_window hb (le_trans (le_max_left _ _) hf) h1 h2]
    simp only [Option.bind_eq_bind, Option.bind_some]
    rw [List.foldl_cons, ← g3 fuel (le_trans (le_max_right _ _) hf)]
    congr 1
    cases b (p + 80 + 2 * k + 1) <;> rfl

theorem foldl_small : ∀ (l : List Bool) (i acc : ℕ), acc < 2 ^ i → i + l.length ≤ 8 →
    l.foldl (fun a x => (2 * a) % 256 + x.toNat) acc = l.foldl (fun a x => 2 * a + x.toNat) acc ∧
    l.foldl (fun a x => 2 * a + x.toNat) acc < 2 ^ (i + l.length)
  | [], i, acc, h, _ => ⟨rfl, h⟩
  | x :: l, i, acc, h, hl => by
    rw [List.foldl_cons, List.foldl_cons]
    simp only [List.length_cons] at hl
    have h7 : (2 : ℕ) ^ i ≤ 2 ^ 7 := Nat.pow_le_pow_right (by omega) (by omega)
    have hx : x.toNat ≤ 1 := by cases x <;> simp
    rw [Nat.mod_eq_of_lt (by omega)]
    have := foldl_small l (i + 1) (2 * acc + x.toNat) (by rw [Nat.pow_succ]; omega) (by omega)
    rwa [show i + 1 + l.length = i + (x :: l).length by simp; omega] at this

theorem nextByte_window {b : ℕ → Bool} (hb : IsGrain b) (hn : ∃ i < 80, b i = true) (n p : ℕ) (h8 : n ≤ 8) :
    ∃ l q f0, Shrunk b (p + 80) l (q + 80) ∧ l.length = n ∧ ofBits l < 256 ∧ ∀ fuel, f0 ≤ fuel →
      nextByte fuel n (window b p) = some (ofBits l, window b q) := by
  obtain ⟨l, q, f0, h1, h2, h3⟩ := byteLoop_window hb hn n p 0
  obtain ⟨k1, k2⟩ := foldl_small l 0 0 (by simp) (by omega)
  refine ⟨l, q, f0, h1, h2, lt_of_lt_of_le k2 (by
    rw [show 256 = 2 ^ 8 by rfl]; exact Nat.pow_le_pow_right (by omega) (by omega)), fun fuel hf => ?_⟩
  unfold nextByte
  rw [h3 fuel hf, k1]
  rfl

theorem _root_.VO.Spec.Poseidon.Shrunk.append {b : ℕ → Bool} {p q r : ℕ} {l l' : List Bool} (h : Shrunk b p l q)
    (h' : Shrunk b q l' r) : Shrunk b p (l ++ l') r := by
  induction h with
  | done p => exact h'
  | next p k h1 h2 _ ih => exact .next p k h1 h2 (ih h')

theorem foldl_bits : ∀ (l : List Bool) (acc : ℕ),
    l.foldl (fun a x => 2 * a + x.toNat) acc = acc * 2 ^ l.length + ofBits l
  | [], acc => by simp [ofBits]
  | x :: l, acc => by
    unfold ofBits
    rw [List.foldl_cons, List.foldl_cons, foldl_bits l, foldl_bits l, List.length_cons, Nat.pow_succ]
    ring

theorem ofBits_append (l l' : List Bool) : ofBits (l ++ l') = ofBits l * 2 ^ l'.length + ofBits l' := by
  unfold ofBits
  rw [List.foldl_append, foldl_bits l']
  rfl

/-- The number with these bytes, the most significant first. -/
def ofBytes (acc : ℕ) (B : List ℕ) : ℕ := B.foldl (fun n x => 256 * n + x) acc

theorem bytesLoop_window {b : ℕ → Bool} (hb : IsGrain b) (hn : ∃ i < 80, b i = true) : ∀ (n p : ℕ),
    ∃ l q f0 B, Shrunk b (p + 80) l (q + 80) ∧ l.length = 8 * n ∧ B.length = n ∧ (∀ x ∈ B, x < 256) ∧
      (∀ acc, ofBytes acc B = acc * 2 ^ l.length + ofBits l) ∧ ∀ fuel, f0 ≤ fuel →
      bytesLoop fuel n (window b p) = some (B, window b q)
  | 0, p => ⟨[], p, 0, [], .done _, rfl, rfl, by simp, by simp [ofBytes, ofBits], fun _ _ => rfl⟩
  | n + 1, p => by
    obtain ⟨l, q, f0, h1, h2, h3, h4⟩ := nextByte_window hb hn 8 p le_rfl
    obtain ⟨l', q', f1, B, g1, g2, g3, g4, g5, g6⟩ := bytesLoop_window hb hn n q
    refine ⟨l ++ l', q', max f0 f1, ofBits l :: B, h1.append g1, by simp [h2, g2]; ring, by simp [g3], ?_, ?_, ?_⟩
    · intro x hx
      rcases List.mem_cons.1 hx with rfl | hx
      · exact h3
      · exact g4 x hx
    · intro acc
      have : ofBytes acc (ofBits l :: B) = ofBytes (256 * acc + ofBits l) B := rfl
      rw [this, g5, ofBits_append, List.length_append, Nat.pow_add, h2]
      ring
    · intro fuel hf
      unfold bytesLoop
      rw [h4 fuel (le_trans (le_max_left _ _) hf)]
      simp only [Option.bind_eq_bind, Option.bind_some]
      rw [g6 fuel (le_trans (le_max_right _ _) hf)]
      rfl

theorem ofBytes_append (acc : ℕ) (B C : List ℕ) : ofBytes acc (B ++ C) = ofBytes (ofBytes acc B) C := by
  unfold ofBytes
  rw [List.foldl_append]

theorem bytesLE_succ (k n : ℕ) : bytesLE (k + 1) n = n % 256 :: bytesLE k (n / 256) := by
  unfold bytesLE
  rw [List.range_succ_eq_map, List.map_cons, List.map_map]
  simp only [pow_zero, Nat.div_one]
  congr 1
  apply List.map_congr_left
  intro i _
  simp only [Function.comp]
  rw [Nat.pow_succ, Nat.mul_comm, ← Nat.div_div_eq_div_mul]

/-- The bytes, read backwards, are those of the number. -/
theorem reverse_bytes (B : List ℕ) (h : ∀ x ∈ B, x < 256) : B.reverse = bytesLE B.length (ofBytes 0 B) := by
  induction B using List.reverseRecOn with
  | nil => rfl
  | append_singleton B x ih =>
    have hx : x < 256 := h x (by simp)
    rw [List.reverse_append, ofBytes_append, List.length_append, List.length_singleton, bytesLE_succ]
    have : ofBytes (ofBytes 0 B) [x] = 256 * ofBytes 0 B + x := rfl
    rw [this, show (256 * ofBytes 0 B + x) % 256 = x by omega, show (256 * ofBytes 0 B + x) / 256 = ofBytes 0 B by omega,
      ← ih fun y hy => h y (by simp [hy])]
    rfl

/-- One draw of 32 bytes: `fieldSize` output bits. -/
theorem getNextBytes_window {b : ℕ → Bool} (hb : IsGrain b) (hn : ∃ i < 80, b i = true) (size p : ℕ)
    (hs : (size + 7) / 8 = 32) :
    ∃ l q f0 B, Shrunk b (p + 80) l (q + 80) ∧ l.length = size ∧ B.reverse = bytesLE 32 (ofBits l) ∧
      ∀ fuel, f0 ≤ fuel → getNextBytes fuel size 31 (window b p) = some (B, window b q) := by
  obtain ⟨l, q, f0, h1, h2, h3, h4⟩ := nextByte_window hb hn (if 0 < size % 8 then size % 8 else 8) p
    (by split <;> omega)
  obtain ⟨l', q', f1, B, g1, g2, g3, g4, g5, g6⟩ := bytesLoop_window hb hn 31 q
  refine ⟨l ++ l', q', max f0 f1, ofBits l :: B, h1.append g1, ?_, ?_, ?_⟩
  · rw [List.length_append, h2, g2]
    split <;> omega
  · have hB : ∀ x ∈ ofBits l :: B, x < 256 := by
      intro x hx
      rcases List.mem_cons.1 hx with rfl | hx
      · exact h3
      · exact g4 x hx
    rw [reverse_bytes _ hB, List.length_cons, g3]
    have : ofBytes 0 (ofBits l :: B) = ofBytes (ofBits l) B := by
      unfold ofBytes
      rw [List.foldl_cons]
      simp
    rw [this, g5, ofBits_append]
  · intro fuel hf
    unfold getNextBytes
    simp only
    rw [h4 fuel (le_trans (le_max_left _ _) hf)]
    simp only [Option.bind_eq_bind, Option.bind_some]
    rw [g6 fuel (le_trans (le_max_right _ _) hf)]
    rfl

/-! ### More steps do not change a result -/

theorem nextLoop_mono : ∀ {f f' : ℕ} (v : Bool) (s : List Bool) {r}, f ≤ f' → nextLoop f v s = some r →
    nextLoop f' v s = some r
  | f, f', true, s, r, _, h => by
    have e : ∀ n, nextLoop n true s = some s := fun n => by cases n <;> rfl
    rw [e] at h ⊢
    exact h
  | 0, f', false, s, r, _, h => by cases h
  | f + 1, 0, false, s, r, hf, _ => by omega
  | f + 1, f' + 1, false, s, r, hf, h => by
    unfold nextLoop at h ⊢
    exact nextLoop_mono _ _ (by omega) h

theorem grainNext_mono {f f' : ℕ} {s : List Bool} {r} (hf : f ≤ f') (h : grainNext f s = some r) :
    grainNext f' s = some r := by
  unfold grainNext at *
  simp only [Option.bind_eq_bind, Option.bind_eq_some_iff] at *
  obtain ⟨s', h1, h2⟩ := h
  exact ⟨s', nextLoop_mono _ _ hf h1, h2⟩

theorem byteLoop_mono {f f' : ℕ} (hf : f ≤ f') : ∀ (n acc : ℕ) (s : List Bool) {r},
    byteLoop f n acc s = some r → byteLoop f' n acc s = some r
  | 0, _, _, _, h => h
  | n + 1, acc, s, r, h => by
    unfold byteLoop at *
    simp only [Option.bind_eq_bind, Option.bind_eq_some_iff] at *
    obtain ⟨q, h1, h2⟩ := h
    exact ⟨q, grainNext_mono hf h1, byteLoop_mono hf n _ _ h2⟩

theorem bytesLoop_mono {f f' : ℕ} (hf : f ≤ f') : ∀ (n : ℕ) (s : List Bool) {r},
    bytesLoop f n s = some r → bytesLoop f' n s = some r
  | 0, _, _, h => h
  | n + 1, s, r, h => by
    unfold bytesLoop at *
    simp only [Option.bind_eq_bind, Option.bind_eq_some_iff] at *
    obtain ⟨q, h1, q', h2, h3⟩ := h
    exact ⟨q, byteLoop_mono hf _ _ _ h1, q', bytesLoop_mono hf n _ h2, h3⟩

theorem getNextBytes_mono {f f' : ℕ} (hf : f ≤ f') {size len : ℕ} {s : List Bool} {r}
    (h : getNextBytes f size len s = some r) : getNextBytes f' size len s = some r := by
  unfold getNextBytes at *
  simp only [Option.bind_eq_bind, Option.bind_eq_some_iff] at *
  obtain ⟨q, h1, q', h2, h3⟩ := h
  exact ⟨q, byteLoop_mono hf _ _ _ h1, q', bytesLoop_mono hf _ _ h2, h3⟩

/-! ### Constants -/

section constants

variable {F : Type} {conv : List ℕ → Option F} {b : ℕ → Bool} {size : ℕ}

/-- Acceptance of an integer: its 32 bytes are converted. -/
def acceptLE (conv : List ℕ → Option F) (n : ℕ) : Option F := conv (bytesLE 32 n)

theorem drawLoop_sound (hb : IsGrain b) (hn : ∃ i < 80, b i = true) (hs : (size + 7) / 8 = 32) (fuel : ℕ) :
    ∀ (n p : ℕ) {f s}, drawLoop conv fuel size n (window b p) = some (f, s) →
      ∃ q, s = window b q ∧ Drawn b size (acceptLE conv) (p + 80) f (q + 80)
  | 0, _, _, _, h => by cases h
  | n + 1, p, f, s, h => by
    unfold drawLoop at h
    simp only [Option.bind_eq_bind, Option.bind_eq_some_iff] at h
    obtain ⟨r, h1, h2⟩ := h
    obtain ⟨l, q, f0, B, g1, g2, g3, g4⟩ := getNextBytes_window hb hn size p hs
    have e := getNextBytes_mono (le_max_left fuel f0) h1
    rw [g4 _ (le_max_right _ _)] at e
    simp only [Option.some.injEq] at e
    subst e
    simp only [g3] at h2
    split at h2
    · next f' hf =>
      simp only [Option.pure_def, Option.some.injEq, Prod.mk.injEq] at h2
      obtain ⟨rfl, rfl⟩ := h2
      exact ⟨q, rfl, .yes g1 g2 hf⟩
    · next hf =>
      obtain ⟨q', k1, k2⟩ := drawLoop_sound hb hn hs fuel n q h2
      exact ⟨q', k1, .no g1 g2 hf k2⟩

theorem constantsLoop_sound (hb : IsGrain b) (hn : ∃ i < 80, b i = true) (hs : (size + 7) / 8 = 32) (fuel : ℕ) :
    ∀ (n p : ℕ) {fs s}, constantsLoop conv fuel size n (window b p) = some (fs, s) →
      ∃ q, s = window b q ∧ DrawnAll b size (acceptLE conv) (p + 80) fs (q + 80) ∧ fs.length = n
  | 0, p, _, _, h => by
    simp only [constantsLoop, Option.some.injEq, Prod.mk.injEq] at h
    obtain ⟨rfl, rfl⟩ := h
    exact ⟨p, rfl, .nil _, rfl⟩
  | n + 1, p, fs, s, h => by
    unfold constantsLoop at h
    simp only [Option.bind_eq_bind, Option.bind_eq_some_iff] at h
    obtain ⟨⟨f, s1⟩, h1, ⟨fs', s2⟩, h2, h3⟩ := h
    simp only [Option.pure_def, Option.some.injEq, Prod.mk.injEq] at h3
    obtain ⟨rfl, rfl⟩ := h3
    obtain ⟨q, rfl, k1⟩ := drawLoop_sound hb hn hs fuel fuel p h1
    obtain ⟨q', rfl, k2, k3⟩ := constantsLoop_sound hb hn hs fuel n q h2
    exact ⟨q', rfl, .cons k1 k2, by simp [k3]⟩

theorem _root_.VO.Spec.Poseidon.Shrunk.unique {p q q' : ℕ} {l l' : List Bool} (h : Shrunk b p l q)
    (h' : Shrunk b p l' q') (hl : l.length = l'.length) : l = l' ∧ q = q' := by
  induction h generalizing l' with
  | done p =>
    cases h' with
    | done => exact ⟨rfl, rfl⟩
    | next => simp at hl
  | next p k h1 h2 _ ih =>
    cases h' with
    | done => simp at hl
    | next _ k' g1 g2 g3 =>
      have : k = k' := by
        rcases Nat.lt_trichotomy k k' with h | h | h
        · rw [g1 k h] at h2; cases h2
        · exact h
        · rw [h1 k' h] at g2; cases g2
      subst this
      obtain ⟨rfl, rfl⟩ := ih g3 (by simpa using hl)
      exact ⟨rfl, rfl⟩

theorem drawLoop_complete (hb : IsGrain b) (hn : ∃ i < 80, b i = true) (hs : (size + 7) / 8 = 32) {P Q : ℕ} {f : F}
    (h : Drawn b size (acceptLE conv) P f Q) : ∀ p, P = p + 80 → ∃ q f0, Q = q + 80 ∧ ∀ fuel n, f0 ≤ fuel → f0 ≤ n →
      drawLoop conv fuel size n (window b p) = some (f, window b q) := by
  induction h with
  | yes h1 h2 h3 =>
    rintro p rfl
    obtain ⟨l, q, f0, B, g1, g2, g3, g4⟩ := getNextBytes_window hb hn size p hs
    obtain ⟨rfl, rfl⟩ := h1.unique g1 (by omega)
    refine ⟨q, f0 + 1, rfl, fun fuel n hf hm => ?_⟩
    obtain ⟨n, rfl⟩ : ∃ n', n = n' + 1 := ⟨n - 1, by omega⟩
    unfold drawLoop
    rw [g4 fuel (by omega)]
    simp only [Option.bind_eq_bind, Option.bind_some, g3]
    rw [show conv (bytesLE 32 (ofBits _)) = some _ from h3]
    rfl
  | no h1 h2 h3 _ ih =>
    rintro p rfl
    obtain ⟨l, q, f0, B, g1, g2, g3, g4⟩ := getNextBytes_window hb hn size p hs
    obtain ⟨rfl, rfl⟩ := h1.unique g1 (by omega)
    obtain ⟨q', f1, rfl, k⟩ := ih q rfl
    refine ⟨q', max f0 f1 + 1, rfl, fun fuel n hf hm => ?_⟩
    obtain ⟨n, rfl⟩ : ∃ n', n = n' + 1 := ⟨n - 1, by omega⟩
    unfold drawLoop
    rw [g4 fuel (by omega)]
    simp only [Option.bind_eq_bind, Option.bind_some, g3]
    rw [show conv (bytesLE 32 (ofBits _)) = none from h3]
    exact k fuel n (by omega) (by omega)

theorem constantsLoop_complete (hb : IsGrain b) (hn : ∃ i < 80, b i = true) (hs : (size + 7) / 8 = 32) {P Q : ℕ}
    {fs : List F} (h : DrawnAll b size (acceptLE conv) P fs Q) : ∀ p, P = p + 80 → ∃ q f0, Q = q + 80 ∧
      ∀ fuel, f0 ≤ fuel → constantsLoop conv fuel size fs.length (window b p) = some (fs, window b q) := by
  induction h with
  | nil P => rintro p rfl; exact ⟨p, 0, rfl, fun _ _ => rfl⟩
  | cons h1 _ ih =>
    rintro p rfl
    obtain ⟨q, f0, rfl, k1⟩ := drawLoop_complete hb hn hs h1 p rfl
    obtain ⟨q', f1, rfl, k2⟩ := ih q rfl
    refine ⟨q', max f0 f1, rfl, fun fuel hf => ?_⟩
    rw [List.length_cons]
    unfold constantsLoop
    rw [k1 fuel fuel (by omega) (by omega)]
    simp only [Option.bind_eq_bind, Option.bind_some]
    rw [k2 fuel (by omega)]
    rfl

end constants

/-- Every state of 80 bits is the beginning of a sequence of the register. -/
theorem exists_stream (s : List Bool) (hs : s.length = 80) : ∃ b, IsGrain b ∧ window b 0 = s := by
  let st : ℕ → List Bool := fun i => skipBits i s
  have hst : ∀ n (s : List Bool), skipBits (n + 1) s = (generateNewBit (skipBits n s)).2 := by
    intro n
    induction n with
    | zero => intro s; rfl
    | succ n ih => intro s; rw [skipBits, ih]; rfl
  have hlen : ∀ i, (st i).length = 80 := by
    intro i
    induction i with
    | zero => exact hs
    | succ i ih =>
      show (skipBits (i + 1) s).length = 80
      rw [hst]
      have : (skipBits i s).length = 80 := ih
      simp [generateNewBit, this]
  have hsh : ∀ i j, j < 79 → (st (i + 1)).getD j false = (st i).getD (j + 1) false := by
    intro i j hj
    have h1 := hlen i
    show (skipBits (i + 1) s).getD j false = _
    rw [hst]
    show ((st i).tail ++ [_]).getD j false = _
    simp only [List.getD_eq_getElem?_getD]
    rw [List.getElem?_append_left (by simp [h1]; omega)]
    simp
  let b : ℕ → Bool := fun i => (st i).getD 0 false
  have hb : ∀ j i, j < 80 → (st i).getD j false = b (i + j) := by
    intro j
    induction j with
    | zero => intro i _; rfl
    | succ j ih =>
      intro i hj
      rw [← hsh i j (by omega), ih (i + 1) (by omega), show i + 1 + j = i + (j + 1) by omega]
  refine ⟨b, ?_, ?_⟩
  · intro i
    have h80 : b (i + 80) = (generateNewBit (st i)).1 := by
      rw [show i + 80 = i + 1 + 79 by omega, ← hb 79 (i + 1) (by omega)]
      show (skipBits (i + 1) s).getD 79 false = _
      rw [hst]
      show ((st i).tail ++ [_]).getD 79 false = _
      have h1 := hlen i
      simp only [List.getD_eq_getElem?_getD]
      rw [List.getElem?_append_right (by simp [h1]), List.length_tail, h1]
      rfl
    rw [h80]
    unfold generateNewBit grainBit
    simp only
    rw [hb 62 i (by omega), hb 51 i (by omega), hb 38 i (by omega), hb 23 i (by omega), hb 13 i (by omega),
      hb 0 i (by omega)]
    simp only [Nat.add_zero, Bool.xor_assoc]
  · apply List.ext_getElem
    · rw [window_length, hs]
    · intro i h1 h2
      have : i < 80 := by rwa [window_length] at h1
      have e := hb i 0 this
      rw [Nat.zero_add] at e
      simp only [window, List.getElem_map, List.getElem_range, Nat.zero_add]
      rw [← e]
      show s.getD i false = _
      simp [List.getD_eq_getElem?_getD, h2]

end VO.Poseidon
