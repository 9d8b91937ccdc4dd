import Mathlib.Tactic.Ring
import Mathlib.Tactic.NormNum
import Verif.Model.Serialize

/-
Property theorems C46: serialization round trips
(`/repo/voproof/src/kzg/data_structures.rs:71-114, 153-201`).
-/

namespace VO

namespace Spec

/-- The reader returns what was written and leaves the rest of the input. -/
def Lawful {α : Type} (c : Codec α) : Prop := ∀ a rest, c.dec (c.enc a ++ rest) = some (a, rest)

/-- The declared size is the number of bytes written. -/
def SizeOk {α : Type} (c : Codec α) : Prop := ∀ a, (c.enc a).length = c.size a

end Spec

open Spec

theorem decU64_encU64 (n : ℕ) (hn : n < 2 ^ 64) (rest : List UInt8) :
    decU64 (encU64 n ++ rest) = some (n, rest) := by
  have hl : (encU64 n).length = 8 := by simp [encU64]
  unfold decU64
  rw [if_neg (by simp [hl])]
  have ht : (encU64 n ++ rest).take 8 = encU64 n := by
    rw [List.take_append_of_le_length (by omega), List.take_of_length_le (by omega)]
  have hd : (encU64 n ++ rest).drop 8 = rest := by
    rw [← hl, List.drop_left]
  rw [ht, hd]
  have : (encU64 n).foldr (fun x acc => x.toNat + 256 * acc) 0 = n := by
    have hr : List.range 8 = [0, 1, 2, 3, 4, 5, 6, 7] := by decide
    unfold encU64
    rw [hr]
    simp only [List.map_cons, List.map_nil, List.foldr_cons, List.foldr_nil, UInt8.toNat_ofNat']
    norm_num
    omega
  rw [this]

theorem decMany_flatMap {α : Type} (c : Codec α) (hc : Lawful c) (l : List α) (rest : List UInt8) :
    decMany c l.length (l.flatMap c.enc ++ rest) = some (l, rest) := by
  induction l with
  | nil => rfl
  | cons a l ih =>
    rw [List.length_cons, decMany, List.flatMap_cons, List.append_assoc, hc]
    simp only [Option.bind_eq_bind, Option.bind_some, ih]
    rfl

theorem vecCodec_lawful {α : Type} (c : Codec α) (hc : Lawful c) (l : List α)
    (hl : l.length < 2 ^ 64) (rest : List UInt8) :
    (vecCodec c).dec ((vecCodec c).enc l ++ rest) = some (l, rest) := by
  simp only [vecCodec, List.append_assoc, decU64_encU64 _ hl, Option.bind_eq_bind, Option.bind_some]
  exact decMany_flatMap c hc l rest

variable {G1 G2 : Type}

/-- **C46.** Deserializing serialized universal parameters of any size returns the same parameters,
prepared points included (they are recomputed), and consumes exactly what was written. -/
theorem C46_params_roundtrip (c1 : Codec G1) (c2 : Codec G2) (h1 : Lawful c1) (h2 : Lawful c2)
    (pp : UniversalParams G1 G2) (hlen : pp.powersOfG.length < 2 ^ 64)
    (hp : pp.preparedH = pp.h) (hpb : pp.preparedBetaH = pp.betaH) (rest : List UInt8) :
    decParams c1 c2 (encParams c1 c2 pp ++ rest) = some (pp, rest) := by
  obtain ⟨pw, h, bh, ph, pbh⟩ := pp
  simp only at hp hpb hlen
  subst hp hpb
  simp only [decParams, encParams, List.append_assoc, vecCodec_lawful c1 h1 pw hlen,
    Option.bind_eq_bind, Option.bind_some, h2 _ _]
  rfl

/-- **C46.** In particular for the output of `setup`. -/
theorem C46_setup_roundtrip {F : Type} [Field F] [DecidableEq F] [AddCommGroup G1] [Module F G1]
    [AddCommGroup G2] [Module F G2] (c1 : Codec G1) (c2 : Codec G2) (h1 : Lawful c1)
    (h2 : Lawful c2) (D : ℕ) (hD : D + 1 < 2 ^ 64) (β : F) (g : G1) (h : G2)
    (pp : UniversalParams G1 G2) (hs : kzgSetup D β g h = .ok pp) (rest : List UInt8) :
    decParams c1 c2 (encParams c1 c2 pp ++ rest) = some (pp, rest) := by
  unfold kzgSetup at hs
  split_ifs at hs with h0
  obtain rfl := Except.ok.inj hs
  apply C46_params_roundtrip c1 c2 h1 h2
  · have : ∀ n (c : F), (powersGo β n c).length = n := by
      intro n
      induction n with
      | zero => intro c; rfl
      | succ n ih => intro c; simp [powersGo, ih]
    simpa [this] using hD
  · rfl
  · rfl

/-- **C46.** The same for verifier keys. -/
theorem C46_vk_roundtrip (c1 : Codec G1) (c2 : Codec G2) (h1 : Lawful c1) (h2 : Lawful c2)
    (vk : VerifierKey G1 G2) (hp : vk.preparedH = vk.h) (hpb : vk.preparedBetaH = vk.betaH)
    (rest : List UInt8) : decVk c1 c2 (encVk c1 c2 vk ++ rest) = some (vk, rest) := by
  obtain ⟨g, h, bh, ph, pbh⟩ := vk
  simp only at hp hpb
  subst hp hpb
  simp only [decVk, encVk, List.append_assoc, Option.bind_eq_bind, Option.bind_some, h1 _ _, h2 _ _]
  rfl

/-- **C46.** The declared serialized sizes are the numbers of bytes written. -/
theorem C46_sizes (c1 : Codec G1) (c2 : Codec G2) (h1 : SizeOk c1) (h2 : SizeOk c2)
    (pp : UniversalParams G1 G2) (vk : VerifierKey G1 G2) :
    (encParams c1 c2 pp).length = sizeParams c1 c2 pp ∧ (encVk c1 c2 vk).length = sizeVk c1 c2 vk := by
  have hv : ∀ l : List G1, ((vecCodec c1).enc l).length = (vecCodec c1).size l := by
    intro l
    have hfun : (fun a => (c1.enc a).length) = c1.size := funext h1
    simp [vecCodec, encU64, List.length_flatMap, hfun]
  constructor
  · simp only [encParams, sizeParams, List.length_append, hv, h2 _]
  · simp only [encVk, sizeVk, List.length_append, h1 _, h2 _]

/-- One-byte elements form a lawful codec. -/
def byteCodec : Codec UInt8 where
  enc b := [b]
  dec l := match l with
    | [] => none
    | b :: l => some (b, l)
  size _ := 1

example : Lawful byteCodec ∧ SizeOk byteCodec := ⟨fun _ _ => rfl, fun _ => rfl⟩

example : decParams byteCodec byteCodec
    (encParams byteCodec byteCodec ⟨[1, 2, 3], 7, 8, 7, 8⟩) = some (⟨[1, 2, 3], 7, 8, 7, 8⟩, []) := by
  decide +kernel

end VO
