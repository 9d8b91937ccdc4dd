import Mathlib.Data.Nat.Notation
import Mathlib.Data.List.OfFn

/-
The generator of round constants as the Poseidon paper describes it: a shift register of 80 bits in
self-shrinking mode, and integers drawn from its output until they are accepted.
-/

namespace VO.Spec.Poseidon

/-- The sequence of bits of the shift register. -/
def IsGrain (b : ℕ → Bool) : Prop :=
  ∀ i, b (i + 80) = (b (i + 62) ^^ b (i + 51) ^^ b (i + 38) ^^ b (i + 23) ^^ b (i + 13) ^^ b i)

/-- Self-shrinking from position `p` on: bits are looked at in pairs; the second bit of a pair is the next bit
of the output when the first one is 1, and both are dropped when it is 0. Behind the output `l` the generator
is at position `q`. -/
inductive Shrunk (b : ℕ → Bool) : ℕ → List Bool → ℕ → Prop
  | done (p : ℕ) : Shrunk b p [] p
  | next (p k : ℕ) {l : List Bool} {q : ℕ} : (∀ j < k, b (p + 2 * j) = false) → b (p + 2 * k) = true →
      Shrunk b (p + 2 * k + 2) l q → Shrunk b p (b (p + 2 * k + 1) :: l) q

/-- The integer with these bits, the most significant first. -/
def ofBits (l : List Bool) : ℕ := l.foldl (fun n x => 2 * n + x.toNat) 0

/-- The bytes of an integer, the least significant first. -/
def bytesLE (k n : ℕ) : List ℕ := (List.range k).map fun i => n / 256 ^ i % 256

/-- One constant: integers of `size` bits are drawn until one is accepted. -/
inductive Drawn {F : Type} (b : ℕ → Bool) (size : ℕ) (accept : ℕ → Option F) : ℕ → F → ℕ → Prop
  | yes {p q : ℕ} {l : List Bool} {f : F} : Shrunk b p l q → l.length = size → accept (ofBits l) = some f →
      Drawn b size accept p f q
  | no {p q r : ℕ} {l : List Bool} {f : F} : Shrunk b p l q → l.length = size → accept (ofBits l) = none →
      Drawn b size accept q f r → Drawn b size accept p f r

/-- Several constants. -/
inductive DrawnAll {F : Type} (b : ℕ → Bool) (size : ℕ) (accept : ℕ → Option F) : ℕ → List F → ℕ → Prop
  | nil (p : ℕ) : DrawnAll b size accept p [] p
  | cons {p q r : ℕ} {f : F} {fs : List F} : Drawn b size accept p f q → DrawnAll b size accept q fs r →
      DrawnAll b size accept p (f :: fs) r

/-- The bits of a number, the most significant of the `n` lowest first. -/
def bitsBE (n v : ℕ) : List Bool := List.ofFn fun i : Fin n => v.testBit (n - 1 - i)

/-- The initial state: field (2 bits), S-box (4), size of the field (12), width (12), full rounds (10),
partial rounds (10), thirty ones. -/
def initialState (field sbox size t rf rp : ℕ) : List Bool :=
  bitsBE 2 field ++ bitsBE 4 sbox ++ bitsBE 12 size ++ bitsBE 12 t ++ bitsBE 10 rf ++ bitsBE 10 rp ++
    List.replicate 30 true

end VO.Spec.Poseidon
