import Verif.Model.Tools
import Verif.Model.PlonkWidgets

/-
Model of `/repo/plonk-core/src/permutation/mod.rs` (everything but the unused
`compute_slow_permutation_poly` and `compute_fast_permutation_poly`) and of the evaluation domains
it uses.

`variable_map` is a `HashMap`; its iteration order is arbitrary. The model iterates over a list of
entries; the theorems hold for every order.
-/

namespace VO.Plonk

variable {F : Type} [Field F] [DecidableEq F]

/-- `GeneralEvaluationDomain` (ark-poly, radix 2): its size and its generator. -/
structure Dom (F : Type) where
  size : ℕ
  omega : F

/-- `GeneralEvaluationDomain::new(k)`: the next power of two, `None` beyond the 2-adicity. -/
def Dom.new (fft : FftParams F) (k : ℕ) : Option (Dom F) :=
  if Nat.clog 2 k ≤ fft.twoAdicity then some ⟨2 ^ Nat.clog 2 k, fft.root (Nat.clog 2 k)⟩ else none

/-- `domain.elements().collect()`. -/
def Dom.elements (D : Dom F) : List F := (List.range D.size).map fun i => D.omega ^ i

/-- `domain.fft(poly)` for polynomials of degree below the size. -/
def Dom.fft (D : Dom F) (p : List F) : List F := dft D.omega D.size p

/-- `DensePolynomial::from_coefficients_vec(domain.ifft(values))` for `size` values. -/
def Dom.ifft (D : Dom F) (e : List F) : List F := idft D.omega D.size e

/-- `sigmas: [Vec<WireData>; 4]`, permutation/mod.rs:102-107. -/
structure Sigmas where
  s1 : List WireData
  s2 : List WireData
  s3 : List WireData
  s4 : List WireData
  deriving DecidableEq, Repr

/-- The initial vectors, permutation/mod.rs:102-107. -/
def identitySigmas (n : ℕ) : Sigmas :=
  ⟨(List.range n).map .left, (List.range n).map .right, (List.range n).map .output,
   (List.range n).map .fourth⟩

/-- `sigmas[k][index] = next_wire`, permutation/mod.rs:123-129. -/
def setWire (s : Sigmas) (cur next : WireData) : Except Err Sigmas :=
  match cur with
  | .left i => if i < s.s1.length then .ok { s with s1 := s.s1.set i next } else .error .panic
  | .right i => if i < s.s2.length then .ok { s with s2 := s.s2.set i next } else .error .panic
  | .output i => if i < s.s3.length then .ok { s with s3 := s.s3.set i next } else .error .panic
  | .fourth i => if i < s.s4.length then .ok { s with s4 := s.s4.set i next } else .error .panic

/-- The pairs (current wire, next wire) of one variable, permutation/mod.rs:110-120. -/
def cyclePairs (ws : List WireData) : List (WireData × WireData) :=
  ws.zipIdx.map fun e => (e.1, ws.getD (if e.2 = ws.length - 1 then 0 else e.2 + 1) e.1)

/-- `compute_sigma_permutations`, permutation/mod.rs:101-133; `entries` is the order in which the
hash map is iterated. -/
def computeSigmaPermutations (entries : List (List WireData)) (n : ℕ) : Except Err Sigmas :=
  (entries.flatMap cyclePairs).foldlM (fun s p => setWire s p.1 p.2) (identitySigmas n)

/-- `compute_permutation_lagrange`, permutation/mod.rs:136-166. -/
def computePermutationLagrange (sigma : List WireData) (D : Dom F) : Except Err (List F) :=
  sigma.mapM fun x =>
    match x with
    | .left i => (D.elements[i]?).elim (.error .panic) fun r => .ok r
    | .right i => (D.elements[i]?).elim (.error .panic) fun r => .ok (K1 * r)
    | .output i => (D.elements[i]?).elim (.error .panic) fun r => .ok (K2 * r)
    | .fourth i => (D.elements[i]?).elim (.error .panic) fun r => .ok (K3 * r)

/-- Four polynomials (or vectors), one per wire. -/
structure Quad (F : Type) where
  p1 : List F
  p2 : List F
  p3 : List F
  p4 : List F
  deriving DecidableEq

/-- `compute_sigma_polynomials`, permutation/mod.rs:170-207. -/
def computeSigmaPolynomials (entries : List (List WireData)) (n : ℕ) (D : Dom F) :
    Except Err (Quad F) := do
  let s ← computeSigmaPermutations entries n
  assertR (s.s1.length = n)
  assertR (s.s2.length = n)
  assertR (s.s3.length = n)
  assertR (s.s4.length = n)
  let l1 ← computePermutationLagrange s.s1 D
  let l2 ← computePermutationLagrange s.s2 D
  let l3 ← computePermutationLagrange s.s3 D
  let l4 ← computePermutationLagrange s.s4 D
  return ⟨D.ifft l1, D.ifft l2, D.ifft l3, D.ifft l4⟩

/-- `numerator_irreducible`, permutation/mod.rs:609-611. -/
def numIrr (root w k beta gamma : F) : F := w + beta * k * root + gamma

/-- `denominator_irreducible`, permutation/mod.rs:613-615. -/
def denIrr (w sigma beta gamma : F) : F := w + beta * sigma + gamma

/-- `izip!` of four vectors. -/
def zip4 (q : Quad F) : List (F × F × F × F) := q.p1.zip (q.p2.zip (q.p3.zip q.p4))

/-- `state = 1; push; for s { state *= s; push }`, permutation/mod.rs:698-709 and 746-752. -/
def runProduct (l : List F) : List F := 1 :: scanAcc (· * ·) 1 l

/-- The ratio of one gate, permutation/mod.rs:662-694. -/
def permRatio (beta gamma : F) (e : F × (F × F × F × F) × (F × F × F × F)) : Except Err F :=
  let num := numIrr e.1 e.2.2.1 1 beta gamma * numIrr e.1 e.2.2.2.1 K1 beta gamma
    * numIrr e.1 e.2.2.2.2.1 K2 beta gamma * numIrr e.1 e.2.2.2.2.2 K3 beta gamma
  let den := denIrr e.2.2.1 e.2.1.1 beta gamma * denIrr e.2.2.2.1 e.2.1.2.1 beta gamma
    * denIrr e.2.2.2.2.1 e.2.1.2.2.1 beta gamma * denIrr e.2.2.2.2.2 e.2.1.2.2.2 beta gamma
  if den = 0 then .error .panic else .ok (num * den⁻¹)

/-- `compute_permutation_poly`, permutation/mod.rs:620-718. The wires are slices; `remove(n)`
panics when there are fewer than `n` of them. -/
def computePermutationPoly (D : Dom F) (wires : Quad F) (beta gamma : F) (sigma : Quad F) :
    Except Err (List F) := do
  let sm : Quad F := ⟨D.fft sigma.p1, D.fft sigma.p2, D.fft sigma.p3, D.fft sigma.p4⟩
  let args ← (D.elements.zip ((zip4 sm).zip (zip4 wires))).mapM (permRatio beta gamma)
  let z := runProduct args
  assertR (D.size < z.length)
  let z := z.eraseIdx D.size
  assertR (z.length = D.size)
  return D.ifft z

/-- `lookup_ratio`, permutation/mod.rs:767-789. -/
def lookupRatio (delta epsilon f t tNext h1 h1Next h2 : F) : Except Err F :=
  let oneDelta := 1 + delta
  let epsOneDelta := epsilon * oneDelta
  let den := (epsOneDelta + h1 + h2 * delta) * (epsOneDelta + h2 + h1Next * delta)
  if den = 0 then .error .panic
  else .ok (oneDelta * (epsilon + f) * (epsOneDelta + t + delta * tNext) * den⁻¹)

/-- `[&t[1..], &[t[0]]].concat()`, permutation/mod.rs:733-734 (`t[0]` panics on an empty slice). -/
def rotate1 (t : List F) : Except Err (List F) :=
  match t with
  | [] => .error .panic
  | a :: l => .ok (l ++ [a])

/-- `compute_lookup_permutation_poly`, permutation/mod.rs:720-765. -/
def computeLookupPermutationPoly (D : Dom F) (f t h1 h2 : List F) (delta epsilon : F) :
    Except Err (List F) := do
  assertR (f.length = D.size)
  assertR (t.length = D.size)
  assertR (h1.length = D.size)
  assertR (h2.length = D.size)
  let tNext ← rotate1 t
  let h1Next ← rotate1 h1
  let args ← (f.zip (t.zip (tNext.zip (h1.zip (h1Next.zip h2))))).mapM fun e =>
    lookupRatio delta epsilon e.1 e.2.1 e.2.2.1 e.2.2.2.1 e.2.2.2.2.1 e.2.2.2.2.2
  let p := (runProduct args).dropLast
  assertR (p.length = D.size)
  return D.ifft p

end VO.Plonk
