import Verif.Model.PoseidonMds
import Verif.Model.PlonkCs

/-
Model of `/repo/plonk-hashing/src/poseidon/poseidon_ref.rs` and `zprize_constraints.rs`. The trait
`PoseidonRefSpec` is a structure of functions in a monad: `Res` for the native hash, the composer monad
for the circuits. The array `[Field; WIDTH]` is a list; its length is the width.
-/

namespace VO.Poseidon

open VO.Plonk

/-- `PoseidonConstants`, constants.rs:10-21. -/
structure Constants (F : Type) where
  mds : Mds F
  roundConstants : List F
  compressed : List F
  preSparse : Mat F
  sparse : List (Sparse F)
  domainTag : F
  fullRounds : ℕ
  halfFullRounds : ℕ
  partialRounds : ℕ
  deriving DecidableEq

/-- The primitive functions of `PoseidonRefSpec`, poseidon_ref.rs:117-126, and what a failed index does. -/
structure Prim (m : Type → Type) (V F : Type) where
  fail : {α : Type} → m α
  alloc : F → m V
  zeros : ℕ → m (List V)
  add : V → V → m V
  addi : V → F → m V
  mul : V → V → m V
  muli : V → F → m V

section generic

variable {m : Type → Type} [Monad m] {V F : Type} (S : Prim m V F)

/-- Indexing of an array or vector. -/
def idx {α : Type} (l : List α) (i : ℕ) : m α :=
  match l[i]? with
  | some x => pure x
  | none => S.fail

/-- `zero`, poseidon_ref.rs:119-121. -/
def zeroS : m V := do
  let z ← S.zeros 1
  idx S z 0

/-- `power_of_5`, poseidon_ref.rs:111-115. -/
def powerOf5 (x : V) : m V := do
  let t ← S.mul x x
  let t ← S.mul t t
  S.mul t x

/-- `quintic_s_box`, poseidon_ref.rs:94-109. -/
def quinticSBox (x : V) (pre post : Option F) : m V := do
  let t ← match pre with
    | some a => S.addi x a
    | none => pure x
  let t ← powerOf5 S t
  match post with
  | some a => S.addi t a
  | none => pure t

/-- The S-box layer of `full_round`, poseidon_ref.rs:33-35: elements without a round constant are left as
they are, without S-box. -/
def sboxZip : List V → List F → m (List V)
  | x :: xs, c :: cs => do
    let y ← quinticSBox S x (some c) none
    let ys ← sboxZip xs cs
    pure (y :: ys)
  | xs, _ => pure xs

/-- The inner loop of `product_mds`, poseidon_ref.rs:84-88: the rows from the `i`-th on. -/
def mdsEntry (state : List V) (j : ℕ) : ℕ → List (List F) → V → m V
  | _, [], val => pure val
  | i, row :: rest, val => do
    let s ← idx S state i
    let r ← idx S row j
    let tmp ← S.muli s r
    let val ← S.add val tmp
    mdsEntry state j (i + 1) rest val

/-- The outer loop of `product_mds`, poseidon_ref.rs:83-89. -/
def mdsLoop (matrix : List (List F)) (state : List V) : ℕ → List V → m (List V)
  | _, [] => pure []
  | j, val :: rest => do
    let v ← mdsEntry S state j 0 matrix val
    let vs ← mdsLoop matrix state (j + 1) rest
    pure (v :: vs)

/-- `product_mds`, poseidon_ref.rs:76-91. -/
def productMds (k : Constants F) (state : List V) : m (List V) := do
  let result ← S.zeros state.length
  mdsLoop S k.mds.m state 0 result

/-- `full_round`, poseidon_ref.rs:21-40: the new offset and state. -/
def fullRound (k : Constants F) (offset : ℕ) (state : List V) : m (ℕ × List V) := do
  let st ← sboxZip S state (k.roundConstants.drop offset)
  let st ← productMds S k st
  pure (offset + state.length, st)

/-- `add_round_constants`, poseidon_ref.rs:59-74. -/
def addRoundConstants : List V → List F → m (List V)
  | x :: xs, c :: cs => do
    let y ← S.addi x c
    let ys ← addRoundConstants xs cs
    pure (y :: ys)
  | xs, _ => pure xs

/-- `partial_round`, poseidon_ref.rs:42-57. -/
def partialRound (k : Constants F) (offset : ℕ) (state : List V) : m (ℕ × List V) := do
  let st ← addRoundConstants S state (k.roundConstants.drop offset)
  match st with
  | [] => S.fail
  | x :: xs => do
    let y ← quinticSBox S x none none
    let st ← productMds S k (y :: xs)
    pure (offset + state.length, st)

/-- `PoseidonRef`, poseidon_ref.rs:130-140, and `PoseidonZZRef`, zprize_constraints.rs:22-31.
`current_round` is never read. -/
structure Hasher (V F : Type) where
  offset : ℕ
  elements : List V
  pos : ℕ
  constants : Constants F

/-- `PoseidonRef::new`, poseidon_ref.rs:142-152. -/
def hasherNew (width : ℕ) (k : Constants F) : m (Hasher V F) := do
  let e ← S.zeros width
  let t ← S.alloc k.domainTag
  if width = 0 then S.fail
  else pure ⟨0, e.set 0 t, 1, k⟩

/-- The loop over `elements[1..]` in `reset`, poseidon_ref.rs:161. -/
def resetLoop : List V → m (List V)
  | [] => pure []
  | _ :: xs => do
    let z ← zeroS S
    let zs ← resetLoop xs
    pure (z :: zs)

/-- `reset`, poseidon_ref.rs:158-164. -/
def hasherReset (h : Hasher V F) : m (Hasher V F) :=
  match h.elements with
  | [] => S.fail
  | _ :: xs => do
    let zs ← resetLoop S xs
    let t ← S.alloc h.constants.domainTag
    pure ⟨0, t :: zs, 1, h.constants⟩

/-- `input`, poseidon_ref.rs:168-179: the position and the new state, or `none` for `FullBuffer`. -/
def hasherInput (h : Hasher V F) (x : V) : Option (ℕ × Hasher V F) :=
  if h.elements.length ≤ h.pos then none
  else some (h.pos, { h with elements := h.elements.set h.pos x, pos := h.pos + 1 })

/-- The same round `n` times. -/
def repeatRound (round : Constants F → ℕ → List V → m (ℕ × List V)) (k : Constants F) :
    ℕ → ℕ → List V → m (ℕ × List V)
  | 0, offset, st => pure (offset, st)
  | n + 1, offset, st => do
    let (o, s) ← round k offset st
    repeatRound round k n o s

/-- `output_hash`, poseidon_ref.rs:182-232 and zprize_constraints.rs:75-119, for given rounds: the hash and
the new state. -/
def outputHashWith (full part : Constants F → ℕ → List V → m (ℕ × List V)) (h : Hasher V F) :
    m (V × Hasher V F) := do
  let k := h.constants
  let (o, s) ← full k h.offset h.elements
  let (o, s) ← repeatRound full k (k.halfFullRounds - 1) o s
  let (o, s) ← part k o s
  let (o, s) ← repeatRound part k (k.partialRounds - 1) o s
  let (o, s) ← repeatRound full k k.halfFullRounds o s
  let r ← idx S s 1
  pure (r, { h with offset := o, elements := s })

/-- `output_hash` of `PoseidonRef`, poseidon_ref.rs:182-232. -/
def outputHash (h : Hasher V F) : m (V × Hasher V F) :=
  outputHashWith S (fullRound S) (partialRound S) h

end generic

variable {F : Type} [Field F] [DecidableEq F]

/-- `NativeSpecRef`, poseidon_ref.rs:236-265. -/
def nativeSpec : Prim Res F F where
  fail := .error .panic
  alloc v := .ok v
  zeros w := .ok (List.replicate w 0)
  add x y := .ok (x + y)
  addi x y := .ok (x + y)
  mul x y := .ok (x * y)
  muli x y := .ok (x * y)

/-- `PlonkSpecRef`, poseidon_ref.rs:272-309. -/
def plonkSpec : Prim (StateT (Composer F) (Except Err)) ℕ F where
  fail := panicC
  alloc v := addInput v
  zeros w := do
    let z ← zeroVar
    pure (List.replicate w z)
  add x y := arithmeticGate { (ArithGate.new : ArithGate F) with
    witness := some (x, y, none), add := (1, 1) }
  addi a b := do
    let zero ← zeroVar
    arithmeticGate { (ArithGate.new : ArithGate F) with
      witness := some (a, zero, none), add := (1, 0), const := b }
  mul x y := arithmeticGate { (ArithGate.new : ArithGate F) with
    witness := some (x, y, none), mul := 1 }
  muli x y := do
    let zero ← zeroVar
    arithmeticGate { (ArithGate.new : ArithGate F) with
      witness := some (x, zero, none), add := (y, 0) }

/-- `full_round` of `PlonkSpecZZ`, zprize_constraints.rs:130-187. -/
def zzFullRound (k : Constants F) (offset : ℕ) (state : List ℕ) : CM F (ℕ × List ℕ) := do
  let S := plonkSpec (F := F)
  let keys := k.roundConstants.drop offset
  let s0 ← idx S state 0
  let s1 ← idx S state 1
  let s2 ← idx S state 2
  let (r0, r1, r2) ← (if offset = 0 then do
      let k0 ← idx S keys 0
      let r0 ← S.addi s0 k0
      let k1 ← idx S keys 1
      let r1 ← S.addi s1 k1
      let k2 ← idx S keys 2
      let r2 ← S.addi s2 k2
      pure (r0, r1, r2)
    else pure (s0, s1, s2))
  let (c0, c1, c2) ← (if keys.length = 3 then pure ((0 : F), (0 : F), (0 : F)) else do
      let c0 ← idx S keys 3
      let c1 ← idx S keys 4
      let c2 ← idx S keys 5
      pure (c0, c1, c2))
  let row0 ← idx S k.mds.m 0
  let m00 ← idx S row0 0
  let m01 ← idx S row0 1
  let m02 ← idx S row0 2
  let t0 ← fullAffineTransformGate r0 r1 r2 m00 m01 m02 c0 (-1)
  let row1 ← idx S k.mds.m 1
  let m10 ← idx S row1 0
  let m11 ← idx S row1 1
  let m12 ← idx S row1 2
  let t1 ← fullAffineTransformGate r0 r1 r2 m10 m11 m12 c1 (-1)
  let row2 ← idx S k.mds.m 2
  let m20 ← idx S row2 0
  let m21 ← idx S row2 1
  let m22 ← idx S row2 2
  let t2 ← fullAffineTransformGate r0 r1 r2 m20 m21 m22 c2 (-1)
  pure (offset + state.length, t0 :: t1 :: t2 :: state.drop 3)

/-- `partial_round` of `PlonkSpecZZ`, zprize_constraints.rs:189-237. -/
def zzPartialRound (k : Constants F) (offset : ℕ) (state : List ℕ) : CM F (ℕ × List ℕ) := do
  let S := plonkSpec (F := F)
  let keys := k.roundConstants.drop offset
  let r0 ← idx S state 0
  let r1 ← idx S state 1
  let r2 ← idx S state 2
  let row0 ← idx S k.mds.m 0
  let m00 ← idx S row0 0
  let m01 ← idx S row0 1
  let m02 ← idx S row0 2
  let c0 ← idx S keys 3
  let t0 ← partialAffineTransformGate r0 r1 r2 m00 m01 m02 c0 (-1)
  let row1 ← idx S k.mds.m 1
  let m10 ← idx S row1 0
  let m11 ← idx S row1 1
  let m12 ← idx S row1 2
  let c1 ← idx S keys 4
  let t1 ← partialAffineTransformGate r0 r1 r2 m10 m11 m12 c1 (-1)
  let row2 ← idx S k.mds.m 2
  let m20 ← idx S row2 0
  let m21 ← idx S row2 1
  let m22 ← idx S row2 2
  let c2 ← idx S keys 5
  let t2 ← partialAffineTransformGate r0 r1 r2 m20 m21 m22 c2 (-1)
  pure (offset + state.length, t0 :: t1 :: t2 :: state.drop 3)

/-- `output_hash` of `PoseidonZZRef` with `PlonkSpecZZ`, zprize_constraints.rs:75-119. -/
def zzOutputHash (h : Hasher ℕ F) : CM F (ℕ × Hasher ℕ F) :=
  outputHashWith (plonkSpec (F := F)) zzFullRound zzPartialRound h

end VO.Poseidon
