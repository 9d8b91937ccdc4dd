import Mathlib.Data.Fin.VecNotation
import Verif.Model.PlonkLookup

/-
Model of `/repo/plonk-core/src/proof_system/`: `preprocess.rs`, `prover.rs`, `quotient_poly.rs`,
`linearisation_poly.rs`, `proof.rs`, `verifier.rs`, `pi.rs` (`as_evals`, `into_dense_poly`), the
linearisation functions of `widget/` and `permutation.rs`, and of
`/repo/plonk-core/src/transcript.rs`, `/repo/plonk-core/src/circuit.rs`.

The polynomial commitment scheme `PC: HomomorphicCommitment` is a parameter, as in the code
(`PCS`). The Merlin transcript is the list of what was put in; a challenge is any function of it.
-/

namespace VO.Plonk

/-- What the code uses of `PC: HomomorphicCommitment` (`commitment.rs:13-22` and ark-poly-commit
`PolynomialCommitment`), the keys and the sponge fixed. Nothing in the code asks for hiding, so
commitments are functions of the polynomial; `open` gets the polynomials, the point and the
combination challenge. -/
structure PCS (F : Type) where
  Comm : Type
  OProof : Type
  commit : List F → Except PErr Comm
  msm : List Comm → List F → Comm
  openAt : List (List F) → F → F → Except PErr OProof
  check : List Comm → F → List F → OProof → F → Except PErr Bool

/-- One operation on the transcript, transcript.rs:14-50: an appended public input, commitment or
scalar, the domain separator, a message of the user (`key_transcript`), or a challenge request. -/
inductive TEntry (F C : Type) where
  | init (label : String)
  | user (label message : String)
  | pi (label : String) (x : List (ℕ × F))
  | comm (label : String) (c : C)
  | scalar (label : String) (x : F)
  | domSep (n : ℕ)
  | chal (label : String)

/-- A Merlin transcript: the operations so far. -/
abbrev Transcript (F C : Type) := List (TEntry F C)

/-- `challenge_scalar`, transcript.rs:34-44, for a hash `ro`: the challenge depends on everything
before and on the label. `from_random_bytes` gets fewer bits than the modulus has and cannot
fail. -/
def challenge {F C : Type} (ro : Transcript F C → F) (tr : Transcript F C) (label : String) :
    F × Transcript F C :=
  (ro (tr ++ [.chal label]), tr ++ [.chal label])

variable {F : Type} [Field F] [DecidableEq F]

/-- The scalar field: its domains and `F::multiplicative_generator()`. -/
structure PField (F : Type) where
  fft : FftParams F
  gen : F

/-- `GeneralEvaluationDomain::new(k).ok_or(InvalidEvalDomainSize)`. -/
def newDom (K : PField F) (k : ℕ) : Except PErr (Dom F) :=
  match Dom.new K.fft k with
  | some D => .ok D
  | none => .error .invalidEvalDomainSize

/-- `domain.coset_fft(poly)` for polynomials of degree below the size. -/
def cosetFft (K : PField F) (D : Dom F) (p : List F) : List F :=
  (List.range D.size).map fun i => polyEval p (K.gen * D.omega ^ i)

/-- `DensePolynomial::from_coefficients_vec(domain.coset_ifft(values))`. -/
def cosetIfft (K : PField F) (D : Dom F) (e : List F) : List F :=
  polyFromVec ((D.ifft e).mapIdx fun i x => x * (K.gen ^ i)⁻¹)

/-- `domain.evaluate_vanishing_polynomial(x)`. -/
def vanishAt (D : Dom F) (x : F) : F := x ^ D.size - 1

/-- Apply a function to every component of a `Gate`. -/
def Gate.map {α β : Type} (f : α → β) (g : Gate α) : Gate β :=
  ⟨f g.m, f g.l, f g.r, f g.o, f g.q4, f g.c, f g.hl, f g.hr, f g.h4, f g.arith, f g.range,
   f g.logic, f g.fixed, f g.var, f g.lookup⟩

/-! ### `pi.rs` -/

/-- `as_evals`, pi.rs:103-108: panics when `n` is not a power of two or a position does not fit. -/
def asEvals (pi : List (ℕ × F)) (n : ℕ) : Res (List F) := do
  assertR (2 ^ Nat.log 2 n = n)
  pi.foldlM (fun (l : List F) e => do assertR (e.1 < l.length); return l.set e.1 e.2)
    (List.replicate n 0)

/-- `into_dense_poly`, pi.rs:112-116. -/
def piPoly (K : PField F) (pi : List (ℕ × F)) (n : ℕ) : Except PErr (List F) := do
  match Dom.new K.fft n with
  | none => .error .panic
  | some D => do
    let e ← liftP (asEvals pi n)
    return D.ifft e

/-! ### `preprocess.rs` -/

/-- `pad`, preprocess.rs:65-98. -/
def padComposer (c : Composer F) (diff : ℕ) : Composer F :=
  let zs := List.replicate diff (0 : F)
  let vs := List.replicate diff c.zero_var
  { c with
    q_m := c.q_m ++ zs, q_l := c.q_l ++ zs, q_r := c.q_r ++ zs, q_o := c.q_o ++ zs,
    q_c := c.q_c ++ zs, q_4 := c.q_4 ++ zs, q_hl := c.q_hl ++ zs, q_hr := c.q_hr ++ zs,
    q_h4 := c.q_h4 ++ zs, q_arith := c.q_arith ++ zs, q_range := c.q_range ++ zs,
    q_logic := c.q_logic ++ zs, q_lookup := c.q_lookup ++ zs,
    q_fixed_group_add := c.q_fixed_group_add ++ zs,
    q_variable_group_add := c.q_variable_group_add ++ zs,
    w_l := c.w_l ++ vs, w_r := c.w_r ++ vs, w_o := c.w_o ++ vs, w_4 := c.w_4 ++ vs,
    n := c.n + diff }

/-- `check_poly_same_len`, preprocess.rs:102-154. -/
def polySameLen (c : Composer F) : Bool :=
  let k := c.q_m.length
  c.q_o.length == k && c.q_l.length == k && c.q_r.length == k && c.q_c.length == k
    && c.q_4.length == k && c.q_hl.length == k && c.q_hr.length == k && c.q_h4.length == k
    && c.q_arith.length == k && c.q_range.length == k && c.q_logic.length == k
    && c.q_lookup.length == k && c.q_fixed_group_add.length == k
    && c.q_variable_group_add.length == k && c.w_l.length == k && c.w_r.length == k
    && c.w_o.length == k && c.w_4.length == k

/-- `VerifierKey`, widget/mod.rs:145-174: size, commitments to the selectors, to the four sigma
polynomials and to the four table columns. -/
structure VKey (P : PCS F) where
  n : ℕ
  sel : Gate P.Comm
  sig : WitVals P.Comm
  tab : WitVals P.Comm

/-- `ProverKey`, widget/mod.rs:301-336: polynomials and their values on the coset of size `8n`;
`linE` are the values of `X`, `vH` those of the vanishing polynomial; `tab` the table columns. -/
structure PKey (F : Type) where
  n : ℕ
  sel : Gate (List F)
  selE : Gate (List F)
  sig : Quad F
  sigE : Quad F
  linE : List F
  vH : List F
  tab : Quad F

/-- `seed_transcript`, widget/mod.rs:258-287. -/
def seedTranscript {P : PCS F} (vk : VKey P) (tr : Transcript F P.Comm) : Transcript F P.Comm :=
  tr ++ [.comm "q_m" vk.sel.m, .comm "q_l" vk.sel.l, .comm "q_r" vk.sel.r, .comm "q_o" vk.sel.o,
    .comm "q_c" vk.sel.c, .comm "q_4" vk.sel.q4, .comm "q_hl" vk.sel.hl, .comm "q_hr" vk.sel.hr,
    .comm "q_h4" vk.sel.h4, .comm "q_arith" vk.sel.arith, .comm "q_range" vk.sel.range,
    .comm "q_logic" vk.sel.logic, .comm "q_variable_group_add" vk.sel.var,
    .comm "q_fixed_group_add" vk.sel.fixed, .comm "left_sigma" vk.sig.a,
    .comm "right_sigma" vk.sig.b, .comm "out_sigma" vk.sig.c, .comm "fourth_sigma" vk.sig.d,
    .domSep vk.n]

/-- The selector polynomials, preprocess.rs:327-370. -/
def selectorPolys (D : Dom F) (c : Composer F) : Gate (List F) where
  m := D.ifft c.q_m
  l := D.ifft c.q_l
  r := D.ifft c.q_r
  o := D.ifft c.q_o
  q4 := D.ifft c.q_4
  c := D.ifft c.q_c
  hl := D.ifft c.q_hl
  hr := D.ifft c.q_hr
  h4 := D.ifft c.q_h4
  arith := D.ifft c.q_arith
  range := D.ifft c.q_range
  logic := D.ifft c.q_logic
  fixed := D.ifft c.q_fixed_group_add
  var := D.ifft c.q_variable_group_add
  lookup := D.ifft c.q_lookup

/-- `PC::commit(…).map_err(to_pc_error)` of a record of polynomials; commitments in the order of
preprocess.rs:376-429 (the order matters only for which error is returned). -/
def commitGate (P : PCS F) (g : Gate (List F)) : Except PErr (Gate P.Comm) := do
  let m ← P.commit g.m
  let l ← P.commit g.l
  let r ← P.commit g.r
  let o ← P.commit g.o
  let q4 ← P.commit g.q4
  let c ← P.commit g.c
  let hl ← P.commit g.hl
  let hr ← P.commit g.hr
  let h4 ← P.commit g.h4
  let arith ← P.commit g.arith
  let range ← P.commit g.range
  let logic ← P.commit g.logic
  let lookup ← P.commit g.lookup
  let fixed ← P.commit g.fixed
  let var ← P.commit g.var
  return ⟨m, l, r, o, q4, c, hl, hr, h4, arith, range, logic, fixed, var, lookup⟩

/-- The same for four polynomials. -/
def commitQuad (P : PCS F) (q : Quad F) : Except PErr (WitVals P.Comm) := do
  let a ← P.commit q.p1
  let b ← P.commit q.p2
  let c ← P.commit q.p3
  let d ← P.commit q.p4
  return ⟨a, b, c, d⟩

/-- `preprocess_shared`, preprocess.rs:289-457. Returns the padded composer, the verifier key, the
polynomials, the table columns and the seeded transcript. The `unwrap` of the preprocessed table
(preprocess.rs:314-319) turns a commitment error into a panic. -/
def preprocessShared (K : PField F) (P : PCS F) (c : Composer F) (tr : Transcript F P.Comm) :
    Except PErr (Composer F × VKey P × Gate (List F) × Quad F × Dom F × Quad F
      × Transcript F P.Comm) := do
  let D ← newDom K (circuitBound c)
  let cols ← liftP (preprocessTable c.lookup_table D.size)
  let tab : Quad F := ⟨cols.getD 0 [], cols.getD 1 [], cols.getD 2 [], cols.getD 3 []⟩
  let tabC ← liftP (unwrapP (commitQuad P ⟨D.ifft tab.p1, D.ifft tab.p2, D.ifft tab.p3,
    D.ifft tab.p4⟩))
  if !polySameLen c then .error .mismatchedPolyLen
  let c := padComposer c (D.size - c.n)
  let sel := selectorPolys D c
  let sig ← liftP (computeSigmaPolynomials c.perm c.n D)
  let selC ← commitGate P sel
  let sigC ← commitQuad P sig
  let vk : VKey P := ⟨c.n, selC, sigC, tabC⟩
  return (c, vk, sel, sig, D, tab, seedTranscript vk tr)

/-- `compute_vanishing_poly_over_coset`, preprocess.rs:463-483. -/
def vanishingCoset (K : PField F) (D8 : Dom F) (n : ℕ) : Res (List F) := do
  assertR (n < D8.size)
  return (List.range D8.size).map fun i => K.gen ^ n * D8.omega ^ (n * i) - 1

/-- `preprocess_prover`, preprocess.rs:163-265. -/
def preprocessProver (K : PField F) (P : PCS F) (c : Composer F) (tr : Transcript F P.Comm) :
    Except PErr (Composer F × PKey F × Transcript F P.Comm) := do
  let (c, _, sel, sig, D, tab, tr) ← preprocessShared K P c tr
  let D8 ← newDom K (8 * D.size)
  let ev := cosetFft K D8
  let vH ← liftP (vanishingCoset K D8 D.size)
  return (c, ⟨D.size, sel, sel.map ev, sig, ⟨ev sig.p1, ev sig.p2, ev sig.p3, ev sig.p4⟩,
    ev [0, 1], vH, tab⟩, tr)

/-- `preprocess_verifier`, preprocess.rs:270-282. -/
def preprocessVerifier (K : PField F) (P : PCS F) (c : Composer F) (tr : Transcript F P.Comm) :
    Except PErr (Composer F × VKey P × Transcript F P.Comm) := do
  let (c, vk, _, _, _, _, tr) ← preprocessShared K P c tr
  return (c, vk, tr)

/-! ### Challenges and proofs -/

/-- The challenges of a proof. -/
structure Chals (F : Type) where
  zeta : F
  beta : F
  gamma : F
  delta : F
  epsilon : F
  alpha : F
  range : F
  logic : F
  fixed : F
  var : F
  lookup : F
  z : F
  aw : F
  saw : F

/-- `ProofEvaluations`, linearisation_poly.rs:30-161: wires, sigmas, lookup evaluations and the
labelled list for the custom gates. -/
structure Evals (F : Type) where
  w : WitVals F
  s1 : F
  s2 : F
  s3 : F
  perm : F
  qLookup : F
  z2Next : F
  h1 : F
  h1Next : F
  h2 : F
  f : F
  table : F
  tableNext : F
  custom : List (String × F)

/-- `Proof`, proof.rs:36-112. -/
structure PlonkProof (P : PCS F) where
  a : P.Comm
  b : P.Comm
  c : P.Comm
  d : P.Comm
  z : P.Comm
  f : P.Comm
  h1 : P.Comm
  h2 : P.Comm
  z2 : P.Comm
  t : Fin 8 → P.Comm
  aw : P.OProof
  saw : P.OProof
  ev : Evals F

/-- `CustomEvaluations::get`, linearisation_poly.rs:120-126. -/
def customGet (l : List (String × F)) (label : String) : Except PErr F :=
  match l.find? (fun e => e.1 == label) with
  | some e => .ok e.2
  | none => .error .panic

/-- `from_evaluations` of the four gates (range.rs:29-34, logic.rs:37-48,
fixed_base_scalar_mul.rs:53-69, curve_addition.rs:36-47), which read these six labels. -/
def customVals (l : List (String × F)) : Except PErr (CustomVals F) := do
  let aNext ← customGet l "a_next_eval"
  let bNext ← customGet l "b_next_eval"
  let dNext ← customGet l "d_next_eval"
  let ql ← customGet l "q_l_eval"
  let qr ← customGet l "q_r_eval"
  let qc ← customGet l "q_c_eval"
  return ⟨aNext, bNext, dNext, ql, qr, qc⟩

/-! ### `quotient_poly.rs` -/

/-- `compute_first_lagrange_poly_scaled`, quotient_poly.rs:339-350. -/
def firstLagrange (D : Dom F) (scale : F) : List F :=
  D.ifft ((List.replicate D.size (0 : F)).set 0 scale)

/-- `v.push(v[0]); …; v.push(v[7])`, quotient_poly.rs:72-80 and following. -/
def ext8 (v : List F) : List F := v ++ v.take 8

/-- One entry of a record of vectors. -/
def gateRow (g : Gate (List F)) (i : ℕ) : Gate F := g.map fun l => l.getD i 0

/-- Polynomials of the prover, named as in quotient_poly.rs:34-47. -/
structure ProverPolys (F : Type) where
  w : Quad F
  z : List F
  z2 : List F
  pi : List F
  f : List F
  table : List F
  h1 : List F
  h2 : List F

/-- `compute`, quotient_poly.rs:33-206, with the three vectors of terms computed by
`compute_gate_constraint_satisfiability` (210-292), `compute_permutation_checks` (296-334) and
`compute_lookup_quotient_term` (widget/lookup.rs:43-95). -/
def quotientPoly (K : PField F) (E : EdCurve F) (D : Dom F) (pk : PKey F) (p : ProverPolys F)
    (ch : Chals F) : Except PErr (List F) := do
  let D8 ← newDom K (8 * D.size)
  let ev := cosetFft K D8
  let l1 := ev (firstLagrange D 1)
  let zE := ext8 (ev p.z)
  let wl := ext8 (ev p.w.p1)
  let wr := ext8 (ev p.w.p2)
  let wo := ev p.w.p3
  let w4 := ext8 (ev p.w.p4)
  let z2 := ext8 (ev p.z2)
  let f := ev p.f
  let t := ext8 (ev p.table)
  let h1 := ext8 (ev p.h1)
  let h2 := ev p.h2
  let pi := ev p.pi
  let l1a := ev (firstLagrange D (ch.alpha * ch.alpha))
  let q ← (List.range D8.size).mapM fun i => do
    let w : WitVals F := ⟨wl.getD i 0, wr.getD i 0, wo.getD i 0, w4.getD i 0⟩
    let g := gateRow pk.selE i
    let gate := gateQuotient E ch.range ch.logic ch.fixed ch.var g w
      ⟨wl.getD (i + 8) 0, wr.getD (i + 8) 0, w4.getD (i + 8) 0, g.l, g.r, g.c⟩ (pi.getD i 0)
    let perm := permQuotient (pk.linE.getD i 0)
      ⟨pk.sigE.p1.getD i 0, pk.sigE.p2.getD i 0, pk.sigE.p3.getD i 0, pk.sigE.p4.getD i 0⟩ w
      (zE.getD i 0) (zE.getD (i + 8) 0) ch.alpha (l1a.getD i 0) ch.beta ch.gamma
    let ct ← liftP (lc [w.a, w.b, w.c, w.d] ch.zeta)
    let lookup := lookupQuotient g.lookup ct (f.getD i 0) (t.getD i 0) (t.getD (i + 8) 0)
      (h1.getD i 0) (h1.getD (i + 8) 0) (h2.getD i 0) (z2.getD i 0) (z2.getD (i + 8) 0)
      (l1.getD i 0) ch.delta ch.epsilon ch.lookup
    let den := pk.vH.getD i 0
    if den = 0 then .error .panic
    else .ok ((gate + perm + lookup) * den⁻¹)
  return cosetIfft K D8 q

/-- `split_tx_poly`, prover.rs:104-118. -/
def splitTx (n : ℕ) (t : List F) : Fin 8 → List F := fun k =>
  polyFromVec (((t ++ List.replicate (8 * n - t.length) 0).take (8 * n)).drop (k * n) |>.take n)

/-! ### `linearisation_poly.rs` -/

/-- `compute_first_lagrange_evaluation`, proof.rs:628-639. -/
def firstLagrangeEval (D : Dom F) (zh z : F) : Except PErr F :=
  let den := (D.size : F) * (z - 1)
  if den = 0 then .error .panic else .ok (zh * den⁻¹)

/-- `domain.evaluate_all_lagrange_coefficients(z)[0]` (ark-poly). -/
def lagrange0 (D : Dom F) (z : F) : F :=
  if z ^ D.size = 1 then (if z = 1 then 1 else 0) else (z ^ D.size - 1) * ((D.size : F) * (z - 1))⁻¹

/-- `arithmetic::ProverKey::compute_linearisation`, widget/arithmetic.rs:76-95. -/
def arithLin (s : Gate (List F)) (w : WitVals F) (qArith : F) : List F :=
  polyScale (polyAdd (polyAdd (polyAdd (polyAdd (polyAdd (polyAdd (polyAdd (polyAdd
    (polyScale s.m (w.a * w.b)) (polyScale s.l w.a)) (polyScale s.r w.b)) (polyScale s.o w.c))
    (polyScale s.q4 w.d)) (polyScale s.hl (w.a ^ 5))) (polyScale s.hr (w.b ^ 5)))
    (polyScale s.h4 (w.d ^ 5))) s.c) qArith

/-- `compute_gate_constraint_satisfiability`, linearisation_poly.rs:362-420. -/
def gateLin (E : EdCurve F) (ch : Chals F) (s : Gate (List F)) (w : WitVals F) (qArith : F)
    (v : CustomVals F) : List F :=
  polyAdd (polyAdd (polyAdd (polyAdd (arithLin s w qArith)
    (polyScale s.range (rangeConstraints ch.range w v)))
    (polyScale s.logic (logicConstraints ch.logic w v)))
    (polyScale s.fixed (fixedConstraints E ch.fixed w v)))
    (polyScale s.var (curveConstraints E ch.var w v))

/-- `lookup::ProverKey::compute_linearisation`, widget/lookup.rs:154-203. -/
def lookupLin (qLookup z2 h1 : List F) (l1 : F) (e : Evals F) (ch : Chals F) :
    Except PErr (List F) := do
  let sepSq := ch.lookup * ch.lookup
  let sepCu := ch.lookup * sepSq
  let oneDelta := ch.delta + 1
  let epsOneDelta := ch.epsilon * oneDelta
  let ct ← liftP (lc [e.w.a, e.w.b, e.w.c, e.w.d] ch.zeta)
  let a := polyScale qLookup ((ct - e.f) * ch.lookup)
  let b0 := ch.epsilon + e.f
  let b1 := epsOneDelta + e.table + ch.delta * e.tableNext
  let b2 := l1 * sepCu
  let b := polyScale z2 (oneDelta * b0 * b1 * sepSq + b2)
  let c0 := -e.z2Next * sepSq
  let c1 := epsOneDelta + e.h2 + ch.delta * e.h1Next
  let c := polyScale h1 (c0 * c1)
  return polyAdd (polyAdd a b) c

/-- `permutation::ProverKey::compute_linearisation` and its three parts, permutation.rs:155-286. -/
def permLin (D : Dom F) (e : Evals F) (ch : Chals F) (z fourthSigma : List F) : List F :=
  let betaZ := ch.beta * ch.z
  let a := (e.w.a + betaZ + ch.gamma) * (e.w.b + K1 * betaZ + ch.gamma)
    * (e.w.c + K2 * betaZ + ch.gamma) * (e.w.d + K3 * betaZ + ch.gamma) * ch.alpha
  let b := (e.w.a + ch.beta * e.s1 + ch.gamma) * (e.w.b + ch.beta * e.s2 + ch.gamma)
    * (e.w.c + ch.beta * e.s3 + ch.gamma) * (ch.beta * e.perm) * ch.alpha
  polyAdd (polyAdd (polyScale z a) (polyScale fourthSigma (-b)))
    (polyScale z (lagrange0 D ch.z * (ch.alpha * ch.alpha)))

/-- The quotient term, linearisation_poly.rs:330-345. -/
def quotientLin (t : Fin 8 → List F) (zn zh : F) : List F :=
  let step := fun acc p => polyAdd (polyScale acc zn) p
  polyScale (polyScale (step (step (step (step (step (step (step (t 7) (t 6)) (t 5)) (t 4)) (t 3))
    (t 2)) (t 1)) (t 0)) zh) (-1)

/-- `compute`, linearisation_poly.rs:161-358. -/
def linearisation (E : EdCurve F) (D : Dom F) (pk : PKey F) (p : ProverPolys F)
    (t : Fin 8 → List F) (ch : Chals F) : Except PErr (List F × Evals F) := do
  let zw := ch.z * D.omega
  let at1 := fun q => polyEval q ch.z
  let at2 := fun q => polyEval q zw
  let zh := vanishAt D ch.z
  let l1 ← firstLagrangeEval D zh ch.z
  let qArith := at1 pk.sel.arith
  let e : Evals F :=
    { w := ⟨at1 p.w.p1, at1 p.w.p2, at1 p.w.p3, at1 p.w.p4⟩
      s1 := at1 pk.sig.p1, s2 := at1 pk.sig.p2, s3 := at1 pk.sig.p3, perm := at2 p.z
      qLookup := at1 pk.sel.lookup, z2Next := at2 p.z2, h1 := at1 p.h1, h1Next := at2 p.h1
      h2 := at1 p.h2, f := at1 p.f, table := at1 p.table, tableNext := at2 p.table
      custom := [("q_arith_eval", qArith), ("q_c_eval", at1 pk.sel.c), ("q_l_eval", at1 pk.sel.l),
        ("q_r_eval", at1 pk.sel.r), ("q_hl_eval", at1 pk.sel.hl), ("q_hr_eval", at1 pk.sel.hr),
        ("q_h4_eval", at1 pk.sel.h4), ("a_next_eval", at2 p.w.p1), ("b_next_eval", at2 p.w.p2),
        ("d_next_eval", at2 p.w.p4)] }
  let v ← customVals e.custom
  let gate := gateLin E ch pk.sel e.w qArith v
  let lookup ← lookupLin pk.sel.lookup p.z2 p.h1 l1 e ch
  let perm := permLin D e ch p.z pk.sig.p4
  let quot := quotientLin t (zh + 1) zh
  return (polyAdd (polyAdd (polyAdd gate perm) lookup) quot, e)

/-! ### Transcript of the evaluations -/

/-- `transcript.append` of the evaluations, prover.rs:502-529 and proof.rs:261-300. -/
def appendEvals {C : Type} (tr : Transcript F C) (e : Evals F) : Transcript F C :=
  tr ++ [.scalar "a_eval" e.w.a, .scalar "b_eval" e.w.b, .scalar "c_eval" e.w.c,
    .scalar "d_eval" e.w.d, .scalar "left_sig_eval" e.s1, .scalar "right_sig_eval" e.s2,
    .scalar "out_sig_eval" e.s3, .scalar "perm_eval" e.perm, .scalar "f_eval" e.f,
    .scalar "q_lookup_eval" e.qLookup, .scalar "lookup_perm_eval" e.z2Next,
    .scalar "h_1_eval" e.h1, .scalar "h_1_next_eval" e.h1Next, .scalar "h_2_eval" e.h2]
    ++ e.custom.map fun x => .scalar x.1 x.2

/-- Take a challenge and append it: `let x = transcript.challenge_scalar(l); transcript.append(l',
&x)`. -/
def challengeAppend {C : Type} (ro : Transcript F C → F) (tr : Transcript F C) (label : String)
    (label' : String := label) : F × Transcript F C :=
  let (x, tr) := challenge ro tr label
  (x, tr ++ [.scalar label' x])

/-! ### `prover.rs` -/

/-- `to_scalars`, prover.rs:121-123, padded to `n`, prover.rs:184-188 (the subtraction underflows
when there are more than `n` wires). -/
def wireScalars (c : Composer F) (n : ℕ) (ws : List Nat) : Res (List F) := do
  assertR (c.w_l.length ≤ n)
  let s ← ws.mapM fun x => (c.variables[x]?).elim (.error .panic) .ok
  return s ++ List.replicate (n - c.w_l.length) 0

/-- What step 1 of the prover makes: wire values, their polynomials and commitments. -/
structure WitRound (P : PCS F) where
  v : Quad F
  p : Quad F
  c : WitVals P.Comm

/-- Step 1, prover.rs:180-206. -/
def proveRound1 (P : PCS F) (D : Dom F) (c : Composer F) : Except PErr (WitRound P) := do
  let wl ← liftP (wireScalars c D.size c.w_l)
  let wr ← liftP (wireScalars c D.size c.w_r)
  let wo ← liftP (wireScalars c D.size c.w_o)
  let w4 ← liftP (wireScalars c D.size c.w_4)
  let w : Quad F := ⟨D.ifft wl, D.ifft wr, D.ifft wo, D.ifft w4⟩
  let wC ← commitQuad P w
  return ⟨⟨wl, wr, wo, w4⟩, w, wC⟩

/-- What step 2 makes: compressed table and queries, the halves, their polynomials and
commitments. -/
structure LookRound (P : PCS F) where
  ct : List F
  cf : List F
  h1v : List F
  h2v : List F
  table : List F
  f : List F
  h1 : List F
  h2 : List F
  fC : P.Comm
  h1C : P.Comm
  h2C : P.Comm

/-- Step 2, prover.rs:214-300. -/
def proveRound2 (P : PCS F) (D : Dom F) (c : Composer F) (pk : PKey F) (r1 : WitRound P)
    (zeta : F) : Except PErr (LookRound P) := do
  let ct ← liftP (msCompress [pk.tab.p1, pk.tab.p2, pk.tab.p3, pk.tab.p4] zeta)
  let table := D.ifft ct
  let qpad := c.q_lookup ++ List.replicate (D.size - c.q_lookup.length) 0
  let ct0 ← liftP ((ct[0]?).elim (.error .panic) .ok)
  let cf ← liftP (msCompress
    (queryCols ct0 (qpad.zip (r1.v.p1.zip (r1.v.p2.zip (r1.v.p3.zip r1.v.p4))))) zeta)
  let f := D.ifft cf
  let fC ← P.commit f
  let (h1v, h2v) ← liftP (unwrapP (combineSplit ct cf))
  let h1 := D.ifft h1v
  let h2 := D.ifft h2v
  let h1C ← P.commit h1
  let h2C ← P.commit h2
  return ⟨ct, cf, h1v, h2v, table, f, h1, h2, fC, h1C, h2C⟩

/-- What step 3 makes: the two accumulators and the public input polynomial. -/
structure AccRound (P : PCS F) where
  z : List F
  z2 : List F
  pi : List F
  zC : P.Comm
  z2C : P.Comm

/-- Step 3, prover.rs:305-373. -/
def proveRound3 (K : PField F) (P : PCS F) (D : Dom F) (c : Composer F) (pk : PKey F)
    (r1 : WitRound P) (r2 : LookRound P) (beta gamma delta epsilon : F) :
    Except PErr (AccRound P) := do
  liftP (assertR (beta ≠ gamma))
  liftP (assertR (beta ≠ delta))
  liftP (assertR (beta ≠ epsilon))
  liftP (assertR (gamma ≠ delta))
  liftP (assertR (gamma ≠ epsilon))
  liftP (assertR (delta ≠ epsilon))
  let z ← liftP (computePermutationPoly D r1.v beta gamma pk.sig)
  let zC ← P.commit z
  let z2 ← liftP (computeLookupPermutationPoly D r2.cf r2.ct r2.h1v r2.h2v delta epsilon)
  let z2C ← P.commit z2
  let pi ← piPoly K c.public_inputs D.size
  return ⟨z, z2, pi, zC, z2C⟩

/-- Step 4, prover.rs:374-448: the eight parts of the quotient polynomial and their commitments. -/
def proveRound4 (K : PField F) (E : EdCurve F) (P : PCS F) (D : Dom F) (pk : PKey F)
    (p : ProverPolys F) (ch : Chals F) :
    Except PErr ((Fin 8 → List F) × (Fin 8 → P.Comm)) := do
  let tp ← quotientPoly K E D pk p ch
  let t := splitTx D.size tp
  let t0 ← P.commit (t 0)
  let t1 ← P.commit (t 1)
  let t2 ← P.commit (t 2)
  let t3 ← P.commit (t 3)
  let t4 ← P.commit (t 4)
  let t5 ← P.commit (t 5)
  let t6 ← P.commit (t 6)
  let t7 ← P.commit (t 7)
  return (t, ![t0, t1, t2, t3, t4, t5, t6, t7])

/-- Step 6, prover.rs:531-592: the two openings, at `z` and at `z ω`. -/
def proveOpenings (P : PCS F) (D : Dom F) (pk : PKey F) (p : ProverPolys F) (lin : List F)
    (ch : Chals F) : Except PErr (P.OProof × P.OProof) := do
  let awPolys := [lin, pk.sig.p1, pk.sig.p2, pk.sig.p3, p.f, p.h2, p.table]
  let _ ← awPolys.mapM P.commit
  let aw ← P.openAt (awPolys ++ [p.w.p1, p.w.p2, p.w.p3, p.w.p4]) ch.z ch.aw
  let sawPolys := [p.z, p.w.p1, p.w.p2, p.w.p4, p.h1, p.z2, p.table]
  let _ ← sawPolys.mapM P.commit
  let saw ← P.openAt sawPolys (ch.z * D.omega) ch.saw
  return (aw, saw)

/-- `prove_with_preprocessed`, prover.rs:158-616: the steps and what is put in the transcript
between them. -/
def proveWithPreprocessed (K : PField F) (E : EdCurve F) (P : PCS F)
    (ro : Transcript F P.Comm → F) (c : Composer F) (pk : PKey F) (tr : Transcript F P.Comm) :
    Except PErr (PlonkProof P) := do
  let D ← newDom K (circuitBound c)
  let tr := tr ++ [.pi "pi" c.public_inputs]
  let r1 ← proveRound1 P D c
  let tr := tr ++ [.comm "w_l" r1.c.a, .comm "w_r" r1.c.b, .comm "w_o" r1.c.c, .comm "w_4" r1.c.d]
  let (zeta, tr) := challengeAppend ro tr "zeta"
  let r2 ← proveRound2 P D c pk r1 zeta
  let tr := tr ++ [.comm "f" r2.fC]
  let tr := tr ++ [.comm "h1" r2.h1C, .comm "h2" r2.h2C]
  let (beta, tr) := challengeAppend ro tr "beta"
  let (gamma, tr) := challengeAppend ro tr "gamma"
  let (delta, tr) := challengeAppend ro tr "delta"
  let (epsilon, tr) := challengeAppend ro tr "epsilon"
  let r3 ← proveRound3 K P D c pk r1 r2 beta gamma delta epsilon
  let tr := tr ++ [.comm "z" r3.zC]
  let (alpha, tr) := challengeAppend ro tr "alpha"
  let (range, tr) := challengeAppend ro tr "range separation challenge" "range seperation challenge"
  let (logic, tr) := challengeAppend ro tr "logic separation challenge" "logic seperation challenge"
  let (fixed, tr) := challengeAppend ro tr "fixed base separation challenge"
  let (var, tr) := challengeAppend ro tr "variable base separation challenge"
  let (lookup, tr) := challengeAppend ro tr "lookup separation challenge"
  let p : ProverPolys F := ⟨r1.p, r3.z, r3.z2, r3.pi, r2.f, r2.table, r2.h1, r2.h2⟩
  let ch : Chals F := ⟨zeta, beta, gamma, delta, epsilon, alpha, range, logic, fixed, var, lookup,
    0, 0, 0⟩
  let (t, tC) ← proveRound4 K E P D pk p ch
  let tr := tr ++ [.comm "t_1" (tC 0), .comm "t_2" (tC 1), .comm "t_3" (tC 2), .comm "t_4" (tC 3),
    .comm "t_5" (tC 4), .comm "t_6" (tC 5), .comm "t_7" (tC 6), .comm "t_8" (tC 7)]
  let (z, tr) := challengeAppend ro tr "z"
  let ch : Chals F := { ch with z := z }
  let (lin, e) ← linearisation E D pk p t ch
  let tr := appendEvals tr e
  let (aw, tr) := challenge ro tr "aggregate_witness"
  let (saw, _) := challenge ro tr "aggregate_witness"
  let ch : Chals F := { ch with aw := aw, saw := saw }
  let (awO, sawO) ← proveOpenings P D pk p lin ch
  return ⟨r1.c.a, r1.c.b, r1.c.c, r1.c.d, r3.zC, r2.fC, r2.h1C, r2.h2C, r3.z2C, tC, awO, sawO, e⟩

/-! ### `proof.rs` -/

/-- `compute_barycentric_eval`, proof.rs:641-682; `batch_inversion` leaves zeros. -/
def barycentric (D : Dom F) (evals : List F) (x : F) : F :=
  let numerator := vanishAt D x * (D.size : F)⁻¹
  let nz := (List.range evals.length).filter fun i => evals.getD i 0 ≠ 0
  let dens := batchInversion (nz.map fun i => D.omega⁻¹ ^ i * x - 1)
  ((nz.zip dens).map fun p => p.2 * evals.getD p.1 0).sum * numerator

/-- `compute_r0`, proof.rs:432-488. -/
def computeR0 (D : Dom F) (piEvals : List F) (ch : Chals F) (l1 : F) (e : Evals F) : F :=
  let piEval := barycentric D piEvals ch.z
  let alphaSq := ch.alpha * ch.alpha
  let sepSq := ch.lookup * ch.lookup
  let sepCu := sepSq * ch.lookup
  let b0 := e.w.a + ch.beta * e.s1 + ch.gamma
  let b1 := e.w.b + ch.beta * e.s2 + ch.gamma
  let b2 := e.w.c + ch.beta * e.s3 + ch.gamma
  let b3 := (e.w.d + ch.gamma) * e.perm * ch.alpha
  let b := b0 * b1 * b2 * b3
  let c := l1 * alphaSq
  let epsOneDelta := ch.epsilon * (1 + ch.delta)
  let d0 := sepSq * e.z2Next
  let d1 := epsOneDelta + ch.delta * e.h2
  let d2 := epsOneDelta + e.h2 + ch.delta * e.h1Next
  let d := d0 * d1 * d2
  let e' := sepCu * l1
  piEval - b - c - d - e'

/-- `arithmetic::VerifierKey::compute_linearisation_commitment`, widget/arithmetic.rs:147-185. -/
def arithLinC {P : PCS F} (s : Gate P.Comm) (e : Evals F) : Except PErr (List (F × P.Comm)) := do
  let q ← customGet e.custom "q_arith_eval"
  return [(e.w.a * e.w.b * q, s.m), (e.w.a * q, s.l), (e.w.b * q, s.r), (e.w.d * q, s.q4),
    (e.w.c * q, s.o), (e.w.a ^ 5 * q, s.hl), (e.w.b ^ 5 * q, s.hr), (e.w.d ^ 5 * q, s.h4), (q, s.c)]

/-- `lookup::VerifierKey::compute_linearisation_commitment`, widget/lookup.rs:236-297. -/
def lookupLinC {P : PCS F} (qLookup z2 h1 : P.Comm) (l1 : F) (e : Evals F) (ch : Chals F) :
    Except PErr (List (F × P.Comm)) := do
  let oneDelta := 1 + ch.delta
  let epsOneDelta := ch.epsilon * oneDelta
  let sepSq := ch.lookup * ch.lookup
  let sepCu := sepSq * ch.lookup
  let ct ← liftP (lc [e.w.a, e.w.b, e.w.c, e.w.d] ch.zeta)
  let a := (ct - e.f) * ch.lookup
  let b0 := ch.epsilon + e.f
  let b1 := epsOneDelta + e.table + ch.delta * e.tableNext
  let b2 := l1 * sepCu
  let b := oneDelta * b0 * b1 * sepSq + b2
  let c0 := -e.z2Next * sepSq
  let c1 := epsOneDelta + e.h2 + ch.delta * e.h1Next
  return [(a, qLookup), (b, z2), (c0 * c1, h1)]

/-- `permutation::VerifierKey::compute_linearisation_commitment`, permutation.rs:318-378. -/
def permLinC {P : PCS F} (fourthSigma z : P.Comm) (l1 : F) (e : Evals F) (ch : Chals F) :
    List (F × P.Comm) :=
  let x := (e.w.a + ch.beta * ch.z + ch.gamma) * (e.w.b + ch.beta * K1 * ch.z + ch.gamma)
    * (e.w.c + ch.beta * K2 * ch.z + ch.gamma)
    * ((e.w.d + ch.beta * K3 * ch.z + ch.gamma) * ch.alpha)
  let r := l1 * (ch.alpha * ch.alpha)
  let y := -((e.w.a + ch.beta * e.s1 + ch.gamma) * (e.w.b + ch.beta * e.s2 + ch.gamma)
    * (e.w.c + ch.beta * e.s3 + ch.gamma) * (ch.beta * e.perm * ch.alpha))
  [(x + r, z), (y, fourthSigma)]

/-- `compute_linearisation_commitment`, proof.rs:491-609. -/
def linCommitment (P : PCS F) (E : EdCurve F) (D : Dom F) (vk : VKey P) (pr : PlonkProof P)
    (ch : Chals F) (l1 : F) : Except PErr P.Comm := do
  let e := pr.ev
  let arith ← arithLinC vk.sel e
  let v ← customVals e.custom
  let lookup ← lookupLinC (P := P) vk.sel.lookup pr.z2 pr.h1 l1 e ch
  let zh := vanishAt D ch.z
  let zn := zh + 1
  let ts := (List.finRange 8).map fun k : Fin 8 => (-zh * zn ^ (k : ℕ), pr.t k)
  let all := arith ++ [(rangeConstraints ch.range e.w v, vk.sel.range),
    (logicConstraints ch.logic e.w v, vk.sel.logic),
    (fixedConstraints E ch.fixed e.w v, vk.sel.fixed),
    (curveConstraints E ch.var e.w v, vk.sel.var)] ++ lookup
    ++ permLinC (P := P) vk.sig.d pr.z l1 e ch ++ ts
  return P.msm (all.map (·.2)) (all.map (·.1))

/-- The challenges the verifier derives, proof.rs:139-235, 260-300, 350 and 380. -/
def verifierChals {P : PCS F} (ro : Transcript F P.Comm → F) (tr : Transcript F P.Comm)
    (pi : List (ℕ × F)) (pr : PlonkProof P) : Chals F :=
  let tr := tr ++ [.pi "pi" pi]
  let tr := tr ++ [.comm "w_l" pr.a, .comm "w_r" pr.b, .comm "w_o" pr.c, .comm "w_4" pr.d]
  let (zeta, tr) := challengeAppend ro tr "zeta"
  let tr := tr ++ [.comm "f" pr.f]
  let tr := tr ++ [.comm "h1" pr.h1, .comm "h2" pr.h2]
  let (beta, tr) := challengeAppend ro tr "beta"
  let (gamma, tr) := challengeAppend ro tr "gamma"
  let (delta, tr) := challengeAppend ro tr "delta"
  let (epsilon, tr) := challengeAppend ro tr "epsilon"
  let tr := tr ++ [.comm "z" pr.z]
  let (alpha, tr) := challengeAppend ro tr "alpha"
  let (range, tr) := challengeAppend ro tr "range separation challenge" "range seperation challenge"
  let (logic, tr) := challengeAppend ro tr "logic separation challenge" "logic seperation challenge"
  let (fixed, tr) := challengeAppend ro tr "fixed base separation challenge"
  let (var, tr) := challengeAppend ro tr "variable base separation challenge"
  let (lookup, tr) := challengeAppend ro tr "lookup separation challenge"
  let tr := tr ++ [.comm "t_1" (pr.t 0), .comm "t_2" (pr.t 1), .comm "t_3" (pr.t 2),
    .comm "t_4" (pr.t 3), .comm "t_5" (pr.t 4), .comm "t_6" (pr.t 5), .comm "t_7" (pr.t 6),
    .comm "t_8" (pr.t 7)]
  let (z, tr) := challengeAppend ro tr "z"
  let tr := appendEvals tr pr.ev
  let (aw, tr) := challenge ro tr "aggregate_witness"
  let (saw, _) := challenge ro tr "aggregate_witness"
  ⟨zeta, beta, gamma, delta, epsilon, alpha, range, logic, fixed, var, lookup, z, aw, saw⟩

/-- `match PC::check(…) { Ok(true) => Ok(()), Ok(false) => Err(ProofVerificationError),
Err(e) => panic!() }`, proof.rs:402-414 and 416-428. -/
def checkResult (r : Except PErr Bool) : Except PErr Unit :=
  match r with
  | .ok true => .ok ()
  | .ok false => .error .proofVerificationError
  | .error _ => .error .panic

/-- The verification of a proof for given challenges, proof.rs:187-192, 237-258 and 302-429. -/
def verifyWith (E : EdCurve F) (P : PCS F) (D : Dom F) (vk : VKey P) (pi : List (ℕ × F))
    (pr : PlonkProof P) (ch : Chals F) : Except PErr Unit := do
  liftP (assertR (ch.beta ≠ ch.gamma))
  liftP (assertR (ch.beta ≠ ch.delta))
  liftP (assertR (ch.beta ≠ ch.epsilon))
  liftP (assertR (ch.gamma ≠ ch.delta))
  liftP (assertR (ch.gamma ≠ ch.epsilon))
  liftP (assertR (ch.delta ≠ ch.epsilon))
  let e := pr.ev
  let zh := vanishAt D ch.z
  let l1 ← firstLagrangeEval D zh ch.z
  let piEvals ← liftP (asEvals pi D.size)
  let r0 := computeR0 D piEvals ch l1 e
  let linC ← linCommitment P E D vk pr ch l1
  let zetaSq := ch.zeta * ch.zeta
  let tableC := P.msm [vk.tab.a, vk.tab.b, vk.tab.c, vk.tab.d] [1, ch.zeta, zetaSq, zetaSq * ch.zeta]
  let aNext ← customGet e.custom "a_next_eval"
  let bNext ← customGet e.custom "b_next_eval"
  let dNext ← customGet e.custom "d_next_eval"
  checkResult (P.check
    [linC, vk.sig.a, vk.sig.b, vk.sig.c, pr.f, pr.h2, tableC, pr.a, pr.b, pr.c, pr.d] ch.z
    [-r0, e.s1, e.s2, e.s3, e.f, e.h2, e.table, e.w.a, e.w.b, e.w.c, e.w.d] pr.aw ch.aw)
  checkResult (P.check [pr.z, pr.a, pr.b, pr.d, pr.h1, pr.z2, tableC] (ch.z * D.omega)
    [e.perm, aNext, bNext, dNext, e.h1Next, e.z2Next, e.tableNext] pr.saw ch.saw)

/-- `Proof::verify`, proof.rs:122-430. -/
def plonkVerify (K : PField F) (E : EdCurve F) (P : PCS F) (ro : Transcript F P.Comm → F)
    (vk : VKey P) (tr : Transcript F P.Comm) (pi : List (ℕ × F)) (pr : PlonkProof P) :
    Except PErr Unit := do
  let D ← newDom K vk.n
  verifyWith E P D vk pi pr (verifierChals ro tr pi pr)

/-! ### `prover.rs`, `verifier.rs`: the stateful objects -/

/-- `Prover`, prover.rs:30-50. -/
structure Prover (P : PCS F) where
  key : Option (PKey F)
  cs : Composer F
  tr : Transcript F P.Comm

/-- `Prover::new`, prover.rs:59-66, with the randomness of the composer. -/
def Prover.new (P : PCS F) (label : String) (r1 r2 : F × F × F × F) : Res (Prover P) := do
  let c ← newComposer r1 r2
  return ⟨none, c, [.init label]⟩

/-- `Prover::preprocess`, prover.rs:89-100. -/
def Prover.preprocess (K : PField F) {P : PCS F} (s : Prover P) : Except PErr (Prover P) := do
  if s.key.isSome then .error .circuitAlreadyPreprocessed
  let (c, pk, tr) ← preprocessProver K P s.cs s.tr
  return ⟨some pk, c, tr⟩

/-- `Prover::prove`, prover.rs:621-639: preprocesses if necessary and replaces the composer by a
new one. -/
def Prover.prove (K : PField F) (E : EdCurve F) {P : PCS F} (ro : Transcript F P.Comm → F)
    (s : Prover P) (r1 r2 : F × F × F × F) : Except PErr (PlonkProof P × Prover P) := do
  let (pk, c, tr) ← match s.key with
    | some pk => pure (pk, s.cs, s.tr)
    | none => do
      let (c, pk, tr) ← preprocessProver K P s.cs s.tr
      pure (pk, c, tr)
  let pr ← proveWithPreprocessed K E P ro c pk tr
  let c' ← liftP (newComposer r1 r2)
  return (pr, ⟨some pk, c', tr⟩)

/-- `Verifier`, verifier.rs:25-45. -/
structure Verifier (P : PCS F) where
  key : Option (VKey P)
  cs : Composer F
  tr : Transcript F P.Comm

/-- `Verifier::new`, verifier.rs:55-61. -/
def Verifier.new (P : PCS F) (label : String) (r1 r2 : F × F × F × F) : Res (Verifier P) := do
  let c ← newComposer r1 r2
  return ⟨none, c, [.init label]⟩

/-- `Verifier::preprocess`, verifier.rs:85-94. -/
def Verifier.preprocess (K : PField F) {P : PCS F} (s : Verifier P) : Except PErr (Verifier P) := do
  let (c, vk, tr) ← preprocessVerifier K P s.cs s.tr
  return ⟨some vk, c, tr⟩

/-- `Verifier::verify`, verifier.rs:106-118. -/
def Verifier.verify (K : PField F) (E : EdCurve F) {P : PCS F} (ro : Transcript F P.Comm → F)
    (s : Verifier P) (pr : PlonkProof P) (pi : List (ℕ × F)) : Except PErr Unit :=
  match s.key with
  | none => .error .panic
  | some vk => plonkVerify K E P ro vk s.tr pi pr

end VO.Plonk
