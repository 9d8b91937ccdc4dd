import Verif.Spec.Poly
import Verif.Spec.PlonkLookup
import Verif.Model.PlonkProof

/-
Words used to state the properties of the whole PLONK argument.
-/

namespace VO.Spec.Plonk

open VO.Plonk VO.Spec Polynomial

variable {F : Type} [Field F] [DecidableEq F]

/-- A field whose domains are as the code expects: roots of unity of all powers of two up to the
2-adicity, each the square of the next, `7`, `13`, `17` in different cosets of all of them, and a
generator outside. The scalar fields of pairing-friendly curves are like this. -/
structure PFieldOk (K : PField F) : Prop where
  root : ∀ e ≤ K.fft.twoAdicity, IsPrimitiveRoot (K.fft.root e) (2 ^ e)
  step : ∀ e < K.fft.twoAdicity, K.fft.root (e + 1) ^ 2 = K.fft.root e
  gen0 : K.gen ≠ 0
  gen : ∀ e ≤ K.fft.twoAdicity, K.gen ^ 2 ^ e ≠ 1
  nz : (7 : F) ≠ 0 ∧ (13 : F) ≠ 0 ∧ (17 : F) ≠ 0
  k1 : ∀ e ≤ K.fft.twoAdicity, (7 : F) ^ 2 ^ e ≠ 1
  k2 : ∀ e ≤ K.fft.twoAdicity, (13 : F) ^ 2 ^ e ≠ 1
  k3 : ∀ e ≤ K.fft.twoAdicity, (17 : F) ^ 2 ^ e ≠ 1
  k12 : ∀ e ≤ K.fft.twoAdicity, (7 : F) ^ 2 ^ e ≠ 13 ^ 2 ^ e
  k13 : ∀ e ≤ K.fft.twoAdicity, (7 : F) ^ 2 ^ e ≠ 17 ^ 2 ^ e
  k23 : ∀ e ≤ K.fft.twoAdicity, (13 : F) ^ 2 ^ e ≠ 17 ^ 2 ^ e

/-- A commitment scheme that does its work for polynomials of degree below `d`: commitments exist
and depend on the polynomial only, combinations of commitments commit to combinations of
polynomials, and honest openings are accepted. -/
structure PcsComplete (P : PCS F) (d : ℕ) where
  rep : F[X] → P.Comm
  commit : ∀ p, (polyOf p).degree < d → P.commit p = .ok (rep (polyOf p))
  msm : ∀ l : List (F × F[X]), (∀ e ∈ l, e.2.degree < d) →
    P.msm (l.map fun e => rep e.2) (l.map fun e => e.1) = rep (l.map fun e => C e.1 * e.2).sum
  openAt : ∀ ps x ξ, (∀ p ∈ ps, (polyOf p).degree < d) → ∃ π, P.openAt ps x ξ = .ok π ∧
    P.check (ps.map fun p => rep (polyOf p)) x (ps.map fun p => polyEval p x) π ξ = .ok true

/-- An ideal commitment scheme for polynomials of degree below `d`: every commitment stands for one
polynomial, the one committed to; combinations of commitments stand for combinations; and an opening
is accepted only for the values of the polynomials. This idealises the evaluation binding of the
batched openings (the challenge that combines the openings is not spent) and extraction. -/
structure PcsSound (P : PCS F) (d : ℕ) where
  ext : P.Comm → F[X]
  deg : ∀ c, (ext c).degree < d
  commit : ∀ p c, P.commit p = .ok c → ext c = polyOf p
  msm : ∀ l : List (F × P.Comm),
    ext (P.msm (l.map fun e => e.2) (l.map fun e => e.1)) = (l.map fun e => C e.1 * ext e.2).sum
  check : ∀ cs x vs π ξ, P.check cs x vs π ξ = .ok true → ∀ e ∈ cs.zip vs, (ext e.1).eval x = e.2

/-- Two composers hold the same circuit; only the values of variables and of public inputs may
differ. -/
def SameCircuit (c c' : Composer F) : Prop :=
  c' = { c with «variables» := c'.variables, public_inputs := c'.public_inputs }

/-- The compressed table of a composer, in a domain of `n` rows. -/
def compressedTable (c : Composer F) (n : ℕ) (zeta : F) : List F :=
  (padRows c.lookup_table n).map (compressRow zeta)

/-- Is the entry a request for a challenge? -/
def isChal {C : Type} : TEntry F C → Bool
  | .chal _ => true
  | _ => false

/-- A verifier that sends the challenges of a list, in this order, whatever the messages. -/
def coins {C : Type} (l : List F) (tr : Transcript F C) : F := l.getD (tr.countP isChal - 1) 0

/-- The public inputs of a map from rows to values (a `BTreeMap`, in order of the rows). -/
def piAt (pi : List (ℕ × F)) (i : ℕ) : F :=
  match pi.find? (fun e => e.1 == i) with
  | some e => e.2
  | none => 0

/-- The wire values four commitments stand for, on the domain generated by `omega`. -/
noncomputable def committedWires {P : PCS F} {d : ℕ} (hS : PcsSound P d) (omega : F)
    (a b c e : P.Comm) : WireData → F
  | .left i => (hS.ext a).eval (omega ^ i)
  | .right i => (hS.ext b).eval (omega ^ i)
  | .output i => (hS.ext c).eval (omega ^ i)
  | .fourth i => (hS.ext e).eval (omega ^ i)

/-- The four selector evaluations the verifier uses but does not check are right. -/
structure HonestSelectors {P : PCS F} {d : ℕ} (hS : PcsSound P d) (vk : VKey P) (e : Evals F)
    (z : F) : Prop where
  arith : customGet e.custom "q_arith_eval" = .ok ((hS.ext vk.sel.arith).eval z)
  l : customGet e.custom "q_l_eval" = .ok ((hS.ext vk.sel.l).eval z)
  r : customGet e.custom "q_r_eval" = .ok ((hS.ext vk.sel.r).eval z)
  c : customGet e.custom "q_c_eval" = .ok ((hS.ext vk.sel.c).eval z)

end VO.Spec.Plonk
