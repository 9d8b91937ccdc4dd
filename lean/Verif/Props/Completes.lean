import Verif.Spec.Fibonacci
import Verif.Spec.RangeCheck
import Verif.Spec.R1csSnark
import Verif.Spec.HprSnark
import Verif.Spec.R1csPe
import Verif.Model.Examples
import Verif.Props.Fibonacci
import Verif.Props.RangeCheckComplete
import Verif.Props.R1csSnark
import Verif.Props.HprSnark
import Verif.Props.R1csPe

set_option linter.unusedSectionVars false

/-
The conclusions of the completeness theorems C37, C43, C44, C45 and C76 as predicates on the keys, so
that the theorems about the example programs (C128) can refer to them.  Each says which challenges make
`prove` succeed with an accepted proof and that it panics on all others.
-/

namespace VO
open Spec
open Polynomial (X toLaurent)
open LaurentPolynomial (T)

variable {F G1 G2 GT : Type} [Field F] [DecidableEq F]
  [AddCommGroup G1] [Module F G1] [DecidableEq G1] [AddCommGroup G2] [Module F G2]
  [AddCommGroup GT] [Module F GT] [DecidableEq GT]

/-- The conclusion of C37. -/
def FibCompletes (env : Env F G1 G2 GT) (β : F) (g : G1) (D n : ℕ) (t : List F)
    (x : FibInstance F) (w : List F) (pk : FibPK F G1 G2) (vk : FibVK G1 G2) : Prop :=
  let W := fibWPoly w (env.rngF 0)
  let P := polyOf t
  let R := fibRPoly n (fun i => t.getD i 0) (fun i => w.getD i 0) (env.rngF 1)
  let P1 := Polynomial.C (env.rngF 2)
  let cm := fun p : Polynomial F => (Item.cm (p.eval β • g) : Item F G1)
  let α := env.hash [.fld 1, cm P, cm W, cm R]
  let ω := env.hash [.fld 1, cm P, cm W, cm R, cm P1]
  ∃ H1 H2 : Polynomial F, H1.degree < ((n + 2 : ℕ) : WithBot ℕ) ∧
    H2.degree < ((n + 2 : ℕ) : WithBot ℕ) ∧
    hadamardLaurent ω (fibPolys n x.a x.b x.c α W P R P1)
      = T (-((n + 2 : ℕ) : ℤ)) * toLaurent H1 + T 1 * toLaurent H2 ∧
    let Ĥ1 := X ^ (D + 1 - (n + 2)) * H1
    let z := env.hash [.fld 1, cm P, cm W, cm R, cm P1, cm Ĥ1, cm H2]
    let G := fibGPoly n (D + 1) x.a x.b x.c α ω z (W.eval (ω / z)) (P.eval (ω / z))
      (R.eval (ω / z)) P P1 Ĥ1 H2
    let good := (z ≠ 0 ∧ z ≠ 1 ∧ z ≠ ω) ∧ W.natDegree ≠ 0 ∧ P.natDegree ≠ 0 ∧
      R.natDegree ≠ 0 ∧ G.natDegree ≠ 0
    (good → ∃ π, fibProve env pk x w = .ok π ∧ fibVerify env vk x π = .ok ()) ∧
    (¬ good → fibProve env pk x w = .error .panic)

/-- The conclusion of C45. -/
def RcCompletes (env : Env F G1 G2 GT) (τ : F) (g : G1) (D : ℕ) (cs : RangeCheck)
    (w : List F) (pk : RcPK F G1 G2) (vk : RcVK G1 G2) : Prop :=
  let N := cs.lookupSize
  let n := cs.range
  let wf := fun i => w.getD i 0
  let tf := fun i : ℕ => (i : F)
  let mf := multOf N n wf tf
  let cm := fun p : Polynomial F => (Item.cm (p.eval τ • g) : Item F G1)
  let W := blindVec n wf (env.rngF 0)
  let P : Polynomial F := tablePoly n
  let M := blindVec n mf (env.rngF 1)
  let β := env.hash [.fld 1, cm P, cm W, cm M]
  let R := blindVec n (invOf N β wf) (env.rngF 2)
  let S := blindVec n (fun i => invOf n β tf i * mf i) (env.rngF 3)
  let A := blindVec n (runSum N n β wf tf mf) 0
  let α := env.hash [.fld 1, cm P, cm W, cm M, cm R, cm S, cm A]
  let P1 := blindPoly n 1 (env.rngF 5) (rcBase N n n α β W P M R S A)
  let ω := env.hash [.fld 1, cm P, cm W, cm M, cm R, cm S, cm A, cm P1]
  (∀ j, j < N → wf j + β ≠ 0) → ω ≠ 0 →
  ∃ H1 H2 : Polynomial F, H1.degree < ((n : ℕ) : WithBot ℕ) ∧
    H2.degree < ((n : ℕ) : WithBot ℕ) ∧
    hadamardLaurent ω (rcPolys N n n α β W P M R S A P1)
      = T (-((n : ℕ) : ℤ)) * toLaurent H1 + T 1 * toLaurent H2 ∧
    let Ĥ1 := X ^ (D + 1 - n) * H1
    let z := env.hash [.fld 1, cm P, cm W, cm M, cm R, cm S, cm A, cm P1, cm Ĥ1, cm H2]
    let G := rcGPoly N n n (D + 1) α β ω z (R.eval (ω / z)) (S.eval (ω / z))
      (M.eval (ω / z)) W P A P1 Ĥ1 H2
    let good := (z ≠ 0 ∧ z ≠ 1 ∧ z ≠ ω) ∧ R.natDegree ≠ 0 ∧ S.natDegree ≠ 0 ∧
      M.natDegree ≠ 0 ∧ G.natDegree ≠ 0
    (good → ∃ π, rcProve env pk w = .ok π ∧ rcVerify env vk π = .ok ()) ∧
    (¬ good → rcProve env pk w = .error .panic)

/-- The conclusion of C43, for `H` rows, `K` columns and `S` listed entries. -/
def R1csCompletes (env : Env F G1 G2 GT) (τ : F) (g : G1) (D : ℕ) (cs : R1CS F) (H K S : ℕ)
    (x w : List F) (pk : R1csPK F G1 G2) (vk : R1csVK G1 G2) : Prop :=
  let l := stacked cs
  let γ := env.gamma
  let A := asgPoly cs S x w (env.rngF 0)
  let cm := fun p : Polynomial F => (Item.cm (p.eval τ • g) : Item F G1)
  let pre := fun (first : F) (items : List (Item F G1)) =>
    [.fld first, .flds x, cm (rowPoly γ l), cm (colPoly γ l), cm (valPoly l),
      cm (rowColPoly γ l)] ++ items
  let μ := env.hash (pre 1 [cm A])
  let P := sPoly (3 * H) K γ μ l
  let ν := env.hash (pre 1 [cm A, cm P])
  let Q := hPoly K γ μ ν l
  let β := env.hash (pre 1 [cm A, cm P, cm Q])
  let R := partialPoly (K + S) (linTerm (3 * H) K β (valPoly l) A P Q) (env.rngF 1)
  let α := env.hash (pre 1 [cm A, cm P, cm Q, cm R])
  let B := blindPoly (K + S) (K + S - H + 1) (env.rngF 2)
    (r1csBase H K S cs.inputSize γ μ ν β α (rowPoly γ l) (colPoly γ l) (valPoly l)
      (rowColPoly γ l) (polyOf x) A P Q R)
  let ω := env.hash (pre 1 [cm A, cm P, cm Q, cm R, cm B])
  (∀ i, i < 3 * H → μ ≠ γ ^ i) → (∀ k, k < K → ν ≠ γ ^ k) →
  (ω = 0 → r1csProve env pk x w = .error .panic) ∧
  (ω ≠ 0 →
    ∃ H1 H2 : Polynomial F, H1.degree < ((2 * (K + S) - H : ℕ) : WithBot ℕ) ∧
      H2.degree < ((2 * (K + S) - H : ℕ) : WithBot ℕ) ∧
      hadamardLaurent ω (r1csPolys H K S cs.inputSize γ μ ν β α (rowPoly γ l) (colPoly γ l)
          (valPoly l) (rowColPoly γ l) (polyOf x) A P Q R B)
        = T (-((2 * (K + S) - H : ℕ) : ℤ)) * toLaurent H1 + T 1 * toLaurent H2 ∧
      let Ĥ1 := X ^ (D + 1 - (2 * (K + S) - H)) * H1
      let z := env.hash (pre 1 [cm A, cm P, cm Q, cm R, cm B, cm Ĥ1, cm H2])
      let G := r1csGPoly H K S cs.inputSize (D + 1) γ μ ν β α ω z (Q.eval (ω / z))
        (A.eval (ω / z)) ((polyOf x).eval z) (rowPoly γ l) (colPoly γ l) (valPoly l)
        (rowColPoly γ l) A P Q R B Ĥ1 H2
      let good := (z ≠ 0 ∧ z ≠ 1 ∧ z ≠ ω ∧ z ≠ γ * ω) ∧ Q.natDegree ≠ 0 ∧
        A.natDegree ≠ 0 ∧ G.natDegree ≠ 0
      (good → ∃ π, r1csProve env pk x w = .ok π ∧ r1csVerify env vk x π = .ok ()) ∧
      (¬ good → r1csProve env pk x w = .error .panic))

/-- The conclusion of C44, for `H` rows, `K` columns and `S` listed entries. -/
def HprCompletes (env : Env F G1 G2 GT) (τ : F) (g : G1) (D : ℕ) (cs : HPR F) (H K S : ℕ)
    (x w1 w2 w3 : List F) (pk : HprPK F G1 G2) (vk : HprVK G1 G2) : Prop :=
  let l := joined cs
  let γ := env.gamma
  let W := hprWitPoly K S w1 w2 w3 (env.rngF 0)
  let cm := fun p : Polynomial F => (Item.cm (p.eval τ • g) : Item F G1)
  let pre := fun (first : F) (items : List (Item F G1)) =>
    [.fld first, .flds x, cm (rowPoly γ l), cm (colPoly γ l), cm (valPoly l),
      cm (rowColPoly γ l)] ++ items
  let μ := env.hash (pre 1 [cm W])
  let P := sPoly H (3 * K + 1) γ μ l
  let ν := env.hash (pre 1 [cm W, cm P])
  let Q := hPoly (3 * K + 1) γ μ ν l
  let β := env.hash (pre 1 [cm W, cm P, cm Q])
  let R := partialPoly (3 * K + 1 + S)
    (linTerm H (3 * K + 1) β (valPoly l) (hprAsg H (polyOf x) W) P Q) (env.rngF 1)
  let α := env.hash (pre 1 [cm W, cm P, cm Q, cm R])
  let B := blindPoly (3 * K + 1 + S) (2 * K + S + 2) (env.rngF 2)
    (hprBase H K S γ μ ν β α (rowPoly γ l) (colPoly γ l) (valPoly l)
      (rowColPoly γ l) (polyOf x) W P Q R)
  let ω := env.hash (pre 1 [cm W, cm P, cm Q, cm R, cm B])
  (∀ i, i < H → μ ≠ γ ^ i) → (∀ k, k < 3 * K + 1 → ν ≠ γ ^ k) →
  (ω = 0 → hprProve env pk x (w1, w2, w3) = .error .panic) ∧
  (ω ≠ 0 →
    ∃ H1 H2 : Polynomial F, H1.degree < ((5 * K + 2 * S + 2 : ℕ) : WithBot ℕ) ∧
      H2.degree < ((5 * K + 2 * S + 2 : ℕ) : WithBot ℕ) ∧
      hadamardLaurent ω (hprPolys H K S γ μ ν β α (rowPoly γ l) (colPoly γ l)
          (valPoly l) (rowColPoly γ l) (polyOf x) W P Q R B)
        = T (-((5 * K + 2 * S + 2 : ℕ) : ℤ)) * toLaurent H1 + T 1 * toLaurent H2 ∧
      let Ĥ1 := X ^ (D + 1 - (5 * K + 2 * S + 2)) * H1
      let z := env.hash (pre 1 [cm W, cm P, cm Q, cm R, cm B, cm Ĥ1, cm H2])
      let G := hprGPoly H K S (D + 1) γ μ ν β α ω z (Q.eval (ω / z))
        (W.eval (ω / z)) ((polyOf x).eval (ω / z)) (rowPoly γ l) (colPoly γ l) (valPoly l)
        (rowColPoly γ l) W P Q R B Ĥ1 H2
      let good := (z ≠ 0 ∧ z ≠ 1 ∧ z ≠ ω ∧ z ≠ γ * ω) ∧ Q.natDegree ≠ 0 ∧
        W.natDegree ≠ 0 ∧ G.natDegree ≠ 0
      (good → ∃ π, hprProve env pk x (w1, w2, w3) = .ok π ∧ hprVerify env vk x π = .ok ()) ∧
      (¬ good → hprProve env pk x (w1, w2, w3) = .error .panic))

/-- The conclusion of C76, for `H` rows, `K` columns, `S` listed entries and `ℓ` inputs. -/
def R1csPeCompletes (env : Env F G1 G2 GT) (τ : F) (g : G1) (D : ℕ) (cs : R1CS F)
    (H K S ℓ : ℕ) (x w : List F) (pk : R1csPePK F G1 G2) (vk : R1csPeVK G1 G2) : Prop :=
  let l := stackedPe cs
  let γ := env.gamma
  let Y := padPoly S (prodVec cs x w) (env.rngF 0)
  let W := padPoly S w (env.rngF 1)
  let cm := fun p : Polynomial F => (Item.cm (p.eval τ • g) : Item F G1)
  let pre := fun (first : F) (items : List (Item F G1)) =>
    [.fld first, .flds x, cm (rowPoly γ l), cm (colPoly γ l), cm (valPoly l),
      cm (rowColPoly γ l)] ++ items
  let μ := env.hash (pre 1 [cm Y, cm W])
  let P := invPoly (3 * H) γ μ
  let Cc := colPolySum K γ μ l
  let ν := env.hash (pre 1 [cm Y, cm W, cm P, cm Cc])
  let Q := invPoly K γ ν
  let U := entryInvPoly γ μ ν l
  let β := env.hash (pre 1 [cm Y, cm W, cm P, cm Cc, cm Q, cm U])
  let R := partialPoly S (peTerm ℓ β (valPoly l) (polyOf x) Y W P Cc Q U) (env.rngF 2)
  let α := env.hash (pre 1 [cm Y, cm W, cm P, cm Cc, cm Q, cm U, cm R])
  let B := blindPoly S (2 * H + 1) (env.rngF 3)
    (r1csPeBase H K S ℓ γ μ ν β α (rowPoly γ l) (colPoly γ l) (valPoly l)
      (rowColPoly γ l) (polyOf x) Y W P Cc Q U R)
  let ω := env.hash (pre 1 [cm Y, cm W, cm P, cm Cc, cm Q, cm U, cm R, cm B])
  (∀ i, i < 3 * H → μ ≠ γ ^ i) → (∀ k, k < K → ν ≠ γ ^ k) →
  (ω = 0 → r1csPeProve env pk x w = .error .panic) ∧
  (ω ≠ 0 →
    ∃ H1 H2 : Polynomial F, H1.degree < ((2 * H + S : ℕ) : WithBot ℕ) ∧
      H2.degree < ((2 * H + S : ℕ) : WithBot ℕ) ∧
      hadamardLaurent ω (r1csPePolys H K S ℓ γ μ ν β α (rowPoly γ l) (colPoly γ l)
          (valPoly l) (rowColPoly γ l) (polyOf x) Y W P Cc Q U R B)
        = T (-((2 * H + S : ℕ) : ℤ)) * toLaurent H1 + T 1 * toLaurent H2 ∧
      let Ĥ1 := X ^ (D + 1 - (2 * H + S)) * H1
      let z := env.hash (pre 1 [cm Y, cm W, cm P, cm Cc, cm Q, cm U, cm R, cm B, cm Ĥ1, cm H2])
      let G := r1csPeGPoly H K S ℓ (D + 1) γ μ ν β α ω z (U.eval (ω / z))
        (Y.eval (ω / z)) (Cc.eval (ω / z)) ((polyOf x).eval z) (rowPoly γ l) (colPoly γ l)
        (valPoly l) (rowColPoly γ l) Y W P Cc Q R B Ĥ1 H2
      let good := (z ≠ 0 ∧ z ≠ 1 ∧ z ≠ ω ∧ z ≠ γ * ω) ∧ U.natDegree ≠ 0 ∧
        Y.natDegree ≠ 0 ∧ Cc.natDegree ≠ 0 ∧ G.natDegree ≠ 0
      (good → ∃ π, r1csPeProve env pk x w = .ok π ∧ r1csPeVerify env vk x π = .ok ()) ∧
      (¬ good → r1csPeProve env pk x w = .error .panic))

end VO
