import Verif.Props.PovSound
import Verif.Props.PovPeSound
import Verif.Props.R1csSnarkSound
import Verif.Props.R1csPeSound
import Verif.Props.HprSnarkSound
import Verif.Props.RangeCheckSound
import Verif.Props.FibonacciSound
import Verif.Lemmas.SnarkExample

/-
Property theorems C162: what the verifiers of voproof return and when they panic
(`verify` of `/repo/voproof/src/snarks/*.rs`).
-/

set_option linter.unusedSectionVars false

namespace VO
open Spec

variable {F : Type} [Field F] [DecidableEq F]
variable {G1 G2 GT : Type} [AddCommGroup G1] [Module F G1] [AddCommGroup G2] [Module F G2]
  [AddCommGroup GT] [Module F GT] [DecidableEq GT]

theorem decision {b : Bool} : (if b then (.ok () : Res Unit) else .error .verificationFail) = .ok () ∨
    (if b then (.ok () : Res Unit) else .error .verificationFail) = .error .verificationFail := by
  cases b
  · exact .inr rfl
  · exact .inl rfl

/-- **C162 (POV).** -/
theorem C162_pov (env : Env F G1 G2 GT) (vk : PovVK G1 G2) (hsz : vk.size.nadd + vk.size.nmul < vk.size.n) (x : POVInstance F)
    (π : PovProof F G1) :
    let pre := fun (l : List (Item F G1)) => [.fld 1, .nats x.idx, .flds x.vals, .cm vk.cmSigma, .cm vk.cmD] ++ l
    let ω := env.hash (pre [.cm π.cmW, .cm π.cmR, .cm π.cmT1])
    let z := env.hash (pre [.cm π.cmW, .cm π.cmR, .cm π.cmT1, .cm π.cmH1, .cm π.cmH2])
    (z = 0 ∨ z = 1 ∨ z = ω ∨ env.gamma * z = 1 → povVerify env vk x π = .error .panic) ∧
    (¬ (z = 0 ∨ z = 1 ∨ z = ω ∨ env.gamma * z = 1) → povVerify env vk x π = .ok () ∨ povVerify env vk x π = .error .verificationFail) := by
  intro pre ω z
  have f4 : env.hash (povPrefix 1 x vk.cmSigma vk.cmD ++ [.cm π.cmW, .cm π.cmR, .cm π.cmT1]) = ω := rfl
  have f5 : env.hash (povPrefix 1 x vk.cmSigma vk.cmD ++ [.cm π.cmW, .cm π.cmR, .cm π.cmT1, .cm π.cmH1, .cm π.cmH2]) = z := rfl
  simp only [povVerify, f4, f5]
  constructor
  · intro hb
    by_cases h0 : z = 0
    · rw [h0, divR_zero]
      rfl
    · simp only [divR_ok h0, povCoeffs_bad vk.degreeBound vk.size env.gamma _ _ _ ω z _ _ _ _ hb, bind, Except.bind]
  · intro hb
    push Not at hb
    obtain ⟨h0, h1, h2, h3⟩ := hb
    simp only [divR_ok h0, povCoeffs_ok vk.size.n vk.size.nadd vk.size.nmul vk.degreeBound vk.size rfl rfl rfl hsz env.gamma _ _ _ ω z _ _ _ _ h0 h1 h2 h3, bind, Except.bind]
    exact decision

/-- **C162 (prover-efficient POV).** -/
theorem C162_pov_pe (env : Env F G1 G2 GT) (vk : PovPeVK G1 G2) (hsz : vk.size.nadd + vk.size.nmul < vk.size.n) (x : POVInstance F)
    (π : PovPeProof F G1) :
    let pre := fun (l : List (Item F G1)) => [.fld 1, .nats x.idx, .flds x.vals, .cm vk.cmSigma, .cm vk.cmD] ++ l
    let ω := env.hash (pre [.cm π.cmU, .cm π.cmV, .cm π.cmR, .cm π.cmT1])
    let z := env.hash (pre [.cm π.cmU, .cm π.cmV, .cm π.cmR, .cm π.cmT1, .cm π.cmH1, .cm π.cmH2])
    (z = 0 ∨ z = 1 ∨ z = ω ∨ env.gamma * z = 1 → povPeVerify env vk x π = .error .panic) ∧
    (¬ (z = 0 ∨ z = 1 ∨ z = ω ∨ env.gamma * z = 1) → povPeVerify env vk x π = .ok () ∨ povPeVerify env vk x π = .error .verificationFail) := by
  intro pre ω z
  have f4 : env.hash (povPrefix 1 x vk.cmSigma vk.cmD ++ [.cm π.cmU, .cm π.cmV, .cm π.cmR, .cm π.cmT1]) = ω := rfl
  have f5 : env.hash (povPrefix 1 x vk.cmSigma vk.cmD ++ [.cm π.cmU, .cm π.cmV, .cm π.cmR, .cm π.cmT1, .cm π.cmH1, .cm π.cmH2]) = z := rfl
  simp only [povPeVerify, f4, f5]
  constructor
  · intro hb
    by_cases h0 : z = 0
    · rw [h0, divR_zero]
      rfl
    · simp only [divR_ok h0, povPeCoeffs_bad vk.degreeBound vk.size env.gamma _ _ _ ω z _ _ _ _ hb, bind, Except.bind]
  · intro hb
    push Not at hb
    obtain ⟨h0, h1, h2, h3⟩ := hb
    simp only [divR_ok h0, povPeCoeffs_ok vk.size.n vk.size.nadd vk.size.nmul vk.degreeBound vk.size rfl rfl rfl hsz env.gamma _ _ _ ω z _ _ _ _ h0 h1 h2 h3, bind, Except.bind]
    exact decision

/-- **C162 (R1CS).** -/
theorem C162_r1cs (env : Env F G1 G2 GT) (vk : R1csVK G1 G2) (S : ℕ)
    (hS : S = vk.size.adensity + vk.size.bdensity + vk.size.cdensity) (h1 : 1 ≤ vk.size.nrows)
    (h3 : 3 * vk.size.nrows ≤ S) (hℓ : vk.size.inputSize + 1 ≤ vk.size.ncols) (x : List F)
    (π : R1csProof F G1) :
    let pre := fun (l : List (Item F G1)) => [.fld 1, .flds x, .cm vk.cmU, .cm vk.cmW, .cm vk.cmV, .cm vk.cmY] ++ l
    let ω := env.hash (pre [.cm π.cmU1, .cm π.cmS, .cm π.cmH, .cm π.cmR, .cm π.cmT])
    let z := env.hash (pre [.cm π.cmU1, .cm π.cmS, .cm π.cmH, .cm π.cmR, .cm π.cmT, .cm π.cmH2,
      .cm π.cmH3])
    (z = 0 ∨ z = 1 ∨ z = ω ∨ z = env.gamma * ω → r1csVerify env vk x π = .error .panic) ∧
    (¬ (z = 0 ∨ z = 1 ∨ z = ω ∨ z = env.gamma * ω) → r1csVerify env vk x π = .ok () ∨ r1csVerify env vk x π = .error .verificationFail) := by
  intro pre ω z
  have f4 : env.hash (r1csPrefix 1 x vk.cmU vk.cmW vk.cmV vk.cmY ++ [.cm π.cmU1, .cm π.cmS, .cm π.cmH, .cm π.cmR, .cm π.cmT]) = ω := rfl
  have f5 : env.hash (r1csPrefix 1 x vk.cmU vk.cmW vk.cmV vk.cmY ++ [.cm π.cmU1, .cm π.cmS, .cm π.cmH, .cm π.cmR, .cm π.cmT, .cm π.cmH2, .cm π.cmH3]) = z := rfl
  simp only [r1csVerify, f4, f5]
  constructor
  · intro hb
    simp only [r1csCoeffs_bad vk.degreeBound vk.size env.gamma _ _ _ _ ω z _ _ _ hb, bind, Except.bind]
  · intro hb
    push Not at hb
    obtain ⟨h0, h1', h2, h3'⟩ := hb
    simp only [divR_ok h0, r1csCoeffs_ok vk.size.nrows vk.size.ncols S vk.size.inputSize vk.degreeBound vk.size rfl rfl
      hS.symm rfl h1 h3 hℓ env.gamma _ _ _ _ ω z _ _ _ h0 h1' h2 h3', bind, Except.bind]
    exact decision

/-- **C162 (HPR).** -/
theorem C162_hpr (env : Env F G1 G2 GT) (vk : HprVK G1 G2) (S : ℕ)
    (hS : S = vk.size.adensity + vk.size.bdensity + vk.size.cdensity + vk.size.ddensity) (h1 : 1 ≤ vk.size.nrows)
    (h3 : vk.size.nrows ≤ S) (hk : 1 ≤ vk.size.ncols) (x : List F)
    (π : HprProof F G1) :
    let pre := fun (l : List (Item F G1)) => [.fld 1, .flds x, .cm vk.cmU, .cm vk.cmW, .cm vk.cmV, .cm vk.cmY] ++ l
    let ω := env.hash (pre [.cm π.cmW1, .cm π.cmS, .cm π.cmH, .cm π.cmR, .cm π.cmT])
    let z := env.hash (pre [.cm π.cmW1, .cm π.cmS, .cm π.cmH, .cm π.cmR, .cm π.cmT, .cm π.cmH2,
      .cm π.cmH3])
    (z = 0 ∨ z = 1 ∨ z = ω ∨ z = env.gamma * ω → hprVerify env vk x π = .error .panic) ∧
    (¬ (z = 0 ∨ z = 1 ∨ z = ω ∨ z = env.gamma * ω) → hprVerify env vk x π = .ok () ∨ hprVerify env vk x π = .error .verificationFail) := by
  intro pre ω z
  have f4 : env.hash (r1csPrefix 1 x vk.cmU vk.cmW vk.cmV vk.cmY ++ [.cm π.cmW1, .cm π.cmS, .cm π.cmH, .cm π.cmR, .cm π.cmT]) = ω := rfl
  have f5 : env.hash (r1csPrefix 1 x vk.cmU vk.cmW vk.cmV vk.cmY ++ [.cm π.cmW1, .cm π.cmS, .cm π.cmH, .cm π.cmR, .cm π.cmT, .cm π.cmH2, .cm π.cmH3]) = z := rfl
  simp only [hprVerify, f4, f5]
  constructor
  · intro hb
    by_cases h0 : z = 0
    · rw [h0, divR_zero]
      rfl
    · simp only [divR_ok h0, hprCoeffs_bad vk.degreeBound vk.size env.gamma _ _ _ _ ω z _ _ _ hb, bind, Except.bind]
  · intro hb
    push Not at hb
    obtain ⟨h0, h1', h2, h3'⟩ := hb
    simp only [divR_ok h0, hprCoeffs_ok vk.size.nrows vk.size.ncols S vk.degreeBound vk.size rfl rfl
      hS.symm h1 h3 hk env.gamma _ _ _ _ ω z _ _ _ h0 h1' h2 h3', bind, Except.bind]
    exact decision

/-- **C162 (prover-efficient R1CS).** -/
theorem C162_r1cs_pe (env : Env F G1 G2 GT) (vk : R1csPeVK G1 G2) (S : ℕ)
    (hS : S = vk.size.adensity + vk.size.bdensity + vk.size.cdensity) (h1 : 1 ≤ vk.size.nrows)
    (h3 : 3 * vk.size.nrows ≤ S) (hK : 1 ≤ vk.size.ncols) (hKS : vk.size.ncols ≤ S) (x : List F)
    (π : R1csPeProof F G1) :
    let pre := fun (l : List (Item F G1)) => [.fld 1, .flds x, .cm vk.cmU, .cm vk.cmW, .cm vk.cmV, .cm vk.cmY] ++ l
    let ω := env.hash (pre [.cm π.cmY1, .cm π.cmW, .cm π.cmR, .cm π.cmC, .cm π.cmRnu, .cm π.cmT, .cm π.cmRt,
      .cm π.cmT1])
    let z := env.hash (pre [.cm π.cmY1, .cm π.cmW, .cm π.cmR, .cm π.cmC, .cm π.cmRnu, .cm π.cmT, .cm π.cmRt,
      .cm π.cmT1, .cm π.cmH1, .cm π.cmH2])
    (z = 0 ∨ z = 1 ∨ z = ω ∨ z = env.gamma * ω → r1csPeVerify env vk x π = .error .panic) ∧
    (¬ (z = 0 ∨ z = 1 ∨ z = ω ∨ z = env.gamma * ω) → r1csPeVerify env vk x π = .ok () ∨ r1csPeVerify env vk x π = .error .verificationFail) := by
  intro pre ω z
  have f4 : env.hash (r1csPrefix 1 x vk.cmU vk.cmW vk.cmV vk.cmY ++ [.cm π.cmY1, .cm π.cmW, .cm π.cmR, .cm π.cmC, .cm π.cmRnu, .cm π.cmT, .cm π.cmRt,
      .cm π.cmT1]) = ω := rfl
  have f5 : env.hash (r1csPrefix 1 x vk.cmU vk.cmW vk.cmV vk.cmY ++ [.cm π.cmY1, .cm π.cmW, .cm π.cmR, .cm π.cmC, .cm π.cmRnu, .cm π.cmT, .cm π.cmRt,
      .cm π.cmT1, .cm π.cmH1, .cm π.cmH2]) = z := rfl
  simp only [r1csPeVerify, f4, f5]
  constructor
  · intro hb
    simp only [r1csPeCoeffs_bad vk.degreeBound vk.size env.gamma _ _ _ _ ω z _ _ _ _ hb, bind, Except.bind]
  · intro hb
    push Not at hb
    obtain ⟨h0, h1', h2, h3'⟩ := hb
    simp only [divR_ok h0, r1csPeCoeffs_ok vk.size.nrows vk.size.ncols S vk.size.inputSize vk.degreeBound vk.size rfl rfl
      hS.symm rfl h1 h3 hK hKS env.gamma _ _ _ _ ω z _ _ _ _ h0 h1' h2 h3', bind, Except.bind]
    exact decision

/-- **C162 (Fibonacci).** -/
theorem C162_fibonacci (env : Env F G1 G2 GT) (vk : FibVK G1 G2) (hn : 2 ≤ vk.n) (x : FibInstance F) (π : FibProof F G1) :
    let ω := env.hash [.fld 1, .cm vk.cmT, .cm π.cmW, .cm π.cmR, .cm π.cmT1]
    let z := env.hash [.fld 1, .cm vk.cmT, .cm π.cmW, .cm π.cmR, .cm π.cmT1, .cm π.cmH1, .cm π.cmH2]
    (z = 0 ∨ z = 1 ∨ z = ω → fibVerify env vk x π = .error .panic) ∧
    (¬ (z = 0 ∨ z = 1 ∨ z = ω) → fibVerify env vk x π = .ok () ∨ fibVerify env vk x π = .error .verificationFail) := by
  intro ω z
  have f4 : fibOmega env vk.cmT π.cmW π.cmR π.cmT1 = ω := rfl
  have f5 : fibZ env vk.cmT π.cmW π.cmR π.cmT1 π.cmH1 π.cmH2 = z := rfl
  simp only [fibVerify, f4, f5]
  constructor
  · intro hb
    simp only [fibCoeffs_bad vk.n vk.degreeBound x _ ω z _ _ _ hb, bind, Except.bind]
  · intro hb
    push Not at hb
    obtain ⟨h0, h1, h2⟩ := hb
    simp only [divR_ok h0, fibCoeffs_ok vk.n vk.degreeBound hn x _ ω z _ _ _ h0 h1 h2, bind, Except.bind]
    exact decision

/-- **C162 (range check).** -/
theorem C162_range_check (env : Env F G1 G2 GT) (vk : RcVK G1 G2) (hN : 1 ≤ vk.size.lookupSize) (π : RcProof F G1) :
    let ω := env.hash [.fld 1, .cm vk.cmT, .cm π.cmW, .cm π.cmM, .cm π.cmR, .cm π.cmS, .cm π.cmRt, .cm π.cmT1]
    let z := env.hash [.fld 1, .cm vk.cmT, .cm π.cmW, .cm π.cmM, .cm π.cmR, .cm π.cmS, .cm π.cmRt, .cm π.cmT1,
      .cm π.cmH1, .cm π.cmH2]
    (z = 0 ∨ z = 1 ∨ z = ω → rcVerify env vk π = .error .panic) ∧
    (2 ≤ max vk.size.lookupSize vk.size.range ∨ ω ≠ 0 → ¬ (z = 0 ∨ z = 1 ∨ z = ω) →
      rcVerify env vk π = .ok () ∨ rcVerify env vk π = .error .verificationFail) := by
  intro ω z
  have f4 : rcOmega env vk.cmT π.cmW π.cmM π.cmR π.cmS π.cmRt π.cmT1 = ω := rfl
  have f5 : rcZ env vk.cmT π.cmW π.cmM π.cmR π.cmS π.cmRt π.cmT1 π.cmH1 π.cmH2 = z := rfl
  simp only [rcVerify, f4, f5]
  constructor
  · intro hb
    simp only [rcCoeffs_bad vk.size vk.degreeBound _ _ ω z _ _ _ hb, bind, Except.bind]
  · intro hn hb
    push Not at hb
    obtain ⟨h0, h1, h2⟩ := hb
    simp only [divR_ok h0, rcCoeffs_ok vk.size hN vk.degreeBound _ _ ω z _ _ _ hn h0 h1 h2, bind, Except.bind]
    exact decision

/-! Concrete cases: a hash that counts the items decides, a constant one makes every verification panic. -/

example (vk : FibVK K97 K97) (hn : vk.n = 5) (x : FibInstance K97) (π : FibProof K97 K97) :
    fibVerify { env97 with hash := fun _ => 1 } vk x π = .error .panic ∧
      fibVerify { env97 with hash := fun l => (l.length : K97) } vk x π ≠ .error .panic := by
  constructor
  · exact (C162_fibonacci { env97 with hash := fun _ => 1 } vk (by omega) x π).1 (.inr (.inl rfl))
  · rcases (C162_fibonacci { env97 with hash := fun l => (l.length : K97) } vk (by omega) x π).2
      (show ¬ (((7 : ℕ) : K97) = 0 ∨ ((7 : ℕ) : K97) = 1 ∨ ((7 : ℕ) : K97) = ((5 : ℕ) : K97)) by decide +kernel)
      with h | h <;> rw [h] <;> simp

example (vk : PovVK K97 K97) (hs : vk.size.nadd + vk.size.nmul < vk.size.n) (x : POVInstance K97)
    (π : PovProof K97 K97) :
    povVerify { env97 with hash := fun _ => 0 } vk x π = .error .panic ∧
      povVerify { env97 with hash := fun l => (l.length : K97) } vk x π ≠ .error .panic := by
  constructor
  · exact (C162_pov { env97 with hash := fun _ => 0 } vk hs x π).1 (.inl rfl)
  · rcases (C162_pov { env97 with hash := fun l => (l.length : K97) } vk hs x π).2
      (show ¬ (((10 : ℕ) : K97) = 0 ∨ ((10 : ℕ) : K97) = 1 ∨ ((10 : ℕ) : K97) = ((8 : ℕ) : K97) ∨
        (5 : K97) * ((10 : ℕ) : K97) = 1) by decide +kernel)
      with h | h <;> rw [h] <;> simp

example (vk : R1csVK K97 K97) (h1 : vk.size.nrows = 2) (h2 : vk.size.ncols = 3) (h3 : vk.size.inputSize = 1)
    (h4 : vk.size.adensity = 2) (h5 : vk.size.bdensity = 2) (h6 : vk.size.cdensity = 2) (x : List K97)
    (π : R1csProof K97 K97) :
    r1csVerify { env97 with hash := fun l => (l.length : K97) } vk x π ≠ .error .panic := by
  rcases (C162_r1cs { env97 with hash := fun l => (l.length : K97) } vk 6 (by omega) (by omega) (by omega) (by omega) x
    π).2 (show ¬ (((13 : ℕ) : K97) = 0 ∨ ((13 : ℕ) : K97) = 1 ∨ ((13 : ℕ) : K97) = ((11 : ℕ) : K97) ∨
        ((13 : ℕ) : K97) = (5 : K97) * ((11 : ℕ) : K97)) by decide +kernel)
    with h | h <;> rw [h] <;> simp

end VO
