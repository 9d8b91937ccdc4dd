import Verif.Lemmas.CompleteErr
import Verif.Lemmas.Odds
import Verif.Spec.Drawn
import Verif.Props.Completes
import Verif.Props.Pov
import Verif.Props.PovPe
import Verif.Props.PovSound
import Verif.Props.R1csSnarkSound
import Verif.Props.R1csPeSound

set_option linter.unusedSectionVars false

/-
C147: how often an honest run fails.  The tuples list the prover's random values `δ` and the challenges;
`env.drawn` is the environment with these values, so `Odds F k` says that a run with independent uniform
values fails (`prove` gives no proof, or `verify` does not accept it) with probability at most `k / |F|`.
-/

namespace VO
open Spec
open Polynomial

variable {F G1 G2 GT : Type} [Field F] [DecidableEq F]
  [AddCommGroup G1] [Module F G1] [DecidableEq G1] [AddCommGroup G2] [Module F G2]
  [AddCommGroup GT] [Module F GT] [DecidableEq GT]

theorem drawn_hash (env : Env F G1 G2 GT) (rs : List F) (cs : List (ℕ × F)) (second : F)
    (l : List (Item F G1)) :
    (env.drawn rs cs second).hash (.fld 1 :: l) = (cs.lookup (l.length + 1)).getD 0 := by
  have : (1 : F) ≠ 2 := by
    intro h
    exact one_ne_zero (α := F) (by linear_combination -h)
  simp [Env.drawn, this]

theorem drawn_hash2 (env : Env F G1 G2 GT) (rs : List F) (cs : List (ℕ × F)) (second : F)
    (l : List (Item F G1)) :
    (env.drawn rs cs second).hash (.fld 2 :: l) = second := by
  simp [Env.drawn]

theorem drawn_rng (env : Env F G1 G2 GT) (rs : List F) (cs : List (ℕ × F)) (second : F) (i : ℕ) :
    (env.drawn rs cs second).rngF i = rs.getD i 0 := rfl

theorem fibGPoly_coeff (n E : ℕ) (x : FibInstance F) (α ω z : F) {y y1 y2 : F} {P P1 H1 H2 : F[X]} {k : ℕ}
    (hk : k ≠ 0) (hP : P.coeff k = 0) (hP1 : P1.coeff k = 0) (hH2 : H2.coeff k = 0) :
    (fibGPoly n E x.a x.b x.c α ω z y y1 y2 P P1 H1 H2).coeff k = -((z ^ E)⁻¹ * H1.coeff k) := by
  simp [fibGPoly, fibComb, coeff_one, hk, hP, hP1, hH2]

/-- **C147** (Fibonacci). An honest run on a satisfied instance fails with probability at most `7 / |F|`.  The
coefficient polynomial must not be constant (otherwise the prover always panics, C37). -/
theorem C147_fibonacci [Fintype F] (env : Env F G1 G2 GT) (hf : FftOk env.fft) (β : F) (g : G1) (h : G2)
    (D : ℕ) (pp : UniversalParams G1 G2) (hs : kzgSetup D β g h = .ok pp) (n : ℕ) (hn : 2 ≤ n)
    (hD : n + 2 ≤ D) (t : List F) (ht : t.length = n) (htn : (polyOf t).natDegree ≠ 0)
    (hfft : 2 * n + 1 ≤ 2 ^ env.fft.twoAdicity) (x : FibInstance F) (w : List F)
    (hw : w.length = n)
    (hrel : FibHolds n (fun i => t.getD i 0) x.a x.b x.c (fun i => w.getD i 0)) :
    ∃ pk vk, fibIndex pp ⟨n, t⟩ = .ok (pk, vk) ∧
      Odds F 7 fun (c : F × F × F × F × F × F) =>
        let (δ0, δ1, α, ω, δ2, z) := c
        let run := env.drawn [δ0, δ1, δ2] [(4, α), (5, ω), (7, z)] 0
        ¬ ∃ π, fibProve run pk x w = .ok π ∧ fibVerify run vk x π = .ok () := by
  obtain ⟨pk, vk, hidx, -⟩ := C37_complete env hf β g h D pp hs n hn hD t ht hfft x w hw hrel
  refine ⟨pk, vk, hidx, ?_⟩
  refine Odds.mono (k := 1 + (1 + (1 + (1 + 3)))) ?_ (by omega) (fun _ h => h)
  refine Odds.step {0} (by simp) fun δ0 h0 => Odds.step {0} (by simp) fun δ1 h1 => Odds.skip fun α =>
    Odds.step {0} (by simp) fun ω hω => ?_
  simp only [Finset.mem_singleton] at h0 h1 hω
  obtain ⟨b, hb⟩ := blind_one ω hω (fibPolys n x.a x.b x.c α (fibWPoly w δ0) (polyOf t)
    (fibRPoly n (fun i => t.getD i 0) (fun i => w.getD i 0) δ1) 0).dropLast n 3 (by omega) (by omega) 0
  refine Odds.step {b} (by simp) fun δ2 h2 => Odds.last {0, 1, ω} (Finset.card_le_three) fun z hz => ?_
  simp only [Finset.mem_singleton, Finset.mem_insert, not_or] at h2 hz
  rw [not_not]
  obtain ⟨pk', vk', hidx', H1, H2, d1, d2, hL, hgood, -⟩ :=
    C37_complete (env.drawn [δ0, δ1, δ2] [(4, α), (5, ω), (7, z)] 0) hf β g h D pp hs n hn hD t ht hfft
      x w hw hrel
  rw [hidx] at hidx'
  obtain ⟨rfl, rfl⟩ : pk = pk' ∧ vk = vk' := by simpa using hidx'
  apply hgood
  simp only [drawn_hash, drawn_rng] at hL ⊢
  have hb2 := hb δ2 h2
  rw [add_zero] at hb2
  refine ⟨hz, ?_, htn, ?_, ?_⟩
  · refine natDegree_ne_zero_of_coeff (k := n) (by omega) ?_
    rw [fibWPoly, coeff_polyOf_last _ _ hw]
    exact h0
  · refine natDegree_ne_zero_of_coeff (k := n) (by omega) ?_
    rw [fibRPoly, coeff_sum_blind]
    exact h1
  · refine natDegree_ne_zero_of_coeff (k := D) (by omega) ?_
    rw [fibGPoly_coeff _ _ _ _ _ _ (by omega) (coeff_zero_of_degree_lt (degree_polyOf_lt t) (by omega))
      (coeff_C_of_ne_zero (by omega)) (coeff_zero_of_degree_lt d2 hD),
      shifted_top (by omega) (by omega) hL]
    exact neg_ne_zero.2 (mul_ne_zero (inv_ne_zero (pow_ne_zero _ hz.1)) hb2)

theorem povGPoly_coeff (c ca cm E : ℕ) (γ ζ ζ1 α ω z : F) {y y1 y2 v : F} {W S K P1 H1 H2 : F[X]} {k : ℕ}
    (hk : k ≠ 0) (hW : W.coeff k = 0) (hS : S.coeff k = 0) (hK : K.coeff k = 0) (hP1 : P1.coeff k = 0)
    (hH2 : H2.coeff k = 0) :
    (povGPoly c ca cm E γ ζ ζ1 α ω z y y1 y2 v W S K P1 H1 H2).coeff k = -((z ^ E)⁻¹ * H1.coeff k) := by
  simp [povGPoly, povComb, coeff_one, hk, hW, hS, hK, hP1, hH2]

/-- The values of `ζ1` for which the grand product divides by zero. -/
theorem zeta_few (n : ℕ) (f : ℕ → F) : ∃ bad : Finset F, bad.card ≤ n ∧
    ∀ x, x ∉ bad → ∀ j, j < n → f j + x ≠ 0 := by
  refine ⟨(Finset.range n).image fun j => - f j, Finset.card_image_le.trans (by simp), ?_⟩
  intro x hx j hj h0
  exact hx (Finset.mem_image.2 ⟨j, Finset.mem_range.2 hj, by linear_combination -h0⟩)

theorem card_le_four' (a b c d : F) : ({a, b, c, d} : Finset F).card ≤ 4 := Finset.card_le_four

/-- **C147** (POV). An honest run on a satisfied instance of a system with `c` gates fails with probability at
most `(3c + 8) / |F|`. -/
theorem C147_pov [Fintype F] (env : Env F G1 G2 GT) (hf : FftOk env.fft) (hγ : env.gamma ≠ 0) (β : F)
    (g : G1) (h : G2) (D : ℕ) (pp : UniversalParams G1 G2) (hs : kzgSetup D β g h = .ok pp) (cs : POV F)
    (hne : cs.consts ≠ []) (c : ℕ) (hc : c = cs.nmul + cs.nadd + cs.consts.length)
    (hD : 6 * c - cs.nmul ≤ D) (hfft : 6 * c + 2 ≤ 2 ^ env.fft.twoAdicity)
    (ins : POVInstance F) (hlen : ins.idx.length = ins.vals.length) (hnd : ins.idx.Nodup)
    (w : POVWitness F) (hsh : PovShape cs w) (hsat : cs.satisfy ins w = .ok true) :
    ∃ pk vk, povIndex env.gamma pp cs = .ok (pk, vk) ∧
      Odds F (3 * c + 8) fun (t : F × F × F × F × F × F × F × F) =>
        let (δ0, ζ, ζ1, δ1, α, ω, δ2, z) := t
        let run := env.drawn [δ0, δ1, δ2] [(6, ζ), (7, α), (8, ω), (10, z)] ζ1
        ¬ ∃ π, povProve run pk ins w = .ok π ∧ povVerify run vk ins π = .ok () := by
  obtain ⟨pk, vk, hidx, -⟩ :=
    C41_complete env hf hγ β g h D pp hs cs hne c hc hD hfft ins hlen hnd w hsh hsat
  refine ⟨pk, vk, hidx, ?_⟩
  have hc1 : 1 ≤ cs.consts.length := List.length_pos_of_ne_nil hne
  have hvl : (povVec w).length = 3 * c := by
    obtain ⟨a, b, d⟩ := hsh
    simp [povVec]
    omega
  set σ := (cs.wires.map (fun p => Equiv.swap p.1 p.2)).prod with hσ
  refine Odds.mono (k := 1 + (3 * c + (1 + (1 + (1 + 4))))) ?_ (by omega) (fun _ h => h)
  refine Odds.step {0} (by simp) fun δ0 h0 => Odds.skip fun ζ => ?_
  obtain ⟨bad, hbad, hz1⟩ := zeta_few (3 * c)
    (fun j => (povVec w).getD j 0 + ζ * env.gamma ^ σ j)
  refine Odds.step bad hbad fun ζ1 hζ1 => Odds.step {0} (by simp) fun δ1 h1 => Odds.skip fun α =>
    Odds.step {0} (by simp) fun ω hω => ?_
  simp only [Finset.mem_singleton] at h0 h1 hω
  obtain ⟨b, hb⟩ := blind_poly_one ω hω
    (povBase c cs.nadd cs.nmul env.gamma ζ ζ1 α (polyOf (povVec w ++ [δ0])) (permPoly (3 * c) env.gamma σ)
      (polyOf cs.consts) (selPoly ins.idx) (instPoly ins.idx ins.vals)
      (grandPoly (3 * c) env.gamma ζ ζ1 (fun j => (povVec w).getD j 0) (fun j => env.gamma ^ σ j) δ1))
    (3 * c) (3 * c - cs.nmul + 1) (by omega) (by omega)
  refine Odds.step {b} (by simp) fun δ2 h2 => Odds.last {0, 1, ω, env.gamma⁻¹} (card_le_four' _ _ _ _)
    fun z hz => ?_
  simp only [Finset.mem_singleton, Finset.mem_insert, not_or] at h2 hz
  rw [not_not]
  obtain ⟨pk', vk', hidx', -, hrest⟩ :=
    C41_complete (env.drawn [δ0, δ1, δ2] [(6, ζ), (7, α), (8, ω), (10, z)] ζ1) hf hγ β g h D pp hs cs hne c
      hc hD hfft ins hlen hnd w hsh hsat
  have hidx' : povIndex env.gamma pp cs = .ok (pk', vk') := hidx'
  rw [hidx] at hidx'
  obtain ⟨rfl, rfl⟩ : pk = pk' ∧ vk = vk' := by simpa using hidx'
  simp only [List.cons_append, List.nil_append, drawn_hash, drawn_hash2, drawn_rng] at hrest
  obtain ⟨H1, H2, d1, d2, hL, hgood, -⟩ := hrest (hz1 ζ1 hζ1) (Or.inl hω)
  apply hgood
  refine ⟨⟨hz.1, hz.2.1, hz.2.2.1, fun he => hz.2.2.2 (eq_inv_of_mul_eq_one_right he)⟩, ?_, ?_, ?_⟩
  · refine natDegree_ne_zero_of_coeff (k := 3 * c) (by omega) ?_
    rw [coeff_polyOf_last _ _ hvl]
    exact h0
  · refine natDegree_ne_zero_of_coeff (k := 3 * c) (by omega) ?_
    rw [grandPoly, coeff_sum_blind]
    exact h1
  · refine natDegree_ne_zero_of_coeff (k := D) (by omega) ?_
    rw [povGPoly_coeff _ _ _ _ _ _ _ _ _ _ (by omega)
      (coeff_zero_of_degree_lt (degree_polyOf_lt _) (by simp [hvl]; omega))
      (coeff_zero_of_degree_lt (degree_permPoly _ _ _) (by omega))
      (coeff_zero_of_degree_lt (degree_polyOf_lt _) (by omega))
      (coeff_blindPoly_high _ _ _ _ _ (by omega)) (coeff_zero_of_degree_lt d2 hD),
      shifted_top (by omega) (by omega) hL]
    exact neg_ne_zero.2 (mul_ne_zero (inv_ne_zero (pow_ne_zero _ hz.1)) (hb δ2 h2))

theorem povPeGPoly_coeff (c ca cm E : ℕ) (γ ζ ζ1 α ω z : F) {y y1 y2 t : F} {U V S K P1 H1 H2 : F[X]} {k : ℕ}
    (hk : k ≠ 0) (hU : U.coeff k = 0) (hV : V.coeff k = 0) (hS : S.coeff k = 0) (hK : K.coeff k = 0)
    (hP1 : P1.coeff k = 0) (hH2 : H2.coeff k = 0) :
    (povPeGPoly c ca cm E γ ζ ζ1 α ω z y y1 y2 t U V S K P1 H1 H2).coeff k
      = -((z ^ E)⁻¹ * H1.coeff k) := by
  simp [povPeGPoly, povPeComb, coeff_one, hk, hU, hV, hS, hK, hP1, hH2]

/-- **C147** (POV, prover efficient variant). An honest run on a satisfied instance of a system with `c`
gates fails with probability at most `(3c + 8) / |F|`. -/
theorem C147_pov_pe [Fintype F] (env : Env F G1 G2 GT) (hf : FftOk env.fft) (hγ : env.gamma ≠ 0) (β : F)
    (g : G1) (h : G2) (D : ℕ) (pp : UniversalParams G1 G2) (hs : kzgSetup D β g h = .ok pp) (cs : POV F)
    (hne : cs.consts ≠ []) (c : ℕ) (hc : c = cs.nmul + cs.nadd + cs.consts.length)
    (hD : 4 * c + cs.nmul ≤ D) (hfft : 6 * c + 2 ≤ 2 ^ env.fft.twoAdicity)
    (ins : POVInstance F) (hlen : ins.idx.length = ins.vals.length) (hnd : ins.idx.Nodup)
    (hpub : ∀ i ∈ ins.idx, 2 * c + cs.nadd + cs.nmul ≤ i →
      cs.consts.getD (i - (2 * c + cs.nadd + cs.nmul)) 0 = 0)
    (w : POVWitness F) (hsh : PovShape cs w) (hsat : cs.satisfy ins w = .ok true) :
    ∃ pk vk, povPeIndex env.gamma pp cs = .ok (pk, vk) ∧
      Odds F (3 * c + 8) fun (t : F × F × F × F × F × F × F × F × F) =>
        let (δ0, δ1, ζ, ζ1, δ2, α, ω, δ3, z) := t
        let run := env.drawn [δ0, δ1, δ2, δ3] [(7, ζ), (8, α), (9, ω), (11, z)] ζ1
        ¬ ∃ π, povPeProve run pk ins w = .ok π ∧ povPeVerify run vk ins π = .ok () := by
  obtain ⟨pk, vk, hidx, -⟩ :=
    C70_complete env hf hγ β g h D pp hs cs hne c hc hD hfft ins hlen hnd hpub w hsh hsat
  refine ⟨pk, vk, hidx, ?_⟩
  have hc1 : 1 ≤ cs.consts.length := List.length_pos_of_ne_nil hne
  obtain ⟨l0, l1, l2⟩ := id hsh
  set σ := (cs.wires.map (fun p => Equiv.swap p.1 p.2)).prod with hσ
  refine Odds.mono (k := 1 + (3 * c + (1 + (1 + (1 + 4))))) ?_ (by omega) (fun _ h => h)
  refine Odds.step {0} (by simp) fun δ0 h0 => Odds.skip fun δ1 => Odds.skip fun ζ => ?_
  obtain ⟨bad, hbad, hz1⟩ := zeta_few (3 * c)
    (fun j => (povVec w).getD j 0 + ζ * env.gamma ^ σ j)
  refine Odds.step bad hbad fun ζ1 hζ1 => Odds.step {0} (by simp) fun δ2 h1 => Odds.skip fun α =>
    Odds.step {0} (by simp) fun ω hω => ?_
  simp only [Finset.mem_singleton] at h0 h1 hω
  obtain ⟨b, hb⟩ := blind_poly_one ω hω
    (povPeBase c cs.nadd cs.nmul env.gamma ζ ζ1 α (polyOf (peU c cs.nmul w δ0))
      (polyOf (peV c cs.nadd cs.nmul w δ1)) (permPoly (3 * c) env.gamma σ)
      (polyOf cs.consts) (selPoly ins.idx) (instPoly ins.idx ins.vals)
      (grandPoly (3 * c) env.gamma ζ ζ1 (fun j => (povVec w).getD j 0) (fun j => env.gamma ^ σ j) δ2))
    (3 * c) (c + cs.nmul + 1) (by omega) (by omega)
  refine Odds.step {b} (by simp) fun δ3 h2 => Odds.last {0, 1, ω, env.gamma⁻¹} (card_le_four' _ _ _ _)
    fun z hz => ?_
  simp only [Finset.mem_singleton, Finset.mem_insert, not_or] at h2 hz
  rw [not_not]
  obtain ⟨pk', vk', hidx', -, hrest⟩ :=
    C70_complete (env.drawn [δ0, δ1, δ2, δ3] [(7, ζ), (8, α), (9, ω), (11, z)] ζ1) hf hγ β g h D pp hs cs
      hne c hc hD hfft ins hlen hnd hpub w hsh hsat
  have hidx' : povPeIndex env.gamma pp cs = .ok (pk', vk') := hidx'
  rw [hidx] at hidx'
  obtain ⟨rfl, rfl⟩ : pk = pk' ∧ vk = vk' := by simpa using hidx'
  simp only [List.cons_append, List.nil_append, drawn_hash, drawn_hash2, drawn_rng] at hrest
  obtain ⟨H1, H2, d1, d2, hL, hgood, -⟩ := (hrest (hz1 ζ1 hζ1)).2 hω
  apply hgood
  refine ⟨⟨hz.1, hz.2.1, hz.2.2.1, fun he => hz.2.2.2 (eq_inv_of_mul_eq_one_right he)⟩, ?_, ?_, ?_⟩
  · refine natDegree_ne_zero_of_coeff (k := 3 * c) (by omega) ?_
    rw [peU, coeff_polyOf_last _ _ (by simp; omega)]
    exact h0
  · refine natDegree_ne_zero_of_coeff (k := 3 * c) (by omega) ?_
    rw [grandPoly, coeff_sum_blind]
    exact h1
  · refine natDegree_ne_zero_of_coeff (k := D) (by omega) ?_
    rw [povPeGPoly_coeff _ _ _ _ _ _ _ _ _ _ (by omega)
      (coeff_zero_of_degree_lt (degree_polyOf_lt _) (by simp [peU]; omega))
      (coeff_zero_of_degree_lt (degree_polyOf_lt _) (by simp [peV]; omega))
      (coeff_zero_of_degree_lt (degree_permPoly _ _ _) (by omega))
      (coeff_zero_of_degree_lt (degree_polyOf_lt _) (by omega))
      (coeff_blindPoly_high _ _ _ _ _ (by omega)) (coeff_zero_of_degree_lt d2 hD),
      shifted_top (by omega) (by omega) hL]
    exact neg_ne_zero.2 (mul_ne_zero (inv_ne_zero (pow_ne_zero _ hz.1)) (hb δ3 h2))

theorem r1csGPoly_coeff (H K S ℓ E : ℕ) (γ μ ν β α ω z : F) {y y1 v : F}
    {Pu Pw Pv Py A P Q R T H1 H2 : F[X]} {k : ℕ} (hk : k ≠ 0) (hu : Pu.coeff k = 0) (hw : Pw.coeff k = 0)
    (hv : Pv.coeff k = 0) (hy : Py.coeff k = 0) (hA : A.coeff k = 0) (hP : P.coeff k = 0)
    (hQ : Q.coeff k = 0) (hR : R.coeff k = 0) (hT : T.coeff k = 0) (hH2 : H2.coeff k = 0) :
    (r1csGPoly H K S ℓ E γ μ ν β α ω z y y1 v Pu Pw Pv Py A P Q R T H1 H2).coeff k
      = -((z ^ E)⁻¹ * H1.coeff k) := by
  simp [r1csGPoly, r1csComb, coeff_one, hk, hu, hw, hv, hy, hA, hP, hQ, hR, hT, hH2]

theorem hprGPoly_coeff (H K S E : ℕ) (γ μ ν β α ω z : F) {y y1 v : F}
    {Pu Pw Pv Py A P Q R T H1 H2 : F[X]} {k : ℕ} (hk : k ≠ 0) (hu : Pu.coeff k = 0) (hw : Pw.coeff k = 0)
    (hv : Pv.coeff k = 0) (hy : Py.coeff k = 0) (hA : A.coeff k = 0) (hP : P.coeff k = 0)
    (hQ : Q.coeff k = 0) (hR : R.coeff k = 0) (hT : T.coeff k = 0) (hH2 : H2.coeff k = 0) :
    (hprGPoly H K S E γ μ ν β α ω z y y1 v Pu Pw Pv Py A P Q R T H1 H2).coeff k
      = -((z ^ E)⁻¹ * H1.coeff k) := by
  simp [hprGPoly, hprComb, coeff_one, hk, hu, hw, hv, hy, hA, hP, hQ, hR, hT, hH2]

/-- The challenges that are one of the first powers of the generator. -/
theorem powers_few (γ : F) (n : ℕ) : ∃ bad : Finset F, bad.card ≤ n ∧
    ∀ x, x ∉ bad → ∀ j, j < n → x ≠ γ ^ j := by
  refine ⟨(Finset.range n).image fun j => γ ^ j, Finset.card_image_le.trans (by simp), ?_⟩
  intro x hx j hj h0
  exact hx (Finset.mem_image.2 ⟨j, Finset.mem_range.2 hj, h0.symm⟩)

theorem coeff_map_zero (l : List ((ℕ × ℕ) × F)) (f : (ℕ × ℕ) × F → F) {k : ℕ} (hk : l.length ≤ k) :
    (polyOf (l.map f)).coeff k = 0 :=
  coeff_zero_of_degree_lt (degree_polyOf_lt _) (by simpa using hk)

theorem coeff_rowPoly_zero (γ : F) (l : List ((ℕ × ℕ) × F)) {k : ℕ} (hk : l.length ≤ k) :
    (rowPoly γ l).coeff k = 0 := coeff_map_zero l _ hk
theorem coeff_colPoly_zero (γ : F) (l : List ((ℕ × ℕ) × F)) {k : ℕ} (hk : l.length ≤ k) :
    (colPoly γ l).coeff k = 0 := coeff_map_zero l _ hk
theorem coeff_valPoly_zero (l : List ((ℕ × ℕ) × F)) {k : ℕ} (hk : l.length ≤ k) :
    (valPoly l).coeff k = 0 := coeff_map_zero l _ hk
theorem coeff_rowColPoly_zero (γ : F) (l : List ((ℕ × ℕ) × F)) {k : ℕ} (hk : l.length ≤ k) :
    (rowColPoly γ l).coeff k = 0 := coeff_map_zero l _ hk

/-- The inverse of an entry's denominator is not zero. -/
theorem entry_inv_ne (n K : ℕ) (γ μ ν : F) (l : List ((ℕ × ℕ) × F))
    (hr : ∀ e ∈ l, e.1.1 < n ∧ e.1.2 < K) (hμ : ∀ i, i < n → μ ≠ γ ^ i) (hν : ∀ k, k < K → ν ≠ γ ^ k)
    (j : ℕ) (hj : j < l.length) :
    (l.map (fun e => ((μ - γ ^ e.1.1) * (ν - γ ^ e.1.2))⁻¹)).getD j 0 ≠ 0 := by
  rw [List.getD_eq_getElem _ _ (by simpa using hj), List.getElem_map]
  have := hr l[j] (List.getElem_mem hj)
  exact inv_ne_zero (mul_ne_zero (sub_ne_zero.2 (hμ _ this.1)) (sub_ne_zero.2 (hν _ this.2)))

theorem hPoly_natDegree (n K : ℕ) (hK : 1 ≤ K) (γ μ ν : F) (l : List ((ℕ × ℕ) × F)) (hl : 1 ≤ l.length)
    (hr : ∀ e ∈ l, e.1.1 < n ∧ e.1.2 < K) (hμ : ∀ i, i < n → μ ≠ γ ^ i) (hν : ∀ k, k < K → ν ≠ γ ^ k) :
    (hPoly K γ μ ν l).natDegree ≠ 0 := by
  refine natDegree_ne_zero_of_coeff (k := K) (by omega) ?_
  rw [coeff_hPoly, if_neg (by omega), Nat.sub_self]
  exact entry_inv_ne n K γ μ ν l hr hμ hν 0 (by omega)

/-- **C147** (R1CS). An honest run on a satisfied instance of a system with `H` rows and `K` columns fails with
probability at most `(3H + K + 7) / |F|`. -/
theorem C147_r1cs [Fintype F] (env : Env F G1 G2 GT) (hf : FftOk env.fft) (hγ : env.gamma ≠ 0) (τ : F)
    (g : G1) (h : G2) (D : ℕ) (pp : UniversalParams G1 G2) (hs : kzgSetup D τ g h = .ok pp) (cs : R1CS F)
    (hl : R1csLens cs) (H K S : ℕ) (hH : H = cs.nrows) (hK : K = cs.ncols)
    (hS : S = (stacked cs).length) (h3 : 3 * H ≤ S) (h4 : 4 * H ≤ K + S + 1)
    (hD : 2 * (K + S) - H ≤ D) (hfft : 2 * (K + S) + 2 ≤ 2 ^ env.fft.twoAdicity)
    (x w : List F) (hsh : R1CSShape cs x w) (hin : cs.inputSize ≤ x.length)
    (hsat : cs.satisfy x w = .ok true) :
    ∃ pk vk, r1csIndex env.gamma pp cs = .ok (pk, vk) ∧
      Odds F (3 * H + K + 7) fun (t : F × F × F × F × F × F × F × F × F) =>
        let (δ0, μ, ν, β, δ1, α, ω, δ2, z) := t
        let run := env.drawn [δ0, δ1, δ2] [(7, μ), (8, ν), (9, β), (10, α), (11, ω), (13, z)] 0
        ¬ ∃ π, r1csProve run pk x w = .ok π ∧ r1csVerify run vk x π = .ok () := by
  obtain ⟨pk, vk, hidx, -⟩ :=
    C43_complete env hf hγ τ g h D pp hs cs hl H K S hH hK hS h3 h4 hD hfft x w hsh hin hsat
  refine ⟨pk, vk, hidx, ?_⟩
  obtain ⟨q1, q2, q3, ra, rb, rc⟩ := id hsh
  have hr := stacked_range cs ra rb rc
  rw [← hH, ← hK] at hr
  set γ := env.gamma with hγd
  refine Odds.mono (k := 1 + (3 * H + (K + (1 + (1 + 4))))) ?_ (by omega) (fun _ h => h)
  obtain ⟨badμ, hbadμ, hμ'⟩ := powers_few γ (3 * H)
  obtain ⟨badν, hbadν, hν'⟩ := powers_few γ K
  refine Odds.step {0} (by simp) fun δ0 h0 => Odds.step badμ hbadμ fun μ hμ => Odds.step badν hbadν
    fun ν hν => Odds.skip fun β => Odds.skip fun δ1 => Odds.skip fun α =>
    Odds.step {0} (by simp) fun ω hω => ?_
  replace hμ := hμ' μ hμ
  replace hν := hν' ν hν
  simp only [Finset.mem_singleton] at h0 hω
  obtain ⟨b, hb⟩ := blind_poly_one ω hω
    (r1csBase H K S cs.inputSize γ μ ν β α (rowPoly γ (stacked cs)) (colPoly γ (stacked cs))
      (valPoly (stacked cs)) (rowColPoly γ (stacked cs)) (polyOf x) (asgPoly cs S x w δ0)
      (sPoly (3 * H) K γ μ (stacked cs)) (hPoly K γ μ ν (stacked cs))
      (partialPoly (K + S) (linTerm (3 * H) K β (valPoly (stacked cs)) (asgPoly cs S x w δ0)
        (sPoly (3 * H) K γ μ (stacked cs)) (hPoly K γ μ ν (stacked cs))) δ1))
    (K + S) (K + S - H + 1) (by omega) (by omega)
  refine Odds.step {b} (by simp) fun δ2 h2 => Odds.last {0, 1, ω, γ * ω} (card_le_four' _ _ _ _)
    fun z hz => ?_
  simp only [Finset.mem_singleton, Finset.mem_insert, not_or] at h2 hz
  rw [not_not]
  obtain ⟨pk', vk', hidx', hrest⟩ :=
    C43_complete (env.drawn [δ0, δ1, δ2] [(7, μ), (8, ν), (9, β), (10, α), (11, ω), (13, z)] 0) hf hγ τ g h
      D pp hs cs hl H K S hH hK hS h3 h4 hD hfft x w hsh hin hsat
  have hidx' : r1csIndex γ pp cs = .ok (pk', vk') := hidx'
  rw [hidx] at hidx'
  obtain ⟨rfl, rfl⟩ : pk = pk' ∧ vk = vk' := by simpa using hidx'
  simp only [List.cons_append, List.nil_append, drawn_hash, drawn_rng] at hrest
  obtain ⟨H1, H2, d1, d2, hL, hgood, -⟩ := (hrest hμ hν).2 hω
  apply hgood
  refine ⟨hz, ?_, ?_, ?_⟩
  · exact hPoly_natDegree (3 * H) K (by omega) γ μ ν _ (by omega) hr hμ hν
  · refine natDegree_ne_zero_of_coeff (k := K + S) (by omega) ?_
    have := coeff_polyOf_blind (r1csVec cs x w) (K + S) (by rw [length_r1csVec]; omega) δ0
    rw [asgPoly, ← hK]
    exact this.trans_ne h0
  · refine natDegree_ne_zero_of_coeff (k := D) (by omega) ?_
    rw [r1csGPoly_coeff _ _ _ _ _ _ _ _ _ _ _ _ (by omega)
      (coeff_rowPoly_zero _ _ (by omega)) (coeff_colPoly_zero _ _ (by omega))
      (coeff_valPoly_zero _ (by omega)) (coeff_rowColPoly_zero _ _ (by omega))
      (by
        rw [asgPoly, coeff_add, coeff_zero_of_degree_lt (degree_polyOf_lt _)
          (by rw [length_r1csVec]; omega), coeff_C_mul_X_pow, if_neg (by omega), zero_add])
      (coeff_zero_of_degree_lt (degree_sPoly _ _ _ _ _) (by omega))
      (coeff_zero_of_degree_lt (degree_hPoly _ _ _ _ _) (by omega))
      (coeff_zero_of_degree_lt (degree_partialPoly _ _ _) (by omega))
      (coeff_blindPoly_high _ _ _ _ _ (by omega)) (coeff_zero_of_degree_lt d2 hD),
      shifted_top (by omega) (by omega) hL]
    exact neg_ne_zero.2 (mul_ne_zero (inv_ne_zero (pow_ne_zero _ hz.1)) (hb δ2 h2))

/-- **C147** (HPR). An honest run on a satisfied instance of a system with `H` rows and `K` columns fails with
probability at most `(H + 3K + 8) / |F|`. -/
theorem C147_hpr [Fintype F] (env : Env F G1 G2 GT) (hf : FftOk env.fft) (hγ : env.gamma ≠ 0) (τ : F)
    (g : G1) (h : G2) (D : ℕ) (pp : UniversalParams G1 G2) (hs : kzgSetup D τ g h = .ok pp) (cs : HPR F)
    (hl : HprLens cs) (hBC : cs.b.rows.length + cs.c.rows.length = 2 * cs.a.rows.length)
    (H K S : ℕ) (hH : H = cs.nrows) (hK : K = cs.ncols)
    (hS : S = (joined cs).length) (h3 : H ≤ S)
    (hD : 5 * K + 2 * S + 2 ≤ D) (hfft : 2 * (3 * K + 1 + S) + 2 ≤ 2 ^ env.fft.twoAdicity)
    (x w1 w2 w3 : List F) (hsh : HPRShape cs x w1 w2 w3)
    (hsat : cs.satisfy x w1 w2 w3 = .ok true) :
    ∃ pk vk, hprIndex env.gamma pp cs = .ok (pk, vk) ∧
      Odds F (H + 3 * K + 8) fun (t : F × F × F × F × F × F × F × F × F) =>
        let (δ0, μ, ν, β, δ1, α, ω, δ2, z) := t
        let run := env.drawn [δ0, δ1, δ2] [(7, μ), (8, ν), (9, β), (10, α), (11, ω), (13, z)] 0
        ¬ ∃ π, hprProve run pk x (w1, w2, w3) = .ok π ∧ hprVerify run vk x π = .ok () := by
  obtain ⟨pk, vk, hidx, -⟩ :=
    C44_complete env hf hγ τ g h D pp hs cs hl hBC H K S hH hK hS h3 hD hfft x w1 w2 w3 hsh hsat
  refine ⟨pk, vk, hidx, ?_⟩
  obtain ⟨q1, q2, q3, q4, q5, ra, rb, rc, rd, q6⟩ := id hsh
  have hr := joined_range cs ra rb rc rd
  rw [← hH, ← hK] at hr
  set γ := env.gamma with hγd
  refine Odds.mono (k := 1 + (H + ((3 * K + 1) + (1 + (1 + 4))))) ?_ (by omega) (fun _ h => h)
  obtain ⟨badμ, hbadμ, hμ'⟩ := powers_few γ H
  obtain ⟨badν, hbadν, hν'⟩ := powers_few γ (3 * K + 1)
  refine Odds.step {0} (by simp) fun δ0 h0 => Odds.step badμ hbadμ fun μ hμ => Odds.step badν hbadν
    fun ν hν => Odds.skip fun β => Odds.skip fun δ1 => Odds.skip fun α =>
    Odds.step {0} (by simp) fun ω hω => ?_
  replace hμ := hμ' μ hμ
  replace hν := hν' ν hν
  simp only [Finset.mem_singleton] at h0 hω
  obtain ⟨b, hb⟩ := blind_poly_one ω hω
    (hprBase H K S γ μ ν β α (rowPoly γ (joined cs)) (colPoly γ (joined cs))
      (valPoly (joined cs)) (rowColPoly γ (joined cs)) (polyOf x) (hprWitPoly K S w1 w2 w3 δ0)
      (sPoly H (3 * K + 1) γ μ (joined cs)) (hPoly (3 * K + 1) γ μ ν (joined cs))
      (partialPoly (3 * K + 1 + S) (linTerm H (3 * K + 1) β (valPoly (joined cs))
        (hprAsg H (polyOf x) (hprWitPoly K S w1 w2 w3 δ0))
        (sPoly H (3 * K + 1) γ μ (joined cs)) (hPoly (3 * K + 1) γ μ ν (joined cs))) δ1))
    (3 * K + 1 + S) (2 * K + S + 2) (by omega) (by omega)
  refine Odds.step {b} (by simp) fun δ2 h2 => Odds.last {0, 1, ω, γ * ω} (card_le_four' _ _ _ _)
    fun z hz => ?_
  simp only [Finset.mem_singleton, Finset.mem_insert, not_or] at h2 hz
  rw [not_not]
  obtain ⟨pk', vk', hidx', hrest⟩ :=
    C44_complete (env.drawn [δ0, δ1, δ2] [(7, μ), (8, ν), (9, β), (10, α), (11, ω), (13, z)] 0) hf hγ τ g h
      D pp hs cs hl hBC H K S hH hK hS h3 hD hfft x w1 w2 w3 hsh hsat
  have hidx' : hprIndex γ pp cs = .ok (pk', vk') := hidx'
  rw [hidx] at hidx'
  obtain ⟨rfl, rfl⟩ : pk = pk' ∧ vk = vk' := by simpa using hidx'
  simp only [List.cons_append, List.nil_append, drawn_hash, drawn_rng] at hrest
  obtain ⟨H1, H2, d1, d2, hL, hgood, -⟩ := (hrest hμ hν).2 hω
  apply hgood
  refine ⟨hz, ?_, ?_, ?_⟩
  · exact hPoly_natDegree H (3 * K + 1) (by omega) γ μ ν _ (by omega) hr hμ hν
  · refine natDegree_ne_zero_of_coeff (k := 3 * K + 1 + S) (by omega) ?_
    rw [hprWitPoly, coeff_polyOf_blind _ _ (by simp; omega)]
    exact h0
  · refine natDegree_ne_zero_of_coeff (k := D) (by omega) ?_
    rw [hprGPoly_coeff _ _ _ _ _ _ _ _ _ _ _ (by omega)
      (coeff_rowPoly_zero _ _ (by omega)) (coeff_colPoly_zero _ _ (by omega))
      (coeff_valPoly_zero _ (by omega)) (coeff_rowColPoly_zero _ _ (by omega))
      (by
        rw [hprWitPoly, coeff_add, coeff_zero_of_degree_lt (degree_polyOf_lt _)
          (by simp; omega), coeff_C_mul_X_pow, if_neg (by omega), zero_add])
      (coeff_zero_of_degree_lt (degree_sPoly _ _ _ _ _) (by omega))
      (coeff_zero_of_degree_lt (degree_hPoly _ _ _ _ _) (by omega))
      (coeff_zero_of_degree_lt (degree_partialPoly _ _ _) (by omega))
      (coeff_blindPoly_high _ _ _ _ _ (by omega)) (coeff_zero_of_degree_lt d2 hD),
      shifted_top (by omega) (by omega) hL]
    exact neg_ne_zero.2 (mul_ne_zero (inv_ne_zero (pow_ne_zero _ hz.1)) (hb δ2 h2))

theorem r1csPeGPoly_coeff (H K S ℓ E : ℕ) (γ μ ν β α ω z : F) {y y1 y2 v : F}
    {Pu Pw Pv Py Y W P Cc Q R T H1 H2 : F[X]} {k : ℕ} (hk : k ≠ 0) (hu : Pu.coeff k = 0)
    (hw : Pw.coeff k = 0) (hv : Pv.coeff k = 0) (hy : Py.coeff k = 0) (hY : Y.coeff k = 0)
    (hW : W.coeff k = 0) (hP : P.coeff k = 0) (hC : Cc.coeff k = 0)
    (hQ : Q.coeff k = 0) (hR : R.coeff k = 0) (hT : T.coeff k = 0) (hH2 : H2.coeff k = 0) :
    (r1csPeGPoly H K S ℓ E γ μ ν β α ω z y y1 y2 v Pu Pw Pv Py Y W P Cc Q R T H1 H2).coeff k
      = -((z ^ E)⁻¹ * H1.coeff k) := by
  simp [r1csPeGPoly, r1csPeComb, coeff_one, hk, hu, hw, hv, hy, hY, hW, hP, hC, hQ, hR, hT, hH2]

/-- A column that is not zero has a zero sum for few challenges. -/
theorem colSum_few (γ : F) (n K : ℕ) (hg : ∀ i j, i < n → j < n → γ ^ i = γ ^ j → i = j)
    (l : List ((ℕ × ℕ) × F)) (hr : ∀ e ∈ l, e.1.1 < n ∧ e.1.2 < K) (i0 k : ℕ) (hi : i0 < n) (hk : k < K)
    (he : entryOf l i0 k ≠ 0) :
    ∃ bad : Finset F, bad.card ≤ n - 1 ∧
      ∀ μ, μ ∉ bad → (∀ i, i < n → μ ≠ γ ^ i) → colSum γ μ l k ≠ 0 := by
  let N : F[X] := ∑ i ∈ Finset.range n, C (entryOf l i k) *
    ∏ j ∈ (Finset.range n).erase i, (X - C (γ ^ j))
  have hNe : N.eval (γ ^ i0) = entryOf l i0 k * ∏ j ∈ (Finset.range n).erase i0, (γ ^ i0 - γ ^ j) := by
    simp only [N, eval_finsetSum, eval_mul, eval_C, eval_prod, eval_sub, eval_X]
    refine Finset.sum_eq_single_of_mem i0 (Finset.mem_range.2 hi) fun i _ hne => ?_
    rw [Finset.prod_eq_zero (i := i0) (Finset.mem_erase.2 ⟨hne.symm, Finset.mem_range.2 hi⟩) (sub_self _),
      mul_zero]
  have hN0 : N ≠ 0 := by
    intro h0
    rw [h0, eval_zero] at hNe
    refine mul_ne_zero he (Finset.prod_ne_zero_iff.2 fun j hj => ?_) hNe.symm
    rw [Finset.mem_erase, Finset.mem_range] at hj
    exact sub_ne_zero.2 fun h => hj.1 (hg _ _ hi hj.2 h).symm
  have hNd : N.natDegree ≤ n - 1 := by
    refine natDegree_sum_le_of_forall_le _ _ fun i hi => natDegree_mul_le.trans ?_
    rw [natDegree_C, zero_add]
    refine (natDegree_prod_le _ _).trans ?_
    simp only [natDegree_X_sub_C, Finset.sum_const, smul_eq_mul, mul_one]
    rw [Finset.card_erase_of_mem hi, Finset.card_range]
  refine ⟨N.roots.toFinset, (Multiset.toFinset_card_le _).trans ((card_roots' N).trans hNd), ?_⟩
  intro μ hμ hp h0
  apply hμ
  rw [Multiset.mem_toFinset, mem_roots hN0, IsRoot.def]
  have hd := colSum_dot γ μ l n K hr (fun j => if j = k then 1 else 0)
  simp only [ite_mul, one_mul, zero_mul, mul_ite, mul_one, mul_zero, Finset.sum_ite_eq', Finset.mem_range,
    if_pos hk, h0] at hd
  have : N.eval μ = (∏ j ∈ Finset.range n, (μ - γ ^ j)) *
      ∑ i ∈ Finset.range n, entryOf l i k * (μ - γ ^ i)⁻¹ := by
    simp only [N, eval_finsetSum, eval_mul, eval_C, eval_prod, eval_sub, eval_X, Finset.mul_sum]
    refine Finset.sum_congr rfl fun i hi => ?_
    rw [← Finset.mul_prod_erase _ _ hi]
    have := sub_ne_zero.2 (hp i (Finset.mem_range.1 hi))
    field_simp
  rw [this, ← hd, mul_zero]

theorem mulVec_indicator (m : SparseMat F) (K i k : ℕ) (hk : k < K) :
    mulVec m K ((List.range K).map fun j => if j = k then 1 else 0) i = entry m i k := by
  unfold mulVec
  rw [Finset.sum_eq_single_of_mem k (Finset.mem_range.2 hk)]
  · rw [List.getD_eq_getElem _ _ (by simpa using hk)]
    simp
  · intro j hj hne
    rw [List.getD_eq_getElem _ _ (by simpa using hj)]
    simp [hne]

/-- The entries of the stacked matrix. -/
theorem stackedPe_entry (cs : R1CS F) (hl : R1csLens cs) (ra : InRange cs.a cs.nrows cs.ncols)
    (rc : InRange cs.c cs.nrows cs.ncols) (i k : ℕ) (hi : i < cs.nrows) (hk : k < cs.ncols) :
    entryOf (stackedPe cs) i k = entry cs.a i k ∧ entryOf (stackedPe cs) (cs.nrows + i) k = entry cs.c i k ∧
      entryOf (stackedPe cs) (2 * cs.nrows + i) k = entry cs.b i k := by
  have hl' : R1csLens (swapBC cs) := ⟨hl.1, hl.2.2, hl.2.1⟩
  have h := stacked_mul (swapBC cs) hl' ra rc
    ((List.range cs.ncols).map fun j => if j = k then 1 else 0) i hi
  have e : ∀ i', ∑ j ∈ Finset.range cs.ncols, entryOf (stackedPe cs) i' j *
      ((List.range cs.ncols).map fun j => if j = k then (1 : F) else 0).getD j 0
        = entryOf (stackedPe cs) i' k := by
    intro i'
    rw [Finset.sum_eq_single_of_mem k (Finset.mem_range.2 hk)]
    · rw [List.getD_eq_getElem _ _ (by simpa using hk)]
      simp
    · intro j hj hne
      rw [List.getD_eq_getElem _ _ (by simpa using hj)]
      simp [hne]
  have h1 := (e _).symm.trans h.1
  have h2 := (e _).symm.trans h.2.1
  have h3 := (e _).symm.trans h.2.2
  exact ⟨h1.trans (mulVec_indicator _ _ _ _ hk), h2.trans (mulVec_indicator _ _ _ _ hk),
    h3.trans (mulVec_indicator _ _ _ _ hk)⟩

set_option maxHeartbeats 1000000 in
/-- **C147** (R1CS, prover efficient variant). An honest run on a satisfied instance of a system with `H`
rows and `K` columns, in which some matrix has a non-zero entry outside the first column, fails with
probability at most `(6H + K + 6) / |F|`. -/
theorem C147_r1cs_pe [Fintype F] (env : Env F G1 G2 GT) (hf : FftOk env.fft) (hγ : env.gamma ≠ 0) (τ : F)
    (g : G1) (h : G2) (D : ℕ) (pp : UniversalParams G1 G2) (hs : kzgSetup D τ g h = .ok pp) (cs : R1CS F)
    (hl : R1csLens cs) (H K S ℓ : ℕ) (hH : H = cs.nrows) (hK : K = cs.ncols) (hℓ : ℓ = cs.inputSize)
    (hS : S = (stackedPe cs).length) (h3 : 3 * H ≤ S) (hKS : K ≤ S) (hℓ2 : ℓ + 1 ≤ 2 * H)
    (hD : 2 * H + S ≤ D) (hfft : 2 * S + 2 ≤ 2 ^ env.fft.twoAdicity)
    (x w : List F) (hsh : R1CSShape cs x w) (hin : x.length = ℓ)
    (hsat : cs.satisfy x w = .ok true)
    (hg : ∀ i j, i < 3 * H → j < 3 * H → env.gamma ^ i = env.gamma ^ j → i = j)
    (hcol : ∃ i k, i < H ∧ 1 ≤ k ∧ k < K ∧
      (entry cs.a i k ≠ 0 ∨ entry cs.b i k ≠ 0 ∨ entry cs.c i k ≠ 0)) :
    ∃ pk vk, r1csPeIndex env.gamma pp cs = .ok (pk, vk) ∧
      Odds F (6 * H + K + 6) fun (t : F × F × F × F × F × F × F × F × F × F) =>
        let (δ0, δ1, μ, ν, β, δ2, α, ω, δ3, z) := t
        let run := env.drawn [δ0, δ1, δ2, δ3] [(8, μ), (10, ν), (12, β), (13, α), (14, ω), (16, z)] 0
        ¬ ∃ π, r1csPeProve run pk x w = .ok π ∧ r1csPeVerify run vk x π = .ok () := by
  obtain ⟨pk, vk, hidx, -⟩ :=
    C76_complete env hf hγ τ g h D pp hs cs hl H K S ℓ hH hK hℓ hS h3 hKS hℓ2 hD hfft x w hsh hin hsat
  refine ⟨pk, vk, hidx, ?_⟩
  obtain ⟨q1, q2, q3, ra, rb, rc⟩ := id hsh
  have hr := stackedPe_range cs ra rb rc
  obtain ⟨i0, k0, hi0, hk1, hk0, hcol⟩ : ∃ i k, i < 3 * H ∧ 1 ≤ k ∧ k < K ∧
      entryOf (stackedPe cs) i k ≠ 0 := by
    obtain ⟨i, k, a1, a2, a3, a4⟩ := hcol
    obtain ⟨e1, e2, e3⟩ := stackedPe_entry cs hl ra rc i k (by omega) (by omega)
    rcases a4 with h | h | h
    · exact ⟨i, k, by omega, a2, a3, by rwa [e1]⟩
    · exact ⟨2 * cs.nrows + i, k, by omega, a2, a3, by rwa [e3]⟩
    · exact ⟨cs.nrows + i, k, by omega, a2, a3, by rwa [e2]⟩
  rw [← hH, ← hK] at hr
  set γ := env.gamma with hγd
  refine Odds.mono (k := 1 + ((3 * H + (3 * H - 1)) + (K + (1 + (1 + 4))))) ?_ (by omega) (fun _ h => h)
  obtain ⟨badμ, hbadμ, hμ'⟩ := powers_few γ (3 * H)
  obtain ⟨badν, hbadν, hν'⟩ := powers_few γ K
  obtain ⟨badc, hbadc, hc'⟩ := colSum_few γ (3 * H) K hg _ hr i0 k0 hi0 hk0 hcol
  refine Odds.step {0} (by simp) fun δ0 h0 => Odds.skip fun δ1 => Odds.step (badμ ∪ badc)
    ((Finset.card_union_le _ _).trans (by omega)) fun μ hμ => Odds.step badν hbadν
    fun ν hν => Odds.skip fun β => Odds.skip fun δ2 => Odds.skip fun α =>
    Odds.step {0} (by simp) fun ω hω => ?_
  rw [Finset.mem_union, not_or] at hμ
  have hc := hc' μ hμ.2 (hμ' μ hμ.1)
  replace hμ := hμ' μ hμ.1
  replace hν := hν' ν hν
  simp only [Finset.mem_singleton] at h0 hω
  obtain ⟨b, hb⟩ := blind_poly_one ω hω
    (r1csPeBase H K S ℓ γ μ ν β α (rowPoly γ (stackedPe cs)) (colPoly γ (stackedPe cs))
      (valPoly (stackedPe cs)) (rowColPoly γ (stackedPe cs)) (polyOf x) (padPoly S (prodVec cs x w) δ0)
      (padPoly S w δ1) (invPoly (3 * H) γ μ) (colPolySum K γ μ (stackedPe cs)) (invPoly K γ ν)
      (entryInvPoly γ μ ν (stackedPe cs))
      (partialPoly S (peTerm ℓ β (valPoly (stackedPe cs)) (polyOf x) (padPoly S (prodVec cs x w) δ0)
        (padPoly S w δ1) (invPoly (3 * H) γ μ) (colPolySum K γ μ (stackedPe cs)) (invPoly K γ ν)
        (entryInvPoly γ μ ν (stackedPe cs))) δ2))
    S (2 * H + 1) (by omega) (by omega)
  refine Odds.step {b} (by simp) fun δ3 h2 => Odds.last {0, 1, ω, γ * ω} (card_le_four' _ _ _ _)
    fun z hz => ?_
  simp only [Finset.mem_singleton, Finset.mem_insert, not_or] at h2 hz
  rw [not_not]
  obtain ⟨pk', vk', hidx', hrest⟩ :=
    C76_complete (env.drawn [δ0, δ1, δ2, δ3] [(8, μ), (10, ν), (12, β), (13, α), (14, ω), (16, z)] 0) hf hγ
      τ g h D pp hs cs hl H K S ℓ hH hK hℓ hS h3 hKS hℓ2 hD hfft x w hsh hin hsat
  have hidx' : r1csPeIndex γ pp cs = .ok (pk', vk') := hidx'
  rw [hidx] at hidx'
  obtain ⟨rfl, rfl⟩ : pk = pk' ∧ vk = vk' := by simpa using hidx'
  simp only [List.cons_append, List.nil_append, drawn_hash, drawn_rng] at hrest
  obtain ⟨H1, H2, d1, d2, hL, hgood, -⟩ := (hrest hμ hν).2 hω
  apply hgood
  have hpl : (prodVec cs x w).length = 3 * H := by simp [prodVec]; omega
  refine ⟨hz, ?_, ?_, ?_, ?_⟩
  · refine natDegree_ne_zero_of_coeff (k := 1) (by omega) ?_
    rw [entryInvPoly, coeff_polyOf]
    exact entry_inv_ne (3 * H) K γ μ ν _ hr hμ hν 1 (by omega)
  · refine natDegree_ne_zero_of_coeff (k := S) (by omega) ?_
    rw [padPoly, coeff_polyOf_blind _ _ (by omega)]
    exact h0
  · refine natDegree_ne_zero_of_coeff (k := k0) (by omega) ?_
    rw [coeff_colPolySum, if_pos hk0]
    exact hc
  · refine natDegree_ne_zero_of_coeff (k := D) (by omega) ?_
    rw [r1csPeGPoly_coeff _ _ _ _ _ _ _ _ _ _ _ _ (by omega)
      (coeff_rowPoly_zero _ _ (by omega)) (coeff_colPoly_zero _ _ (by omega))
      (coeff_valPoly_zero _ (by omega)) (coeff_rowColPoly_zero _ _ (by omega))
      (by
        rw [padPoly, coeff_add, coeff_zero_of_degree_lt (degree_polyOf_lt _)
          (by omega), coeff_C_mul_X_pow, if_neg (by omega), zero_add])
      (by
        rw [padPoly, coeff_add, coeff_zero_of_degree_lt (degree_polyOf_lt _)
          (by omega), coeff_C_mul_X_pow, if_neg (by omega), zero_add])
      (coeff_zero_of_degree_lt (degree_invPoly _ _ _) (by omega))
      (coeff_zero_of_degree_lt (degree_colPolySum _ _ _ _) (by omega))
      (coeff_zero_of_degree_lt (degree_invPoly _ _ _) (by omega))
      (coeff_zero_of_degree_lt (degree_partialPoly _ _ _) (by omega))
      (coeff_blindPoly_high _ _ _ _ _ (by omega)) (coeff_zero_of_degree_lt d2 hD),
      shifted_top (by omega) (by omega) hL]
    exact neg_ne_zero.2 (mul_ne_zero (inv_ne_zero (pow_ne_zero _ hz.1)) (hb δ3 h2))

/-! The hypotheses hold for concrete systems over the field with 97 elements, and the bounds are below
97 there. -/

example : ∃ pp, kzgSetup 40 (33 : K97) (1 : K97) (1 : K97) = .ok pp :=
  ⟨(kzgSetup 40 (33 : K97) (1 : K97) (1 : K97)).toOption.get (by decide +kernel), by decide +kernel⟩

example (pp : UniversalParams K97 K97) (hs : kzgSetup 40 (33 : K97) (1 : K97) (1 : K97) = .ok pp) :
    ∃ pk vk, fibIndex pp ⟨3, [1, 2, 3]⟩ = .ok (pk, vk) ∧
      Odds K97 7 fun (c : K97 × K97 × K97 × K97 × K97 × K97) =>
        let (δ0, δ1, α, ω, δ2, z) := c
        let run := env97.drawn [δ0, δ1, δ2] [(4, α), (5, ω), (7, z)] 0
        ¬ ∃ π, fibProve run pk ⟨4, 5, 78⟩ [9, 23, 78] = .ok π
          ∧ fibVerify run vk ⟨4, 5, 78⟩ π = .ok () :=
  C147_fibonacci env97 fftOk97 33 1 1 40 pp hs 3 (by omega) (by omega) [1, 2, 3] rfl
    (natDegree_ne_zero_of_coeff (k := 2) (by omega) (by rw [coeff_polyOf]; decide)) (by decide) _ _ rfl (by
      refine ⟨by decide, by decide, ?_, by decide⟩
      intro i hi
      obtain rfl : i = 0 := by omega
      decide)

example (pp : UniversalParams K97 K97) (hs : kzgSetup 40 (33 : K97) (1 : K97) (1 : K97) = .ok pp) :
    ∃ pk vk, povIndex env97.gamma pp ⟨[5], [(0, 4), (3, 8)], 1, 1⟩ = .ok (pk, vk) ∧
      Odds K97 17 fun (t : K97 × K97 × K97 × K97 × K97 × K97 × K97 × K97) =>
        let (δ0, ζ, ζ1, δ1, α, ω, δ2, z) := t
        let run := env97.drawn [δ0, δ1, δ2] [(6, ζ), (7, α), (8, ω), (10, z)] ζ1
        ¬ ∃ π, povProve run pk ⟨[6], [10]⟩ ⟨[2, 1, 0], [5, 2, 0], [10, 3, 5]⟩ = .ok π
          ∧ povVerify run vk ⟨[6], [10]⟩ π = .ok () :=
  C147_pov env97 fftOk97 (by decide) 33 1 1 40 pp hs ⟨[5], [(0, 4), (3, 8)], 1, 1⟩ (by simp) 3 rfl
    (by decide) (by decide) _ rfl (by decide) _ (by refine ⟨?_, ?_, ?_⟩ <;> rfl) (by decide +kernel)

example (pp : UniversalParams K97 K97) (hs : kzgSetup 40 (33 : K97) (1 : K97) (1 : K97) = .ok pp) :
    ∃ pk vk, povPeIndex env97.gamma pp ⟨[5], [(0, 4), (3, 8)], 1, 1⟩ = .ok (pk, vk) ∧
      Odds K97 17 fun (t : K97 × K97 × K97 × K97 × K97 × K97 × K97 × K97 × K97) =>
        let (δ0, δ1, ζ, ζ1, δ2, α, ω, δ3, z) := t
        let run := env97.drawn [δ0, δ1, δ2, δ3] [(7, ζ), (8, α), (9, ω), (11, z)] ζ1
        ¬ ∃ π, povPeProve run pk ⟨[6], [10]⟩ ⟨[2, 1, 0], [5, 2, 0], [10, 3, 5]⟩ = .ok π
          ∧ povPeVerify run vk ⟨[6], [10]⟩ π = .ok () :=
  C147_pov_pe env97 fftOk97 (by decide) 33 1 1 40 pp hs ⟨[5], [(0, 4), (3, 8)], 1, 1⟩ (by simp) 3 rfl
    (by decide) (by decide) _ rfl (by decide) (by decide) _ (by refine ⟨?_, ?_, ?_⟩ <;> rfl)
    (by decide +kernel)

theorem cube97_lens : R1csLens cube97 := by refine ⟨⟨?_, ?_⟩, ⟨?_, ?_⟩, ?_, ?_⟩ <;> rfl

theorem cube97_shape : R1CSShape cube97 [27] [3, 9] := by
  refine ⟨by decide, by decide, rfl, ?_, ?_, ?_⟩ <;>
  · intro e he
    simp [cube97, triples] at he
    rcases he with rfl | rfl <;> decide

example (pp : UniversalParams K97 K97) (hs : kzgSetup 40 (33 : K97) (1 : K97) (1 : K97) = .ok pp) :
    ∃ pk vk, r1csIndex env97.gamma pp cube97 = .ok (pk, vk) ∧
      Odds K97 17 fun (t : K97 × K97 × K97 × K97 × K97 × K97 × K97 × K97 × K97) =>
        let (δ0, μ, ν, β, δ1, α, ω, δ2, z) := t
        let run := env97.drawn [δ0, δ1, δ2] [(7, μ), (8, ν), (9, β), (10, α), (11, ω), (13, z)] 0
        ¬ ∃ π, r1csProve run pk [27] [3, 9] = .ok π ∧ r1csVerify run vk [27] π = .ok () :=
  C147_r1cs env97 fftOk97 (by decide) 33 1 1 40 pp hs cube97 cube97_lens 2 4 6 rfl rfl (by decide)
    (by omega) (by omega) (by omega) (by decide) _ _ cube97_shape (by decide) (by decide +kernel)

example (pp : UniversalParams K97 K97) (hs : kzgSetup 40 (33 : K97) (1 : K97) (1 : K97) = .ok pp) :
    ∃ pk vk, r1csPeIndex env97.gamma pp cube97 = .ok (pk, vk) ∧
      Odds K97 22 fun (t : K97 × K97 × K97 × K97 × K97 × K97 × K97 × K97 × K97 × K97) =>
        let (δ0, δ1, μ, ν, β, δ2, α, ω, δ3, z) := t
        let run := env97.drawn [δ0, δ1, δ2, δ3] [(8, μ), (10, ν), (12, β), (13, α), (14, ω), (16, z)] 0
        ¬ ∃ π, r1csPeProve run pk [27] [3, 9] = .ok π ∧ r1csPeVerify run vk [27] π = .ok () :=
  C147_r1cs_pe env97 fftOk97 (by decide) 33 1 1 40 pp hs cube97 cube97_lens 2 4 6 1 rfl rfl rfl (by decide)
    (by omega) (by omega) (by omega) (by omega) (by decide) _ _ cube97_shape rfl (by decide +kernel)
    (by
      intro i j hi hj
      interval_cases i <;> interval_cases j <;> decide)
    ⟨0, 2, by omega, by omega, by omega, Or.inl (by decide)⟩

example (pp : UniversalParams K97 K97) (hs : kzgSetup 40 (33 : K97) (1 : K97) (1 : K97) = .ok pp) :
    ∃ pk vk, hprIndex env97.gamma pp hpr97 = .ok (pk, vk) ∧
      Odds K97 12 fun (t : K97 × K97 × K97 × K97 × K97 × K97 × K97 × K97 × K97) =>
        let (δ0, μ, ν, β, δ1, α, ω, δ2, z) := t
        let run := env97.drawn [δ0, δ1, δ2] [(7, μ), (8, ν), (9, β), (10, α), (11, ω), (13, z)] 0
        ¬ ∃ π, hprProve run pk [48] ([4], [5], [20]) = .ok π ∧ hprVerify run vk [48] π = .ok () :=
  C147_hpr env97 fftOk97 (by decide) 33 1 1 40 pp hs hpr97
    (by refine ⟨⟨?_, ?_⟩, ⟨?_, ?_⟩, ⟨?_, ?_⟩, ?_, ?_⟩ <;> decide) (by decide) 1 1 4 rfl rfl (by decide)
    (by omega) (by omega) (by decide) _ _ _ _ (by
      refine ⟨by decide, by decide, rfl, rfl, rfl, ?_, ?_, ?_, ?_, by decide⟩ <;>
      · intro e he
        simp [hpr97, triples] at he
        subst he; decide) (by decide +kernel)

end VO
