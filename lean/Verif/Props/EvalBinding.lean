import Verif.Props.SoundError
import Verif.Lemmas.EvalBinding

/-
C141: what an accepted proof says about the values it claims.  A proof carries the values of some of
the committed polynomials at the point `ω/z` derived from the transcript.  Whatever the prover commits
to and whatever values it claims, the probability that `verify` accepts although one of these values is
not the value of the committed polynomial is at most about `D / |F|`.  Nothing is assumed about the
instance, the witness or satisfiability: this is the tampering that the tests try with `y = 0`.
-/

set_option linter.unusedSectionVars false

namespace VO
open Spec

variable {F : Type} [Field F] [DecidableEq F] [Fintype F]
variable {G1 G2 GT : Type}
  [AddCommGroup G1] [Module F G1] [DecidableEq G1] [AddCommGroup G2] [Module F G2] [DecidableEq G2]
  [AddCommGroup GT] [Module F GT] [DecidableEq GT]

/-- **C141 (POV).** -/
theorem C141_pov (cs : POV F) (c D : ℕ) (hc : c = cs.nmul + cs.nadd + cs.consts.length)
    (hne : cs.consts ≠ []) (hD : 6 * c - cs.nmul ≤ D) (γ : F) (hγ : γ ≠ 0)
    (hwr : ∀ p ∈ cs.wires, p.1 < 3 * c ∧ p.2 < 3 * c)
    (ins : POVInstance F) (s : PovStrategy F) (hs : s.Bounded D) :
    Odds F (D + 4) fun t : F × F × F × F × F × F × F × F × F =>
      let (ζ, ζ1, α, ω, z, ξ, ξ2, β, r) := t
      PovAccepts G1 G2 GT cs c D γ ins s ζ ζ1 α ω z ξ ξ2 β r ∧
        ¬ (s.y [ζ, ζ1, α, ω, z] = s.W.eval (ω / z) ∧
           s.y2 [ζ, ζ1, α, ω, z] = (s.R [ζ, ζ1]).eval (ω / z)) := by
  have hcl : 0 < cs.consts.length := List.length_pos_of_ne_nil hne
  refine Odds.mono (k := 1 + (1 + ((D + 1) + 1))) ?_ (by omega) (fun _ h => h)
  refine Odds.skip fun ζ => Odds.skip fun ζ1 => Odds.skip fun α => ?_
  refine Odds.step {0} (by simp) fun ω hω => Odds.skip fun z => ?_
  set y := s.y [ζ, ζ1, α, ω, z] with hy
  set y2 := s.y2 [ζ, ζ1, α, ω, z] with hy2
  set S := permPoly (3 * c) γ (cs.wires.map (fun p => Equiv.swap p.1 p.2)).prod with hS
  set K := polyOf cs.consts with hK
  set G := povGPoly c cs.nadd cs.nmul (D + 1) γ ζ ζ1 α ω z y ((selPoly ins.idx).eval (ω / z)) y2
    ((instPoly ins.idx ins.vals).eval z) s.W S K (s.P1 [ζ, ζ1, α]) (s.H1 [ζ, ζ1, α, ω])
    (s.H2 [ζ, ζ1, α, ω]) with hG
  by_cases hw : y = s.W.eval (ω / z) ∧ y2 = (s.R [ζ, ζ1]).eval (ω / z)
  · exact Odds.skip fun ξ => Odds.skip fun ξ2 => Odds.skip fun β => Odds.last ∅ (by simp) fun r _ h => h.2 hw
  have hw' : y ≠ s.W.eval (ω / z) ∨ y2 ≠ (s.R [ζ, ζ1]).eval (ω / z) ∨ G.eval z ≠ 0 := by
    by_contra hc
    push Not at hc
    exact hw ⟨hc.1, hc.2.1⟩
  have dG : G.natDegree ≤ D := povGPoly_natDegree c cs.nadd cs.nmul (D + 1) D γ ζ ζ1 α ω z y _ y2 _ s.W S K
    _ _ _ hs.W (natDegree_of_degLt (degree_permPoly _ _ _) (by omega))
    (natDegree_of_degLt (degree_polyOf_lt cs.consts) (by omega)) (hs.P1 _) (hs.H1 _) (hs.H2 _)
  obtain ⟨b1, c1, H⟩ := opening2 s.W (s.R [ζ, ζ1]) G y y2 (ω / z) z D hs.W (hs.R _) dG hw'
  refine Odds.step b1 c1 fun ξ hξ => Odds.skip fun ξ2 => ?_
  obtain ⟨b2, c2, H2⟩ := H ξ hξ (s.Q1 [ζ, ζ1, α, ω, z, ξ, ξ2]) (s.Q2 [ζ, ζ1, α, ω, z, ξ, ξ2])
    (hs.Q1 _) (hs.Q2 _)
  refine Odds.step b2 c2 fun β hβ => ?_
  obtain ⟨r0, H3⟩ := H2 β hβ
  refine Odds.last {r0} (by simp) fun r hr => ?_
  rintro ⟨⟨env, g, h, rfl, rfl, hg, hnd, pp, hpp, pk, vk, hidx, e1, e2, e3, e4, e5, e6, -, hver⟩, -⟩
  obtain ⟨sigma, kvk, ls, hvk, -, hSs, hidx'⟩ := povIndex_ok env.gamma β hγ g h D pp hpp cs c hc hne hwr hD
  rw [hidx'] at hidx
  obtain ⟨-, rfl⟩ := Prod.mk.inj (Except.ok.inj hidx)
  rw [hSs] at hver
  have hn : cs.getSize.n = c := by show _ + _ + _ = _; omega
  have ha : cs.getSize.nadd = cs.nadd := rfl
  have hm : cs.getSize.nmul = cs.nmul := rfl
  have key := (C55_accepts_iff env β g h hnd _ hvk (by rw [hn, ha, hm]; omega) ins _
    (Or.inl ?_)).mp hver
  · dsimp only at key e1 e2 e3 e4 e5 e6
    simp only [e1, e2, e3, e4, e5, hn, ha, hm, ← povComb_eq, povK_eval] at key
    rw [e6] at key
    exact H3 _ (by simpa using hr) (opening2_group hg key.2.2.2.2)
  · dsimp only at e4 ⊢
    rw [e4]
    simpa using hω

/-- **C141 (prover-efficient POV).** -/
theorem C141_pov_pe (cs : POV F) (c D : ℕ) (hc : c = cs.nmul + cs.nadd + cs.consts.length)
    (hne : cs.consts ≠ []) (hD : 4 * c + cs.nmul ≤ D) (γ : F) (hγ : γ ≠ 0)
    (hwr : ∀ p ∈ cs.wires, p.1 < 3 * c ∧ p.2 < 3 * c)
    (ins : POVInstance F) (s : PovPeStrategy F) (hs : s.Bounded D) :
    Odds F (D + 4) fun t : F × F × F × F × F × F × F × F × F =>
      let (ζ, ζ1, α, ω, z, ξ, ξ2, β, r) := t
      PovPeAccepts G1 G2 GT cs c D γ ins s ζ ζ1 α ω z ξ ξ2 β r ∧
        ¬ (s.y [ζ, ζ1, α, ω, z] = s.U.eval (ω / z) ∧
           s.y2 [ζ, ζ1, α, ω, z] = (s.R [ζ, ζ1]).eval (ω / z)) := by
  have hcl : 0 < cs.consts.length := List.length_pos_of_ne_nil hne
  refine Odds.mono (k := 1 + (1 + ((D + 1) + 1))) ?_ (by omega) (fun _ h => h)
  refine Odds.skip fun ζ => Odds.skip fun ζ1 => Odds.skip fun α => ?_
  refine Odds.step {0} (by simp) fun ω hω => Odds.skip fun z => ?_
  set y := s.y [ζ, ζ1, α, ω, z] with hy
  set y2 := s.y2 [ζ, ζ1, α, ω, z] with hy2
  set S := permPoly (3 * c) γ (cs.wires.map (fun p => Equiv.swap p.1 p.2)).prod with hS
  set K := polyOf cs.consts with hK
  set G := povPeGPoly c cs.nadd cs.nmul (D + 1) γ ζ ζ1 α ω z y ((selPoly ins.idx).eval (ω / z)) y2
    ((instPoly ins.idx ins.vals).eval z) s.U s.V S K (s.P1 [ζ, ζ1, α]) (s.H1 [ζ, ζ1, α, ω])
    (s.H2 [ζ, ζ1, α, ω]) with hG
  by_cases hw : y = s.U.eval (ω / z) ∧ y2 = (s.R [ζ, ζ1]).eval (ω / z)
  · exact Odds.skip fun ξ => Odds.skip fun ξ2 => Odds.skip fun β => Odds.last ∅ (by simp) fun r _ h => h.2 hw
  have hw' : y ≠ s.U.eval (ω / z) ∨ y2 ≠ (s.R [ζ, ζ1]).eval (ω / z) ∨ G.eval z ≠ 0 := by
    by_contra hc
    push Not at hc
    exact hw ⟨hc.1, hc.2.1⟩
  have dG : G.natDegree ≤ D := povPeGPoly_natDegree c cs.nadd cs.nmul (D + 1) D γ ζ ζ1 α ω z y _ y2 _ s.U s.V S K
    _ _ _ hs.U hs.V (natDegree_of_degLt (degree_permPoly _ _ _) (by omega))
    (natDegree_of_degLt (degree_polyOf_lt cs.consts) (by omega)) (hs.P1 _) (hs.H1 _) (hs.H2 _)
  obtain ⟨b1, c1, H⟩ := opening2 s.U (s.R [ζ, ζ1]) G y y2 (ω / z) z D hs.U (hs.R _) dG hw'
  refine Odds.step b1 c1 fun ξ hξ => Odds.skip fun ξ2 => ?_
  obtain ⟨b2, c2, H2⟩ := H ξ hξ (s.Q1 [ζ, ζ1, α, ω, z, ξ, ξ2]) (s.Q2 [ζ, ζ1, α, ω, z, ξ, ξ2])
    (hs.Q1 _) (hs.Q2 _)
  refine Odds.step b2 c2 fun β hβ => ?_
  obtain ⟨r0, H3⟩ := H2 β hβ
  refine Odds.last {r0} (by simp) fun r hr => ?_
  rintro ⟨⟨env, g, h, rfl, rfl, hg, hnd, pp, hpp, pk, vk, hidx, e1, e2, e3, e4, e5, e6, -, hver⟩, -⟩
  obtain ⟨sigma, kvk, ls, hvk, -, hSs, hidx'⟩ := povPeIndex_ok env.gamma β hγ g h D pp hpp cs c hc hne hwr hD
  rw [hidx'] at hidx
  obtain ⟨-, rfl⟩ := Prod.mk.inj (Except.ok.inj hidx)
  rw [hSs] at hver
  have hn : cs.getSize.n = c := by show _ + _ + _ = _; omega
  have ha : cs.getSize.nadd = cs.nadd := rfl
  have hm : cs.getSize.nmul = cs.nmul := rfl
  have key := (C74_accepts_iff env β g h hnd _ hvk (by rw [hn, ha, hm]; omega) ins _
    (Or.inl ?_)).mp hver
  · dsimp only at key e1 e2 e3 e4 e5 e6
    simp only [e1, e2, e3, e4, e5, hn, ha, hm, ← povPeComb_eq, povPeK_eval] at key
    rw [e6] at key
    exact H3 _ (by simpa using hr) (opening2_group hg key.2.2.2.2)
  · dsimp only at e4 ⊢
    rw [e4]
    simpa using hω

/-- **C141 (R1CS).** -/
theorem C141_r1cs (cs : R1CS F) (hl : R1csLens cs) (H K S ℓ D : ℕ) (hH : H = cs.nrows)
    (hK : K = cs.ncols) (hS : S = (stacked cs).length) (hin : ℓ = cs.inputSize) (h1 : 1 ≤ H)
    (h3 : 3 * H ≤ S) (hℓ : ℓ + 1 ≤ K) (hD : 2 * (K + S) - H ≤ D) (γ : F) (hγ : γ ≠ 0)
    (x : List F) (s : R1csStrategy F) (hs : s.Bounded D) :
    Odds F (D + 3) fun t : F × F × F × F × F × F × F × F × F × F =>
      let (μ, ν, β, α, ω, z, ξ, ξ2, τ, r) := t
      R1csAccepts G1 G2 GT cs D γ x s μ ν β α ω z ξ ξ2 τ r ∧
        ¬ (s.y [μ, ν, β, α, ω, z] = (s.Q [μ, ν]).eval (ω / z) ∧
           s.y1 [μ, ν, β, α, ω, z] = s.A.eval (ω / z)) := by
  subst hH hK hin
  refine Odds.mono (k := 1 + ((D + 1) + 1)) ?_ (by omega) (fun _ h => h)
  refine Odds.skip fun μ => Odds.skip fun ν => Odds.skip fun β => Odds.skip fun α => Odds.skip fun ω =>
    Odds.skip fun z => ?_
  set l := stacked cs with hld
  set y := s.y [μ, ν, β, α, ω, z] with hy
  set y1 := s.y1 [μ, ν, β, α, ω, z] with hy1
  set G := r1csGPoly cs.nrows cs.ncols S cs.inputSize (D + 1) γ μ ν β α ω z y y1
    ((polyOf x).eval z) (rowPoly γ l) (colPoly γ l) (valPoly l) (rowColPoly γ l) s.A (s.P [μ])
    (s.Q [μ, ν]) (s.R [μ, ν, β]) (s.T [μ, ν, β, α]) (s.H1 [μ, ν, β, α, ω]) (s.H2 [μ, ν, β, α, ω])
    with hG
  by_cases hw : y = (s.Q [μ, ν]).eval (ω / z) ∧ y1 = s.A.eval (ω / z)
  · exact Odds.skip fun ξ => Odds.skip fun ξ2 => Odds.skip fun τ => Odds.last ∅ (by simp) fun r _ h => h.2 hw
  have hw' : y ≠ (s.Q [μ, ν]).eval (ω / z) ∨ y1 ≠ s.A.eval (ω / z) ∨ G.eval z ≠ 0 := by
    by_contra hc
    push Not at hc
    exact hw ⟨hc.1, hc.2.1⟩
  have hSe : S = cs.a.rows.length + cs.b.rows.length + cs.c.rows.length :=
    hS.trans (stacked_facts cs hl).2.2.2.2
  have fu : (rowPoly γ l).natDegree ≤ D := natDegree_of_degLt (n := S + 1) (degree_map_lt _ _ _ (by omega)) (by omega)
  have fw : (colPoly γ l).natDegree ≤ D := natDegree_of_degLt (n := S + 1) (degree_map_lt _ _ _ (by omega)) (by omega)
  have fv : (valPoly l).natDegree ≤ D := natDegree_of_degLt (n := S + 1) (degree_map_lt _ _ _ (by omega)) (by omega)
  have fy : (rowColPoly γ l).natDegree ≤ D := natDegree_of_degLt (n := S + 1) (degree_map_lt _ _ _ (by omega)) (by omega)
  have dG : G.natDegree ≤ D := r1csGPoly_natDegree _ _ S _ (D + 1) D γ μ ν β α ω z y y1 _ _ _ _ _ _ _
    _ _ _ _ _ fu fw fv fy hs.A (hs.P _) (hs.Q _) (hs.R _) (hs.T _) (hs.H1 _) (hs.H2 _)
  obtain ⟨b1, c1, H⟩ := opening2 (s.Q [μ, ν]) s.A G y y1 (ω / z) z D (hs.Q _) hs.A dG hw'
  refine Odds.step b1 c1 fun ξ hξ => Odds.skip fun ξ2 => ?_
  obtain ⟨b2, c2, H2⟩ := H ξ hξ (s.Q1 [μ, ν, β, α, ω, z, ξ, ξ2]) (s.Q2 [μ, ν, β, α, ω, z, ξ, ξ2])
    (hs.Q1 _) (hs.Q2 _)
  refine Odds.step b2 c2 fun τ hτ => ?_
  obtain ⟨r0, H3⟩ := H2 τ hτ
  refine Odds.last {r0} (by simp) fun r hr => ?_
  rintro ⟨⟨env, g, h, rfl, rfl, hg, hnd, pp, hpp, pk, vk, hidx, e1, e2, e3, e4, e5, e6, e7, -, hver⟩, -⟩
  obtain ⟨kvk, hvk, hidx'⟩ := r1csIndex_ok env.gamma τ hγ g h D pp hpp cs hl S hSe (by omega) (by omega) hD
  rw [hidx'] at hidx
  obtain ⟨-, rfl⟩ := Prod.mk.inj (Except.ok.inj hidx)
  have key := (C59_accepts_iff env τ g h hnd _ hvk S hSe h1 h3 hℓ x _).mp hver
  dsimp only at key e1 e2 e3 e4 e5 e6 e7
  simp only [e1, e2, e3, e4, e5, e6, ← r1csComb_eq, r1csK_eval] at key
  rw [← hld, ← hS] at e7
  rw [e7] at key
  exact H3 _ (by simpa using hr) (opening2_group hg key.2.2.2.2)

/-- **C141 (HPR).** -/
theorem C141_hpr (cs : HPR F) (hl : HprLens cs)
    (hBC : cs.b.rows.length + cs.c.rows.length = 2 * cs.a.rows.length) (H K S D : ℕ)
    (hH : H = cs.nrows) (hK : K = cs.ncols) (hS : S = (joined cs).length) (h1 : 1 ≤ H)
    (h3 : H ≤ S) (hk1 : 1 ≤ K) (hD : 5 * K + 2 * S + 2 ≤ D) (γ : F) (hγ : γ ≠ 0)
    (x : List F) (s : R1csStrategy F) (hs : s.Bounded D) :
    Odds F (D + 3) fun t : F × F × F × F × F × F × F × F × F × F =>
      let (μ, ν, β, α, ω, z, ξ, ξ2, τ, r) := t
      HprAccepts G1 G2 GT cs D γ x s μ ν β α ω z ξ ξ2 τ r ∧
        ¬ (s.y [μ, ν, β, α, ω, z] = (s.Q [μ, ν]).eval (ω / z) ∧
           s.y1 [μ, ν, β, α, ω, z] = s.A.eval (ω / z)) := by
  subst hH hK
  refine Odds.mono (k := 1 + ((D + 1) + 1)) ?_ (by omega) (fun _ h => h)
  refine Odds.skip fun μ => Odds.skip fun ν => Odds.skip fun β => Odds.skip fun α => Odds.skip fun ω =>
    Odds.skip fun z => ?_
  set l := joined cs with hld
  set y := s.y [μ, ν, β, α, ω, z] with hy
  set y1 := s.y1 [μ, ν, β, α, ω, z] with hy1
  set G := hprGPoly cs.nrows cs.ncols S (D + 1) γ μ ν β α ω z y y1
    ((polyOf x).eval (ω / z)) (rowPoly γ l) (colPoly γ l) (valPoly l) (rowColPoly γ l) s.A (s.P [μ])
    (s.Q [μ, ν]) (s.R [μ, ν, β]) (s.T [μ, ν, β, α]) (s.H1 [μ, ν, β, α, ω]) (s.H2 [μ, ν, β, α, ω])
    with hG
  by_cases hw : y = (s.Q [μ, ν]).eval (ω / z) ∧ y1 = s.A.eval (ω / z)
  · exact Odds.skip fun ξ => Odds.skip fun ξ2 => Odds.skip fun τ => Odds.last ∅ (by simp) fun r _ h => h.2 hw
  have hw' : y ≠ (s.Q [μ, ν]).eval (ω / z) ∨ y1 ≠ s.A.eval (ω / z) ∨ G.eval z ≠ 0 := by
    by_contra hc
    push Not at hc
    exact hw ⟨hc.1, hc.2.1⟩
  have hSe : S = cs.a.rows.length + cs.a.rows.length + cs.a.rows.length + cs.drows.length := by
    have := (joined_facts cs hl).2.2.2.2
    rw [← hld] at this
    omega
  have fu : (rowPoly γ l).natDegree ≤ D := natDegree_of_degLt (n := S + 1) (degree_map_lt _ _ _ (by omega)) (by omega)
  have fw : (colPoly γ l).natDegree ≤ D := natDegree_of_degLt (n := S + 1) (degree_map_lt _ _ _ (by omega)) (by omega)
  have fv : (valPoly l).natDegree ≤ D := natDegree_of_degLt (n := S + 1) (degree_map_lt _ _ _ (by omega)) (by omega)
  have fy : (rowColPoly γ l).natDegree ≤ D := natDegree_of_degLt (n := S + 1) (degree_map_lt _ _ _ (by omega)) (by omega)
  have dG : G.natDegree ≤ D := hprGPoly_natDegree _ _ S (D + 1) D γ μ ν β α ω z y y1 _ _ _ _ _ _ _
    _ _ _ _ _ fu fw fv fy hs.A (hs.P _) (hs.Q _) (hs.R _) (hs.T _) (hs.H1 _) (hs.H2 _)
  obtain ⟨b1, c1, H⟩ := opening2 (s.Q [μ, ν]) s.A G y y1 (ω / z) z D (hs.Q _) hs.A dG hw'
  refine Odds.step b1 c1 fun ξ hξ => Odds.skip fun ξ2 => ?_
  obtain ⟨b2, c2, H2⟩ := H ξ hξ (s.Q1 [μ, ν, β, α, ω, z, ξ, ξ2]) (s.Q2 [μ, ν, β, α, ω, z, ξ, ξ2])
    (hs.Q1 _) (hs.Q2 _)
  refine Odds.step b2 c2 fun τ hτ => ?_
  obtain ⟨r0, H3⟩ := H2 τ hτ
  refine Odds.last {r0} (by simp) fun r hr => ?_
  rintro ⟨⟨env, g, h, rfl, rfl, hg, hnd, pp, hpp, pk, vk, hidx, e1, e2, e3, e4, e5, e6, e7, -, hver⟩, -⟩
  obtain ⟨kvk, hvk, hidx'⟩ := hprIndex_ok env.gamma τ hγ g h D pp hpp cs hl S hS hBC (by omega) (by omega) hD
  rw [hidx'] at hidx
  obtain ⟨-, rfl⟩ := Prod.mk.inj (Except.ok.inj hidx)
  have key := (C63_accepts_iff env τ g h hnd _ hvk S hSe h1 h3 hk1 x _).mp hver
  dsimp only at key e1 e2 e3 e4 e5 e6 e7
  simp only [e1, e2, e3, e4, e5, e6, ← hprComb_eq, hprK_eval] at key
  rw [← hld, ← hS] at e7
  rw [e7] at key
  exact H3 _ (by simpa using hr) (opening2_group hg key.2.2.2.2)

/-- **C141 (prover-efficient R1CS).** -/
theorem C141_r1cs_pe (cs : R1CS F) (hl : R1csLens cs) (H K S D : ℕ) (hH : H = cs.nrows)
    (hK : K = cs.ncols) (hS : S = (stackedPe cs).length) (h1 : 1 ≤ H)
    (h3 : 3 * H ≤ S) (hK1 : 1 ≤ K) (hKS : K ≤ S) (hD : 2 * H + S ≤ D) (γ : F) (hγ : γ ≠ 0)
    (x : List F) (s : R1csPeStrategy F) (hs : s.Bounded D) :
    Odds F (D + 4) fun t : F × F × F × F × F × F × F × F × F × F =>
      let (μ, ν, β, α, ω, z, ξ, ξ2, τ, r) := t
      R1csPeAccepts G1 G2 GT cs D γ x s μ ν β α ω z ξ ξ2 τ r ∧
        ¬ (s.y [μ, ν, β, α, ω, z] = (s.U [μ, ν]).eval (ω / z) ∧
           s.y1 [μ, ν, β, α, ω, z] = s.Y.eval (ω / z) ∧
           s.y2 [μ, ν, β, α, ω, z] = (s.C [μ]).eval (ω / z)) := by
  subst hH hK
  refine Odds.mono (k := 2 + ((D + 1) + 1)) ?_ (by omega) (fun _ h => h)
  refine Odds.skip fun μ => Odds.skip fun ν => Odds.skip fun β => Odds.skip fun α => Odds.skip fun ω =>
    Odds.skip fun z => ?_
  set l := stackedPe cs with hld
  set y := s.y [μ, ν, β, α, ω, z] with hy
  set y1 := s.y1 [μ, ν, β, α, ω, z] with hy1
  set y2 := s.y2 [μ, ν, β, α, ω, z] with hy2
  set G := r1csPeGPoly cs.nrows cs.ncols S cs.inputSize (D + 1) γ μ ν β α ω z y y1 y2
    ((polyOf x).eval z) (rowPoly γ l) (colPoly γ l) (valPoly l) (rowColPoly γ l) s.Y s.W (s.P [μ])
    (s.C [μ]) (s.Q [μ, ν]) (s.R [μ, ν, β]) (s.T [μ, ν, β, α]) (s.H1 [μ, ν, β, α, ω])
    (s.H2 [μ, ν, β, α, ω]) with hG
  by_cases hw : y = (s.U [μ, ν]).eval (ω / z) ∧ y1 = s.Y.eval (ω / z) ∧ y2 = (s.C [μ]).eval (ω / z)
  · exact Odds.skip fun ξ => Odds.skip fun ξ2 => Odds.skip fun τ => Odds.last ∅ (by simp) fun r _ h => h.2 hw
  have hw' : y ≠ (s.U [μ, ν]).eval (ω / z) ∨ y1 ≠ s.Y.eval (ω / z) ∨ y2 ≠ (s.C [μ]).eval (ω / z) ∨
      G.eval z ≠ 0 := by
    by_contra hc
    push Not at hc
    exact hw ⟨hc.1, hc.2.1, hc.2.2.1⟩
  have hSe : S = cs.a.rows.length + cs.b.rows.length + cs.c.rows.length :=
    hS.trans (stackedPe_facts cs hl).2.2.2.2
  have fu : (rowPoly γ l).natDegree ≤ D := natDegree_of_degLt (n := S + 1) (degree_map_lt _ _ _ (by omega)) (by omega)
  have fw : (colPoly γ l).natDegree ≤ D := natDegree_of_degLt (n := S + 1) (degree_map_lt _ _ _ (by omega)) (by omega)
  have fv : (valPoly l).natDegree ≤ D := natDegree_of_degLt (n := S + 1) (degree_map_lt _ _ _ (by omega)) (by omega)
  have fy : (rowColPoly γ l).natDegree ≤ D := natDegree_of_degLt (n := S + 1) (degree_map_lt _ _ _ (by omega)) (by omega)
  have dG : G.natDegree ≤ D := r1csPeGPoly_natDegree _ _ S _ (D + 1) D γ μ ν β α ω z y y1 y2 _ _ _ _ _ _
    _ _ _ _ _ _ _ _ fu fw fv fy hs.Y hs.W (hs.P _) (hs.C _) (hs.Q _) (hs.R _) (hs.T _) (hs.H1 _) (hs.H2 _)
  obtain ⟨b1, c1, H⟩ := opening3 (s.U [μ, ν]) s.Y (s.C [μ]) G y y1 y2 (ω / z) z D (hs.U _) hs.Y (hs.C _)
    dG hw'
  refine Odds.step b1 c1 fun ξ hξ => Odds.skip fun ξ2 => ?_
  obtain ⟨b2, c2, H2⟩ := H ξ hξ (s.Q1 [μ, ν, β, α, ω, z, ξ, ξ2]) (s.Q2 [μ, ν, β, α, ω, z, ξ, ξ2])
    (hs.Q1 _) (hs.Q2 _)
  refine Odds.step b2 c2 fun τ hτ => ?_
  obtain ⟨r0, H3⟩ := H2 τ hτ
  refine Odds.last {r0} (by simp) fun r hr => ?_
  rintro ⟨⟨env, g, h, rfl, rfl, hg, hnd, pp, hpp, pk, vk, hidx, e1, e2, e3, e4, e5, e6, e7, -, hver⟩, -⟩
  obtain ⟨kvk, hvk, hidx'⟩ := r1csPeIndex_ok env.gamma τ hγ g h D pp hpp cs hl S hSe (by omega) (by omega) hD
  rw [hidx'] at hidx
  obtain ⟨-, rfl⟩ := Prod.mk.inj (Except.ok.inj hidx)
  have key := (C78_accepts_iff env τ g h hnd _ hvk S hSe h1 h3 hK1 hKS x _).mp hver
  dsimp only at key e1 e2 e3 e4 e5 e6 e7
  simp only [e1, e2, e3, e4, e5, e6, ← r1csPeComb_eq, r1csPeK_eval] at key
  rw [← hld, ← hS] at e7
  rw [e7] at key
  exact H3 _ (by simpa using hr) (opening3_group hg key.2.2.2.2)

/-- **C141 (Fibonacci).** -/
theorem C141_fibonacci (n D : ℕ) (hn : 2 ≤ n) (x : FibInstance F)
    (P : Polynomial F) (dP : P.natDegree ≤ D) (s : FibStrategy F) (hs : s.Bounded D) :
    Odds F (D + 4) fun t : F × F × F × F × F × F × F =>
      let (α, ω, z, ξ, ξ2, β, r) := t
      FibAccepts G1 G2 GT n D P x s α ω z ξ ξ2 β r ∧
        ¬ (s.y [α, ω, z] = s.W.eval (ω / z) ∧ s.y1 [α, ω, z] = P.eval (ω / z) ∧
           s.y2 [α, ω, z] = s.R.eval (ω / z)) := by
  refine Odds.mono (k := 2 + ((D + 1) + 1)) ?_ (by omega) (fun _ h => h)
  refine Odds.skip fun α => Odds.skip fun ω => Odds.skip fun z => ?_
  set y := s.y [α, ω, z] with hy
  set y1 := s.y1 [α, ω, z] with hy1
  set y2 := s.y2 [α, ω, z] with hy2
  set G := fibGPoly n (D + 1) x.a x.b x.c α ω z y y1 y2 P (s.P1 [α]) (s.H1 [α, ω]) (s.H2 [α, ω]) with hG
  by_cases hw : y = s.W.eval (ω / z) ∧ y1 = P.eval (ω / z) ∧ y2 = s.R.eval (ω / z)
  · exact Odds.skip fun ξ => Odds.skip fun ξ2 => Odds.skip fun τ => Odds.last ∅ (by simp) fun r _ h => h.2 hw
  have hw' : y ≠ s.W.eval (ω / z) ∨ y1 ≠ P.eval (ω / z) ∨ y2 ≠ s.R.eval (ω / z) ∨
      G.eval z ≠ 0 := by
    by_contra hc
    push Not at hc
    exact hw ⟨hc.1, hc.2.1, hc.2.2.1⟩
  have dG : G.natDegree ≤ D := fibGPoly_natDegree n (D + 1) D x.a x.b x.c α ω z y y1 y2 P _ _ _
    dP (hs.P1 _) (hs.H1 _) (hs.H2 _)
  obtain ⟨b1, c1, H⟩ := opening3 s.W P s.R G y y1 y2 (ω / z) z D hs.W dP hs.R dG hw'
  refine Odds.step b1 c1 fun ξ hξ => Odds.skip fun ξ2 => ?_
  obtain ⟨b2, c2, H2⟩ := H ξ hξ (s.Q1 [α, ω, z, ξ, ξ2]) (s.Q2 [α, ω, z, ξ, ξ2]) (hs.Q1 _) (hs.Q2 _)
  refine Odds.step b2 c2 fun β hβ => ?_
  obtain ⟨r0, H3⟩ := H2 β hβ
  refine Odds.last {r0} (by simp) fun r hr => ?_
  rintro ⟨⟨env, g, h, rfl, hg, hnd, kvk, hvk, e1, e2, e3, e4, -, hver⟩, -⟩
  have key := (C38_accepts_iff env β g h hnd ⟨P.eval β • g, kvk, n, D + 1⟩ hvk hn x _).mp hver
  dsimp only at key e1 e2 e3 e4
  simp only [e1, e2, e3, ← fibComb_eq, ← fibK_eval] at key
  rw [e4] at key
  exact H3 _ (by simpa using hr) (opening3_group hg key.2.2.2)

/-- **C141 (range check).** -/
theorem C141_range_check (cs : RangeCheck) (hN : 1 ≤ cs.lookupSize) (hNB : cs.lookupSize ≤ cs.range)
    (D : ℕ) (hD : cs.range ≤ D) (s : RcStrategy F) (hs : s.Bounded D) :
    Odds F (D + 5) fun t : F × F × F × F × F × F × F × F =>
      let (β, α, ω, z, ξ, ξ2, τ, r) := t
      RcAccepts G1 G2 GT cs D s β α ω z ξ ξ2 τ r ∧
        ¬ (s.y [β, α, ω, z] = (s.R [β]).eval (ω / z) ∧ s.y1 [β, α, ω, z] = (s.S [β]).eval (ω / z) ∧
           s.y2 [β, α, ω, z] = s.M.eval (ω / z)) := by
  refine Odds.mono (k := 1 + (2 + ((D + 1) + 1))) ?_ (by omega) (fun _ h => h)
  refine Odds.skip fun β => Odds.skip fun α => ?_
  refine Odds.step {0} (by simp) fun ω hω => Odds.skip fun z => ?_
  set y := s.y [β, α, ω, z] with hy
  set y1 := s.y1 [β, α, ω, z] with hy1
  set y2 := s.y2 [β, α, ω, z] with hy2
  set G := rcGPoly cs.lookupSize cs.range cs.range (D + 1) α β ω z y y1 y2 s.W (tablePoly cs.range)
    (s.A [β]) (s.P1 [β, α]) (s.H1 [β, α, ω]) (s.H2 [β, α, ω]) with hG
  by_cases hw : y = (s.R [β]).eval (ω / z) ∧ y1 = (s.S [β]).eval (ω / z) ∧ y2 = s.M.eval (ω / z)
  · exact Odds.skip fun ξ => Odds.skip fun ξ2 => Odds.skip fun τ => Odds.last ∅ (by simp) fun r _ h => h.2 hw
  have hw' : y ≠ (s.R [β]).eval (ω / z) ∨ y1 ≠ (s.S [β]).eval (ω / z) ∨ y2 ≠ s.M.eval (ω / z) ∨
      G.eval z ≠ 0 := by
    by_contra hc
    push Not at hc
    exact hw ⟨hc.1, hc.2.1, hc.2.2.1⟩
  have hcn := cs.n_eq hNB
  have dP : (tablePoly cs.range : Polynomial F).natDegree ≤ D := by
    have := natDegree_shifted_table (F := F) 0 cs.range D hD (by omega)
    rwa [Nat.zero_sub, pow_zero, one_mul] at this
  have dG : G.natDegree ≤ D := rcGPoly_natDegree _ _ _ (D + 1) D α β ω z y y1 y2 s.W _ _ _ _ _
    hs.W dP (hs.A _) (hs.P1 _) (hs.H1 _) (hs.H2 _)
  obtain ⟨b1, c1, H⟩ := opening3 (s.R [β]) (s.S [β]) s.M G y y1 y2 (ω / z) z D (hs.R _) (hs.S _) hs.M dG hw'
  refine Odds.step b1 c1 fun ξ hξ => Odds.skip fun ξ2 => ?_
  obtain ⟨b2, c2, H2⟩ := H ξ hξ (s.Q1 [β, α, ω, z, ξ, ξ2]) (s.Q2 [β, α, ω, z, ξ, ξ2]) (hs.Q1 _) (hs.Q2 _)
  refine Odds.step b2 c2 fun τ hτ => ?_
  obtain ⟨r0, H3⟩ := H2 τ hτ
  refine Odds.last {r0} (by simp) fun r hr => ?_
  rintro ⟨⟨env, g, h, rfl, hg, hnd, pp, hpp, pk, vk, hidx, e1, e2, e3, e4, e5, -, hver⟩, -⟩
  obtain ⟨kvk, hvk, hidx'⟩ := rcIndex_ok τ g h D pp hpp cs (by omega) (by omega)
  rw [hidx', Nat.sub_eq_zero_of_le hNB, pow_zero, one_mul] at hidx
  obtain ⟨-, rfl⟩ := Prod.mk.inj (Except.ok.inj hidx)
  have key := (C67_accepts_iff env τ g h hnd _ hvk hN _ (Or.inr ?_)).mp hver
  · dsimp only at key e1 e2 e3 e4 e5
    simp only [List.cons_append, List.nil_append] at key
    simp only [e1, e2, e3, e4, max_eq_right hNB, ← rcComb_eq, ← rcK_eval] at key
    rw [e5] at key
    exact H3 _ (by simpa using hr) (opening3_group hg key.2.2.2)
  · dsimp only at e3 ⊢
    simp only [List.cons_append, List.nil_append]
    rw [e3]
    simpa using hω

/-- The hypotheses can be met, and the bound says something: over the field with 7681 elements a prover
that always claims a value one too large is accepted for at most 21 out of 7681 choices, even if it
commits to a true witness. -/
example (s : PovStrategy Plonk.K7681) (hs : s.Bounded 17)
    (hy : ∀ ζ ζ1 α ω z, s.y [ζ, ζ1, α, ω, z] = s.W.eval (ω / z) + 1) :
    Odds Plonk.K7681 21 fun t : Plonk.K7681 × Plonk.K7681 × Plonk.K7681 × Plonk.K7681 × Plonk.K7681 × Plonk.K7681 × Plonk.K7681 × Plonk.K7681 × Plonk.K7681 =>
      let (ζ, ζ1, α, ω, z, ξ, ξ2, β, r) := t
      PovAccepts Plonk.K7681 Plonk.K7681 Plonk.K7681 ⟨[5], [(0, 4), (3, 8)], 1, 1⟩ 3 17 13 ⟨[6], [10]⟩ s
        ζ ζ1 α ω z ξ ξ2 β r := by
  refine Odds.mono (C141_pov (F := Plonk.K7681) (G1 := Plonk.K7681) (G2 := Plonk.K7681) (GT := Plonk.K7681) ⟨[5], [(0, 4), (3, 8)], 1, 1⟩ 3 17 rfl (by simp) (by decide) 13
    (by decide +kernel) (by decide) ⟨[6], [10]⟩ s hs) le_rfl ?_
  rintro ⟨ζ, ζ1, α, ω, z, ξ, ξ2, β, r⟩ h
  refine ⟨h, fun hc => ?_⟩
  have := hc.1
  rw [hy] at this
  simp at this

example : R1csLens cube97 ∧ 2 = cube97.nrows ∧ 4 = cube97.ncols ∧ 6 = (stacked cube97).length ∧
    3 * 2 ≤ 6 ∧ cube97.inputSize + 1 ≤ 4 ∧ (5 : K97) ≠ 0 := by
  refine ⟨?_, rfl, rfl, rfl, by decide, by decide, by decide⟩
  refine ⟨⟨?_, ?_⟩, ⟨?_, ?_⟩, ?_, ?_⟩ <;> rfl

end VO
