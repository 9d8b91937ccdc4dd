import Mathlib.LinearAlgebra.Lagrange
import Verif.Lemmas.PlonkKzg
import Verif.Lemmas.PlonkVerifyIff
import Verif.Lemmas.Odds
import Verif.Props.PlonkSound

/-
From the verifier that runs on KZG to the one that runs on ideal commitments.
-/

set_option linter.unusedSectionVars false

namespace VO.Plonk

open VO.Spec VO.Spec.Plonk Polynomial

variable {F : Type} [Field F] [DecidableEq F] {G1 G2 GT : Type} [AddCommGroup G1] [Module F G1]
  [AddCommGroup G2] [Module F G2] [AddCommGroup GT] [Module F GT]

/-- The KZG commitment to what an ideal commitment stands for. -/
noncomputable def kzgOf {d : ℕ} (e : G1 →ₗ[F] G2 →ₗ[F] GT) (g : G1) (h : G2) (D : ℕ) (τ : F)
    (c : (idealPcs F d).Comm) : (kzgPcs e g h D τ).Comm := ((c : BPoly F d).1.eval τ • g : G1)

/-- The KZG proof with the polynomials of an ideal one, and polynomials for the openings. -/
noncomputable def kzgProof {d : ℕ} (e : G1 →ₗ[F] G2 →ₗ[F] GT) (g : G1) (h : G2) (D : ℕ) (τ : F)
    (p : PlonkProof (idealPcs F d)) (o1 o2 : F[X]) : PlonkProof (kzgPcs e g h D τ) :=
  ⟨kzgOf e g h D τ p.a, kzgOf e g h D τ p.b, kzgOf e g h D τ p.c, kzgOf e g h D τ p.d, kzgOf e g h D τ p.z, kzgOf e g h D τ p.f,
    kzgOf e g h D τ p.h1, kzgOf e g h D τ p.h2, kzgOf e g h D τ p.z2, fun k => kzgOf e g h D τ (p.t k), (o1.eval τ • g : G1),
    (o2.eval τ • g : G1), p.ev⟩

section
variable {e : G1 →ₗ[F] G2 →ₗ[F] GT} {g : G1} {h : G2} {D d : ℕ} {τ : F}

theorem msm_raw (g : G1) (τ : F) (l : List (F × BPoly F d)) :
    (((l.map fun x => x.1).zip (l.map fun x => x.2.1.eval τ • g)).map fun x => x.1 • x.2).sum
      = (idealMsm d (l.map fun x => x.2) (l.map fun x => x.1)).1.eval τ • g := by
  rw [ideal_msm d l, List.zip_map']
  have := sum_smul_eval g τ (l.map fun x => (x.1, x.2.1))
  simpa [List.map_map, Function.comp_def] using this

theorem kzg_msm (l : List (F × (idealPcs F d).Comm)) :
    (kzgPcs e g h D τ).msm (l.map fun x => kzgOf e g h D τ x.2) (l.map fun x => x.1)
      = kzgOf e g h D τ ((idealPcs F d).msm (l.map fun x => x.2) (l.map fun x => x.1)) :=
  msm_raw g τ l

/-- The key of KZG is that of the ideal scheme, committed to. -/
structure VkMap (vk : VKey (kzgPcs e g h D τ)) (vkI : VKey (idealPcs F d)) : Prop where
  sel : vk.sel = vkI.sel.map (kzgOf e g h D τ)
  sig : vk.sig = vkI.sig.map (kzgOf e g h D τ)
  tab : vk.tab = vkI.tab.map (kzgOf e g h D τ)

theorem tabC_map {vk : VKey (kzgPcs e g h D τ)} {vkI : VKey (idealPcs F d)} (hv : VkMap vk vkI)
    (zeta : F) : tabC _ vk zeta = kzgOf e g h D τ (tabC _ vkI zeta) := by
  unfold tabC
  rw [hv.tab]
  exact kzg_msm [(1, vkI.tab.a), (zeta, vkI.tab.b), (zeta * zeta, vkI.tab.c),
    (zeta * zeta * zeta, vkI.tab.d)]

theorem linC_map {E : EdCurve F} {Dm : Dom F} {vk : VKey (kzgPcs e g h D τ)}
    {vkI : VKey (idealPcs F d)} (hv : VkMap vk vkI) (p : PlonkProof (idealPcs F d)) (o1 o2 : F[X])
    (ch : Chals F) (l1 q : F) (v : CustomVals F) :
    linC _ E Dm vk (kzgProof e g h D τ p o1 o2) ch l1 q v
      = kzgOf e g h D τ (linC _ E Dm vkI p ch l1 q v) := by
  unfold linC
  rw [← kzg_msm]
  have := linTerms_map (kzgOf e g h D τ) E ch Dm.size l1 p.ev q v vkI.sel vkI.sig.d p.z p.z2 p.h1 p.t
  have h2 : vk.sig.d = kzgOf e g h D τ vkI.sig.d := by rw [hv.sig]; rfl
  have h3 : linTerms E ch Dm.size l1 p.ev q v vk.sel vk.sig.d (kzgOf e g h D τ p.z) (kzgOf e g h D τ p.z2)
      (kzgOf e g h D τ p.h1) (fun k => kzgOf e g h D τ (p.t k))
      = (linTerms E ch Dm.size l1 p.ev q v vkI.sel vkI.sig.d p.z p.z2 p.h1 p.t).map
        (fun x => (x.1, kzgOf e g h D τ x.2)) := by
    rw [hv.sel, h2]; exact this.symm
  show (kzgPcs e g h D τ).msm
      (List.map (·.2) (linTerms E ch Dm.size l1 p.ev q v vk.sel vk.sig.d (kzgOf e g h D τ p.z) (kzgOf e g h D τ p.z2)
        (kzgOf e g h D τ p.h1) (fun k => kzgOf e g h D τ (p.t k))))
      (List.map (·.1) (linTerms E ch Dm.size l1 p.ev q v vk.sel vk.sig.d (kzgOf e g h D τ p.z) (kzgOf e g h D τ p.z2)
        (kzgOf e g h D τ p.h1) (fun k => kzgOf e g h D τ (p.t k)))) = _
  rw [h3, List.map_map, List.map_map]
  rfl

theorem open1_map {E : EdCurve F} {Dm : Dom F} {vk : VKey (kzgPcs e g h D τ)}
    {vkI : VKey (idealPcs F d)} (hv : VkMap vk vkI) (p : PlonkProof (idealPcs F d)) (o1 o2 : F[X])
    (ch : Chals F) (l1 : F) (pe : List F) (q : F) (v : CustomVals F) :
    open1 _ E Dm vk (kzgProof e g h D τ p o1 o2) ch l1 pe q v
      = (open1 _ E Dm vkI p ch l1 pe q v).map fun x => (kzgOf e g h D τ x.1, x.2) := by
  unfold open1
  rw [linC_map hv, tabC_map hv]
  simp only [List.map_cons, List.map_nil, hv.sig]
  rfl

theorem open2_map {vk : VKey (kzgPcs e g h D τ)}
    {vkI : VKey (idealPcs F d)} (hv : VkMap vk vkI) (p : PlonkProof (idealPcs F d)) (o1 o2 : F[X])
    (ch : Chals F) (aN bN dN : F) :
    open2 _ vk (kzgProof e g h D τ p o1 o2) ch aN bN dN
      = (open2 _ vkI p ch aN bN dN).map fun x => (kzgOf e g h D τ x.1, x.2) := by
  unfold open2
  rw [tabC_map hv]
  simp only [List.map_cons, List.map_nil]
  rfl

/-- The list of polynomials and values of an opening. -/
noncomputable def polys (l : List ((idealPcs F d).Comm × F)) : List (F[X] × F) :=
  l.map fun x => ((x.1 : BPoly F d).1, x.2)

theorem check_map (hg : g ≠ 0) (hh : NonDegenerate e h) {x ξ : F} {l : List ((idealPcs F d).Comm × F)}
    {π : F[X]} :
    (kzgPcs e g h D τ).check ((l.map fun x => (kzgOf e g h D τ x.1, x.2)).map (·.1)) x
      ((l.map fun x => (kzgOf e g h D τ x.1, x.2)).map (·.2)) (π.eval τ • g : G1) ξ = .ok true
      ↔ (combP ξ (polys l) - π * (X - C x)).eval τ = 0 := by
  have := kzg_check_iff (D := D) (τ := τ) (x := x) (ξ := ξ) (π := π) hg hh (l := polys l)
  rw [← this]
  have e1 : (l.map fun x => (kzgOf e g h D τ x.1, x.2)).map (·.1)
      = (polys l).map fun p => (p.1.eval τ • g : G1) := by
    unfold polys
    rw [List.map_map, List.map_map]
    rfl
  have e2 : (l.map fun x => (kzgOf e g h D τ x.1, x.2)).map (·.2) = (polys l).map fun p => p.2 := by
    unfold polys
    rw [List.map_map, List.map_map]
    rfl
  rw [e1, e2]
  exact Iff.rfl

theorem idealCheck_raw {x : F} {l : List (BPoly F d × F)} :
    idealCheck d (l.map (·.1)) x (l.map (·.2)) = true
      ↔ ∀ p ∈ l.map (fun x => (x.1.1, x.2)), p.1.eval x = p.2 := by
  have hz : (l.map (·.1)).zip (l.map (·.2)) = l := by
    rw [List.zip_map']; simp
  rw [idealCheck_iff, hz]
  simp only [List.mem_map]
  constructor
  · rintro h p ⟨a, ha, rfl⟩
    exact h a ha
  · intro h a ha
    exact h _ ⟨a, ha, rfl⟩

theorem idealCheck_polys {x : F} {l : List ((idealPcs F d).Comm × F)} {u : Unit} {ξ : F} :
    (idealPcs F d).check (l.map (·.1)) x (l.map (·.2)) u ξ = .ok true
      ↔ ∀ p ∈ polys l, p.1.eval x = p.2 := by
  have h1 : (idealPcs F d).check (l.map (·.1)) x (l.map (·.2)) u ξ = .ok true
      ↔ idealCheck d (l.map (·.1)) x (l.map (·.2)) = true := by
    constructor
    · intro h; injection h
    · intro h; exact congrArg Except.ok h
  rw [h1]
  exact idealCheck_raw (l := l)

end

/-- The selector polynomials of the ideal key have the values of the columns. -/
theorem honest_of_right {K : PField F} {c : Composer F} (hw : WF c) {Dm : Dom F} (hD : CDom K c Dm)
    {d : ℕ} {sel : Gate (List F)} {sig tab : Quad F} {vkI : VKey (idealPcs F d)}
    (hp : PreOk (idealPcs F d) c Dm sel sig tab vkI) {ev : Evals F} {z : F}
    (h : SelectorsRight Dm.size Dm.omega c ev z) : HonestSelectors (ideal_sound d) vkI ev z := by
  have hx := ext_sel (ideal_sound d) hp
  rw [hp.selEq] at hx
  have hinj : Set.InjOn (fun i : ℕ => Dm.omega ^ i) (Finset.range Dm.size) := by
    intro i hi j hj hij
    exact hD.ok.root.pow_inj (by simpa using hi) (by simpa using hj) hij
  have key : ∀ (lbl : String) (col : List F) (q : F[X]),
      (∃ p : F[X], p.degree < Dm.size ∧ (∀ i < Dm.size, p.eval (Dm.omega ^ i) = col.getD i 0) ∧
        customGet ev.custom lbl = .ok (p.eval z)) →
      q.degree < Dm.size → (∀ i < Dm.size, q.eval (Dm.omega ^ i) = col.getD i 0) →
      customGet ev.custom lbl = .ok (q.eval z) := by
    rintro lbl col q ⟨p, hd, hv, hc⟩ hqd hq
    have : p = q := by
      refine eq_of_degrees_lt_of_eval_index_eq (Finset.range Dm.size) hinj (by simpa using hd)
        (by simpa using hqd) fun i hi => ?_
      rw [hv i (by simpa using hi), hq i (by simpa using hi)]
    rw [← this]; exact hc
  obtain ⟨d1, d2, d3, d4, d5, d6, d7, d8, d9, d10, d11, d12, d13, d14, d15⟩ := selector_degree hD hw
  have hr := fun i (hi : i < Dm.size) => selector_rows hD hw hi
  have x1 := congrArg Gate.arith hx
  have x2 := congrArg Gate.l hx
  have x3 := congrArg Gate.r hx
  have x4 := congrArg Gate.c hx
  simp only [Gate.map] at x1 x2 x3 x4
  constructor
  · rw [x1]
    exact key _ c.q_arith _ (h ("q_arith_eval", c.q_arith) (by simp)) d10 fun i hi => congrArg Gate.arith (hr i hi)
  · rw [x2]
    exact key _ c.q_l _ (h ("q_l_eval", c.q_l) (by simp)) d2 fun i hi => congrArg Gate.l (hr i hi)
  · rw [x3]
    exact key _ c.q_r _ (h ("q_r_eval", c.q_r) (by simp)) d3 fun i hi => congrArg Gate.r (hr i hi)
  · rw [x4]
    exact key _ c.q_c _ (h ("q_c_eval", c.q_c) (by simp)) d6 fun i hi => congrArg Gate.c (hr i hi)

/-- The keys correspond. -/
theorem vkMap_pre {K : PField F} {c : Composer F} (hw : WF c) {Dm : Dom F} (hD : CDom K c Dm)
    {e : G1 →ₗ[F] G2 →ₗ[F] GT} {g : G1} {h : G2} (hg : g ≠ 0) (hh : NonDegenerate e h) {D : ℕ} {τ : F}
    (hd : Dm.size ≤ D + 1) {sel sel' : Gate (List F)} {sig tab sig' tab' : Quad F}
    {vk : VKey (kzgPcs e g h D τ)} {vkI : VKey (idealPcs F (D + 1))}
    (hp : PreOk (kzgPcs e g h D τ) c Dm sel sig tab vk)
    (hI : PreOk (idealPcs F (D + 1)) c Dm sel' sig' tab' vkI) : VkMap vk vkI := by
  have e1 : sel = sel' := hp.selEq.trans hI.selEq.symm
  have e2 : sig = sig' := by
    have := hp.sigEq.symm.trans hI.sigEq
    injection this
  subst e1 e2
  have hv := vkFor_pre (kzg_complete e hg hh D τ) hw hD hd (pk := ⟨0, sel, sel, sig, sig, [], [], tab⟩) hp
  have hx := ext_sel (ideal_sound (D + 1)) hI
  have hy := ext_sig (ideal_sound (D + 1)) hI
  have hz : vkI.tab.map (ideal_sound (D + 1)).ext = sigPolys (tabPolys Dm c.lookup_table) := by
    obtain ⟨h1, h2, h3, h4⟩ := commitQuad_inv hI.tabC
    have hS := ideal_sound (F := F) (D + 1)
    simp only [WitVals.map, (ideal_sound (F := F) (D + 1)).commit _ _ h1,
      (ideal_sound (F := F) (D + 1)).commit _ _ h2, (ideal_sound (F := F) (D + 1)).commit _ _ h3,
      (ideal_sound (F := F) (D + 1)).commit _ _ h4, sigPolys]
  refine ⟨?_, ?_, ?_⟩
  · rw [hv.sel]
    exact congrArg (fun x : Gate F[X] => x.map fun p => (p.eval τ • g : G1)) hx.symm
  · rw [hv.sig, ← hy]
    rfl
  · rw [hv.tab, ← hz]
    rfl

end VO.Plonk
