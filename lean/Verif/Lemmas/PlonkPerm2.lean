import Mathlib.LinearAlgebra.Lagrange
import Mathlib.Algebra.BigOperators.Fin
import Mathlib.Algebra.BigOperators.Ring.Finset
import Mathlib.Data.Fintype.BigOperators
import Verif.Lemmas.PlonkPerm
import Verif.Lemmas.PlonkProd
import Verif.Lemmas.Fft

/-
The permutation polynomial of the PLONK prover.
-/

set_option linter.unusedSectionVars false

namespace VO.Plonk

open VO.Spec VO.Spec.Plonk Polynomial

variable {F : Type} [Field F] [DecidableEq F]

/-! ### Domains -/

theorem idft_eval {w : F} {N : ℕ} (hw : IsPrimitiveRoot w N) (hN : 0 < N) (e : List F)
    (he : e.length = N) : (polyOf (idft w N e)).degree < N ∧
      ∀ i < N, (polyOf (idft w N e)).eval (w ^ i) = e.getD i 0 := by
  have hinj : Set.InjOn (fun i : ℕ => w ^ i) (Finset.range N : Set ℕ) := by
    intro i hi j hj h
    exact hw.pow_inj (by simpa using hi) (by simpa using hj) h
  let p := Lagrange.interpolate (Finset.range N) (fun i : ℕ => w ^ i) fun i => e.getD i 0
  have hd : p.degree < N := by
    have := Lagrange.degree_interpolate_lt (fun i => e.getD i 0) hinj
    rwa [Finset.card_range] at this
  have hv : ∀ i, i < N → e.getD i 0 = p.eval (w ^ i) := fun i hi =>
    (Lagrange.eval_interpolate_at_node (fun i => e.getD i 0) hinj (Finset.mem_range.2 hi)).symm
  have hp : polyOf (idft w N e) = p :=
    idft_values hw hN (natCast_ne_zero_of_primitive hw hN) p hd e he hv
  rw [hp]
  exact ⟨hd, fun i hi => (hv i hi).symm⟩

theorem ifft_eval {D : Dom F} (hD : DomOk D) {e : List F} (he : e.length = D.size) {i : ℕ}
    (hi : i < D.size) : (polyOf (D.ifft e)).eval (D.omega ^ i) = e.getD i 0 :=
  (idft_eval hD.root hD.pos e he).2 i hi

theorem ifft_degree {D : Dom F} (hD : DomOk D) {e : List F} (he : e.length = D.size) :
    (polyOf (D.ifft e)).degree < D.size := (idft_eval hD.root hD.pos e he).1

theorem elements_length (D : Dom F) : D.elements.length = D.size := by simp [Dom.elements]

theorem elements_getElem? (D : Dom F) {i : ℕ} (h : i < D.size) :
    D.elements[i]? = some (D.omega ^ i) := by
  simp [Dom.elements, h]

/-! ### Labels -/

theorem wireLabel_inj {D : Dom F} (hD : DomOk D) {p q : WireData} (hp : posRow p < D.size)
    (hq : posRow q < D.size) (h : wireLabel D.omega p = wireLabel D.omega q) : p = q := by
  have hw1 : ∀ i : ℕ, (D.omega ^ i) ^ D.size = 1 := fun i => by
    rw [← pow_mul, mul_comm, pow_mul, hD.root.pow_eq_one, one_pow]
  have hn := congrArg (· ^ D.size) h
  have hinj : ∀ {i j : ℕ}, i < D.size → j < D.size → D.omega ^ i = D.omega ^ j → i = j :=
    fun hi hj he => hD.root.pow_inj hi hj he
  cases p <;> cases q <;> simp only [wireLabel, mul_pow, hw1, mul_one, posRow] at h hn hp hq
  · rw [hinj hp hq h]
  · exact absurd hn.symm hD.k1
  · exact absurd hn.symm hD.k2
  · exact absurd hn.symm hD.k3
  · exact absurd hn hD.k1
  · rw [hinj hp hq (mul_left_cancel₀ hD.nz.1 h)]
  · exact absurd hn hD.k12
  · exact absurd hn hD.k13
  · exact absurd hn hD.k2
  · exact absurd hn.symm hD.k12
  · rw [hinj hp hq (mul_left_cancel₀ hD.nz.2.1 h)]
  · exact absurd hn hD.k23
  · exact absurd hn hD.k3
  · exact absurd hn.symm hD.k13
  · exact absurd hn.symm hD.k23
  · rw [hinj hp hq (mul_left_cancel₀ hD.nz.2.2 h)]

/-! ### Sigma polynomials -/

theorem mapM_ok {α β : Type} {f : α → Except Err β} {g : α → β} (l : List α)
    (h : ∀ a ∈ l, f a = .ok (g a)) : l.mapM f = .ok (l.map g) := by
  induction l with
  | nil => rfl
  | cons a l ih =>
    rw [List.mapM_cons, h a (by simp), ih fun b hb => h b (by simp [hb])]
    rfl

theorem lagrange_run {D : Dom F} {sigma : List WireData} (h : ∀ p ∈ sigma, posRow p < D.size) :
    computePermutationLagrange sigma D = .ok (sigma.map (wireLabel D.omega)) := by
  unfold computePermutationLagrange
  apply mapM_ok
  intro p hp
  have := h p hp
  cases p <;> simp only [posRow] at this <;>
    simp [elements_getElem? D this, wireLabel, K1, K2, K3]

/-- The four sigma polynomials take the label of the image of a position at its row. -/
structure SigOk (D : Dom F) (s : Sigmas) (sig : Quad F) : Prop where
  d1 : (polyOf sig.p1).degree < D.size
  d2 : (polyOf sig.p2).degree < D.size
  d3 : (polyOf sig.p3).degree < D.size
  d4 : (polyOf sig.p4).degree < D.size
  v1 : ∀ i q, sigmaAt s (.left i) = some q → polyEval sig.p1 (D.omega ^ i) = wireLabel D.omega q
  v2 : ∀ i q, sigmaAt s (.right i) = some q → polyEval sig.p2 (D.omega ^ i) = wireLabel D.omega q
  v3 : ∀ i q, sigmaAt s (.output i) = some q → polyEval sig.p3 (D.omega ^ i) = wireLabel D.omega q
  v4 : ∀ i q, sigmaAt s (.fourth i) = some q → polyEval sig.p4 (D.omega ^ i) = wireLabel D.omega q

theorem ifft_col {D : Dom F} (hD : DomOk D) {l : List WireData} (hl : l.length = D.size) {i : ℕ}
    {q : WireData} (h : l[i]? = some q) :
    polyEval (D.ifft (l.map (wireLabel D.omega))) (D.omega ^ i) = wireLabel D.omega q := by
  have hi : i < D.size := by
    rw [← hl]; exact (List.getElem?_eq_some_iff.1 h).1
  rw [polyEval_eq, ifft_eval hD (by simpa using hl) hi, List.getD_eq_getElem?_getD,
    List.getElem?_map, h]
  rfl

theorem sigmaPolys_run {D : Dom F} (hD : DomOk D) {c : Composer F} (hw : WF c)
    {L : List (List WireData)} (hL : L.Perm c.perm) (hn : c.n ≤ D.size) :
    ∃ s sig, computeSigmaPermutations L D.size = .ok s ∧
      computeSigmaPolynomials L D.size D = .ok sig ∧ SigOk D s sig := by
  obtain ⟨s, r1, r2, r3, -⟩ := sigma_facts hw hL hn
  have hr : ∀ p q, sigmaAt s p = some q → posRow q < D.size := fun p q h => (r3 p q h).2
  have m1 : ∀ q ∈ s.s1, posRow q < D.size := fun q hq => by
    obtain ⟨i, hi⟩ := List.mem_iff_getElem?.1 hq
    exact hr (.left i) q hi
  have m2 : ∀ q ∈ s.s2, posRow q < D.size := fun q hq => by
    obtain ⟨i, hi⟩ := List.mem_iff_getElem?.1 hq
    exact hr (.right i) q hi
  have m3 : ∀ q ∈ s.s3, posRow q < D.size := fun q hq => by
    obtain ⟨i, hi⟩ := List.mem_iff_getElem?.1 hq
    exact hr (.output i) q hi
  have m4 : ∀ q ∈ s.s4, posRow q < D.size := fun q hq => by
    obtain ⟨i, hi⟩ := List.mem_iff_getElem?.1 hq
    exact hr (.fourth i) q hi
  refine ⟨s, ⟨D.ifft (s.s1.map (wireLabel D.omega)), D.ifft (s.s2.map (wireLabel D.omega)),
    D.ifft (s.s3.map (wireLabel D.omega)), D.ifft (s.s4.map (wireLabel D.omega))⟩, r1, ?_, ?_⟩
  · unfold computeSigmaPolynomials
    rw [r1]
    simp only [bind, Except.bind, assertR, r2.l1, r2.l2, r2.l3, r2.l4, if_true, lagrange_run m1,
      lagrange_run m2, lagrange_run m3, lagrange_run m4]
    rfl
  · exact ⟨ifft_degree hD (by simpa using r2.l1), ifft_degree hD (by simpa using r2.l2),
      ifft_degree hD (by simpa using r2.l3), ifft_degree hD (by simpa using r2.l4),
      fun i q h => ifft_col hD r2.l1 h, fun i q h => ifft_col hD r2.l2 h,
      fun i q h => ifft_col hD r2.l3 h, fun i q h => ifft_col hD r2.l4 h⟩

/-! ### Products over all positions -/

/-- The positions of a table with `n` rows. -/
abbrev Pos (n : ℕ) := {p : WireData // posRow p < n}

/-- Rows and columns. -/
def posEquiv (n : ℕ) : Fin n × Fin 4 ≃ Pos n where
  toFun x := match x with
    | (i, 0) => ⟨.left i, i.2⟩
    | (i, 1) => ⟨.right i, i.2⟩
    | (i, 2) => ⟨.output i, i.2⟩
    | (i, 3) => ⟨.fourth i, i.2⟩
  invFun p := match p with
    | ⟨.left i, h⟩ => (⟨i, h⟩, 0)
    | ⟨.right i, h⟩ => (⟨i, h⟩, 1)
    | ⟨.output i, h⟩ => (⟨i, h⟩, 2)
    | ⟨.fourth i, h⟩ => (⟨i, h⟩, 3)
  left_inv := by rintro ⟨i, j⟩; fin_cases j <;> rfl
  right_inv := by rintro ⟨p, h⟩; cases p <;> rfl

instance (n : ℕ) : Fintype (Pos n) := Fintype.ofEquiv _ (posEquiv n)

theorem card_pos (n : ℕ) : Fintype.card (Pos n) = 4 * n := by
  rw [Fintype.ofEquiv_card, Fintype.card_prod, Fintype.card_fin, Fintype.card_fin, mul_comm]

theorem prod_pos (n : ℕ) (g : WireData → F) :
    ∏ p : Pos n, g p.1 = ∏ i ∈ Finset.range n,
      g (.left i) * g (.right i) * g (.output i) * g (.fourth i) := by
  rw [← Fintype.prod_equiv (posEquiv n) (fun x => g (posEquiv n x).1) _ (fun _ => rfl),
    Fintype.prod_prod_type, ← Fin.prod_univ_eq_prod_range
      (fun i => g (.left i) * g (.right i) * g (.output i) * g (.fourth i)) n]
  refine Finset.prod_congr rfl fun i _ => ?_
  rw [Fin.prod_univ_four]
  rfl

/-- The permutation of the positions. -/
noncomputable def sigmaFun {s : Sigmas} {n : ℕ}
    (h : ∀ p, posRow p < n → ∃ q, sigmaAt s p = some q)
    (hr : ∀ p q, sigmaAt s p = some q → posRow p < n ∧ posRow q < n) (p : Pos n) : Pos n :=
  ⟨(h p.1 p.2).choose, (hr p.1 _ (h p.1 p.2).choose_spec).2⟩

theorem sigmaFun_spec {s : Sigmas} {n : ℕ} (h : ∀ p, posRow p < n → ∃ q, sigmaAt s p = some q)
    (hr : ∀ p q, sigmaAt s p = some q → posRow p < n ∧ posRow q < n) (p : Pos n) :
    sigmaAt s p.1 = some (sigmaFun h hr p).1 := (h p.1 p.2).choose_spec

theorem prod_own (omega beta gamma : F) (w : WireData → F) (n : ℕ) :
    ∏ i ∈ Finset.range n, ownFactor omega beta gamma w i
      = ∏ p : Pos n, (w p.1 + beta * wireLabel omega p.1 + gamma) := by
  rw [prod_pos n fun p => w p + beta * wireLabel omega p + gamma]
  rfl

theorem sigFactor_eq {D : Dom F} {s : Sigmas} {sig : Quad F} (hs : SigOk D s sig) {n : ℕ}
    (h : ∀ p, posRow p < n → ∃ q, sigmaAt s p = some q)
    (hr : ∀ p q, sigmaAt s p = some q → posRow p < n ∧ posRow q < n) (beta gamma : F)
    (w : WireData → F) {i : ℕ} (hi : i < n) :
    sigFactor sig D.omega beta gamma w i =
      (w (.left i) + beta * wireLabel D.omega (sigmaFun h hr ⟨.left i, hi⟩).1 + gamma)
      * (w (.right i) + beta * wireLabel D.omega (sigmaFun h hr ⟨.right i, hi⟩).1 + gamma)
      * (w (.output i) + beta * wireLabel D.omega (sigmaFun h hr ⟨.output i, hi⟩).1 + gamma)
      * (w (.fourth i) + beta * wireLabel D.omega (sigmaFun h hr ⟨.fourth i, hi⟩).1 + gamma) := by
  unfold sigFactor
  rw [hs.v1 i _ (sigmaFun_spec h hr ⟨.left i, hi⟩), hs.v2 i _ (sigmaFun_spec h hr ⟨.right i, hi⟩),
    hs.v3 i _ (sigmaFun_spec h hr ⟨.output i, hi⟩), hs.v4 i _ (sigmaFun_spec h hr ⟨.fourth i, hi⟩)]

theorem prod_sig {D : Dom F} {s : Sigmas} {sig : Quad F} (hs : SigOk D s sig) {n : ℕ}
    (h : ∀ p, posRow p < n → ∃ q, sigmaAt s p = some q)
    (hr : ∀ p q, sigmaAt s p = some q → posRow p < n ∧ posRow q < n) (beta gamma : F)
    (w : WireData → F) :
    ∏ i ∈ Finset.range n, sigFactor sig D.omega beta gamma w i
      = ∏ p : Pos n, (w p.1 + beta * wireLabel D.omega (sigmaFun h hr p).1 + gamma) := by
  let g : WireData → F := fun p => if hp : posRow p < n then
    w p + beta * wireLabel D.omega (sigmaFun h hr ⟨p, hp⟩).1 + gamma else 1
  have e : ∀ p : Pos n, w p.1 + beta * wireLabel D.omega (sigmaFun h hr p).1 + gamma = g p.1 := by
    intro p; simp only [g]; rw [dif_pos p.2]
  rw [Finset.prod_congr rfl fun p _ => e p, prod_pos n g]
  refine Finset.prod_congr rfl fun i hi => ?_
  have hi := Finset.mem_range.1 hi
  rw [sigFactor_eq hs h hr beta gamma w hi]
  rw [← e ⟨.left i, hi⟩, ← e ⟨.right i, hi⟩, ← e ⟨.output i, hi⟩, ← e ⟨.fourth i, hi⟩]

/-- The check of the accumulator implies that the two products agree. -/
theorem permCheck_prod {sig : Quad F} {n : ℕ} (hn : 0 < n) {omega beta gamma : F}
    {w : WireData → F} {z : ℕ → F} (h : PermCheck sig n omega beta gamma w z) :
    ∏ i ∈ Finset.range n, ownFactor omega beta gamma w i
      = ∏ i ∈ Finset.range n, sigFactor sig omega beta gamma w i := by
  have := telescope (n := n) (fun i => z (i % n)) (fun i => ownFactor omega beta gamma w i)
    (fun i => sigFactor sig omega beta gamma w i) (by simpa using h.1) (fun i hi => by
      have := h.2 i hi
      simp only [Nat.mod_eq_of_lt hi]
      exact this)
  simp only [Nat.mod_self, h.1, one_mul] at this
  exact this.symm

/-- Soundness of the permutation argument. -/
theorem perm_sound {D : Dom F} (hD : DomOk D) {c : Composer F} (hw : WF c)
    {L : List (List WireData)} (hL : L.Perm c.perm) (hn : c.n ≤ D.size) {sig : Quad F}
    (hsig : computeSigmaPolynomials L D.size D = .ok sig) {w : WireData → F}
    (hc : ¬ CopyOk c w) :
    Mostly (4 * D.size) fun beta : F => Mostly (4 * D.size) fun gamma : F =>
      ∀ z, ¬ PermCheck sig D.size D.omega beta gamma w z := by
  obtain ⟨s, sig', e1, e2, hs⟩ := sigmaPolys_run hD hw hL hn
  rw [hsig] at e2
  simp only [Except.ok.injEq] at e2
  subst e2
  obtain ⟨s', r1, -, r3, r4, -, -, -, -, r5⟩ := sigma_facts hw hL hn
  rw [e1] at r1
  simp only [Except.ok.injEq] at r1
  subst r1
  have hne : ∃ q : Pos D.size, w (sigmaFun r4 r3 q).1 ≠ w q.1 := by
    by_contra hcon
    push Not at hcon
    apply hc
    rw [← r5 w]
    intro p q hpq
    have hp := (r3 p q hpq).1
    have h1 := sigmaFun_spec r4 r3 ⟨p, hp⟩
    rw [hpq] at h1
    simp only [Option.some.injEq] at h1
    rw [h1]
    exact hcon ⟨p, hp⟩
  have key := perm_mostly (fun p : Pos D.size => w p.1) (fun p => wireLabel D.omega p.1)
    (fun p q h => Subtype.ext (wireLabel_inj hD p.2 q.2 h)) (sigmaFun r4 r3) hne
  rw [card_pos] at key
  refine key.mono le_rfl fun beta hb => hb.mono le_rfl fun gamma hg z hz => hg ?_
  rw [← prod_own, ← prod_sig hs r4 r3 beta gamma w]
  exact permCheck_prod hD.pos hz

/-- Values invariant under the permutation give equal products. -/
theorem perm_prod_eq {D : Dom F} {c : Composer F} (hw : WF c)
    {L : List (List WireData)} (hL : L.Perm c.perm) (hn : c.n ≤ D.size) {s : Sigmas} {sig : Quad F}
    (e1 : computeSigmaPermutations L D.size = .ok s) (hs : SigOk D s sig) {w : WireData → F}
    (hc : CopyOk c w) (beta gamma : F) :
    ∏ i ∈ Finset.range D.size, ownFactor D.omega beta gamma w i
      = ∏ i ∈ Finset.range D.size, sigFactor sig D.omega beta gamma w i := by
  obtain ⟨s', r1, -, r3, r4, r6, -, -, -, r5⟩ := sigma_facts hw hL hn
  rw [e1] at r1
  simp only [Except.ok.injEq] at r1
  subst r1
  rw [prod_own, prod_sig hs r4 r3]
  have hinj : Function.Injective (sigmaFun r4 r3) := by
    intro p q hpq
    have h1 := sigmaFun_spec r4 r3 p
    have h2 := sigmaFun_spec r4 r3 q
    rw [hpq] at h1
    exact Subtype.ext (r6 _ _ _ h1 h2)
  have hbij : Function.Bijective (sigmaFun r4 r3) := Finite.injective_iff_bijective.1 hinj
  have hwinv : ∀ p, w (sigmaFun r4 r3 p).1 = w p.1 := fun p =>
    (r5 w).2 hc _ _ (sigmaFun_spec r4 r3 p)
  rw [← Function.Bijective.prod_comp hbij
    (fun p : Pos D.size => w p.1 + beta * wireLabel D.omega p.1 + gamma)]
  exact Finset.prod_congr rfl fun p _ => by rw [hwinv]

end VO.Plonk
