import Verif.Lemmas.PlonkHiding2
import Verif.Props.PlonkKzgCircuit

/-
C151: what a PLONK proof tells about the witness.
-/

set_option linter.unusedSectionVars false

namespace VO

open Spec Spec.Plonk Plonk Polynomial

variable {F : Type} [Field F] [DecidableEq F]

namespace Plonk

/-- What `prove` runs. -/
theorem prove_inv {K : PField F} {E : EdCurve F} {P : PCS F} {ro : Transcript F P.Comm → F}
    {s s' : Prover P} {r1 r2 : F × F × F × F} {pr : PlonkProof P}
    (h : Prover.prove K E ro s r1 r2 = .ok (pr, s')) :
    ∃ pk c1, proveWithPreprocessed K E P ro c1 pk s'.tr = .ok pr ∧
      ((s.key = some pk ∧ c1 = s.cs ∧ s'.tr = s.tr) ∨
       (s.key = none ∧ preprocessProver K P s.cs s.tr = .ok (c1, pk, s'.tr))) := by
  unfold Prover.prove at h
  cases hk : s.key with
  | some pk =>
    rw [hk] at h
    simp only [pure, Except.pure, ok_bind] at h
    obtain ⟨pr', h2, h⟩ := bind_okE h
    obtain ⟨c2, -, h⟩ := bind_okE h
    simp only [Except.ok.injEq, Prod.mk.injEq] at h
    obtain ⟨rfl, rfl⟩ := h
    exact ⟨pk, s.cs, h2, Or.inl ⟨rfl, rfl, rfl⟩⟩
  | none =>
    rw [hk] at h
    simp only [pure, Except.pure] at h
    obtain ⟨⟨c1, pk, tr⟩, h1, h⟩ := bind_okE h
    simp only [ok_bind] at h
    obtain ⟨pr', h2, h⟩ := bind_okE h
    obtain ⟨c2, -, h⟩ := bind_okE h
    simp only [Except.ok.injEq, Prod.mk.injEq] at h
    obtain ⟨rfl, rfl⟩ := h
    exact ⟨pk, c1, h2, Or.inr ⟨rfl, h1⟩⟩

/-- What a prover publishes about the columns of its composer. -/
theorem prove_published {R : FieldRep F} {K : PField F} {E : EdCurve F} {P : PCS F} (hK : PFieldOk K)
    {c : Composer F} (hc : Reach R E c) {D : Dom F} (hD : newDom K (circuitBound c) = .ok D)
    {ro : Transcript F P.Comm → F} {s s' : Prover P}
    (hs : s.cs = c ∨ ∃ tr, Prover.preprocess K ⟨none, c, tr⟩ = .ok s) {r1 r2 : F × F × F × F}
    {pr : PlonkProof P} (h : Prover.prove K E ro s r1 r2 = .ok (pr, s')) :
    Published P D (verifierChals ro s'.tr c.public_inputs pr).z c pr := by
  have hw := Reach.wf hc
  have hC := cdom_new hK hD
  have hz := Reach.zeroVal hc
  have core : ∀ {c1 : Composer F} {pk : PKey F} {tr : Transcript F P.Comm}
      (_ : c1 = c ∨ c1 = padComposer c (D.size - c.n))
      (_ : proveWithPreprocessed K E P ro c1 pk tr = .ok pr),
      Published P D (verifierChals ro tr c.public_inputs pr).z c pr := by
    intro c1 pk tr h1 h2
    rcases h1 with rfl | rfl
    · exact prove_columns hC hw h2
    · rw [prove_pad' hC hw hz] at h2
      exact prove_columns hC hw h2
  obtain ⟨pk, c1, h2, ⟨hk, rfl, -⟩ | ⟨hk, h3⟩⟩ := prove_inv h
  · refine core ?_ h2
    rcases hs with hs | ⟨tr, hs⟩
    · exact Or.inl hs
    · right
      unfold Prover.preprocess at hs
      simp only [Option.isSome_none, Bool.false_eq_true, if_false] at hs
      obtain ⟨⟨cp', pk', trp⟩, hp', hs⟩ := bind_okE hs
      simp only [pure, Except.pure, Except.ok.injEq] at hs
      subst hs
      obtain ⟨D', D8, vk, hD', -, -, -, e, -⟩ := preprocessProver_inv hK (SameCircuit.refl c) hp'
      rw [hD'.uniq hC] at e
      exact e
  · rcases hs with hs | ⟨tr, hs⟩
    · rw [hs] at h3
      obtain ⟨D', D8, vk, hD', -, -, -, e, -⟩ := preprocessProver_inv hK (SameCircuit.refl c) h3
      rw [hD'.uniq hC] at e
      exact core (Or.inr e) h2
    · exfalso
      unfold Prover.preprocess at hs
      simp only [Option.isSome_none, Bool.false_eq_true, if_false] at hs
      obtain ⟨⟨cp', pk', trp⟩, -, hs⟩ := bind_okE hs
      simp only [pure, Except.pure, Except.ok.injEq] at hs
      subst hs
      cases hk

/-- A wrong guess is confirmed for few secrets only. -/
theorem confirms_wrong {D : Dom F} (hD : DomOk D) {z : F} {c : Composer F} {w : TwiceOpened} {u : ℕ → F}
    (hu : ¬ RightGuess D.size c w u) :
    Mostly D.size fun τ : F => ∀ (P : PCS F) (pr : PlonkProof P),
      (∀ p q x, P.commit p = .ok x → P.commit q = .ok x → (polyOf p).eval τ = (polyOf q).eval τ) →
      Published P D z c pr → ¬ ConfirmsColumn P D z pr w u := by
  obtain ⟨bad, hb, h⟩ := implied_wrong (z := z)
    (y := interpAt D.size D.omega (fun i => ownW c (w.pos i)) z)
    (y' := interpAt D.size D.omega (fun i => ownW c (w.pos i)) (z * D.omega))
    hD.root (w := w) (v := fun i => ownW c (w.pos i)) (u := u) hu
  refine ⟨bad, hb, fun τ hτ P pr hP hp hc => h τ hτ ?_⟩
  obtain ⟨h1, h2, h3⟩ := hp.1 w
  obtain ⟨y', h4, h5⟩ := hc
  have e : y' = interpAt D.size D.omega (fun i => ownW c (w.pos i)) (z * D.omega) := by
    have := h4.symm.trans h3
    simpa using this
  rw [h2, e] at h5
  have := hP _ _ _ h5 h1
  rwa [interpP_ifft hD, interpP_ifft hD, interpP_eval, interpP_eval] at this

theorem odds_or {T : Type} [Fintype T] [Fintype F] {k k' : ℕ} {P Q : T → Prop} (h : Odds F k P)
    (h' : Odds F k' Q) : Odds F (k + k') fun t => P t ∨ Q t := by
  unfold Odds at *
  have : {t | P t ∨ Q t}.ncard ≤ {t | P t}.ncard + {t | Q t}.ncard :=
    Set.ncard_union_le {t | P t} {t | Q t}
  calc _ ≤ ({t | P t}.ncard + {t | Q t}.ncard) * Fintype.card F := Nat.mul_le_mul_right _ this
    _ = {t | P t}.ncard * Fintype.card F + {t | Q t}.ncard * Fintype.card F := Nat.add_mul _ _ _
    _ ≤ _ := by rw [Nat.add_mul]; exact Nat.add_le_add h h'

theorem odds_equiv {T T' : Type} [Fintype T] [Fintype T'] [Fintype F] {k : ℕ} (f : T' ≃ T) {P : T → Prop}
    (h : Odds F k P) : Odds F k fun t => P (f t) := by
  unfold Odds at *
  rw [Fintype.card_congr f]
  have : {t | P (f t)}.ncard = {t | P t}.ncard := by
    have e : {t | P (f t)} = f ⁻¹' {t | P t} := rfl
    rw [e, Set.ncard_preimage_of_injective_subset_range f.injective (by simp [f.surjective.range_eq])]
  rw [this]
  exact h

end Plonk

/-- **C151.** A PLONK proof lets everybody confirm a right guess of a wire column. For every circuit built
with the composer, every commitment scheme and every hash: if `prove` returns a proof, then the test that
recovers the two random values of the left, right or fourth column from a guess and the two published
values, and compares the commitment, accepts every guess that agrees with the values of the composer in
the rows without random values. The only condition is that the two equations are independent at the
evaluation point. -/
theorem C151_right_guess {R : FieldRep F} {K : PField F} {E : EdCurve F} {P : PCS F} (hK : PFieldOk K)
    {c : Composer F} (hc : Reach R E c) {D : Dom F} (hD : newDom K (circuitBound c) = .ok D)
    {ro : Transcript F P.Comm → F} {s s' : Prover P}
    (hs : s.cs = c ∨ ∃ tr, Prover.preprocess K ⟨none, c, tr⟩ = .ok s) {r1 r2 : F × F × F × F}
    {pr : PlonkProof P} (h : Prover.prove K E ro s r1 r2 = .ok (pr, s')) (w : TwiceOpened) {u : ℕ → F}
    (hu : RightGuess D.size c w u)
    (hdet : randomDet D.size D.omega (verifierChals ro s'.tr c.public_inputs pr).z w ≠ 0) :
    ConfirmsColumn P D (verifierChals ro s'.tr c.public_inputs pr).z pr w u :=
  confirms_right (prove_published hK hc hD hs h) (Reach.shape hc) hu hdet

/-- The equations are dependent for at most `2n` evaluation points. -/
theorem C151_points {R : FieldRep F} {K : PField F} {E : EdCurve F} (hK : PFieldOk K)
    {c : Composer F} (hc : Reach R E c) {D : Dom F} (hD : newDom K (circuitBound c) = .ok D)
    (w : TwiceOpened) :
    Mostly (2 * D.size) fun z : F => randomDet D.size D.omega z w ≠ 0 := by
  have h := cdom_new hK hD
  exact det_few h.ok.root (le_trans (Reach.four hc) h.n) w

/-- The output column is published at one point only, and two random values are enough for that: for all
values in the other rows, every pair of a value at the secret and a value at the evaluation point comes
from exactly one pair of random values. -/
theorem C151_output_hides {n : ℕ} {omega : F} (hr : IsPrimitiveRoot omega n) (hn : 3 ≤ n) {τ z : F}
    (hτ : τ ^ n ≠ 1) (hz : z ^ n ≠ 1) (hne : z ≠ τ) (u : ℕ → F) (a b : F) :
    ∃! x : F × F,
      interpAt n omega (fun i => if i = 1 then x.1 else if i = 2 then x.2 else u i) τ = a ∧
      interpAt n omega (fun i => if i = 1 then x.1 else if i = 2 then x.2 else u i) z = b := by
  let A := interpP n omega (rowsAt [1] : ℕ → F)
  let B := interpP n omega (rowsAt [2] : ℕ → F)
  let U := interpP n omega fun i => if i = 1 ∨ i = 2 then 0 else u i
  have hA : ∀ i < n, A.eval (omega ^ i) = if i = 1 then 1 else 0 := by
    intro i hi
    simp only [A, interpP_node hr _ hi, rowsAt, List.mem_singleton]
  have hB : ∀ i < n, B.eval (omega ^ i) = if i = 2 then 1 else 0 := by
    intro i hi
    simp only [B, interpP_node hr _ hi, rowsAt, List.mem_singleton]
  have out : ∀ {y : F}, y ^ n ≠ 1 → ∀ i, y ≠ omega ^ i := by
    rintro y hy i rfl
    apply hy
    rw [← pow_mul, mul_comm, pow_mul, hr.pow_eq_one, one_pow]
  have few : ∀ (p : F[X]), p.degree < n → ∀ s : Finset F, n ≤ s.card → (∀ x ∈ s, p.eval x = 0) → p = 0 := by
    intro p hp s hs h0
    by_contra hp0
    have h1 : s.card ≤ p.natDegree := by
      by_contra hlt
      exact hp0 (eq_zero_of_natDegree_lt_card_of_eval_eq_zero' p s h0 (by omega))
    have := (natDegree_lt_iff_degree_lt hp0).2 hp
    omega
  have inj : Set.InjOn (fun i => omega ^ i) (Finset.range n : Set ℕ) := root_inj hr
  have card : ∀ l : Finset ℕ, l ⊆ Finset.range n → (l.image fun i => omega ^ i).card = l.card := by
    intro l hl
    refine Finset.card_image_of_injOn (inj.mono ?_)
    exact_mod_cast hl
  have hAz : A.eval z ≠ 0 := by
    intro h0
    have := few A (interpP_degree hr _)
      (insert z (((Finset.range n).erase 1).image fun i => omega ^ i)) ?_ ?_
    · have h1 := hA 1 (by omega)
      rw [this] at h1
      simp at h1
    · rw [Finset.card_insert_of_notMem, card _ (Finset.erase_subset _ _), Finset.card_erase_of_mem
        (by simp; omega), Finset.card_range]
      · omega
      · simp only [Finset.mem_image, not_exists, not_and]
        intro i _ e
        exact out hz i e.symm
    · intro x hx
      simp only [Finset.mem_insert, Finset.mem_image, Finset.mem_erase, Finset.mem_range] at hx
      rcases hx with rfl | ⟨i, ⟨h1, h2⟩, rfl⟩
      · exact h0
      · rw [hA i h2, if_neg h1]
  have hdet : A.eval τ * B.eval z - B.eval τ * A.eval z ≠ 0 := by
    intro h0
    let p := C (B.eval z) * A - C (A.eval z) * B
    have hp : p.degree < n := by
      refine lt_of_le_of_lt (degree_sub_le _ _) (max_lt ?_ ?_)
      · rw [← smul_eq_C_mul]
        exact lt_of_le_of_lt (degree_smul_le _ _) (interpP_degree hr _)
      · rw [← smul_eq_C_mul]
        exact lt_of_le_of_lt (degree_smul_le _ _) (interpP_degree hr _)
    have := few p hp (insert τ (insert z ((((Finset.range n).erase 1).erase 2).image
      fun i => omega ^ i))) ?_ ?_
    · have h1 : p.eval (omega ^ 2) = - A.eval z := by
        simp only [p, eval_sub, eval_mul, eval_C, hA 2 (by omega), hB 2 (by omega)]
        norm_num
      rw [this, eval_zero] at h1
      exact hAz (neg_eq_zero.1 h1.symm)
    · rw [Finset.card_insert_of_notMem, Finset.card_insert_of_notMem,
        card _ ((Finset.erase_subset _ _).trans (Finset.erase_subset _ _)),
        Finset.card_erase_of_mem (by simp; omega), Finset.card_erase_of_mem (by simp; omega),
        Finset.card_range]
      · omega
      · simp only [Finset.mem_image, not_exists, not_and]
        intro i _ e
        exact out hz i e.symm
      · simp only [Finset.mem_insert, Finset.mem_image, not_or, not_exists, not_and]
        exact ⟨fun e => hne e.symm, fun i _ e => out hτ i e.symm⟩
    · intro x hx
      simp only [Finset.mem_insert, Finset.mem_image, Finset.mem_erase, Finset.mem_range] at hx
      simp only [p, eval_sub, eval_mul, eval_C]
      rcases hx with rfl | rfl | ⟨i, ⟨h1, h2, h3⟩, rfl⟩
      · linear_combination h0
      · ring
      · rw [hA i h3, hB i h3, if_neg h1, if_neg h2]; ring
  have hev : ∀ (x : F × F) (y : F),
      interpAt n omega (fun i => if i = 1 then x.1 else if i = 2 then x.2 else u i) y
        = U.eval y + x.1 * A.eval y + x.2 * B.eval y := by
    intro x y
    rw [← interpP_eval]
    have : interpP n omega (fun i => if i = 1 then x.1 else if i = 2 then x.2 else u i)
        = U + C x.1 * A + C x.2 * B := by
      simp only [U, A, B]
      rw [← interpP_smul, ← interpP_smul, ← interpP_add, ← interpP_add]
      refine interpP_congr n omega fun i _ => ?_
      unfold rowsAt
      by_cases h1 : i = 1
      · subst h1; simp
      · by_cases h2 : i = 2
        · subst h2; simp
        · simp [h1, h2]
    rw [this]
    simp
  simp only [hev]
  refine ⟨(((a - U.eval τ) * B.eval z - B.eval τ * (b - U.eval z)) /
      (A.eval τ * B.eval z - B.eval τ * A.eval z),
    (A.eval τ * (b - U.eval z) - (a - U.eval τ) * A.eval z) /
      (A.eval τ * B.eval z - B.eval τ * A.eval z)), ⟨?_, ?_⟩, ?_⟩
  · have hx := div_mul_cancel₀ ((a - U.eval τ) * B.eval z - B.eval τ * (b - U.eval z)) hdet
    have hy := div_mul_cancel₀ (A.eval τ * (b - U.eval z) - (a - U.eval τ) * A.eval z) hdet
    refine mul_right_cancel₀ hdet ?_
    simp only
    linear_combination A.eval τ * hx + B.eval τ * hy
  · have hx := div_mul_cancel₀ ((a - U.eval τ) * B.eval z - B.eval τ * (b - U.eval z)) hdet
    have hy := div_mul_cancel₀ (A.eval τ * (b - U.eval z) - (a - U.eval τ) * A.eval z) hdet
    refine mul_right_cancel₀ hdet ?_
    simp only
    linear_combination A.eval z * hx + B.eval z * hy
  · rintro ⟨x, y⟩ ⟨h1, h2⟩
    simp only at h1 h2
    simp only [Prod.mk.injEq]
    rw [eq_div_iff hdet, eq_div_iff hdet, ← h1, ← h2]
    constructor <;> ring

/-- And what is published about the output column is its commitment and this one value. -/
theorem C151_output_published {R : FieldRep F} {K : PField F} {E : EdCurve F} {P : PCS F} (hK : PFieldOk K)
    {c : Composer F} (hc : Reach R E c) {D : Dom F} (hD : newDom K (circuitBound c) = .ok D)
    {ro : Transcript F P.Comm → F} {s s' : Prover P}
    (hs : s.cs = c ∨ ∃ tr, Prover.preprocess K ⟨none, c, tr⟩ = .ok s) {r1 r2 : F × F × F × F}
    {pr : PlonkProof P} (h : Prover.prove K E ro s r1 r2 = .ok (pr, s')) :
    P.commit (D.ifft ((List.range D.size).map fun i => ownW c (.output i))) = .ok pr.c ∧
    pr.ev.w.c = interpAt D.size D.omega (fun i => ownW c (.output i))
      (verifierChals ro s'.tr c.public_inputs pr).z :=
  (prove_published hK hc hD hs h).2

section
variable [Fintype F] {G1 G2 GT : Type} [AddCommGroup G1] [Module F G1]
  [AddCommGroup G2] [Module F G2] [AddCommGroup GT] [Module F GT]

theorem Plonk.kzg_same {e : G1 →ₗ[F] G2 →ₗ[F] GT} {g : G1} (hg : g ≠ 0) (d : ℕ) (τ : F) (h : G2)
    (p q : List F) (x : (kzgPcs e g h d τ).Comm) (h1 : (kzgPcs e g h d τ).commit p = .ok x)
    (h2 : (kzgPcs e g h d τ).commit q = .ok x) : (polyOf p).eval τ = (polyOf q).eval τ := by
  have f1 : ∀ (p : List F) (x : G1), (if (polyOf p).natDegree ≤ d then
      Except.ok ((polyOf p).eval τ • g) else Except.error PErr.pcError) = Except.ok x →
      x = (polyOf p).eval τ • g := by
    intro p x hp
    split at hp
    · simp only [Except.ok.injEq] at hp
      exact hp.symm
    · cases hp
  have f2 : ((polyOf p).eval τ • g : G1) = (polyOf q).eval τ • g :=
    (f1 p x h1).symm.trans (f1 q x h2)
  have f3 := sub_eq_zero.2 f2
  rw [← sub_smul] at f3
  rcases smul_eq_zero.1 f3 with h4 | h4
  · exact sub_eq_zero.1 h4
  · exact absurd h4 hg

theorem Plonk.hiding_odds {R : FieldRep F} {K : PField F} {E : EdCurve F} (hK : PFieldOk K)
    {c : Composer F} (hc : Reach R E c) {D : Dom F} (hD : newDom K (circuitBound c) = .ok D)
    (w : TwiceOpened) (u : ℕ → F) :
    Odds F (3 * D.size)
      fun t : F × F × F × F × F × F × F × F × F × F × F × F × F × F × F =>
      let (_, _, _, _, _, _, _, _, _, _, _, z, _, _, τ) := t
      ∃ (P : PCS F) (pr : PlonkProof P),
        (∀ p q x, P.commit p = .ok x → P.commit q = .ok x → (polyOf p).eval τ = (polyOf q).eval τ) ∧
        Published P D z c pr ∧ ¬ (ConfirmsColumn P D z pr w u ↔ RightGuess D.size c w u) := by
  have hC := cdom_new hK hD
  obtain ⟨bad, hb, hdet⟩ := C151_points hK hc hD w
  refine .skip fun zeta => .skip fun beta => .skip fun gamma => .skip fun delta => .skip fun epsilon =>
    .skip fun alpha => .skip fun range => .skip fun logic => .skip fun fixed => .skip fun var =>
    .skip fun lookup => ?_
  refine (Odds.step (n := 2 * D.size) (k := D.size) bad hb fun z hz => ?_).mono (by omega) fun _ h => h
  refine .skip fun aw => .skip fun saw => ?_
  by_cases hu : RightGuess D.size c w u
  · refine (Odds.last (k := 0) ∅ (by simp) fun τ _ => ?_).mono (Nat.zero_le _) fun _ h => h
    rintro ⟨P, pr, -, hp, hne⟩
    exact hne ⟨fun _ => hu, fun _ => confirms_right hp (Reach.shape hc) hu (hdet z hz)⟩
  · obtain ⟨bad', hb', hw⟩ := confirms_wrong hC.ok (z := z) hu
    refine Odds.last bad' hb' fun τ hτ => ?_
    rintro ⟨P, pr, hP, hp, hne⟩
    exact hne ⟨fun hcf => absurd hcf (hw τ hτ P pr hP hp), fun h => absurd h hu⟩

/-- On KZG commitments the test tells right from wrong guesses: over uniform challenges and a uniform
secret, the probability that `prove` returns a proof for which the answer of the test is wrong is at most
`3n / |F|`. -/
theorem C151_kzg {R : FieldRep F} {K : PField F} {E : EdCurve F} {d : ℕ} (hK : PFieldOk K)
    {c : Composer F} (hc : Reach R E c) {D : Dom F} (hD : newDom K (circuitBound c) = .ok D)
    (e : G1 →ₗ[F] G2 →ₗ[F] GT) {g : G1} (h : G2) (hg : g ≠ 0) {tr : Transcript F G1}
    (htr : tr.countP isChal = 0) (key : Option (PKey F)) (r1 r2 : F × F × F × F) (w : TwiceOpened)
    (u : ℕ → F) :
    Odds F (3 * D.size)
      fun t : F × F × F × F × F × F × F × F × F × F × F × F × F × F × F =>
      let (zeta, beta, gamma, delta, epsilon, alpha, range, logic, fixed, var, lookup, z, aw, saw, τ) := t
      ∃ pr s, Prover.prove K E (P := kzgPcs e g h d τ) (coins [zeta, beta, gamma, delta, epsilon, alpha,
          range, logic, fixed, var, lookup, z, aw, saw]) ⟨key, c, tr⟩ r1 r2 = .ok (pr, s) ∧
        ¬ (ConfirmsColumn (kzgPcs e g h d τ) D z pr w u ↔ RightGuess D.size c w u) := by
  refine (hiding_odds hK hc hD w u).mono le_rfl ?_
  rintro ⟨zeta, beta, gamma, delta, epsilon, alpha, range, logic, fixed, var, lookup, z, aw, saw, τ⟩
    ⟨pr, s, hp, hne⟩
  refine ⟨kzgPcs e g h d τ, pr, kzg_same hg d τ h, ?_, hne⟩
  have h1 := prove_published hK hc hD (Or.inl rfl) hp
  have hst : s.tr.countP isChal = 0 := by
    obtain ⟨pk, c1, -, ⟨-, -, h3⟩ | ⟨-, h3⟩⟩ := prove_inv hp
    · rw [h3]; exact htr
    · obtain ⟨_, _, vk, -, -, -, -, -, h4⟩ := preprocessProver_inv hK (SameCircuit.refl c) h3
      rw [h4]; exact seed_count vk htr
  have h2 := coins_chals (P := kzgPcs e g h d τ) hst c.public_inputs pr
    ⟨zeta, beta, gamma, delta, epsilon, alpha, range, logic, fixed, var, lookup, z, aw, saw⟩
  simp only at h2
  rw [h2] at h1
  exact h1

/-- If the values satisfy the circuit (and the completeness theorem applies), the observer succeeds: the
probability that there is no proof or that the answer of the test is wrong is at most
`(3T² + 10n + 9) / |F|`. -/
theorem C151_kzg_decides {R : FieldRep F} {K : PField F} {E : EdCurve F} {n d : ℕ} (hK : PFieldOk K)
    {c : Composer F} (hc : Reach R E c) (hs : OwnSat E c) (hn : n = circuitBound c) (hd : n ≤ d + 1)
    (h8 : Nat.clog 2 (8 * n) ≤ K.fft.twoAdicity) (hT : c.lookup_table.Nodup)
    {D : Dom F} (hD : newDom K n = .ok D)
    (e : G1 →ₗ[F] G2 →ₗ[F] GT) {g : G1} {h : G2} (hg : g ≠ 0) (hh : NonDegenerate e h)
    {tr : Transcript F G1} (htr : tr.countP isChal = 0) (r1 r2 : F × F × F × F) (w : TwiceOpened)
    (u : ℕ → F) :
    Odds F (3 * c.lookup_table.length ^ 2 + 10 * n + 9)
      fun t : F × F × F × F × F × F × F × F × F × F × F × F × F × F × F =>
      let (zeta, beta, gamma, delta, epsilon, alpha, range, logic, fixed, var, lookup, z, aw, saw, τ) := t
      ¬ ∃ pr s, Prover.prove K E (P := kzgPcs e g h d τ) (coins [zeta, beta, gamma, delta, epsilon, alpha,
          range, logic, fixed, var, lookup, z, aw, saw]) ⟨none, c, tr⟩ r1 r2 = .ok (pr, s) ∧
        (ConfirmsColumn (kzgPcs e g h d τ) D z pr w u ↔ RightGuess n c w u) := by
  have hC := cdom_new hK (hn ▸ hD)
  have hnD : D.size = n := by rw [hC.eq, hn]
  have a1 := C151_kzg (d := d) hK hc (hn ▸ hD) e h hg htr none r1 r2 w u
  have a2 : Odds F (3 * c.lookup_table.length ^ 2 + 7 * n + 9)
      fun t : F × F × F × F × F × F × F × F × F × F × F × F × F × F × F =>
      let (τ, zeta, beta, gamma, delta, epsilon, alpha, range, logic, fixed, var, lookup, z, aw, saw) := t
      ¬ ∃ pr s, Prover.prove K E (P := kzgPcs e g h d τ) (coins [zeta, beta, gamma, delta, epsilon, alpha,
          range, logic, fixed, var, lookup, z, aw, saw]) ⟨none, c, tr⟩ r1 r2 = .ok (pr, s) := by
    refine .skip fun τ => ?_
    obtain ⟨v, -, ho⟩ := C149_complete (D := d) hK e hg hh τ hc hs hn hd h8 hT hc (SameCircuit.refl c)
      htr r1 r2
    refine ho.mono le_rfl ?_
    rintro ⟨zeta, beta, gamma, delta, epsilon, alpha, range, logic, fixed, var, lookup, z, aw, saw⟩ h0
    rintro ⟨pr, s, hp, -⟩
    exact h0 ⟨pr, s, hp⟩
  let f : (F × F × F × F × F × F × F × F × F × F × F × F × F × F × F) ≃
      (F × F × F × F × F × F × F × F × F × F × F × F × F × F × F) :=
    { toFun := fun (a1, a2, a3, a4, a5, a6, a7, a8, a9, b1, b2, b3, b4, b5, τ) =>
        (τ, a1, a2, a3, a4, a5, a6, a7, a8, a9, b1, b2, b3, b4, b5)
      invFun := fun (τ, a1, a2, a3, a4, a5, a6, a7, a8, a9, b1, b2, b3, b4, b5) =>
        (a1, a2, a3, a4, a5, a6, a7, a8, a9, b1, b2, b3, b4, b5, τ)
      left_inv := fun _ => rfl
      right_inv := fun _ => rfl }
  refine (odds_or (odds_equiv f a2) a1).mono (by omega) ?_
  rintro ⟨zeta, beta, gamma, delta, epsilon, alpha, range, logic, fixed, var, lookup, z, aw, saw, τ⟩ h0
  by_cases hp : ∃ pr s, Prover.prove K E (P := kzgPcs e g h d τ) (coins [zeta, beta, gamma, delta, epsilon,
      alpha, range, logic, fixed, var, lookup, z, aw, saw]) ⟨none, c, tr⟩ r1 r2 = .ok (pr, s)
  · obtain ⟨pr, s, hp⟩ := hp
    exact Or.inr ⟨pr, s, hp, fun hi => h0 ⟨pr, s, hp, by rw [← hnD]; exact hi⟩⟩
  · exact Or.inl hp

/-- The same for the `Circuit` interface: whatever the prover key, the probability that `gen_proof` returns
a proof for which the answer of the test is wrong is at most `3n / |F|`. -/
theorem C151_circuit {R : FieldRep F} {K : PField F} {E : EdCurve F} {d m : ℕ} (hK : PFieldOk K)
    {C : Circ F} (hb : Builds R E C) {r : (F × F × F × F) × (F × F × F × F)} {c : Composer F}
    (hc : Filled C r c) {D : Dom F} (hD : newDom K (circuitBound c) = .ok D)
    (e : G1 →ₗ[F] G2 →ₗ[F] GT) {g : G1} (h : G2) (hg : g ≠ 0) (pk : PKey F) (label : String)
    (r' : (F × F × F × F) × (F × F × F × F)) (w : TwiceOpened) (u : ℕ → F) :
    Odds F (3 * D.size)
      fun t : F × F × F × F × F × F × F × F × F × F × F × F × F × F × F =>
      let (zeta, beta, gamma, delta, epsilon, alpha, range, logic, fixed, var, lookup, z, aw, saw, τ) := t
      ∃ pr pi, circuitProve K E (kzgPcs e g h d τ) (coins [zeta, beta, gamma, delta, epsilon, alpha,
          range, logic, fixed, var, lookup, z, aw, saw]) m C pk label r r' = .ok (pr, pi) ∧
        ¬ (ConfirmsColumn (trimmed (kzgPcs e g h d τ) C.size) D z pr w u ↔ RightGuess D.size c w u) := by
  have hr := hc.reach hb
  refine (hiding_odds hK hr hD w u).mono le_rfl ?_
  rintro ⟨zeta, beta, gamma, delta, epsilon, alpha, range, logic, fixed, var, lookup, z, aw, saw, τ⟩
    ⟨pr, pi, hp, hne⟩
  refine ⟨trimmed (kzgPcs e g h d τ) C.size, pr, ?_, ?_, hne⟩
  · intro p q x h1 h2
    exact kzg_same hg d τ h p q x (trimmed_commit h1) (trimmed_commit h2)
  · obtain ⟨-, c1, hc1, rfl, hpr⟩ := circuitProve_inv hp
    obtain rfl := hc1.uniq hc
    have h1 := prove_columns (P := trimmed (kzgPcs e g h d τ) C.size) (cdom_new hK hD) (Reach.wf hr) hpr
    have h2 := coins_chals (P := trimmed (kzgPcs e g h d τ) C.size) (tr := [.init label]) rfl
      c1.public_inputs pr
      ⟨zeta, beta, gamma, delta, epsilon, alpha, range, logic, fixed, var, lookup, z, aw, saw⟩
    simp only at h2
    have h3 : (verifierChals (P := trimmed (kzgPcs e g h d τ) C.size) (coins [zeta, beta, gamma, delta,
        epsilon, alpha, range, logic, fixed, var, lookup, z, aw, saw]) [.init label] c1.public_inputs pr).z
        = z := by rw [h2]
    exact h3 ▸ h1

end

/-- For the small circuit over the field with 7681 elements: whatever the guess for a column, in all but 101
of 7681 cases there is a proof and the test is right about the guess. -/
example (w : TwiceOpened) (u : ℕ → K7681) :
    Odds K7681 101
      fun t : K7681 × K7681 × K7681 × K7681 × K7681 × K7681 × K7681 × K7681 × K7681 × K7681 × K7681 ×
        K7681 × K7681 × K7681 × K7681 =>
      let (zeta, beta, gamma, delta, epsilon, alpha, range, logic, fixed, var, lookup, z, aw, saw, τ) := t
      let P := kzgPcs (LinearMap.mul K7681 K7681) 1 1 7 τ
      ¬ ∃ (pr : PlonkProof P) (s : Prover P),
        Prover.prove pf7681 E7681 (P := P) (coins [zeta, beta, gamma, delta, epsilon, alpha,
          range, logic, fixed, var, lookup, z, aw, saw]) ⟨none, exC 1 2, [.init "plonk"]⟩
          (1, 2, 3, 4) (5, 6, 7, 8) = .ok (pr, s) ∧
        (ConfirmsColumn P ⟨8, pf7681.fft.root 3⟩ z pr w u ↔ RightGuess 8 (exC 1 2) w u) := by
  have hnd : NonDegenerate (LinearMap.mul K7681 K7681) (1 : K7681) := by
    intro x hx
    simpa using hx
  obtain ⟨-, ht, -, hb⟩ := exC_size
  have := C151_kzg_decides (d := 7) (n := 8) pf7681_ok (exC_facts 1 2).1 ((exC_facts 1 2).2 rfl rfl) hb.symm
    (by norm_num) (by decide +kernel) (by rw [ht]; decide +kernel) (D := ⟨8, pf7681.fft.root 3⟩)
    (by
      unfold newDom Dom.new
      have : Nat.clog 2 8 = 3 := by decide +kernel
      rw [this, if_pos (by decide +kernel)]
      rfl) (LinearMap.mul K7681 K7681) (g := (1 : K7681)) (h := (1 : K7681)) one_ne_zero hnd
    (tr := [.init "plonk"]) rfl (1, 2, 3, 4) (5, 6, 7, 8) w u
  rw [ht] at this
  exact this

/-- Guesses that are right and guesses that are not. -/
example : RightGuess 8 (exC 1 2) .left (fun i => [0, 0, 0, 0, 1, 1, 0, 0].getD i 0) ∧
    ¬ RightGuess 8 (exC 1 2) .left (fun i => [0, 0, 0, 0, 2, 1, 0, 0].getD i 0) := by
  constructor
  · unfold RightGuess
    decide +kernel
  · unfold RightGuess
    decide +kernel

end VO
