import Mathlib.Data.List.Rotate
import Mathlib.Data.List.Nodup
import Mathlib.Data.List.GetD
import Mathlib.Tactic.Ring
import Mathlib.Tactic.LinearCombination
import Verif.Spec.PlonkProof
import Verif.Lemmas.PlonkCore

/-
The sigma permutation of the PLONK composer.
-/

set_option linter.unusedSectionVars false

namespace VO.Plonk

open VO.Spec.Plonk

variable {F : Type} [Field F] [DecidableEq F]

/-- All four vectors have length `n`. -/
structure SLen (s : Sigmas) (n : ℕ) : Prop where
  l1 : s.s1.length = n
  l2 : s.s2.length = n
  l3 : s.s3.length = n
  l4 : s.s4.length = n

theorem slen_identity (n : ℕ) : SLen (identitySigmas n) n := by
  constructor <;> simp [identitySigmas]

theorem sigmaAt_identity (n : ℕ) {p : WireData} (h : posRow p < n) :
    sigmaAt (identitySigmas n) p = some p := by
  cases p <;> simp only [posRow] at h <;> simp [sigmaAt, identitySigmas, h]

theorem sigmaAt_none {s : Sigmas} {n : ℕ} (hs : SLen s n) {p : WireData} (h : n ≤ posRow p) :
    sigmaAt s p = none := by
  cases p <;> simp only [posRow] at h <;> simp only [sigmaAt, List.getElem?_eq_none_iff]
  · rw [hs.l1]; exact h
  · rw [hs.l2]; exact h
  · rw [hs.l3]; exact h
  · rw [hs.l4]; exact h

theorem setWire_run {s : Sigmas} {n : ℕ} (hs : SLen s n) {p : WireData} (hp : posRow p < n)
    (q : WireData) :
    ∃ s', setWire s p q = .ok s' ∧ SLen s' n ∧ sigmaAt s' p = some q ∧
      ∀ p', p' ≠ p → sigmaAt s' p' = sigmaAt s p' := by
  cases p with
  | left i =>
    simp only [posRow] at hp
    refine ⟨{ s with s1 := s.s1.set i q }, ?_, ⟨by simp [hs.l1], hs.l2, hs.l3, hs.l4⟩, ?_, ?_⟩
    · simp [setWire, hs.l1, hp]
    · simp [sigmaAt, hs.l1, hp]
    · intro p' h
      cases p' with
      | left j => simp only [sigmaAt]; rw [List.getElem?_set_ne (by rintro rfl; exact h rfl)]
      | _ => rfl
  | right i =>
    simp only [posRow] at hp
    refine ⟨{ s with s2 := s.s2.set i q }, ?_, ⟨hs.l1, by simp [hs.l2], hs.l3, hs.l4⟩, ?_, ?_⟩
    · simp [setWire, hs.l2, hp]
    · simp [sigmaAt, hs.l2, hp]
    · intro p' h
      cases p' with
      | right j => simp only [sigmaAt]; rw [List.getElem?_set_ne (by rintro rfl; exact h rfl)]
      | _ => rfl
  | output i =>
    simp only [posRow] at hp
    refine ⟨{ s with s3 := s.s3.set i q }, ?_, ⟨hs.l1, hs.l2, by simp [hs.l3], hs.l4⟩, ?_, ?_⟩
    · simp [setWire, hs.l3, hp]
    · simp [sigmaAt, hs.l3, hp]
    · intro p' h
      cases p' with
      | output j => simp only [sigmaAt]; rw [List.getElem?_set_ne (by rintro rfl; exact h rfl)]
      | _ => rfl
  | fourth i =>
    simp only [posRow] at hp
    refine ⟨{ s with s4 := s.s4.set i q }, ?_, ⟨hs.l1, hs.l2, hs.l3, by simp [hs.l4]⟩, ?_, ?_⟩
    · simp [setWire, hs.l4, hp]
    · simp [sigmaAt, hs.l4, hp]
    · intro p' h
      cases p' with
      | fourth j => simp only [sigmaAt]; rw [List.getElem?_set_ne (by rintro rfl; exact h rfl)]
      | _ => rfl

theorem foldSigma_run {n : ℕ} (L : List (WireData × WireData)) :
    ∀ {s : Sigmas}, SLen s n → (L.map Prod.fst).Nodup → (∀ e ∈ L, posRow e.1 < n) →
    ∃ s', L.foldlM (fun s p => setWire s p.1 p.2) s = .ok s' ∧ SLen s' n ∧
      (∀ p q, (p, q) ∈ L → sigmaAt s' p = some q) ∧
      ∀ p, p ∉ L.map Prod.fst → sigmaAt s' p = sigmaAt s p := by
  induction L with
  | nil => intro s hs _ _; exact ⟨s, rfl, hs, by simp, fun _ _ => rfl⟩
  | cons e L ih =>
    intro s hs hn hr
    obtain ⟨s1, h1, h2, h3, h4⟩ := setWire_run hs (hr e (by simp)) e.2
    rw [List.map_cons, List.nodup_cons] at hn
    obtain ⟨s', r1, r2, r3, r4⟩ := ih h2 hn.2 (fun a ha => hr a (by simp [ha]))
    refine ⟨s', ?_, r2, ?_, ?_⟩
    · rw [List.foldlM_cons, h1]; exact r1
    · intro p q hpq
      rcases List.mem_cons.1 hpq with h | h
      · have hp : p = e.1 := by rw [← h]
        have hq : q = e.2 := by rw [← h]
        subst hp; subst hq
        rw [r4 _ hn.1, h3]
      · exact r3 p q h
    · intro p hp
      rw [List.map_cons, List.mem_cons, not_or] at hp
      rw [r4 p hp.2, h4 p hp.1]

theorem cyclePairs_eq (ws : List WireData) : cyclePairs ws = ws.zip (ws.rotate 1) := by
  apply List.ext_getElem
  · simp [cyclePairs]
  · intro i h1 h2
    have hi : i < ws.length := by simpa [cyclePairs] using h1
    simp only [cyclePairs, List.getElem_map, List.getElem_zipIdx, List.getElem_zip, zero_add,
      List.getElem_rotate, Prod.mk.injEq, true_and]
    by_cases hl : i = ws.length - 1
    · rw [if_pos hl]
      have : (i + 1) % ws.length = 0 := by
        have : i + 1 = ws.length := by omega
        rw [this, Nat.mod_self]
      simp only [this]
      rw [List.getD_eq_getElem _ _ (by omega)]
    · rw [if_neg hl]
      have : (i + 1) % ws.length = i + 1 := Nat.mod_eq_of_lt (by omega)
      simp only [this]
      rw [List.getD_eq_getElem _ _ (by omega)]

theorem map_fst_cyclePairs (ws : List WireData) : (cyclePairs ws).map Prod.fst = ws := by
  rw [cyclePairs_eq, List.map_fst_zip (by simp)]

theorem map_snd_cyclePairs (ws : List WireData) : (cyclePairs ws).map Prod.snd = ws.rotate 1 := by
  rw [cyclePairs_eq, List.map_snd_zip (by simp)]

theorem map_fst_pairs (L : List (List WireData)) :
    (L.flatMap cyclePairs).map Prod.fst = L.flatten := by
  rw [List.map_flatMap]
  simp only [map_fst_cyclePairs]
  simp

theorem perm_snd_pairs (L : List (List WireData)) :
    ((L.flatMap cyclePairs).map Prod.snd).Perm L.flatten := by
  rw [List.map_flatMap]
  simp only [map_snd_cyclePairs]
  induction L with
  | nil => simp
  | cons a L ih =>
    simp only [List.flatMap_cons, List.flatten_cons]
    exact (List.rotate_perm a 1).append ih

/-- What `compute_sigma_permutations` computes: the next position of the same variable. -/
theorem computeSigma_run {L : List (List WireData)} {n : ℕ} (hn : L.flatten.Nodup)
    (hr : ∀ p ∈ L.flatten, posRow p < n) :
    ∃ s, computeSigmaPermutations L n = .ok s ∧ SLen s n ∧
      (∀ p q, (p, q) ∈ L.flatMap cyclePairs → sigmaAt s p = some q) ∧
      (∀ p, p ∉ L.flatten → posRow p < n → sigmaAt s p = some p) := by
  have h1 := map_fst_pairs L
  obtain ⟨s, r1, r2, r3, r4⟩ := foldSigma_run (L.flatMap cyclePairs) (slen_identity n)
    (by rw [h1]; exact hn) (fun e he => hr _ (by rw [← h1]; exact List.mem_map_of_mem he))
  refine ⟨s, r1, r2, r3, ?_⟩
  intro p hp hpn
  rw [r4 p (by rw [h1]; exact hp), sigmaAt_identity n hpn]

theorem sigmas_ext {s s' : Sigmas} (h : ∀ p, sigmaAt s p = sigmaAt s' p) : s = s' := by
  cases s with
  | mk a b c d =>
  cases s' with
  | mk a' b' c' d' =>
  simp only [Sigmas.mk.injEq]
  exact ⟨List.ext_getElem? fun i => h (.left i), List.ext_getElem? fun i => h (.right i),
    List.ext_getElem? fun i => h (.output i), List.ext_getElem? fun i => h (.fourth i)⟩

theorem posRow_eq (p : WireData) : posRow p = p.row := by cases p <;> rfl

theorem mem_flatten_iff (c : Composer F) (p : WireData) :
    p ∈ c.perm.flatten ↔ ∃ x, OnWire c x p := by
  rw [List.mem_flatten]
  constructor
  · rintro ⟨ws, h1, h2⟩
    obtain ⟨x, hx⟩ := List.mem_iff_getElem?.1 h1
    exact ⟨x, ws, hx, h2⟩
  · rintro ⟨x, ws, h1, h2⟩
    exact ⟨ws, List.mem_of_getElem? h1, h2⟩

theorem WF.flatten_nodup {c : Composer F} (h : WF c) : c.perm.flatten.Nodup := by
  rw [List.nodup_flatten]
  constructor
  · intro ws hws
    obtain ⟨x, hx⟩ := List.mem_iff_getElem?.1 hws
    exact h.nod x ws hx
  · rw [List.pairwise_iff_getElem]
    intro i j hi hj hij p hp hq
    have h1 := h.agree i p ⟨_, List.getElem?_eq_getElem hi, hp⟩
    have h2 := h.agree j p ⟨_, List.getElem?_eq_getElem hj, hq⟩
    rw [h1] at h2
    simp only [Option.some.injEq] at h2
    omega

/-- Values are constant on the positions of a variable exactly when they are the same at a position
and the one it is sent to. -/
theorem const_of_cycle {w : WireData → F} {ws : List WireData}
    (h : ∀ p q, (p, q) ∈ cyclePairs ws → w q = w p) : ∀ p ∈ ws, ∀ q ∈ ws, w p = w q := by
  have hz : ∀ (i : ℕ) (hi : i < ws.length), w ws[i] = w (ws[0]'(by omega)) := by
    intro i
    induction i with
    | zero => intro _; rfl
    | succ i ih =>
      intro hi
      rw [← ih (by omega)]
      apply h
      rw [cyclePairs_eq, List.mem_iff_getElem]
      refine ⟨i, by simp; omega, ?_⟩
      simp only [List.getElem_zip, List.getElem_rotate, Prod.mk.injEq, true_and]
      congr 1
      exact Nat.mod_eq_of_lt hi
  intro p hp q hq
  obtain ⟨i, hi, rfl⟩ := List.mem_iff_getElem.1 hp
  obtain ⟨j, hj, rfl⟩ := List.mem_iff_getElem.1 hq
  rw [hz i hi, hz j hj]

theorem cyclePairs_mem {ws : List WireData} {p q : WireData} (h : (p, q) ∈ cyclePairs ws) :
    p ∈ ws ∧ q ∈ ws := by
  constructor
  · rw [← map_fst_cyclePairs ws]; exact List.mem_map_of_mem h
  · have : q ∈ ws.rotate 1 := by
      rw [← map_snd_cyclePairs ws]; exact List.mem_map_of_mem (f := Prod.snd) h
    exact List.mem_rotate.1 this

/-- Everything about the sigma permutation of a well-formed composer. -/
theorem sigma_facts {c : Composer F} (hw : WF c) {L : List (List WireData)} (hL : L.Perm c.perm)
    {n : ℕ} (hn : c.n ≤ n) :
    ∃ s, computeSigmaPermutations L n = .ok s ∧ SLen s n ∧
      (∀ p q, sigmaAt s p = some q → posRow p < n ∧ posRow q < n) ∧
      (∀ p, posRow p < n → ∃ q, sigmaAt s p = some q) ∧
      (∀ p p' q, sigmaAt s p = some q → sigmaAt s p' = some q → p = p') ∧
      (∀ p q, sigmaAt s p = some q → p = q ∨ ∃ x, OnWire c x p ∧ OnWire c x q) ∧
      (∀ p q, (p, q) ∈ c.perm.flatMap cyclePairs → sigmaAt s p = some q) ∧
      (∀ p, (∀ x, ¬ OnWire c x p) → posRow p < n → sigmaAt s p = some p) ∧
      ∀ w : WireData → F, (∀ p q, sigmaAt s p = some q → w q = w p) ↔ CopyOk c w := by
  have hf : L.flatten.Perm c.perm.flatten := hL.flatten
  have hnd : L.flatten.Nodup := hf.nodup_iff.2 hw.flatten_nodup
  have hrow : ∀ x p, OnWire c x p → posRow p < n := fun x p h => by
    rw [posRow_eq]; exact (hw.rowLt x p h).trans_le hn
  have hmem : ∀ p, p ∈ L.flatten ↔ ∃ x, OnWire c x p := fun p => by
    rw [hf.mem_iff, mem_flatten_iff]
  obtain ⟨s, r1, r2, r3, r4⟩ := computeSigma_run hnd (n := n) (fun p hp => by
    obtain ⟨x, hx⟩ := (hmem p).1 hp
    exact hrow x p hx)
  have hpair : ∀ p q, (p, q) ∈ L.flatMap cyclePairs → ∃ x, OnWire c x p ∧ OnWire c x q := by
    intro p q h
    obtain ⟨ws, hws, hpq⟩ := List.mem_flatMap.1 h
    obtain ⟨x, hx⟩ := List.mem_iff_getElem?.1 (hL.mem_iff.1 hws)
    obtain ⟨h1, h2⟩ := cyclePairs_mem hpq
    exact ⟨x, ⟨ws, hx, h1⟩, ws, hx, h2⟩
  -- every image is by a pair or the position itself
  have hcase : ∀ p q, sigmaAt s p = some q →
      (p, q) ∈ L.flatMap cyclePairs ∨ (p ∉ L.flatten ∧ q = p ∧ posRow p < n) := by
    intro p q h
    by_cases hp : p ∈ L.flatten
    · left
      rw [← map_fst_pairs] at hp
      obtain ⟨⟨a, b⟩, he, rfl⟩ := List.mem_map.1 hp
      have := r3 a b he
      rw [h] at this
      simp only [Option.some.injEq] at this
      subst this
      exact he
    · right
      by_cases hpn : posRow p < n
      · have := r4 p hp hpn
        rw [h] at this
        simp only [Option.some.injEq] at this
        exact ⟨hp, this, hpn⟩
      · rw [sigmaAt_none r2 (not_lt.1 hpn)] at h
        cases h
  refine ⟨s, r1, r2, ?_, ?_, ?_, ?_, ?_, ?_, ?_⟩
  · intro p q h
    rcases hcase p q h with h1 | ⟨_, rfl, h1⟩
    · obtain ⟨x, h1, h2⟩ := hpair p q h1
      exact ⟨hrow x p h1, hrow x q h2⟩
    · exact ⟨h1, h1⟩
  · intro p hp
    by_cases hpf : p ∈ L.flatten
    · rw [← map_fst_pairs] at hpf
      obtain ⟨⟨a, b⟩, he, rfl⟩ := List.mem_map.1 hpf
      exact ⟨b, r3 a b he⟩
    · exact ⟨p, r4 p hpf hp⟩
  · intro p p' q h h'
    rcases hcase p q h with h1 | ⟨h1, rfl, _⟩ <;> rcases hcase p' q h' with h2 | ⟨h2, h3, _⟩
    · have hs : ((L.flatMap cyclePairs).map Prod.snd).Nodup := (perm_snd_pairs L).nodup_iff.2 hnd
      have := List.inj_on_of_nodup_map hs h1 h2 rfl
      exact congrArg Prod.fst this
    · subst h3
      exact absurd ((hmem _).2 ⟨_, (hpair _ _ h1).choose_spec.2⟩) h2
    · exact absurd ((hmem _).2 ⟨_, (hpair _ _ h2).choose_spec.2⟩) h1
    · exact h3
  · intro p q h
    rcases hcase p q h with h1 | ⟨_, h1, _⟩
    · exact Or.inr (hpair p q h1)
    · exact Or.inl h1.symm
  · intro p q h
    exact r3 p q ((hL.flatMap_right _).mem_iff.2 h)
  · intro p h hp
    exact r4 p (fun hc => by obtain ⟨x, hx⟩ := (hmem p).1 hc; exact h x hx) hp
  · intro w
    constructor
    · rintro h x p q ⟨ws, hx, hp⟩ ⟨ws', hx', hq⟩
      rw [hx] at hx'
      simp only [Option.some.injEq] at hx'
      subst hx'
      refine const_of_cycle (w := w) (fun a b hab => ?_) p hp q hq
      exact h a b (r3 a b (List.mem_flatMap.2 ⟨ws, hL.mem_iff.2 (List.mem_of_getElem? hx), hab⟩))
    · intro h p q hpq
      rcases hcase p q hpq with h1 | ⟨_, rfl, _⟩
      · obtain ⟨x, h1, h2⟩ := hpair p q h1
        exact h x q p h2 h1
      · rfl

end VO.Plonk
