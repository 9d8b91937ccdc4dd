import Verif.Lemmas.CircuitExec

/-
The gate caches only grow.
-/

set_option linter.unusedSectionVars false

namespace VO
open Spec

variable {F : Type} [Field F] [DecidableEq F]

namespace Circuit

/-- Cached results stay cached. -/
structure CacheExt (c c' : Circuit F) : Prop where
  bin : ∀ (k : Kind) (p : ℕ × ℕ) (r : ℕ), (c.cache k).lookup p = some r →
    (c'.cache k).lookup p = some r
  const : ∀ (a : F) (r : ℕ), c.constCache.lookup a = some r → c'.constCache.lookup a = some r

theorem CacheExt.of_eq {c c' : Circuit F} (h : ∀ k, c'.cache k = c.cache k)
    (h' : c'.constCache = c.constCache) : CacheExt c c' :=
  ⟨fun k p r hp => by rw [h]; exact hp, fun a r ha => by rw [h']; exact ha⟩

theorem CacheExt.trans {c1 c2 c3 : Circuit F} (h : CacheExt c1 c2) (h' : CacheExt c2 c3) :
    CacheExt c1 c3 :=
  ⟨fun k p r hp => h'.bin k p r (h.bin k p r hp), fun a r ha => h'.const a r (h.const a r ha)⟩

/-- The operand pair in the order used as key. -/
def normPair (a b : ℕ) : ℕ × ℕ := if a < b then (a, b) else (b, a)

theorem normPair_comm (a b : ℕ) : normPair a b = normPair b a := by
  unfold normPair
  split_ifs with h1 h2
  · omega
  · rfl
  · rfl
  · have : a = b := by omega
    subst this; rfl

theorem binVars_cached {c : Circuit F} {k : Kind} {a b r : ℕ}
    (h : (c.cache k).lookup (normPair a b) = some r) : c.binVars k a b = .ok (r, c) := by
  unfold binVars
  unfold normPair at h
  split_ifs at h with hab
  · simp only [hab, if_true, h]
  · simp only [hab, if_false, h]

theorem addBinGate_state {c c' : Circuit F} {k : Kind} {a b out : ℕ}
    (h : c.addBinGate k a b out = (.ok (), c')) :
    (∀ k, c'.cache k = c.cache k) ∧ c'.constCache = c.constCache := by
  rcases addBinGate_spec c k a b out with ⟨-, -, -, xs, h1, -⟩ | ⟨-, e, c'', h1⟩
  · rw [h] at h1
    obtain rfl := (Prod.mk.inj h1).2
    exact ⟨fun k' => by rw [cache_withVars, cache_pushGate], by simp⟩
  · rw [h] at h1; cases h1

theorem addConstGate_state {c c' : Circuit F} {a : F} {out : ℕ}
    (h : c.addConstGate a out = (.ok (), c')) :
    (∀ k, c'.cache k = c.cache k) ∧ c'.constCache = c.constCache := by
  rcases addConstGate_spec c a out with ⟨-, xs, h1, -⟩ | ⟨-, e, c'', h1⟩
  · rw [h] at h1
    obtain rfl := (Prod.mk.inj h1).2
    exact ⟨fun k' => by cases k' <;> rfl, rfl⟩
  · rw [h] at h1; cases h1

theorem binVars_cacheExt {c c' : Circuit F} {k : Kind} {a b r : ℕ}
    (h : c.binVars k a b = .ok (r, c')) :
    CacheExt c c' ∧ (c'.cache k).lookup (normPair a b) = some r := by
  unfold binVars at h
  rw [show (if a < b then (a, b) else (b, a)) = normPair a b from rfl] at h
  generalize normPair a b = p at h ⊢
  obtain ⟨a', b'⟩ := p
  simp only at h
  split at h
  · rename_i v hv
    obtain ⟨rfl, rfl⟩ := Prod.mk.inj (Except.ok.inj h)
    exact ⟨CacheExt.of_eq (fun _ => rfl) rfl, hv⟩
  · rename_i hv
    split at h
    · cases h
    · rename_i c1 h1
      obtain ⟨rfl, rfl⟩ := Prod.mk.inj (Except.ok.inj h)
      obtain ⟨e1, e2⟩ := addBinGate_state h1
      have e1' : ∀ k, c1.cache k = c.cache k := fun k => by rw [e1, addNewVariable_cache]
      refine ⟨⟨?_, ?_⟩, ?_⟩
      · intro k' p r hp
        rw [cache_pushCache]
        split_ifs with hk
        · subst hk
          rw [e1', List.lookup_cons]
          have : (p == (a', b')) = false := by
            rw [beq_eq_false_iff_ne]
            rintro rfl
            rw [hv] at hp; cases hp
          rw [this]; exact hp
        · rw [e1']; exact hp
      · intro a r ha
        rw [constCache_pushCache, e2]; exact ha
      · rw [cache_pushCache, if_pos rfl, List.lookup_cons]; simp

theorem constVar_cacheExt {c c' : Circuit F} {a : F} {r : ℕ}
    (h : c.constVar a = .ok (r, c')) : CacheExt c c' ∧ c'.constCache.lookup a = some r := by
  unfold constVar at h
  simp only at h
  split at h
  · rename_i v hv
    obtain ⟨rfl, rfl⟩ := Prod.mk.inj (Except.ok.inj h)
    exact ⟨CacheExt.of_eq (fun _ => rfl) rfl, hv⟩
  · rename_i hv
    split at h
    · cases h
    · rename_i c1 h1
      obtain ⟨rfl, rfl⟩ := Prod.mk.inj (Except.ok.inj h)
      obtain ⟨e1, e2⟩ := addConstGate_state h1
      refine ⟨⟨?_, ?_⟩, ?_⟩
      · intro k' p r hp
        have : c1.cache k' = c.cache k' := by rw [e1, addNewVariable_cache]
        cases k' <;> rw [← this] at hp <;> exact hp
      · intro a' r ha
        have e3 : c1.constCache = c.constCache := e2
        simp only [List.lookup_cons]
        have : (a' == a) = false := by
          rw [beq_eq_false_iff_ne]
          rintro rfl
          rw [hv] at ha; cases ha
        rw [this, e3]; exact ha
      · simp

theorem step_cacheExt {c c' : Circuit F} (x : Call F) (h : c.step x = .ok c') : CacheExt c c' := by
  cases x with
  | input =>
    obtain ⟨r, h⟩ := map_snd_ok h
    unfold addGlobalInputVariable at h
    split at h
    · cases h
    · obtain ⟨-, rfl⟩ := Prod.mk.inj (Except.ok.inj h)
      exact CacheExt.of_eq (fun k => by cases k <;> rfl) rfl
  | bin k a b => obtain ⟨r, h⟩ := map_snd_ok h; exact (binVars_cacheExt h).1
  | const v => obtain ⟨r, h⟩ := map_snd_ok h; exact (constVar_cacheExt h).1
  | assertEq a b =>
    obtain ⟨-, rfl⟩ := assertEqual_ok h
    exact CacheExt.of_eq (fun k => by cases k <;> rfl) rfl
  | complete =>
    obtain ⟨rfl, -⟩ := unwrapS_ok h
    rw [markAsComplete_state]
    exact CacheExt.of_eq (fun k => by cases k <;> rfl) rfl
  | tryComplete =>
    obtain rfl := Except.ok.inj h
    rw [markAsComplete_state]
    exact CacheExt.of_eq (fun k => by cases k <;> rfl) rfl
  | markPublic v =>
    rw [markVariableAsPublic_state h]
    exact CacheExt.of_eq (fun k => by cases k <;> rfl) rfl
  | assignInputs l =>
    have := (assignGlobalInputs_ok h).1
    exact CacheExt.of_eq this.cache this.constCache
  | assignPublic l =>
    exact CacheExt.of_eq (assignPublicIo_same h).cache (assignPublicIo_same h).constCache
  | evaluate l => exact CacheExt.of_eq (evaluate_same h).cache (evaluate_same h).constCache
  | newVar =>
    obtain rfl := Except.ok.inj h
    exact CacheExt.of_eq (fun k => by cases k <;> rfl) rfl
  | rawGate k a b out =>
    obtain ⟨h1, u, h2⟩ := unwrapS_ok h
    have := addBinGate_state (c := c) (c' := c') (k := k) (a := a) (b := b) (out := out)
      (by rw [Prod.ext_iff]; exact ⟨h2, h1⟩)
    exact CacheExt.of_eq this.1 this.2
  | rawConst v out =>
    obtain ⟨h1, u, h2⟩ := unwrapS_ok h
    have := addConstGate_state (c := c) (c' := c') (a := v) (out := out)
      (by rw [Prod.ext_iff]; exact ⟨h2, h1⟩)
    exact CacheExt.of_eq this.1 this.2

theorem builds_cacheExt {c c' : Circuit F} {l : List (Call F)} (h : Builds c l c') :
    CacheExt c c' := by
  induction h with
  | nil c => exact CacheExt.of_eq (fun _ => rfl) rfl
  | cons hr h1 h2 ih => exact (step_cacheExt _ h1).trans ih

theorem constVar_cached {c : Circuit F} {a : F} {r : ℕ}
    (h : c.constCache.lookup a = some r) : c.constVar a = .ok (r, c) := by
  unfold constVar; rw [h]

theorem builds_append {c c1 c2 : Circuit F} {l l' : List (Call F)} (h : Builds c l c1)
    (h' : Builds c1 l' c2) : Builds c (l ++ l') c2 := by
  induction h with
  | nil c => exact h'
  | cons hr h1 h2 ih => exact .cons hr h1 (ih h')

end Circuit
end VO
