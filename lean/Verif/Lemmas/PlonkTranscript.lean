import Verif.Spec.PlonkTranscript
import Verif.Lemmas.Transcript

/-
Lemmas for C156: the messages of a PLONK transcript determine it.
-/

namespace VO.Plonk
open VO VO.Spec VO.Spec.Plonk

variable {F C : Type} {cf : Codec F} {cg : Codec C} {size : ℕ}

theorem pairs_inj (hf : Lawful cf) : ∀ {l l' : List (ℕ × F)} (_ : l.length = l'.length)
    (_ : ∀ e ∈ l, e.1 < 2 ^ 64) (_ : ∀ e ∈ l', e.1 < 2 ^ 64)
    (_ : l.flatMap (fun e => encU64 e.1 ++ cf.enc e.2) = l'.flatMap (fun e => encU64 e.1 ++ cf.enc e.2)), l = l'
  | [], [], _, _, _, _ => rfl
  | a :: l, b :: l', hl, h1, h2, h => by
    rw [List.flatMap_cons, List.flatMap_cons, List.append_assoc, List.append_assoc] at h
    obtain ⟨e1, h'⟩ := encU64_inj (h1 a (by simp)) (h2 b (by simp)) h
    obtain ⟨e2, h''⟩ := lawful_inj hf h'
    rw [pairs_inj hf (by simpa using hl) (fun n hn => h1 n (by simp [hn])) (fun n hn => h2 n (by simp [hn])) h'',
      Prod.ext e1 e2]
  | [], _ :: _, h, _, _, _ => by simp at h
  | _ :: _, [], h, _, _, _ => by simp at h

theorem enc_inj {α : Type} {c : Codec α} (hc : Lawful c) {a b : α} (h : c.enc a = c.enc b) : a = b :=
  (lawful_inj hc (r := []) (s := []) (by rw [h])).1

theorem ops_inj1 (hf : Lawful cf) (hg : Lawful cg) {i j : TEntry F C} (hk : pkind i = pkind j) (hi : EFits i)
    (hj : EFits j) {r s : List MOp} (h : TEntry.ops cf cg size i ++ r = TEntry.ops cf cg size j ++ s) :
    i = j ∧ r = s := by
  cases i <;> cases j <;> simp only [pkind, reduceCtorEq, EFits] at hk hi hj <;>
    simp only [TEntry.ops, List.cons_append, List.nil_append, List.cons.injEq, MOp.msg.injEq, MOp.bytes.injEq,
      reduceCtorEq, false_and, true_and] at h
  · obtain ⟨⟨rfl, h1⟩, rfl⟩ := h
    unfold piBytes at h1
    obtain ⟨hl, h2⟩ := encU64_inj hi.1 hj.1 h1
    rw [pairs_inj hf hl hi.2 hj.2 h2]
    exact ⟨rfl, rfl⟩
  · obtain ⟨⟨rfl, h1⟩, rfl⟩ := h
    rw [enc_inj hg h1]
    exact ⟨rfl, rfl⟩
  · obtain ⟨⟨rfl, h1⟩, rfl⟩ := h
    rw [enc_inj hf h1]
    exact ⟨rfl, rfl⟩
  · obtain ⟨h1, rfl⟩ := h
    obtain ⟨h2, -⟩ := encU64_inj hi hj (r := []) (s := []) (by rw [h1])
    rw [h2]
    exact ⟨rfl, rfl⟩
  · obtain ⟨⟨rfl, -⟩, rfl⟩ := h
    exact ⟨rfl, rfl⟩

theorem ops_ne (i : TEntry F C) : TEntry.ops cf cg size i ≠ [] := by
  cases i <;> simp [TEntry.ops]

theorem ops_inj (hf : Lawful cf) (hg : Lawful cg) : ∀ (ks : List PKind) {l l' : List (TEntry F C)},
    l.map pkind <+: ks → l'.map pkind <+: ks → (∀ i ∈ l, EFits i) → (∀ i ∈ l', EFits i) →
    Transcript.ops cf cg size l = Transcript.ops cf cg size l' → l = l'
  | _, [], [], _, _, _, _, _ => rfl
  | _, [], j :: l', _, _, _, _, h => by
    simp [Transcript.ops, ops_ne] at h
  | _, i :: l, [], _, _, _, _, h => by
    simp [Transcript.ops, ops_ne] at h
  | [], i :: l, _ :: _, h1, _, _, _, _ => by simp at h1
  | k :: ks, i :: l, j :: l', h1, h2, f1, f2, h => by
    simp only [List.map_cons, List.cons_prefix_cons] at h1 h2
    unfold Transcript.ops at h
    rw [List.flatMap_cons, List.flatMap_cons] at h
    obtain ⟨rfl, h'⟩ := ops_inj1 hf hg (h1.1.trans h2.1.symm) (f1 i (by simp)) (f2 j (by simp)) h
    rw [ops_inj hf hg ks h1.2 h2.2 (fun x hx => f1 x (by simp [hx])) (fun x hx => f2 x (by simp [hx])) h']

/-- `tr` is the transcript `tr0` followed by operations of the types `ks`, of which `rest` is still to come; then
there may be scalars and challenges. -/
def Sh (tr0 : Transcript F C) (ks rest : List PKind) (tr : Transcript F C) : Prop :=
  ∃ s n, tr = tr0 ++ s ∧ (∀ i ∈ s, EFits i) ∧ s.map pkind ++ rest = ks ++ List.replicate n .sc

variable {tr0 tr : Transcript F C} {ks rest : List PKind}

theorem Sh.start (tr0 : Transcript F C) (ks : List PKind) : Sh tr0 ks ks tr0 :=
  ⟨[], 0, by simp, by simp, by simp⟩

theorem Sh.append (h : Sh tr0 ks rest tr) {l : List (TEntry F C)} {rest' : List PKind}
    (h1 : rest = l.map pkind ++ rest') (h2 : ∀ i ∈ l, EFits i) : Sh tr0 ks rest' (tr ++ l) := by
  obtain ⟨s, n, rfl, hs, hk⟩ := h
  refine ⟨s ++ l, n, by simp, ?_, by rw [List.map_append, List.append_assoc, ← h1, hk]⟩
  intro i hi
  rcases List.mem_append.1 hi with hi | hi
  · exact hs i hi
  · exact h2 i hi

theorem Sh.tail (h : Sh tr0 ks [] tr) {l : List (TEntry F C)} (h1 : ∀ i ∈ l, pkind i = .sc) :
    Sh tr0 ks [] (tr ++ l) := by
  obtain ⟨s, n, rfl, hs, hk⟩ := h
  rw [List.append_nil] at hk
  refine ⟨s ++ l, n + l.length, by simp, ?_, ?_⟩
  · intro i hi
    rcases List.mem_append.1 hi with hi | hi
    · exact hs i hi
    · have := h1 i hi
      cases i <;> simp_all [pkind, EFits]
  · rw [List.map_append, List.append_nil, hk, List.replicate_add, List.append_assoc]
    congr 2
    exact List.eq_replicate_iff.2 ⟨by simp, by simpa using h1⟩

/-- A function of the messages that agrees with a function of the operations. -/
theorem exists_onOps [Zero F] (hf : Lawful cf) (hg : Lawful cg) (size : ℕ) (tr0 : Transcript F C)
    (ks : List PKind) (ro : Transcript F C → F) : ∃ H : List MOp → F, ∀ tr rest, Sh tr0 ks rest tr →
      H (Transcript.ops cf cg size tr) = ro tr := by
  classical
  refine ⟨fun b => if h : ∃ tr, (∃ rest, Sh tr0 ks rest tr) ∧ Transcript.ops cf cg size tr = b then ro h.choose
    else 0, fun tr rest h => ?_⟩
  have hex : ∃ tr', (∃ rest, Sh tr0 ks rest tr') ∧ Transcript.ops cf cg size tr' = Transcript.ops cf cg size tr :=
    ⟨tr, ⟨rest, h⟩, rfl⟩
  obtain ⟨⟨rest', hc⟩, he⟩ := hex.choose_spec
  dsimp only
  rw [dif_pos hex]
  congr 1
  generalize hex.choose = t at hc he
  obtain ⟨s, n, rfl, hs, hk⟩ := hc
  obtain ⟨s', n', rfl, hs', hk'⟩ := h
  simp only [Transcript.ops, List.flatMap_append, List.append_cancel_left_eq] at he
  congr 1
  refine ops_inj hf hg (ks ++ List.replicate (max n n') .sc) ?_ ?_ hs hs' he
  · refine (List.prefix_append _ rest').trans (hk ▸ ?_)
    exact List.prefix_append_right_inj _ |>.2 (List.prefix_replicate_iff.2 (by simp))
  · refine (List.prefix_append _ rest).trans (hk' ▸ ?_)
    exact List.prefix_append_right_inj _ |>.2 (List.prefix_replicate_iff.2 (by simp))

end VO.Plonk
