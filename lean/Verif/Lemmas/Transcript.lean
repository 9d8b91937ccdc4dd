import Verif.Spec.Transcript

/-
Lemmas for C153: transcripts with the same types are determined by their bytes.
-/

namespace VO
open Spec

variable {F G1 : Type} {cf : Codec F} {cg : Codec G1}

theorem encU64_ne (n : ℕ) : encU64 n ≠ [] := by
  intro h
  have := congrArg List.length h
  simp [encU64] at this

theorem encU64_inj {m n : ℕ} (hm : m < 2 ^ 64) (hn : n < 2 ^ 64) {r s : List UInt8}
    (h : encU64 m ++ r = encU64 n ++ s) : m = n ∧ r = s := by
  have h1 := decU64_encU64 m hm r
  rw [h, decU64_encU64 n hn s] at h1
  simpa [eq_comm] using h1

theorem lawful_inj {α : Type} {c : Codec α} (hc : Lawful c) {a b : α} {r s : List UInt8}
    (h : c.enc a ++ r = c.enc b ++ s) : a = b ∧ r = s := by
  have h1 := hc a r
  rw [h, hc b s] at h1
  simpa [eq_comm] using h1

theorem flds_inj (hc : Lawful cf) {l l' : List F} (hl : l.length < 2 ^ 64) (hl' : l'.length < 2 ^ 64)
    {r s : List UInt8} (h : (vecCodec cf).enc l ++ r = (vecCodec cf).enc l' ++ s) : l = l' ∧ r = s := by
  have h1 := vecCodec_lawful cf hc l hl r
  rw [h, vecCodec_lawful cf hc l' hl' s] at h1
  simpa [eq_comm] using h1

theorem nats_inj : ∀ {l l' : List ℕ} (_ : l.length = l'.length) (_ : ∀ n ∈ l, n < 2 ^ 64)
    (_ : ∀ n ∈ l', n < 2 ^ 64) {r s : List UInt8} (_ : l.flatMap encU64 ++ r = l'.flatMap encU64 ++ s),
    l = l' ∧ r = s
  | [], [], _, _, _, r, s, h => ⟨rfl, by simpa using h⟩
  | a :: l, b :: l', hl, h1, h2, r, s, h => by
    rw [List.flatMap_cons, List.flatMap_cons, List.append_assoc, List.append_assoc] at h
    obtain ⟨rfl, h'⟩ := encU64_inj (h1 a (by simp)) (h2 b (by simp)) h
    obtain ⟨rfl, rfl⟩ := nats_inj (by simpa using hl) (fun n hn => h1 n (by simp [hn]))
      (fun n hn => h2 n (by simp [hn])) h'
    exact ⟨rfl, rfl⟩
  | [], _ :: _, h, _, _, _, _, _ => by simp at h
  | _ :: _, [], h, _, _, _, _, _ => by simp at h

theorem itemBytes_inj (hf : Lawful cf) (hg : Lawful cg) {i j : Item F G1} (hk : kind i = kind j)
    (hi : FitsU64 i) (hj : FitsU64 j) {r s : List UInt8}
    (h : itemBytes cf cg i ++ r = itemBytes cf cg j ++ s) : i = j ∧ r = s := by
  cases i <;> cases j <;> simp only [kind, reduceCtorEq] at hk
  · obtain ⟨rfl, rfl⟩ := lawful_inj hf h; exact ⟨rfl, rfl⟩
  · obtain ⟨rfl, rfl⟩ := lawful_inj hg h; exact ⟨rfl, rfl⟩
  · obtain ⟨rfl, rfl⟩ := flds_inj hf hi hj h; exact ⟨rfl, rfl⟩
  · simp only [itemBytes, List.append_assoc] at h
    obtain ⟨hl, h'⟩ := encU64_inj hi.1 hj.1 h
    obtain ⟨rfl, rfl⟩ := nats_inj hl hi.2 hj.2 h'
    exact ⟨rfl, rfl⟩
  · obtain ⟨rfl, rfl⟩ := encU64_inj hi hj h; exact ⟨rfl, rfl⟩

theorem itemBytes_ne (hf : Faithful cf) (hg : Faithful cg) (i : Item F G1) : itemBytes cf cg i ≠ [] := by
  cases i
  · exact hf.2 _
  · exact hg.2 _
  all_goals simp [itemBytes, vecCodec, encU64_ne]

theorem toBytes_inj (hf : Faithful cf) (hg : Faithful cg) : ∀ (ks : List Kind) {l l' : List (Item F G1)},
    Follows ks l → Follows ks l' → (∀ i ∈ l, FitsU64 i) → (∀ i ∈ l', FitsU64 i) →
    toBytes cf cg l = toBytes cf cg l' → l = l'
  | _, [], [], _, _, _, _, _ => rfl
  | _, [], j :: l', _, _, _, _, h => absurd (List.append_eq_nil_iff.1 h.symm).1 (itemBytes_ne hf hg j)
  | _, i :: l, [], _, _, _, _, h => absurd (List.append_eq_nil_iff.1 h).1 (itemBytes_ne hf hg i)
  | [], i :: l, _ :: _, h1, _, _, _, _ => by simp [Follows] at h1
  | k :: ks, i :: l, j :: l', h1, h2, f1, f2, h => by
    simp only [Follows, List.map_cons, List.cons_prefix_cons] at h1 h2
    obtain ⟨rfl, h'⟩ := itemBytes_inj hf.1 hg.1 (h1.1.trans h2.1.symm) (f1 i (by simp)) (f2 j (by simp)) h
    rw [toBytes_inj hf hg ks h1.2 h2.2 (fun x hx => f1 x (by simp [hx])) (fun x hx => f2 x (by simp [hx])) h']

/-- A function of the bytes that agrees with a function of the items. -/
theorem exists_onBytes [Zero F] (hf : Faithful cf) (hg : Faithful cg) (ks : List Kind)
    (hash : List (Item F G1) → F) : ∃ H : List UInt8 → F, ∀ l, Follows ks l → (∀ i ∈ l, FitsU64 i) →
      H (toBytes cf cg l) = hash l := by
  classical
  refine ⟨fun b => if h : ∃ l, Follows ks l ∧ (∀ i ∈ l, FitsU64 i) ∧ toBytes cf cg l = b then hash h.choose
    else 0, fun l h1 h2 => ?_⟩
  have hex : ∃ l', Follows ks l' ∧ (∀ i ∈ l', FitsU64 i) ∧ toBytes cf cg l' = toBytes cf cg l := ⟨l, h1, h2, rfl⟩
  have hc := hex.choose_spec
  dsimp only
  rw [dif_pos hex, toBytes_inj hf hg ks hc.1 h1 hc.2.1 h2 hc.2.2]

/-- The same, in a form that can be evaluated on a list. -/
def okItems : List Kind → List (Item F G1) → Prop
  | _, [] => True
  | [], _ :: _ => False
  | k :: ks, i :: l => kind i = k ∧ FitsU64 i ∧ okItems ks l

theorem okItems_follows : ∀ (ks : List Kind) (l : List (Item F G1)), okItems ks l →
    Follows ks l ∧ ∀ i ∈ l, FitsU64 i
  | _, [], _ => ⟨List.nil_prefix, by simp⟩
  | [], _ :: _, h => absurd h (by simp [okItems])
  | k :: ks, i :: l, h => by
    obtain ⟨h1, h2, h3⟩ := h
    obtain ⟨h4, h5⟩ := okItems_follows ks l h3
    exact ⟨List.cons_prefix_cons.2 ⟨h1, h4⟩, by simpa [h2] using h5⟩

theorem ok_onBytes [Zero F] (hf : Faithful cf) (hg : Faithful cg) (ks : List Kind)
    (hash : List (Item F G1) → F) : ∃ H : List UInt8 → F, ∀ l, okItems ks l → H (toBytes cf cg l) = hash l := by
  obtain ⟨H, hH⟩ := exists_onBytes hf hg ks hash
  exact ⟨H, fun l h => hH l (okItems_follows ks l h).1 (okItems_follows ks l h).2⟩

end VO
