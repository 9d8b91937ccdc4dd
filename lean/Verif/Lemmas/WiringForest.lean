import Verif.Lemmas.Wiring
import Verif.Lemmas.Permutation

/-
When the wire pairs of a circuit form a forest.
-/

set_option linter.unusedSectionVars false

namespace VO
open Spec

variable {F : Type} [Field F] [DecidableEq F]

theorem forest_append_iff {l : List (ℕ × ℕ)} {p : ℕ × ℕ} :
    Forest (l ++ [p]) ↔ Forest l ∧ ¬ Linked l p.1 p.2 := by
  refine ⟨forest_append, fun ⟨h1, h2⟩ k hk => ?_⟩
  by_cases h : k < l.length
  · rw [List.take_append_of_le_length (by omega), List.getElem_append_left h]
    exact h1 k h
  · have : k = l.length := by simp at hk; omega
    subst this
    rw [List.take_append_of_le_length le_rfl, List.take_length]
    simpa using h2

/-- `z` occurs in no pair. -/
def Isolated (l : List (ℕ × ℕ)) (z : ℕ) : Prop := ∀ p ∈ l, p.1 ≠ z ∧ p.2 ≠ z

theorem linked_isolated {l : List (ℕ × ℕ)} {z : ℕ} (hz : Isolated l z) {a b : ℕ}
    (h : Linked l a b) : a = z ↔ b = z := by
  induction h with
  | rel a b hab => have := hz _ hab; simp [this.1, this.2]
  | refl a => rfl
  | symm a b _ ih => exact ih.symm
  | trans a b c _ _ h1 h2 => exact h1.trans h2

namespace Circuit

theorem forest_windows (acc : List (ℕ × ℕ)) (y : ℕ) (l : List ℕ) (hf : Forest acc)
    (hn : (y :: l).Nodup) (hi : ∀ z ∈ l, Isolated acc z) :
    Forest (acc ++ windows2 (y :: l)) := by
  induction l generalizing acc y with
  | nil => simpa [windows2] using hf
  | cons z l ih =>
    have e : acc ++ windows2 (y :: z :: l) = (acc ++ [(y, z)]) ++ windows2 (z :: l) := by
      simp [windows2]
    rw [e]
    have hyz : y ≠ z := by simp at hn; tauto
    apply ih
    · rw [forest_append_iff]
      refine ⟨hf, fun hl => ?_⟩
      exact hyz ((linked_isolated (hi z (by simp)) hl).mpr rfl)
    · exact (List.nodup_cons.mp hn).2
    · intro u hu p hp
      rcases List.mem_append.mp hp with hp | hp
      · exact hi u (by simp [hu]) p hp
      · rw [List.mem_singleton] at hp
        subst hp
        simp only [List.nodup_cons, List.mem_cons, not_or] at hn
        refine ⟨?_, ?_⟩
        · rintro rfl; exact hn.1.2 hu
        · rintro rfl; exact hn.2.1 hu

theorem forest_windows' (acc : List (ℕ × ℕ)) (l : List ℕ) (hf : Forest acc)
    (hn : l.Nodup) (hi : ∀ z ∈ l, Isolated acc z) : Forest (acc ++ windows2 l) := by
  cases l with
  | nil => simpa [windows2] using hf
  | cons y l => exact forest_windows acc y l hf hn (fun z hz => hi z (by simp [hz]))

theorem forest_flat (Ls : List (List ℕ)) (acc : List (ℕ × ℕ)) (hf : Forest acc)
    (hn : Ls.flatten.Nodup) (hi : ∀ z ∈ Ls.flatten, Isolated acc z) :
    Forest (acc ++ Ls.flatMap windows2) := by
  induction Ls generalizing acc with
  | nil => simpa using hf
  | cons l Ls ih =>
    rw [List.flatten_cons, List.nodup_append] at hn
    obtain ⟨n1, n2, n3⟩ := hn
    rw [List.flatMap_cons, ← List.append_assoc]
    apply ih
    · exact forest_windows' acc l hf n1 (fun z hz => hi z (by simp [hz]))
    · exact n2
    · intro z hz p hp
      rcases List.mem_append.mp hp with hp | hp
      · exact hi z (by rw [List.flatten_cons, List.mem_append]; exact .inr hz) p hp
      · have := windows2_mem _ _ hp
        exact ⟨n3 _ this.1 _ hz, n3 _ this.2 _ hz⟩

theorem nodup_wiresOf {c : Circuit F} (hw : Wired c) {v : ℕ} {x : Variable F}
    (hx : c.vars[v]? = some x) : (wiresOf x).Nodup := by
  unfold wiresOf
  rw [List.nodup_append]
  refine ⟨(hw.nodup v x hx).map (fun a b h => by cases h; rfl), ?_, ?_⟩
  · cases x.outputWire <;> simp
  · intro a ha b hb
    obtain ⟨w, -, rfl⟩ := List.mem_map.mp ha
    cases h : x.outputWire with
    | none => rw [h] at hb; simp at hb
    | some w' => rw [h] at hb; simp at hb; subst hb; simp

theorem forest_own {c : Circuit F} (hw : Wired c) :
    Forest (c.vars.flatMap (fun x => windows2 ((wiresOf x).map c.getWireGlobalIndex))) := by
  have := forest_flat (c.vars.map (fun x => (wiresOf x).map c.getWireGlobalIndex)) []
    (fun k hk => by simp at hk) ?_ (fun z _ p hp => by simp at hp)
  · rw [List.nil_append, List.flatMap_map] at this
    exact this
  · rw [List.nodup_flatten]
    constructor
    · intro l hl
      obtain ⟨x, hx, rfl⟩ := List.mem_map.mp hl
      obtain ⟨v, hv, hxv⟩ := List.mem_iff_getElem.mp hx
      have hx' : c.vars[v]? = some x := by rw [List.getElem?_eq_getElem hv, hxv]
      apply List.Nodup.map_on _ (nodup_wiresOf hw hx')
      intro a ha b hb hab
      exact index_inj ((mem_wiresOf hw hx' a).mp ha) ((mem_wiresOf hw hx' b).mp hb) hab
    · rw [List.pairwise_map, List.pairwise_iff_getElem]
      intro i j hi hj hij
      rw [List.disjoint_left]
      intro z hz hz'
      obtain ⟨w, hw1, rfl⟩ := List.mem_map.mp hz
      obtain ⟨w', hw2, e⟩ := List.mem_map.mp hz'
      have c1 := (mem_wiresOf hw (List.getElem?_eq_getElem hi) w).mp hw1
      have c2 := (mem_wiresOf hw (List.getElem?_eq_getElem hj) w').mp hw2
      obtain rfl := index_inj c2 c1 e
      have := carries_fun c1 c2
      omega

theorem mapM_take {α β : Type} (f : α → Res β) (l : List α) (r : List β) (h : l.mapM f = .ok r)
    (k : ℕ) : (l.take k).mapM f = .ok (r.take k) ∧ l.length = r.length ∧
      ∀ (hk : k < l.length) (hk' : k < r.length), f l[k] = .ok r[k] := by
  induction l generalizing r k with
  | nil => rw [mapM_nil] at h; cases h; exact ⟨by rw [List.take_nil, List.take_nil]; rfl, rfl, fun hk => by simp at hk⟩
  | cons a l ih =>
    obtain ⟨b, bs, hb, hbs, rfl⟩ := (mapM_cons_ok _ _ _ _).mp h
    cases k with
    | zero =>
      refine ⟨rfl, by simp [(ih bs hbs 0).2.1], fun _ _ => by simpa using hb⟩
    | succ k =>
      obtain ⟨h1, h2, h3⟩ := ih bs hbs k
      refine ⟨?_, by simp [h2], fun hk hk' => ?_⟩
      · rw [List.take_succ_cons, List.take_succ_cons, mapM_cons_ok]
        exact ⟨b, _, hb, h1, rfl⟩
      · simpa using h3 (by simpa using hk) (by simpa using hk')

theorem wired_withAsserts {c : Circuit F} (hw : Wired c) (a : List (ℕ × ℕ)) :
    Wired ({ c with assertEquals := a } : Circuit F) :=
  hw.congr (fun k => by cases k <;> rfl) rfl rfl (fun v x hx => ⟨x, hx, rfl, rfl⟩)

theorem carries_withAsserts {c : Circuit F} (a : List (ℕ × ℕ)) (w : GateWire) (v : ℕ) :
    Carries ({ c with assertEquals := a } : Circuit F) w v ↔ Carries c w v := by
  match w with
  | .input ⟨k, i, s⟩ => cases k <;> rfl
  | .output (.bin k i) => cases k <;> rfl
  | .output (.const i) => rfl

/-- The wire pairs form a forest iff the asserted equalities form one. -/
theorem forest_wiring {c : Circuit F} (hw : Wired c) {wires : List (ℕ × ℕ)}
    (h : c.getWiring = .ok wires) : Forest wires ↔ Forest c.assertEquals := by
  obtain ⟨hcomp, eqs, he, hwires⟩ := getWiring_ok.mp h
  set own := c.vars.flatMap (fun x => windows2 ((wiresOf x).map c.getWireGlobalIndex)) with hown
  have key : ∀ k (hk : k < eqs.length) (hk' : k < c.assertEquals.length),
      Linked (own ++ eqs.take k) eqs[k].1 eqs[k].2 ↔
        Linked (c.assertEquals.take k) c.assertEquals[k].1 c.assertEquals[k].2 := by
    intro k hk hk'
    obtain ⟨h1, h2, h3⟩ := mapM_take _ _ _ he k
    obtain ⟨w, w', c1, c2, e⟩ := assertPair_ok hw (h3 hk' hk)
    have hck : ({ c with assertEquals := c.assertEquals.take k } : Circuit F).getWiring
        = .ok (own ++ eqs.take k) := by
      rw [getWiring_ok]
      exact ⟨hcomp, eqs.take k, h1, rfl⟩
    have := linked_iff (wired_withAsserts hw (c.assertEquals.take k)) hck
      ((carries_withAsserts _ _ _).mpr c1) ((carries_withAsserts _ _ _).mpr c2)
    rw [e]
    exact this
  have hlen := (mapM_take _ _ _ he 0).2.1
  have hof : Forest own := forest_own hw
  rw [hwires]
  constructor
  · intro hf k hk
    have h1 := hf (own.length + k) (by rw [List.length_append]; omega)
    rw [List.take_append, List.take_of_length_le (by omega), Nat.add_sub_cancel_left,
      List.getElem_append_right (by omega)] at h1
    simp only [Nat.add_sub_cancel_left] at h1
    exact fun hl => h1 ((key k (by omega) hk).mpr hl)
  · intro hf k hk
    by_cases hko : k < own.length
    · rw [List.take_append_of_le_length (by omega), List.getElem_append_left hko]
      exact hof k hko
    · obtain ⟨j, rfl⟩ : ∃ j, k = own.length + j := ⟨k - own.length, by omega⟩
      rw [List.length_append] at hk
      rw [List.take_append, List.take_of_length_le (by omega), Nat.add_sub_cancel_left,
        List.getElem_append_right (by omega)]
      simp only [Nat.add_sub_cancel_left]
      exact fun hl => hf j (by omega) ((key j (by omega) (by omega)).mp hl)

end Circuit

end VO
