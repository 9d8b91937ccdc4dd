import Verif.Model.Basic

/-
`mapM` over results.
-/

namespace VO

variable {α β : Type}

theorem mapM_nil (f : α → Res β) : ([] : List α).mapM f = .ok [] := rfl

theorem mapM_cons_ok (f : α → Res β) (a : α) (l : List α) (r : List β) :
    (a :: l).mapM f = .ok r ↔ ∃ b bs, f a = .ok b ∧ l.mapM f = .ok bs ∧ r = b :: bs := by
  rw [List.mapM_cons]
  simp only [bind, Except.bind, pure, Except.pure]
  rcases f a with e | b
  · simp
  · rcases l.mapM f with e | bs
    · simp
    · simp [eq_comm]

theorem mapM_map (f : α → Res β) (g : α → β) (l : List α) (h : ∀ x ∈ l, f x = .ok (g x)) :
    l.mapM f = .ok (l.map g) := by
  induction l with
  | nil => rfl
  | cons a l ih =>
    rw [mapM_cons_ok]
    exact ⟨g a, l.map g, h a (by simp), ih (fun x hx => h x (by simp [hx])), rfl⟩

theorem mapM_exists (f : α → Res β) (l : List α) (h : ∀ x ∈ l, ∃ y, f x = .ok y) :
    ∃ r, l.mapM f = .ok r := by
  induction l with
  | nil => exact ⟨[], rfl⟩
  | cons a l ih =>
    obtain ⟨b, hb⟩ := h a (by simp)
    obtain ⟨bs, hbs⟩ := ih (fun x hx => h x (by simp [hx]))
    exact ⟨_, (mapM_cons_ok _ _ _ _).mpr ⟨b, bs, hb, hbs, rfl⟩⟩

theorem mapM_mem_left (f : α → Res β) (l : List α) (r : List β) (h : l.mapM f = .ok r) :
    ∀ x ∈ l, ∃ y ∈ r, f x = .ok y := by
  induction l generalizing r with
  | nil => simp
  | cons a l ih =>
    obtain ⟨b, bs, hb, hbs, rfl⟩ := (mapM_cons_ok _ _ _ _).mp h
    intro x hx
    rcases List.mem_cons.mp hx with rfl | hx
    · exact ⟨b, by simp, hb⟩
    · obtain ⟨y, hy, h1⟩ := ih bs hbs x hx
      exact ⟨y, by simp [hy], h1⟩

theorem mapM_mem_right (f : α → Res β) (l : List α) (r : List β) (h : l.mapM f = .ok r) :
    ∀ y ∈ r, ∃ x ∈ l, f x = .ok y := by
  induction l generalizing r with
  | nil => rw [mapM_nil] at h; cases h; simp
  | cons a l ih =>
    obtain ⟨b, bs, hb, hbs, rfl⟩ := (mapM_cons_ok _ _ _ _).mp h
    intro y hy
    rcases List.mem_cons.mp hy with rfl | hy
    · exact ⟨a, by simp, hb⟩
    · obtain ⟨x, hx, h1⟩ := ih bs hbs y hy
      exact ⟨x, by simp [hx], h1⟩

end VO
