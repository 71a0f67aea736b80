/-!
# Generic list lemmas
-/

namespace Verif

/-- Two strictly sorted lists with the same members are equal. -/
theorem pairwise_ext {α : Type} {lt : α → α → Prop} (asymm : ∀ a b, lt a b → ¬ lt b a)
    {l₁ l₂ : List α} (h₁ : l₁.Pairwise lt) (h₂ : l₂.Pairwise lt) (hm : ∀ x, x ∈ l₁ ↔ x ∈ l₂) :
    l₁ = l₂ := by
  have irrefl : ∀ a, ¬ lt a a := fun a h => asymm a a h h
  induction l₁ generalizing l₂ with
  | nil =>
    cases l₂ with
    | nil => rfl
    | cons b bs => exact absurd ((hm b).2 (by simp)) (by simp)
  | cons a as ih =>
    cases l₂ with
    | nil => exact absurd ((hm a).1 (by simp)) (by simp)
    | cons b bs =>
      rw [List.pairwise_cons] at h₁ h₂
      have hab : a = b := by
        rcases List.mem_cons.1 ((hm a).1 (by simp)) with e | ha
        · exact e
        rcases List.mem_cons.1 ((hm b).2 (by simp)) with e | hb
        · exact e.symm
        exact absurd (h₂.1 a ha) (asymm _ _ (h₁.1 b hb))
      subst hab
      congr 1
      apply ih h₁.2 h₂.2
      intro x
      constructor
      · intro hx
        rcases List.mem_cons.1 ((hm x).1 (by simp [hx])) with e | h
        · subst e; exact absurd (h₁.1 x hx) (irrefl x)
        · exact h
      · intro hx
        rcases List.mem_cons.1 ((hm x).2 (by simp [hx])) with e | h
        · subst e; exact absurd (h₂.1 x hx) (irrefl x)
        · exact h

end Verif
