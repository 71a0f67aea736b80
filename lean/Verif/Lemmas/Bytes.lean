import Verif.Model.Bytes
/-! Order lemmas for byte strings: `blt` is a strict total order; single-key ranges. -/
namespace Verif

theorem blt_irrefl (a : Bytes) : blt a a = false := by
  induction a with
  | nil => rfl
  | cons x xs ih => simp [blt, UInt8.lt_irrefl, ih]

theorem blt_trans {a b c : Bytes} (h1 : blt a b = true) (h2 : blt b c = true) : blt a c = true := by
  induction a generalizing b c with
  | nil =>
    cases b with
    | nil => simp [blt] at h1
    | cons y ys => cases c with
      | nil => simp [blt] at h2
      | cons z zs => simp [blt]
  | cons x xs ih =>
    cases b with
    | nil => simp [blt] at h1
    | cons y ys => cases c with
      | nil => simp [blt] at h2
      | cons z zs =>
        simp only [blt] at h1 h2 ⊢
        simp only [UInt8.lt_iff_toNat_lt] at *
        split at h1
        · split at h2
          · rw [if_pos (by omega)]
          · split at h2
            · simp at h2
            · rw [if_pos (by omega)]
        · split at h1
          · simp at h1
          · split at h2
            · rw [if_pos (by omega)]
            · split at h2
              · simp at h2
              · rw [if_neg (by omega), if_neg (by omega)]
                exact ih h1 h2

theorem blt_total (a b : Bytes) : blt a b = true ∨ a = b ∨ blt b a = true := by
  induction a generalizing b with
  | nil => cases b <;> simp [blt]
  | cons x xs ih =>
    cases b with
    | nil => simp [blt]
    | cons y ys =>
      simp only [blt]
      simp only [UInt8.lt_iff_toNat_lt]
      rcases Nat.lt_trichotomy x.toNat y.toNat with h | h | h
      · simp [h]
      · have hxy : x = y := UInt8.toNat_inj.mp h
        subst hxy
        simp only [Nat.lt_irrefl, if_false, List.cons.injEq, true_and]
        exact ih ys
      · right; right
        simp [h]

theorem blt_asymm {a b : Bytes} (h : blt a b = true) : blt b a = false := by
  cases hb : blt b a with
  | false => rfl
  | true => exact absurd (blt_trans h hb) (by simp [blt_irrefl])

theorem blt_ne {a b : Bytes} (h : blt a b = true) : a ≠ b := by
  intro e; subst e; simp [blt_irrefl] at h

theorem ble_refl (a : Bytes) : ble a a = true := by simp [ble, blt_irrefl]

theorem ble_iff {a b : Bytes} : ble a b = true ↔ a = b ∨ blt a b = true := by
  unfold ble
  constructor
  · intro h
    rcases blt_total a b with h' | h' | h'
    · exact Or.inr h'
    · exact Or.inl h'
    · simp [h'] at h
  · rintro (h | h)
    · subst h; simp [blt_irrefl]
    · simp [blt_asymm h]

theorem ble_of_blt {a b : Bytes} (h : blt a b = true) : ble a b = true := ble_iff.mpr (Or.inr h)

theorem ble_trans {a b c : Bytes} (h1 : ble a b = true) (h2 : ble b c = true) : ble a c = true := by
  rcases ble_iff.mp h1 with h1 | h1
  · subst h1; exact h2
  · rcases ble_iff.mp h2 with h2 | h2
    · subst h2; exact ble_of_blt h1
    · exact ble_of_blt (blt_trans h1 h2)

theorem blt_of_ble_of_blt {a b c : Bytes} (h1 : ble a b = true) (h2 : blt b c = true) :
    blt a c = true := by
  rcases ble_iff.mp h1 with h1 | h1
  · subst h1; exact h2
  · exact blt_trans h1 h2

theorem blt_of_blt_of_ble {a b c : Bytes} (h1 : blt a b = true) (h2 : ble b c = true) :
    blt a c = true := by
  rcases ble_iff.mp h2 with h2 | h2
  · subst h2; exact h1
  · exact blt_trans h1 h2

theorem ble_total (a b : Bytes) : ble a b = true ∨ ble b a = true := by
  rcases blt_total a b with h | h | h
  · exact Or.inl (ble_of_blt h)
  · subst h; exact Or.inl (ble_refl a)
  · exact Or.inr (ble_of_blt h)

theorem ble_antisymm {a b : Bytes} (h1 : ble a b = true) (h2 : ble b a = true) : a = b := by
  rcases ble_iff.mp h1 with h | h
  · exact h
  · simp [ble, h] at h2

theorem not_blt {a b : Bytes} : blt a b = false ↔ ble b a = true := by simp [ble]

/-- `a < a ++ [0]`. -/
theorem blt_snoc_zero (a : Bytes) : blt a (a ++ [0]) = true := by
  induction a with
  | nil => simp [blt]
  | cons x xs ih => simp [blt, UInt8.lt_irrefl, ih]

/-- Nothing lies strictly between `k` and `k ++ [0]`. -/
theorem ble_of_blt_snoc_zero {k x : Bytes} (h : blt x (k ++ [0]) = true) : ble x k = true := by
  induction k generalizing x with
  | nil =>
    cases x with
    | nil => rfl
    | cons y ys =>
      simp only [List.nil_append, blt] at h
      split at h
      · rename_i hlt
        simp [UInt8.lt_iff_toNat_lt] at hlt
      · split at h
        · simp at h
        · cases ys <;> simp [blt] at h
  | cons z zs ih =>
    cases x with
    | nil => simp [ble, blt]
    | cons y ys =>
      simp only [List.cons_append, blt] at h
      simp only [ble, blt, Bool.not_eq_true', UInt8.lt_iff_toNat_lt] at h ⊢
      split at h
      · rw [if_neg (by omega), if_pos (by omega)]
      · split at h
        · simp at h
        · rw [if_neg (by omega), if_neg (by omega)]
          have := ih h
          simpa [ble] using this

/-- The range `[k, k ++ [0])` contains exactly `k`. -/
theorem inRange_single {k x : Bytes} : inRange k (k ++ [0]) x = true ↔ x = k := by
  unfold inRange
  rw [Bool.and_eq_true]
  constructor
  · rintro ⟨h1, h2⟩
    exact ble_antisymm (ble_of_blt_snoc_zero h2) h1
  · rintro rfl
    exact ⟨ble_refl _, blt_snoc_zero _⟩

/-- Everything strictly above `k` is at or above `k ++ [0]` (the continuation key of a page). -/
theorem ble_snoc_zero_iff {k x : Bytes} : ble (k ++ [0]) x = true ↔ blt k x = true := by
  constructor
  · intro h
    exact blt_of_blt_of_ble (blt_snoc_zero k) h
  · intro h
    rcases ble_total (k ++ [0]) x with h' | h'
    · exact h'
    · rcases ble_iff.mp h' with e | hl
      · subst e; exact ble_refl _
      · have := ble_of_blt_snoc_zero hl
        simp [ble, h] at this

end Verif
