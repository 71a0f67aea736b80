import Verif.Model.Client
import Verif.Lemmas.Bytes
/-!
# Prefix ranges
-/

namespace Verif

/-- The same as `prefixEndRev`, reading the key from the front. -/
def prefixEndFwd : Bytes → Option Bytes
  | [] => none
  | b :: bs =>
    match prefixEndFwd bs with
    | some e => some (b :: e)
    | none => if b < 0xff then some [b + 1] else none

theorem prefixEndRev_append (a : List UInt8) (b : UInt8) :
    prefixEndRev (a ++ [b]) = match prefixEndRev a with
      | some e => some (e ++ [b])
      | none => if b < 0xff then some [b + 1] else none := by
  induction a with
  | nil => simp [prefixEndRev]
  | cons x xs ih =>
    simp only [List.cons_append, prefixEndRev]
    split
    · rfl
    · exact ih

theorem prefixEndFwd_eq (key : Bytes) :
    prefixEndFwd key = (prefixEndRev key.reverse).map List.reverse := by
  induction key with
  | nil => rfl
  | cons b bs ih =>
    simp only [prefixEndFwd, List.reverse_cons, prefixEndRev_append, ih]
    cases prefixEndRev bs.reverse with
    | some e => simp
    | none => simp only [Option.map_none]; split <;> rfl

theorem u8_tri (a b : UInt8) : a < b ∨ a = b ∨ b < a := by
  rw [UInt8.lt_iff_toNat_lt, UInt8.lt_iff_toNat_lt, ← UInt8.toNat_inj]; omega

theorem u8_lt_succ {a b : UInt8} (hb : b < 0xff) : a < b + 1 ↔ a ≤ b := by
  have h1 : (b + 1).toNat = b.toNat + 1 := by
    have : b.toNat < 255 := by simpa [UInt8.lt_iff_toNat_lt] using hb
    rw [UInt8.toNat_add]; simp; omega
  rw [UInt8.lt_iff_toNat_lt, UInt8.le_iff_toNat_le, h1]
  omega

theorem prefix_range (key k : Bytes) :
    (∀ e, prefixEndFwd key = some e → (inRange key e k = true ↔ key <+: k)) ∧
    (prefixEndFwd key = none → (ble key k = true ↔ key <+: k)) := by
  induction key generalizing k with
  | nil => simp [prefixEndFwd, ble]; cases k <;> rfl
  | cons b bs ih =>
    cases k with
    | nil =>
      constructor
      · intro e _; simp [inRange, ble, blt]
      · intro _; simp [ble, blt]
    | cons c cs =>
      obtain ⟨i1, i2⟩ := ih cs
      have hp : (b :: bs <+: c :: cs) ↔ (b = c ∧ bs <+: cs) := List.cons_prefix_cons
      constructor
      · intro e he
        simp only [prefixEndFwd] at he
        rw [hp]
        cases hf : prefixEndFwd bs with
        | some e' =>
          rw [hf] at he
          simp only [Option.some.injEq] at he
          subst he
          rw [← i1 e' hf]
          unfold inRange ble
          simp only [blt]
          rcases u8_tri b c with h | h | h
          · have h' : ¬ c < b := fun x => UInt8.lt_irrefl _ (UInt8.lt_trans h x)
            have : b ≠ c := fun e => UInt8.lt_irrefl _ (e ▸ h)
            simp [h, h', this]
          · subst h; simp [UInt8.lt_irrefl]
          · have h' : ¬ b < c := fun x => UInt8.lt_irrefl _ (UInt8.lt_trans h x)
            have : b ≠ c := fun e => UInt8.lt_irrefl _ (e ▸ h)
            simp [h, this]
        | none =>
          rw [hf] at he
          simp only at he
          split at he
          · rename_i hlt
            simp only [Option.some.injEq] at he
            subst he
            have i2 := i2 hf
            unfold inRange
            have hl : blt (c :: cs) [b + 1] = true ↔ c ≤ b := by
              simp only [blt]
              rw [← u8_lt_succ hlt]
              by_cases h : c < b + 1
              · simp [h]
              · simp only [h, ↓reduceIte, iff_false]
                split
                · simp
                · cases cs <;> simp [blt]
            rw [Bool.and_eq_true, hl, ← i2]
            unfold ble
            simp only [blt]
            rcases u8_tri b c with h | h | h
            · have : ¬ c ≤ b := UInt8.not_le.2 h
              have h3 : b ≠ c := fun e => UInt8.lt_irrefl _ (e ▸ h)
              simp [this, h3]
            · subst h; simp [UInt8.lt_irrefl]
            · have h3 : b ≠ c := fun e => UInt8.lt_irrefl _ (e ▸ h)
              simp [h, h3]
          · cases he
      · intro he
        simp only [prefixEndFwd] at he
        rw [hp]
        cases hf : prefixEndFwd bs with
        | some e' => rw [hf] at he; cases he
        | none =>
          rw [hf] at he
          simp only at he
          split at he
          · cases he
          · rename_i hlt
            rw [← i2 hf]
            have hb : b = 0xff := by
              apply UInt8.toNat_inj.1
              have h1 : ¬ b.toNat < 255 := by simpa [UInt8.lt_iff_toNat_lt] using hlt
              have := b.toNat_lt
              simp; omega
            subst hb
            unfold ble
            simp only [blt]
            rcases u8_tri 0xff c with h | h | h
            · exfalso
              have h1 : (255 : Nat) < c.toNat := by simpa [UInt8.lt_iff_toNat_lt] using h
              have := c.toNat_lt
              omega
            · subst h; simp [UInt8.lt_irrefl]
            · have h3 : (0xff : UInt8) ≠ c := fun e => UInt8.lt_irrefl _ (e ▸ h)
              simp [h, h3]

/-- The range `[key, prefixEnd key)` holds exactly the keys that start with `key`, unless `key` consists of
`0xff` bytes only. -/
theorem prefixEnd_range {key : Bytes} (h : ∃ b ∈ key, b ≠ 0xff) (k : Bytes) :
    Wanted key (prefixEnd key) k ↔ key <+: k := by
  have hne : prefixEndFwd key ≠ none := by
    obtain ⟨b, hb, hx⟩ := h
    induction key with
    | nil => simp at hb
    | cons c cs ih =>
      simp only [prefixEndFwd]
      rcases List.mem_cons.1 hb with rfl | hb
      · have : b < 0xff := by
          rw [UInt8.lt_iff_toNat_lt]
          have h1 : b.toNat ≠ 255 := fun e => hx (UInt8.toNat_inj.1 (by simpa using e))
          have := b.toNat_lt
          simp; omega
        cases prefixEndFwd cs <;> simp [this]
      · have := ih hb
        cases hc : prefixEndFwd cs with
        | none => exact absurd hc this
        | some e => simp
  cases he : prefixEndFwd key with
  | none => exact absurd he hne
  | some e =>
    have hpe : prefixEnd key = e := by
      unfold prefixEnd
      rw [prefixEndFwd_eq] at he
      cases hr : prefixEndRev key.reverse with
      | none => rw [hr] at he; cases he
      | some r => rw [hr] at he; simpa using he
    have hnil : e ≠ [] := by
      intro hn
      subst hn
      cases key with
      | nil => cases he
      | cons b bs =>
        simp only [prefixEndFwd] at he
        split at he
        · cases he
        · split at he <;> cases he
    rw [← (prefix_range key k).1 e he, hpe]
    unfold Wanted inRange
    rw [if_neg hnil, Bool.and_eq_true]

end Verif
