import Verif.Lemmas.Read
/-!
# What a finished compaction run has achieved
-/

namespace Verif

/-- Postconditions survive a run: when the observed call returns, its postcondition held right after its last
statement; afterwards only the environment moved. -/
theorem run_wp {α : Type} {s s' : Sys} {p : Prog α} {t : List Obs} {a : α} {Q : α → World → Prop}
    (r : Run s p t a s') (h : SysInv s) {w₀ : World} (hx : Ext w₀ s.world) (hp : WP Q p w₀)
    (hq : ∀ a w w', Q a w → Ext w w' → Q a w') : Q a s'.world := by
  induction r generalizing w₀ with
  | ret s a => exact hq _ _ _ hp hx
  | env st _ ih =>
    obtain ⟨h1, h2⟩ := h.step st
    exact ih h1 (hx.trans h2) hp
  | @step s s'' eff k t a o _ ih =>
    obtain ⟨h1, h2⟩ := hp s.world hx o
    refine ih ?_ (Ext.refl h1.inv) h2
    exact ⟨h1.inv, fun p hp => safe_ext h1 (h.safe p hp)⟩

/-- A successful compaction transaction has moved the compact revision. -/
theorem wp_compactLoop_done {w : World} (i : Inv w) {start stop : Int} (n : Nat) (hm : w.db.markers ≠ [])
    (hstart : start ≤ w.db.compactRev) (hstop : stop + 100 ≤ w.hist.top) :
    WP (fun r w' => Ext w w' ∧ (r = .ok () → stop ≤ w'.db.compactRev)) (compactLoop start stop n) w := by
  have key : ∀ n w1, Ext w w1 → WP (fun r w' => Ext w w' ∧ (r = .ok () → stop ≤ w'.db.compactRev))
      (compactLoop start stop n) w1 := by
    intro n
    induction n with
    | zero => intro w1 h1; exact ⟨h1, fun h => by cases h⟩
    | succ n ih =>
      intro w1 h1 w' hw' o
      have hw := h1.trans hw'
      have hg := hw.inv.ext_tryCompact (hw.mrk hm) (Int.le_trans hstart hw.cr)
        (Int.le_trans hstop hw.top) o
      refine ⟨hg, ?_⟩
      have hall := hw.trans hg
      have hdone : o.applied = true →
          stop ≤ (w'.exec (fun db => tryCompactTx db start stop) o).db.compactRev := by
        intro ho
        rw [hw.inv.exec_tryCompact start stop ho]
        simp only [tryCompact_compactRev hw.inv (hw.mrk hm)]
        omega
      cases o with
      | ok => exact ⟨hall, fun _ => hdone rfl⟩
      | trunc m => exact ⟨hall, fun _ => hdone rfl⟩
      | fail e =>
        simp only
        split
        · exact ih _ hall
        · exact ⟨hall, fun h => by cases h⟩
      | lost e =>
        simp only
        split
        · exact ih _ hall
        · exact ⟨hall, fun h => by cases h⟩
  exact key n w (Ext.refl i)

theorem wp_driver_compact_done {w : World} (i : Inv w) {leader : Option Bool} (hl : leader ≠ some false)
    {revision : Int} (hm : w.db.markers ≠ []) (hrev : revision + 100 ≤ w.hist.top) :
    WP (fun r w' => Ext w w' ∧ (r = .ok () → revision ≤ w'.db.compactRev)) (Driver.compact leader revision) w := by
  have main : WP (fun r w' => Ext w w' ∧ (r = .ok () → revision ≤ w'.db.compactRev))
      (Driver.compactSqlite revision) w := by
    apply wp_andThen
    apply wp_getCompactRevision i
    · intro w1 h1
      simp only
      have := h1.top
      split
      · exact ⟨h1, fun _ => by omega⟩
      · have hst : (if revision > w1.hist.top then w1.hist.top else revision) = revision := by
          rw [if_neg (by omega)]
        rw [hst]
        exact wp_mono (fun _ _ h => ⟨h1.trans h.1, h.2⟩)
          (wp_compactLoop_done h1.inv _ (h1.mrk hm) (Int.le_refl _) (by omega))
    · intro w1 e h1; exact ⟨h1, fun h => by cases h⟩
  unfold Driver.compact
  split
  · exact absurd rfl hl
  · exact main

theorem wp_compactBatches_done {w : World} (i : Inv w) {leader : Nat → Option Bool}
    (hl : ∀ n, leader n ≠ some false) {target : Int}
    (hm : w.db.markers ≠ []) (hrev : target + 100 ≤ w.hist.top) (fuel n : Nat) {start : Int}
    (hst : start ≤ w.db.compactRev) (hf : (target - start).toNat ≤ fuel) :
    WP (fun r w' => Ext w w' ∧ (r = .ok () → target ≤ w'.db.compactRev))
      (compactBatches leader target fuel n start) w := by
  induction fuel generalizing w n start with
  | zero => exact ⟨Ext.refl i, fun _ => by omega⟩
  | succ fuel ih =>
    unfold compactBatches
    split
    · apply wp_andThen
      have hb : (if start + compactBatchSize > target then target else start + compactBatchSize) + 100
          ≤ w.hist.top := by split <;> omega
      have hf' : (target - (if start + compactBatchSize > target then target
          else start + compactBatchSize)).toNat ≤ fuel := by
        unfold compactBatchSize; split <;> omega
      refine wp_mono ?_ (wp_driver_compact_done i (hl n) hm hb)
      intro a w1 h1
      cases a with
      | error e => exact ⟨h1.1, fun h => by cases h⟩
      | ok _ =>
        exact wp_mono (fun _ _ h => ⟨h1.1.trans h.1, h.2⟩)
          (ih h1.1.inv (h1.1.mrk hm) (Int.le_trans hrev h1.1.top) _ (h1.2 rfl) hf')
    · exact ⟨Ext.refl i, fun _ => by omega⟩

/-- Postconditions that only need the worlds reached. -/
theorem wp_ext {α : Type} {Q : α → World → Prop} {p : Prog α} {w : World} (i : Inv w) (h : WP Q p w) :
    WP (fun a w' => Q a w' ∧ Ext w w') p w := by
  have : ∀ w0 w, Ext w0 w → WP Q p w → WP (fun a w' => Q a w' ∧ Ext w0 w') p w := by
    clear h i
    intro w0 w hx h
    induction p generalizing w with
    | ret a => exact ⟨h, hx⟩
    | stmt eff k ih =>
      intro w' hw' o
      obtain ⟨h1, h2⟩ := h w' hw' o
      exact ⟨h1, ih o w'.db _ (hx.trans (hw'.trans h1)) h2⟩
  exact this w w (Ext.refl i) h

theorem wp_doCompact_done {w : World} (i : Inv w) {leader : Nat → Option Bool}
    (hl : ∀ n, leader n ≠ some false) :
    WP (fun r w' => Ext w w' ∧ (r = .ok () → w.hist.top - 100 ≤ w'.db.compactRev))
      (Backend.doCompact leader) w := by
  apply wp_andThen
  refine wp_mono ?_ (wp_ext i (wp_compactStart i))
  intro a w1 h1
  cases a with
  | error e => exact ⟨h1.2, fun h => by cases h⟩
  | ok u =>
    obtain ⟨⟨i1, hm⟩, hx⟩ := h1
    have hm := hm rfl
    simp only
    apply wp_andThen
    apply wp_getCompactRevision i1
    · intro w2 h2
      refine wp_mono ?_ (wp_compactBatches_done h2.inv hl (h2.mrk hm) ?_ _ _ (Int.le_refl _) (Nat.le_refl _))
      · intro r w3 h3
        refine ⟨(hx.trans h2).trans h3.1, fun h => ?_⟩
        have := h3.2 h
        have h4 := (hx.trans h2).top
        unfold supersededCount at this
        omega
      · unfold supersededCount; omega
    · intro w2 e h2; exact ⟨hx.trans h2, fun h => by cases h⟩

end Verif
