import Verif.Lemmas.GoErrorsCompact
import Verif.Props.GoErrorsText
/-!
# C117: the retries of `Compact` with the text of the code

`(*Driver).Compact` for every sequence of answers to its transactions.
-/

namespace Verif

open Verif.Go

/-- Run the text of `Compact(ctx, revision)`: `row` is what `GetCompactRevision` answers (numbers, or an error: `.bad`), `ans i` what transaction `i` answers. -/
def compact117 (retry : GoErr → Bool) (revision : Int) (row : RowOut) (ans : Nat → Option GoErr) : Option ErRun :=
  runEr ans row (compactGo retry revision) 0 [] 0

/-- `n` transactions that compact from `a` to `b`. -/
def txs117 (n : Nat) (a b : Int) : List (Nm × Bytes × Bytes) := List.replicate n (n!"tryCompact", decimal a, decimal b)

theorem run117 (retry : GoErr → Bool) (revision a b : Int) (ans : Nat → Option GoErr) (h : a < revision) :
    compact117 retry revision (.row a b) ans =
      let q := attemptLoop retry ans 500 0 none
      some ⟨[lastErrV q.2], min (q.1 + 1) 500, txs117 (min (q.1 + 1) 500) a (min revision b), 0⟩ := by
  unfold compact117
  rw [compactGo_tree, runEr]
  dsimp only
  rw [decide_eq_false (by omega), cond_false]
  by_cases hb : b < revision
  · rw [decide_eq_true hb, cond_true, runEr_txs, Nat.zero_add, Nat.sub_zero, Int.min_eq_right (by omega)]
    rfl
  · rw [decide_eq_false hb, cond_false, runEr_txs, Nat.zero_add, Nat.sub_zero, Int.min_eq_left (by omega)]
    rfl

/-- If the compact revision cannot be read, that error is answered, and there is no transaction. -/
theorem C117_unread (retry : GoErr → Bool) (revision : Int) (ans : Nat → Option GoErr) (e : GoErr) :
    compact117 retry revision (.bad e) ans = some ⟨[erV (.err e)], 0, [], 0⟩ := by
  unfold compact117
  rw [compactGo_tree]
  rfl

/-- If it is not below the revision asked for, `nil` is answered, and there is no transaction. -/
theorem C117_nothing (retry : GoErr → Bool) (revision a b : Int) (ans : Nat → Option GoErr) (h : revision ≤ a) :
    compact117 retry revision (.row a b) ans = some ⟨[.nil], 0, [], 0⟩ := by
  unfold compact117
  rw [compactGo_tree, runEr]
  rw [decide_eq_true h]
  rfl

/-- If the first `n` transactions (fewer than 500) fail with errors worth another try and the next one succeeds, `nil` is answered after `n + 1`
transactions, each from the compact revision to the smaller of the revision asked for and the current one. -/
theorem C117_success (retry : GoErr → Bool) (revision a b : Int) (ans : Nat → Option GoErr) (h : a < revision) (n : Nat) (hn : n < 500)
    (hb : ∀ j < n, ∃ e, ans j = some e ∧ retry e = true) (hs : ans n = none) :
    compact117 retry revision (.row a b) ans = some ⟨[.nil], n + 1, txs117 (n + 1) a (min revision b), 0⟩ := by
  rw [run117 retry revision a b ans h, attemptLoop_stop ans retry 500 0 n none (Nat.zero_le n) (by omega) (fun j _ hj => hb j hj)
    (fun e he => by rw [hs] at he; cases he), hs]
  dsimp only
  rw [Nat.min_eq_left (by omega)]
  rfl

/-- If the first `n` fail with errors worth another try and the next one with an error that is not, that error is answered as it is, after `n + 1`
transactions. -/
theorem C117_failure (retry : GoErr → Bool) (revision a b : Int) (ans : Nat → Option GoErr) (h : a < revision) (n : Nat) (hn : n < 500) (e : GoErr)
    (hb : ∀ j < n, ∃ e, ans j = some e ∧ retry e = true) (hs : ans n = some e) (hr : retry e = false) :
    compact117 retry revision (.row a b) ans = some ⟨[erV (.err e)], n + 1, txs117 (n + 1) a (min revision b), 0⟩ := by
  rw [run117 retry revision a b ans h, attemptLoop_stop ans retry 500 0 n none (Nat.zero_le n) (by omega) (fun j _ hj => hb j hj)
    (fun e' he => by rw [hs] at he; cases he; exact hr), hs]
  dsimp only
  rw [Nat.min_eq_left (by omega)]
  rfl

/-- If 500 fail with errors worth another try, the last of the errors is answered, after 500 transactions. `C115_cases` says that there is no fourth
case. -/
theorem C117_exhausted (retry : GoErr → Bool) (revision a b : Int) (ans : Nat → Option GoErr) (h : a < revision) (e : GoErr)
    (hb : ∀ j < 500, ∃ e, ans j = some e ∧ retry e = true) (hs : ans 499 = some e) :
    compact117 retry revision (.row a b) ans = some ⟨[erV (.err e)], 500, txs117 500 a (min revision b), 0⟩ := by
  rw [run117 retry revision a b ans h, attemptLoop_out ans retry 500 0 none (fun j _ hj => hb j (by omega))]
  simp only [Nat.zero_add, hs]
  rfl

/-- The same as the model of C95 says: its error, and how often it tries. -/
theorem C117_model (retry : GoErr → Bool) (revision a b : Int) (ans : Nat → Option GoErr) (h : a < revision) :
    ∃ x, compact117 retry revision (.row a b) ans = some x ∧
      x.result = [match (tryCompactOp retry ans).err with | none => .nil | some e => erV (.err e)] ∧
      x.asked = min ((tryCompactOp retry ans).retryCount + 1) 500 :=
  ⟨_, run117 retry revision a b ans h, by
    show [lastErrV (attemptLoop retry ans 500 0 none).2] = [match (attemptLoop retry ans 500 0 none).2 with | none => .nil | some e => erV (.err e)]
    cases (attemptLoop retry ans 500 0 none).2 <;> rfl, rfl⟩

/-- The compact revision is 7, the current one 30, compaction to 40 is asked for: two times busy, then success. -/
theorem C117_example :
    compact117 dqliteRetry 40 (.row 7 30) (fun i => if i < 2 then some (.leaf (.dqlite 5) [98]) else none) = some ⟨[.nil], 3, txs117 3 7 30, 0⟩ :=
  C117_success _ 40 7 30 _ (by decide) 2 (by omega) (fun j hj => ⟨_, if_pos hj, by decide⟩) rfl

end Verif
