import Verif.Lemmas.GoErrors
import Verif.Props.Errors
/-!
# C115: retrying and counting with the text of the code

`query`, `execute`, the two functions that say which errors are worth another try, and the functions that count, for every sequence of answers of the
database.
-/

namespace Verif

open Verif.Go

/-! ### Which errors are worth another try -/

/-- `dqliteRetry` says what the model of C95 and C96 says. -/
theorem C115_dqlite_retry (e : GoErr) : dqliteRetryGo e = .ret [.bool (dqliteRetry e)] := by
  rw [dqliteRetryGo_tree]
  unfold dqliteRetry saysEr
  cases e.asDqlite with
  | some c => rfl
  | none =>
    cases e.isErrNo errLocked <;> cases e.isErrNo errBusy <;> cases containsBytes e.text txtLocked <;> cases containsBytes e.text txtNested <;>
      cases containsBytes e.text txtBadConn <;> cases containsBytes e.text txtCheckpoint <;> rfl

/-- The function that is used without dqlite says what the model says. -/
theorem C115_default_retry (e : GoErr) : defaultRetryGo e = .ret [.bool (sqliteRetry e)] := by
  rw [defaultRetryGo_tree]
  unfold sqliteRetry saysEr
  cases e.asSqlite <;> rfl

theorem says_iff {b : Bool} : (Er.ret [.bool b] = Er.ret [.bool true]) ↔ b = true := by
  constructor
  · intro h; injection h with h; injection h with h; injection h
  · intro h; rw [h]

/-- With dqlite, the text says "again" for exactly the errors that C95 says are worth another try, and otherwise it says "no". -/
theorem C115_dqlite_retry_iff (e : GoErr) :
    (dqliteRetryGo e = .ret [.bool true] ↔ ShouldRetry e) ∧ (dqliteRetryGo e = .ret [.bool false] ↔ ¬ ShouldRetry e) := by
  rw [C115_dqlite_retry, says_iff, ← C95_retry]
  refine ⟨Iff.rfl, ?_⟩
  cases dqliteRetry e <;> simp

/-- Without dqlite, for exactly the errors that are "busy" of SQLite. -/
theorem C115_default_retry_iff (e : GoErr) :
    (defaultRetryGo e = .ret [.bool true] ↔ e.root = .sqlite 5) ∧ (defaultRetryGo e = .ret [.bool false] ↔ ¬ e.root = .sqlite 5) := by
  rw [C115_default_retry, says_iff, ← C95_retry_sqlite]
  refine ⟨Iff.rfl, ?_⟩
  cases sqliteRetry e <;> simp

/-! ### Attempts -/

/-- The operation: `query` or `execute`. -/
inductive Op115 where
  | query
  | exec

/-- Its text. -/
def Op115.run (op : Op115) (retry : GoErr → Bool) (ans : Nat → Option GoErr) (name sql : Bytes) (args : List V) : Option ErRun :=
  runEr ans (.ended none) (match op with | .query => queryGo retry name sql args | .exec => executeGo retry name sql args) 0 [] 0

/-- What it answers when the database has done what it was asked. -/
def Op115.value : Op115 → V
  | .query => erV .rows
  | .exec => erV .result

/-- The beginning of the text of its errors: `query (try: n): `, `exec (try: n): `. -/
def Op115.pre (op : Op115) (n : Nat) : Bytes :=
  ((match op with
    | .query => [113, 117, 101, 114, 121]
    | .exec => [101, 120, 101, 99]) : Bytes) ++ [32, 40, 116, 114, 121, 58, 32] ++ decimal n ++ [41, 58, 32]

/-- What it counts: one transaction, one latency, one operation, all with the same label. -/
def counts115 (name : Bytes) (ok : Bool) : List (Nm × Bytes × Bytes) :=
  let l := if ok then lblSuccess else lblFail
  [(n!"metricsTxResult", name, l), (n!"metricsOpLatency", name, l), (n!"metricsOpResult", name, l)]

theorem run115 (op : Op115) (retry : GoErr → Bool) (ans : Nat → Option GoErr) (name sql : Bytes) (args : List V) :
    op.run retry ans name sql args =
      let r := attemptLoop retry ans 500 0 none
      some ⟨match r.2 with | none => [op.value, .nil] | some e => [.nil, erV (.err (.wrap (op.pre r.1) e []))], min (r.1 + 1) 500, counts115 name r.2.isNone, 0⟩ := by
  cases op with
  | query =>
    unfold Op115.run
    dsimp only
    rw [queryGo, query_run, runEr_op]
    cases (attemptLoop retry ans 500 0 none).2 <;> rfl
  | exec =>
    unfold Op115.run
    dsimp only
    rw [executeGo, execute_run, runEr_op]
    cases (attemptLoop retry ans 500 0 none).2 <;> rfl

/-- If the first `n` answers (fewer than 500) are errors worth another try and the next one is success, the operation succeeds after `n + 1` questions. -/
theorem C115_success (op : Op115) (retry : GoErr → Bool) (ans : Nat → Option GoErr) (name sql : Bytes) (args : List V) (n : Nat) (hn : n < 500)
    (hb : ∀ j < n, ∃ e, ans j = some e ∧ retry e = true) (hs : ans n = none) :
    op.run retry ans name sql args = some ⟨[op.value, .nil], n + 1, counts115 name true, 0⟩ := by
  rw [run115, attemptLoop_stop ans retry 500 0 n none (Nat.zero_le n) (by omega) (fun j _ hj => hb j hj) (fun e he => by rw [hs] at he; cases he), hs]
  dsimp only
  rw [Nat.min_eq_left (by omega)]
  rfl

/-- If the first `n` answers are errors worth another try and the next one is an error that is not, that error is answered, with the number of errors
before it, after `n + 1` questions. -/
theorem C115_failure (op : Op115) (retry : GoErr → Bool) (ans : Nat → Option GoErr) (name sql : Bytes) (args : List V) (n : Nat) (hn : n < 500) (e : GoErr)
    (hb : ∀ j < n, ∃ e, ans j = some e ∧ retry e = true) (hs : ans n = some e) (hr : retry e = false) :
    op.run retry ans name sql args = some ⟨[.nil, erV (.err (.wrap (op.pre n) e []))], n + 1, counts115 name false, 0⟩ := by
  rw [run115, attemptLoop_stop ans retry 500 0 n none (Nat.zero_le n) (by omega) (fun j _ hj => hb j hj)
    (fun e' he => by rw [hs] at he; cases he; exact hr), hs]
  dsimp only
  rw [Nat.min_eq_left (by omega)]
  rfl

/-- If 500 answers are errors worth another try, the last of them is answered, after 500 questions. -/
theorem C115_exhausted (op : Op115) (retry : GoErr → Bool) (ans : Nat → Option GoErr) (name sql : Bytes) (args : List V) (e : GoErr)
    (hb : ∀ j < 500, ∃ e, ans j = some e ∧ retry e = true) (hs : ans 499 = some e) :
    op.run retry ans name sql args = some ⟨[.nil, erV (.err (.wrap (op.pre 500) e []))], 500, counts115 name false, 0⟩ := by
  rw [run115, attemptLoop_out ans retry 500 0 none (fun j _ hj => hb j (by omega))]
  simp only [Nat.zero_add, hs]
  rfl

/-- One of the three always holds. -/
theorem C115_cases (retry : GoErr → Bool) (ans : Nat → Option GoErr) :
    (∃ n < 500, (∀ j < n, ∃ e, ans j = some e ∧ retry e = true) ∧ (ans n = none ∨ ∃ e, ans n = some e ∧ retry e = false)) ∨
      ∀ j < 500, ∃ e, ans j = some e ∧ retry e = true := by
  suffices h : ∀ N : Nat, (∃ n < N, (∀ j < n, ∃ e, ans j = some e ∧ retry e = true) ∧ (ans n = none ∨ ∃ e, ans n = some e ∧ retry e = false)) ∨
      ∀ j < N, ∃ e, ans j = some e ∧ retry e = true from h 500
  intro N
  induction N with
  | zero => exact .inr fun j hj => absurd hj (Nat.not_lt_zero j)
  | succ N ih =>
    rcases ih with ⟨n, hn, h⟩ | h
    · exact .inl ⟨n, by omega, h⟩
    · cases ha : ans N with
      | none => exact .inl ⟨N, by omega, h, .inl ha⟩
      | some e =>
        cases hr : retry e with
        | false => exact .inl ⟨N, by omega, h, .inr ⟨e, ha, hr⟩⟩
        | true =>
          right
          intro j hj
          by_cases hj' : j = N
          · subst hj'; exact ⟨e, ha, hr⟩
          · exact h j (by omega)

/-- The same as the model of C95 and C96 says: its error, and its counts without the latencies. -/
theorem C115_model (op : Op115) (retry : GoErr → Bool) (ans : Nat → Option GoErr) (name : String) (sql : Bytes) (args : List V) (bytes : Bytes) :
    op.run retry ans bytes sql args =
      some ⟨match (driverOp retry op.pre name ans).err with | none => [op.value, .nil] | some e => [.nil, erV (.err e)],
        min ((driverOp retry op.pre name ans).retryCount + 1) 500,
        counts115 bytes (driverOp retry op.pre name ans).err.isNone, 0⟩ := by
  rw [run115]
  unfold driverOp maxRetries
  dsimp only
  cases (attemptLoop retry ans 500 0 none).2 <;> rfl

/-- An error of SQLite inside the error of go-dqlite that wraps it: two times busy, then success. -/
theorem C115_example :
    Op115.exec.run dqliteRetry (fun i => if i < 2 then some (.wrap [97] (.leaf (.dqlite 5) [98]) []) else none) [110] [115] [] =
      some ⟨[erV .result, .nil], 3, counts115 [110] true, 0⟩ :=
  C115_success .exec _ _ _ _ _ 2 (by omega) (fun j hj => ⟨_, if_pos hj, by decide⟩) rfl

end Verif
