import Verif.Lemmas.GoErrorsRow
import Verif.Props.GoErrorsText
/-!
# C116: reading one row with the text of the code

`GetCompactRevision`, `CurrentRevision`, `GetSize` and `Count`, for every sequence of answers of the database and everything its rows can give.
-/

namespace Verif

open Verif.Go

/-- The operation. -/
inductive Read116 where
  | compact
  | current
  | size
  /-- of a driver with schema version `ver`, where the newest is `cur` -/
  | count (ver cur : Int) (key rangeEnd : Bytes) (revision : Int)

/-- Its text. -/
def Read116.run (r : Read116) (retry : GoErr → Bool) (ans : Nat → Option GoErr) (row : RowOut) : Option ErRun :=
  runEr ans row
    (match r with
      | .compact => getCompactGo retry
      | .current => currentGo retry
      | .size => getSizeGo retry
      | .count ver cur key rangeEnd revision => countGo retry ver cur key rangeEnd revision)
    0 [] 0

/-- The name of its query: `revision_interval_sql`, `rev_sql`, `get_size_sql`, `count_revision`. -/
def Read116.name : Read116 → String
  | .compact => "revision_interval_sql"
  | .current => "rev_sql"
  | .size => "get_size_sql"
  | .count .. => "count_revision"

/-- The same as bytes. -/
def Read116.label (r : Read116) : Bytes := r.name.toUTF8.toList

/-- Its numbers: two for `GetCompactRevision`, one for the others. -/
def Read116.numbers : Read116 → Int → Int → List V
  | .compact, a, b => [.int a, .int b]
  | .current, a, _ => [.int a]
  | .size, a, _ => [.int a]
  | .count .., a, _ => [.int a]

/-- Its failure: zeros and the error. -/
def Read116.failure (r : Read116) (e : GoErr) : List V := r.numbers 0 0 ++ [erV (.err e)]

/-- Its own error when there is no row. -/
def Read116.noRow : Read116 → GoErr
  | .compact => .leaf .plain "cannot get compact revision: aggregate query returned no rows".toUTF8.toList
  | .current => .leaf .plain "can't get current revision: aggregate query returned empty set".toUTF8.toList
  | .size => .leaf .plain "sql: no rows in result set".toUTF8.toList
  | .count .. => .leaf .plain "sql: no rows in result set".toUTF8.toList

/-- Its answer when the rows were opened. -/
def Read116.answer (r : Read116) : RowOut → List V
  | .row a b => r.numbers a b ++ [.nil]
  | .ended (some e) => r.failure e
  | .ended none => r.failure r.noRow
  | .bad e => r.failure e

/-- What it counts besides what its query counts. -/
def Read116.also : Read116 → Bool → List (Nm × Bytes × Bytes)
  | .compact, ok =>
    let l := if ok then lblSuccess else lblFail
    [(n!"metricsOpLatency", Read116.compact.label, l), (n!"metricsOpResult", Read116.compact.label, l), (n!"metricsTxResult", Read116.compact.label, l)]
  | .current, _ => []
  | .size, _ => []
  | .count .., _ => []

theorem label_compact : Read116.compact.label = nmInterval := by decide +kernel
theorem label_current : Read116.current.label = nmRev := by decide +kernel
theorem label_size : Read116.size.label = nmSize := by decide +kernel
theorem label_count (ver cur : Int) (key rangeEnd : Bytes) (revision : Int) : (Read116.count ver cur key rangeEnd revision).label = nmCount := by
  show "count_revision".toUTF8.toList = nmCount
  decide +kernel
theorem noRow_count (ver cur : Int) (key rangeEnd : Bytes) (revision : Int) :
    (Read116.count ver cur key rangeEnd revision).noRow = .leaf .plain txtNoRows := by
  unfold Read116.noRow
  dsimp only
  congr 1
  decide +kernel
theorem noRow_size : Read116.size.noRow = .leaf .plain txtNoRows := by
  unfold Read116.noRow
  dsimp only
  congr 1
  decide +kernel

theorem run116 (r : Read116) (retry : GoErr → Bool) (ans : Nat → Option GoErr) (row : RowOut) :
    r.run retry ans row =
      let q := attemptLoop retry ans 500 0 none
      some ⟨match q.2 with | none => r.answer row | some e => r.failure (.wrap (Op115.query.pre q.1) e []), min (q.1 + 1) 500,
        counts115 r.label q.2.isNone ++ r.also q.2.isNone, if q.2.isNone then 1 else 0⟩ := by
  cases r with
  | compact =>
    unfold Read116.run Read116.also
    dsimp only
    rw [label_compact, getCompactGo_tree, runEr_op]
    cases (attemptLoop retry ans 500 0 none).2 with
    | none =>
      cases row with
      | row a b => rfl
      | ended e => cases e <;> rfl
      | bad e => rfl
    | some e => rfl
  | current =>
    unfold Read116.run Read116.also
    dsimp only
    rw [label_current, currentGo_tree, runEr_op]
    cases (attemptLoop retry ans 500 0 none).2 with
    | none =>
      cases row with
      | row a b => rfl
      | ended e => cases e <;> rfl
      | bad e => rfl
    | some e => rfl
  | size =>
    unfold Read116.run Read116.also
    dsimp only
    rw [label_size, getSizeGo_tree, runEr_op]
    cases (attemptLoop retry ans 500 0 none).2 with
    | none =>
      cases row with
      | row a b => rfl
      | ended e =>
        cases e with
        | none => unfold Read116.answer; dsimp only; rw [noRow_size]; rfl
        | some e => rfl
      | bad e => rfl
    | some e => rfl
  | count ver cur key rangeEnd revision =>
    unfold Read116.run Read116.also
    dsimp only
    rw [label_count, countGo_tree, runEr_op]
    cases (attemptLoop retry ans 500 0 none).2 with
    | none =>
      cases row with
      | row a b => rfl
      | ended e =>
        cases e with
        | none => unfold Read116.answer; dsimp only; rw [noRow_count]; rfl
        | some e => rfl
      | bad e => rfl
    | some e => rfl

/-- If the first `n` answers (fewer than 500) are errors worth another try and the next one is success, the numbers of the row, or the error of reading
it, are answered, and the rows have been closed once. -/
theorem C116_read (r : Read116) (retry : GoErr → Bool) (ans : Nat → Option GoErr) (row : RowOut) (n : Nat) (hn : n < 500)
    (hb : ∀ j < n, ∃ e, ans j = some e ∧ retry e = true) (hs : ans n = none) :
    r.run retry ans row = some ⟨r.answer row, n + 1, counts115 r.label true ++ r.also true, 1⟩ := by
  rw [run116, attemptLoop_stop ans retry 500 0 n none (Nat.zero_le n) (by omega) (fun j _ hj => hb j hj) (fun e he => by rw [hs] at he; cases he), hs]
  dsimp only
  rw [Nat.min_eq_left (by omega)]
  rfl

/-- If the first `n` answers are errors worth another try and the next one is an error that is not, that error is answered, and no rows were closed. -/
theorem C116_failure (r : Read116) (retry : GoErr → Bool) (ans : Nat → Option GoErr) (row : RowOut) (n : Nat) (hn : n < 500) (e : GoErr)
    (hb : ∀ j < n, ∃ e, ans j = some e ∧ retry e = true) (hs : ans n = some e) (hr : retry e = false) :
    r.run retry ans row = some ⟨r.failure (.wrap (Op115.query.pre n) e []), n + 1, counts115 r.label false ++ r.also false, 0⟩ := by
  rw [run116, attemptLoop_stop ans retry 500 0 n none (Nat.zero_le n) (by omega) (fun j _ hj => hb j hj)
    (fun e' he => by rw [hs] at he; cases he; exact hr), hs]
  dsimp only
  rw [Nat.min_eq_left (by omega)]
  rfl

/-- If 500 answers are errors worth another try, the last of them is answered. `C115_cases` says that there is no fourth case. -/
theorem C116_exhausted (r : Read116) (retry : GoErr → Bool) (ans : Nat → Option GoErr) (row : RowOut) (e : GoErr)
    (hb : ∀ j < 500, ∃ e, ans j = some e ∧ retry e = true) (hs : ans 499 = some e) :
    r.run retry ans row = some ⟨r.failure (.wrap (Op115.query.pre 500) e []), 500, counts115 r.label false ++ r.also false, 0⟩ := by
  rw [run116, attemptLoop_out ans retry 500 0 none (fun j _ hj => hb j (by omega))]
  simp only [Nat.zero_add, hs]
  rfl

/-- How often the text counted in a counter, with a name and a result. -/
def counted116 (x : ErRun) (c : Counter) (name : String) (ok : Bool) : Nat :=
  (x.counts.filter fun y => decide (y = (match c with | .tx => n!"metricsTxResult" | .op => n!"metricsOpResult", name.toUTF8.toList,
    if ok then lblSuccess else lblFail))).length

/-- What reading the row says to the model of C96. -/
def Read116.rowErr (r : Read116) : RowOut → RowErr
  | .row _ _ => none
  | .ended (some e) => some e
  | .ended none => some r.noRow
  | .bad e => some e

/-- The operation in the model of C96. -/
def Read116.model (r : Read116) (retry : GoErr → Bool) (ans : Nat → Option GoErr) (row : RowOut) : OpReport :=
  match r with
  | .compact => getCompactRevisionOp retry Op115.query.pre ans (r.rowErr row)
  | .current => oneRowOp retry Op115.query.pre r.name ans (r.rowErr row)
  | .size => oneRowOp retry Op115.query.pre r.name ans (r.rowErr row)
  | .count .. => oneRowOp retry Op115.query.pre r.name ans (r.rowErr row)

/-- Both in terms of where the attempts stopped. -/
theorem model116 (r : Read116) (pre : Nat → Bytes) (row : RowOut) (n : Nat) (l : Option GoErr) (R C : OpReport) (x : ErRun)
    (hC : C = { err := l.map fun e => GoErr.wrap (pre n) e [], retryCount := n, counts := [⟨.tx, r.name, l.isNone⟩, ⟨.op, r.name, l.isNone⟩] })
    (hR : R = match r with
      | .compact => OpReport.mk (if C.err.isSome then C.err else r.rowErr row) C.retryCount
          (C.counts ++ [⟨.op, r.name, C.err.isNone⟩, ⟨.tx, r.name, C.err.isNone⟩])
      | _ => { C with err := if C.err.isSome then C.err else r.rowErr row })
    (hx : x = ⟨match l with | none => r.answer row | some e => r.failure (.wrap (pre n) e []), min (n + 1) 500,
      counts115 r.label l.isNone ++ r.also l.isNone, if l.isNone then 1 else 0⟩) :
    (∀ e, R.err = some e → x.result = r.failure e) ∧ (R.err = none → ∃ a b, row = .row a b ∧ x.result = r.numbers a b ++ [.nil]) ∧
      x.asked = min (R.retryCount + 1) 500 ∧ ∀ c ok, counted116 x c r.name ok = R.count c r.name ok := by
  subst hC
  subst hR
  subst hx
  refine ⟨fun e he => ?_, fun he => ?_, by cases r <;> rfl, fun c ok => ?_⟩
  · cases l with
    | some e' => cases r <;> cases he <;> rfl
    | none =>
      cases row with
      | row a b => cases r <;> cases he
      | ended e' => cases e' <;> cases r <;> cases he <;> rfl
      | bad e' => cases r <;> cases he <;> rfl
  · cases l with
    | some e' => cases r <;> cases he
    | none =>
      cases row with
      | row a b => exact ⟨a, b, rfl, rfl⟩
      | ended e' => cases e' <;> cases r <;> cases he
      | bad e' => cases r <;> cases he
  · cases r <;> cases l <;> cases c <;> cases ok <;> kernel_rfl

/-- The same as the model of C96 says: its error, how often the database was asked, and its counts. -/
theorem C116_model (r : Read116) (retry : GoErr → Bool) (ans : Nat → Option GoErr) (row : RowOut) :
    ∃ x, r.run retry ans row = some x ∧
      (∀ e, (r.model retry ans row).err = some e → x.result = r.failure e) ∧
      ((r.model retry ans row).err = none → ∃ a b, row = .row a b ∧ x.result = r.numbers a b ++ [.nil]) ∧
      x.asked = min ((r.model retry ans row).retryCount + 1) 500 ∧
      ∀ c ok, counted116 x c r.name ok = (r.model retry ans row).count c r.name ok := by
  refine ⟨_, run116 r retry ans row, ?_⟩
  refine model116 r Op115.query.pre row _ _ _ (driverOp retry Op115.query.pre r.name ans) _ ?_ ?_ rfl
  · simp only [driverOp, maxRetries, resultLabel, Option.isNone_map]
  · cases r <;> rfl

/-- How often the outcome is counted: `GetCompactRevision` counts it a second time. -/
def Read116.times : Read116 → Nat
  | .compact => 2
  | .current => 1
  | .size => 1
  | .count .. => 1

/-- What is counted is what is answered, if the rows, once opened, can be read. Missing: rows that cannot be read (`C116_counterexample`). -/
theorem C116_counted_partial (r : Read116) (retry : GoErr → Bool) (ans : Nat → Option GoErr) (a b : Int) :
    ∃ x, r.run retry ans (.row a b) = some x ∧
      ((x.result = r.numbers a b ++ [.nil] ∧ ∀ c ok, counted116 x c r.name ok = if ok then r.times else 0) ∨
        ∃ e, x.result = r.failure e ∧ ∀ c ok, counted116 x c r.name ok = if ok then 0 else r.times) := by
  refine ⟨_, run116 r retry ans (.row a b), ?_⟩
  dsimp only
  cases (attemptLoop retry ans 500 0 none).2 with
  | none => exact .inl ⟨by cases r <;> rfl, fun c ok => by cases r <;> cases c <;> cases ok <;> kernel_rfl⟩
  | some e => exact .inr ⟨_, rfl, fun c ok => by cases r <;> cases c <;> cases ok <;> kernel_rfl⟩

/-- Counterexample to the full statement about counting. `GetCompactRevision` that cannot read its row answers the error and counts two successes in both counters, and no failure: the error that is counted
is not the one that is answered. -/
theorem C116_counterexample (retry : GoErr → Bool) (e : GoErr) :
    ∃ x, Read116.compact.run retry (fun _ => none) (.bad e) = some x ∧ x.result = [.int 0, .int 0, erV (.err e)] ∧
      ∀ c, counted116 x c "revision_interval_sql" true = 2 ∧ counted116 x c "revision_interval_sql" false = 0 := by
  refine ⟨_, C116_read .compact retry _ _ 0 (by omega) (fun j hj => absurd hj (Nat.not_lt_zero j)) rfl, rfl, fun c => ?_⟩
  cases c <;> exact ⟨by kernel_rfl, by kernel_rfl⟩

/-- Two times busy, then a row. -/
theorem C116_example :
    Read116.compact.run dqliteRetry (fun i => if i < 2 then some (.leaf (.dqlite 5) [98]) else none) (.row 7 9) =
      some ⟨[.int 7, .int 9, .nil], 3, counts115 Read116.compact.label true ++ Read116.compact.also true, 1⟩ :=
  C116_read .compact _ _ _ 2 (by omega) (fun j hj => ⟨_, if_pos hj, by decide⟩) rfl

end Verif
