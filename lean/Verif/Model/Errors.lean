import Verif.Model.Prog
/-!
# Errors of the database as Go values, retrying, and the counters

`/repo/pkg/backend/dqlite/driver.go:67-95`, `/repo/pkg/backend/sqlite/driver.go:303-309,405-478,607-613,675-708`,
`/repo/pkg/backend/sqlite/metrics.go`. `Verif.Model.Prog` only distinguishes retryable errors (`DbErr.busy`), cancellation, an
exceeded deadline and others; here is the code that tells them apart. Joined errors (`errors.Join`) are not modelled; nothing in the
database layers joins errors.
-/

namespace Verif

/-- What the innermost error is. -/
inductive ErrKind where
  /-- `driver.Error` of go-dqlite, with its code -/
  | dqlite (code : Int)
  /-- the structure `sqlite3.Error`, with its code -/
  | sqlite (code : Int)
  /-- a bare `sqlite3.ErrNo` -/
  | errNo (code : Int)
  /-- `context.Canceled` -/
  | canceled
  /-- `context.DeadlineExceeded` -/
  | deadline
  /-- anything else, for example `driver.ErrBadConn` of `database/sql` -/
  | plain
deriving DecidableEq, Repr

/-- An `error`: an innermost one with its text, wrapped any number of times by `fmt.Errorf("… %w …")`. -/
inductive GoErr where
  | leaf (kind : ErrKind) (text : Bytes)
  | wrap (before : Bytes) (inner : GoErr) (after : Bytes)
deriving DecidableEq, Repr

/-- `err.Error()`. -/
def GoErr.text : GoErr → Bytes
  | .leaf _ t => t
  | .wrap b e a => b ++ e.text ++ a

/-- `errors.As(err, &e)` with `e` of type `driver.Error`: the code found on the way inside. -/
def GoErr.asDqlite : GoErr → Option Int
  | .leaf (.dqlite c) _ => some c
  | .leaf _ _ => none
  | .wrap _ e _ => e.asDqlite

/-- `errors.As(err, &e)` with `e` of type `sqlite3.Error`. -/
def GoErr.asSqlite : GoErr → Option Int
  | .leaf (.sqlite c) _ => some c
  | .leaf _ _ => none
  | .wrap _ e _ => e.asSqlite

/-- `errors.Is(err, sqlite3.ErrNo(n))`. -/
def GoErr.isErrNo (n : Int) : GoErr → Bool
  | .leaf (.errNo c) _ => c = n
  | .leaf _ _ => false
  | .wrap _ e _ => e.isErrNo n

/-- `errors.Is(err, context.Canceled)` -/
def GoErr.isCanceled : GoErr → Bool
  | .leaf k _ => k = .canceled
  | .wrap _ e _ => e.isCanceled

/-- `errors.Is(err, context.DeadlineExceeded)` -/
def GoErr.isDeadline : GoErr → Bool
  | .leaf k _ => k = .deadline
  | .wrap _ e _ => e.isDeadline

/-- `strings.Contains` (standard library). -/
def containsBytes (s sub : Bytes) : Bool :=
  match s with
  | [] => sub.isPrefixOf []
  | c :: s => sub.isPrefixOf (c :: s) || containsBytes s sub

/-- `driver.ErrBusy` and `sqlite3.ErrBusy` (`SQLITE_BUSY`) -/
def errBusy : Int := 5
/-- `sqlite3.ErrLocked` (`SQLITE_LOCKED`) -/
def errLocked : Int := 6

/-- `"database is locked"` (`dqlite/driver.go:78`) -/
def txtLocked : Bytes := [100, 97, 116, 97, 98, 97, 115, 101, 32, 105, 115, 32, 108, 111, 99, 107, 101, 100]
/-- `"cannot start a transaction within a transaction"` (`dqlite/driver.go:82`) -/
def txtNested : Bytes :=
  [99, 97, 110, 110, 111, 116, 32, 115, 116, 97, 114, 116, 32, 97, 32, 116, 114, 97, 110, 115, 97, 99, 116, 105, 111, 110,
   32, 119, 105, 116, 104, 105, 110, 32, 97, 32, 116, 114, 97, 110, 115, 97, 99, 116, 105, 111, 110]
/-- `"bad connection"` (`dqlite/driver.go:86`) -/
def txtBadConn : Bytes := [98, 97, 100, 32, 99, 111, 110, 110, 101, 99, 116, 105, 111, 110]
/-- `"checkpoint in progress"` (`dqlite/driver.go:90`) -/
def txtCheckpoint : Bytes :=
  [99, 104, 101, 99, 107, 112, 111, 105, 110, 116, 32, 105, 110, 32, 112, 114, 111, 103, 114, 101, 115, 115]

/-- `dqliteRetry` (`dqlite/driver.go:67-95`). -/
def dqliteRetry (err : GoErr) : Bool :=
  match err.asDqlite with
  | some code => code = errBusy
  | none =>
    if err.isErrNo errLocked || err.isErrNo errBusy then true
    else if containsBytes err.text txtLocked then true
    else if containsBytes err.text txtNested then true
    else if containsBytes err.text txtBadConn then true
    else if containsBytes err.text txtCheckpoint then true
    else false

/-- The default of `Retry` (`sqlite/driver.go:303-309`). -/
def sqliteRetry (err : GoErr) : Bool :=
  match err.asSqlite with
  | some code => code = errBusy
  | none => false

/-- What `Verif.Model.Prog` calls the error. -/
def classify (retry : GoErr → Bool) (err : GoErr) : DbErr :=
  if retry err then .busy else if err.isCanceled then .canceled else if err.isDeadline then .deadline else .other

/-- The loop of `query` and `execute` (`sqlite/driver.go:423-436,461-474`): `ans i` is what the database answers at attempt
`i` (`none`: success). Returns `retryCount` and `err`. -/
def attemptLoop (retry : GoErr → Bool) (ans : Nat → Option GoErr) : Nat → Nat → Option GoErr → Nat × Option GoErr
  | 0, i, last => (i, last)
  | n + 1, i, _ =>
    match ans i with
    | none => (i, none)
    | some e => if !retry e then (i, some e) else attemptLoop retry ans n (i + 1) (some e)

/-- The counters (`metrics.go:9-21`). The histogram of latencies counts like `op`, and the gauge of current
operations is never changed. -/
inductive Counter where
  /-- `k8s_dqlite_generic_tx_result` -/
  | tx
  /-- `k8s_dqlite_generic_op_result` -/
  | op
deriving DecidableEq, Repr

/-- One increment: counter, `tx_name`, and whether `result` is "success". -/
structure Count1 where
  counter : Counter
  name : String
  success : Bool
deriving DecidableEq, Repr

/-- What an operation of the driver did: its error, how often the database was asked, and the counts, in order. -/
structure OpReport where
  err : Option GoErr
  retryCount : Nat
  counts : List Count1
deriving DecidableEq, Repr

/-- `errorToResultLabel` (`metrics.go:29-34`). -/
def resultLabel (err : Option GoErr) : Bool := err.isNone

/-- `(*Driver).query` (`sqlite/driver.go:405-440`) with `kind = "query"`, `(*Driver).execute` (`sqlite/driver.go:442-478`) with
`kind = "exec"`. `pre` is the text `"<kind> (try: <n>): "` for the number `n`. -/
def driverOp (retry : GoErr → Bool) (pre : Nat → Bytes) (name : String) (ans : Nat → Option GoErr) : OpReport :=
  let r := attemptLoop retry ans maxRetries 0 none
  let err := r.2.map fun e => GoErr.wrap (pre r.1) e []
  { err := err, retryCount := r.1, counts := [⟨.tx, name, resultLabel r.2⟩, ⟨.op, name, resultLabel err⟩] }

/-- What reading the one row of an aggregate query says (`sqlite/driver.go:694-705`): `none`: it was read. -/
abbrev RowErr := Option GoErr

/-- `GetCompactRevision` (`sqlite/driver.go:675-708`): the deferred function counts once more what `query` has counted, and it
does not see the errors of reading the row, whose variables shadow `err`. -/
def getCompactRevisionOp (retry : GoErr → Bool) (pre : Nat → Bytes) (ans : Nat → Option GoErr) (row : RowErr) : OpReport :=
  let q := driverOp retry pre "revision_interval_sql" ans
  { err := if q.err.isSome then q.err else row, retryCount := q.retryCount,
    counts := q.counts ++ [⟨.op, "revision_interval_sql", resultLabel q.err⟩, ⟨.tx, "revision_interval_sql", resultLabel q.err⟩] }

/-- `Count`, `CurrentRevision`, `GetSize` (`sqlite/driver.go:480-507,745-770,789-809`): one query, and one row to be read. -/
def oneRowOp (retry : GoErr → Bool) (pre : Nat → Bytes) (name : String) (ans : Nat → Option GoErr) (row : RowErr) : OpReport :=
  let q := driverOp retry pre name ans
  { q with err := if q.err.isSome then q.err else row }

/-- The transactions of `Compact` (`sqlite/driver.go:607-613`): nothing is counted. -/
def tryCompactOp (retry : GoErr → Bool) (ans : Nat → Option GoErr) : OpReport :=
  let r := attemptLoop retry ans maxRetries 0 none
  { err := r.2, retryCount := r.1, counts := [] }

end Verif
