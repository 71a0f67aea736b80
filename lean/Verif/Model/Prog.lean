import Verif.Model.Sql
/-!
# Requests as programs of atomic database statements

Go code that talks to the database is modelled as a tree: each node is one atomic SQL statement (or one SQL
transaction), and what the code does next depends on the outcome of that statement and on what it read.
Between two statements of one request anything may happen: statements of other requests, other nodes, or a
crash.
-/

namespace Verif

/-- Errors of the SQL layer as the code distinguishes them: `busy` stands for every error accepted by the
`Retry` predicate (`/repo/pkg/backend/dqlite/driver.go:67-95`, `/repo/pkg/backend/sqlite/driver.go:303-309`),
`canceled` for `context.Canceled`, `deadline` for `context.DeadlineExceeded`
(`/repo/pkg/backend/internal/backend/watcher.go`), `other` for the rest. -/
inductive DbErr where
  | busy
  | canceled
  | deadline
  | other
deriving DecidableEq, Repr

/-- `d.config.Retry(err)`. -/
def DbErr.retry : DbErr → Bool
  | .busy => true
  | _ => false

/-- What happens to one statement.
* `ok`: executed, result delivered;
* `trunc n`: (queries) the cursor breaks after `n` rows; `rows.Next()` then returns false and only
  `rows.Err()` would tell;
* `fail e`: not executed (or rolled back), error `e`;
* `lost e`: executed and committed, but the caller gets error `e`. -/
inductive Outcome where
  | ok
  | trunc (n : Nat)
  | fail (e : DbErr)
  | lost (e : DbErr)
deriving DecidableEq, Repr

/-- Did the statement take effect? -/
def Outcome.applied : Outcome → Bool
  | .fail _ => false
  | _ => true

/-- A program of atomic statements. `eff` is the effect on the database; the continuation receives the
outcome and the database the statement was executed on. -/
inductive Prog (α : Type) where
  | ret (a : α) : Prog α
  | stmt (eff : DB → DB) (k : Outcome → DB → Prog α) : Prog α

namespace Prog

/-- Sequential composition. -/
def bind {α β : Type} : Prog α → (α → Prog β) → Prog β
  | ret a, f => f a
  | stmt eff k, f => stmt eff fun o db => (k o db).bind f

/-- Go's `if err != nil { return err }`: continue with the value, or return the error. -/
def andThen {ε α β : Type} (p : Prog (Except ε α)) (f : α → Prog (Except ε β)) :
    Prog (Except ε β) :=
  p.bind fun
    | .ok a => f a
    | .error e => ret (.error e)

/-- Post-process the result. -/
def map {α β : Type} (f : α → β) (p : Prog α) : Prog β := p.bind fun a => ret (f a)

end Prog

/-- Errors returned by the API. -/
inductive ApiErr where
  | db (e : DbErr)
  | compacted
  | unsupported
  | nullScan
deriving DecidableEq, Repr

/-- `const maxRetries = 500` (`/repo/pkg/backend/sqlite/driver.go:279`). -/
def maxRetries : Nat := 500

/-- The retry loop of `(*Driver).query` (`driver.go:405-440`): on success it returns the cursor, i.e. the
selected value and, when the cursor breaks, after how many rows. When the attempts are used up the last
(retryable) error is returned. -/
def queryLoop {β : Type} (sel : DB → β) : Nat → Prog (Except ApiErr (β × Option Nat))
  | 0 => .ret (.error (.db .busy))
  | n + 1 => .stmt id fun o db =>
    match o with
    | .ok => .ret (.ok (sel db, none))
    | .trunc m => .ret (.ok (sel db, some m))
    | .fail e => if e.retry then queryLoop sel n else .ret (.error (.db e))
    | .lost e => if e.retry then queryLoop sel n else .ret (.error (.db e))

/-- `(*Driver).query` (`driver.go:405-440`). -/
def query {β : Type} (sel : DB → β) : Prog (Except ApiErr (β × Option Nat)) :=
  queryLoop sel maxRetries

/-- The retry loop of `(*Driver).execute` (`driver.go:442-478`). -/
def executeLoop (st : DB → DB × ExecResult) : Nat → Prog (Except ApiErr ExecResult)
  | 0 => .ret (.error (.db .busy))
  | n + 1 => .stmt (fun db => (st db).1) fun o db =>
    match o with
    | .ok => .ret (.ok (st db).2)
    | .trunc _ => .ret (.ok (st db).2)
    | .fail e => if e.retry then executeLoop st n else .ret (.error (.db e))
    | .lost e => if e.retry then executeLoop st n else .ret (.error (.db e))

/-- `(*Driver).execute` (`driver.go:442-478`). -/
def execute (st : DB → DB × ExecResult) : Prog (Except ApiErr ExecResult) := executeLoop st maxRetries

/-- `ScanAll` (`/repo/pkg/backend/internal/backend/utils.go:11-24`): collects what `rows.Next()` delivers
and never looks at `rows.Err()`, so a broken cursor just ends the list. -/
def scanAll {α β : Type} (scanOne : α → β) (rows : List α × Option Nat) : List β :=
  match rows.2 with
  | none => rows.1.map scanOne
  | some n => (rows.1.take n).map scanOne

/-- Reading the single row of an aggregate query (`driver.go:495-506,694-705,759-770`): here a broken
cursor is noticed. -/
def oneRow {α : Type} (r : α × Option Nat) : Prog (Except ApiErr α) :=
  match r.2 with
  | some 0 => .ret (.error (.db .other))
  | _ => .ret (.ok r.1)

end Verif
