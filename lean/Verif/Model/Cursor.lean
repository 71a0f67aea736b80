import Verif.Model.Bytes
/-!
# Who closes the rows of a query

`/repo/pkg/backend/internal/backend/utils.go:11-24`, `/repo/pkg/backend/sqlite/driver.go:480-507,675-708,745-770,789-809`,
`/repo/pkg/backend/internal/backend/{backend.go,watcher.go,ttl.go}`.

The rows of a query hold a connection of the pool until they are closed. Here a function is the tree of what it does with them; what
`database/sql` answers is chosen by the environment. Of `database/sql` is assumed: a query that fails holds nothing; `Next` closes the rows
when it returns false, whatever the reason; `Scan` and `Err` do not close; `Close` does, also if it was closed before.
-/

namespace Verif

/-- What is done with rows. Outcomes: `query`, `scan`, `err`: no error; `next`: there is a row. -/
inductive CursorOp where
  | query
  | next
  | scan
  | err
  | close
deriving DecidableEq, Repr

/-- A function that uses rows. -/
inductive CursorProg where
  | ret
  | call (op : CursorOp) (k : Bool → CursorProg)

/-- `defer rows.Close()`: whenever the function returns, the rows are closed then. -/
def CursorProg.deferClose : CursorProg → CursorProg
  | .ret => .call .close fun _ => .ret
  | .call op k => .call op fun b => (k b).deferClose

/-- Whether the rows are open after an operation. -/
def CursorOp.after (op : CursorOp) (outcome : Bool) (opened : Bool) : Bool :=
  match op, outcome with
  | .query, true => true
  | .query, false => opened
  | .next, false => false
  | .close, _ => false
  | _, _ => opened

/-- The loop of `ScanAll` (`utils.go:15-21`), for at most `n` rows. -/
def scanLoop : Nat → CursorProg
  | 0 => .call .next fun _ => .ret
  | n + 1 => .call .next fun more =>
      if more then .call .scan fun ok => if ok then scanLoop n else .ret
      else .ret

/-- `Backend.List` (`backend.go:253-261`), the compaction markers (`backend.go:142-150`), `initialEvents`
(`watcher.go:157-165`), the poll (`watcher.go:244-252`): a query and `ScanAll` (`utils.go:11-24`). -/
def queryAll (n : Nat) : CursorProg :=
  .call .query fun ok => if ok then (scanLoop n).deferClose else .ret

/-- `Count` (`driver.go:489-506`), `GetCompactRevision` (`driver.go:688-707`), `CurrentRevision` (`driver.go:753-771`),
`GetSize` (`driver.go:790-808`): a query of one row. -/
def queryOne : CursorProg :=
  .call .query fun ok =>
    if ok then
      (CursorProg.call .next fun more => if !more then .call .err fun _ => .ret else .call .scan fun _ => .ret).deferClose
    else .ret

/-- Reading the leases at start (`ttl.go:56-72`): the loop is the one of `ScanAll`, but nothing closes the rows. -/
def queryTtl (n : Nat) : CursorProg :=
  .call .query fun ok => if ok then scanLoop n else .ret

/-- `CursorPath p opened l opened'`: executing `p` with the rows open or not, with the operations and outcomes `l`, up to its return,
leaves the rows open or not. -/
inductive CursorPath : CursorProg → Bool → List (CursorOp × Bool) → Bool → Prop where
  | ret (o : Bool) : CursorPath .ret o [] o
  | call {k : Bool → CursorProg} {o o' : Bool} {l : List (CursorOp × Bool)} (op : CursorOp) (b : Bool)
      (h : CursorPath (k b) (op.after b o) l o') : CursorPath (.call op k) o ((op, b) :: l) o'

end Verif
