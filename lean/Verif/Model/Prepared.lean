import Verif.Model.Bytes
/-!
# The prepared-statement cache: `/repo/pkg/database/prepared.go`

Every section under the mutex is one step. Query texts are byte strings; prepared statements are numbered. `nil`
dereferences are a flag.
-/

namespace Verif

/-- What a call of `ExecContext`/`QueryContext` (also inside of a transaction, `prepared.go:149-172`) gets: the statement
was executed; the statement had been closed meanwhile (an error of `database/sql`); `errDBClosed`; or the database failed
to prepare it. Not modelled: `Tx.StmtContext` prepares a closed statement again on the transaction's own connection; that
no transaction runs once `Close` was called on a node that shuts down is `C91_closed_when_idle`. -/
inductive PAnswer where
  | executed (stmt : Nat)
  | stmtClosed (stmt : Nat)
  | dbClosed
  | failed
deriving DecidableEq, Repr

/-- Where a call is (`prepared.go:39-106`): before the read-locked lookup; after it found nothing, waiting for the write
lock; or about to execute its statement. -/
inductive PCall where
  | start (q : Bytes)
  | slow (q : Bytes)
  | have_ (q : Bytes) (stmt : Nat)
deriving DecidableEq, Repr

/-- `preparedDb` (`prepared.go:22-26`) and its users. -/
structure PSys where
  /-- `underlying != nil` -/
  opened : Bool
  cache : List (Bytes × Nat)
  /-- statements closed by `Close` -/
  closedStmts : List Nat
  /-- calls under way -/
  calls : List PCall
  /-- ghost: the successful preparations -/
  prepared : List (Bytes × Nat)
  /-- ghost: the finished calls -/
  answers : List (Bytes × PAnswer)
  /-- a `nil` dereference happened -/
  panicked : Bool
deriving DecidableEq, Repr

/-- `NewPrepared` (`prepared.go:32-37`). -/
def PSys.init : PSys :=
  { opened := true, cache := [], closedStmts := [], calls := [], prepared := [], answers := [], panicked := false }

/-- `db.cache[query]` (`prepared.go:79,95`). -/
def PSys.lookup (p : PSys) (q : Bytes) : Option Nat := (p.cache.find? fun x => x.1 == q).map (·.2)

/-- The read-locked lookup (`prepared.go:78-83`). -/
def PSys.fast (p : PSys) (pre post : List PCall) (q : Bytes) : PSys :=
  match p.lookup q with
  | some s => { p with calls := pre ++ .have_ q s :: post }
  | none => { p with calls := pre ++ .slow q :: post }

/-- The write-locked section of `prepare` (`prepared.go:85-105`); `ok` tells whether the database prepares the query. -/
def PSys.slow (p : PSys) (pre post : List PCall) (q : Bytes) (ok : Bool) : PSys :=
  if p.opened = false then { p with calls := pre ++ post, answers := p.answers ++ [(q, .dbClosed)] }
  else match p.lookup q with
    | some s => { p with calls := pre ++ .have_ q s :: post }
    | none =>
      if ok then
        { p with
          calls := pre ++ .have_ q p.prepared.length :: post
          cache := p.cache ++ [(q, p.prepared.length)]
          prepared := p.prepared ++ [(q, p.prepared.length)] }
      else { p with calls := pre ++ post, answers := p.answers ++ [(q, .failed)] }

/-- The statement is executed (`prepared.go:50,64`); `database/sql` refuses closed statements. -/
def PSys.run (p : PSys) (pre post : List PCall) (q : Bytes) (s : Nat) : PSys :=
  { p with
    calls := pre ++ post
    answers := p.answers ++ [(q, if s ∈ p.closedStmts then .stmtClosed s else .executed s)] }

/-- `Close` (`prepared.go:124-142`): `db.underlying.Close()` on a nil interface panics. -/
def PSys.close (p : PSys) : PSys :=
  if p.opened then { p with closedStmts := p.closedStmts ++ p.cache.map (·.2), cache := [], opened := false }
  else { p with panicked := true }

/-- `BeginTx`, `Conn` and `PrepareContext` use `db.underlying` without checking it (`prepared.go:67-69,108-122`). -/
def PSys.direct (p : PSys) : PSys := if p.opened then p else { p with panicked := true }

/-- The steps of the cache and its users. -/
inductive PStep : PSys → PSys → Prop where
  | call (p : PSys) (q : Bytes) : PStep p { p with calls := p.calls ++ [.start q] }
  | fast (p : PSys) (pre post : List PCall) (q : Bytes) (h : p.calls = pre ++ .start q :: post) :
      PStep p (p.fast pre post q)
  | slow (p : PSys) (pre post : List PCall) (q : Bytes) (ok : Bool) (h : p.calls = pre ++ .slow q :: post) :
      PStep p (p.slow pre post q ok)
  | run (p : PSys) (pre post : List PCall) (q : Bytes) (s : Nat) (h : p.calls = pre ++ .have_ q s :: post) :
      PStep p (p.run pre post q s)
  | close (p : PSys) : PStep p p.close
  | direct (p : PSys) : PStep p p.direct

/-- Reachable from a new cache. -/
inductive PReachable : PSys → Prop where
  | init : PReachable PSys.init
  | step {p q : PSys} : PReachable p → PStep p q → PReachable q

end Verif
