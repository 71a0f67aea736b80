import Verif.Model.GoHost
import Verif.Model.GoTextBatched
import Verif.Model.Batched
/-!
# Goroutines running the text of `/repo/pkg/database/batched.go`

The text of a function, run by a goroutine, is a tree (`Th`) of what it does to the things it shares with other goroutines: the mutex, the
condition variable, each single read and write of a field of the batcher or of a job, the database, and starting a goroutine. `PStep` says
how any number of goroutines with such trees run together.
-/

namespace Verif.Go

open Verif.GoText

/-! ### What a goroutine does -/

/-- What a goroutine does to shared things, and what it does next. -/
inductive Th where
  /-- the fragment does not define it: a panic, or types that do not fit -/
  | stuck
  /-- more iterations of a loop than are looked at -/
  | out
  | ret (vs : List V)
  | lock (k : Th)
  | unlock (k : Th)
  | wait (k : Th)
  | broadcast (k : Th)
  | getClosed (k : Bool → Th)
  | setClosed (b : Bool) (k : Th)
  | getStatus (k : Int → Th)
  | setStatus (n : Int) (k : Th)
  | getQueue (k : List V → Th)
  | setQueue (q : List V) (k : Th)
  | getRunId (k : Int → Th)
  | setRunId (n : Int) (k : Th)
  /-- `&batchJob{…}` -/
  | newJob (ctx : Nat) (query : List UInt8) (args : List V) (runId : Int) (k : Nat → Th)
  | getJobRunId (j : Nat) (k : Int → Th)
  | getJobErr (j : Nat) (ok : Th) (er : DbErr → Th)
  | getJobRows (j : Nat) (k : Int → Th)
  | getJobLast (j : Nat) (k : Int → Th)
  | spawn (t : Th) (k : Th)
  /-- `b.execQueue(b.workerContext, queue)` -/
  | execQueue (q : List V) (k : Th)
  | stopWorker (k : Th)
  /-- `b.Wrapped.Close()` -/
  | closeDb (ok : Th) (er : DbErr → Th)
  | getJobCtx (j : Nat) (k : Nat → Th)
  | getJobQuery (j : Nat) (k : List UInt8 → Th)
  | getJobArgs (j : Nat) (k : List V → Th)
  | setJobErr (j : Nat) (e : Option DbErr) (k : Th)
  | setJobRows (j : Nat) (n : Int) (k : Th)
  | setJobLast (j : Nat) (n : Int) (k : Th)
  /-- `select` on `ctx.Done()` with a `default` -/
  | ctxDone (c : Nat) (yes no : Th)
  /-- `ctx.Err()` -/
  | ctxErr (c : Nat) (ok : Th) (er : DbErr → Th)
  | beginTx (ok : Th) (er : DbErr → Th)
  /-- `ExecContext` of a transaction or of the database -/
  | exec (inTx : Bool) (query : List UInt8) (args : List V) (ok : Nat → Th) (er : DbErr → Th)
  /-- `RowsAffected` and `LastInsertId` of an `sql.Result` -/
  | resRows (r : Nat) (ok : Int → Th) (er : DbErr → Th)
  | resLast (r : Nat) (ok : Int → Th) (er : DbErr → Th)
  | commit (ok : Th) (er : DbErr → Th)
  | rollback (k : Th)

/-- `for cond { body }`, at most so many times. -/
def loopT (cond : Store Ext → (V → Store Ext → Th) → Th) (body : Store Ext → (Store Ext → Th) → (Store Ext → Th) → Th)
    (k : Store Ext → Th) : Nat → Store Ext → Th
  | 0, _ => .out
  | n + 1, s => cond s fun c s =>
    match c with
    | .bool b => bif b then body s (fun s => loopT cond body k n s) k else k s
    | _ => .stuck

/-- The meaning of loops for goroutines. -/
def ctlT : Control Ext Th := { stuck := .stuck, loop := loopT, range := rangeStd }

/-- A pointer to a job. -/
def jobV (j : Nat) : V := .ext (.db (.job j))
/-- `*batchedDb`. -/
def batcherV : V := .ext (.db .batcher)
/-- `errDBClosed`. -/
def closedV : V := .ext (.db .errClosed)
/-- An error of the database. -/
def dbErrV (e : DbErr) : V := .ext (.err (.db e))

/-- A context. -/
def ctxV (c : Nat) : V := .ext (.db (.ctx c))
/-- An `sql.Result`. -/
def resV (r : Nat) : V := .ext (.db (.res r))

/-- Zero values of `batchJob` (`batched.go:181-190`), with the fields in the order of the declaration, and of `sql.Result`. -/
def zeroBatched (n : Nm) : Option V :=
  if n == n!"batchJob" then
    some (.struct n [(n!"ctx", .nil), (n!"query", .bytes []), (n!"args", .list []), (n!"runId", .int 0), (n!"lastInsertId", .int 0),
      (n!"rowsAffected", .int 0), (n!"err", .nil)])
  else if n == n!"Result" || n == n!"Transaction" then some .nil
  else none

/-- `batchNotStarted`, `batchStarted`, `batchRunning` (`batched.go:14-19`), `errDBClosed` (`interface.go`). -/
def globBatched (p n : Nm) : Option V :=
  if p == 0 then
    if n == n!"batchNotStarted" then some (.int 0)
    else if n == n!"batchStarted" then some (.int 1)
    else if n == n!"batchRunning" then some (.int 2)
    else if n == n!"errDBClosed" then some closedV
    else none
  else none

/-- Fields that are read (`batched.go:21-34,181-190`). -/
def fieldT (x : Ext) (f : Nm) (k : V → Th) : Th :=
  match x with
  | .db .batcher =>
    if f == n!"mu" then k (.ext (.db .mutex))
    else if f == n!"cv" then k (.ext (.db .cond))
    else if f == n!"Wrapped" then k (.ext (.db .wrapped))
    else if f == n!"workerContext" then k (.ext (.db .workerCtx))
    else if f == n!"closed" then .getClosed fun b => k (.bool b)
    else if f == n!"status" then .getStatus fun n => k (.int n)
    else if f == n!"queue" then .getQueue fun q => k (.list q)
    else if f == n!"runId" then .getRunId fun n => k (.int n)
    else .stuck
  | .db (.job j) =>
    if f == n!"runId" then .getJobRunId j fun n => k (.int n)
    else if f == n!"err" then .getJobErr j (k .nil) fun e => k (dbErrV e)
    else if f == n!"rowsAffected" then .getJobRows j fun n => k (.int n)
    else if f == n!"lastInsertId" then .getJobLast j fun n => k (.int n)
    else if f == n!"ctx" then .getJobCtx j fun c => k (ctxV c)
    else if f == n!"query" then .getJobQuery j fun q => k (.bytes q)
    else if f == n!"args" then .getJobArgs j fun l => k (.list l)
    else .stuck
  | _ => .stuck

/-- Fields that are written. -/
def setFieldT (x : Ext) (f : Nm) (v : V) (k : Th) : Th :=
  match x with
  | .db .batcher =>
    match v with
    | .bool b => if f == n!"closed" then .setClosed b k else .stuck
    | .int n => if f == n!"status" then .setStatus n k else if f == n!"runId" then .setRunId n k else .stuck
    | .list q => if f == n!"queue" then .setQueue q k else .stuck
    | .nil => if f == n!"queue" then .setQueue [] k else .stuck
    | _ => .stuck
  | .db (.job j) =>
    match v with
    | .nil => if f == n!"err" then .setJobErr j none k else .stuck
    | .ext (.err (.db e)) => if f == n!"err" then .setJobErr j (some e) k else .stuck
    | .int n => if f == n!"rowsAffected" then .setJobRows j n k else if f == n!"lastInsertId" then .setJobLast j n k else .stuck
    | _ => .stuck
  | _ => .stuck

/-- `ExecContext(ctx, query, args...)` of a transaction or of the database. -/
def execDbT (inTx : Bool) (as : List V) (k : List V → Th) : Th :=
  match as with
  | _ :: .bytes q :: l => .exec inTx q l (fun r => k [resV r, .nil]) fun e => k [.nil, dbErrV e]
  | _ => .stuck

/-- Methods of the mutex, the condition variable, the batcher, the jobs, the contexts and the database; `stopWorker` is a field that holds a
function. -/
def methT (L : Calls Th) (x : Ext) (m : Nm) (as : List V) (k : List V → Th) : Th :=
  match x with
  | .db .mutex => if m == n!"Lock" then .lock (k []) else if m == n!"Unlock" then .unlock (k []) else .stuck
  | .db .cond => if m == n!"Wait" then .wait (k []) else if m == n!"Broadcast" then .broadcast (k []) else .stuck
  | .db .wrapped =>
    if m == n!"Close" then .closeDb (k [.nil]) fun e => k [dbErrV e]
    else if m == n!"BeginTx" then .beginTx (k [.ext (.db .tx), .nil]) fun e => k [.nil, dbErrV e]
    else if m == n!"ExecContext" then execDbT false as k
    else .stuck
  | .db .tx =>
    if m == n!"ExecContext" then execDbT true as k
    else if m == n!"Commit" then .commit (k [.nil]) fun e => k [dbErrV e]
    else if m == n!"Rollback" then .rollback (k [.nil])
    else .stuck
  | .db (.ctx c) =>
    if m == n!"Done" then k [.ext (.db (.ctxDone c))]
    else if m == n!"Err" then .ctxErr c (k [.nil]) fun e => k [dbErrV e]
    else .stuck
  | .db (.res r) =>
    if m == n!"RowsAffected" then .resRows r (fun n => k [.int n, .nil]) fun e => k [.int 0, dbErrV e]
    else if m == n!"LastInsertId" then .resLast r (fun n => k [.int n, .nil]) fun e => k [.int 0, dbErrV e]
    else .stuck
  | .db (.job _) => L n!"batchJob" m (.ext x :: as) k
  | .db .batcher =>
    if m == n!"stopWorker" then .stopWorker (k [])
    else if m == n!"execQueue" then
      match as with
      | [_, .list q] => .execQueue q (k [])
      | _ => .stuck
    else L n!"batchedDb" m (.ext x :: as) k
  | _ => .stuck

/-- `select { case <-ctx.Done(): … default: … }`. -/
def selectT (cs : List (Comm Ext)) (k : Nat → List V → Th) : Th :=
  match cs with
  | [.recv (.ext (.db (.ctxDone c))), .dflt] => .ctxDone c (k 0 [.nil, .bool false]) (k 1 [])
  | _ => .stuck

/-- `&batchJob{…}`. -/
def allocT (v : V) : Option ((V → Th) → Th) :=
  match v with
  | .struct _ [(_, .ext (.db (.ctx c))), (_, .bytes query), (_, .list args), (_, .int runId), _, _, _] =>
    some fun k => .newJob c query args runId fun j => k (jobV j)
  | _ => none

/-- What the functions of `batched.go` find around them; `ct` is the meaning of loops, `N` bounds the iterations of each loop. -/
def batchedHost (ct : Control Ext Th) (N : Nat) (L : Calls Th) : Host Ext Th :=
  { ctl := ct
    fuel := N
    zero := fun _ n => zeroBatched n
    glob := globBatched
    meth := fun v m as s k =>
      match v with
      | .ext x => methT L x m as fun vs => k vs s
      | _ => .stuck
    func := fun _ _ _ _ _ => .stuck
    field := fun x f s k => fieldT x f fun v => k v s
    setField := fun x f v s k => setFieldT x f v (k s)
    alloc := allocT
    select := fun cs s k => selectT cs fun i vs => k i vs s
    go := fun body s k => .spawn (body { s with defers := [] } fun _ => .ret []) (k s) }

/-- Calls by the texts of the functions. -/
def batchedCalls (ct : Control Ext Th) (N n : Nat) : Calls Th :=
  textCalls .stuck (batchedHost ct N) [Batched.f_ExecContext, Batched.f_run, Batched.f_Close, Batched.f_LastInsertId, Batched.f_RowsAffected,
    Batched.f_execQueue, Batched.f_exec, Batched.f_BeginTx] n

/-- A goroutine that calls a function or method and ends. -/
def goroutine (N : Nat) (ty m : Nm) (args : List V) : Th := batchedCalls ctlT N 3 ty m args .ret

end Verif.Go
