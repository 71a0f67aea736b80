import Verif.Model.GoHost
import Verif.Model.GoTextPrepared
/-!
# Goroutines running the text of `/repo/pkg/database/prepared.go`

The text of a method, run by a goroutine, is a tree (`Pt`) of what it does to the things it shares with other goroutines: the mutex, the field
`underlying`, the map `cache`, the database and its statements. `Pc` and `PcStep` below say how any number of such goroutines run together.

Simplifications: reading the field `cache` and reading or writing the map are one action (all of them happen under the mutex); the field
`underlying`, which some methods read without the mutex, is read as a whole; a panic ends the goroutine that panics, its deferred calls do not run.
`database/sql`: a statement can be prepared, a transaction begun, a connection taken until the database is closed; a statement can be executed until
it, or the database, is closed; `Close` of a statement or of the database may report an error but closes it. A statement made by
`Tx.StmtContext` belongs to the transaction: it may be executed whatever happens to the one it was made from.
-/

namespace Verif.Go

open Verif.GoText

/-- What a goroutine does to shared things, and what it does next. -/
inductive Pt where
  /-- the fragment does not define it: types that do not fit -/
  | stuck
  /-- a method of nil, or a write to a nil map -/
  | panic
  | ret (vs : List V)
  | rlock (k : Pt)
  | runlock (k : Pt)
  | lock (k : Pt)
  | unlock (k : Pt)
  /-- is `underlying` something other than nil? -/
  | getUnder (k : Bool → Pt)
  | dropUnder (k : Pt)
  | lookup (q : List UInt8) (k : Option Nat → Pt)
  | store (q : List UInt8) (s : Nat) (k : Pt)
  /-- the entries of the map, in some order -/
  | entries (k : List (List UInt8 × Nat) → Pt)
  | dropCache (k : Pt)
  /-- the database -/
  | prepare (q : List UInt8) (ok : Nat → Pt) (er : ApiErr → Pt)
  | begin_ (ok : Nat → Pt) (er : ApiErr → Pt)
  | conn (ok : Pt) (er : ApiErr → Pt)
  | closeStmt (s : Nat) (ok : Pt) (er : ApiErr → Pt)
  | closeDb (ok : Pt) (er : ApiErr → Pt)
  /-- a statement is executed (`ExecContext`, or `QueryContext`), inside of a transaction or not -/
  | exec (query : Bool) (tx : Option Nat) (s : Nat) (args : List V) (ok : Nat → Pt) (er : ApiErr → Pt)

/-- The meaning of loops: there is only `range`. -/
def ctlP : Control Ext Pt := { stuck := .stuck, loop := fun _ _ _ _ _ => .stuck, range := rangeStd }

/-- An object. -/
def prepV (o : PrepObj) : V := .ext (.prep o)

/-- An error of the database. -/
def prepErrV (e : ApiErr) : V := .ext (.err e)

/-- `errDBClosed` (`/repo/pkg/database/batched.go:12`). -/
def closedErrV : V := .ext (.db .errClosed)

/-- `errors.Join`: nil if there are none; the first one stands for all. -/
def joinV : List V → V
  | [] => .nil
  | e :: _ => e

/-- A statement as a value of type `*sql.Stmt`. -/
def stmtV : Option Nat → V
  | none => .nil
  | some s => prepV (.stmt s)

/-- Fields (`prepared.go:22-26,144-147`). -/
def fieldP (x : Ext) (f : Nm) (k : V → Pt) : Pt :=
  match x with
  | .prep .db =>
    if f == n!"mu" then k (prepV .mutex)
    else if f == n!"cache" then k (prepV .cache)
    else if f == n!"underlying" then .getUnder fun b => k (bif b then prepV .under else .nil)
    else .stuck
  | .prep (.ptx _) => if f == n!"db" then k (prepV .db) else .stuck
  | _ => .stuck

/-- Fields that are written: both are set to nil. -/
def setFieldP (x : Ext) (f : Nm) (v : V) (k : Pt) : Pt :=
  match x, v with
  | .prep .db, .nil =>
    if f == n!"cache" then .dropCache k
    else if f == n!"underlying" then .dropUnder k
    else .stuck
  | _, _ => .stuck

/-- The execution of a statement. -/
def execP (tx : Option Nat) (s : Nat) (m : Nm) (as : List V) (k : List V → Pt) : Pt :=
  if m == n!"ExecContext" then .exec false tx s as.tail (fun a => k [prepV (.answer a), .nil]) fun e => k [.nil, prepErrV e]
  else if m == n!"QueryContext" then .exec true tx s as.tail (fun a => k [prepV (.answer a), .nil]) fun e => k [.nil, prepErrV e]
  else .stuck

/-- Methods of objects. -/
def methP (L : Calls Pt) (x : Ext) (m : Nm) (as : List V) (k : List V → Pt) : Pt :=
  match x with
  | .prep .mutex =>
    if m == n!"RLock" then .rlock (k [])
    else if m == n!"RUnlock" then .runlock (k [])
    else if m == n!"Lock" then .lock (k [])
    else if m == n!"Unlock" then .unlock (k [])
    else .stuck
  | .prep .under =>
    if m == n!"PrepareContext" then
      match as with
      | [_, .bytes q] => .prepare q (fun s => k [prepV (.stmt s), .nil]) fun e => k [.nil, prepErrV e]
      | _ => .stuck
    else if m == n!"Conn" then .conn (k [prepV .conn, .nil]) fun e => k [.nil, prepErrV e]
    else if m == n!"BeginTx" then .begin_ (fun t => k [prepV (.tx t), .nil]) fun e => k [.nil, prepErrV e]
    else if m == n!"Close" then .closeDb (k [.nil]) fun e => k [prepErrV e]
    else .stuck
  | .prep (.stmt s) =>
    if m == n!"Close" then .closeStmt s (k [.nil]) fun e => k [prepErrV e]
    else execP none s m as k
  | .prep (.txStmt t s) => execP (some t) s m as k
  | .prep .db => L n!"preparedDb" m (.ext x :: as) k
  | .prep (.ptx t) =>
    if m == n!"StmtContext" then
      match as with
      | [_, .ext (.prep (.stmt s))] => k [prepV (.txStmt t s)]
      | _ => .stuck
    else L n!"preparedTx" m (.ext x :: as) k
  | _ => .stuck

/-- Functions of libraries. -/
def funcP (p m : Nm) (as : List V) (k : List V → Pt) : Pt :=
  match quietFunc p m as with
  | some vs => k vs
  | none => if p == n!"errors" && m == n!"Join" then k [joinV as] else .stuck

/-- Zero values: `preparedTx` (`prepared.go:144-147`), and interfaces. -/
def zeroP (n : Nm) : Option V :=
  if n == n!"preparedTx" then some (.struct n [(n!"Transaction", .nil), (n!"db", .nil)])
  else if n == n!"Result" || n == n!"Transaction" then some .nil
  else none

/-- `&preparedTx{…}`. -/
def allocP (v : V) : Option ((V → Pt) → Pt) :=
  match v with
  | .struct n [(_, .ext (.prep (.tx t))), (_, .ext (.prep .db))] => if n == n!"preparedTx" then some fun k => k (prepV (.ptx t)) else none
  | _ => none

/-- What the methods find around them. -/
def prepHost (ct : Control Ext Pt) (L : Calls Pt) : Host Ext Pt :=
  { ctl := ct
    fuel := 0
    zero := fun _ n => zeroP n
    glob := fun p n => if p == 0 && n == n!"errDBClosed" then some closedErrV else if p == 0 && n == n!"otelName" then some .tok else none
    meth := fun v m as s k =>
      match v with
      | .ext x => methP L x m as fun vs => k vs s
      | .tok => if quiet m then k [.tok] s else .stuck
      | .nil => .panic
      | _ => .stuck
    func := fun p m as s k => funcP p m as fun vs => k vs s
    field := fun x f s k => fieldP x f fun v => k v s
    setField := fun x f v s k => setFieldP x f v (k s)
    alloc := allocP
    setIdx := fun x i v s k =>
      match x, i, v with
      | .prep .cache, .bytes q, .ext (.prep (.stmt n)) => .store q n (k s)
      | _, _, _ => .stuck
    idx := fun x i s k =>
      match x, i with
      | .prep .cache, .bytes q => .lookup q fun o => k (stmtV o) s
      | _, _ => .stuck
    entries := fun x =>
      match x with
      | .prep .cache => some fun k => .entries fun l => k (l.map fun p => .list [.bytes p.1, prepV (.stmt p.2)])
      | _ => none }

/-- The methods. -/
def prepFuncs : List FuncDecl :=
  [Prepared.f_preparedDb_ExecContext, Prepared.f_preparedDb_QueryContext, Prepared.f_preparedDb_PrepareContext, Prepared.f_prepare, Prepared.f_Conn,
    Prepared.f_BeginTx, Prepared.f_Close, Prepared.f_preparedTx_PrepareContext, Prepared.f_preparedTx_ExecContext, Prepared.f_preparedTx_QueryContext]

/-- Calls by the texts of the methods, nested at most so deep. -/
def prepCalls (ct : Control Ext Pt) : Nat → Calls Pt
  | 0 => fun _ _ _ _ => .stuck
  | n + 1 => fun ty m args k =>
    match findFunc ty m prepFuncs with
    | some f => f.run (prepHost ct (prepCalls ct n)) args fun vs _ => k vs
    | none => .stuck

/-- A call of the API: `ExecContext` or `QueryContext` of the database (`prepared.go:39-65`) or of a transaction (`prepared.go:157-172`),
`PrepareContext` of either (`prepared.go:67-69,149-155`), `Conn`, `BeginTx`, `Close` (`prepared.go:108-142`). -/
inductive POp where
  | run (query : Bool) (q : List UInt8) (args : List V)
  | txRun (query : Bool) (t : Nat) (q : List UInt8) (args : List V)
  | txPrepare (t : Nat) (q : List UInt8)
  | prepare (q : List UInt8)
  | conn
  | begin_
  | close

/-- The goroutine of a call. -/
def POp.go : POp → Pt
  | .run query q args => prepCalls ctlP 4 n!"preparedDb" (bif query then n!"QueryContext" else n!"ExecContext") (prepV .db :: .tok :: .bytes q :: args) .ret
  | .txRun query t q args =>
    prepCalls ctlP 4 n!"preparedTx" (bif query then n!"QueryContext" else n!"ExecContext") (prepV (.ptx t) :: .tok :: .bytes q :: args) .ret
  | .txPrepare t q => prepCalls ctlP 4 n!"preparedTx" n!"PrepareContext" [prepV (.ptx t), .tok, .bytes q] .ret
  | .prepare q => prepCalls ctlP 4 n!"preparedDb" n!"PrepareContext" [prepV .db, .tok, .bytes q] .ret
  | .conn => prepCalls ctlP 4 n!"preparedDb" n!"Conn" [prepV .db, .tok] .ret
  | .begin_ => prepCalls ctlP 4 n!"preparedDb" n!"BeginTx" [prepV .db, .tok, .tok] .ret
  | .close => prepCalls ctlP 4 n!"preparedDb" n!"Close" [prepV .db] .ret

/-! ### Goroutines together -/

/-- A statement that was prepared: by which goroutine, whether its caller asked for it (`PrepareContext` of the database: it owns the statement) or
the cache did, and the text. -/
structure Prep where
  by_ : Nat
  direct : Bool
  text : List UInt8
deriving DecidableEq

/-- A statement that was executed: by which goroutine, how, in which transaction, which statement, with what arguments. -/
structure Exec where
  by_ : Nat
  query : Bool
  tx : Option Nat
  stmt : Nat
  args : List V

/-- What the goroutines share. -/
structure PMem where
  /-- `underlying != nil` -/
  opened : Bool
  /-- `cache`: nil or a map -/
  cache : Option (List (List UInt8 × Nat))
  /-- who holds the mutex -/
  readers : List Nat
  writer : Option Nat
  /-- the statements prepared so far; a statement is its position -/
  prepared : List Prep
  /-- the statements closed so far -/
  closed : List Nat
  /-- how often the database was closed -/
  dbCloses : Nat
  /-- the errors of closing -/
  failures : List ApiErr
  /-- the transactions begun -/
  txs : Nat
  /-- the statements executed -/
  executed : List Exec

/-- `db.cache[q]`; a nil map has no entries. -/
def cacheGet (c : Option (List (List UInt8 × Nat))) (q : List UInt8) : Option Nat := ((c.getD []).find? fun p => p.1 == q).map (·.2)

/-- `l[q] = s`. -/
def cacheSet (l : List (List UInt8 × Nat)) (q : List UInt8) (s : Nat) : List (List UInt8 × Nat) :=
  if l.any fun p => p.1 == q then l.map fun p => if p.1 == q then (q, s) else p else l ++ [(q, s)]

/-- One action of goroutine `i`; `d` tells whether its caller asks for a statement of its own. -/
inductive PtStep (i : Nat) (d : Bool) : PMem → Pt → PMem → Pt → Prop where
  | rlock (m : PMem) (k : Pt) (free : m.writer = none) : PtStep i d m (.rlock k) { m with readers := i :: m.readers } k
  | runlock (m : PMem) (k : Pt) : PtStep i d m (.runlock k) { m with readers := m.readers.erase i } k
  | lock (m : PMem) (k : Pt) (free : m.writer = none) (none_ : m.readers = []) : PtStep i d m (.lock k) { m with writer := some i } k
  | unlock (m : PMem) (k : Pt) : PtStep i d m (.unlock k) { m with writer := none } k
  | getUnder (m : PMem) (k : Bool → Pt) : PtStep i d m (.getUnder k) m (k m.opened)
  | dropUnder (m : PMem) (k : Pt) : PtStep i d m (.dropUnder k) { m with opened := false } k
  | lookup (m : PMem) (q : List UInt8) (k : Option Nat → Pt) : PtStep i d m (.lookup q k) m (k (cacheGet m.cache q))
  | store (m : PMem) (q : List UInt8) (s : Nat) (k : Pt) (l : List (List UInt8 × Nat)) (h : m.cache = some l) :
      PtStep i d m (.store q s k) { m with cache := some (cacheSet l q s) } k
  | storeNil (m : PMem) (q : List UInt8) (s : Nat) (k : Pt) (h : m.cache = none) : PtStep i d m (.store q s k) m .panic
  /-- the order in which Go iterates over a map is any -/
  | entries (m : PMem) (k : List (List UInt8 × Nat) → Pt) (l : List (List UInt8 × Nat)) (p : l.Perm (m.cache.getD [])) :
      PtStep i d m (.entries k) m (k l)
  | dropCache (m : PMem) (k : Pt) : PtStep i d m (.dropCache k) { m with cache := none } k
  | prepare (m : PMem) (q : List UInt8) (ok : Nat → Pt) (er : ApiErr → Pt) (h : m.dbCloses = 0) :
      PtStep i d m (.prepare q ok er) { m with prepared := m.prepared ++ [⟨i, d, q⟩] } (ok m.prepared.length)
  | prepareFails (m : PMem) (q : List UInt8) (ok : Nat → Pt) (er : ApiErr → Pt) (e : ApiErr) : PtStep i d m (.prepare q ok er) m (er e)
  | begin_ (m : PMem) (ok : Nat → Pt) (er : ApiErr → Pt) (h : m.dbCloses = 0) : PtStep i d m (.begin_ ok er) { m with txs := m.txs + 1 } (ok m.txs)
  | beginFails (m : PMem) (ok : Nat → Pt) (er : ApiErr → Pt) (e : ApiErr) : PtStep i d m (.begin_ ok er) m (er e)
  | conn (m : PMem) (ok : Pt) (er : ApiErr → Pt) (h : m.dbCloses = 0) : PtStep i d m (.conn ok er) m ok
  | connFails (m : PMem) (ok : Pt) (er : ApiErr → Pt) (e : ApiErr) : PtStep i d m (.conn ok er) m (er e)
  | closeStmt (m : PMem) (s : Nat) (ok : Pt) (er : ApiErr → Pt) : PtStep i d m (.closeStmt s ok er) { m with closed := m.closed ++ [s] } ok
  | closeStmtFails (m : PMem) (s : Nat) (ok : Pt) (er : ApiErr → Pt) (e : ApiErr) :
      PtStep i d m (.closeStmt s ok er) { m with closed := m.closed ++ [s], failures := m.failures ++ [e] } (er e)
  | closeDb (m : PMem) (ok : Pt) (er : ApiErr → Pt) : PtStep i d m (.closeDb ok er) { m with dbCloses := m.dbCloses + 1 } ok
  | closeDbFails (m : PMem) (ok : Pt) (er : ApiErr → Pt) (e : ApiErr) :
      PtStep i d m (.closeDb ok er) { m with dbCloses := m.dbCloses + 1, failures := m.failures ++ [e] } (er e)
  | exec (m : PMem) (query : Bool) (tx : Option Nat) (s : Nat) (args : List V) (ok : Nat → Pt) (er : ApiErr → Pt)
      (h : tx = none → s ∉ m.closed ∧ m.dbCloses = 0) :
      PtStep i d m (.exec query tx s args ok er) { m with executed := m.executed ++ [⟨i, query, tx, s, args⟩] } (ok m.executed.length)
  | execFails (m : PMem) (query : Bool) (tx : Option Nat) (s : Nat) (args : List V) (ok : Nat → Pt) (er : ApiErr → Pt) (e : ApiErr) :
      PtStep i d m (.exec query tx s args ok er) m (er e)

/-- The memory, and the goroutines with the calls they were started for. -/
structure Pc where
  mem : PMem
  ts : List (POp × Pt)

/-- `PrepareContext` of the database: the caller owns the statement. -/
def POp.direct : POp → Bool
  | .prepare _ => true
  | _ => false

/-- One step: a call begins, or a goroutine acts. -/
inductive PcStep : Pc → Pc → Prop where
  | call (c : Pc) (op : POp) : PcStep c { c with ts := c.ts ++ [(op, op.go)] }
  | thread (c : Pc) (i : Nat) (op : POp) (t t' : Pt) (m' : PMem) (ht : c.ts[i]? = some (op, t)) (h : PtStep i op.direct c.mem t m' t') :
      PcStep c { mem := m', ts := c.ts.set i (op, t') }

/-- `NewPrepared` (`prepared.go:32-37`). -/
def Pc.init : Pc :=
  { mem := { opened := true, cache := some [], readers := [], writer := none, prepared := [], closed := [], dbCloses := 0, failures := [],
             txs := 0, executed := [] }
    ts := [] }

/-- Reachable by any number of steps. -/
inductive PcReachable : Pc → Prop where
  | init : PcReachable Pc.init
  | step {c d : Pc} : PcReachable c → PcStep c d → PcReachable d

end Verif.Go
