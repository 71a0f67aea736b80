import Verif.Model.GoHost
import Verif.Model.GoTextErrors
import Verif.Model.GoTextDriver
import Verif.Model.GoTextSchema
/-!
# What the texts of retrying and counting find around them

`query` and `execute` (`/repo/pkg/backend/sqlite/driver.go:405-478`), four functions that read one row (`driver.go:480-507,675-708,745-770,789-809`), the two functions that say which errors are worth another try
(`/repo/pkg/backend/dqlite/driver.go:67-95`, `/repo/pkg/backend/sqlite/driver.go:303-309`) and the functions that count
(`/repo/pkg/backend/sqlite/metrics.go:29-45`), as trees of what they ask the database and what they count; `runEr` runs a tree.

Simplifications: errors are `GoErr` (Model/Errors); what is asked is of no interest here (that is C102's), only what is answered; `errors.As` finds the
code of the first error of its type on the way inside; logging and tracing have no effect; the time that has passed is arbitrary.
-/

namespace Verif.Go

open Verif.GoText

/-- What a function does, and what it does next. -/
inductive Er where
  | stuck
  | ret (vs : List V)
  /-- ask the database -/
  | ask (ok : Er) (er : GoErr → Er)
  /-- increment a counter, or observe a value -/
  | count (n : Nm) (name label : Bytes) (k : Er)
  /-- `Next`, `Err`, `Scan` and `Close` of the open rows -/
  | next (yes no : Er)
  | rowsErr (ok : Er) (er : GoErr → Er)
  | scan (ok : Int → Int → Er) (er : GoErr → Er)
  | close (k : Er)

/-- An object. -/
def erV (o : ErObj) : V := .ext (.er o)

/-- Decimal digits. -/
def decimal (n : Int) : Bytes := (toString n).toUTF8.toList

/-- What comes before the first verb of a format, and what comes after it. -/
def untilVerb : Bytes → Bytes × Bytes
  | [] => ([], [])
  | 37 :: _ :: s => ([], s)
  | c :: s => let r := untilVerb s; (c :: r.1, r.2)

/-- `fmt.Errorf` with a format that has a `%d` and a `%w`, in this order. -/
def errorfWrap (f : Bytes) (n : Int) (e : GoErr) : GoErr :=
  let a := untilVerb f
  let b := untilVerb a.2
  .wrap (a.1 ++ decimal n ++ b.1) e b.2

/-- A choice by what `errors.As` has found. -/
def found (o : Option Int) (yes : Int → Er) (no : Er) : Er :=
  match o with
  | some c => yes c
  | none => no

/-- `errors.As` with a pointer to a variable of the named type. -/
def asK (e : GoErr) (ty : Nm) (save : Int → Option (Store Ext)) (s : Store Ext) (k : List V → Store Ext → Er) : Er :=
  let go := fun o => found o (fun c => match save c with | some s' => k [.bool true] s' | none => .stuck) (k [.bool false] s)
  if ty == n!"driver.Error" then go e.asDqlite
  else if ty == n!"sqlite3.Error" then go e.asSqlite
  else .stuck

/-- Save the numbers that were scanned: an integer, or a `sql.NullInt64` of which only the number is of interest. -/
def saveScan : List V → Int → Int → Store Ext → Option (Store Ext)
  | [.ptr r p], a, _, s => s.save r p (.int a)
  | [.ptr r p, .ptr r' p'], a, b, s =>
    (s.save r p (.struct n!"sql.NullInt64" [(n!"Int64", .int a)])).bind fun s => s.save r' p' (.struct n!"sql.NullInt64" [(n!"Int64", .int b)])
  | _, _, _, _ => none

/-- Methods of objects; `retry` is what the field `Retry` of the configuration says. -/
def methEr (retry : GoErr → Bool) (L : Calls Er) (x : ErObj) (m : Nm) (as : List V) (s : Store Ext) (k : List V → Store Ext → Er) : Er :=
  match x with
  | .err e => if m == n!"Error" then k [.bytes e.text] s else .stuck
  | .driver => L n!"Driver" m (erV .driver :: as) fun vs => k vs s
  | .config =>
    if m == n!"Retry" then
      match as with
      | [.ext (.er (.err e))] => k [.bool (retry e)] s
      | _ => .stuck
    else .stuck
  | .database =>
    if m == n!"QueryContext" then .ask (k [erV .rows, .nil] s) fun e => k [.nil, erV (.err e)] s
    else if m == n!"ExecContext" then .ask (k [erV .result, .nil] s) fun e => k [.nil, erV (.err e)] s
    else .stuck
  | .rows =>
    if m == n!"Next" then .next (k [.bool true] s) (k [.bool false] s)
    else if m == n!"Err" then .rowsErr (k [.nil] s) fun e => k [erV (.err e)] s
    else if m == n!"Scan" then .scan (fun a b => match saveScan as a b s with | some s' => k [.nil] s' | none => .stuck) fun e => k [erV (.err e)] s
    else if m == n!"Close" then .close (k [.nil] s)
    else .stuck
  | .metricOf n name label => if m == n!"Inc" || m == n!"Observe" then .count n name label (k [] s) else .stuck
  | _ => .stuck

/-- Functions of libraries and of the package. -/
def funcEr (L : Calls Er) (p m : Nm) (as : List V) (s : Store Ext) (k : List V → Store Ext → Er) : Er :=
  if p == n!"errors" && m == n!"As" then
    match as with
    | [.ext (.er (.err e)), .ptr r q] =>
      match s.load r q with
      | some (.struct ty _) => asK e ty (fun c => s.save r q (.struct ty [(n!"Code", .int c)])) s k
      | _ => .stuck
    | _ => .stuck
  else if p == n!"errors" && m == n!"Is" then
    match as with
    | [.ext (.er (.err e)), .int n] => k [.bool (e.isErrNo n)] s
    | _ => .stuck
  else if p == n!"strings" && m == n!"Contains" then
    match as with
    | [.bytes a, .bytes b] => k [.bool (containsBytes a b)] s
    | _ => .stuck
  else if p == n!"fmt" && m == n!"Errorf" then
    match as with
    | [.bytes f, .int n, .ext (.er (.err e))] => k [erV (.err (errorfWrap f n e))] s
    | [.bytes f] => k [erV (.err (.leaf .plain f))] s
    | _ => .stuck
  else if p == n!"time" && m == n!"Since" then k [.int 0] s
  else if p == 0 && m == n!"float64" then k as s
  else if m == n!"WithLabelValues" then
    match as with
    | [.bytes name, .bytes label] => k [erV (.metricOf p name label)] s
    | _ => .stuck
  else if p == 0 then L 0 m as fun vs => k vs s
  else
    match quietFunc p m as with
    | some vs => k vs s
    | none => .stuck

/-- `sql: no rows in result set` (`database/sql`) -/
def txtNoRows : Bytes := [115, 113, 108, 58, 32, 110, 111, 32, 114, 111, 119, 115, 32, 105, 110, 32, 114, 101, 115, 117, 108, 116, 32, 115, 101, 116]

/-- Numbers: codes of SQLite, `time.Second`, `maxRetries` (`driver.go:279`); the name of the tracer;
`sql.ErrNoRows`; the statements, which are of no interest here. -/
def globEr (p n : Nm) : Option V :=
  if p == n!"driver" && n == n!"ErrBusy" then some (.int errBusy)
  else if p == n!"sqlite3" && n == n!"ErrBusy" then some (.int errBusy)
  else if p == n!"sqlite3" && n == n!"ErrLocked" then some (.int errLocked)
  else if p == n!"time" && n == n!"Second" then some (.int 1000000000)
  else if p == 0 && n == n!"maxRetries" then some (.int maxRetries)
  else if p == 0 && n == n!"otelName" then some .tok
  else if p == n!"sql" && n == n!"ErrNoRows" then some (erV (.err (.leaf .plain txtNoRows)))
  else if p == 0 && elemNm n [n!"revisionIntervalSQL", n!"revSQL", n!"getSizeSQL"] then some (.bytes [])
  else none

/-- `driver.Error` of go-dqlite and `sqlite3.Error`, of which only the code is of interest. -/
def zeroEr (p n : Nm) : Option V :=
  if p == n!"driver" && n == n!"Error" then some (.struct n!"driver.Error" [(n!"Code", .int 0)])
  else if p == n!"sqlite3" && n == n!"Error" then some (.struct n!"sqlite3.Error" [(n!"Code", .int 0)])
  else if p == n!"sql" && n == n!"NullInt64" then some (.struct n!"sql.NullInt64" [(n!"Int64", .int 0)])
  else if p == n!"sql" then some .nil
  else none

/-- Fields (`driver.go:281-291`). -/
def fieldEr (x : ErObj) (f : Nm) : Option V :=
  match x with
  | .driver => if f == n!"config" then some (erV .config) else none
  | .config => if f == n!"DB" then some (erV .database) else if f == n!"Retry" then some .nil else none
  | _ => none

/-- What the texts find around them; `ct` is the meaning of loops. -/
def erHost (ct : Control Ext Er) (retry : GoErr → Bool) (L : Calls Er) : Host Ext Er :=
  { ctl := ct
    fuel := maxRetries + 1
    zero := zeroEr
    glob := globEr
    meth := fun v m as s k =>
      match v with
      | .ext (.er x) => methEr retry L x m as s k
      | .tok => if quiet m then k [.tok] s else .stuck
      | _ => .stuck
    func := funcEr L
    field := fun x f s k =>
      match x with
      | .er x => match fieldEr x f with | some v => k v s | none => .stuck
      | _ => .stuck }

/-- The meaning of loops. -/
def ctlEr : Control Ext Er := .std .stuck

/-- The texts. -/
def erFuncs : List FuncDecl :=
  [Errors.f_dqliteRetry, Errors.f_errorToResultLabel, Errors.f_recordTxResult, Errors.f_recordOpResult, Driver.f_query, Driver.f_execute,
    Driver.f_GetCompactRevision, Driver.f_CurrentRevision, Driver.f_GetSize]

/-- Calls. -/
def erCalls (ct : Control Ext Er) (retry : GoErr → Bool) : Nat → Calls Er := textCalls .stuck (erHost ct retry) erFuncs

/-- `dqliteRetry(err)`. -/
def dqliteRetryGo (e : GoErr) : Er := Errors.f_dqliteRetry.run (erHost ctlEr (fun _ => false) fun _ _ _ _ => .stuck) [erV (.err e)] (done .ret)

/-- The function that `NewDriver` puts in a configuration without `Retry` (`driver.go:302-310`), applied to an error: `NewDriver` is run until it does
so. -/
def defaultRetryGo (e : GoErr) : Er :=
  let H := erHost ctlEr (fun _ => false) fun _ _ _ _ => .stuck
  Schema.f_NewDriver.run
    { H with
      setField := fun x f v s _ =>
        match x, v with
        | .er .config, .clos ps rs b env => if f == n!"Retry" then runBody H (callClos H 2) ps rs b env [erV (.err e)] s (done .ret) else .stuck
        | _, _ => .stuck }
    [.tok, erV .config] (done .ret)

/-- `d.query(ctx, txName, query, args...)`. -/
def queryGo (retry : GoErr → Bool) (name query : Bytes) (args : List V) : Er :=
  Driver.f_query.run (erHost ctlEr retry (erCalls ctlEr retry 3)) (erV .driver :: .tok :: .bytes name :: .bytes query :: args) (done .ret)
/-- `d.execute(ctx, txName, query, args...)`. -/
def executeGo (retry : GoErr → Bool) (name query : Bytes) (args : List V) : Er :=
  Driver.f_execute.run (erHost ctlEr retry (erCalls ctlEr retry 3)) (erV .driver :: .tok :: .bytes name :: .bytes query :: args) (done .ret)

/-- `d.GetCompactRevision(ctx)`. -/
def getCompactGo (retry : GoErr → Bool) : Er :=
  Driver.f_GetCompactRevision.run (erHost ctlEr retry (erCalls ctlEr retry 4)) [erV .driver, .tok] (done .ret)
/-- `d.CurrentRevision(ctx)`. -/
def currentGo (retry : GoErr → Bool) : Er := Driver.f_CurrentRevision.run (erHost ctlEr retry (erCalls ctlEr retry 4)) [erV .driver, .tok] (done .ret)
/-- `d.GetSize(ctx)`. -/
def getSizeGo (retry : GoErr → Bool) : Er := Driver.f_GetSize.run (erHost ctlEr retry (erCalls ctlEr retry 4)) [erV .driver, .tok] (done .ret)

/-- `d.Count(ctx, key, rangeEnd, revision)` of a driver with schema version `ver`; the newest version is `cur`; which statement is chosen is of no interest here. -/
def countGo (retry : GoErr → Bool) (ver cur : Int) (key rangeEnd : Bytes) (revision : Int) : Er :=
  let H := erHost ctlEr retry (erCalls ctlEr retry 4)
  Driver.f_Count.run
    { H with
      field := fun x f s k => if f == n!"currentSchemaVersion" then k (.int ver) s else H.field x f s k
      glob := fun p n =>
        if n == n!"databaseSchemaVersion" then some (.int cur)
        else if elemNm n [n!"countRevisionSQL", n!"countRevisionSQLV1_0"] then some (.bytes [])
        else H.glob p n }
    [erV .driver, .tok, .bytes key, .bytes rangeEnd, .int revision] (done .ret)

/-- What comes of reading the row: its numbers; no row, perhaps with an error; an error of `Scan`. -/
inductive RowOut where
  | row (a b : Int)
  | ended (e : Option GoErr)
  | bad (e : GoErr)

/-- What running a tree has done: the results, how often the database was asked, what was counted, how often rows were closed. -/
structure ErRun where
  result : List V
  asked : Nat
  counts : List (Nm × Bytes × Bytes)
  closed : Nat := 0

/-- Run a tree: `ans i` is the answer of the database to question `i` (`none`: it did what it was asked), `row` what its rows give. -/
def runEr (ans : Nat → Option GoErr) (row : RowOut) : Er → Nat → List (Nm × Bytes × Bytes) → Nat → Option ErRun
  | .stuck, _, _, _ => none
  | .ret vs, i, cs, n => some ⟨vs, i, cs, n⟩
  | .ask ok er, i, cs, n =>
    match ans i with
    | none => runEr ans row ok (i + 1) cs n
    | some e => runEr ans row (er e) (i + 1) cs n
  | .count m a b k, i, cs, n => runEr ans row k i (cs ++ [(m, a, b)]) n
  | .next yes no, i, cs, n =>
    match row with
    | .ended _ => runEr ans row no i cs n
    | _ => runEr ans row yes i cs n
  | .rowsErr ok er, i, cs, n =>
    match row with
    | .ended (some e) => runEr ans row (er e) i cs n
    | _ => runEr ans row ok i cs n
  | .scan ok er, i, cs, n =>
    match row with
    | .row a b => runEr ans row (ok a b) i cs n
    | .bad e => runEr ans row (er e) i cs n
    | .ended _ => none
  | .close k, i, cs, n => runEr ans row k i cs (n + 1)

end Verif.Go
