import Verif.Model.Prog
/-!
# `pkg/backend/sqlite/driver.go` and `pkg/backend/dqlite/driver.go`

Methods of `Driver`, one by one, as programs. `v1` says whether the driver found the current schema version
when it was opened (`d.currentSchemaVersion == databaseSchemaVersion`).
-/

namespace Verif

/-- `(*Driver).Count` (`/repo/pkg/backend/sqlite/driver.go:480-507`). -/
def Driver.count (v1 : Bool) (key rangeEnd : Bytes) (revision : Int) : Prog (Except ApiErr Int) :=
  let hi := rangeEndOf key rangeEnd
  (query fun db =>
    if v1 then countRevisionSQLV1_0 db key hi revision else countRevisionSQL db key hi revision).andThen
    fun r => (oneRow r).map (·.map Int.ofNat)

/-- How the three write methods read their `sql.Result` (`driver.go:527-533,548-554,572-579`). -/
def writeResult (r : ExecResult) : Int × Bool :=
  if r.rowsAffected = 0 then (0, false) else (r.lastInsertId, true)

/-- `(*Driver).Create` (`driver.go:509-534`). -/
def Driver.create (key value : Bytes) (lease : Int) : Prog (Except ApiErr (Int × Bool)) :=
  (execute fun db => createSQL db key lease value).andThen fun r => .ret (.ok (writeResult r))

/-- `(*Driver).Update` (`driver.go:536-555`). -/
def Driver.update (key value : Bytes) (preRev lease : Int) : Prog (Except ApiErr (Int × Bool)) :=
  (execute fun db => updateSQL db key lease value preRev).andThen fun r => .ret (.ok (writeResult r))

/-- `(*Driver).Delete` (`driver.go:557-580`). -/
def Driver.delete (key : Bytes) (revision : Int) : Prog (Except ApiErr (Int × Bool)) :=
  (execute fun db => deleteSQL db key revision).andThen fun r => .ret (.ok (writeResult r))

/-- `(*Driver).GetCompactRevision` (`driver.go:675-706`): `NULL`s read as 0. -/
def Driver.getCompactRevision : Prog (Except ApiErr (Int × Int)) :=
  (query revisionIntervalSQL).andThen fun r =>
    (oneRow r).map (·.map fun p => (p.1.getD 0, p.2.getD 0))

/-- The retry loop of `(*Driver).Compact` around `tryCompact` (`driver.go:607-613,616-673`). The transaction
is one atomic statement. -/
def compactLoop (start stop : Int) : Nat → Prog (Except ApiErr Unit)
  | 0 => .ret (.error (.db .busy))
  | n + 1 => .stmt (fun db => tryCompactTx db start stop) fun o _ =>
    match o with
    | .ok => .ret (.ok ())
    | .trunc _ => .ret (.ok ())
    | .fail e => if e.retry then compactLoop start stop n else .ret (.error (.db e))
    | .lost e => if e.retry then compactLoop start stop n else .ret (.error (.db e))

/-- `(*sqlite.Driver).Compact` (`driver.go:585-614`). -/
def Driver.compactSqlite (revision : Int) : Prog (Except ApiErr Unit) :=
  Driver.getCompactRevision.andThen fun (compactStart, currentRevision) =>
    if compactStart ≥ revision then .ret (.ok ())
    else compactLoop compactStart (if revision > currentRevision then currentRevision else revision)
      maxRetries

/-- `(*dqlite.Driver).Compact` (`/repo/pkg/backend/dqlite/driver.go:55-65`): skipped on followers; when the
leader cannot be determined (`none`) compaction proceeds. The plain SQLite backend is `some true`. -/
def Driver.compact (leader : Option Bool) (revision : Int) : Prog (Except ApiErr Unit) :=
  match leader with
  | some false => .ret (.ok ())
  | _ => Driver.compactSqlite revision

/-- `(*Driver).DeleteRevision` (`driver.go:708-720`). -/
def Driver.deleteRevision (revision : Int) : Prog (Except ApiErr Unit) :=
  (execute fun db => deleteRevSQL db revision).andThen fun _ => .ret (.ok ())

/-- `(*Driver).List` (`driver.go:722-736`). -/
def Driver.list (v1 : Bool) (key rangeEnd : Bytes) (limit revision : Int) :
    Prog (Except ApiErr (List Row × Option Nat)) :=
  let hi := rangeEndOf key rangeEnd
  query fun db =>
    if v1 then listSqlV1_0 db key hi revision limit else listSQL db key hi revision limit

/-- `(*Driver).ListTTL` (`driver.go:738-740`). -/
def Driver.listTTL (revision : Int) : Prog (Except ApiErr (List Row × Option Nat)) :=
  query fun db => ttlSQL db revision

/-- `(*Driver).CurrentRevision` (`driver.go:742-771`): on an empty table `MAX(id)` is `NULL`, which cannot
be scanned into an `int64`. -/
def Driver.currentRevision : Prog (Except ApiErr Int) :=
  (query revSQL).andThen fun r => (oneRow r).bind fun
    | .error e => .ret (.error e)
    | .ok none => .ret (.error .nullScan)
    | .ok (some i) => .ret (.ok i)

/-- `(*Driver).AfterPrefix` (`driver.go:773-778`). -/
def Driver.afterPrefix (key rangeEnd : Bytes) (start stop : Int) :
    Prog (Except ApiErr (List Row × Option Nat)) :=
  let hi := rangeEndOf key rangeEnd
  query fun db => afterSQLPrefix db key hi start stop

/-- `(*Driver).After` (`driver.go:780-787`). -/
def Driver.after (rev limit : Int) : Prog (Except ApiErr (List Row × Option Nat)) :=
  query fun db => afterSQL db rev limit

end Verif
