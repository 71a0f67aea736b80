import Verif.Model.GoHost
import Verif.Model.GoTextSchema
import Verif.Model.Schema
/-!
# Running the texts of `/repo/pkg/backend/sqlite/schema.go` and of `setup` and `NewDriver` (`driver.go:293-402`)

The texts run as trees (`Su`) of what they do to the database and to the context; `runSu` runs a tree on a database, with the failures and the other
nodes of `Model/Schema.lean`.

Simplifications: the statements of the migration are recognised by their texts and mean what `SchemaStmt` says; the function `Retry` that `NewDriver` puts
into a configuration without one is not called here (see `Model/Errors.lean`); scanning an integer does not fail by itself; after a commit that failed, and
after one that succeeded, `Rollback` does nothing.
-/

namespace Verif.Go

open Verif.GoText.Schema

/-! ### Statements -/

/-- `CREATE TABLE kine (…)` (`schema.go:60-71`). -/
def sqlCreateTable : List Nat :=
  [10, 9, 9, 67, 82, 69, 65, 84, 69, 32, 84, 65, 66, 76, 69, 32, 107, 105, 110, 101, 10, 9, 9, 40, 10, 9, 9, 9, 105, 100, 32, 73, 78, 84, 69, 71, 69,
  82, 32, 80, 82, 73, 77, 65, 82, 89, 32, 75, 69, 89, 32, 65, 85, 84, 79, 73, 78, 67, 82, 69, 77, 69, 78, 84, 44, 10, 9, 9, 9, 110, 97, 109, 101, 32,
  84, 69, 88, 84, 32, 78, 79, 84, 32, 78, 85, 76, 76, 44, 10, 9, 9, 9, 99, 114, 101, 97, 116, 101, 100, 32, 73, 78, 84, 69, 71, 69, 82, 44, 10, 9, 9,
  9, 100, 101, 108, 101, 116, 101, 100, 32, 73, 78, 84, 69, 71, 69, 82, 44, 10, 9, 9, 9, 99, 114, 101, 97, 116, 101, 95, 114, 101, 118, 105, 115,
  105, 111, 110, 32, 73, 78, 84, 69, 71, 69, 82, 32, 78, 79, 84, 32, 78, 85, 76, 76, 44, 10, 9, 9, 9, 112, 114, 101, 118, 95, 114, 101, 118, 105,
  115, 105, 111, 110, 32, 73, 78, 84, 69, 71, 69, 82, 44, 10, 9, 9, 9, 108, 101, 97, 115, 101, 32, 73, 78, 84, 69, 71, 69, 82, 44, 10, 9, 9, 9, 118,
  97, 108, 117, 101, 32, 66, 76, 79, 66, 44, 10, 9, 9, 9, 111, 108, 100, 95, 118, 97, 108, 117, 101, 32, 66, 76, 79, 66, 10, 9, 9, 41]

/-- `SELECT COUNT(*) FROM sqlite_master WHERE type = 'table' AND name = ?` (`schema.go:118`). -/
def sqlTableList : List Nat :=
  [83, 69, 76, 69, 67, 84, 32, 67, 79, 85, 78, 84, 40, 42, 41, 32, 70, 82, 79, 77, 32, 115, 113, 108, 105, 116, 101, 95, 109, 97, 115, 116, 101, 114,
  32, 87, 72, 69, 82, 69, 32, 116, 121, 112, 101, 32, 61, 32, 39, 116, 97, 98, 108, 101, 39, 32, 65, 78, 68, 32, 110, 97, 109, 101, 32, 61, 32, 63]

/-- `DROP INDEX IF EXISTS kine_name_index` (`schema.go:79,99`). -/
def sqlDropName : List Nat :=
  [68, 82, 79, 80, 32, 73, 78, 68, 69, 88, 32, 73, 70, 32, 69, 88, 73, 83, 84, 83, 32, 107, 105, 110, 101, 95, 110, 97, 109, 101, 95, 105, 110, 100,
  101, 120]

/-- `DROP INDEX IF EXISTS kine_name_prev_revision_uindex` (`schema.go:82,103`). -/
def sqlDropPrev : List Nat :=
  [68, 82, 79, 80, 32, 73, 78, 68, 69, 88, 32, 73, 70, 32, 69, 88, 73, 83, 84, 83, 32, 107, 105, 110, 101, 95, 110, 97, 109, 101, 95, 112, 114, 101,
  118, 95, 114, 101, 118, 105, 115, 105, 111, 110, 95, 117, 105, 110, 100, 101, 120]

/-- `CREATE INDEX IF NOT EXISTS kine_name_index ON kine (name, id)` (`schema.go:87`). -/
def sqlCreateName : List Nat :=
  [67, 82, 69, 65, 84, 69, 32, 73, 78, 68, 69, 88, 32, 73, 70, 32, 78, 79, 84, 32, 69, 88, 73, 83, 84, 83, 32, 107, 105, 110, 101, 95, 110, 97, 109,
  101, 95, 105, 110, 100, 101, 120, 32, 79, 78, 32, 107, 105, 110, 101, 32, 40, 110, 97, 109, 101, 44, 32, 105, 100, 41]

/-- `CREATE UNIQUE INDEX IF NOT EXISTS kine_name_prev_revision_uindex ON kine (prev_revision, name)` (`schema.go:91`). -/
def sqlCreatePrev : List Nat :=
  [67, 82, 69, 65, 84, 69, 32, 85, 78, 73, 81, 85, 69, 32, 73, 78, 68, 69, 88, 32, 73, 70, 32, 78, 79, 84, 32, 69, 88, 73, 83, 84, 83, 32, 107, 105,
  110, 101, 95, 110, 97, 109, 101, 95, 112, 114, 101, 118, 95, 114, 101, 118, 105, 115, 105, 111, 110, 95, 117, 105, 110, 100, 101, 120, 32, 79, 78,
  32, 107, 105, 110, 101, 32, 40, 112, 114, 101, 118, 95, 114, 101, 118, 105, 115, 105, 111, 110, 44, 32, 110, 97, 109, 101, 41]

/-- `CREATE UNIQUE INDEX IF NOT EXISTS k8s_dqlite_name_del_index ON kine (name ASC, id DESC, deleted)` (`schema.go:107`). -/
def sqlCreateDel : List Nat :=
  [67, 82, 69, 65, 84, 69, 32, 85, 78, 73, 81, 85, 69, 32, 73, 78, 68, 69, 88, 32, 73, 70, 32, 78, 79, 84, 32, 69, 88, 73, 83, 84, 83, 32, 107, 56,
  115, 95, 100, 113, 108, 105, 116, 101, 95, 110, 97, 109, 101, 95, 100, 101, 108, 95, 105, 110, 100, 101, 120, 32, 79, 78, 32, 107, 105, 110, 101,
  32, 40, 110, 97, 109, 101, 32, 65, 83, 67, 44, 32, 105, 100, 32, 68, 69, 83, 67, 44, 32, 100, 101, 108, 101, 116, 101, 100, 41]

/-- `PRAGMA user_version` (`driver.go:357,381`). -/
def sqlVersion : List Nat :=
  [80, 82, 65, 71, 77, 65, 32, 117, 115, 101, 114, 95, 118, 101, 114, 115, 105, 111, 110]

/-- `PRAGMA user_version = %d` (`driver.go:394`). -/
def sqlSetVersion : List Nat :=
  [80, 82, 65, 71, 77, 65, 32, 117, 115, 101, 114, 95, 118, 101, 114, 115, 105, 111, 110, 32, 61, 32, 37, 100]

/-- The statement of a text. -/
def schemaStmtOf (q : Bytes) : Option SchemaStmt :=
  if q = litBytes sqlCreateTable then some .createTable
  else if q = litBytes sqlDropName then some (.dropIndex .name)
  else if q = litBytes sqlDropPrev then some (.dropIndex .prevRevision)
  else if q = litBytes sqlCreateName then some (.createIndex .name)
  else if q = litBytes sqlCreatePrev then some (.createIndex .prevRevision)
  else if q = litBytes sqlCreateDel then some (.createIndex .nameDel)
  else none

/-! ### Trees -/

/-- What the texts do, and what they do next. -/
inductive Su where
  | stuck
  | ret (vs : List V)
  /-- `db.Conn` -/
  | conn (ok : Su) (er : DbErr → Su)
  /-- `PRAGMA user_version`, in the transaction or not -/
  | version (tx : Bool) (ok : Int → Su) (er : DbErr → Su)
  | begin (ok : Su) (er : DbErr → Su)
  /-- a statement in the transaction; `hasTable` answers with the number of tables, the others with nothing -/
  | stmt (st : SchemaStmt) (ok : Int → Su) (er : DbErr → Su)
  | commit (ok : Su) (er : DbErr → Su)
  | rollback (k : Su)
  | close (k : Su)
  /-- `select` of the end of the context and a timer -/
  | wait (done after : Su)

/-- An object. -/
def schV (o : SchObj) : V := .ext (.sch o)

/-- An error of the database. -/
def schErrV (e : DbErr) : V := .ext (.err (.db e))

/-- Values of `int16` and `int32`. -/
def wrap16 (n : Int) : Int := n.bmod 65536
/-- Same. -/
def wrap32 (n : Int) : Int := n.bmod 4294967296

/-- Store what was scanned. -/
def scanInt (r : Root) (p : List Nm) (s : Store Ext) (k : List V → Store Ext → Su) (n : Int) : Su :=
  match s.save r p (.int n) with
  | some s => k [.nil] s
  | none => .stuck

/-- Methods of objects. -/
def methSu (x : SchObj) (m : Nm) (as : List V) (s : Store Ext) (k : List V → Store Ext → Su) : Su :=
  match x with
  | .database => if m == n!"Conn" then .conn (k [schV .conn, .nil] s) fun e => k [.nil, schErrV e] s else .stuck
  | .conn =>
    if m == n!"QueryRowContext" then
      match as with
      | [_, .bytes q] => if q = litBytes sqlVersion then k [schV (.row false)] s else .stuck
      | _ => .stuck
    else if m == n!"BeginTx" then
      match as with
      | [_, .nil] => .begin (k [schV .txn, .nil] s) fun e => k [.nil, schErrV e] s
      | _ => .stuck
    else if m == n!"Close" then .close (k [.nil] s)
    else .stuck
  | .txn =>
    if m == n!"QueryRowContext" then
      match as with
      | [_, .bytes q] => if q = litBytes sqlVersion then k [schV (.row true)] s else .stuck
      | [_, .bytes q, .bytes t] => if q = litBytes sqlTableList ∧ t = [107, 105, 110, 101] then k [schV .countRow] s else .stuck
      | _ => .stuck
    else if m == n!"ExecContext" then
      match as with
      | [_, .bytes q] =>
        match schemaStmtOf q with
        | some st => .stmt st (fun _ => k [.tok, .nil] s) fun e => k [.nil, schErrV e] s
        | none => .stuck
      | [_, .list [.bytes q, .int n]] =>
        if q = litBytes sqlSetVersion then .stmt (.setVersion (BitVec.ofInt 32 n)) (fun _ => k [.tok, .nil] s) fun e => k [.nil, schErrV e] s else .stuck
      | _ => .stuck
    else if m == n!"Rollback" then .rollback (k [.nil] s)
    else if m == n!"Commit" then .commit (k [.nil] s) fun e => k [schErrV e] s
    else .stuck
  | .row tx =>
    if m == n!"Scan" then
      match as with
      | [.ptr r p] => .version tx (scanInt r p s k) fun e => k [schErrV e] s
      | _ => .stuck
    else .stuck
  | .countRow =>
    if m == n!"Scan" then
      match as with
      | [.ptr r p] => .stmt .query (scanInt r p s k) fun e => k [schErrV e] s
      | _ => .stuck
    else .stuck
  | .ctx =>
    if m == n!"Done" then k [schV .ctxDone] s
    else if m == n!"Err" then k [schErrV .canceled] s
    else .stuck
  | _ => .stuck

/-- Functions of libraries, conversions, functions of the package. -/
def funcSu (L : Calls Su) (p m : Nm) (as : List V) (s : Store Ext) (k : List V → Store Ext → Su) : Su :=
  if p == n!"fmt" && m == n!"Sprintf" then k [.list as] s
  else if p == n!"errors" && m == n!"New" then
    match as with
    | [.bytes b] => k [schV (.errText b)] s
    | _ => .stuck
  else if p == n!"errors" && m == n!"Is" then
    match as with
    | [.ext a, .ext b] => k [.bool (decide (a = b))] s
    | _ => .stuck
  else if p == n!"time" && m == n!"After" then k [schV .timer] s
  else
    match quietFunc p m as with
    | some vs => k vs s
    | none =>
      if p == 0 then
        match as with
        | [.int n] =>
          if m == n!"int16" then k [.int (wrap16 n)] s
          else if m == n!"int32" || m == n!"SchemaVersion" then k [.int (wrap32 n)] s
          else L 0 m as fun vs => k vs s
        | _ => L 0 m as fun vs => k vs s
      else .stuck

/-- What the texts find around them; `ct` is the meaning of loops. -/
def schemaHost (ct : Control Ext Su) (N : Nat) (L : Calls Su) : Host Ext Su :=
  { ctl := ct
    fuel := N
    zero := fun _ n =>
      if n == n!"SchemaVersion" || n == n!"int16" then some (.int 0)
      else if n == n!"Driver" then some (.struct n [(n!"config", .nil), (n!"currentSchemaVersion", .int 0)])
      else none
    glob := fun p n =>
      if p == 0 && n == n!"databaseSchemaVersion" then some (.int 65536)
      else if p == 0 && n == n!"ErrIncompatibleVersion" then some (schV .incompatible)
      else if p == n!"time" && n == n!"Second" then some (.int 1000000000)
      else none
    meth := fun v m as s k =>
      match v with
      | .ext (.sch x) => methSu x m as s k
      | .int _ => L n!"SchemaVersion" m (v :: as) fun vs => k vs s
      | .tok => if quiet m then k [.tok] s else .stuck
      | _ => .stuck
    func := funcSu L
    field := fun x f s k =>
      match x with
      | .sch (.config db retry) =>
        if f == n!"DB" then k (bif db then schV .database else .nil) s
        else if f == n!"Retry" then k (bif retry then .fn f else .nil) s
        else .stuck
      | _ => .stuck
    setField := fun x f _ s k =>
      match x with
      | .sch (.config _ _) => if f == n!"Retry" then k s else .stuck
      | _ => .stuck
    select := fun cs s k =>
      match cs with
      | [.recv (.ext (.sch .ctxDone)), .recv (.ext (.sch .timer))] => .wait (k 0 [.nil, .bool false] s) (k 1 [.tok, .bool true] s)
      | _ => .stuck }

/-- The texts of the package. -/
def schemaFuncs : List FuncDecl := [f_setup, f_CompatibleWith, f_Major, f_Minor, f_NewSchemaVersion, f_applySchemaV0_1, f_applySchemaV1_0, f_hasTable]

/-- Calls of functions of the package. -/
def schemaCalls (ct : Control Ext Su) (N : Nat) : Nat → Calls Su := textCalls .stuck (schemaHost ct N) schemaFuncs

/-- `NewDriver(ctx, config)`. -/
def newDriverGo (cfg : V) : Su :=
  f_NewDriver.run (schemaHost (Control.std .stuck) 301 (schemaCalls (Control.std .stuck) 301 4)) [schV .ctx, cfg] (done .ret)

/-- `setup(ctx, db)`. -/
def setupGo : Su := f_setup.run (schemaHost (Control.std .stuck) 301 (schemaCalls (Control.std .stuck) 301 3)) [schV .ctx, schV .database] (done .ret)

/-! ### Running trees -/

/-- What attempt `i` finds: the version it reads first, what fails, what other nodes do to the database before it, whether the context ends in the pause after
it (as in `newDriver`). -/
structure SuEnv where
  seen : Nat → BitVec 32
  faults : Nat → SetupFaults
  between : Nat → SchemaDB → SchemaDB
  ctxDone : Nat → Bool

/-- The database file, the copy of the transaction, how many statements it has executed; the pauses until now, the attempts to get a connection; connections
that are open; what commits have made of the file. -/
structure SuSt where
  db : SchemaDB
  work : Option SchemaDB := none
  n : Nat := 0
  i : Nat := 0
  tries : Nat := 0
  conns : Nat := 0
  commits : List SchemaDB := []

/-- Run a tree to its end. -/
def runSu (v : SuEnv) : Su → SuSt → Option (SuSt × List V)
  | .stuck, _ => none
  | .ret vs, s => some (s, vs)
  | .conn ok er, s =>
    let s := { s with db := v.between s.i s.db, tries := s.tries + 1 }
    match (v.faults s.i).conn with
    | some e => runSu v (er e) s
    | none => runSu v ok { s with conns := s.conns + 1 }
  | .version false ok er, s =>
    match (v.faults s.i).read with
    | some e => runSu v (er e) s
    | none => runSu v (ok (v.seen s.i).toInt) s
  | .version true ok er, s =>
    match s.work with
    | none => none
    | some w =>
      match (v.faults s.i).read2 with
      | some e => runSu v (er e) s
      | none => runSu v (ok w.version.toInt) s
  | .begin ok er, s =>
    match (v.faults s.i).begin with
    | some e => runSu v (er e) s
    | none => runSu v ok { s with work := some s.db, n := 0 }
  | .stmt st ok er, s =>
    match s.work with
    | none => none
    | some w =>
      match (v.faults s.i).stmts s.n with
      | some e => runSu v (er e) s
      | none =>
        match st.run w with
        | .error e => runSu v (er e) s
        | .ok w' => runSu v (ok (if w.kine.isSome then 1 else 0)) { s with work := some w', n := s.n + 1 }
  | .commit ok er, s =>
    match s.work with
    | none => none
    | some w =>
      match (v.faults s.i).commit with
      | .ok => runSu v ok { s with db := w, work := none, commits := s.commits ++ [w] }
      | .fail e => runSu v (er e) { s with work := none }
      | .lost e => runSu v (er e) { s with db := w, work := none, commits := s.commits ++ [w] }
  | .rollback k, s => runSu v k { s with work := none }
  | .close k, s => runSu v k { s with conns := s.conns - 1 }
  | .wait done after, s => if v.ctxDone s.i then runSu v done s else runSu v after { s with i := s.i + 1 }

end Verif.Go
