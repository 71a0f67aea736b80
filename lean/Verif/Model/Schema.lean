import Verif.Model.Sql
import Verif.Model.Prog
import Verif.Model.Batched
/-!
# Schema versions and schema setup: `/repo/pkg/backend/sqlite/schema.go`, `/repo/pkg/backend/sqlite/driver.go:293-402`

`int16` and `int32` are bit vectors. A transaction works on a copy that becomes visible with the commit; a crash is a
failure at the point where it happens.
-/

namespace Verif

/-- `NewSchemaVersion` (`schema.go:23-25`): both operands are sign-extended to 32 bits. -/
def packVersion (major minor : BitVec 16) : BitVec 32 := (major.signExtend 32 <<< 16) ||| minor.signExtend 32

/-- `SchemaVersion.Major` (`schema.go:27-30`): arithmetic shift of a signed integer. -/
def versionMajor (v : BitVec 32) : BitVec 16 := (v.sshiftRight 16).truncate 16

/-- `SchemaVersion.Minor` (`schema.go:32-35`). -/
def versionMinor (v : BitVec 32) : BitVec 16 := v.truncate 16

/-- `SchemaVersion.CompatibleWith` returns no error (`schema.go:37-46`). -/
def versionCompatible (sv target : BitVec 32) : Bool :=
  if versionMajor sv = 0 ∧ versionMinor sv = 0 then true else versionMajor sv = versionMajor target

/-- `databaseSchemaVersion` (`schema.go:19`). -/
def currentVersion : BitVec 32 := packVersion 1 0

/-- The indexes of the table `kine` in the various schemas (`schema.go:77-110`). -/
inductive KineIndex where
  /-- `kine_name_index` -/
  | name
  /-- `kine_name_prev_revision_uindex`, unique on `(prev_revision, name)` -/
  | prevRevision
  /-- `k8s_dqlite_name_del_index`, unique on `(name, id, deleted)` -/
  | nameDel
deriving DecidableEq, Repr

/-- A database file as far as the schema is concerned: `PRAGMA user_version`, the table, if any, and its indexes. -/
structure SchemaDB where
  version : BitVec 32
  kine : Option DB
  indexes : List KineIndex
deriving DecidableEq, Repr

/-- The statements of the migration (`schema.go:51-126`, `driver.go:394-397`). -/
inductive SchemaStmt where
  /-- `hasTable` -/
  | query
  | createTable
  | dropIndex (i : KineIndex)
  | createIndex (i : KineIndex)
  | setVersion (v : BitVec 32)
deriving DecidableEq, Repr

/-- Does a unique index accept the rows? -/
def KineIndex.accepts (i : KineIndex) (rows : List Row) : Bool :=
  match i with
  | .name => true
  | .prevRevision => decide (rows.map fun r => (r.prevRevision, r.name)).Nodup
  | .nameDel => decide (rows.map fun r => (r.name, r.id, r.deleted)).Nodup

/-- Execute one statement. -/
def SchemaStmt.run (s : SchemaStmt) (d : SchemaDB) : Except DbErr SchemaDB :=
  match s with
  | .query => .ok d
  | .createTable =>
    match d.kine with
    | none => .ok { d with kine := some DB.empty }
    | some _ => .error .other
  | .dropIndex i => .ok { d with indexes := d.indexes.filter (· ≠ i) }
  | .createIndex i =>
    match d.kine with
    | none => .error .other
    | some t =>
      if i ∈ d.indexes then .ok d
      else if i.accepts t.rows then .ok { d with indexes := d.indexes ++ [i] } else .error .other
  | .setVersion v => .ok { d with version := v }

/-- Execute statements until one fails; `f n` is a failure of the `n`-th statement that has nothing to do with what it
does (disk, network, cancellation, crash). -/
def runSchema (f : Nat → Option DbErr) : Nat → List SchemaStmt → SchemaDB → Except DbErr SchemaDB
  | _, [], d => .ok d
  | n, s :: ss, d =>
    match f n with
    | some e => .error e
    | none =>
      match s.run d with
      | .error e => .error e
      | .ok d' => runSchema f (n + 1) ss d'

/-- `applySchemaV0_1` (`schema.go:51-93`). -/
def schemaV0_1 (d : SchemaDB) : List SchemaStmt :=
  .query :: (if d.kine.isNone then [.createTable] else [.dropIndex .name, .dropIndex .prevRevision]) ++
    [.createIndex .name, .createIndex .prevRevision]

/-- `applySchemaV1_0` (`schema.go:96-112`). -/
def schemaV1_0 : List SchemaStmt := [.dropIndex .name, .dropIndex .prevRevision, .createIndex .nameDel]

/-- The migration inside the transaction (`driver.go:387-398`). -/
def migration (d : SchemaDB) : List SchemaStmt := schemaV0_1 d ++ schemaV1_0 ++ [.setVersion currentVersion]

/-- Error of `setup`. -/
inductive SetupErr where
  | incompatible
  | db (e : DbErr)
deriving DecidableEq, Repr

/-- What fails during `setup`: getting the connection, the first read, beginning the transaction, the second read, the
statements of the migration, the commit. -/
structure SetupFaults where
  conn : Option DbErr
  read : Option DbErr
  begin : Option DbErr
  read2 : Option DbErr
  stmts : Nat → Option DbErr
  commit : CommitOut

/-- `setup` (`driver.go:348-402`). `seen` is the version read without a transaction, `d` the database when the
transaction begins (other nodes may have migrated in between). Returns the database afterwards, and the version or the
error. -/
def setup (seen : BitVec 32) (f : SetupFaults) (d : SchemaDB) : SchemaDB × Except SetupErr (BitVec 32) :=
  match f.conn with
  | some e => (d, .error (.db e))
  | none =>
  match f.read with
  | some e => (d, .error (.db e))
  | none =>
  if !versionCompatible seen currentVersion then (d, .ok seen)
  else if currentVersion.sle seen then (d, .ok seen)
  else
  match f.begin with
  | some e => (d, .error (.db e))
  | none =>
  match f.read2 with
  | some e => (d, .error (.db e))
  | none =>
  if !versionCompatible d.version currentVersion then (d, .error .incompatible)
  else if currentVersion.sle d.version then (d, .ok d.version)
  else
  match (if d.version = packVersion 0 0 then runSchema f.stmts 0 (migration d) d else .ok d) with
  | .error e => (d, .error (.db e))
  | .ok d' =>
    match f.commit with
    | .ok => (d', .ok d.version)
    | .fail e => (d, .error (.db e))
    | .lost e => (d', .error (.db e))

/-- The loop of `NewDriver` (`driver.go:312-336`): at most `n` attempts; attempt `i` sees `seen i` and has faults `f i`;
`between i` is what other nodes do to the database before attempt `i`; `ctxDone i` tells whether the context is done in
the pause after it. Returns the database and the answer, and how many attempts were made. -/
def newDriver (seen : Nat → BitVec 32) (f : Nat → SetupFaults) (between : Nat → SchemaDB → SchemaDB)
    (ctxDone : Nat → Bool) : Nat → Nat → SchemaDB → SchemaDB × Except SetupErr (BitVec 32) × Nat
  | 0, i, d => (d, .error (.db .other), i)
  | n + 1, i, d =>
    match setup (seen i) (f i) (between i d) with
    | (d', .ok v) => (d', .ok v, i + 1)
    | (d', .error .incompatible) => (d', .error .incompatible, i + 1)
    | (d', .error (.db e)) =>
      if ctxDone i then (d', .error (.db .canceled), i + 1)
      else if n = 0 then (d', .error (.db e), i + 1)
      else newDriver seen f between ctxDone n (i + 1) d'

end Verif
