import Verif.Model.Bytes
/-!
# The `kine` table and the SQL statements of the driver

Every definition below is one SQL statement (or SQL building block) of
`/repo/pkg/backend/sqlite/driver.go`, written as relational algebra over a list of rows.

Trusted SQLite behaviour: single statements and transactions are atomic and serialisable;
`INTEGER PRIMARY KEY AUTOINCREMENT` assigns `max(sqlite_sequence, max rowid) + 1`; a bare column next to
`MAX(id)` takes its value from the row attaining the maximum; BINARY collation.
-/

namespace Verif

/-- One row of table `kine` (`/repo/pkg/backend/sqlite/schema.go:57-69`).
Simplifications: `created`/`deleted` are 0/1 integers, here `Bool`; 64-bit integers are unbounded `Int`;
SQL `NULL` and the empty blob are both `[]` for `value`/`old_value` (they scan to the same `[]byte` on the
wire). -/
structure Row where
  id : Int
  name : Bytes
  created : Bool
  deleted : Bool
  createRevision : Int
  prevRevision : Int
  lease : Int
  value : Bytes
  oldValue : Bytes
deriving DecidableEq, Repr

/-- The table and its `sqlite_sequence` entry (`schema.go:60`, AUTOINCREMENT). -/
structure DB where
  rows : List Row
  seq : Int
deriving DecidableEq, Repr

/-- The table right after `CREATE TABLE` (`schema.go:57-73`). -/
def DB.empty : DB := { rows := [], seq := 0 }

/-- Result of an INSERT/UPDATE/DELETE: `sql.Result`. -/
structure ExecResult where
  rowsAffected : Nat
  lastInsertId : Int
deriving DecidableEq, Repr

/-- The name of the compaction marker row: the literal `'compact_rev_key'` in `driver.go:153,218,652`
and `/repo/pkg/backend/internal/backend/backend.go:142,153`. -/
def compactRevKey : Bytes :=
  [0x63, 0x6f, 0x6d, 0x70, 0x61, 0x63, 0x74, 0x5f, 0x72, 0x65, 0x76, 0x5f, 0x6b, 0x65, 0x79]

/-! ## SQL building blocks -/

/-- `ORDER BY`: a stable insertion sort by a boolean order. -/
def insertBy {α : Type} (le : α → α → Bool) (x : α) : List α → List α
  | [] => [x]
  | y :: ys => if le x y then x :: y :: ys else y :: insertBy le x ys

/-- `ORDER BY`. -/
def orderBy {α : Type} (le : α → α → Bool) : List α → List α
  | [] => []
  | x :: xs => insertBy le x (orderBy le xs)

/-- The row attaining `MAX(id)` (bare columns of `SELECT MAX(id), deleted …` come from it). -/
def maxRow : List Row → Option Row
  | [] => none
  | r :: rs =>
    match maxRow rs with
    | none => some r
    | some m => if m.id < r.id then some r else some m

/-- `MAX(id)`; SQL `NULL` is `none`. -/
def maxId (rs : List Row) : Option Int := (maxRow rs).map (·.id)

/-- `GROUP BY name`: the distinct names. -/
def groupNames : List Row → List Bytes
  | [] => []
  | r :: rs =>
    let g := groupNames rs
    if g.contains r.name then g else r.name :: g

/-- `LIMIT ?` appended only when the limit is positive (`driver.go:731-735,782-786`). -/
def limitBy {α : Type} (limit : Int) (rs : List α) : List α :=
  if limit > 0 then rs.take limit.toNat else rs

/-- AUTOINCREMENT: the id given to the next inserted row (`schema.go:60`). -/
def DB.nextId (db : DB) : Int := max db.seq ((maxId db.rows).getD 0) + 1

/-- Insert one row; the id is assigned by the database. -/
def DB.insert (db : DB) (r : Row) : DB :=
  { rows := db.rows ++ [{ r with id := db.nextId }], seq := db.nextId }

/-- `INSERT INTO kine … SELECT …`: insert all selected rows in order. -/
def DB.insertAll (db : DB) : List Row → DB
  | [] => db
  | r :: rs => (db.insert r).insertAll rs

/-- `INSERT INTO kine … SELECT …` with its `sql.Result`. -/
def DB.insertSelect (db : DB) (sel : List Row) : DB × ExecResult :=
  let db' := db.insertAll sel
  (db', { rowsAffected := sel.length, lastInsertId := db'.seq })

/-! ## The statements -/

/-- `revSQL` (`driver.go:88-90`). -/
def revSQL (db : DB) : Option Int := maxId db.rows

/-- The rows a range query looks at: `name >= lo AND name < hi AND id <= rev`
(`driver.go:103-104,132-133,166-167,178-179`). -/
def rangeRows (db : DB) (lo hi : Bytes) (rev : Int) : List Row :=
  db.rows.filter fun r => inRange lo hi r.name && decide (r.id ≤ rev)

/-- `SELECT MAX(mkv.id) … GROUP BY mkv.name` (`driver.go:100-105,163-168,203-206`). -/
def groupMaxIds (rs : List Row) : List Int :=
  (groupNames rs).filterMap fun n => maxId (rs.filter fun r => r.name == n)

/-- `kine AS kv JOIN maxkv ON maxkv.id = kv.id` (`driver.go:98-107`). -/
def joinIds (db : DB) (ids : List Int) : List Row :=
  db.rows.flatMap fun kv => (ids.filter fun i => i == kv.id).map fun _ => kv

/-- `ORDER BY kv.name ASC, kv.id ASC` (`driver.go:109`). -/
def rowLe (a b : Row) : Bool :=
  if a.name == b.name then decide (a.id ≤ b.id) else ble a.name b.name

/-- `listSQL` with optional `LIMIT` (`driver.go:92-109,722-736`); rows are returned whole,
`createRevisionOf` computes the selected `create_revision`. -/
def listSQL (db : DB) (lo hi : Bytes) (rev limit : Int) : List Row :=
  limitBy limit (orderBy rowLe
    ((joinIds db (groupMaxIds (rangeRows db lo hi rev))).filter fun kv => !kv.deleted))

/-- The CTE `maxkv` of `listSqlV1_0`: `SELECT MAX(id) … GROUP BY name HAVING deleted = 0 ORDER BY name`
(`driver.go:129-137`), as the rows attaining the maxima. -/
def maxkvV1 (db : DB) (lo hi : Bytes) (rev : Int) : List Row :=
  let rs := rangeRows db lo hi rev
  ((orderBy ble (groupNames rs)).filterMap fun n => maxRow (rs.filter fun r => r.name == n)).filter
    fun m => !m.deleted

/-- `listSqlV1_0` with optional `LIMIT` (`driver.go:128-147,722-736`): `maxkv CROSS JOIN kine kv ON
maxkv.id = kv.id` keeps the order of the outer loop. -/
def listSqlV1_0 (db : DB) (lo hi : Bytes) (rev limit : Int) : List Row :=
  limitBy limit ((maxkvV1 db lo hi rev).flatMap fun m => db.rows.filter fun kv => kv.id == m.id)

/-- `CASE WHEN kv.created THEN kv.id ELSE kv.create_revision END`
(`driver.go:95,140-143,226-229,262-265`). -/
def createRevisionOf (r : Row) : Int := if r.created then r.id else r.createRevision

/-- Maximum of `prev_revision`; SQL `NULL` is `none`. -/
def maxPrev : List Row → Option Int
  | [] => none
  | r :: rs =>
    match maxPrev rs with
    | none => some r.prevRevision
    | some m => some (if m < r.prevRevision then r.prevRevision else m)

/-- `revisionIntervalSQL` (`driver.go:149-157`): (low, high), `NULL` as `none`. -/
def revisionIntervalSQL (db : DB) : Option Int × Option Int :=
  (maxPrev (db.rows.filter fun r => r.name == compactRevKey), maxId db.rows)

/-- `countRevisionSQL` (`driver.go:159-171`). -/
def countRevisionSQL (db : DB) (lo hi : Bytes) (rev : Int) : Nat :=
  ((joinIds db (groupMaxIds (rangeRows db lo hi rev))).filter fun kv => !kv.deleted).length

/-- `countRevisionSQLV1_0` (`driver.go:173-182`). -/
def countRevisionSQLV1_0 (db : DB) (lo hi : Bytes) (rev : Int) : Nat :=
  let rs := rangeRows db lo hi rev
  (((groupNames rs).filterMap fun n => maxRow (rs.filter fun r => r.name == n)).filter
    fun m => !m.deleted).length

/-- `ORDER BY id ASC` (`driver.go:189,195`). -/
def idLe (a b : Row) : Bool := decide (a.id ≤ b.id)

/-- `afterSQLPrefix` (`driver.go:184-189`): `start < id AND id <= end`. -/
def afterSQLPrefix (db : DB) (lo hi : Bytes) (start stop : Int) : List Row :=
  orderBy idLe (db.rows.filter fun r =>
    inRange lo hi r.name && decide (start < r.id) && decide (r.id ≤ stop))

/-- `afterSQL` with optional `LIMIT` (`driver.go:191-195,780-787`). -/
def afterSQL (db : DB) (rev limit : Int) : List Row :=
  limitBy limit (orderBy idLe (db.rows.filter fun r => decide (r.id > rev)))

/-- `ttlSQL` (`driver.go:197-209`); the query has no `ORDER BY`, the order of the result is not used. -/
def ttlSQL (db : DB) (rev : Int) : List Row :=
  (joinIds db (groupMaxIds (db.rows.filter fun r => decide (r.id ≤ rev)))).filter
    fun kv => !kv.deleted && decide (kv.lease ≠ 0)

/-- `deleteRevSQL` (`driver.go:211-213`). -/
def deleteRevSQL (db : DB) (rev : Int) : DB × ExecResult :=
  ({ db with rows := db.rows.filter fun r => !(r.id == rev) },
   { rowsAffected := (db.rows.filter fun r => r.id == rev).length, lastInsertId := db.seq })

/-- `updateCompactSQL` (`driver.go:215-218`). -/
def updateCompactSQL (db : DB) (rev : Int) : DB :=
  { db with rows := db.rows.map fun r =>
      if r.name == compactRevKey then { r with prevRevision := max r.prevRevision rev } else r }

/-- The `FROM kine WHERE id = (SELECT MAX(id) … WHERE name = ?) AND deleted = 0 AND id = ?` part shared by
`deleteSQL` and `updateSQL` (`driver.go:234-236,270-272`). -/
def casRows (db : DB) (key : Bytes) (rev : Int) : List Row :=
  db.rows.filter fun r =>
    (some r.id == maxId (db.rows.filter fun q => q.name == key)) && !r.deleted && (r.id == rev)

/-- `deleteSQL` (`driver.go:220-236`). -/
def deleteSQL (db : DB) (key : Bytes) (rev : Int) : DB × ExecResult :=
  db.insertSelect ((casRows db key rev).map fun r =>
    { id := 0, name := r.name, created := false, deleted := true,
      createRevision := createRevisionOf r, prevRevision := r.id,
      lease := r.lease, value := [], oldValue := r.value })

/-- `createSQL` (`driver.go:238-254`): the sub-select always yields one row (aggregate without GROUP BY),
with `NULL`s when no row has the name. -/
def createSQL (db : DB) (key : Bytes) (lease : Int) (value : Bytes) : DB × ExecResult :=
  let maxkv := maxRow (db.rows.filter fun r => r.name == key)
  let sel : List Row :=
    match maxkv with
    | none =>
      [{ id := 0, name := key, created := true, deleted := false, createRevision := 0,
         prevRevision := 0, lease := lease, value := value, oldValue := [] }]
    | some m =>
      if m.deleted then
        [{ id := 0, name := key, created := true, deleted := false, createRevision := 0,
           prevRevision := m.id, lease := lease, value := value, oldValue := [] }]
      else []
  db.insertSelect sel

/-- `updateSQL` (`driver.go:256-272`). -/
def updateSQL (db : DB) (key : Bytes) (lease : Int) (value : Bytes) (rev : Int) : DB × ExecResult :=
  db.insertSelect ((casRows db key rev).map fun r =>
    { id := 0, name := key, created := false, deleted := false,
      createRevision := createRevisionOf r, prevRevision := r.id,
      lease := lease, value := value, oldValue := r.value })

/-- First DELETE of `tryCompact` (`driver.go:647-659`): superseded rows. -/
def compactSupersededSQL (db : DB) (start stop : Int) : DB :=
  let ids := (db.rows.filter fun r =>
      !(r.name == compactRevKey) && !r.created && !(r.prevRevision == 0)
        && decide (start < r.id) && decide (r.id ≤ stop)).map (·.prevRevision)
  { db with rows := db.rows.filter fun r => !(ids.contains r.id) }

/-- Second DELETE of `tryCompact` (`driver.go:661-667`): tombstones. -/
def compactTombstonesSQL (db : DB) (start stop : Int) : DB :=
  { db with rows := db.rows.filter fun r =>
      !(r.deleted && decide (start < r.id) && decide (r.id ≤ stop)) }

/-- The whole transaction of `tryCompact` (`driver.go:616-673`). -/
def tryCompactTx (db : DB) (start stop : Int) : DB :=
  updateCompactSQL (compactTombstonesSQL (compactSupersededSQL db start stop) start stop) stop

end Verif
