import Verif.Model.GoBackend
import Verif.Model.GoTextDriver
import Verif.Model.GoTextDqlite
import Verif.Model.SqlText
/-!
# What the functions of `pkg/backend/sqlite/driver.go` and `pkg/backend/dqlite/driver.go` find around them

The database, as operations in continuation passing style (`DbOps`), and the cursor of the query under way (`CursorOps`). The statements of
the driver are known by the names of their constants (`Ext.sql`); `progDb` gives them the meaning they have in `Model/Sql.lean`, which is the
meaning of their texts by C73. The database answers each statement with an `Outcome`.
-/

namespace Verif.Go

open Verif.GoText

/-- The database. Queries leave their cursor open. There is at most one transaction at a time. -/
structure DbOps (R : Type) where
  /-- name of the statement, with or without ` LIMIT ?`, arguments -/
  query : Nm → Bool → List V → R → (ApiErr → R) → R
  exec : Nm → List V → (Int → Int → R) → (ApiErr → R) → R
  begin_ : R → (ApiErr → R) → R
  txExec : V → List V → R → (ApiErr → R) → R
  commit : R → (ApiErr → R) → R
  /-- was there a transaction to roll back? -/
  rollback : (Bool → R) → R

/-- `d.config.Retry`. -/
def retryOf : ApiErr → Bool
  | .db e => e.retry
  | _ => false

/-- Zero values. -/
def zeroDriver (n : Nm) : Option V :=
  if n == n!"NullInt64" then some (.struct n [(n!"Int64", .int 0), (n!"Valid", .bool false)])
  else if n == n!"Result" then some .nil
  else none

/-- Constants: the statements (`/repo/pkg/backend/sqlite/driver.go:86-277`), `maxRetries` (`driver.go:279`), `databaseSchemaVersion`
(`schema.go:19-25`), errors of `database/sql`. -/
def globDriver (p n : Nm) : Option V :=
  if p == 0 && elemNm n [n!"revSQL", n!"listSQL", n!"listSqlV1_0", n!"revisionIntervalSQL", n!"countRevisionSQL", n!"countRevisionSQLV1_0",
    n!"afterSQLPrefix", n!"afterSQL", n!"ttlSQL", n!"deleteRevSQL", n!"updateCompactSQL", n!"deleteSQL", n!"createSQL", n!"updateSQL",
    n!"getSizeSQL"] then some (.ext (.sql n false))
  else if p == 0 && n == n!"maxRetries" then some (.int 500)
  else if p == 0 && n == n!"databaseSchemaVersion" then some (.int 65536)
  else if p == n!"sql" && n == n!"ErrNoRows" then some (.ext (.err (.db .other)))
  else if p == n!"sql" && n == n!"ErrTxDone" then some (.ext .txDone)
  else constV p n

/-- `*Driver` of `pkg/backend/sqlite`, opened on a database with the schema version `ver`. -/
def driverRV (ver : Int) : V :=
  msg n!"Driver" [(n!"config", msg n!"DriverConfig" [(n!"DB", .struct n!"DB" [])]), (n!"currentSchemaVersion", .int ver)]

/-- Methods of `database.Interface`. -/
def dbMeth {R : Type} (stuck : R) (Db : DbOps R) (m : Nm) (args : List V) (k : List V → R) : R :=
  match args with
  | _ :: .ext (.sql n lim) :: args =>
    if m == n!"QueryContext" then Db.query n lim args (k [.ext .rows, .nil]) fun e => k [.nil, .ext (.err e)]
    else if m == n!"ExecContext" then
      bif lim then stuck else Db.exec n args (fun a b => k [.ext (.result a b), .nil]) fun e => k [.nil, .ext (.err e)]
    else stuck
  | [_, .nil] =>
    if m == n!"BeginTx" then Db.begin_ (k [.struct n!"Tx" [], .nil]) fun e => k [.nil, .ext (.err e)] else stuck
  | _ => stuck

/-- Methods of the transaction. -/
def txMeth {R : Type} (stuck : R) (Db : DbOps R) (m : Nm) (args : List V) (k : List V → R) : R :=
  match args with
  | [] =>
    if m == n!"Commit" then Db.commit (k [.nil]) fun e => k [.ext (.err e)]
    else if m == n!"Rollback" then Db.rollback fun b => bif b then k [.nil] else k [.ext .txDone]
    else stuck
  | _ :: st :: args => if m == n!"ExecContext" then Db.txExec st args (k [.tok, .nil]) fun e => k [.nil, .ext (.err e)] else stuck
  | _ => stuck

/-- The codes of `%s LIMIT ?`. -/
def limitFmt : List UInt8 := [37, 115, 32, 76, 73, 77, 73, 84, 32, 63]

/-- The host of the functions of `pkg/backend/sqlite/driver.go`. -/
def driverHost {R : Type} (ct : Control Ext R) (Db : DbOps R) (C : CursorOps R) (L : Calls R) : Host Ext R :=
  { ctl := ct
    fuel := 0
    zero := fun _ n => zeroDriver n
    glob := globDriver
    meth := fun v m as s k =>
      match v with
      | .tok => if quiet m then k [.tok] s else ct.stuck
      | .ext .rows => cursorMeth ct.stuck C m as s k
      | .ext (.result a b) =>
        if m == n!"RowsAffected" then k [.int a, .nil] s
        else if m == n!"LastInsertId" then k [.int b, .nil] s
        else ct.stuck
      | .struct t _ =>
        if t == n!"DB" then dbMeth ct.stuck Db m as fun vs => k vs s
        else if t == n!"Tx" then txMeth ct.stuck Db m as fun vs => k vs s
        else ct.stuck
      | .imm (.struct t _) =>
        if t == n!"DriverConfig" then
          match as with
          | [.ext (.err e)] => if m == n!"Retry" then k [.bool (retryOf e)] s else ct.stuck
          | _ => ct.stuck
        else L t m (v :: as) fun vs => k vs s
      | _ => ct.stuck
    func := fun p m as s k =>
      match as with
      | [.bytes f, .ext (.sql n false)] =>
        if p == n!"fmt" && m == n!"Sprintf" && f == limitFmt then k [.ext (.sql n true)] s else ct.stuck
      | [.ext a, .ext b] => if p == n!"errors" && m == n!"Is" then k [.bool (decide (a = b))] s else ct.stuck
      | _ =>
        match quietFunc p m as with
        | some vs => k vs s
        | none => ct.stuck }

/-- The functions of `pkg/backend/sqlite/driver.go`. -/
def driverFuncs : List FuncDecl :=
  [Driver.f_query, Driver.f_execute, Driver.f_Count, Driver.f_Create, Driver.f_Update, Driver.f_Delete, Driver.f_Compact, Driver.f_tryCompact,
    Driver.f_GetCompactRevision, Driver.f_DeleteRevision, Driver.f_List, Driver.f_ListTTL, Driver.f_CurrentRevision, Driver.f_AfterPrefix,
    Driver.f_After, Driver.f_GetSize]

/-- Calls among them. -/
def driverCalls {R : Type} (ct : Control Ext R) (Db : DbOps R) (C : CursorOps R) (n : Nat) : Calls R :=
  textCalls ct.stuck (driverHost ct Db C) driverFuncs n

/-! ### `pkg/backend/dqlite/driver.go` -/

/-- What go-dqlite says about the leader. -/
structure AppOps (R : Type) where
  id : Int
  client : R → (ApiErr → R) → R
  leader : (Int → R) → (ApiErr → R) → R

/-- `*Driver` of `pkg/backend/dqlite`: it embeds the driver of `pkg/backend/sqlite`. -/
def dqliteRV : V := msg n!"Driver" [(n!"Driver", .struct n!"Embedded" []), (n!"app", .struct n!"App" [])]

/-- The host of its functions; `S` is called for methods of the embedded driver. -/
def dqliteHost {R : Type} (ct : Control Ext R) (A : AppOps R) (S : Nm → List V → (List V → R) → R) (L : Calls R) : Host Ext R :=
  { ctl := ct
    fuel := 0
    zero := fun _ _ => none
    glob := constV
    meth := fun v m as s k =>
      match v with
      | .tok => if quiet m then k [.tok] s else ct.stuck
      | .struct t _ =>
        if t == n!"Embedded" then S m as fun vs => k vs s
        else if t == n!"App" && m == n!"ID" then k [.int A.id] s
        else if t == n!"App" && m == n!"Client" then A.client (k [.struct n!"Client" [], .nil] s) fun e => k [.nil, .ext (.err e)] s
        else if t == n!"Client" && m == n!"Leader" then
          A.leader (fun i => k [msg n!"NodeInfo" [(n!"ID", .int i)], .nil] s) fun e => k [.nil, .ext (.err e)] s
        else if t == n!"Client" && m == n!"Close" then k [.nil] s
        else ct.stuck
      | .imm (.struct t _) => L t m (v :: as) fun vs => k vs s
      | _ => ct.stuck
    func := fun p m as s k =>
      match quietFunc p m as with
      | some vs => k vs s
      | none => ct.stuck }

/-- Calls among them. -/
def dqliteCalls {R : Type} (ct : Control Ext R) (A : AppOps R) (S : Nm → List V → (List V → R) → R) (n : Nat) : Calls R :=
  textCalls ct.stuck (dqliteHost ct A S) [Dqlite.f_Compact, Dqlite.f_isLocalNodeLeader] n

/-! ### The database of the model -/

/-- Integers and NULL. -/
def optInt : Option Int → V
  | some n => .int n
  | none => .nil

/-- `LIMIT ?` of SQLite: negative limits are none. -/
def sqlLimit {α : Type} (n : Int) (l : List α) : List α := if n < 0 then l else l.take n.toNat

/-- Columns of `ttlSQL` (`driver.go:197-200`). -/
def ttlCols (r : Row) : List V := [.int r.id, .bytes r.name, .int r.lease]

/-- The rows a query selects, by the name of the statement and its arguments. -/
def selOf (n : Nm) (lim : Bool) (args : List V) : Option (DB → List (List V)) :=
  match args with
  | [] =>
    if lim then none
    else if n == n!"revSQL" then some fun db => [[optInt (revSQL db)]]
    else if n == n!"revisionIntervalSQL" then some fun db => [[optInt (revisionIntervalSQL db).1, optInt (revisionIntervalSQL db).2]]
    else none
  | [.int rev] =>
    if lim then none
    else if n == n!"afterSQL" then some fun db => (afterSQL db rev 0).map eventCols
    else if n == n!"ttlSQL" then some fun db => (ttlSQL db rev).map ttlCols
    else none
  | [.int rev, .int l] =>
    if lim && n == n!"afterSQL" then some fun db => (sqlLimit l (afterSQL db rev 0)).map eventCols else none
  | [.bytes lo, .bytes hi, .int rev] =>
    if lim then none
    else if n == n!"listSQL" then some fun db => (listSQL db lo hi rev 0).map listCols
    else if n == n!"listSqlV1_0" then some fun db => (listSqlV1_0 db lo hi rev 0).map listCols
    else if n == n!"countRevisionSQL" then some fun db => [[.int (countRevisionSQL db lo hi rev)]]
    else if n == n!"countRevisionSQLV1_0" then some fun db => [[.int (countRevisionSQLV1_0 db lo hi rev)]]
    else none
  | [.bytes lo, .bytes hi, .int a, .int b] =>
    if lim && n == n!"listSQL" then some fun db => (sqlLimit b (listSQL db lo hi a 0)).map listCols
    else if lim && n == n!"listSqlV1_0" then some fun db => (sqlLimit b (listSqlV1_0 db lo hi a 0)).map listCols
    else if !lim && n == n!"afterSQLPrefix" then some fun db => (afterSQLPrefix db lo hi a b).map eventCols
    else none
  | _ => none

/-- What a statement does, by its name and arguments. The model has one key for the two places of the key in `createSQL` and
`updateSQL`. -/
def execOf (n : Nm) (args : List V) : Option (DB → DB × ExecResult) :=
  match args with
  | [.int rev] => if n == n!"deleteRevSQL" then some fun db => deleteRevSQL db rev else none
  | [.bytes key, .int rev] => if n == n!"deleteSQL" then some fun db => deleteSQL db key rev else none
  | [.bytes key, .int lease, .bytes value, .bytes key'] =>
    if n == n!"createSQL" && key == key' then some fun db => createSQL db key lease value else none
  | [.bytes key, .int lease, .bytes value, .bytes key', .int rev] =>
    if n == n!"updateSQL" && key == key' then some fun db => updateSQL db key lease value rev else none
  | _ => none

/-- The bytes of a text. -/
def textBytes (s : String) : List UInt8 := s.toList.map fun c => UInt8.ofNat c.toNat

/-- What a statement of the compaction transaction does, by its text or name. -/
def txOf (st : V) (args : List V) : Option (DB → DB) :=
  match st, args with
  | .bytes t, [.int a, .int b] =>
    if t == textBytes SqlText.compactSuperseded then some fun db => compactSupersededSQL db a b
    else if t == textBytes SqlText.compactTombstones then some fun db => compactTombstonesSQL db a b
    else none
  | .ext (.sql n false), [.int a] => if n == n!"updateCompactSQL" then some fun db => updateCompactSQL db a else none
  | _, _ => none

/-- The effects of a transaction, the last first. -/
def txEff : List (DB → DB) → DB → DB
  | [] => id
  | f :: fs => fun db => f (txEff fs db)

/-- The database of the model. `fault i` is an error of the `i`-th step of a transaction (0 is its begin), which is then rolled back. -/
def progDb {Y : Type} (st : Prog Y) (fault : Nat → Option DbErr) : DbOps (SProg Y) :=
  { query := fun n lim args ok er => ⟨fun c =>
      match selOf n lim args with
      | none => st
      | some sel => .stmt id fun o db =>
        match o with
        | .ok => ok.run (.opened c.calls (sel db) none)
        | .trunc m => ok.run (.opened c.calls (sel db) (some m))
        | .fail e => (er (.db e)).run (.closed c.calls)
        | .lost e => (er (.db e)).run (.closed c.calls)⟩
    exec := fun n args ok er => ⟨fun c =>
      match execOf n args with
      | none => st
      | some f => .stmt (fun db => (f db).1) fun o db =>
        match o with
        | .ok => (ok (f db).2.rowsAffected (f db).2.lastInsertId).run c
        | .trunc _ => (ok (f db).2.rowsAffected (f db).2.lastInsertId).run c
        | .fail e => (er (.db e)).run c
        | .lost e => (er (.db e)).run c⟩
    begin_ := fun ok er => ⟨fun c =>
      match c.tx, fault 0 with
      | some _, _ => st
      | none, some e => (er (.db e)).run c
      | none, none => ok.run { c with tx := some [] }⟩
    txExec := fun s args ok er => ⟨fun c =>
      match c.tx, txOf s args with
      | some fs, some f =>
        match fault (fs.length + 1) with
        | some e => (er (.db e)).run c
        | none => ok.run { c with tx := some (f :: fs) }
      | _, _ => st⟩
    commit := fun ok er => ⟨fun c =>
      match c.tx with
      | none => st
      | some fs => .stmt (txEff fs) fun o _ =>
        match o with
        | .ok => ok.run { c with tx := none }
        | .trunc _ => ok.run { c with tx := none }
        | .fail e => (er (.db e)).run { c with tx := none }
        | .lost e => (er (.db e)).run { c with tx := none }⟩
    rollback := fun k => ⟨fun c => (k c.tx.isSome).run { c with tx := none }⟩ }

/-- What go-dqlite answers when it is asked for the leader. -/
inductive LeaderAns where
  | noClient (e : DbErr)
  | noLeader (e : DbErr)
  | leader (id : Int)

/-- What the check for the leader makes of it. -/
def LeaderAns.isLocal (self : Int) : LeaderAns → Option Bool
  | .leader i => some (decide (self = i))
  | _ => none

/-- go-dqlite in the model: `ans i` is the answer to the `i`-th question. -/
def progApp {Y : Type} (self : Int) (ans : Nat → LeaderAns) : AppOps (SProg Y) :=
  { id := self
    client := fun ok er => ⟨fun c =>
      match ans c.calls with
      | .noClient e => (er (.db e)).run (.closed (c.calls + 1))
      | _ => ok.run c⟩
    leader := fun ok er => ⟨fun c =>
      match ans c.calls with
      | .leader i => (ok i).run (.closed (c.calls + 1))
      | .noLeader e => (er (.db e)).run (.closed (c.calls + 1))
      | .noClient e => (er (.db e)).run (.closed (c.calls + 1))⟩ }

end Verif.Go
