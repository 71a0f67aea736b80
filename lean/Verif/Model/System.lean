import Verif.Model.Limited
/-!
# The running system: one database, any number of requests in flight on any number of nodes

The database is shared (SQLite file or dqlite cluster, statements are serialised). Every request, compaction
run, TTL deletion and node start is a program; programs interleave at statement granularity, each statement
may fail in every way of `Outcome`, and a program may stop for ever at any point (crash of its node, cancelled
request). The history `hist` is a ghost: the log of all rows ever inserted.
-/

namespace Verif

/-- The commit a freshly inserted row stands for. -/
def commitOf (r : Row) : Commit :=
  { rev := r.id, key := r.name, write := if r.deleted then none else some (r.value, r.lease) }

/-- Database plus ghost history. -/
structure World where
  db : DB
  hist : History
deriving DecidableEq, Repr

/-- A fresh database. -/
def World.init : World := { db := DB.empty, hist := [] }

/-- Execute one statement with a given outcome. Newly inserted rows (id beyond the old sequence value) are
logged in the history. -/
def World.exec (w : World) (eff : DB → DB) (o : Outcome) : World :=
  if o.applied then
    let db' := eff w.db
    { db := db', hist := w.hist ++ (db'.rows.filter fun r => decide (w.db.seq < r.id)).map commitOf }
  else w

/-- The create statement of older peers: the previous revision written into the row is arbitrary
(`/repo/pkg/backend/sqlite/driver.go:638-646`: "newly created keys had prev_revision = max(id)"). -/
def legacyCreateSQL (db : DB) (key : Bytes) (lease : Int) (value : Bytes) (prev : Int) :
    DB × ExecResult :=
  let (_, r) := createSQL db key lease value
  if r.rowsAffected = 0 then db.insertSelect []
  else db.insertSelect [{ id := 0, name := key, created := true, deleted := false, createRevision := 0,
                          prevRevision := prev, lease := lease, value := value, oldValue := [] }]

/-- Everything that may be started on the shared database. -/
inductive Call where
  /-- a client range request (`KVServerBridge.Range`) -/
  | range (v1 : Bool) (r : RangeReq)
  /-- a client transaction (`KVServerBridge.Txn`) -/
  | txn (v1 : Bool) (t : TxnReq)
  /-- the deletion issued when a TTL expires (`/repo/pkg/backend/internal/backend/ttl.go`) -/
  | expire (key : Bytes) (rev : Int)
  /-- a compaction run (`Backend.DoCompact`) -/
  | doCompact (leader : Nat → Option Bool)
  /-- node start (`Backend.Start`) -/
  | start
  /-- the poll query of the watch machinery -/
  | poll (rev limit : Int)
  /-- a create issued by an older peer -/
  | legacyCreate (key value : Bytes) (lease prev : Int)

/-- The key a transaction writes, as the code extracts it. -/
def TxnReq.writtenKey (t : TxnReq) : Option Bytes :=
  match isCreate t with
  | some put => some put.key
  | none =>
    match isDelete t with
    | some (_, key) => some key
    | none => (isUpdate t).map fun u => u.2.1

/-- Clients do not write the reserved key `compact_rev_key`. -/
def Call.allowed : Call → Prop
  | .txn _ t => t.writtenKey ≠ some compactRevKey
  | .expire key _ => key ≠ compactRevKey
  | .legacyCreate key _ _ _ => key ≠ compactRevKey
  | _ => True

/-- The program of a call (results of background calls are irrelevant). -/
def Call.prog : Call → Prog Unit
  | .range v1 r => (Bridge.range v1 r).map fun _ => ()
  | .txn v1 t => (Limited.txn v1 t).map fun _ => ()
  | .expire key rev => (Backend.delete key rev).map fun _ => ()
  | .doCompact leader => (Backend.doCompact leader).map fun _ => ()
  | .start => Backend.start.map fun _ => ()
  | .poll rev limit => (Driver.after rev limit).map fun _ => ()
  | .legacyCreate key value lease prev =>
    (execute fun db => legacyCreateSQL db key lease value prev).map fun _ => ()

/-- Shared database and the programs in flight. -/
structure Sys where
  world : World
  pool : List (Prog Unit)

/-- A fresh system. -/
def Sys.init : Sys := { world := World.init, pool := [] }

/-- One step of the environment. -/
inductive Step : Sys → Sys → Prop where
  /-- a new call starts -/
  | spawn (s : Sys) (c : Call) (ok : c.allowed) : Step s { s with pool := c.prog :: s.pool }
  /-- some program executes its next statement -/
  | exec (w : World) (pre post : List (Prog Unit)) (eff : DB → DB)
      (k : Outcome → DB → Prog Unit) (o : Outcome) :
      Step ⟨w, pre ++ .stmt eff k :: post⟩ ⟨w.exec eff o, pre ++ k o w.db :: post⟩
  /-- some program stops (finished, cancelled, node crashed) -/
  | stop (w : World) (pre post : List (Prog Unit)) (p : Prog Unit) :
      Step ⟨w, pre ++ p :: post⟩ ⟨w, pre ++ post⟩

/-- Any number of steps. -/
inductive Steps : Sys → Sys → Prop where
  | refl (s : Sys) : Steps s s
  | tail {s t u : Sys} : Steps s t → Step t u → Steps s u

/-- Reachable from a fresh database. -/
def Reachable (s : Sys) : Prop := Steps Sys.init s

/-- One statement of the observed call: the world before, what happened, the world after. -/
structure Obs where
  pre : World
  out : Outcome
  post : World
deriving DecidableEq, Repr

/-- `Run s p t a s'`: started in system `s`, the observed program `p`, interleaved with arbitrary steps of
the environment, executes the statements `t` and returns `a`, leaving the system `s'`. -/
inductive Run {α : Type} : Sys → Prog α → List Obs → α → Sys → Prop where
  | ret (s : Sys) (a : α) : Run s (.ret a) [] a s
  | env {s s' s'' : Sys} {p : Prog α} {t : List Obs} {a : α} :
      Step s s' → Run s' p t a s'' → Run s p t a s''
  | step {s s'' : Sys} {eff : DB → DB} {k : Outcome → DB → Prog α} {t : List Obs} {a : α}
      (o : Outcome) :
      Run { s with world := s.world.exec eff o } (k o s.world.db) t a s'' →
      Run s (.stmt eff k) (⟨s.world, o, s.world.exec eff o⟩ :: t) a s''

/-- The compact revision stored in a database (`driver.go:149-157,700-705`). -/
def DB.compactRev (db : DB) : Int := (revisionIntervalSQL db).1.getD 0

/-- The current revision stored in a database. -/
def DB.currentRev (db : DB) : Int := (revisionIntervalSQL db).2.getD 0

end Verif
