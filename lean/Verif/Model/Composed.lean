import Verif.Model.Batched
import Verif.Model.Conc
/-!
# The whole system with the write batchers in place

`Model/Conc.lean` lets every open call execute its statements directly on the shared database. In the program
the calls of one node do not: `(*Driver).execute` (`/repo/pkg/backend/sqlite/driver.go:442-478`) hands every
write to the node's batcher (`/repo/pkg/server/server.go:434`, `NewBatched(NewPrepared(db))`), which queues it and
executes whole queues in one transaction, while queries and explicit transactions go to the database directly
(`/repo/pkg/database/batched.go:48-50`, embedded `Wrapped`). Here every node has its own batcher, all of them work on
one database, and calls wait inside of `ExecContext`.
-/

namespace Verif

/-- A statement on the shared store (`World` is the database with the log of all commits). -/
def liftStmt (st : BStmt DB) : BStmt World := fun w => (w.exec (fun db => (st db).1) .ok, (st w.db).2)

/-- The statement `eff` with continuation `k₀` is a write as `execute` issues them: what follows depends only on the
result or the error that `ExecContext` returned. -/
def IsExec {α : Type} (st : BStmt DB) (k : Except DbErr ExecResult → Prog α) (eff : DB → DB)
    (k₀ : Outcome → DB → Prog α) : Prop :=
  eff = (fun db => (st db).1) ∧ ∀ o db, k₀ o db = k (stmtAnswer st o db)

/-- A goroutine working on a call: between two statements, or inside of `ExecContext` with job `id`
(`/repo/pkg/database/batched.go:52-85`). -/
inductive MEntry (α : Type) where
  | run (p : Prog α)
  | wait (id : Nat) (st : BStmt DB) (k : Except DbErr ExecResult → Prog α)

/-- What `ExecContext` returns to `execute`: `errDBClosed` is none of the errors it knows. -/
def BAnswer.result : BAnswer → Except DbErr ExecResult
  | .done r => r
  | .closed => .error .other

/-- A goroutine of a node with batcher `b` takes a step of its own. `P` restricts the outcomes of directly executed
statements (`fun _ => True`: anything may happen). -/
inductive EStep (P : Outcome → Prop) {α : Type} : World → BSys World → MEntry α → World → BSys World → MEntry α → Prop where
  /-- a statement is executed directly -/
  | direct (w : World) (b : BSys World) (eff : DB → DB) (k : Outcome → DB → Prog α) (o : Outcome) (ho : P o) :
      EStep P w b (.run (.stmt eff k)) (w.exec eff o) b (.run (k o w.db))
  /-- a write is handed to the batcher -/
  | submit (w : World) (b : BSys World) (eff : DB → DB) (k₀ : Outcome → DB → Prog α) (st : BStmt DB)
      (k : Except DbErr ExecResult → Prog α) (h : IsExec st k eff k₀) :
      EStep P w b (.run (.stmt eff k₀)) w (b.submit (liftStmt st)) (.wait b.nextJob st k)
  /-- `ExecContext` returns -/
  | resume (w : World) (b : BSys World) (id : Nat) (st : BStmt DB) (k : Except DbErr ExecResult → Prog α) (a : BAnswer)
      (h : (id, a) ∈ b.returned) : EStep P w b (.wait id st k) w b (.run (k a.result))

/-- The database, the batchers of all nodes, the open calls of clients and the background goroutines, each with the node
it runs on. A node that is restarted after a crash is a new node. -/
structure MSys where
  world : World
  nodes : Nat → BSys World
  up : Nat → Bool
  calls : Nat → Option (Nat × MEntry (Except ApiErr ClientResp))
  next : Nat
  bgs : Nat → Option (Nat × MEntry Unit)
  nextBg : Nat

/-- A fresh database; every node has just been started (`NewBatched`, `/repo/pkg/database/batched.go:36-46`). -/
def MSys.init : MSys :=
  { world := World.init, nodes := fun _ => BSys.init World.init, up := fun _ => true, calls := fun _ => none, next := 0,
    bgs := fun _ => none, nextBg := 0 }

/-- Replace one value of a function. -/
def upd {β : Type} (f : Nat → β) (i : Nat) (x : β) : Nat → β := fun j => if j = i then x else f j

/-- The batcher of node `n`, looking at the shared database. -/
def MSys.node (m : MSys) (n : Nat) : BSys World := { m.nodes n with store := m.world }

/-- Executions with the record of what the clients see. -/
inductive MRun (P : Outcome → Prop) : MSys → List CEv → MSys → Prop where
  | done (m : MSys) : MRun P m [] m
  /-- a client calls a node -/
  | call {m m' : MSys} {l : List CEv} (n : Nat) (hn : m.up n = true) (v1 : Bool) (op : ClientOp) (ok : op.allowed) :
      MRun P { m with calls := upd m.calls m.next (some (n, .run (op.prog v1))), next := m.next + 1 } l m' →
      MRun P m (.call m.next op m.world :: l) m'
  /-- a node starts background work (expiry, compaction, polling, an older peer) -/
  | spawn {m m' : MSys} {l : List CEv} (n : Nat) (hn : m.up n = true) (c : Call) (ok : c.allowed) :
      MRun P { m with bgs := upd m.bgs m.nextBg (some (n, .run c.prog)), nextBg := m.nextBg + 1 } l m' → MRun P m l m'
  /-- the goroutine of a client's call takes a step -/
  | client {m m' : MSys} {l : List CEv} (i n : Nat) (e e' : MEntry (Except ApiErr ClientResp)) (w : World)
      (b : BSys World) (h : m.calls i = some (n, e)) (s : EStep P m.world (m.node n) e w b e') :
      MRun P { m with world := w, nodes := upd m.nodes n b, calls := upd m.calls i (some (n, e')) } l m' → MRun P m l m'
  /-- a background goroutine takes a step -/
  | bg {m m' : MSys} {l : List CEv} (i n : Nat) (e e' : MEntry Unit) (w : World)
      (b : BSys World) (h : m.bgs i = some (n, e)) (s : EStep P m.world (m.node n) e w b e') :
      MRun P { m with world := w, nodes := upd m.nodes n b, bgs := upd m.bgs i (some (n, e')) } l m' → MRun P m l m'
  /-- a batcher takes a step: its worker takes or executes a queue, callers wake up, `Close` -/
  | batch {m m' : MSys} {l : List CEv} (n : Nat) (hn : m.up n = true) (a : BActor) (b : BSys World)
      (ha : a = .worker ∨ a = .waiter) (s : BStep a (m.node n) b) :
      MRun P { m with world := b.store, nodes := upd m.nodes n b } l m' → MRun P m l m'
  /-- the database of a node is closed -/
  | close {m m' : MSys} {l : List CEv} (n : Nat) (h : (m.nodes n).close = .notCalled) :
      MRun P { m with nodes := upd m.nodes n { m.node n with closed := true, close := .awake } } l m' → MRun P m l m'
  /-- a call returns to its client -/
  | ret {m m' : MSys} {l : List CEv} (i n : Nat) (a : Except ApiErr ClientResp) (h : m.calls i = some (n, .run (.ret a))) :
      MRun P { m with calls := upd m.calls i none } l m' → MRun P m (.ret i a m.world :: l) m'
  /-- a node crashes: all its goroutines vanish -/
  | crash {m m' : MSys} {l : List CEv} (n : Nat) :
      MRun P { m with up := upd m.up n false,
                      calls := fun i => (m.calls i).filter fun x => x.1 != n,
                      bgs := fun i => (m.bgs i).filter fun x => x.1 != n } l m' → MRun P m l m'
  /-- the database completes the transaction a crashed node was waiting for -/
  | late {m m' : MSys} {l : List CEv} (n : Nat) (hn : m.up n = false) (q : List (BJob World)) (begin : Option DbErr)
      (commit : CommitOut) (fates : List JobFate) (hf : fates.length = q.length) (hw : (m.nodes n).worker = .executing q) :
      MRun P { m with world := ((m.node n).exec q begin commit fates).store,
                      nodes := upd m.nodes n ((m.node n).exec q begin commit fates) } l m' → MRun P m l m'

/-- What the clients see of an event of `Model/Conc.lean`: calls and returns. -/
def CEv.visible : CEv → Bool
  | .stmt _ _ => false
  | _ => true

end Verif
