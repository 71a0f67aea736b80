import Verif.Spec.Trace
/-!
# Any number of clients at once

A recorded execution of the shared store: clients call operations, the statements of all open calls interleave
with each other and with everything else that may run on the database (`Step`), calls return or vanish (crash
of the node, cancelled request). `CEv` is what an observer of the whole system would write down; `call` and
`ret` are what the clients themselves see.
-/

namespace Verif

/-- The operations of the API server: a read of the latest state (single key or whole range), and the three
transactions of `Spec/Trace.lean` (`/repo/pkg/limited/{get,list,create,update,delete}.go`). -/
inductive ClientOp where
  | read (key rangeEnd : Bytes)
  | create (key value : Bytes) (lease : Int)
  | update (key : Bytes) (rev : Int) (value : Bytes) (lease : Int)
  | delete (key : Bytes) (rev : Int)
deriving DecidableEq, Repr

/-- What a client is told. -/
inductive ClientResp where
  | read (r : RangeResp)
  | txn (r : TxnResp)
deriving DecidableEq, Repr

/-- Clients do not write the reserved key; deletes name an existing version (a delete expecting revision 0 is
the known deviation from etcd, see C27). -/
def ClientOp.allowed : ClientOp → Prop
  | .read _ _ => True
  | .create k _ _ => k ≠ compactRevKey
  | .update k _ _ _ => k ≠ compactRevKey
  | .delete k r => k ≠ compactRevKey ∧ r ≠ 0

/-- The program a node runs for the operation (`KVServerBridge.Range`, `KVServerBridge.Txn`,
`/repo/pkg/limited/server.go:36-91,129-135`). `v1`: which list statement the node uses. -/
def ClientOp.prog (v1 : Bool) : ClientOp → Prog (Except ApiErr ClientResp)
  | .read k e => (Bridge.range v1 { key := k, rangeEnd := e }).map (Except.map .read)
  | .create k v l => (Limited.txn v1 (createTxn k v l)).map (Except.map .txn)
  | .update k r v l => (Limited.txn v1 (updateTxn k r v l)).map (Except.map .txn)
  | .delete k r => (Limited.txn v1 (deleteTxn k r)).map (Except.map .txn)

/-- The store, everything else running on it, and the open calls (numbered in the order of their start). -/
structure Conc where
  world : World
  bg : List (Prog Unit)
  active : Nat → Option (Prog (Except ApiErr ClientResp))
  next : Nat

/-- A fresh store, no calls. -/
def Conc.init : Conc := { world := World.init, bg := [], active := fun _ => none, next := 0 }

/-- Replace the state of call `i`. -/
def Conc.set (c : Conc) (i : Nat) (p : Option (Prog (Except ApiErr ClientResp))) :
    Nat → Option (Prog (Except ApiErr ClientResp)) :=
  fun j => if j = i then p else c.active j

/-- Recorded events; `w` is the store at that instant. -/
inductive CEv where
  | call (i : Nat) (op : ClientOp) (w : World)
  | stmt (i : Nat) (ob : Obs)
  | ret (i : Nat) (a : Except ApiErr ClientResp) (w : World)

/-- The call an event belongs to. -/
def CEv.id : CEv → Nat
  | .call i _ _ => i
  | .stmt i _ => i
  | .ret i _ _ => i

/-- Executions with their record. -/
inductive CRun : Conc → List CEv → Conc → Prop where
  | done (c : Conc) : CRun c [] c
  /-- something else happens: background work, other nodes, older peers -/
  | env {c c' : Conc} {w : World} {bg : List (Prog Unit)} {l : List CEv} :
      Step ⟨c.world, c.bg⟩ ⟨w, bg⟩ → CRun { c with world := w, bg := bg } l c' → CRun c l c'
  /-- a client calls -/
  | call {c c' : Conc} {l : List CEv} (v1 : Bool) (op : ClientOp) (ok : op.allowed) :
      CRun { c with active := c.set c.next (some (op.prog v1)), next := c.next + 1 } l c' →
      CRun c (.call c.next op c.world :: l) c'
  /-- an open call executes its next statement -/
  | stmt {c c' : Conc} {l : List CEv} (i : Nat) (o : Outcome) (eff : DB → DB)
      (k : Outcome → DB → Prog (Except ApiErr ClientResp)) (h : c.active i = some (.stmt eff k)) :
      CRun { c with world := c.world.exec eff o, active := c.set i (some (k o c.world.db)) } l c' →
      CRun c (.stmt i ⟨c.world, o, c.world.exec eff o⟩ :: l) c'
  /-- an open call returns to its client -/
  | ret {c c' : Conc} {l : List CEv} (i : Nat) (a : Except ApiErr ClientResp)
      (h : c.active i = some (.ret a)) :
      CRun { c with active := c.set i none } l c' → CRun c (.ret i a c.world :: l) c'
  /-- an open call vanishes -/
  | die {c c' : Conc} {l : List CEv} (i : Nat) :
      CRun { c with active := c.set i none } l c' → CRun c l c'

/-- The statements executed by call `i` within a record. -/
def stmtsOf (i : Nat) (l : List CEv) : List Obs :=
  l.filterMap fun
    | .stmt j ob => if j = i then some ob else none
    | _ => none

/-- In record `l` call `i` asked for `op` when the store was `w`, executed the statements `t`, and was
answered `a` when the store was `w'`. -/
def Completed (l : List CEv) (i : Nat) (op : ClientOp) (t : List Obs) (w w' : World)
    (a : Except ApiErr ClientResp) : Prop :=
  ∃ A B C, l = A ++ .call i op w :: B ++ .ret i a w' :: C ∧ t = stmtsOf i B

/-- In record `l` call `i` had returned when call `j` was made. -/
def ReturnedBefore (l : List CEv) (i j : Nat) : Prop :=
  ∃ A B C a w op w', l = A ++ .ret i a w :: B ++ .call j op w' :: C

end Verif
