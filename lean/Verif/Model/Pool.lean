import Verif.Model.Bytes
import Verif.Model.Server
/-!
# Connections and the lock of the statement cache: `/repo/pkg/database/prepared.go`, `/repo/pkg/server/server.go:87-90`

The connection pool of `database/sql` hands out at most `SetMaxOpenConns` connections (`server.go:88`); who wants one more
waits. A transaction holds a connection from `BeginTx` to `Commit`/`Rollback`, a query from its execution until its rows
are closed, and preparing a statement needs a connection of its own, *also when it is prepared for a transaction*
(`prepared.go:149-151`: `tx.db.prepare` prepares on the database, not on the transaction), and while the mutex of the cache is held
(`prepared.go:85-105`). Here these two resources are modelled: mutex and connections; what the statements do is not.

Of the standard library is assumed: `Stmt.ExecContext`/`Stmt.QueryContext` take one connection,
`Tx.StmtContext` and the execution of its result use the connection of the transaction only, `DB.PrepareContext`
takes one connection for its duration, and a waiter that is given no connection waits until its context is done.
-/

namespace Verif

/-- Where `prepare` is (`prepared.go:71-106`): before the read-locked lookup; after it found nothing, waiting for
the write lock; holding the write lock and waiting for a connection; preparing, with the write lock and a connection; the
statement is there. -/
inductive PrepPhase where
  | look
  | want
  | prep
  | prepping
  | got
deriving DecidableEq, Repr

/-- Who uses transactions: the worker of the write batcher (`/repo/pkg/database/batched.go:129-155`), and the compactor
(`/repo/pkg/backend/sqlite/driver.go:614-673`). Nobody else does (schema setup comes before serving). -/
inductive TxOwner where
  | batcher
  | compactor
deriving DecidableEq, Repr

/-- A transaction: all its statements (a ghost), and those still to be executed. -/
structure TxInfo where
  owner : TxOwner
  texts : List Bytes
  todo : List Bytes
deriving DecidableEq, Repr

/-- A call of the database under way. -/
inductive PoolCall where
  /-- in `prepare`, or about to execute the statement (`prepared.go:46-50,60-64`; inside of a transaction
  `prepared.go:149-172`, then with the transaction) -/
  | stmt (t : Option TxInfo) (q : Bytes) (p : PrepPhase)
  /-- executing a statement outside of a transaction, or reading its rows -/
  | reading (q : Bytes)
  /-- waiting for a connection in `BeginTx` (`prepared.go:112-116`) -/
  | begin (t : TxInfo)
  /-- in a transaction, between two statements -/
  | tx (t : TxInfo)
deriving DecidableEq, Repr

/-- The transaction of a call. -/
def PoolCall.tx? : PoolCall → Option TxInfo
  | .stmt t _ _ => t
  | .reading _ => none
  | .begin t => some t
  | .tx t => some t

/-- The connections a call holds. -/
def PoolCall.conns : PoolCall → Nat
  | .stmt t _ p => (if t.isSome then 1 else 0) + (if p = .prepping then 1 else 0)
  | .reading _ => 1
  | .begin _ => 0
  | .tx _ => 1

/-- The call holds the write lock of the cache (`prepared.go:85-86`). -/
def PoolCall.locks : PoolCall → Bool
  | .stmt _ _ .prep => true
  | .stmt _ _ .prepping => true
  | _ => false

/-- The database and the calls under way. -/
structure PoolSys where
  /-- `maxOpen` of `sql.DB`; 0: no limit -/
  limit : Int
  /-- the keys of `preparedDb.cache` -/
  cache : List Bytes
  calls : List PoolCall
  /-- ghost: the calls that have returned, and whether successfully -/
  ended : List (PoolCall × Bool)
deriving DecidableEq, Repr

/-- A database opened with the given pool options (`server.go:455-479`), nothing prepared. -/
def PoolSys.init (c : PoolConfig) : PoolSys :=
  { limit := (c.apply .fresh).openLimit, cache := [], calls := [], ended := [] }

/-- Connections in use. -/
def PoolSys.inUse (s : PoolSys) : Nat := (s.calls.map (·.conns)).sum

/-- `db.maxOpen > 0 && db.numOpen >= db.maxOpen` and no idle connection (`database/sql`, `DB.conn`). -/
def PoolSys.full (s : PoolSys) : Bool := decide (0 < s.limit) && decide (s.limit ≤ s.inUse)

/-- Somebody holds the write lock. -/
def PoolSys.locked (s : PoolSys) : Bool := s.calls.any (·.locks)

/-- A call goes on. -/
def PoolSys.move (s : PoolSys) (pre post : List PoolCall) (c : PoolCall) : PoolSys :=
  { s with calls := pre ++ c :: post }

/-- A call returns. -/
def PoolSys.finish (s : PoolSys) (pre post : List PoolCall) (c : PoolCall) (ok : Bool) : PoolSys :=
  { s with calls := pre ++ post, ended := s.ended ++ [(c, ok)] }

/-- A new call; a call going on by itself; the database fails a call; a call giving up because its context is done. -/
inductive PoolActor where
  | arrive
  | run
  | fail
  | cancel
deriving DecidableEq, Repr

/-- The steps. -/
inductive PoolStep : PoolActor → PoolSys → PoolSys → Prop where
  /-- a query, or a write executed on its own (`batched.go:122-127`) -/
  | query (s : PoolSys) (q : Bytes) : PoolStep .arrive s { s with calls := s.calls ++ [.stmt none q .look] }
  /-- a transaction; batcher and compactor have one at a time (`batched.go:92-116`; `backend.go:281-294`) -/
  | transaction (s : PoolSys) (o : TxOwner) (qs : List Bytes)
      (h : ∀ c ∈ s.calls, ∀ t, c.tx? = some t → t.owner ≠ o) :
      PoolStep .arrive s { s with calls := s.calls ++ [.begin ⟨o, qs, qs⟩] }
  /-- the read-locked lookup (`prepared.go:78-83`) -/
  | look (s : PoolSys) (pre post : List PoolCall) (t : Option TxInfo) (q : Bytes)
      (h : s.calls = pre ++ .stmt t q .look :: post) (hl : s.locked = false) :
      PoolStep .run s (s.move pre post (.stmt t q (if q ∈ s.cache then .got else .want)))
  /-- the write lock and the second lookup (`prepared.go:85-98`) -/
  | lock (s : PoolSys) (pre post : List PoolCall) (t : Option TxInfo) (q : Bytes)
      (h : s.calls = pre ++ .stmt t q .want :: post) (hl : s.locked = false) :
      PoolStep .run s (s.move pre post (.stmt t q (if q ∈ s.cache then .got else .prep)))
  /-- a connection for preparing (`prepared.go:67-69,100`) -/
  | prep (s : PoolSys) (pre post : List PoolCall) (t : Option TxInfo) (q : Bytes)
      (h : s.calls = pre ++ .stmt t q .prep :: post) (hf : s.full = false) :
      PoolStep .run s (s.move pre post (.stmt t q .prepping))
  /-- prepared (`prepared.go:100-105`) -/
  | prepared (s : PoolSys) (pre post : List PoolCall) (t : Option TxInfo) (q : Bytes)
      (h : s.calls = pre ++ .stmt t q .prepping :: post) :
      PoolStep .run s { s.move pre post (.stmt t q .got) with cache := s.cache ++ [q] }
  /-- preparing failed (`prepared.go:101-103`); a transaction is rolled back -/
  | notPrepared (s : PoolSys) (pre post : List PoolCall) (t : Option TxInfo) (q : Bytes)
      (h : s.calls = pre ++ .stmt t q .prepping :: post) :
      PoolStep .fail s (s.finish pre post (.stmt t q .prepping) false)
  /-- a connection for the execution outside of a transaction (`prepared.go:50,64`) -/
  | use (s : PoolSys) (pre post : List PoolCall) (q : Bytes)
      (h : s.calls = pre ++ .stmt none q .got :: post) (hf : s.full = false) :
      PoolStep .run s (s.move pre post (.reading q))
  /-- executed and all rows read, or failed -/
  | read (s : PoolSys) (pre post : List PoolCall) (q : Bytes) (ok : Bool)
      (h : s.calls = pre ++ .reading q :: post) : PoolStep .run s (s.finish pre post (.reading q) ok)
  /-- `BeginTx` has a connection (`prepared.go:112-121`) -/
  | begin (s : PoolSys) (pre post : List PoolCall) (t : TxInfo)
      (h : s.calls = pre ++ .begin t :: post) (hf : s.full = false) : PoolStep .run s (s.move pre post (.tx t))
  /-- the next statement of a transaction (`batched.go:136-152`, `driver.go:647-671`) -/
  | next (s : PoolSys) (pre post : List PoolCall) (o : TxOwner) (qs rest : List Bytes) (q : Bytes)
      (h : s.calls = pre ++ .tx ⟨o, qs, q :: rest⟩ :: post) :
      PoolStep .run s (s.move pre post (.stmt (some ⟨o, qs, rest⟩) q .look))
  /-- executed on the connection of the transaction (`prepared.go:157-163`) -/
  | exec (s : PoolSys) (pre post : List PoolCall) (t : TxInfo) (q : Bytes)
      (h : s.calls = pre ++ .stmt (some t) q .got :: post) : PoolStep .run s (s.move pre post (.tx t))
  /-- `BEGIN` or a statement fails, or a job of the batch is cancelled: `Rollback` (`batched.go:134,149-151`,
  `driver.go:629-636`) -/
  | rollback (s : PoolSys) (pre post : List PoolCall) (t : TxInfo) (h : s.calls = pre ++ .tx t :: post) :
      PoolStep .fail s (s.finish pre post (.tx t) false)
  /-- `Commit` (`batched.go:154`, `driver.go:672`) -/
  | commit (s : PoolSys) (pre post : List PoolCall) (o : TxOwner) (qs : List Bytes) (ok : Bool)
      (h : s.calls = pre ++ .tx ⟨o, qs, []⟩ :: post) : PoolStep .run s (s.finish pre post (.tx ⟨o, qs, []⟩) ok)
  /-- a request waiting for a connection gives up when its context is done. The contexts of the transactions, of the batch worker and
  of the compactor, are not cancelled before the backend is stopped (`batched.go:37`, `backend.go:97`) -/
  | cancel (s : PoolSys) (pre post : List PoolCall) (q : Bytes) (p : PrepPhase) (hp : p = .prep ∨ p = .got)
      (h : s.calls = pre ++ .stmt none q p :: post) : PoolStep .cancel s (s.finish pre post (.stmt none q p) false)

/-- Reachable when the server serves with the given pool options. -/
inductive PoolReachable (c : PoolConfig) : PoolSys → Prop where
  | init : PoolReachable c (PoolSys.init c)
  | step {k : PoolActor} {a b : PoolSys} : PoolReachable c a → PoolStep k a b → PoolReachable c b

/-- Any number of steps of anybody. -/
inductive PoolSteps : PoolSys → PoolSys → Prop where
  | refl (s : PoolSys) : PoolSteps s s
  | step {k : PoolActor} {a b c : PoolSys} : PoolSteps a b → PoolStep k b c → PoolSteps a c

/-- `n` steps without new calls. -/
inductive PoolRuns : Nat → PoolSys → PoolSys → Prop where
  | refl (s : PoolSys) : PoolRuns 0 s s
  | step {n : Nat} {k : PoolActor} {a b c : PoolSys} : PoolRuns n a b → PoolStep k b c → k ≠ .arrive →
      PoolRuns (n + 1) a c

end Verif
