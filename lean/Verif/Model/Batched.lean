import Verif.Model.Prog
/-!
# The write batcher: `/repo/pkg/database/batched.go`

`ExecContext` appends a job to a queue and sleeps until a worker goroutine has executed it. The worker takes the whole
queue at once and executes it in one transaction (or, if there is a single job, as a plain statement). Everything done
under the mutex is one step. The store is abstract: `S` is its state, a job is a function on it.
-/

namespace Verif

/-- A statement handed to `ExecContext`: its effect on the store and its result (rows affected, last insert id). -/
abbrev BStmt (S : Type) := S → S × ExecResult

/-- What happens to one job during `exec` (`batched.go:194-225`): its context is already done, or its statement (or
reading its result) fails, or neither. -/
structure JobFate where
  cancelled : Option DbErr
  fail : Option DbErr
deriving DecidableEq, Repr

/-- What happens to the commit of a transaction, or to a statement outside of one: done; not done, with an error; done,
but the caller gets an error. -/
inductive CommitOut where
  | ok
  | fail (e : DbErr)
  | lost (e : DbErr)
deriving DecidableEq, Repr

/-- `(*batchJob).exec` on the working copy of a transaction (`batched.go:194-225`). -/
def execInTx {S : Type} (st : BStmt S) (f : JobFate) (s : S) : Except DbErr (S × ExecResult) :=
  match f.cancelled with
  | some e => .error e
  | none =>
    match f.fail with
    | some e => .error e
    | none => .ok (st s)

/-- The loop over the queue inside the transaction (`batched.go:136-152`): the first error ends it. -/
def execAll {S : Type} : List (BStmt S × JobFate) → S → Except DbErr (S × List ExecResult)
  | [], s => .ok (s, [])
  | (st, f) :: js, s =>
    match execInTx st f s with
    | .error e => .error e
    | .ok (s', r) =>
      match execAll js s' with
      | .error e => .error e
      | .ok (s'', rs) => .ok (s'', r :: rs)

/-- The function `transaction` (`batched.go:129-155`): the new state of the store, and the results or the error. The
transaction works on a copy that becomes visible with the commit. -/
def batchTx {S : Type} (begin : Option DbErr) (commit : CommitOut) (js : List (BStmt S × JobFate)) (s : S) :
    S × Except DbErr (List ExecResult) :=
  match begin with
  | some e => (s, .error e)
  | none =>
    match execAll js s with
    | .error e => (s, .error e)
    | .ok (s', rs) =>
      match commit with
      | .ok => (s', .ok rs)
      | .fail e => (s, .error e)
      | .lost e => (s', .error e)

/-- A job executed outside of a transaction (`batched.go:122-127,194-225`). An error after the statement
has been executed (reading the rows affected, `batched.go:211-222`) is `lost`. -/
def execSingle {S : Type} (st : BStmt S) (f : JobFate) (commit : CommitOut) (s : S) : S × Except DbErr ExecResult :=
  match f.cancelled with
  | some e => (s, .error e)
  | none =>
    match f.fail with
    | some e => (s, .error e)
    | none =>
      match commit with
      | .ok => ((st s).1, .ok (st s).2)
      | .fail e => (s, .error e)
      | .lost e => ((st s).1, .error e)

/-- `execQueue` (`batched.go:118-161`): the new state of the store and the result of every job; an error of the
transaction is the error of every job. -/
def execQueue {S : Type} (begin : Option DbErr) (commit : CommitOut) (js : List (BStmt S × JobFate)) (s : S) :
    S × List (Except DbErr ExecResult) :=
  match js with
  | [] => (s, [])
  | [(st, f)] => ((execSingle st f commit s).1, [(execSingle st f commit s).2])
  | js =>
    match batchTx begin commit js s with
    | (s', .ok rs) => (s', rs.map .ok)
    | (s', .error e) => (s', js.map fun _ => .error e)

/-- What the caller of one statement gets from `ExecContext` for an outcome
(`/repo/pkg/backend/sqlite/driver.go:460-468` distinguishes nothing else). -/
def stmtAnswer (st : BStmt DB) (o : Outcome) (db : DB) : Except DbErr ExecResult :=
  match o with
  | .fail e => .error e
  | .lost e => .error e
  | _ => .ok (st db).2

/-! ## Callers and worker -/

/-- `batchStatus` (`batched.go:13-19`). -/
inductive BatchStatus where
  | notStarted
  | started
  | running
deriving DecidableEq, Repr

/-- `batchJob` without its result (`batched.go:181-190`); the id is a ghost. -/
structure BJob (S : Type) where
  id : Nat
  stmt : BStmt S
  runId : Int

/-- Answer of an `ExecContext` call. -/
inductive BAnswer where
  | done (r : Except DbErr ExecResult)
  /-- `errDBClosed` -/
  | closed

/-- Where the worker goroutine is (`batched.go:92-116`): there is none; it has been started and waits for the lock; it
executes a queue; it has executed it and waits for the lock. -/
inductive BWorker (S : Type) where
  | none
  | started
  | executing (q : List (BJob S))
  | finished (q : List (BJob S))

/-- A `Close` call (`batched.go:163-179`): there is none yet; it is about to check the status of the worker; it sleeps on
the condition variable; it has returned. -/
inductive BClose where
  | notCalled
  | awake
  | asleep
  | done
deriving DecidableEq, Repr

/-- `batchedDb` (`batched.go:21-34`) and the goroutines using it. -/
structure BSys (S : Type) where
  store : S
  closed : Bool
  status : BatchStatus
  queue : List (BJob S)
  runId : Int
  worker : BWorker S
  /-- the result fields of the jobs, once written by the worker -/
  results : Nat → Option (Except DbErr ExecResult)
  /-- callers asleep on the condition variable in `ExecContext` (`batched.go:77`) -/
  asleep : List (BJob S)
  /-- callers woken by a broadcast that have not yet got the lock and checked the condition (`batched.go:76`) -/
  awake : List (BJob S)
  /-- the first `Close` call; any other returns `errDBClosed` at once (`batched.go:167-169`) -/
  close : BClose
  /-- ghost: the next job id -/
  nextJob : Nat
  /-- ghost: the statements of all `ExecContext` calls, by job id -/
  submitted : List (BStmt S)
  /-- ghost: `ExecContext` calls that have returned, with their answers -/
  returned : List (Nat × BAnswer)
  /-- ghost: the queues executed so far, with the results of their jobs -/
  batches : List (List (BJob S) × List (Except DbErr ExecResult))

/-- `NewBatched` (`batched.go:36-46`). -/
def BSys.init {S : Type} (s : S) : BSys S :=
  { store := s, closed := false, status := .notStarted, queue := [], runId := 0, worker := .none,
    results := fun _ => none, asleep := [], awake := [], close := .notCalled, nextJob := 0, submitted := [], returned := [],
    batches := [] }

/-- The first lock section of `ExecContext` (`batched.go:52-78`) including `run()` (`batched.go:92-96`). -/
def BSys.submit {S : Type} (b : BSys S) (st : BStmt S) : BSys S :=
  if b.closed then
    { b with nextJob := b.nextJob + 1, submitted := b.submitted ++ [st], returned := b.returned ++ [(b.nextJob, .closed)] }
  else
    let runId := if b.status = .running then b.runId + 1 else b.runId
    let job : BJob S := { id := b.nextJob, stmt := st, runId := runId }
    let b' := { b with queue := b.queue ++ [job], asleep := b.asleep ++ [job], nextJob := b.nextJob + 1, submitted := b.submitted ++ [st] }
    if b.status = .notStarted then { b' with status := .started, worker := .started } else b'

/-- The end of `ExecContext` (`batched.go:80-84`). A job that has not been executed would return Go's zero values: no
error, nothing affected. -/
def BSys.answer {S : Type} (b : BSys S) (j : BJob S) : BAnswer :=
  .done ((b.results j.id).getD (.ok ⟨0, 0⟩))

/-- A woken caller gets the lock and checks the condition (`batched.go:76-78`). -/
def BSys.wake {S : Type} (b : BSys S) (pre post : List (BJob S)) (j : BJob S) : BSys S :=
  if j.runId ≥ b.runId then { b with awake := pre ++ post, asleep := b.asleep ++ [j] }
  else { b with awake := pre ++ post, returned := b.returned ++ [(j.id, b.answer j)] }

/-- The worker takes the queue, or ends (`batched.go:101-107`). -/
def BSys.take {S : Type} (b : BSys S) : BSys S :=
  if b.queue.length > 0 then { b with worker := .executing b.queue, queue := [] }
  else { b with status := .notStarted, worker := .none }

/-- The worker gets the lock after having executed a queue: it increments `runId` and wakes everybody
(`batched.go:109-112`); the next round follows in the same lock section. -/
def BSys.broadcast {S : Type} (b : BSys S) : BSys S :=
  { b with runId := b.runId + 1, awake := b.awake ++ b.asleep, asleep := []
           close := if b.close = .asleep then .awake else b.close }

/-- Write the results of a queue. -/
def writeResults {S : Type} (q : List (BJob S)) (rs : List (Except DbErr ExecResult))
    (old : Nat → Option (Except DbErr ExecResult)) : Nat → Option (Except DbErr ExecResult) :=
  fun id => match (q.map (·.id)).zip rs |>.find? fun p => p.1 == id with
    | some p => some p.2
    | none => old id

/-- The worker executes its queue without holding the lock (`batched.go:107-109`). -/
def BSys.exec {S : Type} (b : BSys S) (q : List (BJob S)) (begin : Option DbErr) (commit : CommitOut)
    (fates : List JobFate) : BSys S :=
  { b with
    store := (execQueue begin commit ((q.map (·.stmt)).zip fates) b.store).1
    results := writeResults q (execQueue begin commit ((q.map (·.stmt)).zip fates) b.store).2 b.results
    batches := b.batches ++ [(q, (execQueue begin commit ((q.map (·.stmt)).zip fates) b.store).2)]
    worker := .finished q }

/-- `Close` checks the status of the worker (`batched.go:174-178`). -/
def BSys.checkClose {S : Type} (b : BSys S) : BSys S :=
  if b.status = .notStarted then { b with close := .done } else { b with close := .asleep }

/-- Whose step it is: a new call, the worker goroutine, a goroutine inside of a call, or anything else changing the
store. -/
inductive BActor where
  | client
  | worker
  | waiter
  | env
deriving DecidableEq, Repr

/-- The steps of the batcher and its users (`batched.go:52-179`). -/
inductive BStep {S : Type} : BActor → BSys S → BSys S → Prop where
  | submit (b : BSys S) (st : BStmt S) : BStep .client b (b.submit st)
  | wake (b : BSys S) (pre post : List (BJob S)) (j : BJob S) (hw : b.awake = pre ++ j :: post) :
      BStep .waiter b (b.wake pre post j)
  /-- the worker gets the lock for the first time (`batched.go:97-107`) -/
  | start (b : BSys S) (hw : b.worker = .started) : BStep .worker b (BSys.take { b with status := .running })
  | exec (b : BSys S) (q : List (BJob S)) (begin : Option DbErr) (commit : CommitOut) (fates : List JobFate)
      (hf : fates.length = q.length) (hw : b.worker = .executing q) : BStep .worker b (b.exec q begin commit fates)
  | next (b : BSys S) (q : List (BJob S)) (hw : b.worker = .finished q) : BStep .worker b b.broadcast.take
  /-- anybody else changes the store meanwhile -/
  | env (b : BSys S) (s : S) : BStep .env b { b with store := s }
  /-- `Close` is called (`batched.go:163-172`) -/
  | close (b : BSys S) (h : b.close = .notCalled) : BStep .client b { b with closed := true, close := .awake }
  | checkClose (b : BSys S) (h : b.close = .awake) : BStep .waiter b b.checkClose

/-- Reachable from a fresh batcher. -/
inductive BReachable {S : Type} : BSys S → Prop where
  | init (s : S) : BReachable (BSys.init s)
  | step {k : BActor} {a b : BSys S} : BReachable a → BStep k a b → BReachable b

end Verif
