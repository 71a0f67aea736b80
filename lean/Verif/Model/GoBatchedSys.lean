import Verif.Model.GoBatched
/-!
# Any number of goroutines running the text of `/repo/pkg/database/batched.go`

The goroutines have the trees of `Verif.Model.GoBatched`. What a goroutine does while it holds the mutex is one step (`Th.sec`): nobody else
does anything to the fields of the batcher meanwhile, because a goroutine that touches them without holding the mutex is stuck here, and the
theorems say that none ever is. What the worker does without holding the mutex, `execQueue`, is one step too (`Th.runDb`): the only fields it
touches are those of the jobs it executes, and the database, which executes transactions one after another.
-/

namespace Verif.Go

open Verif.GoText

/-- `batchJob` in memory (`batched.go:181-190`). -/
structure JobMem where
  ctx : Nat
  query : List UInt8
  args : List V
  runId : Int
  last : Int
  rows : Int
  err : Option DbErr

/-- `batchedDb` and the jobs in memory (`batched.go:21-34`); jobs are allocated one after another. -/
structure BMem where
  closed : Bool
  status : Int
  queue : List V
  runId : Int
  jobs : Nat → JobMem
  next : Nat

/-- Change one job. -/
def setJob (jobs : Nat → JobMem) (j : Nat) (f : JobMem → JobMem) : Nat → JobMem := fun i => if i = j then f (jobs i) else jobs i

/-! ### A lock section -/

/-- How a lock section ends: with `Unlock`, in `Wait`, after more iterations than are looked at, or with something that the goroutine must
not do there. -/
inductive SecEnd where
  | unlocked (t : Th)
  | waits (t : Th)
  | out
  | stuck

/-- What a lock section does: the memory after it, the goroutines it starts, whether it wakes the goroutines that sleep, its end. -/
structure SecRes where
  mem : BMem
  spawned : List Th
  bcast : Bool
  fin : SecEnd

/-- What a goroutine does from getting the mutex to giving it up; `ce` is the error of `b.Wrapped.Close()`. -/
def Th.sec (ce : Option DbErr) : Th → BMem → List Th → Bool → SecRes
  | .unlock k, m, sp, bc => ⟨m, sp, bc, .unlocked k⟩
  | .wait k, m, sp, bc => ⟨m, sp, bc, .waits k⟩
  | .out, m, sp, bc => ⟨m, sp, bc, .out⟩
  | .broadcast k, m, sp, _ => k.sec ce m sp true
  | .getClosed k, m, sp, bc => (k m.closed).sec ce m sp bc
  | .setClosed b k, m, sp, bc => k.sec ce { m with closed := b } sp bc
  | .getStatus k, m, sp, bc => (k m.status).sec ce m sp bc
  | .setStatus n k, m, sp, bc => k.sec ce { m with status := n } sp bc
  | .getQueue k, m, sp, bc => (k m.queue).sec ce m sp bc
  | .setQueue q k, m, sp, bc => k.sec ce { m with queue := q } sp bc
  | .getRunId k, m, sp, bc => (k m.runId).sec ce m sp bc
  | .setRunId n k, m, sp, bc => k.sec ce { m with runId := n } sp bc
  | .newJob c q l r k, m, sp, bc =>
    (k m.next).sec ce { m with jobs := setJob m.jobs m.next fun _ => ⟨c, q, l, r, 0, 0, none⟩, next := m.next + 1 } sp bc
  | .getJobRunId j k, m, sp, bc => (k (m.jobs j).runId).sec ce m sp bc
  | .getJobErr j ok er, m, sp, bc =>
    match (m.jobs j).err with
    | none => ok.sec ce m sp bc
    | some e => (er e).sec ce m sp bc
  | .spawn t k, m, sp, bc => k.sec ce m (sp ++ [t]) bc
  | .stopWorker k, m, sp, bc => k.sec ce m sp bc
  | .closeDb ok er, m, sp, bc =>
    match ce with
    | none => ok.sec ce m sp bc
    | some e => (er e).sec ce m sp bc
  | _, m, sp, bc => ⟨m, sp, bc, .stuck⟩

/-! ### Without the mutex -/

/-- What the database and the contexts answer, at each time. -/
structure DbEnv where
  begin : Nat → Option DbErr
  /-- the outcome of a statement -/
  out : Nat → CommitOut
  rowsErr : Nat → Option DbErr
  lastErr : Nat → Option DbErr
  commit : Nat → CommitOut
  /-- whether a context is done, and why -/
  ctxAt : Nat → Nat → Option DbErr
  /-- a context that is done stays done -/
  mono : ∀ t c e, ctxAt t c = some e → ctxAt (t + 1) c = some e

/-- The jobs, the database, its transaction, the results of the statements executed, the time. -/
structure DbSt (S : Type) where
  jobs : Nat → JobMem
  store : S
  tx : Option S
  res : List ExecResult
  time : Nat

variable {S : Type}

/-- A statement of a transaction or of the database. -/
def DbSt.exec (st : DbSt S) (inTx : Bool) (s : BStmt S) (o : CommitOut) : DbSt S × Option DbErr :=
  let w := if inTx then st.tx.getD st.store else st.store
  let set (w' : S) : DbSt S := if inTx then { st with tx := some w' } else { st with store := w' }
  match o with
  | .ok => ({ set (s w).1 with res := st.res ++ [(s w).2] }, none)
  | .fail e => (st, some e)
  | .lost e => (set (s w).1, some e)

/-- The end of a transaction. -/
def DbSt.commit (st : DbSt S) (o : CommitOut) : DbSt S × Option DbErr :=
  match o with
  | .ok => ({ st with store := st.tx.getD st.store, tx := none }, none)
  | .fail e => ({ st with tx := none }, some e)
  | .lost e => ({ st with store := st.tx.getD st.store, tx := none }, some e)

/-- What a goroutine does without the mutex, until it returns. -/
def Th.runDb (stmtOf : List UInt8 → List V → BStmt S) (E : DbEnv) : Th → DbSt S → Option (List V × DbSt S)
  | .ret vs, st => some (vs, st)
  | .getJobCtx j k, st => (k (st.jobs j).ctx).runDb stmtOf E st
  | .getJobQuery j k, st => (k (st.jobs j).query).runDb stmtOf E st
  | .getJobArgs j k, st => (k (st.jobs j).args).runDb stmtOf E st
  | .getJobErr j ok er, st =>
    match (st.jobs j).err with
    | none => ok.runDb stmtOf E st
    | some e => (er e).runDb stmtOf E st
  | .getJobRows j k, st => (k (st.jobs j).rows).runDb stmtOf E st
  | .getJobLast j k, st => (k (st.jobs j).last).runDb stmtOf E st
  | .setJobErr j e k, st => k.runDb stmtOf E { st with jobs := setJob st.jobs j fun m => { m with err := e } }
  | .setJobRows j n k, st => k.runDb stmtOf E { st with jobs := setJob st.jobs j fun m => { m with rows := n } }
  | .setJobLast j n k, st => k.runDb stmtOf E { st with jobs := setJob st.jobs j fun m => { m with last := n } }
  | .ctxDone c yes no, st =>
    match E.ctxAt st.time c with
    | some _ => yes.runDb stmtOf E { st with time := st.time + 1 }
    | none => no.runDb stmtOf E { st with time := st.time + 1 }
  | .ctxErr c ok er, st =>
    match E.ctxAt st.time c with
    | some e => (er e).runDb stmtOf E { st with time := st.time + 1 }
    | none => ok.runDb stmtOf E { st with time := st.time + 1 }
  | .beginTx ok er, st =>
    match E.begin st.time with
    | none => ok.runDb stmtOf E { st with tx := some st.store, time := st.time + 1 }
    | some e => (er e).runDb stmtOf E { st with time := st.time + 1 }
  | .exec inTx q l ok er, st =>
    match st.exec inTx (stmtOf q l) (E.out st.time) with
    | (st', none) => (ok st.res.length).runDb stmtOf E { st' with time := st.time + 1 }
    | (st', some e) => (er e).runDb stmtOf E { st' with time := st.time + 1 }
  | .resRows r ok er, st =>
    match st.res[r]? with
    | none => none
    | some x =>
      match E.rowsErr st.time with
      | none => (ok x.rowsAffected).runDb stmtOf E { st with time := st.time + 1 }
      | some e => (er e).runDb stmtOf E { st with time := st.time + 1 }
  | .resLast r ok er, st =>
    match st.res[r]? with
    | none => none
    | some x =>
      match E.lastErr st.time with
      | none => (ok x.lastInsertId).runDb stmtOf E { st with time := st.time + 1 }
      | some e => (er e).runDb stmtOf E { st with time := st.time + 1 }
  | .commit ok er, st =>
    match st.commit (E.commit st.time) with
    | (st', none) => ok.runDb stmtOf E { st' with time := st.time + 1 }
    | (st', some e) => (er e).runDb stmtOf E { st' with time := st.time + 1 }
  | .rollback k, st => k.runDb stmtOf E { st with tx := none }
  | _, _ => none

/-! ### The goroutines -/

/-- A goroutine: it goes on without the mutex (or has returned), it sleeps in `Wait`, it has been woken and needs the mutex. -/
inductive TSt where
  | run (t : Th)
  | asleep (t : Th)
  | woken (t : Th)

/-- What a goroutine was started for. -/
inductive Origin where
  | exec (ctx : Nat) (query : List UInt8) (args : List V)
  | close
  | worker

/-- The batcher, the database and all goroutines. -/
structure PSys (S : Type) where
  mem : BMem
  store : S
  threads : List (Origin × TSt)
  /-- ghost: how often anybody else has changed the store -/
  foreign : Nat

/-- `NewBatched` (`batched.go:36-46`): the zero values. -/
def PSys.init (s : S) : PSys S :=
  { mem := { closed := false, status := 0, queue := [], runId := 0, jobs := fun _ => ⟨0, [], [], 0, 0, 0, none⟩, next := 0 }
    store := s
    threads := []
    foreign := 0 }

/-- `Broadcast`. -/
def TSt.wake (bc : Bool) : TSt → TSt
  | .asleep t => if bc then .woken t else .asleep t
  | x => x

/-- After a lock section of goroutine `i`, which is now in state `x`. -/
def PSys.after (P : PSys S) (i : Nat) (x : TSt) (r : SecRes) : PSys S :=
  { P with
    mem := r.mem
    threads := (P.threads.mapIdx fun n p => (p.1, if n = i then x else p.2.wake r.bcast)) ++ r.spawned.map fun t => (Origin.worker, TSt.run t) }

/-- The goroutine waits for the mutex. -/
def TSt.wants : TSt → Option Th
  | .run (.lock k) => some k
  | .woken k => some k
  | _ => none

/-- A call of `ExecContext`. -/
def execCall (N c : Nat) (q : List UInt8) (l : List V) : Th := goroutine N n!"batchedDb" n!"ExecContext" (batcherV :: ctxV c :: .bytes q :: l)

/-- A call of `Close`. -/
def closeCall (N : Nat) : Th := goroutine N n!"batchedDb" n!"Close" [batcherV]

/-- The call of `execQueue` by the worker. -/
def queueCall (N : Nat) (q : List V) : Th := goroutine N n!"batchedDb" n!"execQueue" [batcherV, .ext (.db .workerCtx), .list q]

/-- The steps. `N` bounds the iterations of each loop: what happens in an execution is a step for all `N` that are large enough. -/
inductive PStep (stmtOf : List UInt8 → List V → BStmt S) (N : Nat) : PSys S → PSys S → Prop where
  /-- `ExecContext` is called -/
  | exec (P : PSys S) (c : Nat) (q : List UInt8) (l : List V) :
      PStep stmtOf N P { P with threads := P.threads ++ [(.exec c q l, .run (execCall N c q l))] }
  /-- `Close` is called -/
  | close (P : PSys S) : PStep stmtOf N P { P with threads := P.threads ++ [(.close, .run (closeCall N))] }
  /-- a goroutine gets the mutex and gives it back -/
  | unlock (P : PSys S) (i : Nat) (o : Origin) (x : TSt) (k t : Th) (ce : Option DbErr) (hi : P.threads[i]? = some (o, x)) (hk : x.wants = some k)
      (hf : (k.sec ce P.mem [] false).fin = .unlocked t) : PStep stmtOf N P (P.after i (.run t) (k.sec ce P.mem [] false))
  /-- a goroutine gets the mutex and sleeps -/
  | wait (P : PSys S) (i : Nat) (o : Origin) (x : TSt) (k t : Th) (ce : Option DbErr) (hi : P.threads[i]? = some (o, x)) (hk : x.wants = some k)
      (hf : (k.sec ce P.mem [] false).fin = .waits t) : PStep stmtOf N P (P.after i (.asleep t) (k.sec ce P.mem [] false))
  /-- the worker executes a queue -/
  | queue (P : PSys S) (i : Nat) (o : Origin) (q vs : List V) (k : Th) (E : DbEnv) (st : DbSt S) (hi : P.threads[i]? = some (o, .run (.execQueue q k)))
      (hr : (queueCall N q).runDb stmtOf E ⟨P.mem.jobs, P.store, none, [], 0⟩ = some (vs, st)) :
      PStep stmtOf N P { P with mem := { P.mem with jobs := st.jobs }, store := st.store, threads := P.threads.set i (o, .run k) }
  /-- anybody else changes the store -/
  | env (P : PSys S) (s : S) : PStep stmtOf N P { P with store := s, foreign := P.foreign + 1 }

/-- Reachable from a fresh batcher, with a store. -/
inductive PReach (stmtOf : List UInt8 → List V → BStmt S) (N : Nat) (s0 : S) : PSys S → Prop where
  | init : PReach stmtOf N s0 (PSys.init s0)
  | step {P P' : PSys S} : PReach stmtOf N s0 P → PStep stmtOf N P P' → PReach stmtOf N s0 P'

end Verif.Go
