import Verif.Model.System
/-!
# The watch machinery of one node: `pkg/backend/internal/backend/watcher.go`

A node polls the shared database for new rows and hands them to its watcher groups (one group per client
stream, plus the one of the TTL loop). Everything a lock section does is one step; every SQL statement is one
step; steps of the node interleave arbitrarily with each other and with all other activity on the database
(`Step`, which includes other nodes, the compaction and the writes of this node).

Fields marked *ghost* are not read by any step; they record what happened so that it can be talked about.
-/

namespace Verif

/-- `pollBatchSize` (`/repo/pkg/backend/internal/backend/backend.go:24`). -/
def pollBatchSize : Int := 500

/-- The capacity of the update channel of a group (`watcher.go:276`). -/
def updateCapacity : Nat := 100

/-- `watcherGroupUpdate` (`watcher.go:32-35`): a revision and, per watcher id, its events. The order in which
Go iterates over the watchers of a group is not modelled (each watcher appears at most once). -/
structure GroupUpdate where
  revision : Int
  updates : List (Int × List Event)
deriving DecidableEq, Repr

/-- `watcher` (`watcher.go:25-30`). -/
structure Watcher where
  id : Int
  lo : Bytes
  hi : Bytes
  initialized : Bool
  events : List Event
  /-- ghost: the requested start revision -/
  start : Int
  /-- ghost: the group's revision when the watcher was registered -/
  base : Int
  /-- ghost: the initial query was executed when compaction had reached the start revision, or its cursor
  broke -/
  lossy : Bool
deriving DecidableEq, Repr

/-- The state of `context.AfterFunc` (`watcher.go:278-284`): not yet triggered, started in its own goroutine
and waiting for the lock, finished, stopped by `stop()`. -/
inductive AfterFunc where
  | armed
  | running
  | done
  | stopped
deriving DecidableEq, Repr

/-- The local variables of a `Watch` call: its parameters and the group's revision read when the watcher was
registered (`watcher.go:88,112`). -/
structure WatchArgs where
  id : Int
  lo : Bytes
  hi : Bytes
  start : Int
  base : Int
  /-- ghost: the compact revision when the call was made -/
  compactThen : Int
deriving DecidableEq, Repr

/-- The `Watch` call in progress on a group. Both callers issue calls on a group from a single goroutine
(`/repo/pkg/limited/watch.go:50-94`, `/repo/pkg/backend/internal/backend/ttl.go:47-98`), so there is at most
one. -/
inductive WatchCall where
  | idle
  /-- `GetCompactRevision` in progress (`watcher.go:115-121`) -/
  | check (a : WatchArgs) (p : Prog (Except ApiErr (Int × Int)))
  /-- `initialEvents` in progress (`watcher.go:123-132`) -/
  | query (a : WatchArgs) (p : Prog (Except ApiErr (List Row × Option Nat)))

/-- Answer of a `Watch` call. -/
inductive WatchAnswer where
  | ok
  /-- `limited.CompactedError` -/
  | compacted (compactRev currentRev : Int)
  | error
deriving DecidableEq, Repr

/-- `WatcherGroup` (`watcher.go:15-23`). -/
structure Group where
  currentRevision : Int
  watchers : List Watcher
  /-- contents of the channel `updates` -/
  queue : List GroupUpdate
  /-- is it in `Backend.WatcherGroups`? -/
  inMap : Bool
  after : AfterFunc
  call : WatchCall
  /-- ghost: how often the channel has been closed -/
  closed : Nat
  /-- ghost: the process panicked on this channel (send on a closed channel, or closed twice) -/
  panicked : Bool
  /-- ghost: an update did not fit into the channel -/
  dropped : Bool
  /-- ghost: the updates received from the channel so far -/
  received : List GroupUpdate
  /-- ghost: all watch ids used so far -/
  used : List Int
  /-- ghost: the answers to the `Watch` calls -/
  answers : List (WatchArgs × WatchAnswer)

/-- `WatcherGroup()` (`watcher.go:257-288`): a new group. -/
def Group.new (pollRevision : Int) : Group :=
  { currentRevision := pollRevision, watchers := [], queue := [], inMap := true, after := .armed,
    call := .idle, closed := 0, panicked := false, dropped := false, received := [], used := [],
    answers := [] }

/-- `(*watcher).update` (`watcher.go:74-86`): the new state and the events to send. -/
def Watcher.update (w : Watcher) (events : List Event) : Watcher × List Event :=
  if w.initialized = false then
    ({ w with events := w.events ++ appendEvents events w.lo w.hi }, [])
  else if w.events.length > 0 then
    ({ w with events := [] }, w.events ++ appendEvents events w.lo w.hi)
  else (w, appendEvents events w.lo w.hi)

/-- The update built by `publish` (`watcher.go:51-65`): watchers without events are left out. -/
def groupUpdate (ws : List Watcher) (rev : Int) (events : List Event) : GroupUpdate :=
  { revision := rev
    updates := (ws.map fun w => (w.id, (w.update events).2)).filter fun u => decide (u.2.length > 0) }

/-- `(*WatcherGroup).publish` (`watcher.go:40-72`): the group afterwards, and whether the update was sent.
Sending on a closed channel panics. -/
def Group.publish (g : Group) (rev : Int) (events : List Event) : Group × Bool :=
  let u := groupUpdate g.watchers rev events
  let g' := { g with currentRevision := rev, watchers := g.watchers.map fun (w : Watcher) => (w.update events).1 }
  if g.closed > 0 then ({ g' with panicked := true }, true)
  else if g.queue.length < updateCapacity then ({ g' with queue := g.queue ++ [u] }, true)
  else ({ g' with dropped := true }, false)

/-- `delete(s.WatcherGroups, w); close(w.updates)` (`watcher.go:225-226,281-282`). Closing a closed channel
panics. -/
def Group.close (g : Group) : Group :=
  { g with inMap := false, closed := g.closed + 1, panicked := g.panicked || decide (g.closed > 0) }

/-- The body of the loop in `publishEvents` (`watcher.go:222-229`): `w.stop()` succeeds exactly while the
`AfterFunc` is still armed. -/
def Group.publishOrDrop (g : Group) (rev : Int) (events : List Event) : Group :=
  match g.publish rev events with
  | (g', true) => g'
  | (g', false) => if g'.after = .armed then Group.close { g' with after := .stopped } else g'

/-- The goroutine `poll` (`watcher.go:185-214`): between polls, query in progress, or returned. -/
inductive PollState where
  | idle
  | querying (p : Prog (Except ApiErr (List Row × Option Nat)))
  | dead

/-- The watch-related state of a `Backend` (`backend.go:71-83`). -/
structure Node where
  pollRevision : Int
  poll : PollState
  groups : List Group
  /-- ghost: the poll revision when the node started -/
  startRevision : Int
  /-- ghost: all events published so far -/
  published : List Event
  /-- ghost: a poll query was executed when compaction had already passed the poll revision -/
  overtaken : Bool

/-- A node right after `Start` (`backend.go:266-303`). -/
def Node.init (rev : Int) : Node :=
  { pollRevision := rev, poll := .idle, groups := [], startRevision := rev, published := [],
    overtaken := false }

/-- The new poll revision (`watcher.go:219-221`). -/
def nextPollRevision (cur : Int) (events : List Event) : Int :=
  match events.getLast? with
  | some e => e.kv.modRev
  | none => cur

/-- `(*Backend).publishEvents` (`watcher.go:216-230`). -/
def Node.publishEvents (n : Node) (events : List Event) : Node :=
  let rev := nextPollRevision n.pollRevision events
  { n with
    pollRevision := rev
    groups := n.groups.map fun g => if g.inMap then g.publishOrDrop rev events else g
    published := n.published ++ events }

/-- What `poll` does with a failed query (`watcher.go:203-209`). -/
def pollAfterError : ApiErr → PollState
  | .db .deadline => .dead
  | .db .canceled => .dead
  | _ => .idle

/-- Change the watcher with a given id (the map `watchers`). -/
def updateWatcher (ws : List Watcher) (id : Int) (f : Watcher → Watcher) : List Watcher :=
  ws.map fun w => if w.id = id then f w else w

/-- Remove a watcher: `delete(w.watchers, watchId)`. -/
def removeWatcher (ws : List Watcher) (id : Int) : List Watcher := ws.filter fun w => decide (w.id ≠ id)

/-- The watcher registered by `Watch` (`watcher.go:103-107`). -/
def WatchArgs.watcher (a : WatchArgs) : Watcher :=
  { id := a.id, lo := a.lo, hi := a.hi, initialized := decide (¬ a.start > 0), events := [],
    start := a.start, base := a.base, lossy := false }

/-- First lock section of `Watch` (`watcher.go:103-113,137-140`): register; without a start revision the
watcher is ready at once, otherwise the compact revision is read next. -/
def Group.watch (g : Group) (id : Int) (lo hi : Bytes) (start : Int) (compactThen : Int) : Group :=
  let a : WatchArgs := { id, lo, hi, start, base := g.currentRevision, compactThen }
  let g' := { g with watchers := removeWatcher g.watchers id ++ [a.watcher], used := g.used ++ [id] }
  if start > 0 then { g' with call := .check a Driver.getCompactRevision }
  else { g' with answers := g.answers ++ [(a, .ok)] }

/-- After `GetCompactRevision` (`watcher.go:115-123`): on an error the watcher stays registered. -/
def Group.checked (g : Group) (a : WatchArgs) (r : Except ApiErr (Int × Int)) : Group :=
  match r with
  | .error _ => { g with call := .idle, answers := g.answers ++ [(a, .error)] }
  | .ok (compactRev, rev) =>
    if a.start < compactRev then
      { g with call := .idle, answers := g.answers ++ [(a, .compacted compactRev rev)] }
    else { g with call := .query a (Driver.afterPrefix a.lo a.hi (a.start - 1) a.base) }

/-- After the initial query: second lock section of `Watch` (`watcher.go:123-140`). -/
def Group.queried (g : Group) (a : WatchArgs) (r : Except ApiErr (List Row × Option Nat)) : Group :=
  match r with
  | .error _ =>
    { g with watchers := removeWatcher g.watchers a.id, call := .idle,
             answers := g.answers ++ [(a, .error)] }
  | .ok rows =>
    { g with
      watchers := updateWatcher g.watchers a.id fun w =>
        { w with events := scanAll scanEvent rows ++ w.events, initialized := true }
      call := .idle
      answers := g.answers ++ [(a, .ok)] }

/-- Did the cursor break? -/
def Outcome.isTrunc : Outcome → Bool
  | .trunc _ => true
  | _ => false

/-- Ghost bookkeeping when a statement of the initial query runs on database `db` with outcome `o`. -/
def Group.noteQuery (g : Group) (a : WatchArgs) (db : DB) (o : Outcome) : Group :=
  { g with watchers := updateWatcher g.watchers a.id fun w =>
      { w with lossy := w.lossy || decide (a.start ≤ db.compactRev) || o.isTrunc } }

/-- Everything: the shared database with all other activity, and the watch machinery of one node. -/
structure NSys where
  sys : Sys
  node : Node

/-- Replace one group. -/
inductive GroupStep : World → Group → World → Group → Prop where
  /-- a client starts a watch; ids are never reused on a group (`watch.go:51,66-69`) -/
  | watch (w : World) (g : Group) (id : Int) (lo hi : Bytes) (start : Int) (idle : g.call = .idle)
      (fresh : id ∉ g.used) (ne : hi ≠ []) : GroupStep w g w (g.watch id lo hi start w.db.compactRev)
  /-- the compact-revision query of `Watch` executes a statement -/
  | checkExec (w : World) (g : Group) (a : WatchArgs) (eff : DB → DB)
      (k : Outcome → DB → Prog (Except ApiErr (Int × Int))) (o : Outcome)
      (c : g.call = .check a (.stmt eff k)) :
      GroupStep w g (w.exec eff o) { g with call := .check a (k o w.db) }
  /-- it returns -/
  | checked (w : World) (g : Group) (a : WatchArgs) (r : Except ApiErr (Int × Int))
      (c : g.call = .check a (.ret r)) : GroupStep w g w (g.checked a r)
  /-- the initial query of `Watch` executes a statement -/
  | queryExec (w : World) (g : Group) (a : WatchArgs) (eff : DB → DB)
      (k : Outcome → DB → Prog (Except ApiErr (List Row × Option Nat))) (o : Outcome)
      (c : g.call = .query a (.stmt eff k)) :
      GroupStep w g (w.exec eff o) { g.noteQuery a w.db o with call := .query a (k o w.db) }
  /-- it returns -/
  | queried (w : World) (g : Group) (a : WatchArgs) (r : Except ApiErr (List Row × Option Nat))
      (c : g.call = .query a (.ret r)) : GroupStep w g w (g.queried a r)
  /-- `Unwatch` (`watcher.go:167-172`) -/
  | unwatch (w : World) (g : Group) (id : Int) (idle : g.call = .idle) :
      GroupStep w g w { g with watchers := removeWatcher g.watchers id }
  /-- the consumer receives an update from the channel -/
  | recv (w : World) (g : Group) (u : GroupUpdate) (q : List GroupUpdate) (c : g.queue = u :: q) :
      GroupStep w g w { g with queue := q, received := g.received ++ [u] }
  /-- the context of the stream is cancelled: the `AfterFunc` starts -/
  | cancel (w : World) (g : Group) (c : g.after = .armed) : GroupStep w g w { g with after := .running }
  /-- the body of the `AfterFunc` (`watcher.go:278-283`) -/
  | afterFunc (w : World) (g : Group) (c : g.after = .running) :
      GroupStep w g w (Group.close { g with after := .done })

/-- One step of the node or of anything else. -/
inductive NStep : NSys → NSys → Prop where
  /-- any other activity on the database -/
  | env (s s' : Sys) (n : Node) (h : Step s s') : NStep ⟨s, n⟩ ⟨s', n⟩
  /-- a poll starts (`watcher.go:202`, `getLatestEvents` `watcher.go:232-255`) -/
  | pollStart (s : Sys) (n : Node) (c : n.poll = .idle) :
      NStep ⟨s, n⟩ ⟨s, { n with poll := .querying (Driver.after n.pollRevision pollBatchSize) }⟩
  /-- the poll query executes a statement -/
  | pollExec (s : Sys) (n : Node) (eff : DB → DB)
      (k : Outcome → DB → Prog (Except ApiErr (List Row × Option Nat))) (o : Outcome)
      (c : n.poll = .querying (.stmt eff k)) :
      NStep ⟨s, n⟩ ⟨{ s with world := s.world.exec eff o },
        { n with poll := .querying (k o s.world.db),
                 overtaken := n.overtaken || decide (n.pollRevision < s.world.db.compactRev) }⟩
  /-- the poll query has returned rows: publish (`watcher.go:211-212`) -/
  | pollPublish (s : Sys) (n : Node) (rows : List Row × Option Nat)
      (c : n.poll = .querying (.ret (.ok rows))) :
      NStep ⟨s, n⟩ ⟨s, { n.publishEvents (scanAll scanEvent rows) with poll := .idle }⟩
  /-- the poll query has failed -/
  | pollError (s : Sys) (n : Node) (e : ApiErr) (c : n.poll = .querying (.ret (.error e))) :
      NStep ⟨s, n⟩ ⟨s, { n with poll := pollAfterError e }⟩
  /-- a client opens a watch stream -/
  | openGroup (s : Sys) (n : Node) :
      NStep ⟨s, n⟩ ⟨s, { n with groups := n.groups ++ [Group.new n.pollRevision] }⟩
  /-- a step of one group -/
  | group (s : Sys) (n : Node) (w' : World) (pre post : List Group) (g g' : Group)
      (c : n.groups = pre ++ g :: post) (h : GroupStep s.world g w' g') :
      NStep ⟨s, n⟩ ⟨{ s with world := w' }, { n with groups := pre ++ g' :: post }⟩

/-- A node that was started on a reachable system (`Backend.Start`), after any number of steps. -/
inductive NReachable : NSys → Prop where
  | start {s s' : Sys} {t : List Obs} {rev : Int} (h : Reachable s)
      (r : Run s Backend.start t (.ok rev) s') : NReachable ⟨s', Node.init rev⟩
  | step {a b : NSys} : NReachable a → NStep a b → NReachable b

/-- Any number of steps. -/
inductive NSteps : NSys → NSys → Prop where
  | refl (s : NSys) : NSteps s s
  | tail {s t u : NSys} : NSteps s t → NStep t u → NSteps s u

/-- The events sent on a group for a watch id: received by the consumer or still in the channel. -/
def sentTo (us : List GroupUpdate) (id : Int) : List Event :=
  us.flatMap fun u => (u.updates.filter fun x => decide (x.1 = id)).flatMap (·.2)

end Verif
