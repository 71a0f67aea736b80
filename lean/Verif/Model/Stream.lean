import Verif.Model.Watch
/-!
# A client's watch stream: `/repo/pkg/limited/watch.go`

A stream runs three goroutines: one serves the client's requests, one forwards the updates of its watcher group,
one sends periodic progress notifications. They share a mutex `ws.mu`; `Create` holds it during the whole `Watch`
call. Here everything done under the lock is one step (except `Create`, whose `Watch` call has steps of its own),
and everything outside the lock is a step of its own. A failing `Send` ends the stream; such an execution is one
that stops there.
-/

namespace Verif

/-- `etcdserverpb.WatchResponse`, the fields the code sets. -/
structure WatchResponse where
  /-- `Header.Revision` -/
  revision : Int
  watchId : Int
  created : Bool := false
  canceled : Bool := false
  events : List Event := []
deriving DecidableEq, Repr

/-- A request of the client on the stream (`etcdserverpb.WatchRequest`, `watch.go:53-83`): create a watch, cancel one, ask
for progress. Creating a watch with an id chosen by the client ends the stream (`watch.go:59-61`) and is not among them. -/
inductive WatchAsk where
  | create (key rangeEnd : Bytes) (start : Int)
  | cancel (id : Int)
  | progress
deriving DecidableEq, Repr

/-- `watchStream` (`watch.go:40-48`) with the local variables of its goroutines. -/
structure Stream where
  /-- its watcher group: position among the groups of the node -/
  index : Nat
  /-- `ws.revision`, written by the update goroutine outside the lock (`watch.go:88`) -/
  revision : Int
  /-- the map `sendProgressReport` -/
  report : List (Int × Bool)
  /-- the update goroutine has received this update, but not yet entered `sendUpdates` -/
  sending : Option GroupUpdate
  /-- the request goroutine is inside `Create` for this id, holding the lock -/
  creating : Option Int
  /-- the request goroutine is inside `Close` for this id, between `Unwatch` and taking the lock -/
  closing : Option Int
  /-- `nextWatcherId` (`watch.go:51`) -/
  next : Int
  /-- ghost: the requests the client has made -/
  asked : List WatchAsk
  /-- ghost: the ids the client has cancelled -/
  cancelled : List Int
  /-- ghost: the responses sent to the client -/
  out : List WatchResponse

/-- A new stream (`watch.go:26-31`). -/
def Stream.new (index : Nat) : Stream :=
  { index, revision := 0, report := [], sending := none, creating := none, closing := none, next := 1,
    asked := [], cancelled := [], out := [] }

/-- `clientv3.InvalidWatchID`. -/
def invalidWatchId : Int := -1

/-- Assignment to a key of the map `sendProgressReport`. -/
def setReport (l : List (Int × Bool)) (id : Int) (b : Bool) : List (Int × Bool) :=
  (l.filter fun p => decide (p.1 ≠ id)) ++ [(id, b)]

/-- `sendUpdates` (`watch.go:96-113`). -/
def Stream.sendUpdates (st : Stream) (u : GroupUpdate) : Stream :=
  { st with
    report := u.updates.foldl (fun l p => setReport l p.1 false) st.report
    out := st.out ++ u.updates.map fun p => { revision := st.revision, watchId := p.1, events := p.2 }
    sending := none }

/-- Rounds of the loop of `sendProgress` (`watch.go:131-150`) for some entries of the map. The loop variable `sendProgressReport` is assigned,
but the map is not changed. -/
def Stream.sendProgressTo (st : Stream) (l : List (Int × Bool)) : Stream :=
  { st with out := st.out ++ l.map fun p => { revision := st.revision, watchId := p.1 } }

/-- The whole loop, in the order of the list. -/
def Stream.sendProgress (st : Stream) : Stream := st.sendProgressTo (st.report.filter (·.2))

/-- `RequestProgress` (`watch.go:193-201`). -/
def Stream.requestProgress (st : Stream) : Stream :=
  { st with asked := st.asked ++ [.progress]
            out := st.out ++ [{ revision := st.revision, watchId := invalidWatchId }] }

/-- The end of `Create` (`watch.go:156-182`) for an answer of `Watch`, and `nextWatcherId++` (`watch.go:69`). -/
def Stream.created (st : Stream) (id : Int) (ans : WatchAnswer) : Stream :=
  match ans with
  | .ok =>
    { st with report := setReport st.report id true, creating := none, next := st.next + 1
              out := st.out ++ [{ revision := 0, watchId := id, created := true }] }
  | .compacted _ cur =>
    { st with creating := none, next := st.next + 1
              out := st.out ++ [{ revision := cur, watchId := invalidWatchId, created := true, canceled := true }] }
  | .error =>
    { st with creating := none, next := st.next + 1
              out := st.out ++ [{ revision := st.revision, watchId := 0, canceled := true }] }

/-- The range end of a watch request (`watch.go:62-65`). -/
def watchRangeEnd (key rangeEnd : Bytes) : Bytes := if rangeEnd.length = 0 then key ++ [0] else rangeEnd

/-- The group at a position of the node. -/
def Node.groupAt (n : Node) (i : Nat) : Option Group := n.groups[i]?

/-- The node and one stream. -/
structure SSys where
  base : NSys
  stream : Stream

/-- One step of a stream or of anything else. -/
inductive SStep : SSys → SSys → Prop where
  /-- Any other step: the database, other streams, the poller, the `Watch` call in progress, the end of the
  context. It does not receive from this stream's channel nor start a watch on its group. (This over-approximates:
  it also lets watchers of the group disappear spontaneously.) -/
  | env (a b : NSys) (st : Stream) (h : NStep a b)
      (quiet : ∀ g, a.node.groupAt st.index = some g →
        ∃ g', b.node.groupAt st.index = some g' ∧ g'.received = g.received ∧ g'.used = g.used) :
      SStep ⟨a, st⟩ ⟨b, st⟩
  /-- `ServeUpdates` receives an update (`watch.go:87`) -/
  | recv (s : Sys) (n : Node) (st : Stream) (pre post : List Group) (g : Group) (u : GroupUpdate)
      (q : List GroupUpdate) (c : n.groups = pre ++ g :: post) (hi : pre.length = st.index)
      (hq : g.queue = u :: q) (free : st.sending = none) :
      SStep ⟨⟨s, n⟩, st⟩
        ⟨⟨s, { n with groups := pre ++ { g with queue := q, received := g.received ++ [u] } :: post }⟩,
          { st with sending := some u }⟩
  /-- it stores its revision (`watch.go:88`) -/
  | store (a : NSys) (st : Stream) (u : GroupUpdate) (hs : st.sending = some u) : SStep ⟨a, st⟩ ⟨a, { st with revision := u.revision }⟩
  /-- `sendUpdates`; the revision has been stored -/
  | sendUpdates (a : NSys) (st : Stream) (u : GroupUpdate) (hs : st.sending = some u) (hrev : st.revision = u.revision)
      (unlocked : st.creating = none) : SStep ⟨a, st⟩ ⟨a, st.sendUpdates u⟩
  /-- the client creates a watch (`watch.go:58-68`): `Create` takes the lock and calls `Watch` -/
  | create (s : Sys) (n : Node) (st : Stream) (pre post : List Group) (g g' : Group) (key rangeEnd : Bytes)
      (start : Int) (c : n.groups = pre ++ g :: post) (hi : pre.length = st.index) (idle : g.call = .idle)
      (seq : st.creating = none ∧ st.closing = none)
      (hg : g' = g.watch st.next key (watchRangeEnd key rangeEnd) start s.world.db.compactRev) :
      SStep ⟨⟨s, n⟩, st⟩ ⟨⟨s, { n with groups := pre ++ g' :: post }⟩,
        { st with creating := some st.next, asked := st.asked ++ [.create key rangeEnd start] }⟩
  /-- `Watch` has returned: the answer is sent and the lock released -/
  | created (a : NSys) (st : Stream) (g : Group) (id : Int) (args : WatchArgs) (ans : WatchAnswer)
      (hg : a.node.groupAt st.index = some g) (idle : g.call = .idle) (hc : st.creating = some id)
      (ha : g.answers.getLast? = some (args, ans)) :
      SStep ⟨a, st⟩ ⟨a, st.created id ans⟩
  /-- the client cancels a watch (`watch.go:72-75,185-186`): `Unwatch` -/
  | unwatch (s : Sys) (n : Node) (st : Stream) (pre post : List Group) (g : Group) (id : Int)
      (c : n.groups = pre ++ g :: post) (hi : pre.length = st.index)
      (seq : st.creating = none ∧ st.closing = none) :
      SStep ⟨⟨s, n⟩, st⟩
        ⟨⟨s, { n with groups := pre ++ { g with watchers := removeWatcher g.watchers id } :: post }⟩,
          { st with closing := some id, asked := st.asked ++ [.cancel id], cancelled := st.cancelled ++ [id] }⟩
  /-- the rest of `Close` (`watch.go:188-190`) -/
  | closed (a : NSys) (st : Stream) (id : Int) (hc : st.closing = some id) :
      SStep ⟨a, st⟩ ⟨a, { st with closing := none, report := st.report.filter fun p => decide (p.1 ≠ id) }⟩
  /-- a tick of `ServeProgress`, or a part of it: the revision may change between two notifications, because it is written outside the lock; any
  order of the entries -/
  | tick (a : NSys) (st : Stream) (l : List (Int × Bool)) (hl : ∀ p ∈ l, p ∈ st.report.filter (·.2)) (unlocked : st.creating = none) :
      SStep ⟨a, st⟩ ⟨a, st.sendProgressTo l⟩
  /-- a progress request of the client -/
  | requestProgress (a : NSys) (st : Stream) (seq : st.creating = none ∧ st.closing = none) :
      SStep ⟨a, st⟩ ⟨a, st.requestProgress⟩

/-- A stream that was opened on a reachable node, after any number of steps. -/
inductive SReachable : SSys → Prop where
  | open {s : Sys} {n : Node} (h : NReachable ⟨s, n⟩) :
      SReachable ⟨⟨s, { n with groups := n.groups ++ [Group.new n.pollRevision] }⟩, Stream.new n.groups.length⟩
  | step {a b : SSys} : SReachable a → SStep a b → SReachable b

/-- Any number of steps. -/
inductive SSteps : SSys → SSys → Prop where
  | refl (s : SSys) : SSteps s s
  | tail {s t u : SSys} : SSteps s t → SStep t u → SSteps s u

/-- The events a client has been sent for a watch id. -/
def eventsFor (out : List WatchResponse) (id : Int) : List Event :=
  (out.filter fun r => decide (r.watchId = id)).flatMap (·.events)

/-- The response announces watch `id`. -/
def WatchResponse.announces (r : WatchResponse) (id : Int) : Bool :=
  r.created && !r.canceled && decide (r.watchId = id)

/-- A progress notification: no events, neither created nor cancelled. -/
def WatchResponse.isProgress (r : WatchResponse) : Bool :=
  !r.created && !r.canceled && decide (r.events = [])

end Verif
