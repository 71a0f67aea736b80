import Verif.Model.GoStream
/-!
# The goroutines of a client's watch stream, running the text of `/repo/pkg/limited/watch.go`

The handler opens a watcher group and starts three goroutines. They share the mutex, the fields of the stream, the group and the gRPC stream. Every
single action of a goroutine is a step; steps of the goroutines interleave in any way, with each other and with everything else: the database, the
poller, other streams, a `Watch` call in progress (`NStep`), the client. What `Watch` and the poller do, text by text, is in
`Model/GoWatchSys.lean`.

Once a `Send` has failed, the gRPC stream is broken and later ones fail too.
-/

namespace Verif.Go

/-- What the goroutines share. -/
structure SMem where
  base : NSys
  /-- the group of the stream: position among those of the node -/
  index : Option Nat
  /-- `ws.revision` -/
  revision : Int
  /-- the map `sendProgressReport` -/
  report : List (Int × Bool)
  /-- who holds the mutex -/
  owner : Option Nat
  /-- the messages received from the client so far -/
  asked : List WatchMsg
  /-- the responses sent to it -/
  out : List V
  /-- a `Send` has failed -/
  broken : Bool
  /-- the context of the gRPC stream has ended -/
  ended : Bool

/-- Change a group. -/
def SMem.withGroups (m : SMem) (gs : List Group) : SMem := { m with base := ⟨m.base.sys, { m.base.node with groups := gs }⟩ }

/-- A new group. -/
def SMem.opened (m : SMem) : SMem :=
  { m with base := ⟨m.base.sys, { m.base.node with groups := m.base.node.groups ++ [Group.new m.base.node.pollRevision] }⟩,
           index := some m.base.node.groups.length }

/-- `delete` of a map entry. -/
def delReport (l : List (Int × Bool)) (id : Int) : List (Int × Bool) := l.filter fun p => decide (p.1 ≠ id)

/-- One action of goroutine `i`. -/
inductive TStep (i : Nat) : SMem → Ts → SMem → Ts → Prop where
  | lock (m : SMem) (k : Ts) (free : m.owner = none) : TStep i m (.lock k) { m with owner := some i } k
  | unlock (m : SMem) (k : Ts) (held : m.owner ≠ none) : TStep i m (.unlock k) { m with owner := none } k
  | getRev (m : SMem) (k : Int → Ts) : TStep i m (.getRev k) m (k m.revision)
  | setRev (m : SMem) (n : Int) (k : Ts) : TStep i m (.setRev n k) { m with revision := n } k
  | setReport (m : SMem) (id : Int) (b : Bool) (k : Ts) : TStep i m (.setReport id b k) { m with report := Verif.setReport m.report id b } k
  | delReport (m : SMem) (id : Int) (k : Ts) : TStep i m (.delReport id k) { m with report := Go.delReport m.report id } k
  /-- the order in which Go iterates over a map is any -/
  | getReport (m : SMem) (k : List (Int × Bool) → Ts) (l : List (Int × Bool)) (p : l.Perm m.report) : TStep i m (.getReport k) m (k l)
  /-- `Watch` starts: its first lock section (`/repo/pkg/backend/internal/backend/watcher.go:103-113`) -/
  | watch (m : SMem) (id : Int) (lo hi : List UInt8) (start : Int) (ok : Ts) (co : Int → Int → Ts) (er : ApiErr → Ts) (pre post : List Group)
      (g : Group) (c : m.base.node.groups = pre ++ g :: post) (hi' : m.index = some pre.length) (idle : g.call = .idle) :
      TStep i m (.watch id lo hi start ok co er)
        (m.withGroups (pre ++ g.watch id lo hi start m.base.sys.world.db.compactRev :: post)) (.watching ok co er)
  /-- it has returned -/
  | watched (m : SMem) (ok : Ts) (co : Int → Int → Ts) (er : ApiErr → Ts) (j : Nat) (g : Group) (args : WatchArgs) (hj : m.index = some j)
      (hg : m.base.node.groupAt j = some g) (idle : g.call = .idle) (ha : g.answers.getLast? = some (args, .ok)) :
      TStep i m (.watching ok co er) m ok
  | refused (m : SMem) (ok : Ts) (co : Int → Int → Ts) (er : ApiErr → Ts) (j : Nat) (g : Group) (args : WatchArgs) (a b : Int) (hj : m.index = some j)
      (hg : m.base.node.groupAt j = some g) (idle : g.call = .idle) (ha : g.answers.getLast? = some (args, .compacted a b)) :
      TStep i m (.watching ok co er) m (co a b)
  | failed (m : SMem) (ok : Ts) (co : Int → Int → Ts) (er : ApiErr → Ts) (j : Nat) (g : Group) (args : WatchArgs) (e : ApiErr) (hj : m.index = some j)
      (hg : m.base.node.groupAt j = some g) (idle : g.call = .idle) (ha : g.answers.getLast? = some (args, .error)) :
      TStep i m (.watching ok co er) m (er e)
  /-- `Unwatch` (`watcher.go:167-172`) -/
  | unwatch (m : SMem) (id : Int) (k : Ts) (pre post : List Group) (g : Group) (c : m.base.node.groups = pre ++ g :: post)
      (hi : m.index = some pre.length) :
      TStep i m (.unwatch id k) (m.withGroups (pre ++ { g with watchers := removeWatcher g.watchers id } :: post)) k
  | send (m : SMem) (r : V) (ok : Ts) (er : ApiErr → Ts) (whole : m.broken = false) : TStep i m (.send r ok er) { m with out := m.out ++ [r] } ok
  | sendFails (m : SMem) (r : V) (ok : Ts) (er : ApiErr → Ts) (e : ApiErr) : TStep i m (.send r ok er) { m with broken := true } (er e)
  /-- the next message of the client -/
  | recv (m : SMem) (ok : WatchMsg → Ts) (er : ApiErr → Ts) (r : WatchMsg) : TStep i m (.recv ok er) { m with asked := m.asked ++ [r] } (ok r)
  /-- the client has closed its side, or is gone -/
  | recvFails (m : SMem) (ok : WatchMsg → Ts) (er : ApiErr → Ts) (e : ApiErr) : TStep i m (.recv ok er) m (er e)
  | recvUpdate (m : SMem) (ok : GroupUpdate → Ts) (cl : Ts) (pre post : List Group) (g : Group) (u : GroupUpdate) (q : List GroupUpdate)
      (c : m.base.node.groups = pre ++ g :: post) (hi : m.index = some pre.length) (hq : g.queue = u :: q) :
      TStep i m (.recvUpdate ok cl) (m.withGroups (pre ++ { g with queue := q, received := g.received ++ [u] } :: post)) (ok u)
  /-- a closed channel is read to its end first -/
  | updatesEnd (m : SMem) (ok : GroupUpdate → Ts) (cl : Ts) (j : Nat) (g : Group) (hj : m.index = some j) (hg : m.base.node.groupAt j = some g)
      (hq : g.queue = []) (hc : g.closed > 0) : TStep i m (.recvUpdate ok cl) m cl
  | tick (m : SMem) (a b : Ts) : TStep i m (.select a b) m a
  | done (m : SMem) (a b : Ts) (h : m.ended = true) : TStep i m (.select a b) m b

/-- The memory and the goroutines: the first one is the handler. -/
structure GS where
  mem : SMem
  ts : List Ts
  /-- the goroutines that have returned to the `errgroup` -/
  finished : List Nat
  /-- the first error returned to it -/
  err : V

/-- What `errgroup` remembers (`golang.org/x/sync/errgroup`: `errOnce`). -/
def firstErr (err v : V) : V :=
  match err with
  | .nil => v
  | e => e

/-- One step. -/
inductive GStep : GS → GS → Prop where
  /-- a goroutine acts -/
  | thread (c : GS) (i : Nat) (t t' : Ts) (m' : SMem) (ht : c.ts[i]? = some t) (h : TStep i c.mem t m' t') :
      GStep c { c with mem := m', ts := c.ts.set i t' }
  /-- `WatcherGroup` opens a group (`watcher.go:257-288`) -/
  | opened (c : GS) (i : Nat) (k : Ts) (er : ApiErr → Ts) (ht : c.ts[i]? = some (.openGroup k er)) :
      GStep c { c with mem := c.mem.opened, ts := c.ts.set i k }
  /-- or fails -/
  | notOpened (c : GS) (i : Nat) (k : Ts) (er : ApiErr → Ts) (e : ApiErr) (ht : c.ts[i]? = some (.openGroup k er)) :
      GStep c { c with ts := c.ts.set i (er e) }
  /-- `eg.Go` -/
  | spawn (c : GS) (i : Nat) (t k : Ts) (ht : c.ts[i]? = some (.spawn t k)) : GStep c { c with ts := c.ts.set i k ++ [t] }
  /-- a goroutine of the `errgroup` returns -/
  | finish (c : GS) (i : Nat) (v : V) (ht : c.ts[i]? = some (.ret [v])) (h0 : 0 < i) (hn : i ∉ c.finished) :
      GStep c { c with finished := c.finished ++ [i], err := firstErr c.err v }
  /-- `eg.Wait`: all have -/
  | await (c : GS) (i : Nat) (k : V → Ts) (ht : c.ts[i]? = some (.await k)) (all : ∀ j, 0 < j → j < c.ts.length → j ∈ c.finished) :
      GStep c { c with ts := c.ts.set i (k c.err) }
  /-- anything else that happens to the node, before the group is opened -/
  | envBefore (c : GS) (b : NSys) (h : NStep c.mem.base b) (no : c.mem.index = none) : GStep c { c with mem := { c.mem with base := b } }
  /-- and afterwards: it does not receive from this group's channel nor start a watch on it -/
  | env (c : GS) (b : NSys) (j : Nat) (h : NStep c.mem.base b) (hj : c.mem.index = some j)
      (quiet : ∀ g, c.mem.base.node.groupAt j = some g →
        ∃ g', b.node.groupAt j = some g' ∧ g'.received = g.received ∧ g'.used = g.used) : GStep c { c with mem := { c.mem with base := b } }
  /-- the client is gone -/
  | gone (c : GS) : GStep c { c with mem := { c.mem with ended := true } }

/-- A client calls `Watch`. -/
def GS.init (N : Nat) (a : NSys) : GS :=
  { mem := { base := a, index := none, revision := 0, report := [], owner := none, asked := [], out := [], broken := false, ended := false }
    ts := [handlerGo N]
    finished := []
    err := .nil }

/-- Any number of steps from a call of `Watch` on a node in any reachable state; no loop iterates more than `N` times (any number). -/
inductive GReachable (N : Nat) : GS → Prop where
  | init (a : NSys) (h : NReachable a) : GReachable N (GS.init N a)
  | step {c d : GS} : GReachable N c → GStep c d → GReachable N d

/-- Any number of steps. -/
inductive GSteps : GS → GS → Prop where
  | refl (c : GS) : GSteps c c
  | tail {a b c : GS} : GSteps a b → GStep b c → GSteps a c

end Verif.Go
