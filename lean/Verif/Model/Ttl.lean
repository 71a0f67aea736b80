import Verif.Model.Watch
import Verif.Model.Stream
/-!
# Lease expiry: `/repo/pkg/backend/internal/backend/ttl.go` and `/repo/pkg/limited/lease.go`

The TTL loop of a node lists the leased keys, starts a timer for each, then follows a watch of its own and starts a
timer for every leased version it sees. A timer that fires deletes exactly its version, retrying on errors. Timers are
recorded with their delay; the passing of time itself is not modelled: a timer may fire at any moment after it was
started, which over-approximates `time.After`.
-/

namespace Verif

/-- Two's complement wrap-around of `int64` arithmetic. -/
def wrap64 (n : Int) : Int := (n + 9223372036854775808) % 18446744073709551616 - 9223372036854775808

/-- `time.Duration(lease)*time.Second` in nanoseconds (`ttl.go:71,93`). -/
def leaseDelay (lease : Int) : Int := wrap64 (lease * 1000000000)

/-- The same plus a jitter of `j` milliseconds (`ttl.go:92-93`). -/
def jitteredDelay (lease : Int) (j : Nat) : Int := wrap64 (leaseDelay lease + j * 1000000)

/-- A goroutine `run(ctx, key, revision, timeout)` (`ttl.go:13-43`). -/
structure Timer where
  key : Bytes
  rev : Int
  lease : Int
  /-- nanoseconds; negative delays expire at once -/
  delay : Int
deriving DecidableEq, Repr

/-- The timers for the rows of `ListTTL` (`ttl.go:62-72`). `rows.Err()` is not looked at, so a broken cursor just ends
the loop. -/
def listTimers (rows : List Row × Option Nat) : List Timer :=
  scanAll (fun r => { key := r.name, rev := r.id, lease := r.lease, delay := leaseDelay r.lease }) rows

/-- The timers for the events of an update (`ttl.go:86-97`); `jit` gives the jitter of each of them, one after the other. Delete events carry
the lease of the deleted version and get a timer too. -/
def eventTimers (jit : Nat → Nat) (u : GroupUpdate) : List Timer :=
  ((u.updates.flatMap (·.2)).filter fun e => decide (e.kv.lease > 0)).mapIdx fun i e =>
    { key := e.kv.key, rev := e.kv.modRev, lease := e.kv.lease, delay := jitteredDelay e.kv.lease (jit i) }

/-- Where the TTL goroutine is (`ttl.go:47-98`). -/
inductive TtlPhase where
  /-- `CurrentRevision` in progress -/
  | current (p : Prog (Except ApiErr Int))
  /-- `ListTTL` in progress -/
  | list (start : Int) (p : Prog (Except ApiErr (List Row × Option Nat)))
  /-- about to open its watcher group -/
  | group (start : Int)
  /-- about to start its watch on the group at this position -/
  | watch (start : Int) (index : Nat)
  /-- inside `Watch`, or following the updates -/
  | serve (start : Int) (index : Nat)
  /-- returned because of an error -/
  | dead

/-- The position of its group, once it has one. -/
def TtlPhase.index? : TtlPhase → Option Nat
  | .watch _ i => some i
  | .serve _ i => some i
  | _ => none

/-- The TTL machinery of a node. -/
structure TtlLoop where
  phase : TtlPhase
  timers : List Timer
  /-- ghost: the cursor of `ListTTL` broke -/
  truncated : Bool

/-- A TTL loop that has just been started (`backend.go:107-110`). -/
def TtlLoop.init : TtlLoop := { phase := .current Driver.currentRevision, timers := [], truncated := false }

/-- A node and its TTL loop. -/
structure TSys where
  base : NSys
  ttl : TtlLoop

/-- The watched range `[]byte{0}` to `[]byte{255}` (`ttl.go:81`). -/
def ttlLo : Bytes := [0]
/-- Upper end of the watched range. -/
def ttlHi : Bytes := [255]

/-- After `CurrentRevision` (`ttl.go:50-54`). -/
def TtlLoop.gotCurrent (t : TtlLoop) : Except ApiErr Int → TtlLoop
  | .ok start => { t with phase := .list start (Driver.listTTL start) }
  | .error _ => { t with phase := .dead }

/-- After `ListTTL` (`ttl.go:56-72`). -/
def TtlLoop.gotList (t : TtlLoop) (start : Int) : Except ApiErr (List Row × Option Nat) → TtlLoop
  | .ok rows => { t with phase := .group start, timers := t.timers ++ listTimers rows }
  | .error _ => { t with phase := .dead }

/-- One step of the TTL loop or of anything else. -/
inductive TStep : TSys → TSys → Prop where
  /-- Any other step of the node: the database, clients, the poller, the `Watch` call in progress. Nobody else
  receives from the loop's channel, watches on its group, or cancels its watch. -/
  | env (a b : NSys) (t : TtlLoop) (h : NStep a b)
      (quiet : ∀ i g, t.phase.index? = some i → a.node.groupAt i = some g →
        ∃ g', b.node.groupAt i = some g' ∧ g'.received = g.received ∧ g'.used = g.used ∧
          ∀ x ∈ g.watchers, x.initialized = true → ∃ x' ∈ g'.watchers, x'.id = x.id) :
      TStep ⟨a, t⟩ ⟨b, t⟩
  | currentExec (s : Sys) (n : Node) (t : TtlLoop) (eff : DB → DB) (k : Outcome → DB → Prog (Except ApiErr Int))
      (o : Outcome) (c : t.phase = .current (.stmt eff k)) :
      TStep ⟨⟨s, n⟩, t⟩ ⟨⟨{ s with world := s.world.exec eff o }, n⟩, { t with phase := .current (k o s.world.db) }⟩
  | currentDone (a : NSys) (t : TtlLoop) (r : Except ApiErr Int) (c : t.phase = .current (.ret r)) :
      TStep ⟨a, t⟩ ⟨a, t.gotCurrent r⟩
  | listExec (s : Sys) (n : Node) (t : TtlLoop) (start : Int) (eff : DB → DB)
      (k : Outcome → DB → Prog (Except ApiErr (List Row × Option Nat))) (o : Outcome)
      (c : t.phase = .list start (.stmt eff k)) :
      TStep ⟨⟨s, n⟩, t⟩ ⟨⟨{ s with world := s.world.exec eff o }, n⟩,
        { t with phase := .list start (k o s.world.db), truncated := t.truncated || o.isTrunc }⟩
  | listDone (a : NSys) (t : TtlLoop) (start : Int) (r : Except ApiErr (List Row × Option Nat))
      (c : t.phase = .list start (.ret r)) : TStep ⟨a, t⟩ ⟨a, t.gotList start r⟩
  /-- `WatcherGroup` (`ttl.go:74-78`) -/
  | openGroup (s : Sys) (n : Node) (t : TtlLoop) (start : Int) (c : t.phase = .group start) :
      TStep ⟨⟨s, n⟩, t⟩ ⟨⟨s, { n with groups := n.groups ++ [Group.new n.pollRevision] }⟩,
        { t with phase := .watch start n.groups.length }⟩
  /-- `Watch` is called (`ttl.go:81`); an error is only logged (`ttl.go:82-84`) -/
  | watch (s : Sys) (n : Node) (t : TtlLoop) (start : Int) (pre post : List Group) (g g' : Group)
      (c : t.phase = .watch start pre.length) (hn : n.groups = pre ++ g :: post) (idle : g.call = .idle)
      (hg : g' = g.watch 1 ttlLo ttlHi start s.world.db.compactRev) :
      TStep ⟨⟨s, n⟩, t⟩ ⟨⟨s, { n with groups := pre ++ g' :: post }⟩, { t with phase := .serve start pre.length }⟩
  /-- `Watch` has returned and an update is received (`ttl.go:86-97`) -/
  | recv (s : Sys) (n : Node) (t : TtlLoop) (start : Int) (pre post : List Group) (g : Group) (u : GroupUpdate)
      (q : List GroupUpdate) (jit : Nat → Nat) (hj : ∀ i, jit i < 1000)
      (c : t.phase = .serve start pre.length) (hn : n.groups = pre ++ g :: post) (idle : g.call = .idle)
      (hq : g.queue = u :: q) :
      TStep ⟨⟨s, n⟩, t⟩
        ⟨⟨s, { n with groups := pre ++ { g with queue := q, received := g.received ++ [u] } :: post }⟩,
          { t with timers := t.timers ++ eventTimers jit u }⟩
  /-- A timer expires: its deletion starts (`ttl.go:13-30`). Timers are kept, so that they may fire again: this covers
  the retries. -/
  | fire (s : Sys) (n : Node) (t : TtlLoop) (x : Timer) (hx : x ∈ t.timers) :
      TStep ⟨⟨s, n⟩, t⟩ ⟨⟨{ s with pool := (Call.expire x.key x.rev).prog :: s.pool }, n⟩, t⟩

/-- The TTL loop of a node that was started on a reachable node, after any number of steps. -/
inductive TReachable : TSys → Prop where
  | start {a : NSys} (h : NReachable a) : TReachable ⟨a, TtlLoop.init⟩
  | step {a b : TSys} : TReachable a → TStep a b → TReachable b

/-- `LeaseGrant` (`/repo/pkg/limited/lease.go:10-16`): (ID, TTL) of the answer; the requested ID is ignored. -/
def leaseGrant (ttl _id : Int) : Int × Int := (ttl, ttl)

end Verif
