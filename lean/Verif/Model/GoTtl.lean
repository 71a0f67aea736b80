import Verif.Model.GoBackend
import Verif.Model.GoTextTtl
import Verif.Model.Ttl
/-!
# Goroutines running the text of `/repo/pkg/backend/internal/backend/ttl.go`

The text of `ttl`, and of the goroutines it starts, run as trees (`Tt`) of what they do to the things outside of them: the database, the watcher
group and its channel, timers, the context. `Tg` and `TgStep` below say how they run together with the rest of the node (`NStep`).

Simplifications: `rows.Scan` of the columns of `ttlSQL` does not fail; a broken cursor ends the rows; the answer of a deletion is any (the deletion itself is
`Call.expire`, which runs with everything else that uses the database); numbers drawn at random are those of an arbitrary sequence; the
arithmetic of `time.Duration` wraps around when a timer is started; the context may end at any time; the wait group has no effect here.
-/

namespace Verif.Go

open Verif.GoText

/-- What a goroutine does, and what it does next. -/
inductive Tt where
  /-- the fragment does not define it: a panic, or types that do not fit -/
  | stuck
  /-- more iterations of a loop than are looked at -/
  | out
  | ret (vs : List V)
  | spawn (t : Tt) (k : Tt)
  /-- `CurrentRevision` and `ListTTL` of the driver -/
  | current (p : Prog (Except ApiErr Int)) (ok : Int → Tt) (er : ApiErr → Tt)
  | list (p : Prog (Except ApiErr (List Row × Option Nat))) (ok : List Row × Option Nat → Tt) (er : ApiErr → Tt)
  /-- `WatcherGroup` of the backend -/
  | openGroup (ok : Nat → Tt) (er : ApiErr → Tt)
  /-- `Watch` of the group: the call, and waiting for its answer -/
  | watch (g : Nat) (id : Int) (lo hi : Bytes) (start : Int) (ok : Tt) (er : ApiErr → Tt)
  | watching (g : Nat) (ok : Tt) (er : ApiErr → Tt)
  /-- a receive from the channel of the group, or its end -/
  | recvUpdate (g : Nat) (ok : GroupUpdate → Tt) (closed : Tt)
  /-- `rand.Intn` -/
  | rand (n : Int) (k : Int → Tt)
  /-- `select` of the end of the context and a timer -/
  | wait (d : Int) (done after : Tt)
  /-- `Delete` of the backend: the call, and waiting for its answer -/
  | delete (key : Bytes) (rev : Int) (ok : Int → Bool → Tt) (er : ApiErr → Tt)
  | deleting (ok : Int → Bool → Tt) (er : ApiErr → Tt)
  /-- `backoff.Retry` between two tries; it gives up only if there is a limit, or if the context ends -/
  | pause (limited : Bool) (again stop : Tt)

/-- `for cond { body }`, at most so many times. -/
def loopL (cond : Store Ext → (V → Store Ext → Tt) → Tt) (body : Store Ext → (Store Ext → Tt) → (Store Ext → Tt) → Tt)
    (k : Store Ext → Tt) : Nat → Store Ext → Tt
  | 0, _ => .out
  | n + 1, s => cond s fun c s =>
    match c with
    | .bool b => bif b then body s (fun s => loopL cond body k n s) k else k s
    | _ => .stuck

/-- The meaning of loops for goroutines. -/
def ctlL : Control Ext Tt := { stuck := .stuck, loop := loopL, range := rangeStd }

/-- An object. -/
def ttlV (o : TtlObj) : V := .ext (.ttl o)

/-- An error. -/
def ttlErrV (e : ApiErr) : V := .ext (.err e)

/-- A row of `ttlSQL` (`/repo/pkg/backend/sqlite/driver.go:111-123`): `kv.id, name, lease`. -/
def ttlRowV (r : Row) : V := .list [.int r.id, .bytes r.name, .int r.lease]

/-- An open `*sql.Rows`: the rows that are left, and the one it is at. -/
def rowsV (left : List V) (cur : V) : V := .struct n!"Rows" [(n!"left", .list left), (n!"cur", cur)]

/-- `WatcherUpdate` and its events, as in `Model/GoStream.lean`. -/
def ttlUpdateOfV (p : Int × List Event) : V :=
  .struct n!"WatcherUpdate" [(n!"WatcherId", .int p.1), (n!"Events", .list (p.2.map encEvent))]

/-- An update of the group: a value with the methods `Revision` and `Watchers`. -/
def ttlUpdatesV (u : GroupUpdate) : V :=
  msg n!"WatcherGroupUpdate" [(n!"Revision", .int u.revision), (n!"Watchers", .list (u.updates.map ttlUpdateOfV))]

/-- `*ExponentialBackOff` as `NewExponentialBackOff` returns it: it gives up after 15 minutes. -/
def newBackoffV : V :=
  .struct n!"ExponentialBackOff" [(n!"InitialInterval", .int 500000000), (n!"RandomizationFactor", .tok), (n!"Multiplier", .tok),
    (n!"MaxInterval", .int 60000000000), (n!"MaxElapsedTime", .int 900000000000)]

/-- Fields (`/repo/pkg/backend/internal/backend/backend.go:17-40`). -/
def fieldL (x : Ext) (f : Nm) (k : V → Tt) : Tt :=
  match x with
  | .ttl .backend =>
    if f == n!"Driver" then k (ttlV .driver)
    else if f == n!"wg" then k (ttlV .wg)
    else .stuck
  | _ => .stuck

/-- A slice of bytes: its elements may be given one by one. -/
def bytesOfV : V → Option Bytes
  | .bytes b => some b
  | .list [.int n] => some [UInt8.ofNat n.toNat]
  | _ => none

/-- Methods of objects. -/
def methL (x : Ext) (m : Nm) (as : List V) (s : Store Ext) (k : List V → Store Ext → Tt) : Tt :=
  match x with
  | .ttl .wg => if m == n!"Add" || m == n!"Done" then k [] s else .stuck
  | .ttl .ctx => if m == n!"Done" then k [ttlV .ctxDone] s else .stuck
  | .ttl .driver =>
    if m == n!"CurrentRevision" then .current Driver.currentRevision (fun n => k [.int n, .nil] s) fun e => k [.int 0, ttlErrV e] s
    else if m == n!"ListTTL" then
      match as with
      | [_, .int start] =>
        .list (Driver.listTTL start)
          (fun rows => k [.ptr (.obj s.objs.length) [], .nil] { s with objs := s.objs ++ [rowsV (scanAll ttlRowV rows) .nil] })
          fun e => k [.nil, ttlErrV e] s
      | _ => .stuck
    else .stuck
  | .ttl .backend =>
    if m == n!"WatcherGroup" then .openGroup (fun g => k [ttlV (.group g), .nil] s) fun e => k [.nil, ttlErrV e] s
    else if m == n!"Delete" then
      match as with
      | [_, .bytes key, .int rev] => .delete key rev (fun r d => k [.int r, .bool d, .nil] s) fun e => k [.int 0, .bool false, ttlErrV e] s
      | _ => .stuck
    else .stuck
  | .ttl (.group g) =>
    if m == n!"Watch" then
      match as with
      | [.int id, lo, hi, .int start] =>
        match bytesOfV lo, bytesOfV hi with
        | some lo, some hi => .watch g id lo hi start (k [.nil] s) fun e => k [ttlErrV e] s
        | _, _ => .stuck
      | _ => .stuck
    else if m == n!"Updates" then k [ttlV (.updates g)] s
    else .stuck
  | _ => .stuck

/-- `rows.Next()`, `rows.Scan(…)` and `b.Reset()`. -/
def ptrMethT (r : Root) (p : List Nm) (m : Nm) (as : List V) (s : Store Ext) (k : List V → Store Ext → Tt) : Tt :=
  match s.load r p with
  | some (.struct _ [(_, .list left), (_, cur)]) =>
    if m == n!"Next" then
      match left with
      | [] => k [.bool false] s
      | v :: left =>
        match s.save r p (rowsV left v) with
        | some s => k [.bool true] s
        | none => .stuck
    else if m == n!"Scan" then
      match as, cur with
      | [.ptr r1 p1, .ptr r2 p2, .ptr r3 p3], .list [v1, v2, v3] =>
        match (s.save r1 p1 v1).bind fun s => (s.save r2 p2 v2).bind fun s => s.save r3 p3 v3 with
        | some s => k [.nil] s
        | none => .stuck
      | _, _ => .stuck
    else .stuck
  | some _ => if m == n!"Reset" then k [] s else .stuck
  | none => .stuck

/-- Functions of libraries. -/
def funcT (p m : Nm) (as : List V) (s : Store Ext) (k : List V → Store Ext → Tt) : Tt :=
  match quietFunc p m as with
  | some vs => k vs s
  | none =>
    if p == n!"time" && m == n!"Duration" then k as s
    else if p == n!"time" && m == n!"After" then
      match as with
      | [.int d] => k [ttlV (.after (wrap64 d))] s
      | _ => .stuck
    else if p == n!"rand" && m == n!"Intn" then
      match as with
      | [.int n] => .rand n fun j => k [.int j] s
      | _ => .stuck
    else if p == n!"backoff" && m == n!"NewExponentialBackOff" then k [.ptr (.obj s.objs.length) []] { s with objs := s.objs ++ [newBackoffV] }
    else if p == n!"backoff" && m == n!"WithContext" then
      match as with
      | [.ptr r p, _] =>
        match s.load r (p ++ [n!"MaxElapsedTime"]) with
        | some (.int d) => k [ttlV (.backoff (decide (d ≠ 0)))] s
        | _ => .stuck
      | _ => .stuck
    else .stuck

/-- `backoff.Retry`: at most so many tries are looked at. Every try finds the variables as they were before the first one (the operation of `ttl.go`
assigns to none of those it captures). -/
def retryT (call : V → Store Ext → (List V → Store Ext → Tt) → Tt) (f : V) (limited : Bool) (k : List V → Store Ext → Tt) (s : Store Ext) : Nat → Tt
  | 0 => .out
  | n + 1 => call f s fun vs _ =>
    match vs with
    | [.nil] => k [.nil] s
    | [e] => .pause limited (retryT call f limited k s n) (k [e] s)
    | _ => .stuck

/-- The communications. -/
def selectL (cs : List (Comm Ext)) (k : Nat → List V → Tt) : Tt :=
  match cs with
  | [.recv (.ext (.ttl (.updates g)))] => .recvUpdate g (fun u => k 0 [ttlUpdatesV u, .bool true]) (k 0 [.nil, .bool false])
  | [.recv (.ext (.ttl .ctxDone)), .recv (.ext (.ttl (.after d)))] => .wait d (k 0 [.nil, .bool false]) (k 1 [.tok, .bool true])
  | _ => .stuck

/-- The meaning of `backoff.Retry`. -/
abbrev Retry := (V → Store Ext → (List V → Store Ext → Tt) → Tt) → V → Bool → (List V → Store Ext → Tt) → Store Ext → Nat → Tt

/-- What the text finds around it; `ct` is the meaning of loops, `rt` that of `Retry`, `N` bounds the iterations of each loop and of `Retry`. -/
def ttlHost (ct : Control Ext Tt) (rt : Retry) (N : Nat) : Host Ext Tt :=
  { ctl := ct
    fuel := N
    zero := fun _ _ => none
    glob := fun p n =>
      if p == n!"time" && n == n!"Second" then some (.int 1000000000)
      else if p == n!"time" && n == n!"Millisecond" then some (.int 1000000)
      else none
    meth := fun v m as s k =>
      match v with
      | .ext x => methL x m as s k
      | .tok => if quiet m then k [.tok] s else .stuck
      | .ptr r p => ptrMethT r p m as s k
      | .imm (.struct _ fs) =>
        match assoc m fs with
        | some w => k [w] s
        | none => .stuck
      | _ => .stuck
    func := funcT
    field := fun x f s k => fieldL x f fun v => k v s
    go := fun body s k => .spawn (body { s with defers := [] } fun _ => .ret []) (k s)
    select := fun cs s k => selectL cs fun i vs => k i vs s
    hof := fun p m =>
      if p == n!"backoff" && m == n!"Retry" then
        some fun vs call s k =>
          match vs with
          | [f, .ext (.ttl (.backoff limited))] => rt call f limited k s N
          | _ => .stuck
      else none }

/-- The goroutine that calls `ttl` (`backend.go:107-110`). -/
def ttlGo (N : Nat) : Tt := Ttl.f_ttl.run (ttlHost ctlL retryT N) [ttlV .backend, ttlV .ctx] fun vs _ => .ret vs

/-! ### Goroutines together -/

/-- What goroutine `i` has done. -/
inductive TtlEv where
  /-- a timer of it has expired -/
  | waited (i : Nat) (d : Int)
  /-- it has asked for a deletion -/
  | asked (i : Nat) (key : Bytes) (rev : Int)
  /-- it has got an answer -/
  | done (i : Nat)
  | failed (i : Nat) (e : ApiErr)
  /-- it has seen the end of the context -/
  | stopped (i : Nat)
deriving DecidableEq

/-- The node, the goroutines, and what they have done. -/
structure Tg where
  base : NSys
  ts : List Tt
  /-- the group that was opened -/
  group : Option Nat
  /-- the revision from which it was asked to watch -/
  start : Option Int
  /-- how many random numbers were drawn -/
  drawn : Nat
  /-- the cursor of `ListTTL` broke -/
  truncated : Bool
  log : List TtlEv

/-- A goroutine goes on. -/
def Tg.at_ (c : Tg) (i : Nat) (t : Tt) : Tg := { c with ts := c.ts.set i t }

/-- One step. `rnd` are the random numbers. -/
inductive TgStep (rnd : Nat → Nat) : Tg → Tg → Prop where
  /-- Any other step of the node. Nobody else receives from the channel of the group, watches on it, or cancels its watch. -/
  | env (c : Tg) (b : NSys) (h : NStep c.base b)
      (quiet : ∀ i g, c.group = some i → c.base.node.groupAt i = some g →
        ∃ g', b.node.groupAt i = some g' ∧ g'.received = g.received ∧ g'.used = g.used ∧
          ∀ x ∈ g.watchers, x.initialized = true → ∃ x' ∈ g'.watchers, x'.id = x.id) :
      TgStep rnd c { c with base := b }
  | spawn (c : Tg) (i : Nat) (t k : Tt) (h : c.ts[i]? = some (.spawn t k)) : TgStep rnd c { c with ts := c.ts.set i k ++ [t] }
  | currentExec (c : Tg) (i : Nat) (eff : DB → DB) (q : Outcome → DB → Prog (Except ApiErr Int)) (ok : Int → Tt) (er : ApiErr → Tt) (o : Outcome)
      (h : c.ts[i]? = some (.current (.stmt eff q) ok er)) :
      TgStep rnd c
        { c with base := ⟨{ c.base.sys with world := c.base.sys.world.exec eff o }, c.base.node⟩,
                 ts := c.ts.set i (.current (q o c.base.sys.world.db) ok er) }
  | current (c : Tg) (i : Nat) (n : Int) (ok : Int → Tt) (er : ApiErr → Tt) (h : c.ts[i]? = some (.current (.ret (.ok n)) ok er)) :
      TgStep rnd c (c.at_ i (ok n))
  | currentFails (c : Tg) (i : Nat) (e : ApiErr) (ok : Int → Tt) (er : ApiErr → Tt) (h : c.ts[i]? = some (.current (.ret (.error e)) ok er)) :
      TgStep rnd c (c.at_ i (er e))
  | listExec (c : Tg) (i : Nat) (eff : DB → DB) (q : Outcome → DB → Prog (Except ApiErr (List Row × Option Nat))) (ok : List Row × Option Nat → Tt)
      (er : ApiErr → Tt) (o : Outcome) (h : c.ts[i]? = some (.list (.stmt eff q) ok er)) :
      TgStep rnd c
        { c with base := ⟨{ c.base.sys with world := c.base.sys.world.exec eff o }, c.base.node⟩,
                 ts := c.ts.set i (.list (q o c.base.sys.world.db) ok er), truncated := c.truncated || o.isTrunc }
  | list (c : Tg) (i : Nat) (rows : List Row × Option Nat) (ok : List Row × Option Nat → Tt) (er : ApiErr → Tt)
      (h : c.ts[i]? = some (.list (.ret (.ok rows)) ok er)) : TgStep rnd c (c.at_ i (ok rows))
  | listFails (c : Tg) (i : Nat) (e : ApiErr) (ok : List Row × Option Nat → Tt) (er : ApiErr → Tt)
      (h : c.ts[i]? = some (.list (.ret (.error e)) ok er)) : TgStep rnd c (c.at_ i (er e))
  | openGroup (c : Tg) (i : Nat) (ok : Nat → Tt) (er : ApiErr → Tt) (h : c.ts[i]? = some (.openGroup ok er)) :
      TgStep rnd c
        { c with base := ⟨c.base.sys, { c.base.node with groups := c.base.node.groups ++ [Group.new c.base.node.pollRevision] }⟩,
                 ts := c.ts.set i (ok c.base.node.groups.length), group := some c.base.node.groups.length }
  | openFails (c : Tg) (i : Nat) (ok : Nat → Tt) (er : ApiErr → Tt) (e : ApiErr) (h : c.ts[i]? = some (.openGroup ok er)) :
      TgStep rnd c (c.at_ i (er e))
  | watch (c : Tg) (i : Nat) (id : Int) (lo hi : Bytes) (start : Int) (ok : Tt) (er : ApiErr → Tt) (pre post : List Group) (g : Group)
      (h : c.ts[i]? = some (.watch pre.length id lo hi start ok er)) (hn : c.base.node.groups = pre ++ g :: post) (idle : g.call = .idle) :
      TgStep rnd c
        { c with base := ⟨c.base.sys, { c.base.node with groups := pre ++ g.watch id lo hi start c.base.sys.world.db.compactRev :: post }⟩,
                 ts := c.ts.set i (.watching pre.length ok er), start := some start }
  | watched (c : Tg) (i n : Nat) (g : Group) (ok : Tt) (er : ApiErr → Tt) (h : c.ts[i]? = some (.watching n ok er))
      (hg : c.base.node.groupAt n = some g) (idle : g.call = .idle) : TgStep rnd c (c.at_ i ok)
  | watchFailed (c : Tg) (i n : Nat) (g : Group) (ok : Tt) (er : ApiErr → Tt) (e : ApiErr) (h : c.ts[i]? = some (.watching n ok er))
      (hg : c.base.node.groupAt n = some g) (idle : g.call = .idle) : TgStep rnd c (c.at_ i (er e))
  | recv (c : Tg) (i : Nat) (ok : GroupUpdate → Tt) (closed : Tt) (pre post : List Group) (g : Group) (u : GroupUpdate) (q : List GroupUpdate)
      (h : c.ts[i]? = some (.recvUpdate pre.length ok closed)) (hn : c.base.node.groups = pre ++ g :: post) (hq : g.queue = u :: q) :
      TgStep rnd c
        { c with base := ⟨c.base.sys, { c.base.node with groups := pre ++ { g with queue := q, received := g.received ++ [u] } :: post }⟩,
                 ts := c.ts.set i (ok u) }
  | closed (c : Tg) (i n : Nat) (ok : GroupUpdate → Tt) (closed : Tt) (h : c.ts[i]? = some (.recvUpdate n ok closed)) : TgStep rnd c (c.at_ i closed)
  | rand (c : Tg) (i : Nat) (n : Int) (k : Int → Tt) (h : c.ts[i]? = some (.rand n k)) :
      TgStep rnd c { c with ts := c.ts.set i (k ((rnd c.drawn % n.toNat : Nat) : Int)), drawn := c.drawn + 1 }
  | waited (c : Tg) (i : Nat) (d : Int) (done after : Tt) (h : c.ts[i]? = some (.wait d done after)) :
      TgStep rnd c { c with ts := c.ts.set i after, log := c.log ++ [.waited i d] }
  | waitDone (c : Tg) (i : Nat) (d : Int) (done after : Tt) (h : c.ts[i]? = some (.wait d done after)) :
      TgStep rnd c { c with ts := c.ts.set i done, log := c.log ++ [.stopped i] }
  | delete (c : Tg) (i : Nat) (key : Bytes) (rev : Int) (ok : Int → Bool → Tt) (er : ApiErr → Tt) (h : c.ts[i]? = some (.delete key rev ok er)) :
      TgStep rnd c
        { c with base := ⟨{ c.base.sys with pool := (Call.expire key rev).prog :: c.base.sys.pool }, c.base.node⟩,
                 ts := c.ts.set i (.deleting ok er), log := c.log ++ [.asked i key rev] }
  | deleted (c : Tg) (i : Nat) (r : Int) (d : Bool) (ok : Int → Bool → Tt) (er : ApiErr → Tt) (h : c.ts[i]? = some (.deleting ok er)) :
      TgStep rnd c { c with ts := c.ts.set i (ok r d), log := c.log ++ [.done i] }
  | deleteFails (c : Tg) (i : Nat) (e : ApiErr) (ok : Int → Bool → Tt) (er : ApiErr → Tt) (h : c.ts[i]? = some (.deleting ok er)) :
      TgStep rnd c { c with ts := c.ts.set i (er e), log := c.log ++ [.failed i e] }
  | again (c : Tg) (i : Nat) (limited : Bool) (again stop : Tt) (h : c.ts[i]? = some (.pause limited again stop)) : TgStep rnd c (c.at_ i again)
  | stop (c : Tg) (i : Nat) (limited : Bool) (again stop : Tt) (h : c.ts[i]? = some (.pause limited again stop)) :
      TgStep rnd c { c with ts := c.ts.set i stop, log := c.log ++ [.stopped i] }
  | giveUp (c : Tg) (i : Nat) (again stop : Tt) (h : c.ts[i]? = some (.pause true again stop)) : TgStep rnd c (c.at_ i stop)

/-- `ttl` was called on a reachable node, and any number of steps have been done since; `N` iterations of every loop are looked at. -/
inductive TgReachable (N : Nat) (rnd : Nat → Nat) : Tg → Prop where
  | start {a : NSys} (h : NReachable a) : TgReachable N rnd { base := a, ts := [ttlGo N], group := none, start := none, drawn := 0, truncated := false, log := [] }
  | step {c d : Tg} : TgReachable N rnd c → TgStep rnd c d → TgReachable N rnd d

end Verif.Go
