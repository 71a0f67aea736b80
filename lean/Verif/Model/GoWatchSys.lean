import Verif.Model.GoWatch
/-!
# Any number of goroutines running the text of `/repo/pkg/backend/internal/backend/watcher.go`

The goroutines have the trees of `Verif.Model.GoWatch`. A goroutine runs until it has to wait for something: a mutex, the database, a channel
(`Tw.run`). That it is not interrupted in between hides nothing: what it touches there is guarded by a mutex it holds — a goroutine that
touches a guarded field without the mutex is stuck here, and the theorems say that none ever is — with these exceptions: `pollRevision` is
read by `WatcherGroup` (only for tracing) and by the poller (which alone writes it) without the mutex, and `len(w.watchers)` by `publish`
(only for tracing). Maps are iterated over in any order.
-/

namespace Verif.Go

open Verif.GoText

/-- `watcher` in memory (`watcher.go:25-30`); `grp` is the group whose mutex guards it, once it is in the map of that group. -/
structure WMem where
  id : Int
  lo : List UInt8
  hi : List UInt8
  initialized : Bool
  events : List V
  grp : Option Nat

/-- `WatcherGroup` in memory (`watcher.go:15-23`) and its channel; the last four fields record what happened to the channel. -/
structure GMem where
  cur : Int
  watchers : List (Int × Nat)
  cap : Int
  queue : List V
  stop : Option Nat
  closed : Nat
  panicked : Bool
  dropped : Bool
  received : List V

/-- A `context.AfterFunc`: armed, started as a goroutine, stopped. -/
inductive AftSt where
  | armed
  | running (t : Nat)
  | stopped
deriving DecidableEq

/-- The memory: `Backend` (`backend.go:71-83`; `owner` is the goroutine that holds its mutex), groups, watchers and `AfterFunc`s, each
allocated one after another. -/
structure WatchMem where
  pollRev : Int
  owner : Option Nat
  map : List Nat
  ng : Nat
  grp : Nat → GMem
  nw : Nat
  wat : Nat → WMem
  na : Nat
  aft : Nat → AftSt
  body : Nat → Tw

/-- Change one group. -/
def WatchMem.setG (m : WatchMem) (g : Nat) (f : GMem → GMem) : WatchMem := { m with grp := fun i => if i = g then f (m.grp i) else m.grp i }

/-- Change one watcher. -/
def WatchMem.setW (m : WatchMem) (w : Nat) (f : WMem → WMem) : WatchMem := { m with wat := fun i => if i = w then f (m.wat i) else m.wat i }

/-- Orders in which maps are iterated over. -/
structure Orders where
  groups : List Nat → List Nat
  watchers : List (Int × Nat) → List (Int × Nat)
  groups_perm : ∀ l, (groups l).Perm l
  watchers_perm : ∀ l, (watchers l).Perm l

/-- What goroutine `t` does until it has to wait; `h` is the group whose mutex it holds. -/
def Tw.run (o : Orders) (t : Nat) : Tw → Option Nat → WatchMem → WatchMem × Tw
  | .stuck, _, m => (m, .stuck)
  | .out, h, m => (m, if h = none ∧ m.owner ≠ some t then .out else .stuck)
  | .ret vs, h, m => (m, if h = none ∧ m.owner ≠ some t then .ret vs else .stuck)
  | .lockS k, h, m => (m, if h = none then .lockS k else .stuck)
  | .unlockS k, h, m => if m.owner = some t then k.run o t h { m with owner := none } else (m, .stuck)
  | .lockW g k, h, m => (m, if h = none then .lockW g k else .stuck)
  | .unlockW g k, h, m => if h = some g then k.run o t none m else (m, .stuck)
  | .getPollRev k, h, m => (k m.pollRev).run o t h m
  | .setPollRev n k, h, m => if m.owner = some t then k.run o t h { m with pollRev := n } else (m, .stuck)
  | .getGroups k, h, m => if m.owner = some t then (k (o.groups m.map)).run o t h m else (m, .stuck)
  | .addGroup g k, h, m => if m.owner = some t then k.run o t h { m with map := m.map.filter (fun x => decide (x ≠ g)) ++ [g] } else (m, .stuck)
  | .delGroup g k, h, m => if m.owner = some t then k.run o t h { m with map := m.map.filter fun x => decide (x ≠ g) } else (m, .stuck)
  | .newGroup rev cap k, h, m =>
    (k m.ng).run o t h
      { m.setG m.ng (fun _ => ⟨rev, [], cap, [], none, 0, false, false, []⟩) with ng := m.ng + 1 }
  | .after b k, h, m =>
    (k m.na).run o t h
      { m with na := m.na + 1, aft := fun i => if i = m.na then .armed else m.aft i, body := fun i => if i = m.na then b else m.body i }
  | .setStop g a k, h, m => k.run o t h (m.setG g fun x => { x with stop := some a })
  | .stop g k, h, m =>
    match (m.grp g).stop with
    | none => (m, .stuck)
    | some a =>
      if m.aft a = .armed then (k true).run o t h { m with aft := fun i => if i = a then .stopped else m.aft i } else (k false).run o t h m
  | .getCurRev g k, h, m => if h = some g then (k (m.grp g).cur).run o t h m else (m, .stuck)
  | .setCurRev g n k, h, m => if h = some g then k.run o t h (m.setG g fun x => { x with cur := n }) else (m, .stuck)
  | .getWatchers g k, h, m => if h = some g then (k (o.watchers (m.grp g).watchers)).run o t h m else (m, .stuck)
  | .setWatcher g id w k, h, m =>
    if h = some g then
      k.run o t h ((m.setG g fun x => { x with watchers := x.watchers.filter (fun p => decide (p.1 ≠ id)) ++ [(id, w)] }).setW w fun x => { x with grp := some g })
    else (m, .stuck)
  | .delWatcher g id k, h, m =>
    if h = some g then k.run o t h (m.setG g fun x => { x with watchers := x.watchers.filter fun p => decide (p.1 ≠ id) }) else (m, .stuck)
  | .lenWatchers g k, h, m => (k (m.grp g).watchers.length).run o t h m
  | .lenUpdates g k, h, m => (k (m.grp g).queue.length).run o t h m
  | .newWatcher id lo hi k, h, m => (k m.nw).run o t h { m.setW m.nw (fun _ => ⟨id, lo, hi, false, [], none⟩) with nw := m.nw + 1 }
  | .getKey w k, h, m => if h ≠ none ∧ (m.wat w).grp = h then (k (m.wat w).lo).run o t h m else (m, .stuck)
  | .getRangeEnd w k, h, m => if h ≠ none ∧ (m.wat w).grp = h then (k (m.wat w).hi).run o t h m else (m, .stuck)
  | .getInit w k, h, m => if h ≠ none ∧ (m.wat w).grp = h then (k (m.wat w).initialized).run o t h m else (m, .stuck)
  | .setInit w b k, h, m => if h ≠ none ∧ (m.wat w).grp = h then k.run o t h (m.setW w fun x => { x with initialized := b }) else (m, .stuck)
  | .getEvents w k, h, m => if h ≠ none ∧ (m.wat w).grp = h then (k (m.wat w).events).run o t h m else (m, .stuck)
  | .setEvents w l k, h, m => if h ≠ none ∧ (m.wat w).grp = h then k.run o t h (m.setW w fun x => { x with events := l }) else (m, .stuck)
  | .trySend g v yes no, h, m =>
    if (m.grp g).closed > 0 then yes.run o t h (m.setG g fun x => { x with panicked := true })
    else if ((m.grp g).queue.length : Int) < (m.grp g).cap then yes.run o t h (m.setG g fun x => { x with queue := x.queue ++ [v] })
    else no.run o t h (m.setG g fun x => { x with dropped := true })
  | .closeUpdates g k, h, m =>
    k.run o t h (m.setG g fun x => { x with closed := x.closed + 1, panicked := x.panicked || decide (x.closed > 0) })
  | .notify n yes no, h, m => (m, if h = none then .notify n yes no else .stuck)
  | .pollSelect a b c, h, m => (m, if h = none ∧ m.owner ≠ some t then .pollSelect a b c else .stuck)
  | .check p ok er, h, m => (m, if h = none ∧ m.owner ≠ some t then .check p ok er else .stuck)
  | .rows p ok er, h, m => (m, if h = none ∧ m.owner ≠ some t then .rows p ok er else .stuck)

/-- Who started a goroutine: `Start`, a client of the backend with a call, or the end of a context. -/
inductive WRole where
  | poll
  | opn
  | cancel (a : Nat)
  /-- `compactThen` records the compact revision when the call was made -/
  | watch (g : Nat) (id : Int) (lo hi : List UInt8) (start compactThen : Int)
  | unwatch (g : Nat) (id : Int)

/-- A goroutine. -/
structure WThread where
  role : WRole
  tree : Tw

/-- The node: the database and everything else that uses it, the memory, the goroutines; per group the goroutine of its last `Watch` or
`Unwatch`. The last three fields record what happened: the ids, start revisions and ranges of the watches of each group; whether a poll query ran when
compaction had passed the poll revision; whether the initial query of a watch ran when compaction had reached its start revision, or its
cursor broke. -/
structure WSys where
  sys : Sys
  mem : WatchMem
  nt : Nat
  thr : Nat → Option WThread
  client : Nat → Option Nat
  used : Nat → List (Int × Int × List UInt8 × List UInt8)
  overtaken : Bool
  lossy : Nat → Int → Bool

/-- Goroutine `t` goes on with a tree. -/
def WSys.resume (s : WSys) (o : Orders) (t : Nat) (r : WRole) (h : Option Nat) (m : WatchMem) (k : Tw) : WSys :=
  { s with mem := (k.run o t h m).1, thr := fun i => if i = t then some ⟨r, (k.run o t h m).2⟩ else s.thr i }

/-- A goroutine starts. -/
def WSys.spawn (s : WSys) (o : Orders) (r : WRole) (k : Tw) : WSys := { s.resume o s.nt r none s.mem k with nt := s.nt + 1 }

/-- What is recorded when a statement of a query of a goroutine runs. -/
def WSys.note (s : WSys) (r : WRole) (out : Outcome) : WSys :=
  match r with
  | .poll => { s with overtaken := s.overtaken || decide (s.mem.pollRev < s.sys.world.db.compactRev) }
  | .watch g id _ _ start _ =>
    { s with lossy := fun i j => if i = g ∧ j = id then s.lossy i j || decide (start ≤ s.sys.world.db.compactRev) || out.isTrunc else s.lossy i j }
  | _ => s

/-- The statement of a query. -/
def WSys.exec (s : WSys) (t : Nat) (r : WRole) (eff : DB → DB) (out : Outcome) (k : Tw) : WSys :=
  { s with sys := { s.sys with world := s.sys.world.exec eff out }, thr := fun i => if i = t then some ⟨r, k⟩ else s.thr i }

/-- Has the last `Watch` or `Unwatch` on a group returned? -/
def WSys.idle (s : WSys) (g : Nat) : Prop := ∀ t th, s.client g = some t → s.thr t = some th → ∃ vs, th.tree = .ret vs

/-- One step. Clients call `Watch` and `Unwatch` on a group that `WatcherGroup` has returned, one call at a time, with ids that were not used
before (`/repo/pkg/limited/watch.go:50-94`, `ttl.go:47-98`). -/
inductive WStep (N : Nat) : WSys → WSys → Prop where
  /-- anything else that uses the database -/
  | env (s : WSys) (s' : Sys) (h : Step s.sys s') : WStep N s { s with sys := s' }
  /-- a goroutine gets the mutex of the backend -/
  | lockS (s : WSys) (o : Orders) (t : Nat) (r : WRole) (k : Tw) (ht : s.thr t = some ⟨r, .lockS k⟩) (free : s.mem.owner = none) :
      WStep N s (s.resume o t r none { s.mem with owner := some t } k)
  /-- a goroutine gets the mutex of a group -/
  | lockW (s : WSys) (o : Orders) (t : Nat) (r : WRole) (g : Nat) (k : Tw) (ht : s.thr t = some ⟨r, .lockW g k⟩) :
      WStep N s (s.resume o t r (some g) s.mem k)
  /-- a statement of `GetCompactRevision` -/
  | checkExec (s : WSys) (t : Nat) (r : WRole) (eff : DB → DB) (k : Outcome → DB → Prog (Except ApiErr (Int × Int))) (ok : Int → Int → Tw)
      (er : ApiErr → Tw) (out : Outcome) (ht : s.thr t = some ⟨r, .check (.stmt eff k) ok er⟩) :
      WStep N s (s.exec t r eff out (.check (k out s.sys.world.db) ok er))
  /-- it returns -/
  | checkOk (s : WSys) (o : Orders) (t : Nat) (r : WRole) (a b : Int) (ok : Int → Int → Tw) (er : ApiErr → Tw)
      (ht : s.thr t = some ⟨r, .check (.ret (.ok (a, b))) ok er⟩) : WStep N s (s.resume o t r none s.mem (ok a b))
  | checkErr (s : WSys) (o : Orders) (t : Nat) (r : WRole) (e : ApiErr) (ok : Int → Int → Tw) (er : ApiErr → Tw)
      (ht : s.thr t = some ⟨r, .check (.ret (.error e)) ok er⟩) : WStep N s (s.resume o t r none s.mem (er e))
  /-- a statement of `After` or `AfterPrefix` -/
  | rowsExec (s : WSys) (t : Nat) (r : WRole) (eff : DB → DB) (k : Outcome → DB → Prog (Except ApiErr (List Row × Option Nat)))
      (ok : List Row → Option Nat → Tw) (er : ApiErr → Tw) (out : Outcome) (ht : s.thr t = some ⟨r, .rows (.stmt eff k) ok er⟩) :
      WStep N s ((s.note r out).exec t r eff out (.rows (k out s.sys.world.db) ok er))
  /-- it returns -/
  | rowsOk (s : WSys) (o : Orders) (t : Nat) (r : WRole) (rs : List Row) (b : Option Nat) (ok : List Row → Option Nat → Tw) (er : ApiErr → Tw)
      (ht : s.thr t = some ⟨r, .rows (.ret (.ok (rs, b))) ok er⟩) : WStep N s (s.resume o t r none s.mem (ok rs b))
  | rowsErr (s : WSys) (o : Orders) (t : Nat) (r : WRole) (e : ApiErr) (ok : List Row → Option Nat → Tw) (er : ApiErr → Tw)
      (ht : s.thr t = some ⟨r, .rows (.ret (.error e)) ok er⟩) : WStep N s (s.resume o t r none s.mem (er e))
  /-- the poller: its context is done, a notification with some revision, a tick -/
  | pollDone (s : WSys) (o : Orders) (t : Nat) (r : WRole) (a : Tw) (b : Int → Tw) (c : Tw) (ht : s.thr t = some ⟨r, .pollSelect a b c⟩) :
      WStep N s (s.resume o t r none s.mem a)
  | pollNotified (s : WSys) (o : Orders) (t : Nat) (r : WRole) (a : Tw) (b : Int → Tw) (c : Tw) (n : Int) (ht : s.thr t = some ⟨r, .pollSelect a b c⟩) :
      WStep N s (s.resume o t r none s.mem (b n))
  | pollTick (s : WSys) (o : Orders) (t : Nat) (r : WRole) (a : Tw) (b : Int → Tw) (c : Tw) (ht : s.thr t = some ⟨r, .pollSelect a b c⟩) :
      WStep N s (s.resume o t r none s.mem c)
  /-- the consumer of a group receives from its channel -/
  | recv (s : WSys) (g : Nat) (v : V) (q : List V) (hg : g < s.mem.ng) (hq : (s.mem.grp g).queue = v :: q) :
      WStep N s { s with mem := s.mem.setG g fun x => { x with queue := q, received := x.received ++ [v] } }
  /-- a context ends: its `AfterFunc` starts -/
  | cancel (s : WSys) (o : Orders) (a : Nat) (ha : a < s.mem.na) (hs : s.mem.aft a = .armed) :
      WStep N s ({ s with mem := { s.mem with aft := fun i => if i = a then .running s.nt else s.mem.aft i } }.spawn o (.cancel a) (s.mem.body a))
  /-- calls of clients -/
  | openCall (s : WSys) (o : Orders) : WStep N s (s.spawn o .opn (openGo N))
  | watchCall (s : WSys) (o : Orders) (g : Nat) (id : Int) (lo hi : List UInt8) (start : Int) (hg : g < s.mem.ng) (idle : s.idle g)
      (fresh : ∀ p ∈ s.used g, p.1 ≠ id) (ne : hi ≠ []) :
      WStep N s ({ s with client := fun i => if i = g then some s.nt else s.client i,
                          used := fun i => if i = g then s.used i ++ [(id, start, lo, hi)] else s.used i,
                          lossy := fun i j => if i = g ∧ j = id then false else s.lossy i j }.spawn o (.watch g id lo hi start s.sys.world.db.compactRev) (watchGo N g id lo hi start))
  | unwatchCall (s : WSys) (o : Orders) (g : Nat) (id : Int) (hg : g < s.mem.ng) (idle : s.idle g) :
      WStep N s ({ s with client := fun i => if i = g then some s.nt else s.client i }.spawn o (.unwatch g id) (unwatchGo N g id))

/-- The memory of a node that has just started. -/
def WatchMem.init (rev : Int) : WatchMem :=
  { pollRev := rev, owner := none, map := [], ng := 0, grp := fun _ => ⟨0, [], 0, [], none, 0, false, false, []⟩, nw := 0
    wat := fun _ => ⟨0, [], [], false, [], none⟩, na := 0, aft := fun _ => .stopped, body := fun _ => .stuck }

/-- A node that has just started, with the goroutine of the poller (`backend.go:266-303`). -/
def WSys.init (N : Nat) (o : Orders) (s : Sys) (rev : Int) : WSys :=
  { sys := s, mem := ((pollGo N).run o 0 none (WatchMem.init rev)).1, nt := 1
    thr := fun i => if i = 0 then some ⟨.poll, ((pollGo N).run o 0 none (WatchMem.init rev)).2⟩ else none
    client := fun _ => none, used := fun _ => [], overtaken := false, lossy := fun _ _ => false }

/-- A node that was started on a reachable system, after any number of steps. Each loop of the poller is followed for at most `N` rounds. -/
inductive WReachable (N : Nat) : WSys → Prop where
  | start {s s' : Sys} {t : List Obs} {rev : Int} (o : Orders) (h : Reachable s) (r : Run s Backend.start t (.ok rev) s') :
      WReachable N (WSys.init N o s' rev)
  | step {a b : WSys} : WReachable N a → WStep N a b → WReachable N b

end Verif.Go
