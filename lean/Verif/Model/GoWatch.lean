import Verif.Model.GoBackend
import Verif.Model.GoTextWatch
import Verif.Model.Watch
/-!
# Goroutines running the text of `/repo/pkg/backend/internal/backend/watcher.go`

The text of a function, run by a goroutine, is a tree (`Tw`) of what it does to the things it shares with other goroutines: the mutex of the
backend and the mutexes of the watcher groups, each single read and write of a field of the backend, of a group or of a watcher, channels, the
driver. `Model/GoWatchSys.lean` says how any number of goroutines with such trees run together.
-/

namespace Verif.Go

open Verif.GoText

/-- What a goroutine does to shared things, and what it does next. -/
inductive Tw where
  /-- the fragment does not define it: a panic, or types that do not fit -/
  | stuck
  /-- more iterations of a loop than are looked at -/
  | out
  | ret (vs : List V)
  /-- the mutex of the backend -/
  | lockS (k : Tw)
  | unlockS (k : Tw)
  /-- the mutex of a group -/
  | lockW (g : Nat) (k : Tw)
  | unlockW (g : Nat) (k : Tw)
  | getPollRev (k : Int → Tw)
  | setPollRev (n : Int) (k : Tw)
  /-- the map `WatcherGroups`: its entries, in some order -/
  | getGroups (k : List Nat → Tw)
  | addGroup (g : Nat) (k : Tw)
  | delGroup (g : Nat) (k : Tw)
  /-- `&WatcherGroup{…}` with a revision and the capacity of the channel -/
  | newGroup (rev cap : Int) (k : Nat → Tw)
  /-- `context.AfterFunc` with what the function does -/
  | after (body : Tw) (k : Nat → Tw)
  | setStop (g a : Nat) (k : Tw)
  /-- `w.stop()` -/
  | stop (g : Nat) (k : Bool → Tw)
  | getCurRev (g : Nat) (k : Int → Tw)
  | setCurRev (g : Nat) (n : Int) (k : Tw)
  /-- the map `watchers` of a group: its entries, in some order -/
  | getWatchers (g : Nat) (k : List (Int × Nat) → Tw)
  | setWatcher (g : Nat) (id : Int) (w : Nat) (k : Tw)
  | delWatcher (g : Nat) (id : Int) (k : Tw)
  /-- `len(w.watchers)` and `len(w.updates)` -/
  | lenWatchers (g : Nat) (k : Int → Tw)
  | lenUpdates (g : Nat) (k : Int → Tw)
  /-- `&watcher{…}` -/
  | newWatcher (id : Int) (lo hi : List UInt8) (k : Nat → Tw)
  | getKey (w : Nat) (k : List UInt8 → Tw)
  | getRangeEnd (w : Nat) (k : List UInt8 → Tw)
  | getInit (w : Nat) (k : Bool → Tw)
  | setInit (w : Nat) (b : Bool) (k : Tw)
  | getEvents (w : Nat) (k : List V → Tw)
  | setEvents (w : Nat) (l : List V) (k : Tw)
  /-- a send on the channel of a group, if there is room, or not -/
  | trySend (g : Nat) (v : V) (yes no : Tw)
  | closeUpdates (g : Nat) (k : Tw)
  /-- a send on `Notify`, if there is room, or not -/
  | notify (n : Int) (yes no : Tw)
  /-- `select` of the poller: its context is done, a notification, a tick -/
  | pollSelect (done : Tw) (notified : Int → Tw) (tick : Tw)
  /-- `GetCompactRevision` of the driver, in progress -/
  | check (p : Prog (Except ApiErr (Int × Int))) (ok : Int → Int → Tw) (er : ApiErr → Tw)
  /-- `AfterPrefix` and `After` of the driver, in progress -/
  | rows (p : Prog (Except ApiErr (List Row × Option Nat))) (ok : List Row → Option Nat → Tw) (er : ApiErr → Tw)

/-- `for cond { body }`, at most so many times. -/
def loopW (cond : Store Ext → (V → Store Ext → Tw) → Tw) (body : Store Ext → (Store Ext → Tw) → (Store Ext → Tw) → Tw)
    (k : Store Ext → Tw) : Nat → Store Ext → Tw
  | 0, _ => .out
  | n + 1, s => cond s fun c s =>
    match c with
    | .bool b => bif b then body s (fun s => loopW cond body k n s) k else k s
    | _ => .stuck

/-- The meaning of loops for goroutines. -/
def ctlW : Control Ext Tw := { stuck := .stuck, loop := loopW, range := rangeStd }

/-- `*Backend`. -/
def nodeV : V := .ext (.w .backend)
/-- A `*WatcherGroup`. -/
def groupV (g : Nat) : V := .ext (.w (.group g))
/-- A `*watcher`. -/
def watcherV (w : Nat) : V := .ext (.w (.watcher w))
/-- An error. -/
def errV (e : ApiErr) : V := .ext (.err e)

/-- `limited.WatcherUpdate` (`/repo/pkg/limited/types.go`). -/
def encWatcherUpdate (u : Int × List Event) : V :=
  .struct n!"WatcherUpdate" [(n!"WatcherId", .int u.1), (n!"Events", .list (u.2.map encEvent))]

/-- `*watcherGroupUpdate` (`watcher.go:32-35`). -/
def encGroupUpdate (u : GroupUpdate) : V :=
  msg n!"watcherGroupUpdate" [(n!"revision", .int u.revision), (n!"updates", .list (u.updates.map encWatcherUpdate))]

/-- `*limited.CompactedError`. -/
def compactedV (compactRev currentRev : Int) : V :=
  msg n!"CompactedError" [(n!"CompactRevision", .int compactRev), (n!"CurrentRevision", .int currentRev)]

/-- Zero values of the structs that are allocated (`watcher.go:15-35`, `/repo/pkg/limited/types.go`), with the fields in the order of the
declarations. -/
def zeroWatch (n : Nm) : Option V :=
  if n == n!"watcher" then
    some (.struct n [(n!"watchId", .int 0), (n!"key", .bytes []), (n!"rangeEnd", .bytes []), (n!"initialized", .bool false), (n!"events", .list [])])
  else if n == n!"watcherGroupUpdate" then some (.struct n [(n!"revision", .int 0), (n!"updates", .list [])])
  else if n == n!"WatcherUpdate" then some (.struct n [(n!"WatcherId", .int 0), (n!"Events", .list [])])
  else if n == n!"CompactedError" then some (.struct n [(n!"CompactRevision", .int 0), (n!"CurrentRevision", .int 0)])
  else if n == n!"WatcherGroup" then
    some (.struct n [(n!"ctx", .nil), (n!"driver", .nil), (n!"currentRevision", .int 0), (n!"watchers", .nil), (n!"updates", .nil), (n!"stop", .nil)])
  else none

/-- `pollBatchSize` (`backend.go:24`), errors of contexts, functions as values. -/
def globWatch (p n : Nm) : Option V :=
  if p == 0 && n == n!"pollBatchSize" then some (.int 500)
  else if p == 0 && n == n!"scanEvent" then some (.fn n)
  else if p == n!"context" && n == n!"DeadlineExceeded" then some (errV (.db .deadline))
  else if p == n!"context" && n == n!"Canceled" then some (errV (.db .canceled))
  else constV p n

/-- Fields that are read (`watcher.go:15-30`, `backend.go:71-83`). Those of a group that are set once, when it is allocated, are no reads of
shared memory. -/
def fieldW (x : Ext) (f : Nm) (k : V → Tw) : Tw :=
  match x with
  | .w .backend =>
    if f == n!"mu" then k (.ext (.w .mutex))
    else if f == n!"WatcherGroups" then k (.ext (.w .groups))
    else if f == n!"Notify" then k (.ext (.w .notify))
    else if f == n!"Driver" then k (.ext (.w .driver))
    else if f == n!"Config" then k (msg n!"Config" [(n!"PollInterval", .tok), (n!"WatchQueryTimeout", .tok)])
    else if f == n!"pollRevision" then .getPollRev fun n => k (.int n)
    else .stuck
  | .w (.group g) =>
    if f == n!"mu" then k (.ext (.w (.gmutex g)))
    else if f == n!"ctx" then k .tok
    else if f == n!"driver" then k (.ext (.w .driver))
    else if f == n!"watchers" then k (.ext (.w (.watchers g)))
    else if f == n!"updates" then k (.ext (.w (.updates g)))
    else if f == n!"currentRevision" then .getCurRev g fun n => k (.int n)
    else .stuck
  | .w (.watcher w) =>
    if f == n!"key" then .getKey w fun b => k (.bytes b)
    else if f == n!"rangeEnd" then .getRangeEnd w fun b => k (.bytes b)
    else if f == n!"initialized" then .getInit w fun b => k (.bool b)
    else if f == n!"events" then .getEvents w fun l => k (.list l)
    else .stuck
  | .w .ticker => if f == n!"C" then k (.ext (.w .ticks)) else .stuck
  | _ => .stuck

/-- Fields that are written. -/
def setFieldW (x : Ext) (f : Nm) (v : V) (k : Tw) : Tw :=
  match x with
  | .w .backend =>
    match v with
    | .int n => if f == n!"pollRevision" then .setPollRev n k else .stuck
    | _ => .stuck
  | .w (.group g) =>
    match v with
    | .int n => if f == n!"currentRevision" then .setCurRev g n k else .stuck
    | .ext (.w (.stop a)) => if f == n!"stop" then .setStop g a k else .stuck
    | _ => .stuck
  | .w (.watcher w) =>
    match v with
    | .bool b => if f == n!"initialized" then .setInit w b k else .stuck
    | .list l => if f == n!"events" then .setEvents w l k else .stuck
    | .nil => if f == n!"events" then .setEvents w [] k else .stuck
    | _ => .stuck
  | _ => .stuck

/-- Methods of the driver (`/repo/pkg/backend/sqlite/driver.go:700-787`; `Props/GoSource.lean` says that their texts are these programs). -/
def driverW (m : Nm) (as : List V) (k : List V → Tw) : Tw :=
  match as with
  | [_] => if m == n!"GetCompactRevision" then .check Driver.getCompactRevision (fun a b => k [.int a, .int b, .nil]) fun e => k [.int 0, .int 0, errV e] else .stuck
  | [_, .int rev, .int limit] =>
    if m == n!"After" then .rows (Driver.after rev limit) (fun r b => k [.ext (.w (.rows r b)), .nil]) fun e => k [.nil, errV e] else .stuck
  | [_, .bytes lo, .bytes hi, .int a, .int b] =>
    if m == n!"AfterPrefix" then .rows (Driver.afterPrefix lo hi a b) (fun r b => k [.ext (.w (.rows r b)), .nil]) fun e => k [.nil, errV e] else .stuck
  | _ => .stuck

/-- Methods; `stop` is a field of a group that holds a function. -/
def methW (L : Calls Tw) (x : Ext) (m : Nm) (as : List V) (k : List V → Tw) : Tw :=
  match x with
  | .w .mutex => if m == n!"Lock" then .lockS (k []) else if m == n!"Unlock" then .unlockS (k []) else .stuck
  | .w (.gmutex g) => if m == n!"Lock" then .lockW g (k []) else if m == n!"Unlock" then .unlockW g (k []) else .stuck
  | .w .ctx => if m == n!"Done" then k [.ext (.w .ctxDone)] else .stuck
  | .w .ticker => if m == n!"Stop" then k [] else .stuck
  | .w .driver => driverW m as k
  | .w (.group g) => if m == n!"stop" then .stop g fun b => k [.bool b] else L n!"WatcherGroup" m (.ext x :: as) k
  | .w (.watcher _) => L n!"watcher" m (.ext x :: as) k
  | .w .backend => L n!"Backend" m (.ext x :: as) k
  | _ => .stuck

/-- Functions of libraries and builtins on maps and channels. `ScanAll(rows, scanEvent)` is what its text does with a cursor
(`ScanAll_run` in `Lemmas/GoBackend.lean`). -/
def funcW (L : Calls Tw) (p m : Nm) (as : List V) (k : List V → Tw) : Tw :=
  match quietFunc p m as with
  | some vs => k vs
  | none =>
    if p == n!"context" && m == n!"WithTimeout" then k [.tok, .tok]
    else if p == n!"time" && m == n!"NewTicker" then k [.ext (.w .ticker)]
    else if p == n!"errors" && m == n!"Is" then
      match as with
      | [.ext (.err a), .ext (.err b)] => k [.bool (decide (a = b))]
      | _ => .stuck
    else if p == n!"bytes" && m == n!"Compare" then
      match as with
      | [.bytes a, .bytes b] => k [.int (cmpBytes a b)]
      | _ => .stuck
    else if p == 0 then
      if m == n!"len" then
        match as with
        | [.ext (.w (.watchers g))] => .lenWatchers g fun n => k [.int n]
        | [.ext (.w (.updates g))] => .lenUpdates g fun n => k [.int n]
        | _ => .stuck
      else if m == n!"delete" then
        match as with
        | [.ext (.w (.watchers g)), .int id] => .delWatcher g id (k [])
        | [.ext (.w .groups), .ext (.w (.group g))] => .delGroup g (k [])
        | _ => .stuck
      else if m == n!"close" then
        match as with
        | [.ext (.w (.updates g))] => .closeUpdates g (k [])
        | _ => .stuck
      else if m == n!"ScanAll" then
        match as with
        | [.ext (.w (.rows r b)), .fn f] => if f == n!"scanEvent" then k [.list ((scanAll scanEvent (r, b)).map encEvent), .nil] else .stuck
        | _ => .stuck
      else L 0 m as k
    else .stuck

/-- The communications. -/
def selectW (cs : List (Comm Ext)) (k : Nat → List V → Tw) : Tw :=
  match cs with
  | [.send (.ext (.w (.updates g))) v, .dflt] => .trySend g v (k 0 []) (k 1 [])
  | [.send (.ext (.w .notify)) (.int n), .dflt] => .notify n (k 0 []) (k 1 [])
  | [.recv (.ext (.w .ctxDone)), .recv (.ext (.w .notify)), .recv (.ext (.w .ticks))] =>
    .pollSelect (k 0 [.nil, .bool false]) (fun n => k 1 [.int n, .bool true]) (k 2 [.tok, .bool true])
  | _ => .stuck

/-- `&T{…}`: groups and watchers are shared, the others are not written to. -/
def allocW (v : V) : Option ((V → Tw) → Tw) :=
  match v with
  | .struct n [(_, .int id), (_, .bytes lo), (_, .bytes hi), _, _] =>
    if n == n!"watcher" then some fun k => .newWatcher id lo hi fun w => k (watcherV w) else none
  | .struct n [_, _, (_, .int rev), _, (_, .ext (.w (.newChan cap))), _] =>
    if n == n!"WatcherGroup" then some fun k => .newGroup rev cap fun g => k (groupV g) else none
  | .struct _ [a, b] => some fun k => k (.imm (.struct (match v with | .struct n _ => n | _ => 0) [a, b]))
  | _ => none

/-- What the functions of `watcher.go` find around them; `ct` is the meaning of loops, `N` bounds the iterations of each loop. The values of
the map `WatcherGroups` are its keys. -/
def watchHost (ct : Control Ext Tw) (N : Nat) (L : Calls Tw) : Host Ext Tw :=
  { ctl := ct
    fuel := N
    zero := fun _ n => zeroWatch n
    glob := globWatch
    meth := fun v m as s k =>
      match v with
      | .ext x => methW L x m as fun vs => k vs s
      | .tok => if quiet m || m == n!"()" then k [.tok] s else .stuck
      | _ => .stuck
    func := fun p m as s k => funcW L p m as fun vs => k vs s
    field := fun x f s k => fieldW x f fun v => k v s
    setField := fun x f v s k => setFieldW x f v (k s)
    alloc := allocW
    select := fun cs s k => selectW cs fun i vs => k i vs s
    setIdx := fun x i v s k =>
      match x, i, v with
      | .w (.watchers g), .int id, .ext (.w (.watcher w)) => .setWatcher g id w (k s)
      | .w .groups, .ext (.w (.group g)), .ext (.w (.group _)) => .addGroup g (k s)
      | _, _, _ => .stuck
    entries := fun x =>
      match x with
      | .w (.watchers g) => some fun k => .getWatchers g fun l => k (l.map fun p => .list [.int p.1, watcherV p.2])
      | .w .groups => some fun k => .getGroups fun l => k (l.map fun g => .list [groupV g, groupV g])
      | _ => none
    mkChan := fun n => some (.ext (.w (.newChan n)))
    hof := fun p m =>
      if p == n!"context" && m == n!"AfterFunc" then
        some fun vs call s k =>
          match vs with
          | [_, f] => .after (call f { s with defers := [] } fun _ _ => .ret []) fun a => k [.ext (.w (.stop a))] s
          | _ => .stuck
      else none }

/-- The functions. -/
def watchFuncs : List FuncDecl :=
  [Watch.f_publish, Watch.f_update, Watch.f_Watch, Watch.f_initialEvents, Watch.f_Unwatch, Watch.f_notifyWatcherPoll, Watch.f_poll,
    Watch.f_publishEvents, Watch.f_getLatestEvents, Watch.f_WatcherGroup, Backend.f_appendEvents]

/-- Calls by the texts of the functions, nested at most so deep. None of them returns a pointer to something of its own. -/
def watchCalls (ct : Control Ext Tw) (N : Nat) : Nat → Calls Tw
  | 0 => fun _ _ _ _ => .stuck
  | n + 1 => fun ty m args k =>
    match findFunc ty m watchFuncs with
    | some f => f.run (watchHost ct N (watchCalls ct N n)) args fun vs _ => k vs
    | none => .stuck

/-- A goroutine that calls a function or method and ends. -/
def goroutineW (N : Nat) (ty m : Nm) (args : List V) : Tw := watchCalls ctlW N 6 ty m args .ret

/-- The goroutine of the poller. -/
def pollGo (N : Nat) : Tw := goroutineW N n!"Backend" n!"poll" [nodeV, .ext (.w .ctx)]
/-- A call of `WatcherGroup`. -/
def openGo (N : Nat) : Tw := goroutineW N n!"Backend" n!"WatcherGroup" [nodeV, .tok]
/-- A call of `Watch`. -/
def watchGo (N g : Nat) (id : Int) (lo hi : List UInt8) (start : Int) : Tw :=
  goroutineW N n!"WatcherGroup" n!"Watch" [groupV g, .int id, .bytes lo, .bytes hi, .int start]
/-- A call of `Unwatch`. -/
def unwatchGo (N g : Nat) (id : Int) : Tw := goroutineW N n!"WatcherGroup" n!"Unwatch" [groupV g, .int id]
/-- A call of `notifyWatcherPoll`. -/
def notifyGo (N : Nat) (rev : Int) : Tw := goroutineW N n!"Backend" n!"notifyWatcherPoll" [nodeV, .int rev]

end Verif.Go
