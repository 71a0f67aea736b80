import Verif.Model.GoBackend
import Verif.Model.GoTextStream
import Verif.Model.GoTextLimited
import Verif.Model.Stream
/-!
# Goroutines running the text of `/repo/pkg/limited/watch.go`

The text of a function, run by a goroutine, is a tree (`Ts`) of what it does to the things it shares with other goroutines: the mutex of the
stream, each single read and write of its fields, the watcher group and its channel, the gRPC stream. `Model/GoStreamSys.lean` says how the
goroutines of a stream run together.
-/

namespace Verif.Go

open Verif.GoText

/-- A message of the client (`etcdserverpb.WatchRequest`): create a watch, cancel one, ask for progress, or none of these. -/
inductive WatchMsg where
  | create (key rangeEnd : List UInt8) (start watchId : Int)
  | cancel (id : Int)
  | progress
  | empty
deriving DecidableEq

/-- What a goroutine does to shared things, and what it does next. -/
inductive Ts where
  /-- the fragment does not define it: a panic, or types that do not fit -/
  | stuck
  /-- more iterations of a loop than are looked at -/
  | out
  | ret (vs : List V)
  /-- `WatcherGroup` of the backend -/
  | openGroup (ok : Ts) (er : ApiErr → Ts)
  /-- `eg.Go`, `eg.Wait` -/
  | spawn (t : Ts) (k : Ts)
  | await (k : V → Ts)
  /-- `Recv` of the gRPC stream -/
  | recv (ok : WatchMsg → Ts) (er : ApiErr → Ts)
  | lock (k : Ts)
  | unlock (k : Ts)
  | getRev (k : Int → Ts)
  | setRev (n : Int) (k : Ts)
  | setReport (id : Int) (b : Bool) (k : Ts)
  | delReport (id : Int) (k : Ts)
  /-- the entries of the map, in some order -/
  | getReport (k : List (Int × Bool) → Ts)
  /-- `Watch` of the group: the call, and waiting for its answer -/
  | watch (id : Int) (lo hi : List UInt8) (start : Int) (ok : Ts) (compacted : Int → Int → Ts) (er : ApiErr → Ts)
  | watching (ok : Ts) (compacted : Int → Int → Ts) (er : ApiErr → Ts)
  | unwatch (id : Int) (k : Ts)
  /-- `Send` of the gRPC stream -/
  | send (r : V) (ok : Ts) (er : ApiErr → Ts)
  /-- a receive from the channel of the group, or its end -/
  | recvUpdate (ok : GroupUpdate → Ts) (closed : Ts)
  /-- `select` of a tick and the end of the context of the gRPC stream -/
  | select (tick done : Ts)

/-- `for cond { body }`, at most so many times. -/
def loopS (cond : Store Ext → (V → Store Ext → Ts) → Ts) (body : Store Ext → (Store Ext → Ts) → (Store Ext → Ts) → Ts)
    (k : Store Ext → Ts) : Nat → Store Ext → Ts
  | 0, _ => .out
  | n + 1, s => cond s fun c s =>
    match c with
    | .bool b => bif b then body s (fun s => loopS cond body k n s) k else k s
    | _ => .stuck

/-- The meaning of loops for goroutines. -/
def ctlS : Control Ext Ts := { stuck := .stuck, loop := loopS, range := rangeStd }

/-- `*watchStream`. -/
def streamV : V := .ext (.st .stream)

/-- An error. -/
def apiErrV (e : ApiErr) : V := .ext (.err e)

/-- `*WatchRequest`. -/
def encMsg : WatchMsg → V
  | .create key rangeEnd start id =>
    msg n!"WatchRequest" [(n!"GetCreateRequest", msg n!"WatchCreateRequest" [(n!"Key", .bytes key), (n!"RangeEnd", .bytes rangeEnd),
      (n!"StartRevision", .int start), (n!"WatchId", .int id)]), (n!"GetCancelRequest", .nil), (n!"GetProgressRequest", .nil)]
  | .cancel id =>
    msg n!"WatchRequest" [(n!"GetCreateRequest", .nil), (n!"GetCancelRequest", msg n!"WatchCancelRequest" [(n!"WatchId", .int id)]),
      (n!"GetProgressRequest", .nil)]
  | .progress =>
    msg n!"WatchRequest" [(n!"GetCreateRequest", .nil), (n!"GetCancelRequest", .nil), (n!"GetProgressRequest", msg n!"WatchProgressRequest" [])]
  | .empty => msg n!"WatchRequest" [(n!"GetCreateRequest", .nil), (n!"GetCancelRequest", .nil), (n!"GetProgressRequest", .nil)]

/-- `WatcherUpdate` (`/repo/pkg/limited/types.go`). -/
def encUpdateOf (p : Int × List Event) : V :=
  .struct n!"WatcherUpdate" [(n!"WatcherId", .int p.1), (n!"Events", .list (p.2.map encEvent))]

/-- An update of the group: a value with the methods `Revision` and `Watchers` (`/repo/pkg/backend/internal/backend/watcher.go:37-38`). -/
def encUpdates (u : GroupUpdate) : V :=
  msg n!"WatcherGroupUpdate" [(n!"Revision", .int u.revision), (n!"Watchers", .list (u.updates.map encUpdateOf))]

/-- `*CompactedError` (`/repo/pkg/limited/types.go`). -/
def compactErrV (compactRev currentRev : Int) : V :=
  msg n!"CompactedError" [(n!"CompactRevision", .int compactRev), (n!"CurrentRevision", .int currentRev)]

/-- `*WatchResponse` as it is sent; the text of a cancel reason is of no interest. -/
def encResponse (r : WatchResponse) : V :=
  msg n!"WatchResponse" [(n!"Header", encHeader r.revision), (n!"WatchId", .int r.watchId), (n!"Created", .bool r.created),
    (n!"Canceled", .bool r.canceled), (n!"CompactRevision", .int 0), (n!"CancelReason", bif r.canceled then .tok else .bytes []),
    (n!"Fragment", .bool false), (n!"Events", .list (r.events.map encEvent))]

/-- Zero values: `WatchResponse`, `watchStream` (`watch.go:40-48`). -/
def zeroStream (n : Nm) : Option V :=
  if n == n!"WatchResponse" then
    some (.struct n [(n!"Header", .nil), (n!"WatchId", .int 0), (n!"Created", .bool false), (n!"Canceled", .bool false),
      (n!"CompactRevision", .int 0), (n!"CancelReason", .bytes []), (n!"Fragment", .bool false), (n!"Events", .list [])])
  else if n == n!"watchStream" then
    some (.struct n [(n!"mu", .tok), (n!"watcherGroup", .nil), (n!"notifyInterval", .int 0), (n!"revision", .int 0), (n!"server", .nil),
      (n!"sendProgressReport", .nil), (n!"limited", .tok)])
  else zeroMsg n

/-- `clientv3.AutoWatchID`, `clientv3.InvalidWatchID`, `ErrGRPCUnhealthy`. -/
def globStream (p n : Nm) : Option V :=
  if p == n!"clientv3" then
    if n == n!"AutoWatchID" then some (.int 0)
    else if n == n!"InvalidWatchID" then some (.int (-1))
    else none
  else if p == 0 && n == n!"ErrGRPCUnhealthy" then some .tok
  else none

/-- Fields that are read (`watch.go:40-48`). Those that are set once, when the stream is allocated, are no reads of shared memory. -/
def fieldS (x : Ext) (f : Nm) (k : V → Ts) : Ts :=
  match x with
  | .st .bridge => if f == n!"limited" then k (.ext (.st .limited)) else .stuck
  | .st .limited =>
    if f == n!"backend" then k (.ext (.st .backend))
    else if f == n!"notifyInterval" then k .tok
    else .stuck
  | .st .stream =>
    if f == n!"mu" then k (.ext (.st .mutex))
    else if f == n!"watcherGroup" then k (.ext (.st .group))
    else if f == n!"notifyInterval" then k .tok
    else if f == n!"server" then k (.ext (.st .server))
    else if f == n!"sendProgressReport" then k (.ext (.st .report))
    else if f == n!"revision" then .getRev fun n => k (.int n)
    else if f == n!"ServeUpdates" || f == n!"ServeProgress" || f == n!"ServeRequests" then k (.ext (.st (.serve f)))
    else .stuck
  | .st .ticker => if f == n!"C" then k (.ext (.st .ticks)) else .stuck
  | _ => .stuck

/-- Fields that are written. -/
def setFieldS (x : Ext) (f : Nm) (v : V) (k : Ts) : Ts :=
  match x, v with
  | .st .stream, .int n => if f == n!"revision" then .setRev n k else .stuck
  | _, _ => .stuck

/-- Methods of objects. `eg.Go` starts a method of the stream. -/
def methS (L : Calls Ts) (x : Ext) (m : Nm) (as : List V) (k : List V → Ts) : Ts :=
  match x with
  | .st .mutex => if m == n!"Lock" then .lock (k []) else if m == n!"Unlock" then .unlock (k []) else .stuck
  | .st .errgroup =>
    if m == n!"SetLimit" then k []
    else if m == n!"Go" then
      match as with
      | [.ext (.st (.serve f))] => .spawn (L n!"watchStream" f [streamV] .ret) (k [])
      | _ => .stuck
    else if m == n!"Wait" then .await fun v => k [v]
    else .stuck
  | .st .backend =>
    if m == n!"WatcherGroup" then .openGroup (k [.ext (.st .group), .nil]) fun e => k [.nil, apiErrV e] else .stuck
  | .st .group =>
    match as with
    | [.int id, .bytes lo, .bytes hi, .int start] =>
      if m == n!"Watch" then .watch id lo hi start (k [.nil]) (fun a b => k [compactErrV a b]) fun e => k [apiErrV e] else .stuck
    | [.int id] => if m == n!"Unwatch" then .unwatch id (k []) else .stuck
    | [] => if m == n!"Updates" then k [.ext (.st .updates)] else .stuck
    | _ => .stuck
  | .st .server =>
    if m == n!"Recv" then .recv (fun r => k [encMsg r, .nil]) fun e => k [.nil, apiErrV e]
    else if m == n!"Send" then
      match as with
      | [r] => .send r (k [.nil]) fun e => k [apiErrV e]
      | _ => .stuck
    else if m == n!"Context" then k [.ext (.st .ctx)]
    else .stuck
  | .st .ctx => if m == n!"Done" then k [.ext (.st .ctxDone)] else .stuck
  | .st .ticker => if m == n!"Stop" then k [] else .stuck
  | .st .stream => L n!"watchStream" m (.ext x :: as) k
  | .err _ => if m == n!"Error" then k [.tok] else .stuck
  | _ => .stuck

/-- Functions of libraries, and `delete`. -/
def funcS (L : Calls Ts) (p m : Nm) (as : List V) (k : List V → Ts) : Ts :=
  match quietFunc p m as with
  | some vs => k vs
  | none =>
    if p == n!"errgroup" && m == n!"WithContext" then k [.ext (.st .errgroup), .tok]
    else if p == n!"time" && m == n!"NewTicker" then k [.ext (.st .ticker)]
    else if p == 0 then
      if m == n!"delete" then
        match as with
        | [.ext (.st .report), .int id] => .delReport id (k [])
        | _ => .stuck
      else L 0 m as k
    else .stuck

/-- The communications. -/
def selectS (cs : List (Comm Ext)) (k : Nat → List V → Ts) : Ts :=
  match cs with
  | [.recv (.ext (.st .updates))] => .recvUpdate (fun u => k 0 [encUpdates u, .bool true]) (k 0 [.nil, .bool false])
  | [.recv (.ext (.st .ticks)), .recv (.ext (.st .ctxDone))] => .select (k 0 [.tok, .bool true]) (k 1 [.nil, .bool false])
  | _ => .stuck

/-- `&T{…}`: the stream, with a new map; the others are not written to. -/
def allocS (v : V) : Option ((V → Ts) → Ts) :=
  match v with
  | .struct n [_, (_, .ext (.st .group)), _, (_, .int 0), (_, .ext (.st .server)), (_, .list []), _] =>
    if n == n!"watchStream" then some fun k => k streamV else none
  | v => some fun k => k (.imm v)

/-- What the functions of `watch.go` find around them; `ct` is the meaning of loops, `N` bounds the iterations of each loop. The accessors of
messages and updates read the fields of these names. -/
def streamHost (ct : Control Ext Ts) (N : Nat) (L : Calls Ts) : Host Ext Ts :=
  { ctl := ct
    fuel := N
    zero := fun _ n => zeroStream n
    glob := globStream
    meth := fun v m as s k =>
      match v with
      | .ext x => methS L x m as fun vs => k vs s
      | .tok => if quiet m || m == n!"Error" then k [.tok] s else .stuck
      | .imm (.struct _ fs) =>
        match assoc m fs with
        | some w => k [w] s
        | none => if m == n!"Error" then k [.tok] s else .stuck
      | _ => .stuck
    func := fun p m as s k => funcS L p m as fun vs => k vs s
    field := fun x f s k => fieldS x f fun v => k v s
    setField := fun x f v s k => setFieldS x f v (k s)
    alloc := allocS
    select := fun cs s k => selectS cs fun i vs => k i vs s
    setIdx := fun x i v s k =>
      match x, i, v with
      | .st .report, .int id, .bool b => .setReport id b (k s)
      | _, _, _ => .stuck
    entries := fun x =>
      match x with
      | .st .report => some fun k => .getReport fun l => k (l.map fun p => .list [.int p.1, .bool p.2])
      | _ => none }

/-- The functions. -/
def streamFuncs : List FuncDecl :=
  [Stream.f_Watch, Stream.f_ServeRequests, Stream.f_ServeUpdates, Stream.f_sendUpdates, Stream.f_ServeProgress, Stream.f_sendProgress,
    Stream.f_Create, Stream.f_Close, Stream.f_RequestProgress, Limited.f_txnHeader, Limited.f_unsupported]

/-- Calls by the texts of the functions, nested at most so deep. None of them returns a pointer to something of its own. -/
def streamCalls (ct : Control Ext Ts) (N : Nat) : Nat → Calls Ts
  | 0 => fun _ _ _ _ => .stuck
  | n + 1 => fun ty m args k =>
    match findFunc ty m streamFuncs with
    | some f => f.run (streamHost ct N (streamCalls ct N n)) args fun vs _ => k vs
    | none => .stuck

/-- The goroutine of a call of `Watch` by the client: the handler of the stream (`watch.go:17-38`). -/
def handlerGo (N : Nat) : Ts := streamCalls ctlS N 6 n!"KVServerBridge" n!"Watch" [.ext (.st .bridge), .ext (.st .server)] .ret

/-- A goroutine that runs a method of the stream. -/
def serveGo (N : Nat) (m : Nm) : Ts := streamCalls ctlS N 5 n!"watchStream" m [streamV] .ret

end Verif.Go
