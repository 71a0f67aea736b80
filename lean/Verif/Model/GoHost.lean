import Verif.Model.GoSem
import Verif.Model.Limited
import Verif.Model.Client
import Verif.Model.Errors
/-!
# What the functions of `pkg/limited` find around them

Encodings of requests and answers as Go values, the accessors generated for protobuf messages, the zero values of the message types, and
the libraries whose calls have no effect on the answer (tracing, metrics, logging).
-/

namespace Verif.Go

/-- The objects of `pkg/database` (`/repo/pkg/database/batched.go`). -/
inductive DbObj where
  /-- `*batchedDb` -/
  | batcher
  | mutex
  | cond
  | wrapped
  | workerCtx
  | tx
  /-- a `*batchJob`, in the order of their allocation -/
  | job (j : Nat)
  /-- a context, and its channel -/
  | ctx (c : Nat)
  | ctxDone (c : Nat)
  /-- an `sql.Result`, in the order of the statements executed -/
  | res (r : Nat)
  /-- `errDBClosed` -/
  | errClosed
deriving DecidableEq

/-- The objects of the watch machinery (`/repo/pkg/backend/internal/backend/watcher.go`). -/
inductive WObj where
  /-- `*Backend`, its mutex, its channel `Notify`, its driver, the map `WatcherGroups` -/
  | backend
  | mutex
  | notify
  | driver
  | groups
  /-- the context of the poller, its channel; a ticker, its channel -/
  | ctx
  | ctxDone
  | ticker
  | ticks
  /-- a `*WatcherGroup` in the order of their allocation, its mutex, its map `watchers`, its channel `updates` -/
  | group (g : Nat)
  | gmutex (g : Nat)
  | watchers (g : Nat)
  | updates (g : Nat)
  /-- a new channel with a capacity -/
  | newChan (n : Int)
  /-- what `context.AfterFunc` returns, in the order of the calls -/
  | stop (a : Nat)
  /-- a `*watcher`, in the order of their allocation -/
  | watcher (w : Nat)
  /-- the rows of a query, and after how many of them the cursor breaks -/
  | rows (r : List Row) (brk : Option Nat)
deriving DecidableEq

/-- The objects of a watch stream (`/repo/pkg/limited/watch.go`). -/
inductive StObj where
  /-- `*KVServerBridge` -/
  | bridge
  | limited
  | backend
  /-- the group of goroutines, and a method of the stream as a function -/
  | errgroup
  | serve (m : Nm)
  /-- `*watchStream`, its mutex, its watcher group, the channel of it, its map `sendProgressReport` -/
  | stream
  | mutex
  | group
  | updates
  | report
  /-- the gRPC stream, its context, the channel of it; a ticker, its channel -/
  | server
  | ctx
  | ctxDone
  | ticker
  | ticks
deriving DecidableEq

/-- The objects of the cache of prepared statements (`/repo/pkg/database/prepared.go`). -/
inductive PrepObj where
  /-- `*preparedDb`, its mutex, its map, the database behind it -/
  | db
  | mutex
  | cache
  | under
  /-- a `*sql.Stmt`, a transaction of the database, the same wrapped, a statement of a transaction, a `*sql.Conn` -/
  | stmt (s : Nat)
  | tx (t : Nat)
  | ptx (t : Nat)
  | txStmt (t s : Nat)
  | conn
  /-- what the execution of a statement returns -/
  | answer (a : Nat)
deriving DecidableEq

/-- The objects of the expiry of leases (`/repo/pkg/backend/internal/backend/ttl.go`). -/
inductive TtlObj where
  /-- `*Backend`, its driver, its wait group -/
  | backend
  | driver
  | wg
  /-- the context, the channel of it; the channel of a timer -/
  | ctx
  | ctxDone
  | after (d : Int)
  /-- a `*WatcherGroup`, its channel -/
  | group (g : Nat)
  | updates (g : Nat)
  /-- a strategy of waiting between tries; is there a limit on the time of all of them? -/
  | backoff (limited : Bool)
deriving DecidableEq

/-- The objects of the schema setup (`/repo/pkg/backend/sqlite/schema.go`, `driver.go:293-402`). -/
inductive SchObj where
  /-- the database, a connection, a transaction -/
  | database
  | conn
  | txn
  /-- a row with the version of the schema, read in a transaction or not; the row of `hasTable` -/
  | row (tx : Bool)
  | countRow
  /-- `*DriverConfig`: has it a database, and a function `Retry`? -/
  | config (db retry : Bool)
  /-- the context, its channel, the channel of a timer -/
  | ctx
  | ctxDone
  | timer
  /-- `ErrIncompatibleVersion`, and other errors by their texts -/
  | incompatible
  | errText (b : Bytes)
deriving DecidableEq

/-- The objects of the client library and the migrator (`/repo/pkg/client/client.go`, `/repo/pkg/migrator`). -/
inductive ClObj where
  /-- `*client`, the etcd client -/
  | client
  | etcd
  /-- a transaction that is being built, a comparison, an operation -/
  | txn (c : List Compare) (t e : List ReqOp)
  | cmp (c : Compare)
  | op (o : ReqOp)
  /-- options of a read -/
  | withPrefix
  | withRev (n : Int)
  | withSort (target order : Int)
  /-- errors: of the client library, `fs.ErrNotExist`, another one of the file system -/
  | err (e : CliErr)
  | notExist
  | ioErr
  /-- the backup directory, the names of its files -/
  | dir
  | name (data : Bool) (i : Int)
deriving DecidableEq

/-- The objects of starting and stopping the backend (`/repo/pkg/backend/internal/backend/backend.go:85-134,263-304`). -/
inductive LifeObj where
  | backend
  | driver
  | mu
  | wg
  | config
  /-- a context made by `WithCancel`, its end, the function that ends it -/
  | ctx (g : Nat)
  | ctxDone (g : Nat)
  | stop (g : Nat)
  /-- a ticker and its channel -/
  | ticker
  | tick
deriving DecidableEq

/-- The objects of retrying and counting (`/repo/pkg/backend/sqlite/driver.go:405-478`, `metrics.go`, `/repo/pkg/backend/dqlite/driver.go:67-95`). -/
inductive ErObj where
  /-- an error of the database -/
  | err (e : GoErr)
  /-- `*Driver`, its `config`, the database, an open `*sql.Rows`, a `sql.Result` -/
  | driver
  | config
  | database
  | rows
  | result
  /-- a counter, and it with its labels -/
  | metric (n : Nm)
  | metricOf (n : Nm) (name label : Bytes)
deriving DecidableEq

/-- What hosts add to the values. -/
inductive Ext where
  | err (e : ApiErr)
  /-- a statement of the driver, by the name of its constant, with or without ` LIMIT ?` -/
  | sql (n : Nm) (limit : Bool)
  /-- an open `*sql.Rows`; its state is the host's -/
  | rows
  /-- a `sql.Result` -/
  | result (rowsAffected lastInsertId : Int)
  /-- `sql.ErrTxDone` -/
  | txDone
  | db (o : DbObj)
  | w (o : WObj)
  | st (o : StObj)
  | prep (o : PrepObj)
  | ttl (o : TtlObj)
  | sch (o : SchObj)
  | cl (o : ClObj)
  | life (o : LifeObj)
  | er (o : ErObj)
deriving DecidableEq

/-- Values of these hosts. -/
abbrev V := GV Ext

/-- Pointers to messages that are only read. -/
def msg (ty : Nm) (fs : List (Nm × V)) : V := .imm (.struct ty fs)

/-- `PutRequest`. -/
def encPut (p : PutReq) : V :=
  msg n!"PutRequest" [(n!"Key", .bytes p.key), (n!"Value", .bytes p.value), (n!"Lease", .int p.lease), (n!"PrevKv", .bool p.prevKv),
    (n!"IgnoreValue", .bool p.ignoreValue), (n!"IgnoreLease", .bool p.ignoreLease)]

/-- `RangeRequest`. -/
def encRange (r : RangeReq) : V :=
  msg n!"RangeRequest" [(n!"Key", .bytes r.key), (n!"RangeEnd", .bytes r.rangeEnd), (n!"Limit", .int r.limit), (n!"Revision", .int r.revision),
    (n!"SortOrder", .int r.sortOrder), (n!"SortTarget", .int r.sortTarget), (n!"Serializable", .bool r.serializable),
    (n!"KeysOnly", .bool r.keysOnly), (n!"CountOnly", .bool r.countOnly), (n!"MinModRevision", .int r.minModRevision),
    (n!"MaxModRevision", .int r.maxModRevision), (n!"MinCreateRevision", .int r.minCreateRevision),
    (n!"MaxCreateRevision", .int r.maxCreateRevision)]

/-- `DeleteRangeRequest`. -/
def encDelete (d : DeleteReq) : V :=
  msg n!"DeleteRangeRequest" [(n!"Key", .bytes d.key), (n!"RangeEnd", .bytes d.rangeEnd), (n!"PrevKv", .bool d.prevKv)]

/-- Numbers of `Compare_CompareTarget`. -/
def encTarget : CmpTarget → Int
  | .version => 0 | .create => 1 | .mod => 2 | .value => 3 | .lease => 4

/-- Numbers of `Compare_CompareResult`. -/
def encResult : CmpResult → Int
  | .equal => 0 | .greater => 1 | .less => 2 | .notEqual => 3

/-- The oneof of `Compare`. -/
def encUnion : CmpUnion → V
  | .version n => msg n!"Compare_Version" [(n!"Version", .int n)]
  | .createRevision n => msg n!"Compare_CreateRevision" [(n!"CreateRevision", .int n)]
  | .modRevision n => msg n!"Compare_ModRevision" [(n!"ModRevision", .int n)]
  | .value v => msg n!"Compare_Value" [(n!"Value", .bytes v)]
  | .lease n => msg n!"Compare_Lease" [(n!"Lease", .int n)]
  | .unset => .nil

/-- `Compare`. -/
def encCompare (c : Compare) : V :=
  msg n!"Compare" [(n!"Result", .int (encResult c.result)), (n!"Target", .int (encTarget c.target)), (n!"Key", .bytes c.key),
    (n!"TargetUnion", encUnion c.union), (n!"RangeEnd", .bytes c.rangeEnd)]

/-- `RequestOp`. -/
def encOp : ReqOp → V
  | .range r => msg n!"RequestOp" [(n!"Request", msg n!"RequestOp_RequestRange" [(n!"RequestRange", encRange r)])]
  | .put p => msg n!"RequestOp" [(n!"Request", msg n!"RequestOp_RequestPut" [(n!"RequestPut", encPut p)])]
  | .deleteRange d => msg n!"RequestOp" [(n!"Request", msg n!"RequestOp_RequestDeleteRange" [(n!"RequestDeleteRange", encDelete d)])]
  | .txn => msg n!"RequestOp" [(n!"Request", msg n!"RequestOp_RequestTxn" [(n!"RequestTxn", .tok)])]

/-- `TxnRequest`. -/
def encTxn (t : TxnReq) : V :=
  msg n!"TxnRequest" [(n!"Compare", GV.list (t.compare.map encCompare)), (n!"Success", GV.list (t.success.map encOp)),
    (n!"Failure", GV.list (t.failure.map encOp))]

/-- Errors. -/
def encErr : Option ApiErr → V
  | none => .nil
  | some e => .ext (.err e)

/-- `ResponseHeader`. -/
def encHeader (rev : Int) : V :=
  msg n!"ResponseHeader" [(n!"ClusterId", .int 0), (n!"MemberId", .int 0), (n!"Revision", .int rev), (n!"RaftTerm", .int 0)]

/-- `mvccpb.KeyValue`. -/
def encKV (kv : KV) : V :=
  msg n!"KeyValue" [(n!"Key", .bytes kv.key), (n!"CreateRevision", .int kv.createRev), (n!"ModRevision", .int kv.modRev), (n!"Version", .int 0),
    (n!"Value", .bytes kv.value), (n!"Lease", .int kv.lease)]

/-- `RangeResponse` (both types of this name have these fields). -/
def encRangeResp (r : RangeResp) : V :=
  msg n!"RangeResponse" [(n!"Header", encHeader r.header), (n!"Kvs", GV.list (r.kvs.map encKV)), (n!"More", .bool r.more), (n!"Count", .int r.count)]

/-- `ResponseOp`. -/
def encRespOp : RespOp → V
  | .range r => msg n!"ResponseOp" [(n!"Response", msg n!"ResponseOp_ResponseRange" [(n!"ResponseRange", encRangeResp r)])]
  | .put h => msg n!"ResponseOp" [(n!"Response", msg n!"ResponseOp_ResponsePut"
      [(n!"ResponsePut", msg n!"PutResponse" [(n!"Header", encHeader h), (n!"PrevKv", .nil)])])]
  | .deleteRange h d => msg n!"ResponseOp" [(n!"Response", msg n!"ResponseOp_ResponseDeleteRange"
      [(n!"ResponseDeleteRange", msg n!"DeleteRangeResponse" [(n!"Header", encHeader h), (n!"Deleted", .int d), (n!"PrevKvs", .list [])])])]

/-- `TxnResponse`. -/
def encTxnResp (r : TxnResp) : V :=
  msg n!"TxnResponse" [(n!"Header", encHeader r.header), (n!"Succeeded", .bool r.succeeded), (n!"Responses", GV.list (r.responses.map encRespOp))]

/-- `CompactionRequest`. -/
def encCompaction (rev : Int) (physical : Bool) : V := msg n!"CompactionRequest" [(n!"Revision", .int rev), (n!"Physical", .bool physical)]

/-- `LeaseGrantRequest`. -/
def encLeaseGrant (ttl id : Int) : V := msg n!"LeaseGrantRequest" [(n!"TTL", .int ttl), (n!"ID", .int id)]

/-- Zero values of the message types. -/
def zeroMsg (n : Nm) : Option V :=
  let st (fs : List (Nm × V)) : Option V := some (.struct n fs)
  if n == n!"TxnResponse" then st [(n!"Header", .nil), (n!"Succeeded", .bool false), (n!"Responses", .list [])]
  else if n == n!"ResponseHeader" then
    st [(n!"ClusterId", .int 0), (n!"MemberId", .int 0), (n!"Revision", .int 0), (n!"RaftTerm", .int 0)]
  else if n == n!"RangeResponse" then st [(n!"Header", .nil), (n!"Kvs", .list []), (n!"More", .bool false), (n!"Count", .int 0)]
  else if n == n!"ResponseOp" then st [(n!"Response", .nil)]
  else if n == n!"ResponseOp_ResponsePut" then st [(n!"ResponsePut", .nil)]
  else if n == n!"ResponseOp_ResponseRange" then st [(n!"ResponseRange", .nil)]
  else if n == n!"ResponseOp_ResponseDeleteRange" then st [(n!"ResponseDeleteRange", .nil)]
  else if n == n!"PutResponse" then st [(n!"Header", .nil), (n!"PrevKv", .nil)]
  else if n == n!"DeleteRangeResponse" then st [(n!"Header", .nil), (n!"Deleted", .int 0), (n!"PrevKvs", .list [])]
  else if n == n!"KeyValue" then
    st [(n!"Key", .bytes []), (n!"CreateRevision", .int 0), (n!"ModRevision", .int 0), (n!"Version", .int 0), (n!"Value", .bytes []), (n!"Lease", .int 0)]
  else if n == n!"CompactionResponse" then st [(n!"Header", .nil)]
  else if n == n!"LeaseGrantResponse" then st [(n!"Header", .nil), (n!"ID", .int 0), (n!"TTL", .int 0), (n!"Error", .bytes [])]
  else none

/-- The accessors protobuf generates: the member of a oneof, or the zero value. -/
def oneof (v : V) (field ty member : Nm) (dflt : V) : Option V :=
  match v with
  | .imm (.struct _ fs) =>
    match assoc field fs with
    | some (.imm (.struct t gs)) => if t == ty then assoc member gs else some dflt
    | some .nil => some dflt
    | _ => none
  | _ => none

/-- Accessors used by the code. -/
def getter (v : V) (m : Nm) : Option V :=
  if m == n!"GetModRevision" then oneof v n!"TargetUnion" n!"Compare_ModRevision" n!"ModRevision" (.int 0)
  else if m == n!"GetRequestPut" then oneof v n!"Request" n!"RequestOp_RequestPut" n!"RequestPut" .nil
  else if m == n!"GetRequestRange" then oneof v n!"Request" n!"RequestOp_RequestRange" n!"RequestRange" .nil
  else if m == n!"GetRequestDeleteRange" then oneof v n!"Request" n!"RequestOp_RequestDeleteRange" n!"RequestDeleteRange" .nil
  else none

/-- Methods of counters, spans and loggers: the number of results, all of no interest. -/
def quiet (m : Nm) : Bool := elemNm m [n!"Add", n!"RecordError", n!"End", n!"SetAttributes", n!"AddEvent", n!"Tracef", n!"Debugf", n!"Errorf",
  n!"WithError", n!"Warning", n!"Trace"]

/-- Packages of attributes. -/
def attrs (m : Nm) : Bool := elemNm m [n!"String", n!"Int64", n!"Bool", n!"Now", n!"Int"]

/-- Variables that hold counters and tracers, and the logging and tracing packages. -/
def quietPkg (p : Nm) : Bool := elemNm p [n!"logrus", n!"createCnt", n!"updateCnt", n!"deleteCnt", n!"getCnt", n!"listCnt", n!"compactCnt",
  n!"compactBatchCnt", n!"getCompactRevCnt", n!"deleteRevCnt", n!"currentRevCnt", n!"backendCompactCnt", n!"watcherGroupCnt"]

/-- The error an `fmt.Errorf` carries: the first error among the arguments; an error of its own otherwise. -/
def errorfV : List V → ApiErr
  | [] => .unsupported
  | .ext (.err e) :: _ => e
  | _ :: l => errorfV l

/-- Calls of functions with no effect on the answer, and `fmt.Errorf`. -/
def quietFunc (p m : Nm) (args : List V) : Option (List V) :=
  if quietPkg p && quiet m then some [.tok]
  else if (p == n!"otelTracer" || p == n!"backendOtelTracer") && m == n!"Start" then some [.tok, .tok]
  else if p == n!"attribute" && attrs m then some [.tok]
  else if p == n!"time" && attrs m then some [.tok]
  else if p == 0 && (m == n!"recordOpResult" || m == n!"recordTxResult") then some []
  else if p == n!"fmt" && m == n!"Sprintf" then some [.tok]
  else if p == n!"fmt" && m == n!"Errorf" then some [.ext (.err (errorfV args))]
  else none

/-- Numbers of the protobuf constants used by the code, and names of tracers. -/
def constV (p n : Nm) : Option V :=
  if p == n!"etcdserverpb" then
    if n == n!"Compare_MOD" then some (.int 2)
    else if n == n!"Compare_VERSION" then some (.int 0)
    else if n == n!"Compare_EQUAL" then some (.int 0)
    else none
  else if p == n!"limited" && n == n!"ErrCompacted" then some (.ext (.err .compacted))
  else if p == 0 && (n == n!"otelName" || n == n!"backendOtelName") then some .tok
  else none

/-- What the backend does, in continuation passing style: the answers, or the error. -/
structure BackendOps (R : Type) where
  create : Bytes → Bytes → Int → (Int → Bool → R) → (ApiErr → R) → R
  update : Bytes → Bytes → Int → Int → (Int → Bool → R) → (ApiErr → R) → R
  delete : Bytes → Int → (Int → Bool → R) → (ApiErr → R) → R
  list : Bytes → Bytes → Int → Int → (Int → List KV → R) → (ApiErr → R) → R
  count : Bytes → Bytes → Int → (Int → Int → R) → (ApiErr → R) → R

/-- Calls of functions and methods of the same package: name of the type of the receiver (0 for functions), name of the function, receiver
and arguments. Pointers in the results are resolved. -/
abbrev Calls (R : Type) := Nm → Nm → List V → (List V → R) → R

/-- The interface `Backend`. -/
def backendV : V := .struct n!"Backend" []

/-- `*LimitedServer`. -/
def limitedV : V := msg n!"LimitedServer" [(n!"backend", backendV), (n!"notifyInterval", .tok)]

/-- Byte slices as arguments; nil is empty. -/
def decBytes : V → Option Bytes
  | .bytes b => some b
  | .nil => some []
  | _ => none

/-- Calls of the backend. Values beside an error are of no interest. -/
def backendCall {R : Type} (stuck : R) (B : BackendOps R) (m : Nm) (args : List V) (k : List V → R) : R :=
  match args with
  | [_, a, b, .int n] =>
    match decBytes a, decBytes b with
    | some a, some b =>
      if m == n!"Create" then B.create a b n (fun rev ok => k [.int rev, .bool ok, .nil]) fun e => k [.tok, .tok, .ext (.err e)]
      else if m == n!"Count" then B.count a b n (fun rev c => k [.int rev, .int c, .nil]) fun e => k [.tok, .tok, .ext (.err e)]
      else stuck
    | _, _ => stuck
  | [_, a, b, .int n, .int l] =>
    match decBytes a, decBytes b with
    | some a, some b =>
      if m == n!"Update" then B.update a b n l (fun rev ok => k [.int rev, .bool ok, .nil]) fun e => k [.tok, .tok, .ext (.err e)]
      else if m == n!"List" then
        B.list a b n l (fun rev kvs => k [.int rev, .list (kvs.map encKV), .nil]) fun e => k [.tok, .tok, .ext (.err e)]
      else stuck
    | _, _ => stuck
  | [_, a, .int n] =>
    match decBytes a with
    | some a =>
      if m == n!"Delete" then B.delete a n (fun rev ok => k [.int rev, .bool ok, .nil]) fun e => k [.tok, .tok, .ext (.err e)]
      else stuck
    | none => stuck
  | _ => stuck

/-- The host of the functions of `pkg/limited`. -/
def limitedHost {R : Type} (ct : Control Ext R) (B : BackendOps R) (L : Calls R) : Host Ext R :=
  { ctl := ct
    fuel := 0
    zero := fun _ n => zeroMsg n
    glob := constV
    meth := fun v m as s k =>
      match getter v m with
      | some w => k [w] s
      | none =>
        match v with
        | .tok => if quiet m then k [.tok] s else ct.stuck
        | .struct _ _ => backendCall ct.stuck B m as fun vs => k vs s
        | .imm (.struct ty _) => L ty m (v :: as) fun vs => k vs s
        | _ => ct.stuck
    func := fun p m as s k =>
      match quietFunc p m as with
      | some vs => k vs s
      | none => if p == 0 then L 0 m as fun vs => k vs s else ct.stuck }

/-- `*KVServerBridge`. -/
def bridgeV : V := msg n!"KVServerBridge" [(n!"limited", limitedV)]

/-- Replace pointers to allocated structs and their fields by what they point to. -/
def deep (s : Store Ext) : Nat → V → V
  | 0, v => v
  | n + 1, v =>
    match v with
    | .ptr (.obj i) p =>
      match (nth s.objs i).bind fun w => w.getPath p with
      | some w => .imm (deep s n w)
      | none => v
    | .struct t fs => .struct t (fs.map fun f => (f.1, deep s n f.2))
    | .list vs => .list (vs.map (deep s n))
    | v => v

/-- A final continuation that only sees data. -/
def done {R : Type} (K : List V → R) : List V → Store Ext → R := fun vs s => K (vs.map (deep s 16))

/-- The type of the receiver of a function, 0 for functions without one. -/
def FuncDecl.recvTy (f : FuncDecl) : Nm :=
  match f.recv with
  | [(_, .ptr (.name _ n))] => n
  | [(_, .name _ n)] => n
  | _ => 0

/-- Function of a name among texts. -/
def findFunc (ty m : Nm) : List FuncDecl → Option FuncDecl
  | [] => none
  | f :: fs => if f.name == m && f.recvTy == ty then some f else findFunc ty m fs

/-- Calls by the texts of the functions, nested at most `n` deep. -/
def textCalls {R : Type} (stuck : R) (host : Calls R → Host Ext R) (fs : List FuncDecl) : Nat → Calls R
  | 0 => fun _ _ _ _ => stuck
  | n + 1 => fun ty m args k =>
    match findFunc ty m fs with
    | some f => f.run (host (textCalls stuck host fs n)) args (done k)
    | none => stuck

/-- The same calls with some of them replaced, to stop evaluation in proofs. -/
def over {R : Type} (stops : List Nm) (T L : Calls R) : Calls R := fun ty m => if elemNm m stops then T ty m else L ty m

end Verif.Go
