import Verif.Model.GoHost
import Verif.Model.GoTextClient
/-!
# Running the texts of `/repo/pkg/client/client.go` and `/repo/pkg/migrator`

The texts run as trees (`Cl`) of requests to the server and of what they do to files; `runCl` runs a tree as a program of the database (`Prog`), with the
network of `Model/Client.lean`, and `runEt` runs it against an etcd server that is given by its history.

Simplifications: a connection is made or not (addresses are not looked at); `fmt.Errorf` gives back the error it wraps; modes of files and the messages of the
log are of no interest; `OpOption`s are applied in their order (`clientv3.OpGet`), `If`, `Then`, `Else` are called at most once.
-/

namespace Verif.Go

open Verif.GoText.Client

/-- What the texts do, and what they do next. -/
inductive Cl where
  | stuck
  | ret (vs : List V)
  /-- `New` of the library or of the etcd client -/
  | connect (ok : Cl) (er : CliErr → Cl)
  | close (k : Cl)
  /-- requests -/
  | range (r : RangeReq) (ok : List KV → Cl) (er : CliErr → Cl)
  | txn (t : TxnReq) (ok : Bool → Cl) (er : CliErr → Cl)
  | put (p : PutReq) (ok : Cl) (er : CliErr → Cl)
  /-- read the key file or the data file `i` -/
  | read (data : Bool) (i : Int) (ok : Bytes → Cl) (missing io : Cl)
  | mkdir (ok io : Cl)
  | write (data : Bool) (i : Int) (b : Bytes) (ok io : Cl)
  | sleep (d : Int) (k : Cl)

/-- An object. -/
def clV (o : ClObj) : V := .ext (.cl o)

/-- An error of the library. -/
def cliErrV (e : CliErr) : V := clV (.err e)

/-- `clientv3.OpGet(key, opts...)` (`WithPrefix` of the empty key is a range from `"\x00"` to `"\x00"`; `WithSort` of keys in ascending order is no sorting). -/
def rangeReqOf : RangeReq → List V → Option RangeReq
  | r, [] => some r
  | r, .ext (.cl .withPrefix) :: os =>
    rangeReqOf (match r.key with | [] => { r with key := [0], rangeEnd := [0] } | k => { r with rangeEnd := prefixEnd k }) os
  | r, .ext (.cl (.withRev n)) :: os => rangeReqOf { r with revision := n } os
  | r, .ext (.cl (.withSort t o)) :: os => rangeReqOf { r with sortTarget := t, sortOrder := if t = 0 ∧ o = 1 then 0 else o } os
  | _, _ => none

/-- Comparisons. -/
def cmpsOf : List V → Option (List Compare)
  | [] => some []
  | .ext (.cl (.cmp c)) :: vs => (cmpsOf vs).map fun cs => c :: cs
  | _ => none

/-- Operations. -/
def opsOf : List V → Option (List ReqOp)
  | [] => some []
  | .ext (.cl (.op o)) :: vs => (opsOf vs).map fun os => o :: os
  | _ => none

/-- `clientv3.Compare` of a mod revision. -/
def compareOf (c : Compare) (op : Bytes) (n : Int) : Option Compare :=
  match c.target with
  | .mod =>
    if op = [61] then some { c with result := .equal, union := .modRevision n }
    else if op = [62] then some { c with result := .greater, union := .modRevision n }
    else if op = [60] then some { c with result := .less, union := .modRevision n }
    else if op = [33, 61] then some { c with result := .notEqual, union := .modRevision n }
    else none
  | _ => none

/-- The error that `fmt.Errorf` wraps; the only one without is `revision %d doesnt match` (`client.go:128,143`). -/
def errorfCl : List V → Option V
  | [] => none
  | .ext (.cl (.err e)) :: _ => some (cliErrV e)
  | .ext (.cl .notExist) :: _ => some (clV .notExist)
  | .ext (.cl .ioErr) :: _ => some (clV .ioErr)
  | [.int n] => some (cliErrV (.mismatch n))
  | _ :: l => errorfCl l

/-- `filepath.Join(dir, fmt.Sprintf("%d.key", i))` and the same with `%d.data`. -/
def fileNameOf : List V → Option V
  | [.ext (.cl .dir), .list [.bytes b, .int i]] =>
    if b = [37, 100, 46, 107, 101, 121] then some (clV (.name false i))
    else if b = [37, 100, 46, 100, 97, 116, 97] then some (clV (.name true i))
    else none
  | _ => none

/-- `GetResponse`, `TxnResponse`. -/
def getRespV (kvs : List KV) : V := msg n!"GetResponse" [(n!"Kvs", .list (kvs.map encKV))]
/-- Same. -/
def txnRespV (ok : Bool) : V := msg n!"TxnResponse" [(n!"Succeeded", .bool ok)]

/-- Methods of objects. -/
def methCl (L : Calls Cl) (x : ClObj) (m : Nm) (as : List V) (s : Store Ext) (k : List V → Store Ext → Cl) : Cl :=
  match x with
  | .client => if m == n!"Close" then .close (k [.nil] s) else L n!"client" m (clV .client :: as) fun vs => k vs s
  | .etcd =>
    if m == n!"Close" then .close (k [.nil] s)
    else if m == n!"Txn" then k [clV (.txn [] [] [])] s
    else if m == n!"Get" then
      match as with
      | _ :: .bytes key :: os =>
        match rangeReqOf { key := key } os with
        | some r => .range r (fun kvs => k [getRespV kvs, .nil] s) fun e => k [.nil, cliErrV e] s
        | none => .stuck
      | _ => .stuck
    else if m == n!"Put" then
      match as with
      | [_, .bytes key, .bytes v] => .put { key := key, value := v } (k [.tok, .nil] s) fun e => k [.nil, cliErrV e] s
      | _ => .stuck
    else .stuck
  | .txn c t e =>
    if m == n!"If" then match cmpsOf as with | some cs => k [clV (.txn (c ++ cs) t e)] s | none => .stuck
    else if m == n!"Then" then match opsOf as with | some os => k [clV (.txn c (t ++ os) e)] s | none => .stuck
    else if m == n!"Else" then match opsOf as with | some os => k [clV (.txn c t (e ++ os))] s | none => .stuck
    else if m == n!"Commit" then .txn { compare := c, success := t, failure := e } (fun ok => k [txnRespV ok, .nil] s) fun e => k [.nil, cliErrV e] s
    else .stuck
  | _ => .stuck

/-- `clientv3.f(…)`. -/
def funcEtcd (m : Nm) (as : List V) (s : Store Ext) (k : List V → Store Ext → Cl) : Cl :=
  match as with
  | [] => if m == n!"WithPrefix" then k [clV .withPrefix] s else .stuck
  | [.int n] => if m == n!"WithRev" then k [clV (.withRev n)] s else .stuck
  | [.int t, .int o] => if m == n!"WithSort" then k [clV (.withSort t o)] s else .stuck
  | [.bytes key] =>
    if m == n!"ModRevision" then k [clV (.cmp { result := .equal, target := .mod, key := key, union := .unset })] s
    else if m == n!"OpGet" then k [clV (.op (.range { key := key }))] s
    else if m == n!"OpDelete" then k [clV (.op (.deleteRange { key := key }))] s
    else .stuck
  | [.bytes key, .bytes v] => if m == n!"OpPut" then k [clV (.op (.put { key := key, value := v }))] s else .stuck
  | [.ext (.cl (.cmp c)), .bytes o, .int n] =>
    if m == n!"Compare" then match compareOf c o n with | some c => k [clV (.cmp c)] s | none => .stuck
    else .stuck
  | [.struct _ _] => if m == n!"New" then .connect (k [clV .etcd, .nil] s) fun e => k [.nil, cliErrV e] s else .stuck
  | _ => .stuck

/-- Functions of `os`. -/
def funcOs (m : Nm) (as : List V) (s : Store Ext) (k : List V → Store Ext → Cl) : Cl :=
  match as with
  | [.ext (.cl (.name d i))] =>
    if m == n!"ReadFile" then .read d i (fun b => k [.bytes b, .nil] s) (k [.nil, clV .notExist] s) (k [.nil, clV .ioErr] s) else .stuck
  | [.ext (.cl (.name d i)), .bytes b, _] => if m == n!"WriteFile" then .write d i b (k [.nil] s) (k [clV .ioErr] s) else .stuck
  | [.ext (.cl .dir), _] => if m == n!"MkdirAll" then .mkdir (k [.nil] s) (k [clV .ioErr] s) else .stuck
  | _ => .stuck

/-- Functions of libraries and of the packages. -/
def funcCl (L : Calls Cl) (p m : Nm) (as : List V) (s : Store Ext) (k : List V → Store Ext → Cl) : Cl :=
  if p == n!"clientv3" then funcEtcd m as s k
  else if p == n!"os" then funcOs m as s k
  else if p == n!"client" && m == n!"New" then .connect (k [clV .client, .nil] s) fun e => k [.nil, cliErrV e] s
  else if p == n!"fmt" && m == n!"Sprintf" then k [.list as] s
  else if p == n!"fmt" && m == n!"Errorf" then match errorfCl as with | some e => k [e] s | none => .stuck
  else if p == n!"filepath" && m == n!"Join" then match fileNameOf as with | some v => k [v] s | none => .stuck
  else if p == n!"errors" && m == n!"Is" then
    match as with
    | [.ext a, .ext b] => k [.bool (decide (a = b))] s
    | _ => .stuck
  else if p == n!"logrus" then k [.tok] s
  else if p == n!"time" && m == n!"Sleep" then
    match as with
    | [.int d] => .sleep d (k [] s)
    | _ => .stuck
  else if p == 0 then L 0 m as fun vs => k vs s
  else .stuck

/-- What the texts find around them; `ct` is the meaning of loops. -/
def clientHost (ct : Control Ext Cl) (N : Nat) (L : Calls Cl) : Host Ext Cl :=
  { ctl := ct
    fuel := N
    zero := fun p n =>
      if p == 0 && n == n!"Value" then some (.struct n [(n!"Key", .bytes []), (n!"Data", .bytes []), (n!"Modified", .int 0)])
      else if p == n!"clientv3" && n == n!"Config" || p == n!"k8s_dqlite_endpoint" && n == n!"ETCDConfig" then some (.struct n [(n!"Endpoints", .list [])])
      else if p == n!"logrus" && n == n!"Fields" then some (.struct n [(0, .tok)])
      else none
    glob := fun p n =>
      if (p == 0 || p == n!"client") && n == n!"ErrNotFound" then some (cliErrV .notFound)
      else if (p == 0 || p == n!"client") && n == n!"ErrKeyExists" then some (cliErrV .keyExists)
      else if p == n!"fs" && n == n!"ErrNotExist" then some (clV .notExist)
      else if p == n!"time" && n == n!"Millisecond" then some (.int 1000000)
      else if p == n!"clientv3" && n == n!"SortByKey" then some (.int 0)
      else if p == n!"clientv3" && n == n!"SortDescend" then some (.int 2)
      else none
    meth := fun v m as s k =>
      match v with
      | .ext (.cl x) => methCl L x m as s k
      | .tok => k [.tok] s
      | _ => .stuck
    func := funcCl L
    field := fun x f s k =>
      match x with
      | .cl .client => if f == n!"c" then k (clV .etcd) s else .stuck
      | _ => .stuck }

/-- The texts. -/
def clientFuncs : List FuncDecl := [f_List, f_Get, f_Put, f_Create, f_Update, f_Delete, f_putKey, f_keyFileName, f_dataFileName]

/-- Calls of functions of the packages. -/
def clientCalls (ct : Control Ext Cl) (N : Nat) : Nat → Calls Cl := textCalls .stuck (clientHost ct N) clientFuncs

/-- A function with calls of the texts. -/
def clientGo (N : Nat) (f : FuncDecl) (args : List V) : Cl :=
  f.run (clientHost (Control.std .stuck) N (clientCalls (Control.std .stuck) N 4)) args (done .ret)

/-- `List(ctx, key, rev)`. -/
def listGo (N : Nat) (key : Bytes) (rev : Int) : Cl := clientGo N f_List [clV .client, .tok, .bytes key, .int rev]
/-- `Get(ctx, key)`. -/
def getGo (N : Nat) (key : Bytes) : Cl := clientGo N f_Get [clV .client, .tok, .bytes key]
/-- `Create(ctx, key, value)`. -/
def createGo (N : Nat) (key value : Bytes) : Cl := clientGo N f_Create [clV .client, .tok, .bytes key, .bytes value]
/-- `Update(ctx, key, revision, value)`. -/
def updateGo (N : Nat) (key : Bytes) (rev : Int) (value : Bytes) : Cl := clientGo N f_Update [clV .client, .tok, .bytes key, .int rev, .bytes value]
/-- `Delete(ctx, key, revision)`. -/
def deleteGo (N : Nat) (key : Bytes) (rev : Int) : Cl := clientGo N f_Delete [clV .client, .tok, .bytes key, .int rev]
/-- `Put(ctx, key, value)`. -/
def putGo (N : Nat) (key value : Bytes) : Cl := clientGo N f_Put [clV .client, .tok, .bytes key, .bytes value]
/-- `putKey(ctx, c, key, value)`. -/
def putKeyGo (N : Nat) (key value : Bytes) : Cl := clientGo N f_putKey [.tok, clV .client, .bytes key, .bytes value]
/-- `BackupDqlite`, `RestoreToDqlite`, `BackupEtcd`, `RestoreToEtcd` `(ctx, endpoint, dir)`. -/
def migrateGo (N : Nat) (f : FuncDecl) (endpoint : Bytes) : Cl := clientGo N f [.tok, .bytes endpoint, clV .dir]

/-! ### Running trees -/

/-- What the network and the file system do: the fate of a request, by the entry of the backup it is for, how many attempts are left and how many requests the
attempt has made; can connections be made; does `MkdirAll` succeed; what becomes of files that are written; which key files cannot be read. -/
structure ClEnv where
  fate : Nat → Nat → Nat → Fate
  conn : Option CliErr := none
  mkdir : Bool := true
  files : Nat → FileFate × FileFate := fun _ => (.written, .written)
  bad : Nat → Bool := fun _ => false

/-- The directory, where the run is (as above), open connections. -/
structure ClSt where
  dir : BDir := []
  idx : Nat := 0
  att : Nat := 5
  req : Nat := 0
  conns : Nat := 0

/-- The end of a run: the directory, open connections, the answer. -/
structure ClEnd where
  dir : BDir
  conns : Nat
  answer : List V

/-- Contents of a file; missing entries are missing files. -/
def fileAt (d : BDir) (data : Bool) (i : Nat) : Option Bytes :=
  match d[i]? with
  | some e => if data then e.2 else e.1
  | none => none

/-- Change a file; the directory gets as long as needed. -/
def fileSet (data : Bool) (b : Option Bytes) : Nat → BDir → BDir
  | 0, d =>
    let old := (d.head?).getD (none, none)
    (if data then (old.1, b) else (b, old.2)) :: d.tail
  | i + 1, d => (d.head?).getD (none, none) :: fileSet data b i d.tail

/-- Writing a file. -/
def writeFile (v : ClEnv) (data : Bool) (i : Nat) (b : Bytes) (d : BDir) : Bool × BDir :=
  match (if data then (v.files i).2 else (v.files i).1) with
  | .written => (true, fileSet data (some b) i d)
  | .failed l => (false, fileSet data l i d)

/-- Run a tree to its end as a program of the database; requests other than those of the library get stuck. -/
def runCl (v1 : Bool) (v : ClEnv) : Cl → ClSt → Prog (Option ClEnd)
  | .stuck, _ => .ret none
  | .ret vs, s => .ret (some ⟨s.dir, s.conns, vs⟩)
  | .connect ok er, s =>
    match v.conn with
    | none => runCl v1 v ok { s with conns := s.conns + 1 }
    | some e => runCl v1 v (er e) s
  | .close k, s => runCl v1 v k { s with conns := s.conns - 1 }
  | .range r ok er, s => (rpc (v.fate s.idx s.att s.req) (Bridge.range v1 r)).bind fun
    | .ok resp => runCl v1 v (ok resp.kvs) { s with req := s.req + 1 }
    | .error e => runCl v1 v (er e) { s with req := s.req + 1 }
  | .txn t ok er, s => (rpc (v.fate s.idx s.att s.req) (Limited.txn v1 t)).bind fun
    | .ok resp => runCl v1 v (ok resp.succeeded) { s with req := s.req + 1 }
    | .error e => runCl v1 v (er e) { s with req := s.req + 1 }
  | .put _ _ _, _ => .ret none
  | .read data i ok missing io, s =>
    let s := if data then s else { s with idx := i.toNat, att := 5, req := 0 }
    if !data && v.bad i.toNat then runCl v1 v io s
    else
      match fileAt s.dir data i.toNat with
      | some b => runCl v1 v (ok b) s
      | none => runCl v1 v missing s
  | .mkdir ok io, s => if v.mkdir then runCl v1 v ok s else runCl v1 v io s
  | .write data i b ok io, s =>
    let (w, d) := writeFile v data i.toNat b s.dir
    if w then runCl v1 v ok { s with dir := d } else runCl v1 v io { s with dir := d }
  | .sleep _ k, s => runCl v1 v k { s with att := s.att - 1, req := 0 }

/-- Run a tree against an etcd server with a history: reads get `answer` of it, puts become commits; the answer of a put whose fate is not to be delivered is
an error. -/
def runEt (answer : History → RangeReq → Except CliErr (List KV)) (v : ClEnv) : Cl → ClSt → History → Option (ClEnd × History)
  | .stuck, _, _ => none
  | .ret vs, s, h => some (⟨s.dir, s.conns, vs⟩, h)
  | .connect ok er, s, h =>
    match v.conn with
    | none => runEt answer v ok { s with conns := s.conns + 1 } h
    | some e => runEt answer v (er e) s h
  | .close k, s, h => runEt answer v k { s with conns := s.conns - 1 } h
  | .range r ok er, s, h =>
    match answer h r with
    | .ok kvs => runEt answer v (ok kvs) s h
    | .error e => runEt answer v (er e) s h
  | .txn _ _ _, _, _ => none
  | .put p ok er, s, h =>
    match v.fate s.idx s.att s.req with
    | .delivered => runEt answer v ok { s with req := s.req + 1 } (Etcd.op h (.put p)).1
    | .answerLost => runEt answer v (er .transport) { s with req := s.req + 1 } (Etcd.op h (.put p)).1
    | .requestLost => runEt answer v (er .transport) { s with req := s.req + 1 } h
  | .read data i ok missing io, s, h =>
    let s := if data then s else { s with idx := i.toNat, att := 5, req := 0 }
    if !data && v.bad i.toNat then runEt answer v io s h
    else
      match fileAt s.dir data i.toNat with
      | some b => runEt answer v (ok b) s h
      | none => runEt answer v missing s h
  | .mkdir ok io, s, h => if v.mkdir then runEt answer v ok s h else runEt answer v io s h
  | .write data i b ok io, s, h =>
    let (w, d) := writeFile v data i.toNat b s.dir
    if w then runEt answer v ok { s with dir := d } h else runEt answer v io { s with dir := d } h
  | .sleep _ k, s, h => runEt answer v k { s with att := s.att - 1, req := 0 } h

end Verif.Go
