import Verif.Model.System
import Verif.Spec.Trace
import Verif.Spec.Etcd
/-!
# `pkg/client` and `pkg/migrator`

The client library talks to a server over gRPC; every method is a program of server requests. A request may be
lost on the way, or its answer may be lost on the way back (`Fate`). The etcd client's own retries of *reads*
are not modelled (they change nothing).
-/

namespace Verif

/-- What the network does to one request: delivers it and its answer, loses the request, or loses the answer
(the server has executed the request). -/
inductive Fate where
  | delivered | requestLost | answerLost
deriving DecidableEq, Repr

/-- Errors of the client library (`/repo/pkg/client/client.go:19-22`): `server` is an error returned by the
server, `transport` one made by the network, `mismatch` the formatted "revision %d doesnt match". -/
inductive CliErr where
  | notFound | keyExists | mismatch (rev : Int) | server (e : ApiErr) | transport
deriving DecidableEq, Repr

/-- One remote call of server request `p`. -/
def rpc {α : Type} (f : Fate) (p : Prog (Except ApiErr α)) : Prog (Except CliErr α) :=
  match f with
  | .delivered => p.map fun r => r.mapError CliErr.server
  | .requestLost => .ret (.error .transport)
  | .answerLost => p.map fun _ => .error .transport

/-- `client.Value` (`client.go:13-17`). -/
structure CliValue where
  key : Bytes
  data : Bytes
  modified : Int
deriving DecidableEq, Repr

/-- `Value{Key: kv.Key, Data: kv.Value, Modified: kv.ModRevision}` (`client.go:66-70,83-87`). -/
def CliValue.ofKV (kv : KV) : CliValue := { key := kv.key, data := kv.value, modified := kv.modRev }

/-- The increment loop of `getPrefix` in the etcd client (`clientv3.WithPrefix`): drop trailing `0xff` bytes,
increment the last remaining byte; `none` when nothing remains. Works on the reversed key. -/
def prefixEndRev : List UInt8 → Option (List UInt8)
  | [] => none
  | b :: bs => if b < 0xff then some ((b + 1) :: bs) else prefixEndRev bs

/-- `clientv3.GetPrefixRangeEnd`: a key of only `0xff` bytes gives `"\x00"` ("no end"). -/
def prefixEnd (key : Bytes) : Bytes :=
  match prefixEndRev key.reverse with
  | some r => r.reverse
  | none => [0]

/-- `(*client).List` (`client.go:58-74`). `clientv3.WithPrefix` on an empty key asks for `["\x00", "\x00")`,
which no caller in the repository does. -/
def Client.list (v1 : Bool) (f : Fate) (key : Bytes) (rev : Int) : Prog (Except CliErr (List CliValue)) :=
  (rpc f (Bridge.range v1 { key := key, rangeEnd := prefixEnd key, revision := rev })).andThen fun resp =>
    .ret (.ok (resp.kvs.map CliValue.ofKV))

/-- `(*client).Get` (`client.go:76-91`). -/
def Client.get (v1 : Bool) (f : Fate) (key : Bytes) : Prog (Except CliErr CliValue) :=
  (rpc f (Bridge.range v1 { key := key })).andThen fun resp =>
    match resp.kvs with
    | [kv] => .ret (.ok (CliValue.ofKV kv))
    | _ => .ret (.error .notFound)

/-- `(*client).Create` (`client.go:104-116`). -/
def Client.create (v1 : Bool) (f : Fate) (key value : Bytes) : Prog (Except CliErr Unit) :=
  (rpc f (Limited.txn v1 (createTxn key value 0))).andThen fun resp =>
    if resp.succeeded then .ret (.ok ()) else .ret (.error .keyExists)

/-- `(*client).Update` (`client.go:118-131`). -/
def Client.update (v1 : Bool) (f : Fate) (key : Bytes) (rev : Int) (value : Bytes) :
    Prog (Except CliErr Unit) :=
  (rpc f (Limited.txn v1 (updateTxn key rev value 0))).andThen fun resp =>
    if resp.succeeded then .ret (.ok ()) else .ret (.error (.mismatch rev))

/-- `(*client).Delete` (`client.go:133-146`). -/
def Client.delete (v1 : Bool) (f : Fate) (key : Bytes) (rev : Int) : Prog (Except CliErr Unit) :=
  (rpc f (Limited.txn v1 (deleteTxn key rev))).andThen fun resp =>
    if resp.succeeded then .ret (.ok ()) else .ret (.error (.mismatch rev))

/-- `(*client).Put` (`client.go:93-102`): `f 0` is the fate of the read, `f 1` that of the write. -/
def Client.put (v1 : Bool) (f : Nat → Fate) (key value : Bytes) : Prog (Except CliErr Unit) :=
  (Client.get v1 (f 0) key).andThen fun val =>
    if val.modified = 0 then Client.create v1 (f 1) key value
    else Client.update v1 (f 1) key val.modified value

/-- The loop `for i := 0; i < 5 && err != nil; i++` of `putKey` (`/repo/pkg/migrator/util.go:20-27`), entered
with error `err`; `n` attempts remain. -/
def putLoop (v1 : Bool) (f : Nat → Nat → Fate) (key value : Bytes) (err : CliErr) :
    Nat → Prog (Except CliErr Unit)
  | 0 => .ret (.error err)
  | n + 1 => (Client.put v1 (f n) key value).bind fun
    | .ok () => .ret (.ok ())
    | .error e => putLoop v1 f key value e n

/-- `putKey` (`util.go:12-29`): `f 5 0` is the fate of the create, `f n` those of the attempt with `n` more to
go. -/
def putKey (v1 : Bool) (f : Nat → Nat → Fate) (key value : Bytes) : Prog (Except CliErr Unit) :=
  (Client.create v1 (f 5 0) key value).bind fun
    | .ok () => .ret (.ok ())
    | .error .keyExists => putLoop v1 f key value .keyExists 5
    | .error e => .ret (.error e)

/-- The backup directory: entry `i` holds the contents of the files `i.key` and `i.data`
(`/repo/pkg/migrator/migrator.go:16-22`), `none` when the file does not exist. -/
abbrev BDir := List (Option Bytes × Option Bytes)

/-- What the file system does to one `os.WriteFile`: it succeeds, or it fails and leaves the file with the
given contents (or without a file). -/
inductive FileFate where
  | written | failed (left : Option Bytes)
deriving DecidableEq, Repr

/-- The loop of `BackupEtcd` and `BackupDqlite` (`migrator.go:41-49,105-113`) from index `idx` on, where `d` are
the entries of the directory from there on. -/
def writeFiles (fs : Nat → FileFate × FileFate) : Nat → List (Bytes × Bytes) → BDir → Bool × BDir
  | _, [], d => (true, d)
  | idx, (k, v) :: kvs, d =>
    let old := (d.head?).getD (none, none)
    match fs idx with
    | (.failed l, _) => (false, (l, old.2) :: d.tail)
    | (.written, .failed l) => (false, (some k, l) :: d.tail)
    | (.written, .written) =>
      let (ok, rest) := writeFiles fs (idx + 1) kvs d.tail
      (ok, (some k, some v) :: rest)

/-- `BackupDqlite` (`migrator.go:90-114`): the answer is whether it succeeded, and the directory afterwards.
`mk` is the fate of `os.MkdirAll` (existing entries stay), `fs` the fates of the files. -/
def backupDqlite (v1 : Bool) (f : Fate) (mk : Bool) (fs : Nat → FileFate × FileFate) (d : BDir) :
    Prog (Bool × BDir) :=
  (Client.list v1 f [0x2f] 0).map fun
    | .error _ => (false, d)
    | .ok vals => if mk then writeFiles fs 0 (vals.map fun v => (v.key, v.data)) d else (false, d)

/-- The result of `RestoreToDqlite`. -/
inductive RestoreRes where
  | completed | keyUnreadable | dataUnreadable
deriving DecidableEq, Repr

/-- The loop of `RestoreToDqlite` (`migrator.go:62-86`) from index `idx` on, where `d` are the remaining
entries: it ends at the first missing key file; errors of `putKey` are logged and ignored. `bad i` says that
reading the key file `i` fails with another error. -/
def restoreFrom (v1 : Bool) (f : Nat → Nat → Nat → Fate) (bad : Nat → Bool) :
    Nat → BDir → Prog RestoreRes
  | idx, [] => .ret (if bad idx then .keyUnreadable else .completed)
  | idx, (key, data) :: d =>
    if bad idx then .ret .keyUnreadable
    else
      match key with
      | none => .ret .completed
      | some k =>
        match data with
        | none => .ret .dataUnreadable
        | some v => (putKey v1 (f idx) k v).bind fun _ => restoreFrom v1 f bad (idx + 1) d

/-- `RestoreToDqlite` (`migrator.go:53-87`). -/
def restoreToDqlite (v1 : Bool) (f : Nat → Nat → Nat → Fate) (bad : Nat → Bool) (d : BDir) :
    Prog RestoreRes := restoreFrom v1 f bad 0 d

/-- The loop of `RestoreToEtcd` (`migrator.go:117-152`): unconditional puts to an etcd server given by its
history; a put without delivery fails, which is logged and ignored. -/
def restoreEtcdFrom (f : Nat → Fate) (bad : Nat → Bool) : Nat → BDir → History → RestoreRes × History
  | idx, [], h => (if bad idx then .keyUnreadable else .completed, h)
  | idx, (key, data) :: d, h =>
    if bad idx then (.keyUnreadable, h)
    else
      match key with
      | none => (.completed, h)
      | some k =>
        match data with
        | none => (.dataUnreadable, h)
        | some v =>
          restoreEtcdFrom f bad (idx + 1) d
            (if f idx = .requestLost then h else (Etcd.op h (.put { key := k, value := v })).1)

end Verif
