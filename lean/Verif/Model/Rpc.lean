import Verif.Model.System
/-!
# The whole request surface of the server: `/repo/pkg/limited/{server,lease,maintenance}.go`

Every unary or streaming method the server registers, except `Watch` (see `Model/Stream`).
-/

namespace Verif

/-- The requests of the etcd services `KV`, `Lease` and `Maintenance`; arguments no method looks at are left out. -/
inductive Rpc where
  | range (r : RangeReq)
  | put (r : PutReq)
  | deleteRange (r : DeleteReq)
  | txn (t : TxnReq)
  | compact (revision : Int)
  | leaseGrant (id ttl : Int)
  | leaseRevoke (id : Int)
  | leaseKeepAlive (id : Int)
  | leaseTimeToLive (id : Int)
  | leaseLeases
  | alarm
  | status
  | defragment
  | hash
  | hashKV (revision : Int)
  | snapshot
  | moveLeader (target : Int)
  | downgrade
deriving DecidableEq, Repr

/-- The answers. -/
inductive RpcResp where
  | range (r : RangeResp)
  | txn (r : TxnResp)
  | compact (revision : Int)
  | lease (id ttl : Int)
  | status (dbSize : Int) (version : String)
deriving DecidableEq, Repr

/-- `(*Driver).GetSize` (`/repo/pkg/backend/sqlite/driver.go:789-808`) behind `Backend.DbSize` and
`(*LimitedServer).dbSize` (`/repo/pkg/limited/dbsize.go`). The size of the database file is not part of the model of the
database: `size` is any function. -/
def Driver.getSize (size : DB → Int) : Prog (Except ApiErr Int) :=
  (query size).andThen oneRow

/-- `emulatedEtcdVersion` (`/repo/pkg/limited/maintenance.go:14`). -/
def emulatedEtcdVersion : String := "3.5.13"

/-- The methods of `KVServerBridge` (`/repo/pkg/limited/server.go:36-144`, `lease.go:10-32`, `maintenance.go:16-54`). -/
def Rpc.handle (v1 : Bool) (size : DB → Int) : Rpc → Prog (Except ApiErr RpcResp)
  | .range r => (Bridge.range v1 r).andThen fun x => .ret (.ok (.range x))
  | .put r => (Bridge.put r).andThen fun _ => .ret (.error .unsupported)
  | .deleteRange r => (Bridge.deleteRange r).andThen fun _ => .ret (.error .unsupported)
  | .txn t => (Limited.txn v1 t).andThen fun x => .ret (.ok (.txn x))
  | .compact revision => (Bridge.compact revision).andThen fun x => .ret (.ok (.compact x))
  | .leaseGrant _ ttl => .ret (.ok (.lease ttl ttl))
  | .leaseRevoke _ => .ret (.error .unsupported)
  | .leaseKeepAlive _ => .ret (.error .unsupported)
  | .leaseTimeToLive _ => .ret (.error .unsupported)
  | .leaseLeases => .ret (.error .unsupported)
  | .alarm => .ret (.error .unsupported)
  | .status => (Driver.getSize size).andThen fun n => .ret (.ok (.status n emulatedEtcdVersion))
  | .defragment => .ret (.error .unsupported)
  | .hash => .ret (.error .unsupported)
  | .hashKV _ => .ret (.error .unsupported)
  | .snapshot => .ret (.error .unsupported)
  | .moveLeader _ => .ret (.error .unsupported)
  | .downgrade => .ret (.error .unsupported)

end Verif
