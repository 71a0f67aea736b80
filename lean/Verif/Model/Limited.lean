import Verif.Model.Backend
/-!
# `pkg/limited`: the etcd API on top of the backend
-/

namespace Verif

/-- `etcdserverpb.RangeRequest`. Enum fields are integers (0 is the default). -/
structure RangeReq where
  key : Bytes
  rangeEnd : Bytes := []
  limit : Int := 0
  revision : Int := 0
  countOnly : Bool := false
  keysOnly : Bool := false
  sortOrder : Int := 0
  sortTarget : Int := 0
  serializable : Bool := false
  minModRevision : Int := 0
  maxModRevision : Int := 0
  minCreateRevision : Int := 0
  maxCreateRevision : Int := 0
deriving DecidableEq, Repr

/-- `RangeResponse` (`/repo/pkg/limited/limited.go:67-72`). -/
structure RangeResp where
  header : Int
  kvs : List KV
  more : Bool := false
  count : Int := 0
deriving DecidableEq, Repr

/-- `etcdserverpb.PutRequest`. -/
structure PutReq where
  key : Bytes
  value : Bytes
  lease : Int := 0
  prevKv : Bool := false
  ignoreValue : Bool := false
  ignoreLease : Bool := false
deriving DecidableEq, Repr

/-- `etcdserverpb.DeleteRangeRequest`. -/
structure DeleteReq where
  key : Bytes
  rangeEnd : Bytes := []
  prevKv : Bool := false
deriving DecidableEq, Repr

/-- `Compare_CompareTarget`. -/
inductive CmpTarget where
  | version | create | mod | value | lease
deriving DecidableEq, Repr

/-- `Compare_CompareResult`. -/
inductive CmpResult where
  | equal | greater | less | notEqual
deriving DecidableEq, Repr

/-- The `TargetUnion` oneof of `etcdserverpb.Compare`. -/
inductive CmpUnion where
  | version (n : Int) | createRevision (n : Int) | modRevision (n : Int) | value (v : Bytes)
  | lease (n : Int) | unset
deriving DecidableEq, Repr

/-- `etcdserverpb.Compare`. -/
structure Compare where
  result : CmpResult
  target : CmpTarget
  key : Bytes
  union : CmpUnion
  rangeEnd : Bytes := []
deriving DecidableEq, Repr

/-- `Compare.GetModRevision()`: 0 unless the oneof holds a mod revision. -/
def Compare.getModRevision (c : Compare) : Int :=
  match c.union with
  | .modRevision n => n
  | _ => 0

/-- `etcdserverpb.RequestOp`; nested transactions are opaque (no shape accepts them). -/
inductive ReqOp where
  | range (r : RangeReq) | put (p : PutReq) | deleteRange (d : DeleteReq) | txn
deriving DecidableEq, Repr

/-- `RequestOp.GetRequestPut()`. -/
def ReqOp.getPut : ReqOp → Option PutReq
  | .put p => some p
  | _ => none
/-- `RequestOp.GetRequestRange()`. -/
def ReqOp.getRange : ReqOp → Option RangeReq
  | .range p => some p
  | _ => none
/-- `RequestOp.GetRequestDeleteRange()`. -/
def ReqOp.getDeleteRange : ReqOp → Option DeleteReq
  | .deleteRange p => some p
  | _ => none

/-- `etcdserverpb.TxnRequest`. -/
structure TxnReq where
  compare : List Compare
  success : List ReqOp
  failure : List ReqOp
deriving DecidableEq, Repr

/-- `etcdserverpb.ResponseOp`. The number of deleted keys is never set by the server (`delete.go:47-56`). -/
inductive RespOp where
  | range (r : RangeResp) | put (header : Int) | deleteRange (header : Int) (deleted : Int := 0)
deriving DecidableEq, Repr

/-- `etcdserverpb.TxnResponse`. -/
structure TxnResp where
  header : Int
  succeeded : Bool
  responses : List RespOp := []
deriving DecidableEq, Repr

/-- `isCreate` (`/repo/pkg/limited/create.go:11-22`). -/
def isCreate (t : TxnReq) : Option PutReq :=
  match t.compare, t.failure, t.success with
  | [c], [], [s] =>
    if c.target = .mod ∧ c.result = .equal ∧ c.getModRevision = 0 then s.getPut else none
  | _, _, _ => none

/-- `isDelete` (`/repo/pkg/limited/delete.go:11-22`): (revision, key). -/
def isDelete (t : TxnReq) : Option (Int × Bytes) :=
  match t.compare, t.failure, t.success with
  | [c], [f], [s] =>
    if c.target = .mod ∧ c.result = .equal ∧ f.getRange.isSome then
      s.getDeleteRange.map fun d => (c.getModRevision, d.key)
    else none
  | _, _, _ => none

/-- `isUpdate` (`/repo/pkg/limited/update.go:11-26`): (revision, key, value, lease). -/
def isUpdate (t : TxnReq) : Option (Int × Bytes × Bytes × Int) :=
  match t.compare, t.failure, t.success with
  | [c], [f], [s] =>
    if c.target = .mod ∧ c.result = .equal ∧ f.getRange.isSome then
      s.getPut.map fun p => (c.getModRevision, c.key, p.value, p.lease)
    else none
  | _, _, _ => none

/-- `isCompact` (`/repo/pkg/limited/compact.go:10-20`). -/
def isCompact (t : TxnReq) : Bool :=
  match t.compare, t.failure, t.success with
  | [c], [f], [s] =>
    decide (c.target = .version) && decide (c.result = .equal) && s.getPut.isSome && f.getRange.isSome
      && decide (c.key = compactRevKey)
  | _, _, _ => false

/-- `(*LimitedServer).get` (`/repo/pkg/limited/get.go:11-34`). -/
def Limited.get (v1 : Bool) (r : RangeReq) : Prog (Except ApiErr RangeResp) :=
  (Backend.list v1 r.key [] 1 r.revision).andThen fun (rev, kvs) =>
    .ret (.ok { header := rev, kvs := kvs })

/-- `(*LimitedServer).list` (`/repo/pkg/limited/list.go:12-84`). The 64-bit wrap of `limit++` at the maximal
limit turns the query into an unlimited one, which returns the same answer as the unbounded integer here. -/
def Limited.list (v1 : Bool) (r : RangeReq) : Prog (Except ApiErr RangeResp) :=
  if r.countOnly then
    (Backend.count v1 r.key r.rangeEnd r.revision).andThen fun (rev, count) =>
      .ret (.ok { header := rev, kvs := [], count := count })
  else
    let limit := if r.limit > 0 then r.limit + 1 else r.limit
    (Backend.list v1 r.key r.rangeEnd limit r.revision).andThen fun (rev, kvs) =>
      if limit > 0 ∧ (kvs.length : Int) > r.limit then
        let revision := if r.revision = 0 then rev else r.revision
        (Backend.count v1 r.key r.rangeEnd revision).andThen fun (rev', count) =>
          .ret (.ok { header := rev', kvs := kvs.take (limit - 1).toNat, more := true, count := count })
      else .ret (.ok { header := rev, kvs := kvs, count := kvs.length })

/-- `(*LimitedServer).Range` (`/repo/pkg/limited/limited.go:16-23`); `list` itself refuses an empty range
end, which cannot happen here. -/
def Limited.range (v1 : Bool) (r : RangeReq) : Prog (Except ApiErr RangeResp) :=
  if r.rangeEnd.length = 0 then Limited.get v1 r else Limited.list v1 r

/-- `(*KVServerBridge).Range` (`/repo/pkg/limited/server.go:36-91`); `toKVs` copies all fields
(`server.go:93-119`; the version field is never set, all entries are non-nil). -/
def Bridge.range (v1 : Bool) (r : RangeReq) : Prog (Except ApiErr RangeResp) :=
  if r.keysOnly then .ret (.error .unsupported)
  else if r.maxCreateRevision ≠ 0 then .ret (.error .unsupported)
  else if r.sortOrder ≠ 0 then .ret (.error .unsupported)
  else if r.sortTarget ≠ 0 then .ret (.error .unsupported)
  else if r.serializable then .ret (.error .unsupported)
  else if r.minModRevision ≠ 0 then .ret (.error .unsupported)
  else if r.minCreateRevision ≠ 0 then .ret (.error .unsupported)
  else if r.maxModRevision ≠ 0 then .ret (.error .unsupported)
  else Limited.range v1 r

/-- `(*LimitedServer).create` (`/repo/pkg/limited/create.go:24-72`). -/
def Limited.create (put : PutReq) : Prog (Except ApiErr TxnResp) :=
  if put.ignoreLease then .ret (.error .unsupported)
  else if put.ignoreValue then .ret (.error .unsupported)
  else if put.prevKv then .ret (.error .unsupported)
  else
    (Backend.create put.key put.value put.lease).andThen fun (rev, created) =>
      if created then .ret (.ok { header := rev, succeeded := true, responses := [.put rev] })
      else .ret (.ok { header := rev, succeeded := false })

/-- The else-branch of `update` and `delete`: `l.backend.List(ctx, key, nil, 1, rev)`
(`/repo/pkg/limited/update.go:69-81`, `delete.go:59-72`). -/
def Limited.elseRange (v1 : Bool) (key : Bytes) (rev : Int) : Prog (Except ApiErr TxnResp) :=
  (Backend.list v1 key [] 1 rev).andThen fun (rev', kvs) =>
    .ret (.ok { header := rev, succeeded := false, responses := [.range { header := rev', kvs := kvs }] })

/-- `(*LimitedServer).update` (`/repo/pkg/limited/update.go:28-84`). -/
def Limited.update (v1 : Bool) (rev : Int) (key value : Bytes) (lease : Int) :
    Prog (Except ApiErr TxnResp) :=
  (if rev = 0 then Backend.create key value lease
   else Backend.update key value rev lease).andThen fun (rev', succeeded) =>
    if succeeded then .ret (.ok { header := rev', succeeded := true, responses := [.put rev'] })
    else Limited.elseRange v1 key rev'

/-- `(*LimitedServer).delete` (`/repo/pkg/limited/delete.go:24-76`). -/
def Limited.delete (v1 : Bool) (key : Bytes) (revision : Int) : Prog (Except ApiErr TxnResp) :=
  (Backend.delete key revision).andThen fun (rev, deleted) =>
    if deleted then .ret (.ok { header := rev, succeeded := true, responses := [.deleteRange rev] })
    else Limited.elseRange v1 key rev

/-- `(*LimitedServer).compact` (`/repo/pkg/limited/compact.go:22-39`). -/
def Limited.compact : TxnResp :=
  { header := 0, succeeded := false,
    responses := [.range { header := 0, count := 1,
                           kvs := [{ key := [], value := [], lease := 0, createRev := 0, modRev := 0 }] }] }

/-- `(*LimitedServer).Txn` (`/repo/pkg/limited/limited.go:31-61`) behind `(*KVServerBridge).Txn`
(`server.go:129-135`). -/
def Limited.txn (v1 : Bool) (t : TxnReq) : Prog (Except ApiErr TxnResp) :=
  match isCreate t with
  | some put => Limited.create put
  | none =>
    match isDelete t with
    | some (rev, key) => Limited.delete v1 key rev
    | none =>
      match isUpdate t with
      | some (rev, key, value, lease) => Limited.update v1 rev key value lease
      | none => if isCompact t then .ret (.ok Limited.compact) else .ret (.error .unsupported)

/-- `(*KVServerBridge).Compact` (`server.go:137-144`): echoes the requested revision. -/
def Bridge.compact (revision : Int) : Prog (Except ApiErr Int) := .ret (.ok revision)

/-- `(*KVServerBridge).Put` (`server.go:121-123`). -/
def Bridge.put (_ : PutReq) : Prog (Except ApiErr Unit) := .ret (.error .unsupported)

/-- `(*KVServerBridge).DeleteRange` (`server.go:125-127`). -/
def Bridge.deleteRange (_ : DeleteReq) : Prog (Except ApiErr Unit) := .ret (.error .unsupported)

end Verif
