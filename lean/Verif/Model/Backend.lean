import Verif.Model.Driver
import Verif.Spec.History
import Verif.Spec.Watch
/-!
# `pkg/backend/internal/backend/{backend.go,utils.go}`
-/

namespace Verif

/-- `SupersededCount` (`/repo/pkg/backend/internal/backend/backend.go:22`). -/
def supersededCount : Int := 100
/-- `compactBatchSize` (`backend.go:23`). -/
def compactBatchSize : Int := 1000

/-- `scanKeyValue` (`/repo/pkg/backend/internal/backend/utils.go:26-39`) on the columns selected by the list
queries (`driver.go:93-97,138-145`). -/
def scanKeyValue (r : Row) : KV :=
  { modRev := r.id, key := r.name, createRev := createRevisionOf r, lease := r.lease, value := r.value }

/-- `scanEvent` (`utils.go:41-78`); `Event` is `limited.Event` (`/repo/pkg/limited/types.go:70`). -/
def scanEvent (r : Row) : Event :=
  let createRev := if r.created then r.id else r.createRevision
  { isDelete := r.deleted
    kv := { modRev := r.id, key := r.name, createRev := createRev, lease := r.lease, value := r.value }
    prevKv :=
      if r.created then none
      else some { key := r.name, createRev := createRev, modRev := r.prevRevision, lease := r.lease,
                  value := r.oldValue } }

/-- `appendEvents` (`utils.go:80-87`), with an empty destination. -/
def appendEvents (src : List Event) (key rangeEnd : Bytes) : List Event :=
  src.filter fun e => ble key e.kv.key && blt e.kv.key rangeEnd

/-- `(*Backend).Create` (`backend.go:335-344`). Waking the poller is not part of this model. -/
def Backend.create (key value : Bytes) (lease : Int) : Prog (Except ApiErr (Int × Bool)) :=
  Driver.create key value lease

/-- `(*Backend).Delete` (`backend.go:346-355`). -/
def Backend.delete (key : Bytes) (revision : Int) : Prog (Except ApiErr (Int × Bool)) :=
  Driver.delete key revision

/-- `(*Backend).Update` (`backend.go:357-366`). -/
def Backend.update (key value : Bytes) (prevRev lease : Int) : Prog (Except ApiErr (Int × Bool)) :=
  Driver.update key value prevRev lease

/-- The scan `event.PrevKv != nil && event.PrevKv.ModRevision > maxRev` of `compactStart`
(`backend.go:160-167`): state is (maxRev, maxID). -/
def maxMarker : List Event → Int × Int → Int × Int
  | [], acc => acc
  | e :: es, (maxRev, maxID) =>
    maxMarker es <|
      match e.prevKv with
      | some p => if p.modRev > maxRev then (p.modRev, e.kv.modRev) else (maxRev, maxID)
      | none => (maxRev, maxID)

/-- The deletion loop of `compactStart` (`backend.go:169-176`). -/
def deleteMarkers (keep : Int) : List Event → Prog (Except ApiErr Unit)
  | [] => .ret (.ok ())
  | e :: es =>
    if e.kv.modRev = keep then deleteMarkers keep es
    else (Driver.deleteRevision e.kv.modRev).andThen fun _ => deleteMarkers keep es

/-- `(*Backend).compactStart` (`backend.go:136-179`). -/
def Backend.compactStart : Prog (Except ApiErr Unit) :=
  Driver.currentRevision.andThen fun currentRevision =>
  (Driver.afterPrefix compactRevKey (compactRevKey ++ [0]) 0 currentRevision).andThen fun rows =>
    let events := scanAll scanEvent rows
    match events with
    | [] => (Backend.create compactRevKey [] 0).andThen fun _ => .ret (.ok ())
    | [_] => .ret (.ok ())
    | _ => deleteMarkers (maxMarker events (0, 0)).2 events

/-- The batch loop of `DoCompact` (`backend.go:211-220`). `fuel` bounds the number of iterations; `DoCompact`
passes `target - start`, which is never exhausted because every iteration advances `start`. `leader i` is
what the leader check answers in iteration `i`. -/
def compactBatches (leader : Nat → Option Bool) (target : Int) : Nat → Nat → Int →
    Prog (Except ApiErr Unit)
  | 0, _, _ => .ret (.ok ())
  | fuel + 1, i, start =>
    if start < target then
      let batchRevision :=
        if start + compactBatchSize > target then target else start + compactBatchSize
      (Driver.compact (leader i) batchRevision).andThen fun _ =>
        compactBatches leader target fuel (i + 1) batchRevision
    else .ret (.ok ())

/-- `(*Backend).DoCompact` (`backend.go:183-222`). -/
def Backend.doCompact (leader : Nat → Option Bool) : Prog (Except ApiErr Unit) :=
  Backend.compactStart.andThen fun _ =>
  Driver.getCompactRevision.andThen fun (start, current) =>
    let target := current - supersededCount
    compactBatches leader target (target - start).toNat 0 start

/-- `(*Backend).List` (`backend.go:228-264`); the answer is (current revision, keys). -/
def Backend.list (v1 : Bool) (key rangeEnd : Bytes) (limit revision : Int) :
    Prog (Except ApiErr (Int × List KV)) :=
  Driver.getCompactRevision.andThen fun (compactRevision, currentRevision) =>
    let go (rev : Int) : Prog (Except ApiErr (Int × List KV)) :=
      (Driver.list v1 key rangeEnd limit rev).andThen fun rows =>
        .ret (.ok (currentRevision, scanAll scanKeyValue rows))
    if revision = 0 ∨ revision > currentRevision then go currentRevision
    else if revision < compactRevision then .ret (.error .compacted)
    else go revision

/-- `(*Backend).Count` (`backend.go:306-333`). -/
def Backend.count (v1 : Bool) (key rangeEnd : Bytes) (revision : Int) :
    Prog (Except ApiErr (Int × Int)) :=
  Driver.getCompactRevision.andThen fun (compactRevision, currentRevision) =>
    let go (rev : Int) : Prog (Except ApiErr (Int × Int)) :=
      (Driver.count v1 key rangeEnd rev).andThen fun n => .ret (.ok (currentRevision, n))
    if revision = 0 ∨ revision > currentRevision then go currentRevision
    else if revision < compactRevision then .ret (.error .compacted)
    else go revision

/-- The key of the health record (`backend.go:93`). -/
def healthKey : Bytes :=
  [0x2f, 0x72, 0x65, 0x67, 0x69, 0x73, 0x74, 0x72, 0x79, 0x2f, 0x68, 0x65, 0x61, 0x6c, 0x74, 0x68]

/-- The value of the health record `{"health":"true"}` (`backend.go:93`). -/
def healthValue : Bytes :=
  [0x7b, 0x22, 0x68, 0x65, 0x61, 0x6c, 0x74, 0x68, 0x22, 0x3a, 0x22, 0x74, 0x72, 0x75, 0x65, 0x22, 0x7d]

/-- The database part of `(*Backend).Start` and `startWatch` (`backend.go:85-113,266-275`): the answer is the
initial poll revision. -/
def Backend.start : Prog (Except ApiErr Int) :=
  (Backend.create healthKey healthValue 0).andThen fun _ =>
  Backend.compactStart.andThen fun _ =>
  Driver.getCompactRevision.andThen fun (pollRevision, _) => .ret (.ok pollRevision)

end Verif
