import Verif.Model.GoHost
import Verif.Model.GoTextBackend
import Verif.Model.Backend
/-!
# What the functions of `pkg/backend/internal/backend` find around them

The driver, as operations in continuation passing style (`DriverOps`), and the cursor of the query under way (`CursorOps`); there is at most
one open cursor at a time. The results of programs with a cursor are `SProg`: programs of the model that depend on the state of the
cursor. Loops have the meaning of the last iteration, if there is one (`Control.lim`).
-/

namespace Verif.Go

open Verif.GoText.Backend

/-- The driver. Queries leave their cursor open. -/
structure DriverOps (R : Type) where
  getCompactRevision : (Int → Int → R) → (ApiErr → R) → R
  currentRevision : (Int → R) → (ApiErr → R) → R
  list : Bytes → Bytes → Int → Int → R → (ApiErr → R) → R
  count : Bytes → Bytes → Int → (Int → R) → (ApiErr → R) → R
  create : Bytes → Bytes → Int → (Int → Bool → R) → (ApiErr → R) → R
  update : Bytes → Bytes → Int → Int → (Int → Bool → R) → (ApiErr → R) → R
  delete : Bytes → Int → (Int → Bool → R) → (ApiErr → R) → R
  afterPrefix : Bytes → Bytes → Int → Int → R → (ApiErr → R) → R
  deleteRevision : Int → R → (ApiErr → R) → R
  compact : Int → R → (ApiErr → R) → R

/-- The cursor of the query under way (`database/sql`). -/
structure CursorOps (R : Type) where
  next : (Bool → R) → R
  /-- the columns of the current row -/
  scan : (List V → R) → R
  err : (Option ApiErr → R) → R
  close : R → R

/-- One column into a variable with the value `old` (`convertAssign` of `database/sql`): integers into integers, 0 and 1 into booleans,
NULL into byte slices and `sql.NullInt64` only. -/
def scanCol (old col : V) : Option (Except ApiErr V) :=
  match old, col with
  | .int _, .int n => some (.ok (.int n))
  | .int _, .nil => some (.error .nullScan)
  | .bool _, .int n => if n == 0 then some (.ok (.bool false)) else if n == 1 then some (.ok (.bool true)) else some (.error (.db .other))
  | .bytes _, .bytes b => some (.ok (.bytes b))
  | .bytes _, .nil => some (.ok (.bytes []))
  | .struct t [(a, _), (b, _)], .int n => if t == n!"NullInt64" then some (.ok (.struct t [(a, .int n), (b, .bool true)])) else none
  | .struct t [(a, _), (b, _)], .nil => if t == n!"NullInt64" then some (.ok (.struct t [(a, .int 0), (b, .bool false)])) else none
  | _, _ => none

/-- `rows.Scan(dests...)`. -/
def scanInto : List V → List V → Store Ext → Option (Except ApiErr (Store Ext))
  | [], [], s => some (.ok s)
  | .ptr r p :: ds, c :: cs, s =>
    (s.load r p).bind fun old =>
      match scanCol old c with
      | some (.ok v) => (s.save r p v).bind fun s' => scanInto ds cs s'
      | some (.error e) => some (.error e)
      | none => none
  | _, _, _ => none

/-- Methods of `*sql.Rows`. -/
def cursorMeth {R : Type} (stuck : R) (C : CursorOps R) (m : Nm) (as : List V) (s : Store Ext) (k : List V → Store Ext → R) : R :=
  if m == n!"Next" then C.next fun b => k [.bool b] s
  else if m == n!"Close" then C.close (k [.nil] s)
  else if m == n!"Err" then C.err fun e => k [encErr e] s
  else if m == n!"Scan" then C.scan fun cols =>
    match scanInto as cols s with
    | some (.ok s') => k [.nil] s'
    | some (.error e) => k [.ext (.err e)] s
    | none => stuck
  else stuck

/-- Methods of the driver. Values beside an error are of no interest. -/
def driverCall {R : Type} (stuck : R) (D : DriverOps R) (m : Nm) (args : List V) (k : List V → R) : R :=
  let er2 := fun (e : ApiErr) => k [.tok, .ext (.err e)]
  let er3 := fun (e : ApiErr) => k [.tok, .tok, .ext (.err e)]
  match args with
  | [_] =>
    if m == n!"GetCompactRevision" then D.getCompactRevision (fun a b => k [.int a, .int b, .nil]) er3
    else if m == n!"CurrentRevision" then D.currentRevision (fun a => k [.int a, .nil]) er2
    else stuck
  | [_, .int n] =>
    if m == n!"DeleteRevision" then D.deleteRevision n (k [.nil]) fun e => k [.ext (.err e)]
    else if m == n!"Compact" then D.compact n (k [.nil]) fun e => k [.ext (.err e)]
    else stuck
  | [_, a, .int n] =>
    match decBytes a with
    | some a => if m == n!"Delete" then D.delete a n (fun rev ok => k [.int rev, .bool ok, .nil]) er3 else stuck
    | none => stuck
  | [_, a, b, .int n] =>
    match decBytes a, decBytes b with
    | some a, some b =>
      if m == n!"Create" then D.create a b n (fun rev ok => k [.int rev, .bool ok, .nil]) er3
      else if m == n!"Count" then D.count a b n (fun c => k [.int c, .nil]) er2
      else stuck
    | _, _ => stuck
  | [_, a, b, .int n, .int l] =>
    match decBytes a, decBytes b with
    | some a, some b =>
      if m == n!"Update" then D.update a b n l (fun rev ok => k [.int rev, .bool ok, .nil]) er3
      else if m == n!"List" then D.list a b n l (k [.ext .rows, .nil]) er2
      else if m == n!"AfterPrefix" then D.afterPrefix a b n l (k [.ext .rows, .nil]) er2
      else stuck
    | _, _ => stuck
  | _ => stuck

/-- `*Backend`; of its fields only the driver matters here. -/
def backendRV : V := msg n!"Backend" [(n!"Driver", .struct n!"Driver" [])]

/-- `bytes.Compare`. -/
def cmpBytes (a b : Bytes) : Int := if blt a b then -1 else if blt b a then 1 else 0

/-- Zero values of `mvccpb.Event` and `mvccpb.KeyValue`. -/
def zeroBackend (n : Nm) : Option V :=
  if n == n!"Event" then some (.struct n [(n!"Type", .int 0), (n!"Kv", .nil), (n!"PrevKv", .nil)])
  else if n == n!"NullInt64" then some (.struct n [(n!"Int64", .int 0), (n!"Valid", .bool false)])
  else zeroMsg n

/-- Constants (`/repo/pkg/backend/internal/backend/backend.go:22-23`), functions as values. -/
def globBackend (p n : Nm) : Option V :=
  if p == 0 && n == n!"SupersededCount" then some (.int 100)
  else if p == 0 && n == n!"compactBatchSize" then some (.int 1000)
  else if p == 0 && (n == n!"scanEvent" || n == n!"scanKeyValue") then some (.fn n)
  else if p == n!"mvccpb" && n == n!"DELETE" then some (.int 1)
  else constV p n

/-- `mvccpb.Event`. -/
def encEvent (e : Event) : V :=
  msg n!"Event" [(n!"Type", .int (bif e.isDelete then 1 else 0)), (n!"Kv", encKV e.kv),
    (n!"PrevKv", match e.prevKv with | none => .nil | some kv => encKV kv)]

/-- The host of the functions of `pkg/backend/internal/backend`. Waking the poller (`notifyWatcherPoll`) has no effect on the answer. -/
def backendHost {R : Type} (ct : Control Ext R) (D : DriverOps R) (C : CursorOps R) (L : Calls R) : Host Ext R :=
  { ctl := ct
    fuel := 0
    zero := fun _ n => zeroBackend n
    glob := globBackend
    meth := fun v m as s k =>
      match v with
      | .tok => if quiet m then k [.tok] s else ct.stuck
      | .struct _ _ => driverCall ct.stuck D m as fun vs => k vs s
      | .ext .rows => cursorMeth ct.stuck C m as s k
      | .imm (.struct ty _) => if m == n!"notifyWatcherPoll" then k [] s else L ty m (v :: as) fun vs => k vs s
      | _ => ct.stuck
    func := fun p m as s k =>
      match quietFunc p m as with
      | some vs => k vs s
      | none =>
        if p == n!"bytes" && m == n!"Compare" then
          match as with
          | [.bytes a, .bytes b] => k [.int (cmpBytes a b)] s
          | _ => ct.stuck
        else if p == 0 then L 0 m as fun vs => k vs s
        else ct.stuck }

/-! ### The cursor, and programs with a cursor -/

/-- Rows still to come, after how many of them the cursor breaks, the columns of the current row, whether the cursor broke; the number of
leader checks made so far; the effects of the statements of the transaction under way, if any, the last first. -/
structure Cur where
  rows : List (List V) := []
  brk : Option Nat := none
  cur : List V := []
  broke : Bool := false
  calls : Nat := 0
  tx : Option (List (DB → DB)) := none

/-- Without a cursor. -/
def Cur.closed (n : Nat) : Cur := { calls := n }

/-- A new cursor. -/
def Cur.opened (n : Nat) (rows : List (List V)) (brk : Option Nat) : Cur := { rows := rows, brk := brk, calls := n }

/-- Programs with a cursor. -/
structure SProg (Y : Type) where
  run : Cur → Prog Y

/-- The cursor of `database/sql`: `Next` also ends where the cursor breaks, and only `Err` tells. -/
def progCursor {Y : Type} : CursorOps (SProg Y) :=
  { next := fun k => ⟨fun c =>
      match c.brk, c.rows with
      | some 0, _ => (k false).run { c with cur := [], broke := true }
      | _, [] => (k false).run { c with cur := [] }
      | b, r :: rs => (k true).run { c with rows := rs, brk := b.map (· - 1), cur := r }⟩
    scan := fun k => ⟨fun c => (k c.cur).run c⟩
    err := fun k => ⟨fun c => (k (if c.broke then some (.db .other) else none)).run c⟩
    close := fun r => ⟨fun c => r.run (.closed c.calls)⟩ }

/-- A loop with a given number of iterations and something to do when they are used up. -/
def loopG {X R : Type} (S : Store X → R) (stuck : R) (cond : Store X → (GV X → Store X → R) → R)
    (body : Store X → (Store X → R) → (Store X → R) → R) (k : Store X → R) : Nat → Store X → R
  | 0, s => S s
  | n + 1, s => cond s fun c s =>
    match c with
    | .bool b => bif b then body s (fun s => loopG S stuck cond body k n s) k else k s
    | _ => stuck

open Classical in
/-- `for cond { body }`: what any sufficient number of iterations gives; stuck if no number suffices. -/
noncomputable def loopLim {X Y : Type} (stuck : SProg Y) : LoopK X (SProg Y) := fun cond body k _ s =>
  ⟨fun c =>
    if h : ∃ r, ∃ n, ∀ S, (loopG S stuck cond body k n s).run c = r then h.choose else stuck.run c⟩

/-- Loops of programs with a cursor. -/
noncomputable def Control.lim {X Y : Type} (stuck : SProg Y) : Control X (SProg Y) :=
  { stuck := stuck, loop := loopLim stuck, range := rangeStd }

/-- The functions of `pkg/backend/internal/backend`. -/
def backendFuncs : List FuncDecl :=
  [f_compactStart, f_DoCompact, f_GetCompactRevision, f_List, f_Count, f_Create, f_Delete, f_Update, f_ScanAll, f_scanKeyValue, f_scanEvent,
    f_appendEvents]

/-- Calls among them. -/
def backendCalls {R : Type} (ct : Control Ext R) (D : DriverOps R) (C : CursorOps R) (n : Nat) : Calls R :=
  textCalls ct.stuck (backendHost ct D C) backendFuncs n

/-- Columns of the list queries (`driver.go:93-97,138-145`). -/
def listCols (r : Row) : List V := [.int r.id, .bytes r.name, .int (createRevisionOf r), .int r.lease, .bytes r.value]

/-- Columns of the `after` queries (`driver.go:184-197`). -/
def eventCols (r : Row) : List V :=
  [.int r.id, .bytes r.name, .int (bif r.created then 1 else 0), .int (bif r.deleted then 1 else 0), .int r.createRevision, .int r.prevRevision,
    .int r.lease, .bytes r.value, .bytes r.oldValue]

end Verif.Go
