import Verif.Lemmas.GoSource
import Verif.Props.GoTexts
import Verif.Props.SqlTexts
/-!
# C101, C102 The source texts of the backend and of the driver

`Model/GoTextBackend.lean`, `Model/GoTextDriver.lean` and `Model/GoTextDqlite.lean` contain the functions of
`/repo/pkg/backend/internal/backend`, `/repo/pkg/backend/sqlite/driver.go` and `/repo/pkg/backend/dqlite/driver.go` byte for byte. Here
they run, together with the request handlers of C100, on a database that answers each statement with any `Outcome`, and on a go-dqlite
that answers each question for the leader in any way.

`sourceCall ver self ans type function args` is a call of a request handler where everything down to the SQL statements runs by its source
text. `ver` is the schema version the driver was opened with, `self` the number of this node, `ans i` the answer to the `i`-th question for
the leader.
-/

namespace Verif.Go

open Verif.GoText

/-! ## The functions are the parsed texts -/

/-- Texts of the functions of the backend. -/
def backendSource : List String :=
  [Backend.f_compactStart_text, Backend.f_DoCompact_text, Backend.f_GetCompactRevision_text, Backend.f_List_text, Backend.f_Count_text,
    Backend.f_Create_text, Backend.f_Delete_text, Backend.f_Update_text, Backend.f_ScanAll_text, Backend.f_scanKeyValue_text,
    Backend.f_scanEvent_text, Backend.f_appendEvents_text]

theorem C101_parsed : backendSource.map (fun text => parseFunc (codesOf text)) = backendFuncs.map some := by
  simp only [backendSource, backendFuncs, List.map_cons, List.map_nil, Backend.f_compactStart_parse, Backend.f_DoCompact_parse,
    Backend.f_GetCompactRevision_parse, Backend.f_List_parse, Backend.f_Count_parse, Backend.f_Create_parse, Backend.f_Delete_parse,
    Backend.f_Update_parse, Backend.f_ScanAll_parse, Backend.f_scanKeyValue_parse, Backend.f_scanEvent_parse, Backend.f_appendEvents_parse]

/-- Texts of the functions of the driver. -/
def driverSource : List String :=
  [Driver.f_query_text, Driver.f_execute_text, Driver.f_Count_text, Driver.f_Create_text, Driver.f_Update_text, Driver.f_Delete_text,
    Driver.f_Compact_text, Driver.f_tryCompact_text, Driver.f_GetCompactRevision_text, Driver.f_DeleteRevision_text, Driver.f_List_text,
    Driver.f_ListTTL_text, Driver.f_CurrentRevision_text, Driver.f_AfterPrefix_text, Driver.f_After_text, Driver.f_GetSize_text]

/-- Texts of the functions of the driver for dqlite. -/
def dqliteSource : List String := [Dqlite.f_Compact_text, Dqlite.f_isLocalNodeLeader_text]

theorem C102_parsed : driverSource.map (fun text => parseFunc (codesOf text)) = driverFuncs.map some ∧
    dqliteSource.map (fun text => parseFunc (codesOf text)) = [Dqlite.f_Compact, Dqlite.f_isLocalNodeLeader].map some := by
  constructor
  · simp only [driverSource, driverFuncs, List.map_cons, List.map_nil, Driver.f_query_parse, Driver.f_execute_parse, Driver.f_Count_parse,
      Driver.f_Create_parse, Driver.f_Update_parse, Driver.f_Delete_parse, Driver.f_Compact_parse, Driver.f_tryCompact_parse,
      Driver.f_GetCompactRevision_parse, Driver.f_DeleteRevision_parse, Driver.f_List_parse, Driver.f_ListTTL_parse,
      Driver.f_CurrentRevision_parse, Driver.f_AfterPrefix_parse, Driver.f_After_parse, Driver.f_GetSize_parse]
  · simp only [dqliteSource, List.map_cons, List.map_nil, Dqlite.f_Compact_parse, Dqlite.f_isLocalNodeLeader_parse]

/-! ## C101 The backend on the driver of the model -/

/-- Answers of calls: `none` is a call that got stuck. -/
abbrev Ans (α : Type) := Prog (Option (Except ApiErr α))

/-- An answer of the program. -/
def good {α : Type} (a : α) : Ans α := .ret (some (.ok a))

/-- An error of the program. -/
def bad {α : Type} (e : ApiErr) : Ans α := .ret (some (.error e))

theorem hand_good {α β : Type} (p : Prog (Except ApiErr α)) (f : α → β) :
    hand p (fun a => good (f a)) bad = p.map fun r => some (r.map f) := by
  unfold hand Prog.map
  congr 1
  funext r
  cases r <;> rfl

/-- The backend by its texts, on the driver of the model. -/
noncomputable abbrev goBackend {α : Type} (v1 : Bool) (leader : Nat → Option Bool) : BackendOps (Ans α) :=
  textBackend (.ret none) (progDriver v1 leader) 3

section
variable (v1 : Bool) (leader : Nat → Option Bool)

/-- `Backend.Create`: the same statements in the same order, the same revision and success, or the same error. -/
theorem C101_create (key value : Bytes) (lease : Int) :
    (goBackend v1 leader).create key value lease (fun rev ok => good (rev, ok)) bad = (Backend.create key value lease).map some := by
  rw [goBackend, textBackend_eq]
  refine (hand_good (Backend.create key value lease) id).trans ?_
  congr 1; funext r; cases r <;> rfl

/-- `Backend.Update`. -/
theorem C101_update (key value : Bytes) (rev lease : Int) :
    (goBackend v1 leader).update key value rev lease (fun rev ok => good (rev, ok)) bad = (Backend.update key value rev lease).map some := by
  rw [goBackend, textBackend_eq]
  refine (hand_good (Backend.update key value rev lease) id).trans ?_
  congr 1; funext r; cases r <;> rfl

/-- `Backend.Delete`. -/
theorem C101_delete (key : Bytes) (rev : Int) :
    (goBackend v1 leader).delete key rev (fun rev ok => good (rev, ok)) bad = (Backend.delete key rev).map some := by
  rw [goBackend, textBackend_eq]
  refine (hand_good (Backend.delete key rev) id).trans ?_
  congr 1; funext r; cases r <;> rfl

/-- `Backend.List`, with `ScanAll` and `scanKeyValue`. -/
theorem C101_list (key re : Bytes) (limit rev : Int) :
    (goBackend v1 leader).list key re limit rev (fun rev kvs => good (rev, kvs)) bad = (Backend.list v1 key re limit rev).map some := by
  rw [goBackend, textBackend_eq]
  refine (hand_good (Backend.list v1 key re limit rev) id).trans ?_
  congr 1; funext r; cases r <;> rfl

/-- `Backend.Count`. -/
theorem C101_count (key re : Bytes) (rev : Int) :
    (goBackend v1 leader).count key re rev (fun rev n => good (rev, n)) bad = (Backend.count v1 key re rev).map some := by
  rw [goBackend, textBackend_eq]
  refine (hand_good (Backend.count v1 key re rev) id).trans ?_
  congr 1; funext r; cases r <;> rfl

/-- `Backend.DoCompact`, with `compactStart`, for every sequence of answers to the questions for the leader. -/
theorem C101_doCompact :
    (backendTexts ⟨fun _ => .ret none⟩ (progDriver v1 leader) 4 n!"Backend" n!"DoCompact" [backendRV, .tok]
      (fin1 (.ret none) (good ()) bad)).run (.closed 0) = (Backend.doCompact leader).map some := by
  refine (texts_DoCompact _ v1 leader (.ret none) (good ()) bad 0).trans ?_
  refine (hand_good (Backend.doCompact leader) fun _ => ()).trans ?_
  congr 1; funext r; cases r <;> rfl

/-- `appendEvents`: events of the range, in their order, after those already there. -/
theorem C101_appendEvents (D : DriverOps (SProg (Option (List V)))) (src dst : List Event) (key re : Bytes) (c : Cur) :
    (backendTexts ⟨fun _ => .ret none⟩ D 1 0 n!"appendEvents" [.list (src.map encEvent), .list (dst.map encEvent), .bytes key, .bytes re]
      fun vs => ⟨fun _ => .ret (some vs)⟩).run c =
    .ret (some [.list ((dst ++ src.filter fun e => ble key e.kv.key && blt e.kv.key re).map encEvent)]) := by
  have h : appendEvents src key re = src.filter fun e => ble key e.kv.key && blt e.kv.key re := rfl
  rw [← h]
  have := appendEvents_link (backendTexts ⟨fun _ => .ret none⟩ D 0) ⟨fun _ => .ret none⟩ D progCursor (fun vs => ⟨fun _ => .ret (some vs)⟩) src dst key re
  refine Eq.trans ?_ (congrArg (fun x => SProg.run x c) this)
  kernel_rfl

end

/-! ## C102 The driver on the database -/

section
variable (ver self : Int) (ans : Nat → LeaderAns)

/-- The driver by its texts, on the database. -/
noncomputable abbrev goDriver {α : Type} : DriverOps (SProg (Option α)) := textDriver ⟨fun _ => .ret none⟩ (.ret none) ver self ans 3

/-- All ten methods of the driver that the backend calls: the same statements in the same order, the same answers. The fast statements
are used exactly if the driver was opened on a database of the schema version 1.0, and the answer of go-dqlite decides about compactions. -/
theorem C102_driver {α : Type} : goDriver (α := α) ver self ans = progDriver (decide (ver = 65536)) fun i => (ans i).isLocal self :=
  textDriver_eq ⟨fun _ => .ret none⟩ (.ret none) ver self ans 0

/-- A transaction of a compaction, with an error at any point: either all three statements take effect together, or none does. If an error
comes before the commit, nothing is sent to the database any more. -/
theorem C102_tryCompact (fault : Nat → Option DbErr) (start stop : Int) (m : Nat) :
    (driverTexts ⟨fun _ => .ret none⟩ (progDb (.ret none) fault) 1 n!"Driver" n!"tryCompact" [driverRV ver, .tok, .int start, .int stop]
      fun vs => ⟨fun _ => .ret (some vs)⟩).run (.closed m) =
    match [fault 0, fault 1, fault 2, fault 3].findSome? id with
    | some e => .ret (some [.ext (.err (.db e))])
    | none => .stmt (fun db => updateCompactSQL (compactTombstonesSQL (compactSupersededSQL db start stop) start stop) stop) fun o _ =>
      match o with
      | .ok => .ret (some [.nil])
      | .trunc _ => .ret (some [.nil])
      | .fail e => .ret (some [.ext (.err (.db e))])
      | .lost e => .ret (some [.ext (.err (.db e))]) := by
  have h : firstFault fault = [fault 0, fault 1, fault 2, fault 3].findSome? id := by
    unfold firstFault
    cases fault 0 <;> cases fault 1 <;> cases fault 2 <;> cases fault 3 <;> rfl
  rw [← h]
  refine Eq.trans ?_ (tryCompact_link (.ret none) fault (driverTexts ⟨fun _ => .ret none⟩ (progDb (.ret none) fault) 0)
    (fun vs => ⟨fun _ => .ret (some vs)⟩) (Control.lim ⟨fun _ => .ret none⟩) ver start stop (.closed m) rfl)
  kernel_rfl

/-- What a query left behind: the rows of the cursor and after how many of them it breaks. -/
def openCursor : List V → SProg (Option (Except ApiErr (List (List V) × Option Nat)))
  | [.ext .rows, .nil] => ⟨fun c => good (c.rows, c.brk)⟩
  | [_, .ext (.err e)] => ⟨fun _ => bad e⟩
  | _ => ⟨fun _ => .ret none⟩

/-- `After`, read by the poll loop. -/
theorem C102_after (rev limit : Int) (m : Nat) :
    (driverTexts ⟨fun _ => .ret none⟩ (progDb (.ret none) noFault) 2 n!"Driver" n!"After" [driverRV ver, .tok, .int rev, .int limit]
      openCursor).run (.closed m) = (Driver.after rev limit).map fun r => some (r.map fun a => (a.1.map eventCols, a.2)) := by
  refine Eq.trans ?_ ((After_link (driverTexts ⟨fun _ => .ret none⟩ (progDb (.ret none) noFault) 1) openCursor (Control.lim ⟨fun _ => .ret none⟩)
    (progDb (.ret none) noFault) (texts_loopsOk ⟨fun _ => .ret none⟩ (.ret none) noFault 0) ver rev limit (.closed m)).trans ?_)
  · kernel_rfl
  · exact hand_good (Driver.after rev limit) _

/-- `ListTTL`, read when expiry starts. -/
theorem C102_listTTL (rev : Int) (m : Nat) :
    (driverTexts ⟨fun _ => .ret none⟩ (progDb (.ret none) noFault) 2 n!"Driver" n!"ListTTL" [driverRV ver, .tok, .int rev]
      openCursor).run (.closed m) = (Driver.listTTL rev).map fun r => some (r.map fun a => (a.1.map ttlCols, a.2)) := by
  refine Eq.trans ?_ ((ListTTL_link (driverTexts ⟨fun _ => .ret none⟩ (progDb (.ret none) noFault) 1) openCursor (Control.lim ⟨fun _ => .ret none⟩)
    (progDb (.ret none) noFault) (texts_loopsOk ⟨fun _ => .ret none⟩ (.ret none) noFault 0) ver rev (.closed m)).trans ?_)
  · kernel_rfl
  · exact hand_good (Driver.listTTL rev) _

/-! ## From the request to the statements -/

/-- Call of a method of the bridge; request handlers, backend and driver all run by their texts. -/
noncomputable def sourceCall (ty fn : Nm) (args : List V) : Prog (Option (List V)) :=
  limitedCalls (Control.std (.ret none)) (textBackend (.ret none) (goDriver ver self ans) 3) 5 ty fn args fun vs => .ret (some vs)

theorem sourceCall_eq (ty fn : Nm) (args : List V) : sourceCall ver self ans ty fn args = goCall (decide (ver = 65536)) ty fn args := by
  unfold sourceCall
  rw [C102_driver, textBackend_eq]
  rfl

/-- `Txn`, for every transaction: the statements the database gets, in their order, and the response or error. -/
theorem C102_txn (t : TxnReq) : sourceCall ver self ans n!"KVServerBridge" n!"Txn" [bridgeV, .tok, encTxn t] =
    (Limited.txn (decide (ver = 65536)) t).map (results encTxnResp) := (sourceCall_eq ..).trans (C100_txn _ t)

/-- `Range`, for every range request. -/
theorem C102_range (r : RangeReq) : sourceCall ver self ans n!"KVServerBridge" n!"Range" [bridgeV, .tok, encRange r] =
    (Bridge.range (decide (ver = 65536)) r).map (results encRangeResp) := (sourceCall_eq ..).trans (C100_range _ r)

/-- No request and no behaviour of the database makes any of the texts below `Txn` and `Range` panic. -/
theorem C102_no_panic (t : TxnReq) (r : RangeReq) :
    Answers (fun a => a.isSome = true) (sourceCall ver self ans n!"KVServerBridge" n!"Txn" [bridgeV, .tok, encTxn t]) ∧
    Answers (fun a => a.isSome = true) (sourceCall ver self ans n!"KVServerBridge" n!"Range" [bridgeV, .tok, encRange r]) := by
  rw [sourceCall_eq, sourceCall_eq]
  exact C100_no_panic _ t r

/-- A compaction, started by the compaction loop: backend and driver by their texts. -/
theorem C102_doCompact :
    (backendTexts ⟨fun _ => .ret none⟩ (goDriver ver self ans) 4 n!"Backend" n!"DoCompact" [backendRV, .tok]
      (fin1 (.ret none) (good ()) bad)).run (.closed 0) = (Backend.doCompact fun i => (ans i).isLocal self).map some := by
  rw [C102_driver]
  exact C101_doCompact _ _

/-- A compaction does not panic, whatever the database answers. -/
theorem C102_compact_no_panic : Answers (fun a => a.isSome = true)
    ((backendTexts ⟨fun _ => .ret none⟩ (goDriver ver self ans) 4 n!"Backend" n!"DoCompact" [backendRV, .tok]
      (fin1 (.ret none) (good ()) bad)).run (.closed 0)) := by
  rw [C102_doCompact]
  exact answers_map (P := fun a : Option (Except ApiErr Unit) => a.isSome = true) (f := some) (fun a => Option.isSome_some (a := a)) _

/-- Getting stuck is seen: without its arguments the text of `Create` of the driver does not run. -/
theorem C102_stuck_is_seen : (sqliteCall ⟨fun _ => .ret none⟩ (.ret none) ver 3 n!"Create" [.tok]
    fun vs => ⟨fun _ => .ret (some vs)⟩).run (.closed 0) = .ret none := by kernel_rfl

/-- The texts run: a create transaction of the Kubernetes API server on an empty database. -/
theorem C102_example :
    (runOk (sourceCall 65536 self ans n!"KVServerBridge" n!"Txn" [bridgeV, .tok, encTxn demoCreate]) DB.empty).2 =
      some [encTxnResp { header := 1, succeeded := true, responses := [.put 1] }, .nil] ∧
    ((runOk (sourceCall 65536 self ans n!"KVServerBridge" n!"Txn" [bridgeV, .tok, encTxn demoCreate]) DB.empty).1).rows.map
      (fun r => (r.id, r.name, r.value)) = [(1, [107], [118])] := by
  rw [sourceCall_eq, show decide ((65536 : Int) = 65536) = true from rfl]
  exact C100_example

end

/-! ## The statements by their texts

The driver passes the constants of `driver.go:86-277` and the two statements written in `tryCompact`. `selOf` and `execOf` say what the
database does with them. This is what the texts of the constants mean in SQL (C73). -/

open Verif.SqlLang

/-- The text of a constant. -/
def sqlConst (n : Nm) : Option String :=
  if n == n!"revSQL" then some SqlText.revSQL
  else if n == n!"listSQL" then some SqlText.listSQL
  else if n == n!"listSqlV1_0" then some SqlText.listSqlV1_0
  else if n == n!"revisionIntervalSQL" then some SqlText.revisionIntervalSQL
  else if n == n!"countRevisionSQL" then some SqlText.countRevisionSQL
  else if n == n!"countRevisionSQLV1_0" then some SqlText.countRevisionSQLV1_0
  else if n == n!"afterSQLPrefix" then some SqlText.afterSQLPrefix
  else if n == n!"afterSQL" then some SqlText.afterSQL
  else if n == n!"ttlSQL" then some SqlText.ttlSQL
  else if n == n!"deleteRevSQL" then some SqlText.deleteRevSQL
  else if n == n!"updateCompactSQL" then some SqlText.updateCompactSQL
  else if n == n!"deleteSQL" then some SqlText.deleteSQL
  else if n == n!"createSQL" then some SqlText.createSQL
  else if n == n!"updateSQL" then some SqlText.updateSQL
  else none

/-- `fmt.Sprintf("%s LIMIT ?", sql)`. -/
def sqlText (n : Nm) (lim : Bool) : Option String := (sqlConst n).map fun t => if lim then t ++ SqlText.limitSuffix else t

/-- An argument of a statement: a nil byte slice is NULL. -/
def ArgOf : V → Val → Prop
  | .int n, v => v = .int n
  | .bytes b, v => v = .blob b ∨ (b = [] ∧ v = .null)
  | _, _ => False

/-- Keys are not nil. -/
def KeyArg : V → Val → Prop
  | .int n, v => v = .int n
  | .bytes b, v => v = .blob b
  | _, _ => False

/-- A column of a result, as the text of the driver and of the backend sees it: `NULL` and an empty byte string are the same to a byte
slice (`scanCol`). -/
def ColOf : Val → V → Prop
  | .null, v => v = .nil ∨ v = .bytes []
  | .int n, v => v = .int n
  | .text b, v => v = .bytes b
  | .blob b, v => v = .bytes b

/-- Two lists, element by element. -/
def All2 {α β : Type} (R : α → β → Prop) : List α → List β → Prop
  | [], [] => True
  | a :: as, b :: bs => R a b ∧ All2 R as bs
  | _, _ => False

/-- Rows of a result. -/
def RowsOf : List (List Val) → List (List V) → Prop := All2 (All2 ColOf)

variable {plan : List Nat → List Frame → List Frame} {E : Enc} {db : DB}

theorem all2_map {α β γ : Type} {R : α → β → Prop} {f : γ → α} {g : γ → β} {l : List γ} (h : ∀ c ∈ l, R (f c) (g c)) :
    All2 R (l.map f) (l.map g) := by
  induction l with
  | nil => trivial
  | cons c l ih => exact ⟨h c (by simp), ih fun d hd => h d (by simp [hd])⟩

theorem colOf_val (valid : E.Valid db) {r : Row} (h : r ∈ db.rows) : ColOf (E.val r) (.bytes r.value) := by
  rcases valid.val r h with e | ⟨e, e'⟩
  · rw [e]; rfl
  · rw [e', e]; exact Or.inr rfl

theorem colOf_old (valid : E.Valid db) {r : Row} (h : r ∈ db.rows) : ColOf (E.old r) (.bytes r.oldValue) := by
  rcases valid.old r h with e | ⟨e, e'⟩
  · rw [e]; rfl
  · rw [e', e]; exact Or.inr rfl

theorem colOf_bool (b : Bool) : ColOf (Val.ofBool b) (.int (bif b then 1 else 0)) := by cases b <;> rfl

theorem rowsOf_list (valid : E.Valid db) {l : List Row} (h : ∀ r ∈ l, r ∈ db.rows) : RowsOf (l.map (listVals E)) (l.map listCols) :=
  all2_map fun r hr => ⟨rfl, rfl, rfl, rfl, colOf_val valid (h r hr), trivial⟩

theorem rowsOf_events (valid : E.Valid db) {l : List Row} (h : ∀ r ∈ l, r ∈ db.rows) : RowsOf (l.map (rowVals E)) (l.map eventCols) :=
  all2_map fun r hr => ⟨rfl, rfl, colOf_bool _, colOf_bool _, rfl, rfl, rfl, colOf_val valid (h r hr), colOf_old valid (h r hr), trivial⟩

theorem rowsOf_ttl (l : List Row) : RowsOf (l.map ttlVals) (l.map ttlCols) := all2_map fun _ _ => ⟨rfl, rfl, rfl, trivial⟩

theorem colOf_opt (o : Option Int) : ColOf (SqlLang.optInt o) (Go.optInt o) := by cases o <;> first | rfl | exact Or.inl rfl

/-- What the driver relies on when it sends a query. -/
def QueryOk (plan : List Nat → List Frame → List Frame) (E : Enc) (db : DB) (n : Nm) (lim : Bool) (vals : List Val) (sel : DB → List (List V)) : Prop :=
  ∃ text rows rows', sqlText n lim = some text ∧ runText text (phys E db) plan vals = some (phys E db, 0, rows) ∧ RowsOf rows rows' ∧
    rows'.Perm (sel db) ∧ (n ≠ n!"ttlSQL" → rows' = sel db)

theorem mem_take {α : Type} {a : α} {n : Nat} {l : List α} (h : a ∈ l.take n) : a ∈ l := List.mem_of_mem_take h

theorem queryOk_mk {n : Nm} {lim : Bool} {vals : List Val} {sel : DB → List (List V)} {text : String} {rows : List (List Val)}
    (ht : sqlText n lim = some text) (hr : runText text (phys E db) plan vals = some (phys E db, 0, rows)) (h : RowsOf rows (sel db)) :
    QueryOk plan E db n lim vals sel := ⟨text, rows, sel db, ht, hr, h, .refl _, fun _ => rfl⟩

theorem mem_listSQL {lo hi : Bytes} {rev : Int} {r : Row} (u : db.UniqueIds) (h : r ∈ listSQL db lo hi rev 0) : r ∈ db.rows := by
  rw [listSQL_eq_V1 u, listSqlV1_0_eq u] at h
  exact ((mem_maxkvV1 u).trans liveAt_iff |>.1 (by simpa [limitBy] using h)).1

theorem mem_listV1 {lo hi : Bytes} {rev : Int} {r : Row} (u : db.UniqueIds) (h : r ∈ listSqlV1_0 db lo hi rev 0) : r ∈ db.rows := by
  rw [listSqlV1_0_eq u] at h
  exact ((mem_maxkvV1 u).trans liveAt_iff |>.1 (by simpa [limitBy] using h)).1

/-- The value of an argument. -/
def valOf : V → Val
  | .int n => .int n
  | .bytes b => .blob b
  | _ => .null

theorem keyArgs {args : List V} {vals : List Val} (h : All2 KeyArg args vals) : vals = args.map valOf := by
  induction args generalizing vals with
  | nil => cases vals with
    | nil => rfl
    | cons => cases h
  | cons a as ih => cases vals with
    | nil => cases h
    | cons v vs =>
      rw [ih h.2, List.map_cons]
      congr 1
      have := h.1
      unfold KeyArg at this
      split at this <;> first | exact this | exact this.elim

theorem limit_eq {α : Type} {l : Int} (h : l > 0) (x : List α) : sqlLimit l x = limitBy l x := sqlLimit_pos h x

theorem mem_limitBy {α : Type} {a : α} {n : Int} {l : List α} (h : a ∈ limitBy n l) : a ∈ l := by
  unfold limitBy at h
  split at h
  · exact List.mem_of_mem_take h
  · exact h

/-- The meaning given to a query is the meaning of its text: for every plan of the database and every way empty values are stored, the
rows of the result are the columns the driver is given, in the same order (in any order for `ttlSQL`, which has no `ORDER BY`). -/
theorem C102_queries (hp : IsPlan plan) (u : db.UniqueIds) (valid : E.Valid db) {n : Nm} {lim : Bool} {args : List V} {vals : List Val}
    {sel : DB → List (List V)} (h : selOf n lim args = some sel) (ha : All2 KeyArg args vals)
    (hl : lim = true → ∀ l : Int, args.getLast? = some (.int l) → l > 0) : QueryOk plan E db n lim vals sel := by
  obtain rfl := keyArgs ha
  unfold selOf at h
  split at h
  · split at h
    · cases h
    · rename_i hlim
      obtain rfl : lim = false := by simpa using hlim
      split at h
      · rename_i hn
        obtain rfl : n = n!"revSQL" := by simpa using hn
        cases h
        refine queryOk_mk (text := SqlText.revSQL) rfl (rows := [[SqlLang.optInt (revSQL db)]]) ?_ ⟨⟨colOf_opt _, trivial⟩, trivial⟩
        simp only [runText, SqlAst.parse_revSQL, Option.map_some]; rw [List.map_nil, eval_rev hp]
      · split at h
        · rename_i hn
          obtain rfl : n = n!"revisionIntervalSQL" := by simpa using hn
          cases h
          exact queryOk_mk (text := SqlText.revisionIntervalSQL) rfl (C73_interval hp) ⟨⟨colOf_opt _, colOf_opt _, trivial⟩, trivial⟩
        · cases h
  · rename_i rev
    split at h
    · cases h
    · rename_i hlim
      obtain rfl : lim = false := by simpa using hlim
      split at h
      · rename_i hn
        obtain rfl : n = n!"afterSQL" := by simpa using hn
        cases h
        refine queryOk_mk (text := SqlText.afterSQL) rfl (rows := (afterSQL db rev 0).map (rowVals E)) ?_
          (rowsOf_events valid fun r hr => ?_)
        · simp only [runText, SqlAst.parse_afterSQL, Option.map_some, List.map_cons, List.map_nil, valOf]; rw [eval_after hp u]
        · simp [afterSQL, limitBy, mem_orderBy] at hr; exact hr.1
      · split at h
        · rename_i hn
          obtain rfl : n = n!"ttlSQL" := by simpa using hn
          cases h
          obtain ⟨l, hl, e⟩ := eval_ttl (E := E) hp u rev
          refine ⟨SqlText.ttlSQL, _, l.map ttlCols, rfl, ?_, rowsOf_ttl l, hl.map _, fun hne => (hne rfl).elim⟩
          simp only [runText, SqlAst.parse_ttlSQL, Option.map_some, List.map_cons, List.map_nil, valOf]; rw [e]
        · cases h
  · rename_i rev l
    split at h
    · rename_i hn
      obtain ⟨rfl, rfl⟩ : lim = true ∧ n = n!"afterSQL" := by simpa using hn
      cases h
      have hl' : l > 0 := hl rfl l rfl
      refine queryOk_mk (text := SqlText.afterSQL ++ SqlText.limitSuffix) rfl (rows := (afterSQL db rev l).map (rowVals E)) ?_ ?_
      · simp only [runText, SqlAst.parse_afterSQL_limit, Option.map_some, List.map_cons, List.map_nil, valOf]; rw [eval_after_limit hp u rev l hl']
      · have e : afterSQL db rev l = sqlLimit l (afterSQL db rev 0) := by rw [limit_eq hl']; simp [afterSQL, limitBy]
        rw [e]
        refine rowsOf_events valid fun r hr => ?_
        rw [limit_eq hl'] at hr
        have := mem_limitBy hr
        simp [afterSQL, limitBy, mem_orderBy] at this; exact this.1
    · cases h
  · rename_i lo hi rev
    split at h
    · cases h
    · rename_i hlim
      obtain rfl : lim = false := by simpa using hlim
      split at h
      · rename_i hn
        obtain rfl : n = n!"listSQL" := by simpa using hn
        cases h
        refine queryOk_mk (text := SqlText.listSQL) rfl (rows := (listSQL db lo hi rev 0).map (listVals E)) ?_
          (rowsOf_list valid fun r hr => mem_listSQL u hr)
        simp only [runText, SqlAst.parse_listSQL, Option.map_some, List.map_cons, List.map_nil, valOf]; rw [eval_list hp u]
      · split at h
        · rename_i hn
          obtain rfl : n = n!"listSqlV1_0" := by simpa using hn
          cases h
          refine queryOk_mk (text := SqlText.listSqlV1_0) rfl (rows := (listSqlV1_0 db lo hi rev 0).map (listVals E)) ?_
            (rowsOf_list valid fun r hr => mem_listV1 u hr)
          simp only [runText, SqlAst.parse_listSqlV1_0, Option.map_some, List.map_cons, List.map_nil, valOf]; rw [eval_listV1 hp u]
        · split at h
          · rename_i hn
            obtain rfl : n = n!"countRevisionSQL" := by simpa using hn
            cases h
            refine queryOk_mk (text := SqlText.countRevisionSQL) rfl (rows := [[.int (countRevisionSQL db lo hi rev)]]) ?_ ⟨⟨rfl, trivial⟩, trivial⟩
            simp only [runText, SqlAst.parse_countRevisionSQL, Option.map_some, List.map_cons, List.map_nil, valOf]; rw [eval_count hp u]
          · split at h
            · rename_i hn
              obtain rfl : n = n!"countRevisionSQLV1_0" := by simpa using hn
              cases h
              refine queryOk_mk (text := SqlText.countRevisionSQLV1_0) rfl (rows := [[.int (countRevisionSQLV1_0 db lo hi rev)]]) ?_
                ⟨⟨rfl, trivial⟩, trivial⟩
              simp only [runText, SqlAst.parse_countRevisionSQLV1_0, Option.map_some, List.map_cons, List.map_nil, valOf]; rw [eval_countV1 hp u]
            · cases h
  · rename_i lo hi a b
    split at h
    · rename_i hn
      obtain ⟨rfl, rfl⟩ : lim = true ∧ n = n!"listSQL" := by simpa using hn
      cases h
      have hl' : b > 0 := hl rfl b rfl
      have e : sqlLimit b (listSQL db lo hi a 0) = listSQL db lo hi a b := by rw [limit_eq hl', limit_zero]
      refine queryOk_mk (text := SqlText.listSQL ++ SqlText.limitSuffix) rfl (rows := (listSQL db lo hi a b).map (listVals E)) ?_ ?_
      · simp only [runText, SqlAst.parse_listSQL_limit, Option.map_some, List.map_cons, List.map_nil, valOf]; rw [eval_list_limit hp u lo hi a b hl']
      · rw [← e]
        refine rowsOf_list valid fun r hr => mem_listSQL (lo := lo) (hi := hi) (rev := a) u (mem_limitBy (n := b) ?_)
        rw [← limit_eq hl']; exact hr
    · split at h
      · rename_i hn
        obtain ⟨rfl, rfl⟩ : lim = true ∧ n = n!"listSqlV1_0" := by simpa using hn
        cases h
        have hl' : b > 0 := hl rfl b rfl
        have e : sqlLimit b (listSqlV1_0 db lo hi a 0) = listSqlV1_0 db lo hi a b := by rw [limit_eq hl', listSqlV1_0_eq u, listSqlV1_0_eq u]; simp [limitBy]
        refine queryOk_mk (text := SqlText.listSqlV1_0 ++ SqlText.limitSuffix) rfl (rows := (listSqlV1_0 db lo hi a b).map (listVals E)) ?_ ?_
        · simp only [runText, SqlAst.parse_listSqlV1_0_limit, Option.map_some, List.map_cons, List.map_nil, valOf]; rw [eval_listV1_limit hp u lo hi a b hl']
        · rw [← e]
          refine rowsOf_list valid fun r hr => mem_listV1 (lo := lo) (hi := hi) (rev := a) u (mem_limitBy (n := b) ?_)
          rw [← limit_eq hl']; exact hr
      · split at h
        · rename_i hn
          obtain ⟨rfl, rfl⟩ : lim = false ∧ n = n!"afterSQLPrefix" := by simpa using hn
          cases h
          refine queryOk_mk (text := SqlText.afterSQLPrefix) rfl (rows := (afterSQLPrefix db lo hi a b).map (rowVals E)) ?_
            (rowsOf_events valid fun r hr => ?_)
          · simp only [runText, SqlAst.parse_afterSQLPrefix, Option.map_some, List.map_cons, List.map_nil, valOf]; rw [eval_afterPrefix hp u]
          · simp [afterSQLPrefix, mem_orderBy] at hr; exact hr.1
        · cases h
  · cases h

/-- The meaning given to a write is the meaning of its text. Only the value, the third argument, may be NULL. -/
theorem C102_writes (hp : IsPlan plan) (u : db.UniqueIds) (valid : E.Valid db) {n : Nm} {args : List V} {vals : List Val}
    {f : DB → DB × ExecResult} (h : execOf n args = some f) (ha : All2 ArgOf args vals) (hk : ∀ i, i ≠ 2 → vals[i]? ≠ some .null) :
    ∃ text E', sqlText n false = some text ∧ E'.Valid (f db).1 ∧
      runText text (phys E db) plan vals = some (phys E' (f db).1, (f db).2.rowsAffected, []) := by
  unfold execOf at h
  have inv : ∀ {b : Bytes} {v : Val}, ArgOf (.bytes b) v → v ≠ .null → v = .blob b := fun h h' => h.resolve_right fun x => h' x.2
  split at h
  · rename_i rev
    split at h
    · rename_i hn
      obtain rfl : n = n!"deleteRevSQL" := by simpa using hn
      cases h
      match vals, ha with
      | [v], ha =>
        obtain rfl : v = .int rev := ha.1
        refine ⟨SqlText.deleteRevSQL, E, rfl, ?_, C73_deleteRev rev⟩
        have sub : ∀ r ∈ (deleteRevSQL db rev).1.rows, r ∈ db.rows := fun r hr => (List.mem_filter.1 hr).1
        exact ⟨fun r hr => valid.val r (sub r hr), fun r hr => valid.old r (sub r hr)⟩
    · cases h
  · rename_i key rev
    split at h
    · rename_i hn
      obtain rfl : n = n!"deleteSQL" := by simpa using hn
      cases h
      match vals, ha, hk with
      | [v, w], ha, hk =>
        obtain rfl : w = .int rev := ha.2.1
        obtain rfl := inv ha.1 fun e => hk 0 (by decide) (by rw [e]; rfl)
        obtain ⟨E', w, e⟩ := C73_delete (E := E) hp u key rev
        exact ⟨SqlText.deleteSQL, E', rfl, w.valid valid, e⟩
    · cases h
  · rename_i key lease value key'
    split at h
    · rename_i hn
      obtain ⟨rfl, rfl⟩ : n = n!"createSQL" ∧ key = key' := by simpa using hn
      cases h
      match vals, ha, hk with
      | [v, l, x, w], ha, hk =>
        obtain rfl : l = .int lease := ha.2.1
        obtain rfl := inv ha.1 fun e => hk 0 (by decide) (by rw [e]; rfl)
        obtain rfl := inv ha.2.2.2.1 fun e => hk 3 (by decide) (by rw [e]; rfl)
        obtain ⟨E', w, e⟩ := C73_create (E := E) hp u key lease value x ha.2.2.1
        exact ⟨SqlText.createSQL, E', rfl, w.valid valid, e⟩
    · cases h
  · rename_i key lease value key' rev
    split at h
    · rename_i hn
      obtain ⟨rfl, rfl⟩ : n = n!"updateSQL" ∧ key = key' := by simpa using hn
      cases h
      match vals, ha, hk with
      | [v, l, x, w, r], ha, hk =>
        obtain rfl : l = .int lease := ha.2.1
        obtain rfl : r = .int rev := ha.2.2.2.2.1
        obtain rfl := inv ha.1 fun e => hk 0 (by decide) (by rw [e]; rfl)
        obtain rfl := inv ha.2.2.2.1 fun e => hk 3 (by decide) (by rw [e]; rfl)
        obtain ⟨E', w, e⟩ := C73_update (E := E) hp u key lease value rev x ha.2.2.1
        exact ⟨SqlText.updateSQL, E', rfl, w.valid valid, e⟩
    · cases h
  · cases h

/-- The hypotheses of `C102_queries` and `C102_writes` are met: on every reachable store, for the statements of a list with a limit and of
a create. -/
theorem C102_statements_apply {s : Sys} (hs : Reachable s) :
    QueryOk backwards nullEnc s.world.db n!"listSqlV1_0" true [.blob [47], .blob [48], .int 9, .int 2]
      (fun db => (sqlLimit 2 (listSqlV1_0 db [47] [48] 9 0)).map listCols) ∧
    ∃ text E', sqlText n!"createSQL" false = some text ∧ E'.Valid (createSQL s.world.db [47] 0 []).1 ∧
      runText text (phys nullEnc s.world.db) backwards [.blob [47], .int 0, .null, .blob [47]] =
        some (phys E' (createSQL s.world.db [47] 0 []).1, (createSQL s.world.db [47] 0 []).2.rowsAffected, []) :=
  ⟨C102_queries isPlan_backwards (C73_reachable hs) nullEnc_valid (args := [.bytes [47], .bytes [48], .int 9, .int 2]) rfl ⟨rfl, rfl, rfl, rfl, trivial⟩
      (fun _ l h => by cases h; decide),
    C102_writes isPlan_backwards (C73_reachable hs) nullEnc_valid (args := [.bytes [47], .int 0, .bytes [], .bytes [47]])
      (f := fun db => createSQL db [47] 0 []) rfl ⟨Or.inl rfl, rfl, Or.inr ⟨rfl, rfl⟩, Or.inl rfl, trivial⟩ fun i hi => by
        match i, hi with
        | 0, _ => simp
        | 1, _ => simp
        | 3, _ => simp
        | n + 4, _ => simp⟩

end Verif.Go
