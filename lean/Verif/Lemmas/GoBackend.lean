import Verif.Model.GoBackend
import Verif.Lemmas.GoLimitedLink
import Verif.Lemmas.Bytes
/-!
# The functions of `pkg/backend/internal/backend`: their texts and the model
-/

namespace Verif.Go

open Verif.GoText.Backend

/-! ### Loops -/

theorem loopG_add {X R : Type} (S : Store X → R) (stuck : R) (cond : Store X → (GV X → Store X → R) → R)
    (body : Store X → (Store X → R) → (Store X → R) → R) (k : Store X → R) (n m : Nat) (s : Store X) :
    loopG S stuck cond body k (n + m) s = loopG (fun s => loopG S stuck cond body k m s) stuck cond body k n s := by
  induction n generalizing s with
  | zero => simp [loopG]
  | succ n ih =>
    rw [Nat.succ_add]
    simp only [loopG]
    congr 1; funext c s
    cases c <;> try rfl
    simp only [ih]

/-- The value of a loop. -/
theorem loopLim_eq {X Y : Type} {stuck : SProg Y} {cond : Store X → (GV X → Store X → SProg Y) → SProg Y}
    {body : Store X → (Store X → SProg Y) → (Store X → SProg Y) → SProg Y} {k : Store X → SProg Y} {f : Nat} {s : Store X} {c : Cur} {r : Prog Y}
    (n : Nat) (h : ∀ S, (loopG S stuck cond body k n s).run c = r) : (loopLim stuck cond body k f s).run c = r := by
  have hex : ∃ r, ∃ n, ∀ S, (loopG S stuck cond body k n s).run c = r := ⟨r, n, h⟩
  simp only [loopLim]
  rw [dif_pos hex]
  obtain ⟨m, hm⟩ := hex.choose_spec
  let S0 : Store X → SProg Y := fun _ => stuck
  have h1 := h (fun s => loopG S0 stuck cond body k m s)
  have h2 := hm (fun s => loopG S0 stuck cond body k n s)
  rw [← loopG_add] at h1 h2
  rw [Nat.add_comm, h2] at h1
  exact h1

/-! ### Single functions -/

theorem srun_t {Y : Type} {b : Bool} {x y : SProg Y} {c : Cur} {z : Prog Y} (h : b = true) (h' : x.run c = z) : (cond b x y).run c = z := by
  rw [h]; exact h'

theorem srun_c {Y : Type} {b b' : Bool} {x y : SProg Y} {c : Cur} {z w : Prog Y} (h : b = b') (h1 : x.run c = z) (h2 : y.run c = w) :
    (cond b x y).run c = cond b' z w := by
  subst h; cases b
  · exact h2
  · exact h1

theorem srun_f {Y : Type} {b : Bool} {x y : SProg Y} {c : Cur} {z : Prog Y} (h : b = false) (h' : y.run c = z) : (cond b x y).run c = z := by
  rw [h]; exact h'

section
variable {R : Type} (ct : Control Ext R) (D : DriverOps R) (L : Calls R) (K : List V → R)

theorem GetCompactRevision_run (C : CursorOps R) : f_GetCompactRevision.run (backendHost ct D C L) [backendRV, .tok] (done K) =
    D.getCompactRevision (fun a b => K [.int a, .int b, .nil]) fun e => K [.tok, .tok, .ext (.err e)] := by
  go_nf
  rfl

end

section
variable {Y : Type} (ct : Control Ext (SProg Y)) (D : DriverOps (SProg Y)) (L : Calls (SProg Y)) (K : List V → SProg Y)

theorem scanKeyValue_run (r : Row) (c : Cur) (h : c.cur = listCols r) :
    (f_scanKeyValue.run (backendHost ct D progCursor L) [.ext .rows] (done K)).run c = (K [encKV (scanKeyValue r), .nil]).run c := by
  obtain ⟨_, _, cur, _, _, _⟩ := c
  cases h
  kernel_rfl

theorem scanEvent_run (r : Row) (c : Cur) (h : c.cur = eventCols r) :
    (f_scanEvent.run (backendHost ct D progCursor L) [.ext .rows] (done K)).run c = (K [encEvent (scanEvent r), .nil]).run c := by
  obtain ⟨_, _, cur, _, _, _⟩ := c
  cases h
  obtain ⟨id, name, created, deleted, cr, pr, lease, value, old⟩ := r
  cases created <;> cases deleted <;> kernel_rfl

/-- The rows a cursor gives before it ends or breaks. -/
def taken {α : Type} (rows : List α) : Option Nat → List α
  | none => rows
  | some n => rows.take n

theorem scanAll_eq {α β : Type} (f : α → β) (rows : List α) (b : Option Nat) : scanAll f (rows, b) = (taken rows b).map f := by
  cases b <;> rfl

theorem imms_append {acc : List V} {v : V} (h : Imms acc) (hv : ∃ w, v = .imm w) : Imms (acc ++ [v]) := ⟨fun u hu => by
  rcases List.mem_append.1 hu with hu | hu
  · exact h.imm u hu
  · obtain rfl := List.mem_singleton.1 hu
    exact hv⟩

/-- A loop over a cursor. -/
theorem loopG_cursor {α : Type} (S : Store Ext → SProg Y) (stuck : SProg Y) (cols : α → List V) (out : α → V) (st : List V → Store Ext)
    (cond : Store Ext → (V → Store Ext → SProg Y) → SProg Y) (body : Store Ext → (Store Ext → SProg Y) → (Store Ext → SProg Y) → SProg Y)
    (k : Store Ext → SProg Y) (hc : ∀ acc kk, cond (st acc) kk = progCursor.next fun b => kk (.bool b) (st acc))
    (hb : ∀ x acc kc kb c, c.cur = cols x → (body (st acc) kc kb).run c = (kc (st (acc ++ [out x]))).run c)
    (r : List V → Nat → Prog Y) (hk : ∀ acc c, Imms acc → (k (st acc)).run c = r acc c.calls) (ho : ∀ x, ∃ w, out x = .imm w) (rows : List α) (b : Option Nat)
    (acc : List V) (ha : Imms acc) (c : Cur) (h1 : c.rows = rows.map cols) (h2 : c.brk = b) :
    (loopG S stuck cond body k (rows.length + 1) (st acc)).run c = r (acc ++ (taken rows b).map out) c.calls := by
  induction rows generalizing b acc c with
  | nil =>
    simp only [List.length_nil, loopG, hc]
    obtain ⟨_, b', _, _, _, _⟩ := c
    cases h1
    obtain rfl : b' = b := h2
    rcases b' with _ | _ | b
    all_goals exact (hk acc _ ha).trans (by simp [taken])
  | cons x rows ih =>
    simp only [List.length_cons]
    rw [loopG]
    simp only [hc]
    obtain ⟨_, b', _, _, _, _⟩ := c
    cases h1
    obtain rfl : b' = b := h2
    rcases b' with _ | _ | b
    · refine (hb x acc _ _ _ rfl).trans ?_
      refine (ih none _ (imms_append ha (ho x)) _ rfl rfl).trans ?_
      simp [taken]
    · exact (hk acc _ ha).trans (by simp [taken])
    · refine (hb x acc _ _ _ rfl).trans ?_
      refine (ih (some b) _ (imms_append ha (ho x)) _ rfl rfl).trans ?_
      simp [taken]

/-- `ScanAll` collects what the cursor gives. -/
theorem ScanAll_run {α : Type} (stuck : SProg Y) (fn : Nm) (cols : α → List V) (out : α → V)
    (hL : ∀ x kk c, c.cur = cols x → (L 0 fn [.ext .rows] kk).run c = (kk [out x, .nil]).run c) (ho : ∀ x, ∃ w, out x = .imm w) (hfn : fn = n!"scanKeyValue" ∨ fn = n!"scanEvent")
    (c : Cur) (rows : List α) (b : Option Nat) (h1 : c.rows = rows.map cols) (h2 : c.brk = b) :
    (f_ScanAll.run (backendHost (Control.lim stuck) D progCursor L) [.ext .rows, .fn fn] (done K)).run c =
      (K [.list ((taken rows b).map out), .nil]).run (.closed c.calls) := by
  generalize hct : Control.lim stuck = ct
  generalize hC : progCursor = C
  go_nf
  go_name F G k
  subst hct
  refine loopLim_eq (f := 0) (rows.length + 1) fun S => ?_
  refine loopG_cursor S stuck cols out
    (fun acc => { vars := [.ext .rows, .fn fn, .list [], .nil, .list acc], defers := [.meth (.ext .rows) n!"Close" []] }) F G k ?_ ?_
    (fun acc n => (K [.list acc, .nil]).run (.closed n)) ?_ ho rows b [] ⟨fun _ h => nomatch h⟩ c h1 h2
  · intro acc kk
    subst hF hC
    kernel_rfl
  · intro x acc kc kb c hc
    subst hG
    rcases hfn with rfl | rfl
    all_goals
      go_nf
      refine (hL x _ c hc).trans ?_
      kernel_rfl
  · intro acc c ha
    subst hk hC
    go_nf
    go_map
    rfl

end

/-! ### The driver of the model -/

section
variable {Y : Type}

/-- Go on with what a statement of the model answers. -/
def shand {α : Type} (p : Prog (Except ApiErr α)) (ok : α → SProg Y) (er : ApiErr → SProg Y) : SProg Y :=
  ⟨fun c => hand p (fun a => (ok a).run c) fun e => (er e).run c⟩

/-- Go on with what a query of the model answers; its cursor is closed again. -/
def rhand {α : Type} (p : Prog (Except ApiErr α)) (ok : α → SProg Y) (er : ApiErr → SProg Y) : SProg Y :=
  ⟨fun c => hand p (fun a => (ok a).run (.closed c.calls)) fun e => (er e).run (.closed c.calls)⟩

/-- Go on with the cursor of a query. -/
def qhand (cols : Row → List V) (p : Prog (Except ApiErr (List Row × Option Nat))) (ok : SProg Y) (er : ApiErr → SProg Y) : SProg Y :=
  ⟨fun c => hand p (fun rows => ok.run (.opened c.calls (rows.1.map cols) rows.2)) fun e => (er e).run (.closed c.calls)⟩

/-- The driver of the model; `leader i` is what the check for the leader answers at the `i`-th call of `Compact`. -/
def progDriver (v1 : Bool) (leader : Nat → Option Bool) : DriverOps (SProg Y) :=
  { getCompactRevision := fun ok er => rhand Driver.getCompactRevision (fun r => ok r.1 r.2) er
    currentRevision := fun ok er => rhand Driver.currentRevision ok er
    list := fun k e l r ok er => qhand listCols (Driver.list v1 k e l r) ok er
    count := fun k e r ok er => rhand (Driver.count v1 k e r) ok er
    create := fun k v l ok er => shand (Driver.create k v l) (fun r => ok r.1 r.2) er
    update := fun k v p l ok er => shand (Driver.update k v p l) (fun r => ok r.1 r.2) er
    delete := fun k p ok er => shand (Driver.delete k p) (fun r => ok r.1 r.2) er
    afterPrefix := fun k e a b ok er => qhand eventCols (Driver.afterPrefix k e a b) ok er
    deleteRevision := fun r ok er => shand (Driver.deleteRevision r) (fun _ => ok) er
    compact := fun r ok er => ⟨fun c => hand (Driver.compact (leader c.calls) r) (fun _ => ok.run (.closed (c.calls + 1)))
      fun e => (er e).run (.closed (c.calls + 1))⟩ }

/-- The end of a function with three results, the last an error. -/
def fin3 (st : Prog Y) (ok : V → V → Prog Y) (er : ApiErr → Prog Y) : List V → SProg Y := fun vs => ⟨fun _ =>
  match vs with
  | [a, b, .nil] => ok a b
  | [_, _, .ext (.err e)] => er e
  | _ => st⟩

/-- The end of a function whose result is an error. -/
def fin1 (st : Prog Y) (ok : Prog Y) (er : ApiErr → Prog Y) : List V → SProg Y := fun vs => ⟨fun _ =>
  match vs with
  | [.nil] => ok
  | [.ext (.err e)] => er e
  | _ => st⟩

/-- `ScanAll` gives the rows of the cursor. -/
structure ScanOk (L : Calls (SProg Y)) : Prop where
  kvs : ∀ (rows : List Row) b kk n, (L 0 n!"ScanAll" [.ext .rows, .fn n!"scanKeyValue"] kk).run (.opened n (rows.map listCols) b) =
    (kk [.list ((scanAll scanKeyValue (rows, b)).map encKV), .nil]).run (.closed n)
  events : ∀ (rows : List Row) b kk n, (L 0 n!"ScanAll" [.ext .rows, .fn n!"scanEvent"] kk).run (.opened n (rows.map eventCols) b) =
    (kk [.list ((scanAll scanEvent (rows, b)).map encEvent), .nil]).run (.closed n)

variable (ct : Control Ext (SProg Y)) (v1 : Bool) (leader : Nat → Option Bool) (L : Calls (SProg Y)) (st : Prog Y)
  (ok : V → V → Prog Y) (er : ApiErr → Prog Y) (c : Cur)

theorem bCreate_link (key value : Bytes) (lease : Int) :
    (f_Create.run (backendHost ct (progDriver v1 leader) progCursor L) [backendRV, .tok, .bytes key, .bytes value, .int lease]
      (done (fin3 st ok er))).run c = hand (Backend.create key value lease) (fun r => ok (.int r.1) (.bool r.2)) er := by
  generalize hD : progDriver v1 leader = D
  go_nf
  subst hD
  refine hand_congr ?_ (fun _ => by kernel_rfl)
  rintro ⟨rev, b⟩
  cases b <;> kernel_rfl

theorem bDelete_link (key : Bytes) (rev : Int) :
    (f_Delete.run (backendHost ct (progDriver v1 leader) progCursor L) [backendRV, .tok, .bytes key, .int rev]
      (done (fin3 st ok er))).run c = hand (Backend.delete key rev) (fun r => ok (.int r.1) (.bool r.2)) er := by
  generalize hD : progDriver v1 leader = D
  go_nf
  subst hD
  refine hand_congr ?_ (fun _ => by kernel_rfl)
  rintro ⟨rev, b⟩
  cases b <;> kernel_rfl

theorem bUpdate_link (key value : Bytes) (rev lease : Int) :
    (f_Update.run (backendHost ct (progDriver v1 leader) progCursor L) [backendRV, .tok, .bytes key, .bytes value, .int rev, .int lease]
      (done (fin3 st ok er))).run c = hand (Backend.update key value rev lease) (fun r => ok (.int r.1) (.bool r.2)) er := by
  generalize hD : progDriver v1 leader = D
  go_nf
  subst hD
  refine hand_congr ?_ (fun _ => by kernel_rfl)
  rintro ⟨rev, b⟩
  cases b <;> kernel_rfl

theorem count_tail (key re : Bytes) (rev : Int) (ok : Int × Int → Prog Y) (er : ApiErr → Prog Y) :
    hand (Backend.count v1 key re rev) ok er = hand Driver.getCompactRevision (fun p =>
      cond (decide (rev = 0)) (hand (Driver.count v1 key re p.2) (fun n => ok (p.2, n)) er)
        (cond (decide (p.2 < rev)) (hand (Driver.count v1 key re p.2) (fun n => ok (p.2, n)) er)
          (cond (decide (rev < p.1)) (er .compacted) (hand (Driver.count v1 key re rev) (fun n => ok (p.2, n)) er)))) er := by
  unfold Backend.count
  rw [hand_andThen]
  refine hand_congr ?_ (fun _ => rfl)
  rintro ⟨cr, cur⟩
  by_cases h : rev = 0
  · simp only [h, true_or, if_true, decide_true, cond_true, hand_andThen]; rfl
  by_cases h1 : cur < rev
  · simp only [h, gt_iff_lt, h1, or_true, if_true, decide_true, cond_true, decide_false, cond_false, hand_andThen]; rfl
  by_cases h2 : rev < cr
  · simp only [h, gt_iff_lt, h1, h2, or_false, if_true, if_false, decide_true, cond_true, decide_false, cond_false]; rfl
  · simp only [h, gt_iff_lt, h1, h2, or_false, if_false, decide_false, cond_false, hand_andThen]; rfl

theorem bCount_link (key re : Bytes) (rev : Int) :
    (f_Count.run (backendHost ct (progDriver v1 leader) progCursor L) [backendRV, .tok, .bytes key, .bytes re, .int rev]
      (done (fin3 st ok er))).run c = hand (Backend.count v1 key re rev) (fun r => ok (.int r.1) (.int r.2)) er := by
  refine Eq.trans ?_ (count_tail ..).symm
  generalize hD : progDriver v1 leader = D
  go_nf
  subst hD
  refine hand_congr ?_ (fun _ => by kernel_rfl)
  rintro ⟨cr, cur⟩
  go_beta
  refine srun_c rfl ?_ (srun_c rfl ?_ (srun_c rfl ?_ ?_))
  all_goals kernel_rfl

theorem list_tail (key re : Bytes) (limit rev : Int) (ok : Int × List KV → Prog Y) (er : ApiErr → Prog Y) :
    hand (Backend.list v1 key re limit rev) ok er = hand Driver.getCompactRevision (fun p =>
      cond (decide (rev = 0)) (hand (Driver.list v1 key re limit p.2) (fun n => ok (p.2, scanAll scanKeyValue n)) er)
        (cond (decide (p.2 < rev)) (hand (Driver.list v1 key re limit p.2) (fun n => ok (p.2, scanAll scanKeyValue n)) er)
          (cond (decide (rev < p.1)) (er .compacted) (hand (Driver.list v1 key re limit rev) (fun n => ok (p.2, scanAll scanKeyValue n)) er)))) er := by
  unfold Backend.list
  rw [hand_andThen]
  refine hand_congr ?_ (fun _ => rfl)
  rintro ⟨cr, cur⟩
  by_cases h : rev = 0
  · simp only [h, true_or, if_true, decide_true, cond_true, hand_andThen]; rfl
  by_cases h1 : cur < rev
  · simp only [h, gt_iff_lt, h1, or_true, if_true, decide_true, cond_true, decide_false, cond_false, hand_andThen]; rfl
  by_cases h2 : rev < cr
  · simp only [h, gt_iff_lt, h1, h2, or_false, if_true, if_false, decide_true, cond_true, decide_false, cond_false]; rfl
  · simp only [h, gt_iff_lt, h1, h2, or_false, if_false, decide_false, cond_false, hand_andThen]; rfl

theorem bList_link (hL : ScanOk L) (key re : Bytes) (limit rev : Int) :
    (f_List.run (backendHost ct (progDriver v1 leader) progCursor L) [backendRV, .tok, .bytes key, .bytes re, .int limit, .int rev]
      (done (fin3 st ok er))).run c = hand (Backend.list v1 key re limit rev) (fun r => ok (.int r.1) (.list (r.2.map encKV))) er := by
  refine Eq.trans ?_ (list_tail ..).symm
  generalize hD : progDriver v1 leader = D
  generalize hC : progCursor = C
  go_nf
  subst hD hC
  refine hand_congr ?_ (fun _ => by kernel_rfl)
  rintro ⟨cr, cur⟩
  go_beta
  refine srun_c rfl ?_ (srun_c rfl ?_ (srun_c rfl ?_ ?_))
  case refine_3 => kernel_rfl
  all_goals
    refine hand_congr ?_ (fun _ => by kernel_rfl)
    rintro ⟨rows, b⟩
    refine (hL.kvs rows b _ _).trans ?_
    go_nf
    go_map
    kernel_rfl

theorem bCreate_run (K : List V → SProg Y) (key : Bytes) (lease : Int) :
    (f_Create.run (backendHost ct (progDriver v1 leader) progCursor L) [backendRV, .tok, .bytes key, .nil, .int lease] (done K)).run c =
      hand (Backend.create key [] lease) (fun r => (K [.int r.1, .bool r.2, .nil]).run c) fun e => (K [.int 0, .bool false, .ext (.err e)]).run c := by
  generalize hD : progDriver v1 leader = D
  go_nf
  subst hD
  refine hand_congr ?_ (fun _ => by kernel_rfl)
  rintro ⟨rev, b⟩
  cases b <;> kernel_rfl

/-- `s.Create` with a nil value. -/
def CreateOk (L : Calls (SProg Y)) : Prop := ∀ (key : Bytes) (lease : Int) (K : List V → SProg Y) (c : Cur),
  (L n!"Backend" n!"Create" [backendRV, .tok, .bytes key, .nil, .int lease] K).run c =
    hand (Backend.create key [] lease) (fun r => (K [.int r.1, .bool r.2, .nil]).run c) fun e => (K [.int 0, .bool false, .ext (.err e)]).run c

/-- A loop that updates some variables. -/
theorem rangeStd_fold {R α σ : Type} (enc : α → V) (f : σ → α → σ) (st : σ → Store Ext) (body : Nat → V → Store Ext → (Store Ext → R) → (Store Ext → R) → R)
    (k : Store Ext → R) (h : ∀ i x a kc kb, body i (enc x) (st a) kc kb = kc (st (f a x))) (l : List α) (i : Nat) (a : σ) :
    rangeStd body k (l.map enc) i (st a) = k (st (l.foldl f a)) := by
  induction l generalizing i a with
  | nil => rfl
  | cons x l ih => simp only [List.map_cons, rangeStd, h, ih, List.foldl_cons]

/-- One step of the search for the marker. -/
def markerStep (a : Int × Int) (e : Event) : Int × Int :=
  match e.prevKv with
  | some p => if p.modRev > a.1 then (p.modRev, e.kv.modRev) else a
  | none => a

theorem maxMarker_fold (l : List Event) (a : Int × Int) : maxMarker l a = l.foldl markerStep a := by
  induction l generalizing a with
  | nil => rfl
  | cons e l ih => obtain ⟨x, y⟩ := a; rw [maxMarker, List.foldl_cons, ← ih]; rfl

/-- The deletion loop. -/
theorem rangeStd_delete (s : Store Ext) (body : Nat → V → Store Ext → (Store Ext → SProg Y) → (Store Ext → SProg Y) → SProg Y) (k : Store Ext → SProg Y) (keep : Int)
    (h : ∀ i (e : Event) kc kb, (body i (encEvent e) s kc kb).run c =
      cond (decide (e.kv.modRev = keep)) ((kc s).run c) (hand (Driver.deleteRevision e.kv.modRev) (fun _ => (kc s).run c) er))
    (l : List Event) (i : Nat) :
    (rangeStd body k (l.map encEvent) i s).run c = hand (deleteMarkers keep l) (fun _ => (k s).run c) er := by
  induction l generalizing i with
  | nil => rfl
  | cons e l ih =>
    rw [List.map_cons, rangeStd, h]
    unfold deleteMarkers
    by_cases hk : e.kv.modRev = keep
    · simp only [hk, decide_true, cond_true, if_true]
      exact ih _
    · simp only [hk, decide_false, cond_false, if_false, hand_andThen]
      exact hand_congr (fun _ => ih _) (fun _ => rfl)

theorem compactStart_tail (ok : Prog Y) (er : ApiErr → Prog Y) :
    hand Backend.compactStart (fun _ => ok) er = hand Driver.currentRevision (fun cur =>
      hand (Driver.afterPrefix compactRevKey (compactRevKey ++ [0]) 0 cur) (fun rows =>
        match scanAll scanEvent rows with
        | [] => hand (Backend.create compactRevKey [] 0) (fun _ => ok) er
        | [_] => ok
        | e1 :: e2 :: es => hand (deleteMarkers ((e1 :: e2 :: es).foldl markerStep (0, 0)).2 (e1 :: e2 :: es)) (fun _ => ok) er) er) er := by
  unfold Backend.compactStart
  simp only [hand_andThen]
  refine hand_congr (fun cur => hand_congr (fun rows => ?_) (fun _ => rfl)) (fun _ => rfl)
  rcases scanAll scanEvent rows with _ | ⟨e1, _ | ⟨e2, es⟩⟩
  · simp only [hand_andThen]; rfl
  · rfl
  · simp only [maxMarker_fold]

theorem compactStart_link (stuck : SProg Y) (hL : ScanOk L) (hC : CreateOk L) (K : List V → SProg Y) (n : Nat) :
    (f_compactStart.run (backendHost (Control.lim stuck) (progDriver v1 leader) progCursor L) [backendRV, .tok] (done K)).run (.closed n) =
      hand Backend.compactStart (fun _ => (K [.nil]).run (.closed n)) fun e => (K [.ext (.err e)]).run (.closed n) := by
  refine Eq.trans ?_ (compactStart_tail ..).symm
  generalize hct : Control.lim stuck = ct
  generalize hD : progDriver v1 leader = D
  generalize hC : progCursor = C
  go_nf
  subst hD hC
  refine hand_congr (fun cur => hand_congr ?_ (fun _ => by kernel_rfl)) (fun _ => by kernel_rfl)
  rintro ⟨rows, b⟩
  go_beta
  have hE := fun kk => hL.events rows b kk n
  generalize scanAll scanEvent (rows, b) = evs at hE ⊢
  rcases evs with _ | ⟨e1, _ | ⟨e2, es⟩⟩
  · refine (hE _).trans ?_
    go_nf
    refine (hC _ _ _ _).trans ?_
    exact hand_congr (fun _ => by kernel_rfl) (fun _ => by kernel_rfl)
  · refine (hE _).trans ?_
    kernel_rfl
  · refine Eq.trans ?_ (rfl : hand (deleteMarkers ((e1 :: e2 :: es).foldl markerStep (0, 0)).2 (e1 :: e2 :: es)) (fun _ => (K [.nil]).run (.closed n))
      (fun e => (K [.ext (.err e)]).run (.closed n)) = _)
    simp only [List.map_cons] at hE
    refine (hE _).trans ?_
    have hr : ct.range = rangeStd := by rw [← hct]; rfl
    go_nf
    go_name F k
    rw [hr]
    refine Eq.trans (congrArg (SProg.run · _) (rangeStd_fold encEvent markerStep (fun a => { vars := [backendRV, .tok, .nil, .int cur, .nil, .ext .rows,
      .list ((e1 :: e2 :: es).map encEvent), .int a.1, .int a.2] }) F k ?_ (e1 :: e2 :: es) 0 (0, 0))) ?_
    · rintro i ⟨d, kv, pkv⟩ ⟨a1, a2⟩ kc kb
      subst hF
      cases pkv with
      | none => kernel_rfl
      | some p =>
        go_nf
        unfold markerStep
        by_cases h : p.modRev > a1
        · refine cond_t (by simpa using h) ?_
          simp only [h, if_true]
          kernel_rfl
        · refine cond_f (by simpa using h) ?_
          simp only [h, if_false]
          kernel_rfl
    · go_beta
      generalize hl : e1 :: e2 :: es = l
      generalize l.foldl markerStep (0, 0) = a
      clear hF F
      subst hk
      go_nf
      go_name F k
      rw [hr]
      refine Eq.trans (rangeStd_delete (fun e => (K [.ext (.err e)]).run (.closed n)) (.closed n) { vars := [backendRV, .tok, .nil, .int cur, .nil, .ext .rows, .list (l.map encEvent), .int a.1, .int a.2] }
        F k a.2 ?_ l 0) ?_
      · rintro i ⟨d, kv, pkv⟩ kc kb
        subst hF
        go_nf
        refine srun_c rfl (by kernel_rfl) ?_
        exact hand_congr (fun _ => by kernel_rfl) (fun _ => by kernel_rfl)
      · subst hk
        exact hand_congr (fun _ => by kernel_rfl) (fun _ => rfl)

/-- `s.compactStart`. -/
def StartOk (L : Calls (SProg Y)) : Prop := ∀ (K : List V → SProg Y) (n : Nat),
  (L n!"Backend" n!"compactStart" [backendRV, .tok] K).run (.closed n) =
    hand Backend.compactStart (fun _ => (K [.nil]).run (.closed n)) fun e => (K [.ext (.err e)]).run (.closed n)

/-- The end of a batch. -/
def batchEnd (target start : Int) : Int := if start + compactBatchSize > target then target else start + compactBatchSize

/-- The loop over the batches. -/
theorem loopG_batches (S : Store Ext → SProg Y) (stuck : SProg Y) (cond : Store Ext → (V → Store Ext → SProg Y) → SProg Y)
    (body : Store Ext → (Store Ext → SProg Y) → (Store Ext → SProg Y) → SProg Y) (k : Store Ext → SProg Y) (s : Int → Store Ext) (target : Int)
    (ok : Prog Y) (hc : ∀ a kk, cond (s a) kk = kk (.bool (decide (a < target))) (s a))
    (hb : ∀ a i kc kb, (body (s a) kc kb).run (.closed i) =
      hand (Driver.compact (leader i) (batchEnd target a)) (fun _ => (kc (s (batchEnd target a))).run (.closed (i + 1))) er)
    (hk : ∀ a c, (k (s a)).run c = ok) (fuel i : Nat) (start : Int) (h : (target - start).toNat ≤ fuel) :
    (loopG S stuck cond body k (fuel + 1) (s start)).run (.closed i) = hand (compactBatches leader target fuel i start) (fun _ => ok) er := by
  induction fuel generalizing i start with
  | zero =>
    rw [loopG, hc]
    have : ¬ start < target := by omega
    simp only [this, decide_false, cond_false]
    exact hk _ _
  | succ fuel ih =>
    rw [loopG, hc]
    unfold compactBatches
    by_cases hlt : start < target
    · simp only [hlt, decide_true, cond_true, if_true, hand_andThen]
      refine (hb _ _ _ _).trans (hand_congr (fun _ => ih _ _ ?_) (fun _ => rfl))
      unfold batchEnd compactBatchSize
      split <;> omega
    · simp only [hlt, decide_false, cond_false, if_false]
      exact hk _ _

theorem DoCompact_link (stuck : SProg Y) (hL : StartOk L) (ok : Prog Y) :
    (f_DoCompact.run (backendHost (Control.lim stuck) (progDriver v1 leader) progCursor L) [backendRV, .tok] (done (fin1 st ok er))).run (.closed 0) =
      hand (Backend.doCompact leader) (fun _ => ok) er := by
  unfold Backend.doCompact
  rw [hand_andThen]
  generalize hct : Control.lim stuck = ct
  generalize hD : progDriver v1 leader = D
  go_nf
  subst hD
  refine (hL _ _).trans ?_
  refine hand_congr (fun _ => ?_) (fun _ => by kernel_rfl)
  refine hand_step ?_ (fun _ => by kernel_rfl)
  rintro ⟨start, cur⟩
  go_nf
  go_name F G k
  have hlp : ct.loop = loopLim stuck := by rw [← hct]; rfl
  rw [hlp]
  refine loopLim_eq (f := 0) ((cur - 100 - start).toNat + 1) fun S => ?_
  refine loopG_batches leader er S stuck F G k (fun a => { vars := [backendRV, .tok, .nil, .tok, .int a, .int (cur - 100)], defers := _ }) (cur - 100) ok
    ?_ ?_ ?_ _ 0 start (Nat.le_refl _)
  · intro a kk
    subst hF
    kernel_rfl
  · intro a i kc kb
    by_cases h : a + 1000 > cur - 100
    · rw [show batchEnd (cur - 100) a = cur - 100 from if_pos h]
      subst hG
      go_nf
      refine srun_t (by simpa using h) ?_
      exact hand_congr (fun _ => by kernel_rfl) (fun _ => by kernel_rfl)
    · rw [show batchEnd (cur - 100) a = a + 1000 from if_neg h]
      subst hG
      go_nf
      refine srun_f (by simpa using h) ?_
      exact hand_congr (fun _ => by kernel_rfl) (fun _ => by kernel_rfl)
  · intro a c
    subst hk
    kernel_rfl

/-- One step of `appendEvents`. -/
def appendStep (key re : Bytes) (acc : List V) (e : Event) : List V :=
  if ble key e.kv.key && blt e.kv.key re then acc ++ [encEvent e] else acc

theorem foldl_appendStep (key re : Bytes) (src : List Event) (acc : List V) :
    src.foldl (appendStep key re) acc = acc ++ (appendEvents src key re).map encEvent := by
  induction src generalizing acc with
  | nil => simp [appendEvents]
  | cons e src ih =>
    rw [List.foldl_cons, ih]
    unfold appendStep appendEvents
    by_cases h : (ble key e.kv.key && blt e.kv.key re) = true
    · rw [if_pos h, List.filter_cons, if_pos h]; simp
    · rw [if_neg h, List.filter_cons, if_neg h]

theorem cmpBytes_le (a b : Bytes) : decide (cmpBytes a b ≤ 0) = ble a b := by
  unfold cmpBytes ble
  cases h : blt a b
  · cases h' : blt b a <;> simp
  · rw [blt_asymm h]; simp

theorem cmpBytes_gt (a b : Bytes) : decide (cmpBytes a b > 0) = blt b a := by
  unfold cmpBytes
  cases h : blt a b
  · cases h' : blt b a <;> simp
  · rw [blt_asymm h]; simp

instance (es : List Event) : Imms (es.map encEvent) := ⟨fun v hv => by
  obtain ⟨e, _, rfl⟩ := List.mem_map.1 hv
  exact ⟨_, rfl⟩⟩

theorem appendEvents_link (stuck : SProg Y) (D : DriverOps (SProg Y)) (C : CursorOps (SProg Y)) (K : List V → SProg Y) (src dst : List Event) (key re : Bytes) :
    f_appendEvents.run (backendHost (Control.lim stuck) D C L) [.list (src.map encEvent), .list (dst.map encEvent), .bytes key, .bytes re] (done K) =
      K [.list ((dst ++ appendEvents src key re).map encEvent)] := by
  generalize hct : Control.lim stuck = ct
  have hr : ct.range = rangeStd := by rw [← hct]; rfl
  go_nf
  go_name F k
  rw [hr]
  refine Eq.trans (rangeStd_fold encEvent (appendStep key re) (fun acc => { vars := [.list (src.map encEvent), .list acc, .bytes key, .bytes re, .list []] })
    F k ?_ src 0 (dst.map encEvent)) ?_
  · intro i e acc kc kb
    unfold appendStep
    rw [← cmpBytes_le, ← cmpBytes_gt]
    subst hF
    go_nf
    by_cases h1 : cmpBytes key e.kv.key ≤ 0
    · refine cond_t (by simpa using h1) ?_
      by_cases h2 : cmpBytes re e.kv.key > 0
      · refine cond_t (by simpa using h2) ?_
        simp only [h1, h2, decide_true, Bool.and_self, if_true]
      · refine cond_f (by simpa using h2) ?_
        simp only [h2, decide_false, Bool.and_false, Bool.false_eq_true, if_false]
    · refine cond_f (by simpa using h1) ?_
      simp only [h1, decide_false, Bool.false_and, Bool.false_eq_true, if_false]
  · rw [foldl_appendStep, ← List.map_append]
    generalize dst ++ appendEvents src key re = l
    subst hk
    go_nf
    go_map
    kernel_rfl

end

/-! ### The texts together -/

section
variable {Y : Type} (stuck : SProg Y) (D : DriverOps (SProg Y)) (v1 : Bool) (leader : Nat → Option Bool)

/-- The texts of the backend on a driver, calls nested `n` deep. -/
noncomputable abbrev backendTexts (D : DriverOps (SProg Y)) (n : Nat) : Calls (SProg Y) := backendCalls (Control.lim stuck) D progCursor n

theorem texts_scanOk (n : Nat) : ScanOk (backendTexts stuck D (n + 2)) where
  kvs rows b kk m := by
    refine Eq.trans ?_ ((ScanAll_run D (backendTexts stuck D (n + 1)) kk stuck n!"scanKeyValue" listCols (fun r => encKV (scanKeyValue r)) ?_ (fun _ => ⟨_, rfl⟩)
      (Or.inl rfl) (.opened m (rows.map listCols) b) rows b rfl rfl).trans ?_)
    · kernel_rfl
    · intro x K c h
      refine Eq.trans ?_ (scanKeyValue_run (Control.lim stuck) D (backendTexts stuck D n) K x c h)
      kernel_rfl
    · rw [scanAll_eq, List.map_map]
      rfl
  events rows b kk m := by
    refine Eq.trans ?_ ((ScanAll_run D (backendTexts stuck D (n + 1)) kk stuck n!"scanEvent" eventCols (fun r => encEvent (scanEvent r)) ?_ (fun _ => ⟨_, rfl⟩)
      (Or.inr rfl) (.opened m (rows.map eventCols) b) rows b rfl rfl).trans ?_)
    · kernel_rfl
    · intro x K c h
      refine Eq.trans ?_ (scanEvent_run (Control.lim stuck) D (backendTexts stuck D n) K x c h)
      kernel_rfl
    · rw [scanAll_eq, List.map_map]
      rfl

theorem texts_createOk (n : Nat) : CreateOk (backendTexts stuck (progDriver v1 leader) (n + 1)) := by
  intro key lease K c
  refine Eq.trans ?_ (bCreate_run (Control.lim stuck) v1 leader (backendTexts stuck (progDriver v1 leader) n) c K key lease)
  kernel_rfl

theorem texts_startOk (n : Nat) : StartOk (backendTexts stuck (progDriver v1 leader) (n + 3)) := by
  intro K m
  refine Eq.trans ?_ (compactStart_link v1 leader (backendTexts stuck (progDriver v1 leader) (n + 2)) stuck (texts_scanOk stuck _ n)
    (texts_createOk stuck v1 leader (n + 1)) K m)
  kernel_rfl

/-- `(*Backend).DoCompact`. -/
theorem texts_DoCompact (st : Prog Y) (ok : Prog Y) (er : ApiErr → Prog Y) (n : Nat) :
    (backendTexts stuck (progDriver v1 leader) (n + 4) n!"Backend" n!"DoCompact" [backendRV, .tok] (fin1 st ok er)).run (.closed 0) =
      hand (Backend.doCompact leader) (fun _ => ok) er := by
  refine Eq.trans ?_ (DoCompact_link v1 leader (backendTexts stuck (progDriver v1 leader) (n + 3)) st er stuck (texts_startOk stuck v1 leader n) ok)
  kernel_rfl

/-- The data of a `KeyValue`. -/
def decKV : V → Option KV
  | .imm (.struct _ [(_, .bytes k), (_, .int c), (_, .int m), (_, .int _), (_, .bytes v), (_, .int l)]) =>
    some { key := k, createRev := c, modRev := m, value := v, lease := l }
  | _ => none

/-- The data of a list of them. -/
def decKVs : List V → Option (List KV)
  | [] => some []
  | v :: vs => (decKV v).bind fun kv => (decKVs vs).map fun kvs => kv :: kvs

theorem decKVs_enc (kvs : List KV) : decKVs (kvs.map encKV) = some kvs := by
  induction kvs with
  | nil => rfl
  | cons kv kvs ih => rw [List.map_cons, decKVs, ih]; rfl

/-- A revision and a truth value. -/
def intBool (st : Prog Y) (ok : Int → Bool → Prog Y) : V → V → Prog Y
  | .int r, .bool b => ok r b
  | _, _ => st

/-- Two numbers. -/
def intInt (st : Prog Y) (ok : Int → Int → Prog Y) : V → V → Prog Y
  | .int r, .int b => ok r b
  | _, _ => st

/-- A revision and key-values. -/
def intKVs (st : Prog Y) (ok : Int → List KV → Prog Y) : V → V → Prog Y
  | .int r, .list vs =>
    match decKVs vs with
    | some kvs => ok r kvs
    | none => st
  | _, _ => st

/-- A method of the backend, by its text, on a driver. -/
noncomputable def textCall (st : Prog Y) (D : DriverOps (SProg Y)) (n : Nat) (m : Nm) (args : List V) (ok : V → V → Prog Y) (er : ApiErr → Prog Y) : Prog Y :=
  (backendTexts ⟨fun _ => st⟩ D n n!"Backend" m (backendRV :: .tok :: args) (fin3 st ok er)).run (.closed 0)

/-- The backend, by its texts, on a driver. -/
noncomputable def textBackend (st : Prog Y) (D : DriverOps (SProg Y)) (n : Nat) : BackendOps (Prog Y) :=
  { create := fun k v l ok er => textCall st D n n!"Create" [.bytes k, .bytes v, .int l] (intBool st ok) er
    update := fun k v p l ok er => textCall st D n n!"Update" [.bytes k, .bytes v, .int p, .int l] (intBool st ok) er
    delete := fun k p ok er => textCall st D n n!"Delete" [.bytes k, .int p] (intBool st ok) er
    list := fun k e l r ok er => textCall st D n n!"List" [.bytes k, .bytes e, .int l, .int r] (intKVs st ok) er
    count := fun k e r ok er => textCall st D n n!"Count" [.bytes k, .bytes e, .int r] (intInt st ok) er }

theorem tCreate (st : Prog Y) (n : Nat) (k v : Bytes) (l : Int) (ok : Int → Bool → Prog Y) (er : ApiErr → Prog Y) :
    textCall st (progDriver v1 leader) (n + 3) n!"Create" [.bytes k, .bytes v, .int l] (intBool st ok) er = (progBackend v1).create k v l ok er := by
  refine Eq.trans ?_ (bCreate_link (Control.lim ⟨fun _ => st⟩) v1 leader (backendTexts ⟨fun _ => st⟩ (progDriver v1 leader) (n + 2)) st (intBool st ok) er (.closed 0) k v l)
  kernel_rfl

theorem tUpdate (st : Prog Y) (n : Nat) (k v : Bytes) (p l : Int) (ok : Int → Bool → Prog Y) (er : ApiErr → Prog Y) :
    textCall st (progDriver v1 leader) (n + 3) n!"Update" [.bytes k, .bytes v, .int p, .int l] (intBool st ok) er = (progBackend v1).update k v p l ok er := by
  refine Eq.trans ?_ (bUpdate_link (Control.lim ⟨fun _ => st⟩) v1 leader (backendTexts ⟨fun _ => st⟩ (progDriver v1 leader) (n + 2)) st (intBool st ok) er (.closed 0) k v p l)
  kernel_rfl

theorem tDelete (st : Prog Y) (n : Nat) (k : Bytes) (p : Int) (ok : Int → Bool → Prog Y) (er : ApiErr → Prog Y) :
    textCall st (progDriver v1 leader) (n + 3) n!"Delete" [.bytes k, .int p] (intBool st ok) er = (progBackend v1).delete k p ok er := by
  refine Eq.trans ?_ (bDelete_link (Control.lim ⟨fun _ => st⟩) v1 leader (backendTexts ⟨fun _ => st⟩ (progDriver v1 leader) (n + 2)) st (intBool st ok) er (.closed 0) k p)
  kernel_rfl

theorem tCount (st : Prog Y) (n : Nat) (k e : Bytes) (r : Int) (ok : Int → Int → Prog Y) (er : ApiErr → Prog Y) :
    textCall st (progDriver v1 leader) (n + 3) n!"Count" [.bytes k, .bytes e, .int r] (intInt st ok) er = (progBackend v1).count k e r ok er := by
  refine Eq.trans ?_ (bCount_link (Control.lim ⟨fun _ => st⟩) v1 leader (backendTexts ⟨fun _ => st⟩ (progDriver v1 leader) (n + 2)) st (intInt st ok) er (.closed 0) k e r)
  kernel_rfl

theorem tList (st : Prog Y) (n : Nat) (k e : Bytes) (l r : Int) (ok : Int → List KV → Prog Y) (er : ApiErr → Prog Y) :
    textCall st (progDriver v1 leader) (n + 3) n!"List" [.bytes k, .bytes e, .int l, .int r] (intKVs st ok) er = (progBackend v1).list k e l r ok er := by
  refine Eq.trans ?_ ((bList_link (Control.lim ⟨fun _ => st⟩) v1 leader (backendTexts ⟨fun _ => st⟩ (progDriver v1 leader) (n + 2)) st (intKVs st ok) er (.closed 0)
      (texts_scanOk _ _ n) k e l r).trans ?_)
  · kernel_rfl
  · refine hand_congr (fun a => ?_) (fun _ => rfl)
    simp only [intKVs, decKVs_enc]

theorem BackendOps.ext' {R : Type} {a b : BackendOps R} (h1 : ∀ k v l ok er, a.create k v l ok er = b.create k v l ok er)
    (h2 : ∀ k v p l ok er, a.update k v p l ok er = b.update k v p l ok er) (h3 : ∀ k p ok er, a.delete k p ok er = b.delete k p ok er)
    (h4 : ∀ k e l r ok er, a.list k e l r ok er = b.list k e l r ok er) (h5 : ∀ k e r ok er, a.count k e r ok er = b.count k e r ok er) : a = b := by
  cases a
  cases b
  obtain rfl := funext fun k => funext fun v => funext fun l => funext fun ok => funext fun er => h1 k v l ok er
  obtain rfl := funext fun k => funext fun v => funext fun p => funext fun l => funext fun ok => funext fun er => h2 k v p l ok er
  obtain rfl := funext fun k => funext fun p => funext fun ok => funext fun er => h3 k p ok er
  obtain rfl := funext fun k => funext fun e => funext fun l => funext fun r => funext fun ok => funext fun er => h4 k e l r ok er
  obtain rfl := funext fun k => funext fun e => funext fun r => funext fun ok => funext fun er => h5 k e r ok er
  rfl

/-- The backend's texts on the driver of the model are the backend of the model. -/
theorem textBackend_eq (st : Prog Y) (n : Nat) : textBackend st (progDriver v1 leader) (n + 3) = progBackend v1 := by
  refine BackendOps.ext' ?_ ?_ ?_ ?_ ?_
  · intro k v l ok er
    refine Eq.trans ?_ (tCreate v1 leader st n k v l ok er)
    kernel_rfl
  · intro k v p l ok er
    refine Eq.trans ?_ (tUpdate v1 leader st n k v p l ok er)
    kernel_rfl
  · intro k p ok er
    refine Eq.trans ?_ (tDelete v1 leader st n k p ok er)
    kernel_rfl
  · intro k e l r ok er
    refine Eq.trans ?_ (tList v1 leader st n k e l r ok er)
    kernel_rfl
  · intro k e r ok er
    refine Eq.trans ?_ (tCount v1 leader st n k e r ok er)
    kernel_rfl

end
end Verif.Go
