import Verif.Model.GoDriver
import Verif.Lemmas.GoBackend
import Verif.Lemmas.SqlChars
/-!
# The functions of `pkg/backend/sqlite/driver.go` and `pkg/backend/dqlite/driver.go`: their texts and the model
-/

namespace Verif.Go

open Verif.GoText

/-! ### The retry loops -/

section
variable {Y : Type}

/-- The retry loop of `query`: `sta rows err i` is the store. -/
theorem loopG_query (S : Store Ext → SProg Y) (stuck : SProg Y) (sta : V → V → Int → Store Ext) (sel : DB → List (List V))
    (F : Store Ext → (V → Store Ext → SProg Y) → SProg Y) (G : Store Ext → (Store Ext → SProg Y) → (Store Ext → SProg Y) → SProg Y)
    (k : Store Ext → SProg Y) (ok : SProg Y) (er : ApiErr → SProg Y)
    (hF : ∀ rows err i kk, F (sta rows err i) kk = kk (.bool (decide (i < 500))) (sta rows err i))
    (hG : ∀ rows err i kc kb c, (G (sta rows err i) kc kb).run c = .stmt id fun o db =>
      match o with
      | .ok => (kb (sta (.ext .rows) .nil i)).run (.opened c.calls (sel db) none)
      | .trunc m => (kb (sta (.ext .rows) .nil i)).run (.opened c.calls (sel db) (some m))
      | .fail e => if e.retry then (kc (sta .nil (.ext (.err (.db e))) (i + 1))).run (.closed c.calls)
        else (kb (sta .nil (.ext (.err (.db e))) i)).run (.closed c.calls)
      | .lost e => if e.retry then (kc (sta .nil (.ext (.err (.db e))) (i + 1))).run (.closed c.calls)
        else (kb (sta .nil (.ext (.err (.db e))) i)).run (.closed c.calls))
    (hk1 : ∀ i c, (k (sta (.ext .rows) .nil i)).run c = ok.run c) (hk2 : ∀ i e c, (k (sta .nil (.ext (.err e)) i)).run c = (er e).run c)
    (n : Nat) (i : Int) (hi : i + n = 500) (rows err : V) (c : Cur)
    (h0 : n = 0 → rows = .nil ∧ err = .ext (.err (.db .busy)) ∧ c = .closed c.calls) :
    (loopG S stuck F G k (n + 1) (sta rows err i)).run c =
      hand (queryLoop sel n) (fun r => ok.run (.opened c.calls r.1 r.2)) fun e => (er e).run (.closed c.calls) := by
  induction n generalizing i rows err c with
  | zero =>
    obtain ⟨rfl, rfl, h⟩ := h0 rfl
    have hd : decide (i < 500) = false := by simp; omega
    simp only [loopG, hF, hd, cond_false]
    rw [hk2, h]
    rfl
  | succ n ih =>
    have hd : decide (i < 500) = true := by simp; omega
    rw [loopG]
    simp only [hF, hd, cond_true]
    rw [hG, queryLoop]
    show _ = Prog.stmt id fun o db => hand _ _ _
    congr 1
    funext o db
    have hstep : ∀ e : DbErr, e.retry = true →
        (loopG S stuck F G k (n + 1) (sta .nil (.ext (.err (.db e))) (i + 1))).run (.closed c.calls) =
          hand (queryLoop sel n) (fun r => ok.run (.opened c.calls r.1 r.2)) fun e => (er e).run (.closed c.calls) := by
      intro e he
      obtain rfl : e = .busy := by cases e <;> simp [DbErr.retry] at he ⊢
      exact ih (i + 1) (by omega) _ _ (.closed c.calls) fun _ => ⟨rfl, rfl, rfl⟩
    cases o with
    | ok => exact hk1 _ _
    | trunc m => exact hk1 _ _
    | fail e =>
      by_cases he : e.retry = true
      · simp only [he, if_true]; exact hstep e he
      · simp only [he]; exact hk2 _ _ _
    | lost e =>
      by_cases he : e.retry = true
      · simp only [he, if_true]; exact hstep e he
      · simp only [he]; exact hk2 _ _ _

/-- The retry loop of `execute`. -/
theorem loopG_execute (S : Store Ext → SProg Y) (stuck : SProg Y) (sta : V → V → Int → Store Ext) (f : DB → DB × ExecResult)
    (F : Store Ext → (V → Store Ext → SProg Y) → SProg Y) (G : Store Ext → (Store Ext → SProg Y) → (Store Ext → SProg Y) → SProg Y)
    (k : Store Ext → SProg Y) (ok : Int → Int → SProg Y) (er : ApiErr → SProg Y)
    (hF : ∀ rows err i kk, F (sta rows err i) kk = kk (.bool (decide (i < 500))) (sta rows err i)) (c : Cur)
    (hG : ∀ rows err i kc kb, (G (sta rows err i) kc kb).run c = .stmt (fun db => (f db).1) fun o db =>
      match o with
      | .ok => (kb (sta (.ext (.result (f db).2.rowsAffected (f db).2.lastInsertId)) .nil i)).run c
      | .trunc _ => (kb (sta (.ext (.result (f db).2.rowsAffected (f db).2.lastInsertId)) .nil i)).run c
      | .fail e => if e.retry then (kc (sta .nil (.ext (.err (.db e))) (i + 1))).run c else (kb (sta .nil (.ext (.err (.db e))) i)).run c
      | .lost e => if e.retry then (kc (sta .nil (.ext (.err (.db e))) (i + 1))).run c else (kb (sta .nil (.ext (.err (.db e))) i)).run c)
    (hk1 : ∀ a b i, (k (sta (.ext (.result a b)) .nil i)).run c = (ok a b).run c) (hk2 : ∀ i e, (k (sta .nil (.ext (.err e)) i)).run c = (er e).run c)
    (n : Nat) (i : Int) (hi : i + n = 500) (rows err : V)
    (h0 : n = 0 → rows = .nil ∧ err = .ext (.err (.db .busy))) :
    (loopG S stuck F G k (n + 1) (sta rows err i)).run c =
      hand (executeLoop f n) (fun r => (ok r.rowsAffected r.lastInsertId).run c) fun e => (er e).run c := by
  induction n generalizing i rows err with
  | zero =>
    obtain ⟨rfl, rfl⟩ := h0 rfl
    have hd : decide (i < 500) = false := by simp; omega
    simp only [loopG, hF, hd, cond_false]
    rw [hk2]
    rfl
  | succ n ih =>
    have hd : decide (i < 500) = true := by simp; omega
    rw [loopG]
    simp only [hF, hd, cond_true]
    rw [hG, executeLoop]
    show _ = Prog.stmt (fun db => (f db).1) fun o db => hand _ _ _
    congr 1
    funext o db
    have hstep : ∀ e : DbErr, e.retry = true →
        (loopG S stuck F G k (n + 1) (sta .nil (.ext (.err (.db e))) (i + 1))).run c =
          hand (executeLoop f n) (fun r => (ok r.rowsAffected r.lastInsertId).run c) fun e => (er e).run c := by
      intro e he
      obtain rfl : e = .busy := by cases e <;> simp [DbErr.retry] at he ⊢
      exact ih (i + 1) (by omega) _ _ fun _ => ⟨rfl, rfl⟩
    cases o with
    | ok => exact hk1 _ _ _
    | trunc m => exact hk1 _ _ _
    | fail e =>
      by_cases he : e.retry = true
      · simp only [he, if_true]; exact hstep e he
      · simp only [he]; exact hk2 _ _
    | lost e =>
      by_cases he : e.retry = true
      · simp only [he, if_true]; exact hstep e he
      · simp only [he]; exact hk2 _ _

end

section
variable {Y : Type} (st : Prog Y) (fault : Nat → Option DbErr) (L : Calls (SProg Y)) (K : List V → SProg Y) (stuck : SProg Y)

theorem srun_both {b : Bool} {x y : SProg Y} {c : Cur} {z : Prog Y} (h : x.run c = z) (h' : y.run c = z) : (cond b x y).run c = z := by
  cases b
  · exact h'
  · exact h

theorem db_query (n : Nm) (lim : Bool) (args : List V) (sel : DB → List (List V)) (h : selOf n lim args = some sel) (c : Cur) (ok : SProg Y) (er : ApiErr → SProg Y) :
    ((progDb st fault).query n lim args ok er).run c = .stmt id fun o db =>
        match o with
        | .ok => ok.run (.opened c.calls (sel db) none)
        | .trunc m => ok.run (.opened c.calls (sel db) (some m))
        | .fail e => (er (.db e)).run (.closed c.calls)
        | .lost e => (er (.db e)).run (.closed c.calls) := by
  simp only [progDb, h]
  rfl

theorem query_link (ver : Int) (nm : List UInt8) (n : Nm) (lim : Bool) (args : List V) (sel : DB → List (List V)) (h : selOf n lim args = some sel) (c : Cur) :
    (Driver.f_query.run (driverHost (Control.lim stuck) (progDb st fault) progCursor L) (driverRV ver :: .tok :: .bytes nm :: .ext (.sql n lim) :: args)
      (done K)).run c =
    hand (Verif.query sel) (fun r => (K [.ext .rows, .nil]).run (.opened c.calls r.1 r.2)) fun e => (K [.nil, .ext (.err e)]).run (.closed c.calls) := by
  generalize hct : Control.lim stuck = ct
  generalize hC : progCursor = C
  generalize hD : progDb st fault = D
  go_nf
  go_name F G k
  have hlp : ct.loop = loopLim stuck := by rw [← hct]; rfl
  rw [hlp]
  refine loopLim_eq (f := 0) 501 fun S => ?_
  refine loopG_query S stuck (fun rows err i => { vars := [driverRV ver, .tok, .bytes nm, .ext (.sql n lim), .list args, rows, err, .tok, .tok, .int i], defers := _ })
    sel F G k (K [.ext .rows, .nil]) (fun e => K [.nil, .ext (.err e)]) ?_ ?_ ?_ ?_ 500 0 rfl _ _ c (fun h => by cases h)
  · intro rows err i kk
    subst hF
    kernel_rfl
  · intro rows err i kc kb c
    subst hG
    go_nf
    refine srun_both ?_ ?_
    all_goals
      subst hD
      refine (db_query st fault n lim args sel h c _ _).trans ?_
      congr 1
      funext o db
      cases o with
      | ok => kernel_rfl
      | trunc => kernel_rfl
      | fail e => cases e <;> kernel_rfl
      | lost e => cases e <;> kernel_rfl
  · intro i c
    subst hk
    kernel_rfl
  · intro i e c
    subst hk
    kernel_rfl

theorem db_exec (n : Nm) (args : List V) (f : DB → DB × ExecResult) (h : execOf n args = some f) (c : Cur) (ok : Int → Int → SProg Y) (er : ApiErr → SProg Y) :
    ((progDb st fault).exec n args ok er).run c = .stmt (fun db => (f db).1) fun o db =>
        match o with
        | .ok => (ok (f db).2.rowsAffected (f db).2.lastInsertId).run c
        | .trunc _ => (ok (f db).2.rowsAffected (f db).2.lastInsertId).run c
        | .fail e => (er (.db e)).run c
        | .lost e => (er (.db e)).run c := by
  simp only [progDb, h]
  rfl

theorem execute_link (ver : Int) (nm : List UInt8) (n : Nm) (args : List V) (f : DB → DB × ExecResult) (h : execOf n args = some f) (c : Cur) :
    (Driver.f_execute.run (driverHost (Control.lim stuck) (progDb st fault) progCursor L) (driverRV ver :: .tok :: .bytes nm :: .ext (.sql n false) :: args)
      (done K)).run c =
    hand (Verif.execute f) (fun r => (K [.ext (.result r.rowsAffected r.lastInsertId), .nil]).run c) fun e => (K [.nil, .ext (.err e)]).run c := by
  generalize hct : Control.lim stuck = ct
  generalize hC : progCursor = C
  generalize hD : progDb st fault = D
  go_nf
  go_name F G k
  have hlp : ct.loop = loopLim stuck := by rw [← hct]; rfl
  rw [hlp]
  refine loopLim_eq (f := 0) 501 fun S => ?_
  refine loopG_execute S stuck (fun rows err i => { vars := [driverRV ver, .tok, .bytes nm, .ext (.sql n false), .list args, rows, err, .tok, .tok, .int i], defers := _ })
    f F G k (fun a b => K [.ext (.result a b), .nil]) (fun e => K [.nil, .ext (.err e)]) ?_ c ?_ ?_ ?_ 500 0 rfl _ _ (fun h => by cases h)
  · intro rows err i kk
    subst hF
    kernel_rfl
  · intro rows err i kc kb
    subst hG
    go_nf
    refine srun_both ?_ ?_
    all_goals
      subst hD
      refine (db_exec st fault n args f h c _ _).trans ?_
      congr 1
      funext o db
      cases o with
      | ok => kernel_rfl
      | trunc => kernel_rfl
      | fail e => cases e <;> kernel_rfl
      | lost e => cases e <;> kernel_rfl
  · intro a b i
    subst hk
    kernel_rfl
  · intro i e
    subst hk
    kernel_rfl

/-- `query` and `execute`, called. -/
structure LoopsOk (L : Calls (SProg Y)) : Prop where
  query : ∀ ver nm n lim args sel kk c, selOf n lim args = some sel →
    (L n!"Driver" n!"query" (driverRV ver :: .tok :: .bytes nm :: .ext (.sql n lim) :: args) kk).run c =
      hand (Verif.query sel) (fun r => (kk [.ext .rows, .nil]).run (.opened c.calls r.1 r.2)) fun e => (kk [.nil, .ext (.err e)]).run (.closed c.calls)
  execute : ∀ ver nm n args f kk c, execOf n args = some f →
    (L n!"Driver" n!"execute" (driverRV ver :: .tok :: .bytes nm :: .ext (.sql n false) :: args) kk).run c =
      hand (Verif.execute f) (fun r => (kk [.ext (.result r.rowsAffected r.lastInsertId), .nil]).run c) fun e => (kk [.nil, .ext (.err e)]).run c

theorem hand_query_map {α β : Type} (sel : DB → α) (g : α → β) (ok : β × Option Nat → Prog Y) (er : ApiErr → Prog Y) :
    hand (Verif.query fun db => g (sel db)) ok er = hand (Verif.query sel) (fun r => ok (g r.1, r.2)) er := by
  unfold Verif.query
  generalize maxRetries = n
  induction n with
  | zero => rfl
  | succ n ih =>
    rw [queryLoop, queryLoop]
    show Prog.stmt id (fun o db => hand _ _ _) = Prog.stmt id (fun o db => hand _ _ _)
    congr 1
    funext o db
    cases o with
    | ok => rfl
    | trunc m => rfl
    | fail e => cases e <;> first | exact ih | rfl
    | lost e => cases e <;> first | exact ih | rfl

variable (ct : Control Ext (SProg Y)) (D : DbOps (SProg Y))

/-- What is made of the row of an aggregate query. -/
def oneK {α : Type} (ok : α → Prog Y) (er : ApiErr → Prog Y) (r : α × Option Nat) : Prog Y :=
  match r.2 with
  | some 0 => er (.db .other)
  | _ => ok r.1

theorem count_hand (v1 : Bool) (key re : Bytes) (rev : Int) (ok : Int → Prog Y) (er : ApiErr → Prog Y) :
    hand (Verif.Driver.count v1 key re rev) ok er =
      hand (Verif.query fun db => if v1 then countRevisionSQLV1_0 db key (rangeEndOf key re) rev else countRevisionSQL db key (rangeEndOf key re) rev)
        (oneK (fun n => ok n) er) er := by
  unfold Verif.Driver.count
  rw [hand_andThen]
  refine hand_congr ?_ (fun _ => rfl)
  rintro ⟨n, _ | _ | b⟩ <;> rfl

theorem Count_link (hL : LoopsOk L) (ver : Int) (key re : Bytes) (rev : Int) (c : Cur) :
    (Driver.f_Count.run (driverHost ct D progCursor L) [driverRV ver, .tok, .bytes key, .bytes re, .int rev] (done K)).run c =
    hand (Verif.Driver.count (decide (ver = 65536)) key re rev) (fun n => (K [.int n, .nil]).run (.closed c.calls))
      fun e => (K [.int 0, .ext (.err e)]).run (.closed c.calls) := by
  rw [count_hand]
  by_cases hre : re.length = 0
  · rw [rangeEndOf, if_pos hre]
    by_cases hv : ver = 65536
    · simp only [hv, decide_true, if_true]
      rw [← hv]
      generalize hC : progCursor = C
      go_nf
      refine srun_t (by simpa using hre) (srun_t (by simpa using hv) ?_)
      refine (hL.query ver _ _ _ _ _ _ _ rfl).trans ?_
      refine (hand_query_map (fun db => countRevisionSQLV1_0 db key (key ++ [0]) rev) (fun a => [[(.int a : V)]]) _ _).trans ?_
      subst hC
      refine hand_congr ?_ (fun _ => by kernel_rfl)
      rintro ⟨n, _ | _ | b⟩ <;> kernel_rfl
    · simp only [hv, decide_false, Bool.false_eq_true, if_false]
      generalize hC : progCursor = C
      go_nf
      refine srun_t (by simpa using hre) (srun_f (by simpa using hv) ?_)
      refine (hL.query ver _ _ _ _ _ _ _ rfl).trans ?_
      refine (hand_query_map (fun db => countRevisionSQL db key (key ++ [0]) rev) (fun a => [[(.int a : V)]]) _ _).trans ?_
      subst hC
      refine hand_congr ?_ (fun _ => by kernel_rfl)
      rintro ⟨n, _ | _ | b⟩ <;> kernel_rfl
  · rw [rangeEndOf, if_neg hre]
    by_cases hv : ver = 65536
    · simp only [hv, decide_true, if_true]
      rw [← hv]
      generalize hC : progCursor = C
      go_nf
      refine srun_f (by simpa using hre) (srun_t (by simpa using hv) ?_)
      refine (hL.query ver _ _ _ _ _ _ _ rfl).trans ?_
      refine (hand_query_map (fun db => countRevisionSQLV1_0 db key re rev) (fun a => [[(.int a : V)]]) _ _).trans ?_
      subst hC
      refine hand_congr ?_ (fun _ => by kernel_rfl)
      rintro ⟨n, _ | _ | b⟩ <;> kernel_rfl
    · simp only [hv, decide_false, Bool.false_eq_true, if_false]
      generalize hC : progCursor = C
      go_nf
      refine srun_f (by simpa using hre) (srun_f (by simpa using hv) ?_)
      refine (hL.query ver _ _ _ _ _ _ _ rfl).trans ?_
      refine (hand_query_map (fun db => countRevisionSQL db key re rev) (fun a => [[(.int a : V)]]) _ _).trans ?_
      subst hC
      refine hand_congr ?_ (fun _ => by kernel_rfl)
      rintro ⟨n, _ | _ | b⟩ <;> kernel_rfl

theorem sqlLimit_pos {α : Type} {limit : Int} (h : limit > 0) (l : List α) : sqlLimit limit l = limitBy limit l := by
  unfold sqlLimit limitBy
  rw [if_neg (by omega), if_pos h]

/-- The rows of `List` by the statement that runs. -/
def listSel (v1 : Bool) (key hi : Bytes) (limit rev : Int) (db : DB) : List Row :=
  let rows := if v1 then listSqlV1_0 db key hi rev 0 else listSQL db key hi rev 0
  if limit > 0 then sqlLimit limit rows else rows

theorem list_sel (v1 : Bool) (key re : Bytes) (limit rev : Int) :
    Verif.Driver.list v1 key re limit rev = Verif.query (listSel v1 key (rangeEndOf key re) limit rev) := by
  show Verif.query (fun db => if v1 then listSqlV1_0 db key (rangeEndOf key re) rev limit else listSQL db key (rangeEndOf key re) rev limit) = _
  congr 1
  funext db
  unfold listSel
  cases v1
  all_goals
    by_cases h : limit > 0
    · simp [h, sqlLimit_pos, listSQL, listSqlV1_0, limitBy]
    · simp [h, listSQL, listSqlV1_0, limitBy]

theorem List_link (hL : LoopsOk L) (ver : Int) (key re : Bytes) (limit rev : Int) (c : Cur) :
    (Driver.f_List.run (driverHost ct D progCursor L) [driverRV ver, .tok, .bytes key, .bytes re, .int limit, .int rev] (done K)).run c =
    hand (Verif.Driver.list (decide (ver = 65536)) key re limit rev) (fun r => (K [.ext .rows, .nil]).run (.opened c.calls (r.1.map listCols) r.2))
      fun e => (K [.nil, .ext (.err e)]).run (.closed c.calls) := by
  rw [list_sel]
  have fin : ∀ (sel : DB → List Row) (x : SProg Y), (∀ c, x.run c = hand (Verif.query fun db => (sel db).map listCols) (fun r => (K [.ext .rows, .nil]).run (.opened c.calls r.1 r.2))
        fun e => (K [.nil, .ext (.err e)]).run (.closed c.calls)) →
      x.run c = hand (Verif.query sel) (fun r => (K [.ext .rows, .nil]).run (.opened c.calls (r.1.map listCols) r.2))
        fun e => (K [.nil, .ext (.err e)]).run (.closed c.calls) := fun sel x h => (h c).trans (hand_query_map sel (fun l => l.map listCols) _ _)
  by_cases hre : re.length = 0
  · rw [rangeEndOf, if_pos hre]
    by_cases hv : ver = 65536
    · by_cases hl : limit > 0
      · have e : listSel (decide (ver = 65536)) key (key ++ [0]) limit rev = fun db => sqlLimit limit (listSqlV1_0 db key (key ++ [0]) rev 0) := by
          funext db; simp [listSel, hv, hl]
        rw [e]
        refine fin _ _ fun c => ?_
        go_nf
        refine srun_t (by simpa using hre) (srun_t (by simpa using hv) (srun_t (by simpa using hl) ?_))
        refine (hL.query ver _ _ _ _ _ _ _ rfl).trans ?_
        refine hand_congr (fun _ => by kernel_rfl) (fun _ => by kernel_rfl)
      · have e : listSel (decide (ver = 65536)) key (key ++ [0]) limit rev = fun db => listSqlV1_0 db key (key ++ [0]) rev 0 := by
          funext db; simp [listSel, hv, hl]
        rw [e]
        refine fin _ _ fun c => ?_
        go_nf
        refine srun_t (by simpa using hre) (srun_t (by simpa using hv) (srun_f (by simpa using hl) ?_))
        refine (hL.query ver _ _ _ _ _ _ _ rfl).trans ?_
        refine hand_congr (fun _ => by kernel_rfl) (fun _ => by kernel_rfl)
    · by_cases hl : limit > 0
      · have e : listSel (decide (ver = 65536)) key (key ++ [0]) limit rev = fun db => sqlLimit limit (listSQL db key (key ++ [0]) rev 0) := by
          funext db; simp [listSel, hv, hl]
        rw [e]
        refine fin _ _ fun c => ?_
        go_nf
        refine srun_t (by simpa using hre) (srun_f (by simpa using hv) (srun_t (by simpa using hl) ?_))
        refine (hL.query ver _ _ _ _ _ _ _ rfl).trans ?_
        refine hand_congr (fun _ => by kernel_rfl) (fun _ => by kernel_rfl)
      · have e : listSel (decide (ver = 65536)) key (key ++ [0]) limit rev = fun db => listSQL db key (key ++ [0]) rev 0 := by
          funext db; simp [listSel, hv, hl]
        rw [e]
        refine fin _ _ fun c => ?_
        go_nf
        refine srun_t (by simpa using hre) (srun_f (by simpa using hv) (srun_f (by simpa using hl) ?_))
        refine (hL.query ver _ _ _ _ _ _ _ rfl).trans ?_
        refine hand_congr (fun _ => by kernel_rfl) (fun _ => by kernel_rfl)
  · rw [rangeEndOf, if_neg hre]
    by_cases hv : ver = 65536
    · by_cases hl : limit > 0
      · have e : listSel (decide (ver = 65536)) key re limit rev = fun db => sqlLimit limit (listSqlV1_0 db key re rev 0) := by
          funext db; simp [listSel, hv, hl]
        rw [e]
        refine fin _ _ fun c => ?_
        go_nf
        refine srun_f (by simpa using hre) (srun_t (by simpa using hv) (srun_t (by simpa using hl) ?_))
        refine (hL.query ver _ _ _ _ _ _ _ rfl).trans ?_
        refine hand_congr (fun _ => by kernel_rfl) (fun _ => by kernel_rfl)
      · have e : listSel (decide (ver = 65536)) key re limit rev = fun db => listSqlV1_0 db key re rev 0 := by
          funext db; simp [listSel, hv, hl]
        rw [e]
        refine fin _ _ fun c => ?_
        go_nf
        refine srun_f (by simpa using hre) (srun_t (by simpa using hv) (srun_f (by simpa using hl) ?_))
        refine (hL.query ver _ _ _ _ _ _ _ rfl).trans ?_
        refine hand_congr (fun _ => by kernel_rfl) (fun _ => by kernel_rfl)
    · by_cases hl : limit > 0
      · have e : listSel (decide (ver = 65536)) key re limit rev = fun db => sqlLimit limit (listSQL db key re rev 0) := by
          funext db; simp [listSel, hv, hl]
        rw [e]
        refine fin _ _ fun c => ?_
        go_nf
        refine srun_f (by simpa using hre) (srun_f (by simpa using hv) (srun_t (by simpa using hl) ?_))
        refine (hL.query ver _ _ _ _ _ _ _ rfl).trans ?_
        refine hand_congr (fun _ => by kernel_rfl) (fun _ => by kernel_rfl)
      · have e : listSel (decide (ver = 65536)) key re limit rev = fun db => listSQL db key re rev 0 := by
          funext db; simp [listSel, hv, hl]
        rw [e]
        refine fin _ _ fun c => ?_
        go_nf
        refine srun_f (by simpa using hre) (srun_f (by simpa using hv) (srun_f (by simpa using hl) ?_))
        refine (hL.query ver _ _ _ _ _ _ _ rfl).trans ?_
        refine hand_congr (fun _ => by kernel_rfl) (fun _ => by kernel_rfl)

theorem ListTTL_link (hL : LoopsOk L) (ver rev : Int) (c : Cur) :
    (Driver.f_ListTTL.run (driverHost ct D progCursor L) [driverRV ver, .tok, .int rev] (done K)).run c =
    hand (Verif.Driver.listTTL rev) (fun r => (K [.ext .rows, .nil]).run (.opened c.calls (r.1.map ttlCols) r.2))
      fun e => (K [.nil, .ext (.err e)]).run (.closed c.calls) := by
  refine Eq.trans ?_ (hand_query_map (fun db => ttlSQL db rev) (fun l => l.map ttlCols) (fun r => (K [.ext .rows, .nil]).run (.opened c.calls r.1 r.2)) _)
  go_nf
  refine (hL.query ver _ _ _ _ _ _ _ rfl).trans ?_
  refine hand_congr (fun _ => by kernel_rfl) (fun _ => by kernel_rfl)

theorem AfterPrefix_link (hL : LoopsOk L) (ver : Int) (key re : Bytes) (a b : Int) (c : Cur) :
    (Driver.f_AfterPrefix.run (driverHost ct D progCursor L) [driverRV ver, .tok, .bytes key, .bytes re, .int a, .int b] (done K)).run c =
    hand (Verif.Driver.afterPrefix key re a b) (fun r => (K [.ext .rows, .nil]).run (.opened c.calls (r.1.map eventCols) r.2))
      fun e => (K [.nil, .ext (.err e)]).run (.closed c.calls) := by
  refine Eq.trans ?_ (hand_query_map (fun db => afterSQLPrefix db key (rangeEndOf key re) a b) (fun l => l.map eventCols) (fun r => (K [.ext .rows, .nil]).run (.opened c.calls r.1 r.2)) _)
  by_cases hre : re.length = 0
  · rw [rangeEndOf, if_pos hre]
    go_nf
    refine srun_t (by simpa using hre) ?_
    refine (hL.query ver _ _ _ _ _ _ _ rfl).trans ?_
    refine hand_congr (fun _ => by kernel_rfl) (fun _ => by kernel_rfl)
  · rw [rangeEndOf, if_neg hre]
    go_nf
    refine srun_f (by simpa using hre) ?_
    refine (hL.query ver _ _ _ _ _ _ _ rfl).trans ?_
    refine hand_congr (fun _ => by kernel_rfl) (fun _ => by kernel_rfl)

theorem After_link (hL : LoopsOk L) (ver rev limit : Int) (c : Cur) :
    (Driver.f_After.run (driverHost ct D progCursor L) [driverRV ver, .tok, .int rev, .int limit] (done K)).run c =
    hand (Verif.Driver.after rev limit) (fun r => (K [.ext .rows, .nil]).run (.opened c.calls (r.1.map eventCols) r.2))
      fun e => (K [.nil, .ext (.err e)]).run (.closed c.calls) := by
  by_cases hl : limit > 0
  · have e : Verif.Driver.after rev limit = Verif.query fun db => sqlLimit limit (afterSQL db rev 0) := by
      unfold Verif.Driver.after; congr 1; funext db; rw [sqlLimit_pos hl]; simp [afterSQL, limitBy]
    rw [e]
    refine Eq.trans ?_ (hand_query_map (fun db => sqlLimit limit (afterSQL db rev 0)) (fun l => l.map eventCols) (fun r => (K [.ext .rows, .nil]).run (.opened c.calls r.1 r.2)) _)
    go_nf
    refine srun_t (by simpa using hl) ?_
    refine (hL.query ver _ _ _ _ _ _ _ rfl).trans ?_
    refine hand_congr (fun _ => by kernel_rfl) (fun _ => by kernel_rfl)
  · have e : Verif.Driver.after rev limit = Verif.query fun db => afterSQL db rev 0 := by
      unfold Verif.Driver.after; congr 1; funext db; simp [afterSQL, limitBy, hl]
    rw [e]
    refine Eq.trans ?_ (hand_query_map (fun db => afterSQL db rev 0) (fun l => l.map eventCols) (fun r => (K [.ext .rows, .nil]).run (.opened c.calls r.1 r.2)) _)
    go_nf
    refine srun_f (by simpa using hl) ?_
    refine (hL.query ver _ _ _ _ _ _ _ rfl).trans ?_
    refine hand_congr (fun _ => by kernel_rfl) (fun _ => by kernel_rfl)

theorem GetCompactRevision_link (hL : LoopsOk L) (ver : Int) (c : Cur) :
    (Driver.f_GetCompactRevision.run (driverHost ct D progCursor L) [driverRV ver, .tok] (done K)).run c =
    hand Verif.Driver.getCompactRevision (fun r => (K [.int r.1, .int r.2, .nil]).run (.closed c.calls))
      fun e => (K [.int 0, .int 0, .ext (.err e)]).run (.closed c.calls) := by
  unfold Verif.Driver.getCompactRevision
  rw [hand_andThen]
  generalize hC : progCursor = C
  go_nf
  refine (hL.query ver _ _ _ _ _ _ _ rfl).trans ?_
  refine (hand_query_map revisionIntervalSQL (fun p => [[optInt p.1, optInt p.2]]) _ _).trans ?_
  subst hC
  refine hand_congr ?_ (fun _ => by kernel_rfl)
  rintro ⟨⟨_ | a, _ | b⟩, _ | _ | n⟩ <;> kernel_rfl

theorem CurrentRevision_link (hL : LoopsOk L) (ver : Int) (c : Cur) :
    (Driver.f_CurrentRevision.run (driverHost ct D progCursor L) [driverRV ver, .tok] (done K)).run c =
    hand Verif.Driver.currentRevision (fun r => (K [.int r, .nil]).run (.closed c.calls))
      fun e => (K [.int 0, .ext (.err e)]).run (.closed c.calls) := by
  unfold Verif.Driver.currentRevision
  rw [hand_andThen]
  generalize hC : progCursor = C
  go_nf
  refine (hL.query ver _ _ _ _ _ _ _ rfl).trans ?_
  refine (hand_query_map revSQL (fun p => [[optInt p]]) _ _).trans ?_
  subst hC
  refine hand_congr ?_ (fun _ => by kernel_rfl)
  rintro ⟨_ | a, _ | _ | n⟩ <;> kernel_rfl

theorem DeleteRevision_link (hL : LoopsOk L) (ver rev : Int) (c : Cur) :
    (Driver.f_DeleteRevision.run (driverHost ct D progCursor L) [driverRV ver, .tok, .int rev] (done K)).run c =
    hand (Verif.Driver.deleteRevision rev) (fun _ => (K [.nil]).run c) fun e => (K [.ext (.err e)]).run c := by
  unfold Verif.Driver.deleteRevision
  rw [hand_andThen]
  go_nf
  refine (hL.execute ver _ _ _ _ _ _ rfl).trans ?_
  refine hand_congr (fun _ => by kernel_rfl) (fun _ => by kernel_rfl)

theorem execOf_create (key : Bytes) (l : Int) (v : Bytes) :
    execOf n!"createSQL" [.bytes key, .int l, .bytes v, .bytes key] = some fun db => createSQL db key l v := by
  simp [execOf]

theorem execOf_update (key : Bytes) (l : Int) (v : Bytes) (rev : Int) :
    execOf n!"updateSQL" [.bytes key, .int l, .bytes v, .bytes key, .int rev] = some fun db => updateSQL db key l v rev := by
  simp [execOf]

theorem Create_link (hL : LoopsOk L) (ver : Int) (key value : Bytes) (ttl : Int) (c : Cur) :
    (Driver.f_Create.run (driverHost ct D progCursor L) [driverRV ver, .tok, .bytes key, .bytes value, .int ttl] (done K)).run c =
    hand (Verif.Driver.create key value ttl) (fun r => (K [.int r.1, .bool r.2, .nil]).run c) fun e => (K [.int 0, .bool false, .ext (.err e)]).run c := by
  unfold Verif.Driver.create
  rw [hand_andThen]
  go_nf
  refine (hL.execute ver _ _ _ _ _ _ (execOf_create key ttl value)).trans ?_
  refine hand_congr ?_ (fun _ => by kernel_rfl)
  rintro ⟨_ | n, i⟩ <;> kernel_rfl

theorem Update_link (hL : LoopsOk L) (ver : Int) (key value : Bytes) (rev ttl : Int) (c : Cur) :
    (Driver.f_Update.run (driverHost ct D progCursor L) [driverRV ver, .tok, .bytes key, .bytes value, .int rev, .int ttl] (done K)).run c =
    hand (Verif.Driver.update key value rev ttl) (fun r => (K [.int r.1, .bool r.2, .nil]).run c) fun e => (K [.int 0, .bool false, .ext (.err e)]).run c := by
  unfold Verif.Driver.update
  rw [hand_andThen]
  go_nf
  refine (hL.execute ver _ _ _ _ _ _ (execOf_update key ttl value rev)).trans ?_
  refine hand_congr ?_ (fun _ => by kernel_rfl)
  rintro ⟨_ | n, i⟩ <;> kernel_rfl

theorem Delete_link (hL : LoopsOk L) (ver : Int) (key : Bytes) (rev : Int) (c : Cur) :
    (Driver.f_Delete.run (driverHost ct D progCursor L) [driverRV ver, .tok, .bytes key, .int rev] (done K)).run c =
    hand (Verif.Driver.delete key rev) (fun r => (K [.int r.1, .bool r.2, .nil]).run c) fun e => (K [.int 0, .bool false, .ext (.err e)]).run c := by
  unfold Verif.Driver.delete
  rw [hand_andThen]
  go_nf
  refine (hL.execute ver _ _ _ _ _ _ rfl).trans ?_
  refine hand_congr ?_ (fun _ => by kernel_rfl)
  rintro ⟨_ | n, i⟩ <;> kernel_rfl

/-- The fault of a compaction transaction, if it has one. -/
def firstFault (fault : Nat → Option DbErr) : Option DbErr :=
  (fault 0).or ((fault 1).or ((fault 2).or (fault 3)))

/-- The bytes of the two statements written in the function. -/
def supersededBytes : List UInt8 := SqlChars.compactSuperseded.map fun c => UInt8.ofNat c.toNat

/-- The bytes of the two statements written in the function. -/
def tombstoneBytes : List UInt8 := SqlChars.compactTombstones.map fun c => UInt8.ofNat c.toNat

theorem bytes_superseded : textBytes SqlText.compactSuperseded = supersededBytes := by
  rw [textBytes, SqlChars.compactSuperseded_eq]; rfl

theorem bytes_tombstones : textBytes SqlText.compactTombstones = tombstoneBytes := by
  rw [textBytes, SqlChars.compactTombstones_eq]; rfl

theorem txOf_superseded (a b : Int) (t : List UInt8) (h : t = supersededBytes) : txOf (.bytes t) [.int a, .int b] = some fun db => compactSupersededSQL db a b := by
  rw [txOf, bytes_superseded, h]
  simp only [beq_self_eq_true, if_true]

theorem txOf_tombstones (a b : Int) (t : List UInt8) (h : t = tombstoneBytes) : txOf (.bytes t) [.int a, .int b] = some fun db => compactTombstonesSQL db a b := by
  have hne : (tombstoneBytes == supersededBytes) = false := by decide +kernel
  rw [txOf, bytes_superseded, bytes_tombstones, h]
  simp only [hne, beq_self_eq_true, if_true, Bool.false_eq_true, if_false]

theorem db_txExec (s : V) (args : List V) (f : DB → DB) (h : txOf s args = some f) (c : Cur) (fs : List (DB → DB)) (hc : c.tx = some fs) (ok : SProg Y) (er : ApiErr → SProg Y) :
    ((progDb st fault).txExec s args ok er).run c =
      match fault (fs.length + 1) with
      | some e => (er (.db e)).run c
      | none => ok.run { c with tx := some (f :: fs) } := by
  simp only [progDb, h, hc]
  rfl

theorem db_begin (c : Cur) (hc : c.tx = none) (ok : SProg Y) (er : ApiErr → SProg Y) :
    ((progDb st fault).begin_ ok er).run c =
      match fault 0 with
      | some e => (er (.db e)).run c
      | none => ok.run { c with tx := some [] } := by
  simp only [progDb, hc]
  cases fault 0 <;> rfl

set_option maxRecDepth 100000 in
theorem tryCompact_link (ver a b : Int) (c : Cur) (hc : c.tx = none) :
    (Driver.f_tryCompact.run (driverHost ct (progDb st fault) progCursor L) [driverRV ver, .tok, .int a, .int b] (done K)).run c =
    match firstFault fault with
    | some e => (K [.ext (.err (.db e))]).run c
    | none => .stmt (fun db => tryCompactTx db a b) fun o _ =>
      match o with
      | .ok => (K [.nil]).run c
      | .trunc _ => (K [.nil]).run c
      | .fail e => (K [.ext (.err (.db e))]).run c
      | .lost e => (K [.ext (.err (.db e))]).run c := by
  obtain ⟨r, br, cu, bk, calls, tx⟩ := c
  obtain rfl : tx = none := hc
  have h0 : fault 0 = fault 0 := rfl
  generalize hD : progDb st fault = D
  go_nf
  subst hD
  refine (db_begin st fault _ rfl _ _).trans ?_
  unfold firstFault
  cases fault 0 with
  | some e => rfl
  | none =>
    refine (db_txExec st fault _ _ _ (txOf_superseded a b _ ?_) _ [] rfl _ _).trans ?_
    · decide +kernel
    show (match fault 1 with | some e => _ | none => _) = _
    cases fault 1 with
    | some e => rfl
    | none =>
      refine (db_txExec st fault _ _ _ (txOf_tombstones a b _ ?_) _ _ rfl _ _).trans ?_
      · decide +kernel
      show (match fault 2 with | some e => _ | none => _) = _
      cases fault 2 with
      | some e => rfl
      | none =>
        refine (db_txExec st fault _ _ _ rfl _ _ rfl _ _).trans ?_
        show (match fault 3 with | some e => _ | none => _) = _
        cases fault 3 with
        | some e => rfl
        | none =>
          show Prog.stmt _ _ = Prog.stmt _ _
          congr 1

end
end Verif.Go
