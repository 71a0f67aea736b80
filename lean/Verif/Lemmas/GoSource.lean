import Verif.Lemmas.GoDriverTop
/-!
# The driver by its texts, and the request handlers on the backend and the driver, all by their texts
-/

namespace Verif.Go

open Verif.GoText

section
variable {Y : Type}

/-- No step of a transaction fails before its end. -/
def noFault : Nat → Option DbErr := fun _ => none

/-- The texts of the driver on a database, calls nested `n` deep. -/
noncomputable abbrev driverTexts (stuck : SProg Y) (D : DbOps (SProg Y)) (n : Nat) : Calls (SProg Y) := driverCalls (Control.lim stuck) D progCursor n

variable (stuck : SProg Y) (st : Prog Y) (fault : Nat → Option DbErr)

theorem texts_loopsOk (n : Nat) : LoopsOk (driverTexts stuck (progDb st fault) (n + 1)) where
  query ver nm sn lim args sel kk c h := by
    refine Eq.trans ?_ (query_link st fault (driverTexts stuck (progDb st fault) n) kk stuck ver nm sn lim args sel h c)
    kernel_rfl
  execute ver nm sn args f kk c h := by
    refine Eq.trans ?_ (execute_link st fault (driverTexts stuck (progDb st fault) n) kk stuck ver nm sn args f h c)
    kernel_rfl

theorem texts_compactOk (n : Nat) : CompactOk (driverTexts stuck (progDb st noFault) (n + 2)) where
  rev ver kk c := by
    refine Eq.trans ?_ (GetCompactRevision_link (driverTexts stuck (progDb st noFault) (n + 1)) kk (Control.lim stuck) (progDb st noFault)
      (texts_loopsOk stuck st noFault n) ver c)
    kernel_rfl
  tryOnce ver a b kk m := by
    refine Eq.trans ?_ ((tryCompact_link st noFault (driverTexts stuck (progDb st noFault) (n + 1)) kk (Control.lim stuck) ver a b (.closed m) rfl).trans ?_)
    · kernel_rfl
    · rfl

/-- A method of the driver of `pkg/backend/sqlite`, by its text. -/
noncomputable def sqliteCall (ver : Int) (n : Nat) (m : Nm) (args : List V) (kk : List V → SProg Y) : SProg Y :=
  driverTexts stuck (progDb st noFault) n n!"Driver" m (driverRV ver :: args) kk

/-- A method of the driver of `pkg/backend/dqlite`, by its text. -/
noncomputable def dqliteCall (ver self : Int) (ans : Nat → LeaderAns) (n : Nat) (m : Nm) (args : List V) (kk : List V → SProg Y) : SProg Y :=
  dqliteCalls (Control.lim stuck) (progApp self ans) (sqliteCall stuck st ver n) 2 n!"Driver" m (dqliteRV :: args) kk

/-- A number, or an error. -/
def endInt (ok : Int → SProg Y) (er : ApiErr → SProg Y) : List V → SProg Y
  | [.int a, .nil] => ok a
  | [_, .ext (.err e)] => er e
  | _ => stuck

/-- Two numbers, or an error. -/
def endInts (ok : Int → Int → SProg Y) (er : ApiErr → SProg Y) : List V → SProg Y
  | [.int a, .int b, .nil] => ok a b
  | [_, _, .ext (.err e)] => er e
  | _ => stuck

/-- A number and a truth value, or an error. -/
def endWrite (ok : Int → Bool → SProg Y) (er : ApiErr → SProg Y) : List V → SProg Y
  | [.int a, .bool b, .nil] => ok a b
  | [_, _, .ext (.err e)] => er e
  | _ => stuck

/-- An open cursor, or an error. -/
def endRows (ok : SProg Y) (er : ApiErr → SProg Y) : List V → SProg Y
  | [.ext .rows, .nil] => ok
  | [_, .ext (.err e)] => er e
  | _ => stuck

/-- Nothing, or an error. -/
def endErr (ok : SProg Y) (er : ApiErr → SProg Y) : List V → SProg Y
  | [.nil] => ok
  | [.ext (.err e)] => er e
  | _ => stuck

/-- The driver, by its texts: `Compact` is the one of `pkg/backend/dqlite`, the other methods are those of the embedded driver of
`pkg/backend/sqlite`. -/
noncomputable def textDriver (ver self : Int) (ans : Nat → LeaderAns) (n : Nat) : DriverOps (SProg Y) :=
  { getCompactRevision := fun ok er => sqliteCall stuck st ver n n!"GetCompactRevision" [.tok] (endInts stuck ok er)
    currentRevision := fun ok er => sqliteCall stuck st ver n n!"CurrentRevision" [.tok] (endInt stuck ok er)
    list := fun k e l r ok er => sqliteCall stuck st ver n n!"List" [.tok, .bytes k, .bytes e, .int l, .int r] (endRows stuck ok er)
    count := fun k e r ok er => sqliteCall stuck st ver n n!"Count" [.tok, .bytes k, .bytes e, .int r] (endInt stuck ok er)
    create := fun k v l ok er => sqliteCall stuck st ver n n!"Create" [.tok, .bytes k, .bytes v, .int l] (endWrite stuck ok er)
    update := fun k v p l ok er => sqliteCall stuck st ver n n!"Update" [.tok, .bytes k, .bytes v, .int p, .int l] (endWrite stuck ok er)
    delete := fun k p ok er => sqliteCall stuck st ver n n!"Delete" [.tok, .bytes k, .int p] (endWrite stuck ok er)
    afterPrefix := fun k e a b ok er => sqliteCall stuck st ver n n!"AfterPrefix" [.tok, .bytes k, .bytes e, .int a, .int b] (endRows stuck ok er)
    deleteRevision := fun r ok er => sqliteCall stuck st ver n n!"DeleteRevision" [.tok, .int r] (endErr stuck ok er)
    compact := fun r ok er => dqliteCall stuck st ver self ans n n!"Compact" [.tok, .int r] (endErr stuck ok er) }

variable (ver self : Int) (ans : Nat → LeaderAns)

theorem sCompact (n : Nat) (rev : Int) (kk : List V → SProg Y) (c : Cur) :
    (sqliteCall stuck st ver (n + 3) n!"Compact" [.tok, .int rev] kk).run c =
      hand (Verif.Driver.compactSqlite rev) (fun _ => (kk [.nil]).run (.closed c.calls)) fun e => (kk [.ext (.err e)]).run (.closed c.calls) := by
  refine Eq.trans ?_ (Compact_link (driverTexts stuck (progDb st noFault) (n + 2)) kk stuck (progDb st noFault) (texts_compactOk stuck st n) ver rev c)
  kernel_rfl

theorem dLeader (S : Nm → List V → (List V → SProg Y) → SProg Y) (n : Nat) (kk : List V → SProg Y) (c : Cur) :
    (dqliteCalls (Control.lim stuck) (progApp self ans) S (n + 1) n!"Driver" n!"isLocalNodeLeader" [dqliteRV, .tok] kk).run c =
      match ans c.calls with
      | .leader i => (kk [.bool (decide (self = i)), .nil]).run (.closed (c.calls + 1))
      | .noLeader e => (kk [.bool false, .ext (.err (.db e))]).run (.closed (c.calls + 1))
      | .noClient e => (kk [.bool false, .ext (.err (.db e))]).run (.closed (c.calls + 1)) := by
  refine Eq.trans ?_ (isLocalNodeLeader_link (dqliteCalls (Control.lim stuck) (progApp self ans) S n) kk (Control.lim stuck) S self ans c)
  kernel_rfl

theorem dCompact (n : Nat) (rev : Int) (kk : List V → SProg Y) (c : Cur) :
    (dqliteCall stuck st ver self ans (n + 3) n!"Compact" [.tok, .int rev] kk).run c =
      hand (Verif.Driver.compact ((ans c.calls).isLocal self) rev) (fun _ => (kk [.nil]).run (.closed (c.calls + 1)))
        fun e => (kk [.ext (.err e)]).run (.closed (c.calls + 1)) := by
  refine Eq.trans ?_ (DqliteCompact_link (dqliteCalls (Control.lim stuck) (progApp self ans) (sqliteCall stuck st ver (n + 3)) 1) kk (Control.lim stuck)
    (sqliteCall stuck st ver (n + 3)) self ans rev c (dLeader stuck self ans _ 0) (fun kk c => sCompact stuck st ver n rev kk c))
  kernel_rfl

theorem SProg.ext' {x y : SProg Y} (h : ∀ c, x.run c = y.run c) : x = y := by
  cases x; cases y
  congr 1
  funext c
  exact h c

theorem DriverOps.ext' {R : Type} {a b : DriverOps R} (h1 : ∀ ok er, a.getCompactRevision ok er = b.getCompactRevision ok er)
    (h2 : ∀ ok er, a.currentRevision ok er = b.currentRevision ok er) (h3 : ∀ k e l r ok er, a.list k e l r ok er = b.list k e l r ok er)
    (h4 : ∀ k e r ok er, a.count k e r ok er = b.count k e r ok er) (h5 : ∀ k v l ok er, a.create k v l ok er = b.create k v l ok er)
    (h6 : ∀ k v p l ok er, a.update k v p l ok er = b.update k v p l ok er) (h7 : ∀ k p ok er, a.delete k p ok er = b.delete k p ok er)
    (h8 : ∀ k e l r ok er, a.afterPrefix k e l r ok er = b.afterPrefix k e l r ok er) (h9 : ∀ r ok er, a.deleteRevision r ok er = b.deleteRevision r ok er)
    (h10 : ∀ r ok er, a.compact r ok er = b.compact r ok er) : a = b := by
  cases a
  cases b
  obtain rfl := funext fun ok => funext fun er => h1 ok er
  obtain rfl := funext fun ok => funext fun er => h2 ok er
  obtain rfl := funext fun k => funext fun e => funext fun l => funext fun r => funext fun ok => funext fun er => h3 k e l r ok er
  obtain rfl := funext fun k => funext fun e => funext fun r => funext fun ok => funext fun er => h4 k e r ok er
  obtain rfl := funext fun k => funext fun v => funext fun l => funext fun ok => funext fun er => h5 k v l ok er
  obtain rfl := funext fun k => funext fun v => funext fun p => funext fun l => funext fun ok => funext fun er => h6 k v p l ok er
  obtain rfl := funext fun k => funext fun p => funext fun ok => funext fun er => h7 k p ok er
  obtain rfl := funext fun k => funext fun e => funext fun l => funext fun r => funext fun ok => funext fun er => h8 k e l r ok er
  obtain rfl := funext fun r => funext fun ok => funext fun er => h9 r ok er
  obtain rfl := funext fun r => funext fun ok => funext fun er => h10 r ok er
  rfl

/-- The driver's texts are the driver of the model. -/
theorem textDriver_eq (n : Nat) : textDriver stuck st ver self ans (n + 3) =
    progDriver (decide (ver = 65536)) fun i => (ans i).isLocal self := by
  have hL : LoopsOk (driverTexts stuck (progDb st noFault) (n + 2)) := texts_loopsOk stuck st noFault (n + 1)
  refine DriverOps.ext' ?_ ?_ ?_ ?_ ?_ ?_ ?_ ?_ ?_ ?_
  · intro ok er
    refine SProg.ext' fun c => ?_
    refine Eq.trans ?_ (GetCompactRevision_link (driverTexts stuck (progDb st noFault) (n + 2)) (endInts stuck ok er) (Control.lim stuck) (progDb st noFault) hL ver c)
    kernel_rfl
  · intro ok er
    refine SProg.ext' fun c => ?_
    refine Eq.trans ?_ (CurrentRevision_link (driverTexts stuck (progDb st noFault) (n + 2)) (endInt stuck ok er) (Control.lim stuck) (progDb st noFault) hL ver c)
    kernel_rfl
  · intro k e l r ok er
    refine SProg.ext' fun c => ?_
    refine Eq.trans ?_ (List_link (driverTexts stuck (progDb st noFault) (n + 2)) (endRows stuck ok er) (Control.lim stuck) (progDb st noFault) hL ver k e l r c)
    kernel_rfl
  · intro k e r ok er
    refine SProg.ext' fun c => ?_
    refine Eq.trans ?_ (Count_link (driverTexts stuck (progDb st noFault) (n + 2)) (endInt stuck ok er) (Control.lim stuck) (progDb st noFault) hL ver k e r c)
    kernel_rfl
  · intro k v l ok er
    refine SProg.ext' fun c => ?_
    refine Eq.trans ?_ (Create_link (driverTexts stuck (progDb st noFault) (n + 2)) (endWrite stuck ok er) (Control.lim stuck) (progDb st noFault) hL ver k v l c)
    kernel_rfl
  · intro k v p l ok er
    refine SProg.ext' fun c => ?_
    refine Eq.trans ?_ (Update_link (driverTexts stuck (progDb st noFault) (n + 2)) (endWrite stuck ok er) (Control.lim stuck) (progDb st noFault) hL ver k v p l c)
    kernel_rfl
  · intro k p ok er
    refine SProg.ext' fun c => ?_
    refine Eq.trans ?_ (Delete_link (driverTexts stuck (progDb st noFault) (n + 2)) (endWrite stuck ok er) (Control.lim stuck) (progDb st noFault) hL ver k p c)
    kernel_rfl
  · intro k e a b ok er
    refine SProg.ext' fun c => ?_
    refine Eq.trans ?_ (AfterPrefix_link (driverTexts stuck (progDb st noFault) (n + 2)) (endRows stuck ok er) (Control.lim stuck) (progDb st noFault) hL ver k e a b c)
    kernel_rfl
  · intro r ok er
    refine SProg.ext' fun c => ?_
    refine Eq.trans ?_ (DeleteRevision_link (driverTexts stuck (progDb st noFault) (n + 2)) (endErr stuck ok er) (Control.lim stuck) (progDb st noFault) hL ver r c)
    kernel_rfl
  · intro r ok er
    refine SProg.ext' fun c => ?_
    refine Eq.trans ?_ (dCompact stuck st ver self ans n r (endErr stuck ok er) c)
    kernel_rfl

end
end Verif.Go
