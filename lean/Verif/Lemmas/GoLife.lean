import Verif.Lemmas.GoNf
import Verif.Model.GoLife
/-!
# What the texts of `Start`, `Stop`, `Close` and `startWatch` do
-/

namespace Verif.Go

open Verif.GoText.Life

/-- A goroutine's last action. -/
def lastF : Lf := .done (.ret [])

/-- The loop that compacts (`backend.go:281-290`). -/
def compF (g : Nat) : Nat → Lf
  | 0 => .out
  | n + 1 => .tick g lastF (.ask .doCompact (compF g n) fun _ => compF g n)

/-- The deferred unlock. -/
def exitF (v : V) : Lf := .unlock (.ret [v])

/-- `/registry/health` and its value (`backend.go:93`). -/
def healthKey : Bytes := [47, 114, 101, 103, 105, 115, 116, 114, 121, 47, 104, 101, 97, 108, 116, 104]
/-- Same. -/
def healthVal : Bytes := [123, 34, 104, 101, 97, 108, 116, 104, 34, 58, 34, 116, 114, 117, 101, 34, 125]

/-- `Start` from the last but one assignment backwards to its beginning. -/
def startedF : Lf := .setStarted true (exitF .nil)
def keepF (g : Nat) : Lf := .setStop (some g) startedF
def goTtlF (g : Nat) : Lf := .spawn (.ttl g lastF) (keepF g)
def addOneF (g : Nat) : Lf := .add 1 (goTtlF g)
def abortF (g : Nat) (e : ApiErr) : Lf := .cancel g (exitF (lifeErrV e))
def goPollF (g : Nat) : Lf := .spawn (.poll g lastF) (addOneF g)
def goCompF (N g : Nat) : Lf := .spawn (compF g N) (goPollF g)
def addTwoF (N g : Nat) : Lf := .add 2 (goCompF N g)
def setPollF (N g : Nat) (n : Int) : Lf := .setPoll n (addTwoF N g)
def revF (N g : Nat) : Lf := .revision (setPollF N g) (abortF g)
def watchF (N g : Nat) : Lf := .ask .compactStart (revF N g) (abortF g)
def ctxF (N : Nat) : Lf := .withCancel (watchF N)
def createF (N : Nat) : Lf := .ask (.create healthKey healthVal 0) (ctxF N) fun e => exitF (lifeErrV e)
def startReadF (N : Nat) : Lf := .getStarted fun b => cond b (exitF .nil) (createF N)
def startF (N : Nat) : Lf := .lock (startReadF N)

/-- After `Stop`: its caller (`Close`, or nobody). -/
def afterF : Bool → Lf
  | false => .ret [.nil]
  | true => .ask .closeDriver (.ret [.nil]) fun e => .ret [lifeErrV e]

/-- `Stop` backwards. -/
def waitF (c : Bool) : Lf := .wait (afterF c)
def stopUnlockF (c : Bool) : Lf := .unlock (waitF c)
def clearF (c : Bool) : Lf := .setStarted false (stopUnlockF c)
def dropF (c : Bool) : Lf := .setStop none (clearF c)
def callF (c : Bool) : Lf := .callStop (dropF c)
def stopReadF (c : Bool) : Lf := .getStarted fun b => cond (!b) (afterF c) (callF c)
def stopF (c : Bool) : Lf := .lock (stopReadF c)

theorem loopF_comp (g : Nat) (F : Store Ext → (V → Store Ext → Lf) → Lf) (G : Store Ext → (Store Ext → Lf) → (Store Ext → Lf) → Lf) (k : Store Ext → Lf) (st : Store Ext)
    (h : ∀ K : Store Ext → Lf, (F st fun c s => match c with | .bool b => bif b then G s K k else k s | _ => .stuck) =
      .tick g lastF (.ask .doCompact (K st) fun _ => K st)) : ∀ n, loopF F G k n st = compF g n := by
  intro n
  induction n with
  | zero => rfl
  | succ n ih =>
    unfold loopF compF
    rw [← ih]
    exact h fun s => loopF F G k n s

theorem stopGo_eq (N : Nat) : stopGo N = stopF false := by
  unfold stopF stopReadF callF dropF clearF stopUnlockF waitF afterF
  kernel_rfl

theorem closeGo_eq (N : Nat) : closeGo N = stopF true := by
  unfold stopF stopReadF callF dropF clearF stopUnlockF waitF afterF
  kernel_rfl

theorem askF_congr {o : LfOp} {x x' : Lf} {y y' : ApiErr → Lf} (h : x = x') (h' : ∀ e, y e = y' e) : Lf.ask o x y = .ask o x' y' := by rw [h, funext h']

theorem revF_congr {x x' : Int → Lf} {y y' : ApiErr → Lf} (h : ∀ n, x n = x' n) (h' : ∀ e, y e = y' e) : Lf.revision x y = .revision x' y' := by
  rw [funext h, funext h']

theorem spawnF_congr {t t' k k' : Lf} (h : t = t') (h' : k = k') : Lf.spawn t k = .spawn t' k' := by rw [h, h']

theorem condF_congr {b : Bool} {x y x' y' : Lf} (h : x = x') (h' : y = y') : cond b x y = cond b x' y' := by rw [h, h']

theorem startWatch_run (N g : Nat) (L : Calls Lf) (K : List V → Lf) :
    f_startWatch.run (lifeHost ctlF N L) [lifeV .backend, lifeV (.ctx g)] (Go.done K) =
      .ask .compactStart (.revision (fun n => .setPoll n (.add 2 (.spawn (compF g N) (.spawn (.poll g lastF) (K [.nil])))))
        fun e => K [lifeErrV e]) fun e => K [lifeErrV e] := by
  generalize hct : ctlF = ct
  have hl : ct.loop = loopF := by rw [← hct]; rfl
  go_nf
  refine askF_congr ?_ fun e => ?_
  · go_env
    go_nf
    refine revF_congr (fun n => ?_) fun e => ?_
    · go_env
      go_nf
      refine congrArg (Lf.setPoll n) (congrArg (Lf.add 2) (spawnF_congr ?_ ?_))
      · go_env
        go_nf
        go_env
        go_nf
        go_name F G k
        rw [hl]
        refine loopF_comp g F G k _ (fun K => ?_) N
        subst hF hG hk
        kernel_rfl
      · kernel_rfl
    · kernel_rfl
  · kernel_rfl

theorem withCancel_congr {x x' : Nat → Lf} (h : ∀ n, x n = x' n) : Lf.withCancel x = .withCancel x' := by rw [funext h]

theorem getStarted_congr {x x' : Bool → Lf} (h : ∀ n, x n = x' n) : Lf.getStarted x = .getStarted x' := by rw [funext h]

theorem startGo_eq (N : Nat) : startGo N = startF N := by
  have h : ∀ g K, lifeCalls ctlF N 2 n!"Backend" n!"startWatch" [lifeV .backend, lifeV (.ctx g)] K = _ := fun g K =>
    startWatch_run N g (lifeCalls ctlF N 1) K
  unfold startGo
  generalize hct : lifeCalls ctlF N 2 = L at h ⊢
  go_nf
  refine congrArg Lf.lock (getStarted_congr fun b => ?_)
  go_env
  go_nf
  refine condF_congr ?_ ?_
  · kernel_rfl
  · go_env
    go_nf
    refine askF_congr ?_ fun e => ?_
    · go_env
      go_nf
      refine withCancel_congr fun g => ?_
      go_env
      go_nf
      refine (h g _).trans ?_
      unfold watchF revF
      refine askF_congr (revF_congr (fun n => ?_) fun e => ?_) fun e => ?_
      · unfold setPollF addTwoF goCompF goPollF
        kernel_rfl
      · kernel_rfl
      · kernel_rfl
    · kernel_rfl

end Verif.Go
