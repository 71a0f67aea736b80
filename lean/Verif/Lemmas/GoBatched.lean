import Verif.Lemmas.GoNf
import Verif.Model.GoBatched
/-!
# What the texts of `/repo/pkg/database/batched.go` do
-/

namespace Verif.Go

open Verif.GoText

/-- A loop whose store does not change. -/
theorem loopT_eq (cnd : Store Ext → (V → Store Ext → Th) → Th) (body : Store Ext → (Store Ext → Th) → (Store Ext → Th) → Th) (k : Store Ext → Th)
    (s : Store Ext) (step : Th → Th)
    (h : ∀ K : Store Ext → Th, (cnd s fun c s => match c with | .bool b => bif b then body s K k else k s | _ => .stuck) = step (K s)) :
    ∀ N, loopT cnd body k N s = Nat.rec .out (fun _ r => step r) N := by
  intro N
  induction N with
  | zero => rfl
  | succ n ih =>
    refine (h fun s => loopT cnd body k n s).trans ?_
    exact congrArg step ih

/-- The loop of `ExecContext` that waits for the job. -/
def waitT (j : Nat) : Nat → Th :=
  Nat.rec .out fun _ r => .getJobRunId j fun jr => .getRunId fun r' => cond (decide (r' ≤ jr)) (.wait r)
    (.getJobErr j (.unlock (.ret [jobV j, .nil])) fun _ => .getJobErr j (.unlock (.ret [.nil, .nil])) fun e => .unlock (.ret [.nil, dbErrV e]))

/-- The loop of the worker. -/
def workLoopT : Nat → Th :=
  Nat.rec .out fun _ r => .getQueue fun l => cond (decide ((0 : Int) < l.length))
    (.getQueue fun l' => .setQueue [] (.unlock (.execQueue l' (.lock (.getRunId fun i => .setRunId (i + 1) (.broadcast r))))))
    (.setStatus 0 (.unlock (.ret [])))

/-- The worker. -/
def workerT (N : Nat) : Th := .lock (.setStatus 2 (workLoopT N))

/-- The loop of `Close`. -/
def closeLoopT : Nat → Th :=
  Nat.rec .out fun _ r => .getStatus fun st => cond (!decide (st = 0)) (.wait r) (.closeDb (.unlock (.ret [.nil])) fun e => .unlock (.ret [dbErrV e]))

theorem Close_tree (N : Nat) : goroutine N n!"batchedDb" n!"Close" [batcherV] =
    .lock (.getClosed fun cl => cond cl (.unlock (.ret [closedV])) (.setClosed true (.stopWorker (closeLoopT N)))) := by
  unfold goroutine
  generalize hct : ctlT = ct
  go_nf
  refine congrArg Th.lock ?_
  go_nf
  refine congrArg Th.getClosed (funext fun cl => ?_)
  cases cl
  case true => kernel_rfl
  case false =>
    go_nf
    refine congrArg (Th.setClosed true) ?_
    go_nf
    refine congrArg Th.stopWorker ?_
    go_nf
    go_name F G k
    subst hct
    refine loopT_eq F G k _ _ (fun K => ?_) N
    subst hF hG hk
    kernel_rfl

theorem cond_congr {b : Bool} {x y x' y' : Th} (h : x = x') (h' : y = y') : cond b x y = cond b x' y' := by rw [h, h']

theorem spawn_congr {x y x' y' : Th} (h : x = x') (h' : y = y') : Th.spawn x y = .spawn x' y' := by rw [h, h']

/-- `run` and what follows it in `ExecContext`. -/
def runT (N j : Nat) : Th :=
  .getStatus fun st => cond (decide (st = 0)) (.setStatus 1 (.spawn (workerT N) (waitT j N))) (waitT j N)

/-- `ExecContext` from the creation of the job on. -/
def submitT (N : Nat) (ctx : Nat) (query : List UInt8) (args : List V) (r : Int) : Th :=
  .newJob ctx query args r fun j => .getQueue fun l => .setQueue (l ++ [jobV j]) (runT N j)

theorem ExecContext_tree (N : Nat) (ctx : Nat) (query : List UInt8) (args : List V) :
    goroutine N n!"batchedDb" n!"ExecContext" (batcherV :: ctxV ctx :: .bytes query :: args) =
    .lock (.getClosed fun cl => cond cl (.unlock (.ret [.nil, closedV])) (.getRunId fun r => .getStatus fun st =>
      cond (decide (st = 2)) (submitT N ctx query args (r + 1)) (submitT N ctx query args r))) := by
  unfold goroutine
  generalize hct : ctlT = ct
  go_nf
  refine congrArg Th.lock ?_
  go_nf
  refine congrArg Th.getClosed (funext fun cl => ?_)
  cases cl
  case true => kernel_rfl
  case false =>
    go_nf
    refine congrArg Th.getRunId (funext fun r => ?_)
    go_nf
    refine congrArg Th.getStatus (funext fun st => ?_)
    go_nf
    subst hct
    generalize decide (st = 2) = d
    cases d <;>
    · generalize hct : ctlT = ct
      go_nf
      refine congrArg (Th.newJob _ _ _ _) (funext fun j => ?_)
      go_nf
      refine congrArg Th.getQueue (funext fun l => ?_)
      go_nf
      refine congrArg (Th.setQueue _) ?_
      go_nf
      refine congrArg Th.getStatus (funext fun st' => ?_)
      go_nf
      refine cond_congr ?_ ?_
      · refine congrArg (Th.setStatus 1) ?_
        go_nf
        refine spawn_congr ?_ ?_
        · go_nf
          refine congrArg Th.lock ?_
          go_nf
          refine congrArg (Th.setStatus 2) ?_
          go_nf
          go_name F G k
          subst hct
          refine loopT_eq F G k _ _ (fun K => ?_) N
          subst hF hG hk
          kernel_rfl
        · go_nf
          go_name F G k
          subst hct
          refine loopT_eq F G k _ _ (fun K => ?_) N
          subst hF hG hk
          kernel_rfl
      · go_nf
        go_name F G k
        subst hct
        refine loopT_eq F G k _ _ (fun K => ?_) N
        subst hF hG hk
        kernel_rfl

theorem RowsAffected_tree (N j : Nat) : goroutine N n!"batchJob" n!"RowsAffected" [jobV j] =
    .getJobErr j (.getJobRows j fun n => .ret [.int n, .nil]) fun _ => .getJobErr j (.ret [.int 0, .nil]) fun e => .ret [.int 0, dbErrV e] := by
  kernel_rfl

theorem LastInsertId_tree (N j : Nat) : goroutine N n!"batchJob" n!"LastInsertId" [jobV j] =
    .getJobErr j (.getJobLast j fun n => .ret [.int n, .nil]) fun _ => .getJobErr j (.ret [.int 0, .nil]) fun e => .ret [.int 0, dbErrV e] := by
  kernel_rfl

/-- `return job.err`. -/
def jobErrT (j : Nat) (k : Option DbErr → Th) : Th := .getJobErr j (k none) fun e => k (some e)

/-- What follows the statement in `exec`. -/
def jobRowsT (j r : Nat) (k : Option DbErr → Th) : Th :=
  .resRows r (fun n => .setJobRows j n (.resLast r (fun m => .setJobLast j m (k none)) fun e => .setJobErr j (some e) (jobErrT j k)))
    fun e => .setJobErr j (some e) (jobErrT j k)

/-- `exec` of a job. -/
def execJobT (inTx : Bool) (j : Nat) (k : Option DbErr → Th) : Th :=
  .getJobCtx j fun c => .ctxDone c
    (.getJobCtx j fun c' => .ctxErr c' (.setJobErr j none (jobErrT j k)) fun e => .setJobErr j (some e) (jobErrT j k))
    (.getJobQuery j fun q => .getJobArgs j fun l => .exec inTx q l
      (fun r => .setJobErr j none (.getJobErr j (jobRowsT j r k) fun _ => jobErrT j k))
      (fun e => .setJobErr j (some e) (.getJobErr j .stuck fun _ => jobErrT j k)))

/-- An error as a value. -/
def optErrV : Option DbErr → V
  | none => .nil
  | some e => dbErrV e

theorem exec_tree (ct : Control Ext Th) (N n j : Nat) (inTx : Bool) (c : V) (k : List V → Th) :
    batchedCalls ct N (n + 1) n!"batchJob" n!"exec" [jobV j, c, .ext (.db (cond inTx .tx .wrapped))] k =
    execJobT inTx j fun e => k [optErrV e] := by
  cases inTx <;> kernel_rfl

/-- The error of the transaction is written to all jobs. -/
def failT (e : DbErr) : List Nat → Th
  | [] => .ret []
  | j :: js => .setJobErr j (some e) (failT e js)

/-- The jobs in the transaction. -/
def txT (all : List Nat) : List Nat → Th
  | [] => .commit (.rollback (.ret [])) fun e => .rollback (failT e all)
  | j :: js => execJobT true j fun
    | none => txT all js
    | some e => .rollback (failT e all)

theorem execQueue_tree_nil (N : Nat) (c : V) : goroutine N n!"batchedDb" n!"execQueue" [batcherV, c, .list []] = .ret [] := by
  kernel_rfl

theorem execQueue_tree_one (N j : Nat) (c : V) : goroutine N n!"batchedDb" n!"execQueue" [batcherV, c, .list [jobV j]] =
    .getJobCtx j fun _ => execJobT false j fun _ => .ret [] := by
  kernel_rfl

theorem rangeT_fail (body : Nat → V → Store Ext → (Store Ext → Th) → (Store Ext → Th) → Th) (k : Store Ext → Th) (s : Store Ext) (e : DbErr)
    (h : ∀ i j K, body i (jobV j) s K k = .setJobErr j (some e) (K s)) (hk : k s = .ret []) :
    ∀ (js : List Nat) i, rangeStd body k (js.map jobV) i s = failT e js := by
  intro js
  induction js with
  | nil => intro i; exact hk
  | cons j js ih =>
    intro i
    refine (h i j _).trans ?_
    exact congrArg (Th.setJobErr j (some e)) (ih (i + 1))

theorem rangeT_tx (body : Nat → V → Store Ext → (Store Ext → Th) → (Store Ext → Th) → Th) (k : Store Ext → Th) (s : Store Ext) (all : List Nat)
    (h : ∀ i j K, body i (jobV j) s K k = execJobT true j fun
      | none => K s
      | some e => .rollback (failT e all))
    (hk : k s = .commit (.rollback (.ret [])) fun e => .rollback (failT e all)) :
    ∀ (js : List Nat) i, rangeStd body k (js.map jobV) i s = txT all js := by
  intro js
  induction js with
  | nil => intro i; exact hk
  | cons j js ih =>
    intro i
    refine (h i j _).trans ?_
    unfold txT
    refine congrArg (execJobT true j) (funext fun e => ?_)
    cases e
    · exact ih (i + 1)
    · rfl

theorem er_congr {α : Type} {f : Th → (α → Th) → Th} {x x' : Th} {y y' : α → Th} (h : x = x') (h' : ∀ a, y a = y' a) : f x y = f x' y' := by
  rw [h, funext h']

theorem er2_congr {α β : Type} {f : (α → Th) → (β → Th) → Th} {x x' : α → Th} {y y' : β → Th} (h : ∀ a, x a = x' a) (h' : ∀ a, y a = y' a) :
    f x y = f x' y' := by
  rw [funext h, funext h']

theorem th2_congr {f : Th → Th → Th} {x y x' y' : Th} (h : x = x') (h' : y = y') : f x y = f x' y' := by rw [h, h']

theorem fun_congr {α : Type} {f : (α → Th) → Th} {x x' : α → Th} (h : ∀ a, x a = x' a) : f x = f x' := by rw [funext h]

open Lean Meta Elab Tactic in
/-- Evaluate the right side of the goal to its next action. -/
elab "th_rhs" : tactic => do
  let g ← getMainGoal
  g.withContext do
    let t ← whnfR (← instantiateMVars (← g.getType))
    let some (ty, lhs, rhs) := t.eq? | throwError "not an equation"
    match Kernel.whnf (← getEnv) (← getLCtx) rhs with
    | .error _ => throwError "no action"
    | .ok rhs' =>
      let g' ← mkFreshExprSyntheticOpaqueMVar (← mkEq lhs rhs') (← g.getTag)
      let u ← getLevel ty
      let h := mkExpectedPropHint (mkApp2 (.const ``Eq.refl [u]) ty rhs') (← mkEq rhs' rhs)
      g.assign (← mkEqTrans g' h)
      replaceMainGoal [g'.mvarId!]

open Lean Meta Elab Tactic in
/-- Compare the next action on both sides. -/
elab "th_step" : tactic => do
  evalTactic (← `(tactic| th_rhs))
  let g ← getMainGoal
  let t ← g.withContext do whnfR (← instantiateMVars (← g.getType))
  let some (_, lhs, _) := t.eq? | throwError "not an equation"
  let .const n _ := lhs.getAppFn | throwError "no action"
  match n with
  | ``Th.getJobCtx => evalTactic (← `(tactic| refine fun_congr (f := Th.getJobCtx _) fun _ => ?_))
  | ``Th.getJobQuery => evalTactic (← `(tactic| refine fun_congr (f := Th.getJobQuery _) fun _ => ?_))
  | ``Th.getJobArgs => evalTactic (← `(tactic| refine fun_congr (f := Th.getJobArgs _) fun _ => ?_))
  | ``Th.ctxDone => evalTactic (← `(tactic| refine th2_congr (f := Th.ctxDone _) ?_ ?_))
  | ``Th.ctxErr => evalTactic (← `(tactic| refine er_congr (f := Th.ctxErr _) ?_ fun _ => ?_))
  | ``Th.getJobErr => evalTactic (← `(tactic| refine er_congr (f := Th.getJobErr _) ?_ fun _ => ?_))
  | ``Th.beginTx => evalTactic (← `(tactic| refine er_congr (f := Th.beginTx) ?_ fun _ => ?_))
  | ``Th.commit => evalTactic (← `(tactic| refine er_congr (f := Th.commit) ?_ fun _ => ?_))
  | ``Th.exec => evalTactic (← `(tactic| refine er2_congr (f := Th.exec _ _ _) (fun _ => ?_) fun _ => ?_))
  | ``Th.resRows => evalTactic (← `(tactic| refine er2_congr (f := Th.resRows _) (fun _ => ?_) fun _ => ?_))
  | ``Th.resLast => evalTactic (← `(tactic| refine er2_congr (f := Th.resLast _) (fun _ => ?_) fun _ => ?_))
  | ``Th.setJobErr => evalTactic (← `(tactic| refine congrArg (Th.setJobErr _ _) ?_))
  | ``Th.setJobRows => evalTactic (← `(tactic| refine congrArg (Th.setJobRows _ _) ?_))
  | ``Th.setJobLast => evalTactic (← `(tactic| refine congrArg (Th.setJobLast _ _) ?_))
  | ``Th.rollback => evalTactic (← `(tactic| refine congrArg Th.rollback ?_))
  | ``Th.stuck => evalTactic (← `(tactic| rfl))
  | ``Th.ret => evalTactic (← `(tactic| rfl))
  | _ => throwError "no action"

theorem execQueue_tree_many (N j1 j2 : Nat) (js : List Nat) (c : V) :
    goroutine N n!"batchedDb" n!"execQueue" [batcherV, c, .list (jobV j1 :: jobV j2 :: js.map jobV)] =
    .beginTx (txT (j1 :: j2 :: js) (j1 :: j2 :: js)) fun e => failT e (j1 :: j2 :: js) := by
  unfold goroutine
  generalize hct : ctlT = ct
  go_nf
  refine er_congr (f := Th.beginTx) ?_ fun e => ?_
  · go_nf
    go_name F k
    subst hct
    refine rangeT_tx F k _ (j1 :: j2 :: js) (fun i j K => ?_) ?_ (j1 :: j2 :: js) 0
    · subst hF hk
      generalize hct : ctlT = ct
      go_nf
      iterate 14 (all_goals try (th_step <;> go_nf))
      all_goals first
        | rfl
        | go_name F k
          subst hct
          refine rangeT_fail F k _ _ (fun i j K => ?_) ?_ (j1 :: j2 :: js) 0 <;> subst hF hk <;> kernel_rfl
    · subst hF hk
      generalize hct : ctlT = ct
      go_nf
      th_step
      · kernel_rfl
      · go_nf
        th_step
        go_nf
        go_name F k
        subst hct
        refine rangeT_fail F k _ _ (fun i j K => ?_) ?_ (j1 :: j2 :: js) 0 <;> subst hF hk <;> kernel_rfl
  · go_nf
    go_name F k
    subst hct
    refine rangeT_fail F k _ e (fun i j K => ?_) ?_ (j1 :: j2 :: js) 0
    · subst hF hk; kernel_rfl
    · subst hF hk; kernel_rfl

end Verif.Go
