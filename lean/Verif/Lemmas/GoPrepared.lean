import Verif.Lemmas.GoBackend
import Verif.Model.GoPrepared
/-!
# What the texts of `/repo/pkg/database/prepared.go` do
-/

namespace Verif.Go

open Verif.GoText

/-- What `prepare` answers. -/
inductive PrepAns where
  | ok (s : Nat)
  | closed
  | failed (e : ApiErr)

/-- The same as values. -/
def PrepAns.vs : PrepAns → List V
  | .ok s => [prepV (.stmt s), .nil]
  | .closed => [.nil, closedErrV]
  | .failed e => [.nil, prepErrV e]

/-- The section of `prepare` under the write lock, after the second lookup found nothing. -/
def prepMissT (q : List UInt8) (k : PrepAns → Pt) : Pt :=
  .getUnder fun b => bif b then
    .prepare q (fun s => .store q s (.unlock (k (.ok s)))) (fun e => .unlock (k (.failed e))) else .panic

/-- `prepare`. -/
def prepareT (q : List UInt8) (k : PrepAns → Pt) : Pt :=
  .rlock (.lookup q fun o => .runlock (match o with
    | some s => k (.ok s)
    | none => .lock (.getUnder fun b => bif b then
        .lookup q fun o => (match o with
          | some s => .unlock (k (.ok s))
          | none => prepMissT q k)
        else .unlock (k .closed))))

theorem getUnder_congr {f g : Bool → Pt} (h : ∀ b, f b = g b) : Pt.getUnder f = .getUnder g := by rw [funext h]
theorem lookup_congr {q : List UInt8} {f g : Option Nat → Pt} (h : ∀ b, f b = g b) : Pt.lookup q f = .lookup q g := by rw [funext h]

theorem prepare_tree (n : Nat) (q : List UInt8) (k : List V → Pt) :
    prepCalls ctlP (n + 2) n!"preparedDb" n!"prepare" [prepV .db, .tok, .bytes q] k = prepareT q fun a => k a.vs := by
  generalize hct : ctlP = ct
  go_nf
  refine congrArg Pt.rlock (lookup_congr fun o => ?_)
  cases o with
  | some s => go_env; go_nf; rfl
  | none =>
    go_env
    go_nf
    refine congrArg Pt.runlock (congrArg Pt.lock (getUnder_congr fun b => ?_))
    cases b with
    | false => go_env; go_nf; rfl
    | true =>
      go_env
      go_nf
      refine lookup_congr fun o => ?_
      cases o with
      | some s => go_env; go_nf; rfl
      | none => 
        go_env
        go_nf
        refine getUnder_congr fun b => ?_
        cases b with
        | false => go_env; go_nf; rfl
        | true => go_env; go_nf; rfl

/-! ### `ExecContext`, `QueryContext`, `PrepareContext` -/

/-- After `prepare`: the statement is executed. -/
def execT (query : Bool) (tx : Option Nat) (args : List V) : PrepAns → Pt
  | .ok s => .exec query tx s args (fun a => .ret [prepV (.answer a), .nil]) fun e => .ret [.nil, prepErrV e]
  | .closed => .ret [.nil, closedErrV]
  | .failed e => .ret [.nil, prepErrV e]

theorem prepareT_congr {k k' : PrepAns → Pt} (h : ∀ e, k e = k' e) (q : List UInt8) : prepareT q k = prepareT q k' := by
  rw [funext h]

theorem run_tree (query : Bool) (q : List UInt8) (args : List V) : (POp.run query q args).go = prepareT q (execT query none args) := by
  have hL := prepare_tree 1 q
  unfold POp.go
  cases query with
  | false =>
    refine Eq.trans (b := Prepared.f_preparedDb_ExecContext.run (prepHost ctlP (prepCalls ctlP 3)) (prepV .db :: .tok :: .bytes q :: args) fun vs _ => .ret vs)
      (by kernel_rfl) ?_
    generalize prepCalls ctlP 3 = L at hL ⊢
    generalize hct : ctlP = ct
    go_nf
    refine (hL _).trans (prepareT_congr (fun a => ?_) q)
    clear hL
    subst hct
    cases a <;> kernel_rfl
  | true =>
    refine Eq.trans (b := Prepared.f_preparedDb_QueryContext.run (prepHost ctlP (prepCalls ctlP 3)) (prepV .db :: .tok :: .bytes q :: args) fun vs _ => .ret vs)
      (by kernel_rfl) ?_
    generalize prepCalls ctlP 3 = L at hL ⊢
    generalize hct : ctlP = ct
    go_nf
    refine (hL _).trans (prepareT_congr (fun a => ?_) q)
    clear hL
    subst hct
    cases a <;> kernel_rfl

/-- After `prepare`: the statement of the transaction. -/
def txStmtT (t : Nat) (k : List V → Pt) : PrepAns → Pt
  | .ok s => k [prepV (.txStmt t s), .nil]
  | .closed => k [.nil, closedErrV]
  | .failed e => k [.nil, prepErrV e]

theorem txPrepare_tree' (n : Nat) (t : Nat) (q : List UInt8) (k : List V → Pt) :
    prepCalls ctlP (n + 3) n!"preparedTx" n!"PrepareContext" [prepV (.ptx t), .tok, .bytes q] k = prepareT q (txStmtT t k) := by
  have hL := prepare_tree n q
  refine Eq.trans (b := Prepared.f_preparedTx_PrepareContext.run (prepHost ctlP (prepCalls ctlP (n + 2))) [prepV (.ptx t), .tok, .bytes q] fun vs _ => k vs)
    (by kernel_rfl) ?_
  generalize prepCalls ctlP (n + 2) = L at hL ⊢
  generalize hct : ctlP = ct
  go_nf
  refine (hL _).trans (prepareT_congr (fun a => ?_) q)
  cases a <;> (go_env; go_nf; rfl)

theorem txPrepare_tree (t : Nat) (q : List UInt8) : (POp.txPrepare t q).go = prepareT q (txStmtT t .ret) := txPrepare_tree' 1 t q .ret

theorem txRun_tree (query : Bool) (t : Nat) (q : List UInt8) (args : List V) :
    (POp.txRun query t q args).go = prepareT q (execT query (some t) args) := by
  have hL := txPrepare_tree' 0 t q
  unfold POp.go
  cases query with
  | false =>
    refine Eq.trans (b := Prepared.f_preparedTx_ExecContext.run (prepHost ctlP (prepCalls ctlP 3)) (prepV (.ptx t) :: .tok :: .bytes q :: args)
      fun vs _ => .ret vs) (by kernel_rfl) ?_
    generalize prepCalls ctlP 3 = L at hL ⊢
    generalize hct : ctlP = ct
    go_nf
    refine (hL _).trans (prepareT_congr (fun a => ?_) q)
    cases a <;> (go_env; go_nf; rfl)
  | true =>
    refine Eq.trans (b := Prepared.f_preparedTx_QueryContext.run (prepHost ctlP (prepCalls ctlP 3)) (prepV (.ptx t) :: .tok :: .bytes q :: args)
      fun vs _ => .ret vs) (by kernel_rfl) ?_
    generalize prepCalls ctlP 3 = L at hL ⊢
    generalize hct : ctlP = ct
    go_nf
    refine (hL _).trans (prepareT_congr (fun a => ?_) q)
    cases a <;> (go_env; go_nf; rfl)

/-- With the database, or a panic. -/
def underT (t : Pt) : Pt := .getUnder fun b => bif b then t else .panic

theorem directPrepare_tree (q : List UInt8) :
    (POp.prepare q).go = underT (.prepare q (fun s => .ret [prepV (.stmt s), .nil]) fun e => .ret [.nil, prepErrV e]) := by
  unfold POp.go
  generalize hct : ctlP = ct
  go_nf
  refine getUnder_congr fun b => ?_
  cases b <;> (go_env; go_nf; rfl)

theorem conn_tree : POp.conn.go = underT (.conn (.ret [prepV .conn, .nil]) fun e => .ret [.nil, prepErrV e]) := by
  unfold POp.go
  generalize hct : ctlP = ct
  go_nf
  refine getUnder_congr fun b => ?_
  cases b <;> (go_env; go_nf; rfl)

theorem begin_tree : POp.begin_.go = underT (.begin_ (fun t => .ret [prepV (.ptx t), .nil]) fun e => .ret [.nil, prepErrV e]) := by
  unfold POp.go
  generalize hct : ctlP = ct
  go_nf
  refine getUnder_congr fun b => ?_
  cases b <;> (go_env; go_nf; rfl)

/-! ### `Close` -/

/-- After the statements. -/
def closeRestT (errs : List V) : Pt :=
  .dropCache (underT (.closeDb (.dropUnder (.unlock (.ret [joinV errs]))) fun e => .dropUnder (.unlock (.ret [joinV (errs ++ [prepErrV e])]))))

/-- The statements are closed one after the other. -/
def closeStmtsT : List (List UInt8 × Nat) → List V → Pt
  | [], errs => closeRestT errs
  | p :: l, errs => .closeStmt p.2 (closeStmtsT l errs) fun e => closeStmtsT l (errs ++ [prepErrV e])

/-- An entry of the map. -/
def cacheEntryV (p : List UInt8 × Nat) : V := .list [.bytes p.1, prepV (.stmt p.2)]

theorem rangeP_eq (st : List V → Store Ext) (F : Nat → V → Store Ext → (Store Ext → Pt) → (Store Ext → Pt) → Pt) (k : Store Ext → Pt)
    (h : ∀ i p errs (kc kb : Store Ext → Pt), F i (cacheEntryV p) (st errs) kc kb = .closeStmt p.2 (kc (st errs)) fun e => kc (st (errs ++ [prepErrV e])))
    (hk : ∀ errs, k (st errs) = closeRestT errs) :
    ∀ l i errs, rangeStd F k (l.map cacheEntryV) i (st errs) = closeStmtsT l errs := by
  intro l
  induction l with
  | nil => intro i errs; exact hk errs
  | cons p l ih =>
    intro i errs
    refine (h i p errs _ _).trans ?_
    rw [ih (i + 1) errs, show (fun e => rangeStd F k (l.map cacheEntryV) (i + 1) (st (errs ++ [prepErrV e]))) = fun e => closeStmtsT l (errs ++ [prepErrV e]) from
      funext fun e => ih (i + 1) _]
    rfl

theorem close_tree_p : POp.close.go = .lock (.entries fun l => closeStmtsT l []) := by
  unfold POp.go
  generalize hct : ctlP = ct
  go_nf
  refine congrArg Pt.lock ?_
  go_nf
  refine congrArg Pt.entries (funext fun l => ?_)
  go_nf
  go_name F k'
  subst hct
  refine rangeP_eq (fun errs => { vars := [prepV .db, .nil, .list errs], defers := [.meth (prepV .mutex) n!"Unlock" []] }) F k' ?_ ?_ l 0 []
  · intro i p errs kc kb
    subst hF
    clear hk'
    kernel_rfl
  · intro errs
    subst hk'
    clear hF
    refine congrArg Pt.dropCache (getUnder_congr fun b => ?_)
    cases b with
    | false => kernel_rfl
    | true => kernel_rfl

end Verif.Go
