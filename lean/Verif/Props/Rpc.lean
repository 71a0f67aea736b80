import Verif.Model.Rpc
import Verif.Props.Client
import Verif.Props.Keys
/-!
# C78 Only transactions write, unsupported methods are refused; C79 client writes leave the bookkeeping alone
-/

namespace Verif

/-! ## C78 -/

/-- The methods the server implements. -/
def Rpc.Implemented : Rpc → Prop
  | .range _ | .txn _ | .compact _ | .leaseGrant _ _ | .status => True
  | _ => False

/-- A method that is not implemented answers with an error, at once and without touching the database. -/
theorem C78_unimplemented_refused {s s' : Sys} {v1 : Bool} {size : DB → Int} {r : Rpc} {t : List Obs}
    {a : Except ApiErr RpcResp} (hn : ¬ r.Implemented) (hr : Run s (r.handle v1 size) t a s') :
    t = [] ∧ a = .error .unsupported := by
  cases r <;> first
    | exact absurd trivial hn
    | exact run_ret hr

/-- Whatever is requested, under every schedule and with every fault: unless it is a transaction of one of the three
writing shapes, no statement of the request changes the store. -/
theorem C78_only_writes_write {s s' : Sys} {v1 : Bool} {size : DB → Int} {r : Rpc} {t : List Obs}
    {a : Except ApiErr RpcResp} (hs : Reachable s)
    (hw : ∀ q, r = .txn q → ¬ CreateShape q ∧ ¬ DeleteShape q ∧ ¬ UpdateShape q)
    (hr : Run s (r.handle v1 size) t a s') : ChangesNothing t := by
  have hall : AllStmts (PutKind []) (r.handle v1 size) := by
    cases r with
    | range q => exact all_andThen (all_range (Or.inl rfl) _ _) fun _ => trivial
    | txn q =>
      obtain ⟨h1, h2, h3⟩ := hw q rfl
      unfold Rpc.handle
      refine all_andThen ?_ fun _ => trivial
      unfold Limited.txn
      have c1 : isCreate q = none := by
        cases h : isCreate q with
        | none => rfl
        | some x => exact absurd (isCreate_iff.1 (by rw [h]; rfl)) h1
      have c2 : isDelete q = none := by
        cases h : isDelete q with
        | none => rfl
        | some x => exact absurd (isDelete_iff.1 (by rw [h]; rfl)) h2
      have c3 : isUpdate q = none := by
        cases h : isUpdate q with
        | none => rfl
        | some x => exact absurd (isUpdate_iff.1 (by rw [h]; rfl)) h3
      rw [c1, c2, c3]
      simp only
      split <;> trivial
    | status =>
      exact all_andThen (all_andThen (all_queryLoop (Or.inl rfl) _) fun _ => all_oneRow _) fun _ => trivial
    | _ => trivial
  obtain ⟨hp, fa, i'⟩ := run_facts hr hs.sysInv (safe_of_puts (L := []) (by simp) hall hs.inv)
  intro ob hob
  obtain ⟨e, he, h⟩ := path_allStmts hp hall ob hob
  rcases (he.step (by simp) (fa.inv hob) ob.out).2 with h' | ⟨p, hp, _⟩
  · rw [h, h']
  · simp at hp

/-- The status answer: the size is that of the database at one instant of the call. -/
theorem C78_status {s s' : Sys} {v1 : Bool} {size : DB → Int} {t : List Obs} {resp : RpcResp} (hs : Reachable s)
    (hr : Run s (Rpc.status.handle v1 size) t (.ok resp) s') :
    ∃ ob ∈ t, resp = .status (size ob.pre.db) emulatedEtcdVersion := by
  have hall : AllStmts (PutKind []) (Rpc.status.handle v1 size) :=
    all_andThen (all_andThen (all_queryLoop (Or.inl rfl) _) fun _ => all_oneRow _) fun _ => trivial
  obtain ⟨hp, _, _⟩ := run_facts hr hs.sysInv (safe_of_puts (L := []) (by simp) hall hs.inv)
  obtain ⟨t1, t2, n, e, h1, h2⟩ := path_andThen_ok hp
  obtain ⟨e3, e4⟩ := path_ret h2
  cases e4
  obtain ⟨t3, t4, m, e', h3, h4⟩ := path_andThen_ok h1
  obtain ⟨u, ob, e5, _, _, _, e6, _⟩ := path_query_ok h3
  obtain ⟨_, h5 | h5⟩ := path_oneRow h4
  · cases h5
    exact ⟨ob, by rw [e, e', e5]; simp, by rw [e6]⟩
  · cases h5

/-- A granted lease is identified by its time to live, whatever id was asked for; granting touches nothing. -/
theorem C78_lease_grant {s s' : Sys} {v1 : Bool} {size : DB → Int} {id ttl : Int} {t : List Obs}
    {a : Except ApiErr RpcResp} (hr : Run s ((Rpc.leaseGrant id ttl).handle v1 size) t a s') :
    t = [] ∧ a = .ok (.lease ttl ttl) := run_ret hr

/-- Witnesses: a snapshot request is refused; a status request answers. -/
example : ∃ a s', Run Demo.sys (Rpc.snapshot.handle true fun _ => 4096) [] a s' ∧ ¬ Rpc.snapshot.Implemented :=
  ⟨_, _, .ret _ _, id⟩
example : ∃ t s', Run Demo.sys (Rpc.status.handle true fun db => 4096 * db.rows.length) t
    (.ok (.status 28672 emulatedEtcdVersion)) s' :=
  ⟨_, _, runSched_run (is := [.me (.fail .busy), .me .ok]) rfl⟩

/-! ## C79 -/

/-- The statements of a transaction that writes `key`. -/
inductive KeyKind (key : Option Bytes) : (DB → DB) → Prop where
  | query : KeyKind key id
  | create (k : Bytes) (hk : key = some k) (lease : Int) (value : Bytes) :
      KeyKind key fun db => (createSQL db k lease value).1
  | update (k : Bytes) (hk : key = some k) (lease : Int) (value : Bytes) (rev : Int) :
      KeyKind key fun db => (updateSQL db k lease value rev).1
  | delete (k : Bytes) (hk : key = some k) (rev : Int) : KeyKind key fun db => (deleteSQL db k rev).1

theorem all_txn_key (v1 : Bool) (t : TxnReq) : AllStmts (KeyKind t.writtenKey) (Limited.txn v1 t) := by
  unfold Limited.txn TxnReq.writtenKey
  cases hc : isCreate t with
  | some put =>
    simp only
    unfold Limited.create
    repeat' split
    any_goals trivial
    refine all_andThen (all_write (.create _ rfl _ _)) ?_
    intro a; simp only; split <;> trivial
  | none =>
    simp only
    cases hd : isDelete t with
    | some p =>
      simp only
      refine all_andThen (all_write (.delete _ rfl _)) ?_
      intro a; simp only; split
      · trivial
      · exact all_elseRange .query _ _ _
    | none =>
      simp only
      cases hu : isUpdate t with
      | some u =>
        obtain ⟨rev, key, value, lease⟩ := u
        simp only
        unfold Limited.update
        apply all_andThen
        · split
          · exact all_write (.create _ rfl _ _)
          · exact all_write (.update _ rfl _ _ _)
        · intro a; simp only; split
          · trivial
          · exact all_elseRange .query _ _ _
      | none =>
        simp only
        split <;> trivial

/-- A transaction on any key but the reserved one never moves the compact revision and never removes or changes a stored
version: every statement only adds at most one row. -/
theorem C79_bookkeeping_partial {s s' : Sys} {v1 : Bool} {q : TxnReq} {t : List Obs} {a : Except ApiErr TxnResp}
    (hs : Reachable s) (hk : q.writtenKey ≠ some compactRevKey) (hr : Run s (Limited.txn v1 q) t a s') :
    ∀ ob ∈ t, ob.post.db.compactRev = ob.pre.db.compactRev ∧
      ∃ new : List Row, new.length ≤ 1 ∧ ob.post.db.rows = ob.pre.db.rows ++ new ∧
        ∀ r ∈ new, q.writtenKey = some r.name ∧ r.id = ob.pre.hist.top + 1 := by
  obtain ⟨hp, fa, _⟩ := run_facts hr hs.sysInv (safe_txn hs.inv v1 q hk)
  intro ob hob
  obtain ⟨e, he, h⟩ := path_allStmts hp (all_txn_key v1 q) ob hob
  have i : Inv ob.pre := fa.inv hob
  have none' : ob.post = ob.pre → ob.post.db.compactRev = ob.pre.db.compactRev ∧
      ∃ new : List Row, new.length ≤ 1 ∧ ob.post.db.rows = ob.pre.db.rows ++ new ∧
        ∀ r ∈ new, q.writtenKey = some r.name ∧ r.id = ob.pre.hist.top + 1 :=
    fun h => by rw [h]; exact ⟨rfl, [], by simp, by simp, by simp⟩
  have ins : ∀ {r : Row} {k : Bytes}, GoodRow ob.pre r → q.writtenKey = some k → (commitOf (ob.pre.newRow r)).key = k →
      e ob.pre.db = ob.pre.db.insert r → ob.post.db.compactRev = ob.pre.db.compactRev ∧
      ∃ new : List Row, new.length ≤ 1 ∧ ob.post.db.rows = ob.pre.db.rows ++ new ∧
        ∀ r ∈ new, q.writtenKey = some r.name ∧ r.id = ob.pre.hist.top + 1 := by
    intro r k g hk' hn hi
    cases ho : ob.out.applied with
    | false => exact none' (by rw [h, not_applied_exec ho])
    | true =>
      rw [h, i.exec_insert hi ho]
      refine ⟨(i.insert_inv g).2.1, [ob.pre.newRow r], by simp, ?_, ?_⟩
      · simp only [i.insert_eq]
      · intro r' hr'
        rw [List.mem_singleton] at hr'
        subst hr'
        exact ⟨by rw [hk', ← hn]; rfl, rfl⟩
  cases he with
  | query => exact none' (by rw [h, i.exec_id])
  | create k hk' lease value =>
    rcases i.createSQL_spec k lease value with ⟨_, r, g, _, hn, e⟩ | ⟨_, e⟩
    · exact ins g hk' (by rw [hn]) (by simp only [e])
    · exact none' (by rw [h, i.exec_of_eq (by simp only [e])])
  | update k hk' lease value rev =>
    have hne : k ≠ compactRevKey := fun hc => hk (by rw [hk', hc])
    rcases i.updateSQL_spec hne lease value rev with ⟨_, _, _, r, g, hn, e⟩ | ⟨_, e⟩
    · exact ins g hk' (by rw [hn]) (by simp only [e])
    · exact none' (by rw [h, i.exec_of_eq (by simp only [e])])
  | delete k hk' rev =>
    have hne : k ≠ compactRevKey := fun hc => hk (by rw [hk', hc])
    rcases i.deleteSQL_spec hne rev with ⟨_, _, _, r, g, hn, e⟩ | ⟨_, e⟩
    · exact ins g hk' (by rw [hn]) (by simp only [e])
    · exact none' (by rw [h, i.exec_of_eq (by simp only [e])])

/-- The run of the demo history meets the hypotheses: an update of `/a` adds one row. -/
example : ∃ t a s', Run Demo.sys (Limited.txn true (updateTxn Demo.ka 5 [8] 0)) t a s' ∧
    (updateTxn Demo.ka 5 [8] 0).writtenKey ≠ some compactRevKey ∧ s'.world.db.rows.length = 8 :=
  ⟨_, _, _, runSched_run (is := [.me .ok]) rfl, by decide, by decide +kernel⟩

/-- The world after a schedule. -/
def worldAfter {α : Type} (is : List Item) (p : Prog α) (w : World) : World :=
  match runSched is p w with
  | some (_, _, w') => w'
  | none => w

/-- The answer under a schedule. -/
def answerOf {α : Type} (is : List Item) (p : Prog α) (w : World) : Option α :=
  match runSched is p w with
  | some (_, a, _) => some a
  | none => none

theorem answerOf_run {α : Type} {is : List Item} {p : Prog α} {w : World} {a : α} (h : answerOf is p w = some a) :
    ∃ t, Run ⟨w, []⟩ p t a ⟨worldAfter is p w, []⟩ := by
  unfold answerOf at h
  unfold worldAfter
  split at h
  · rename_i t a' w' e
    cases h
    exact ⟨t, runSched_run e⟩
  · cases h

/-- The demo world after two client updates of the reserved key. -/
def reserved1 : World := worldAfter [.me .ok] (Limited.txn true (updateTxn compactRevKey 2 [] 0)) Demo.world
/-- After the second one. -/
def reserved2 : World := worldAfter [.me .ok] (Limited.txn true (updateTxn compactRevKey 8 [] 0)) reserved1

/-- Nothing keeps a client from writing the reserved key `compact_rev_key`, which every client can see. Two ordinary
updates of it (from the revision it was read at) move the compact revision to 8 although nothing was compacted: from then
on a read at revision 5, which was answered before, is refused. -/
theorem C79_reserved_key_counterexample : Reachable Demo.sys ∧
    (∃ t w, Run Demo.sys (Bridge.range true { key := Demo.ka, revision := 5 }) t
      (.ok { header := 7, kvs := [⟨Demo.ka, [3], 0, 3, 5⟩] }) ⟨w, []⟩) ∧
    (∃ t, Run Demo.sys (Limited.txn true (updateTxn compactRevKey 2 [] 0)) t
      (.ok { header := 8, succeeded := true, responses := [.put 8] }) ⟨reserved1, []⟩) ∧
    (∃ t, Run ⟨reserved1, []⟩ (Limited.txn true (updateTxn compactRevKey 8 [] 0)) t
      (.ok { header := 9, succeeded := true, responses := [.put 9] }) ⟨reserved2, []⟩) ∧
    (∃ t w, Run ⟨reserved2, []⟩ (Bridge.range true { key := Demo.ka, revision := 5 }) t (.error .compacted) ⟨w, []⟩) ∧
    reserved2.db.rows.length = Demo.world.db.rows.length + 2 := by
  refine ⟨Demo.reachable, ?_, ?_, ?_, ?_, by decide +kernel⟩
  · obtain ⟨t, h⟩ := answerOf_run (is := [.me .ok, .me .ok]) (w := Demo.world)
      (p := Bridge.range true { key := Demo.ka, revision := 5 })
      (a := .ok { header := 7, kvs := [⟨Demo.ka, [3], 0, 3, 5⟩] }) (by decide +kernel)
    exact ⟨t, _, h⟩
  · exact answerOf_run (is := [.me .ok]) (w := Demo.world) (by decide +kernel)
  · exact answerOf_run (is := [.me .ok]) (w := reserved1) (by decide +kernel)
  · obtain ⟨t, h⟩ := answerOf_run (is := [.me .ok]) (w := reserved2)
      (p := Bridge.range true { key := Demo.ka, revision := 5 }) (a := .error .compacted) (by decide +kernel)
    exact ⟨t, _, h⟩

end Verif
