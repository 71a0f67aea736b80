import Verif.Props.Txns
/-!
# Which key a transaction compares and writes (C75)
-/

namespace Verif

/-- What a successful transaction did: at one instant of the call `key` had mod revision `rev` (0: absent) and
`write` was committed on `key` with the revision in the header. -/
def ComparedAndWrote (t : List Obs) (header : Int) (key : Bytes) (rev : Int) (write : Option (Bytes × Int)) : Prop :=
  ∃ ob ∈ t, Etcd.modRev ob.pre.hist key = rev ∧ header = ob.pre.hist.top + 1 ∧
    ob.post.hist = ob.pre.hist ++ [⟨header, key, write⟩]

theorem success_of_compared {req : TxnReq} {P : Compare → ReqOp → Int → Prop}
    (h : ∃ c o, req.compare = [c] ∧ req.success = [o] ∧ c.target = .mod ∧ c.result = .equal ∧ P c o c.getModRevision) :
    ∃ c o rev, req.compare = [c] ∧ req.success = [o] ∧ c.target = .mod ∧ c.result = .equal ∧ Compares c rev ∧ P c o rev := by
  obtain ⟨c, o, h1, h2, h3, h4, h5⟩ := h
  exact ⟨c, o, _, h1, h2, h3, h4, compares_iff.2 rfl, h5⟩

/-- Partial, for every transaction request whatever: what a success means.
* create (no else branch): the key of the *put* was absent and was written, with the put's value and lease;
* delete: the key of the *delete* had the compared mod revision and was deleted;
* update: the key of the *compare* had the compared mod revision and was written, with the put's value and lease.
So compare key and operation key are honoured if they agree; if they do not, one of them is ignored
(counterexamples below). -/
theorem C75_success_partial {s s' : Sys} {v1 : Bool} {req : TxnReq} {t : List Obs} {resp : TxnResp}
    (hs : Reachable s) (hk : req.writtenKey ≠ some compactRevKey)
    (hr : Run s (Limited.txn v1 req) t (.ok resp) s') (hok : resp.succeeded = true) :
    ∃ c o rev, req.compare = [c] ∧ req.success = [o] ∧ c.target = .mod ∧ c.result = .equal ∧ Compares c rev ∧
      ((∃ p, o = .put p ∧ req.failure = [] ∧ rev = 0 ∧
          ComparedAndWrote t resp.header p.key 0 (some (p.value, p.lease))) ∨
       (∃ d r, o = .deleteRange d ∧ req.failure = [.range r] ∧
          ComparedAndWrote t resp.header d.key rev none) ∨
       (∃ p r, o = .put p ∧ req.failure = [.range r] ∧
          ComparedAndWrote t resp.header c.key rev (some (p.value, p.lease)))) := by
  refine success_of_compared ?_
  have hel : ∀ key rev t, Path (Limited.elseRange v1 key rev) t (.ok resp) → resp.succeeded = false :=
    fun _ _ _ h => (elseRange_answer h).1 _ rfl
  have heq : ∀ key rev a t, Path (Limited.elseRange v1 key rev) t a → ∀ ob ∈ t, ob.isQuery :=
    fun _ _ _ _ h => (elseRange_answer h).2
  obtain ⟨hp, f, _⟩ := txn_facts hs hk hr
  have fin : ∀ {st : DB → DB × ExecResult} {G : World → Prop} {key : Bytes} {wr : Option (Bytes × Int)} {rev : Int}
      {p : Int → Prog (Except ApiErr TxnResp)} {mk : Int → RespOp}, CasStmt st G key wr →
      (∀ w, Inv w → G w → Etcd.modRev w.hist key = rev) →
      (∀ rev t, Path (p rev) t (.ok resp) → resp.succeeded = false) →
      (∀ rev a t, Path (p rev) t a → ∀ ob ∈ t, ob.isQuery) →
      Path (((execute st).andThen fun r => .ret (.ok (writeResult r))).andThen fun (rev', succeeded) =>
        if succeeded then .ret (.ok { header := rev', succeeded := true, responses := [mk rev'] })
        else p rev') t (.ok resp) → ComparedAndWrote t resp.header key rev wr := by
    intro st G key wr rev p mk c hG h1 h2 h
    obtain ⟨ob, hob, hg, e1, e2⟩ := (cas_answer c f h1 h2 h).1 hok
    exact ⟨ob, hob, hG _ (f.inv hob) hg, by rw [e2], by rw [e2]; exact e1⟩
  have hat : ∀ {key : Bytes} {r : Int} (w : World), Inv w → AtRev key r w → Etcd.modRev w.hist key = r := by
    rintro key r w _ ⟨kv, e1, e2⟩
    simp [Etcd.modRev, e1, e2]
  unfold Limited.txn at hp
  unfold TxnReq.writtenKey at hk
  cases hc : isCreate req with
  | some put =>
    simp only [hc] at hp hk
    obtain ⟨c, p, h1, h2, h3, h4, h5, h6⟩ := isCreate_iff.1 (by rw [hc]; rfl)
    rw [compares_iff] at h6
    have : put = p := by simp [isCreate, h1, h2, h3, h4, h5, h6, ReqOp.getPut] at hc; exact hc.symm
    subst this
    unfold Limited.create at hp
    split at hp
    · obtain ⟨_, h'⟩ := path_ret hp; cases h'
    split at hp
    · obtain ⟨_, h'⟩ := path_ret hp; cases h'
    split at hp
    · obtain ⟨_, h'⟩ := path_ret hp; cases h'
    refine ⟨c, _, h1, h2, h4, h5, Or.inl ⟨put, rfl, h3, h6, ?_⟩⟩
    exact fin (mk := RespOp.put) (p := fun rev => .ret (.ok { header := rev, succeeded := false }))
      (cas_create put.key put.value put.lease) (fun w i h => (etcd_absent i).2 h)
      (fun _ _ h => by obtain ⟨_, e⟩ := path_ret h; cases e; rfl)
      (fun _ _ _ h => by obtain ⟨e, _⟩ := path_ret h; subst e; simp) hp
  | none =>
    simp only [hc] at hp hk
    cases hd : isDelete req with
    | some x =>
      obtain ⟨rev, key⟩ := x
      simp only [hd] at hp hk
      obtain ⟨c, d, r, h1, h2, h3, h4, h5⟩ := isDelete_iff.1 (by rw [hd]; rfl)
      have : rev = c.getModRevision ∧ key = d.key := by
        simp [isDelete, h1, h2, h3, h4, h5, ReqOp.getRange, ReqOp.getDeleteRange] at hd
        exact ⟨hd.1.symm, hd.2.symm⟩
      obtain ⟨rfl, rfl⟩ := this
      refine ⟨c, _, h1, h2, h4, h5, Or.inr (Or.inl ⟨d, r, rfl, h3, ?_⟩)⟩
      exact fin (mk := fun h => .deleteRange h) (p := Limited.elseRange v1 d.key)
        (cas_delete (fun e => hk (by rw [e])) _) hat (hel _) (heq _) hp
    | none =>
      simp only [hd] at hp hk
      cases hu : isUpdate req with
      | some x =>
        obtain ⟨rev, key, value, lease⟩ := x
        simp only [hu] at hp hk
        obtain ⟨c, p, r, h1, h2, h3, h4, h5⟩ := isUpdate_iff.1 (by rw [hu]; rfl)
        have : rev = c.getModRevision ∧ key = c.key ∧ value = p.value ∧ lease = p.lease := by
          simp [isUpdate, h1, h2, h3, h4, h5, ReqOp.getRange, ReqOp.getPut] at hu
          exact ⟨hu.1.symm, hu.2.1.symm, hu.2.2.1.symm, hu.2.2.2.symm⟩
        obtain ⟨rfl, rfl, rfl, rfl⟩ := this
        have hk' : c.key ≠ compactRevKey := fun e => hk (by rw [e]; rfl)
        refine ⟨c, _, h1, h2, h4, h5, Or.inr (Or.inr ⟨p, r, rfl, h3, ?_⟩)⟩
        unfold Limited.update at hp
        by_cases hr0 : c.getModRevision = 0
        · rw [if_pos hr0] at hp
          rw [hr0]
          exact fin (mk := RespOp.put) (p := Limited.elseRange v1 c.key)
            (cas_create c.key p.value p.lease) (fun w i h => (etcd_absent i).2 h) (hel _) (heq _) hp
        · rw [if_neg hr0] at hp
          exact fin (mk := RespOp.put) (p := Limited.elseRange v1 c.key)
            (cas_update hk' p.value p.lease _) hat (hel _) (heq _) hp
      | none =>
        simp only [hu] at hp
        split at hp
        · obtain ⟨_, e2⟩ := path_ret hp
          cases e2; cases hok
        · obtain ⟨_, e2⟩ := path_ret hp
          cases e2

/-- The key an operation names. -/
def ReqOp.named : ReqOp → Option Bytes
  | .put p => some p.key
  | .deleteRange d => some d.key
  | _ => none

/-- Partial: whenever the compare and the operation name the same key, the compare was evaluated on it and the
write went to it, and to no other. -/
theorem C75_same_key_partial {s s' : Sys} {v1 : Bool} {req : TxnReq} {t : List Obs} {resp : TxnResp}
    {c : Compare} {o : ReqOp} (hs : Reachable s) (hc : req.compare = [c]) (ho : req.success = [o])
    (hsame : o.named = some c.key) (hk : c.key ≠ compactRevKey)
    (hr : Run s (Limited.txn v1 req) t (.ok resp) s') (hok : resp.succeeded = true) :
    ∃ rev, Compares c rev ∧ ∃ write, ComparedAndWrote t resp.header c.key rev write ∧
      (∀ p, o = .put p → write = some (p.value, p.lease)) ∧ (∀ d, o = .deleteRange d → write = none) := by
  have hk' : req.writtenKey ≠ some compactRevKey := by
    intro h
    apply hk
    unfold TxnReq.writtenKey at h
    cases h1 : isCreate req with
    | some put =>
      simp only [h1, Option.some.injEq] at h
      obtain ⟨c', p, a1, a2, a3, a4, a5, a6⟩ := isCreate_iff.1 (show (isCreate req).isSome = true by rw [h1]; rfl)
      rw [compares_iff] at a6
      have : put = p := by simp [isCreate, a1, a2, a3, a4, a5, a6, ReqOp.getPut] at h1; exact h1.symm
      rw [a2] at ho
      cases ho
      rw [← h, this]
      exact (Option.some.inj hsame).symm
    | none =>
      simp only [h1] at h
      cases h2 : isDelete req with
      | some x =>
        obtain ⟨rev, key⟩ := x
        simp only [h2, Option.some.injEq] at h
        obtain ⟨c', d, r, a1, a2, a3, a4, a5⟩ := isDelete_iff.1 (show (isDelete req).isSome = true by rw [h2]; rfl)
        simp [isDelete, a1, a2, a3, a4, a5, ReqOp.getRange, ReqOp.getDeleteRange] at h2
        rw [a2] at ho
        cases ho
        rw [← h, ← h2.2]
        exact (Option.some.inj hsame).symm
      | none =>
        simp only [h2] at h
        cases h3 : isUpdate req with
        | none => rw [h3] at h; cases h
        | some x =>
          obtain ⟨rev, key, value, lease⟩ := x
          simp only [h3, Option.map_some, Option.some.injEq] at h
          obtain ⟨c', p, r, a1, a2, a3, a4, a5⟩ := isUpdate_iff.1 (show (isUpdate req).isSome = true by rw [h3]; rfl)
          simp [isUpdate, a1, a2, a3, a4, a5, ReqOp.getRange, ReqOp.getPut] at h3
          rw [a1] at hc
          cases hc
          rw [← h, ← h3.2.1]
  obtain ⟨c', o', rev', h1, h2, _, _, hcmp, h⟩ := C75_success_partial hs hk' hr hok
  rw [hc] at h1
  rw [ho] at h2
  cases h1
  cases h2
  refine ⟨rev', hcmp, ?_⟩
  rcases h with ⟨p, rfl, _, h6, h⟩ | ⟨d, r, rfl, _, h⟩ | ⟨p, r, rfl, _, h⟩
  · have : p.key = c.key := Option.some.inj hsame
    exact ⟨_, by rw [h6, ← this]; exact h, fun p' e => (by cases e; rfl), nofun⟩
  · have : d.key = c.key := Option.some.inj hsame
    exact ⟨_, by rw [← this]; exact h, nofun, fun _ _ => rfl⟩
  · exact ⟨_, h, fun p' e => (by cases e; rfl), nofun⟩

/-- Witness: a delete of `/a`. -/
example : ∃ t resp s', Run Demo.sys (Limited.txn true (deleteTxn Demo.ka 5)) t (.ok resp) s' ∧
    resp.succeeded = true ∧ resp.header = 8 :=
  ⟨_, _, _, runSched_run (is := [.me .ok]) rfl, rfl, rfl⟩

/-- An update whose compare names `/a` and whose put names `/b`. -/
def mixedUpdate : TxnReq :=
  { compare := [{ result := .equal, target := .mod, key := Demo.ka, union := .modRevision 5 }]
    success := [.put { key := Demo.kb, value := [9] }]
    failure := [.range { key := Demo.ka }] }

/-- The full property fails: an update that compares `/a` and puts `/b` reports success and overwrites `/a`
with the value meant for `/b`; `/b` is untouched (`/repo/pkg/limited/update.go:17-22` takes the key from the
compare). -/
theorem C75_update_other_key_counterexample : ∃ s s' t resp, Reachable s ∧
    Run s (Limited.txn true mixedUpdate) t (.ok resp) s' ∧ faultless t = true ∧ resp.succeeded = true ∧
    s'.world.hist.now Demo.ka = some ⟨Demo.ka, [9], 0, 3, 8⟩ ∧
    s'.world.hist.now Demo.kb = s.world.hist.now Demo.kb :=
  ⟨Demo.sys, _, _, _, Demo.reachable, runSched_run (is := [.me .ok]) rfl, by decide +kernel, by decide +kernel,
    by decide +kernel, by decide +kernel⟩

/-- A delete whose compare names `/b` (now at revision 4) and expects revision 5, and whose operation deletes `/a`
(now at revision 5). -/
def mixedDelete : TxnReq :=
  { compare := [{ result := .equal, target := .mod, key := Demo.kb, union := .modRevision 5 }]
    success := [.deleteRange { key := Demo.ka }]
    failure := [.range { key := Demo.kb }] }

/-- The full property fails: the compare on `/b` is false at every instant of the call, yet the delete of `/a`
succeeds (`/repo/pkg/limited/delete.go:16-20` ignores the key of the compare). -/
theorem C75_delete_other_key_counterexample : ∃ s s' t resp, Reachable s ∧
    Run s (Limited.txn true mixedDelete) t (.ok resp) s' ∧ faultless t = true ∧ resp.succeeded = true ∧
    (∀ ob ∈ t, Etcd.modRev ob.pre.hist Demo.kb = 4) ∧ s'.world.hist.now Demo.ka = none :=
  ⟨Demo.sys, _, _, _, Demo.reachable, runSched_run (is := [.me .ok]) rfl, by decide +kernel, by decide +kernel,
    by decide +kernel, by decide +kernel⟩

/-- A create whose compare names `/a` (which exists) and whose put names the deleted `/c`. -/
def mixedCreate : TxnReq :=
  { compare := [{ result := .equal, target := .mod, key := Demo.ka, union := .modRevision 0 }]
    success := [.put { key := Demo.kc, value := [9] }]
    failure := [] }

/-- The full property fails: the compare "`/a` does not exist" is false, yet `/c` is created
(`/repo/pkg/limited/create.go:13-19` ignores the key of the compare). -/
theorem C75_create_other_key_counterexample : ∃ s s' t resp, Reachable s ∧
    Run s (Limited.txn true mixedCreate) t (.ok resp) s' ∧ faultless t = true ∧ resp.succeeded = true ∧
    (∀ ob ∈ t, Etcd.modRev ob.pre.hist Demo.ka = 5) ∧
    s'.world.hist.now Demo.kc = some ⟨Demo.kc, [9], 0, 8, 8⟩ :=
  ⟨Demo.sys, _, _, _, Demo.reachable, runSched_run (is := [.me .ok]) rfl, by decide +kernel, by decide +kernel,
    by decide +kernel, by decide +kernel⟩

/-- A delete of the whole range `["/a", "/z")` guarded by `/a`. -/
def rangeDelete : TxnReq :=
  { compare := [{ result := .equal, target := .mod, key := Demo.ka, union := .modRevision 5 }]
    success := [.deleteRange { key := Demo.ka, rangeEnd := [0x2f, 0x7a] }]
    failure := [.range { key := Demo.ka }] }

/-- The full property fails: a guarded delete of a range reports success but deletes only its first key; `/b`
stays (`/repo/pkg/limited/delete.go:16-20` ignores the range end instead of refusing it). -/
theorem C75_delete_range_end_counterexample : ∃ s s' t resp kv, Reachable s ∧
    Run s (Limited.txn true rangeDelete) t (.ok resp) s' ∧ faultless t = true ∧ resp.succeeded = true ∧
    s'.world.hist.now Demo.ka = none ∧ s'.world.hist.now Demo.kb = some kv ∧
    ble Demo.ka Demo.kb = true ∧ blt Demo.kb [0x2f, 0x7a] = true :=
  ⟨Demo.sys, _, _, _, ⟨Demo.kb, [2], 30, 4, 4⟩, Demo.reachable, runSched_run (is := [.me .ok]) rfl, by decide +kernel,
    by decide +kernel, by decide +kernel, by decide +kernel, by decide +kernel, by decide +kernel⟩

/-! ## C76 Unsupported write options are refused -/

/-- Partial: a create asking for the previous value, or to keep the old value or lease, is refused and nothing
happens. -/
theorem C76_create_options_partial {s s' : Sys} {v1 : Bool} {req : TxnReq} {p : PutReq} {t : List Obs}
    {a : Except ApiErr TxnResp} (hc : CreateShape req) (hp : req.success = [.put p])
    (ho : p.prevKv = true ∨ p.ignoreValue = true ∨ p.ignoreLease = true)
    (hr : Run s (Limited.txn v1 req) t a s') : a = .error .unsupported ∧ t = [] := by
  obtain ⟨c, p', h1, h2, h3, h4, h5, h6⟩ := hc
  rw [h2] at hp
  cases hp
  rw [compares_iff] at h6
  have he : isCreate req = some p := by simp [isCreate, h1, h2, h3, h4, h5, h6, ReqOp.getPut]
  unfold Limited.txn at hr
  simp only [he] at hr
  have hun : Limited.create p = .ret (.error .unsupported) := by
    unfold Limited.create
    rcases ho with h | h | h <;> simp [h]
  rw [hun] at hr
  exact ⟨(run_ret hr).2, (run_ret hr).1⟩

/-- Witness. -/
example : CreateShape { createTxn Demo.kc [1] 0 with success := [.put { key := Demo.kc, value := [1], prevKv := true }] } :=
  ⟨_, _, rfl, rfl, rfl, rfl, rfl, .inl rfl⟩

/-- An update of `/b` (value `[2]`, lease 30) that asks to keep the value and only to change the lease. -/
def keepValueUpdate : TxnReq :=
  { compare := [{ result := .equal, target := .mod, key := Demo.kb, union := .modRevision 4 }]
    success := [.put { key := Demo.kb, value := [], lease := 60, ignoreValue := true }]
    failure := [.range { key := Demo.kb }] }

/-- The full property fails: the update path never looks at the options of the put
(`/repo/pkg/limited/update.go:11-26`); asking to keep the value erases it. -/
theorem C76_update_ignores_options_counterexample : ∃ s s' t resp, Reachable s ∧
    Run s (Limited.txn true keepValueUpdate) t (.ok resp) s' ∧ faultless t = true ∧ resp.succeeded = true ∧
    s.world.hist.now Demo.kb = some ⟨Demo.kb, [2], 30, 4, 4⟩ ∧
    s'.world.hist.now Demo.kb = some ⟨Demo.kb, [], 60, 4, 8⟩ :=
  ⟨Demo.sys, _, _, _, Demo.reachable, runSched_run (is := [.me .ok]) rfl, by decide +kernel, by decide +kernel,
    by decide +kernel, by decide +kernel⟩

/-- An update of `/a` that, if it fails, asks for the keys from `/b` on. -/
def otherElse : TxnReq :=
  { compare := [{ result := .equal, target := .mod, key := Demo.ka, union := .modRevision 3 }]
    success := [.put { key := Demo.ka, value := [9] }]
    failure := [.range { key := Demo.kb }] }

/-- The full property fails: the range of the else branch is not looked at either; asked for `/b` the server
answers with `/a`. -/
theorem C76_else_range_ignored_counterexample : ∃ s s' t, Reachable s ∧ faultless t = true ∧
    Run s (Limited.txn true otherElse) t (.ok { header := 0, succeeded := false, responses := [.range { header := 7, kvs := [⟨Demo.ka, [3], 0, 3, 5⟩] }] }) s' :=
  ⟨Demo.sys, _, _, Demo.reachable, by decide +kernel, runSched_run (is := [.me .ok, .me .ok, .me .ok]) rfl⟩

end Verif
