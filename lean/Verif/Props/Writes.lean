import Verif.Props.Demo
/-!
# Properties of write transactions (C01 – C04, C20, C25, C26, C54, C60)

`Reachable s` ranges over every system reached from a fresh database by any interleaving of any calls on any
number of nodes, with any faults and crashes. `Run s p t resp s'` is one observed call inside such a system,
again with arbitrary interleaving and faults; `t` are its SQL statements.
-/

namespace Verif

/-! ## Entry points -/

theorem txn_create_eq (v1 : Bool) (key value : Bytes) (lease : Int) :
    Limited.txn v1 (createTxn key value lease)
      = Limited.create { key := key, value := value, lease := lease } := rfl

theorem txn_update_eq (v1 : Bool) (key value : Bytes) (rev lease : Int) :
    Limited.txn v1 (updateTxn key rev value lease) = Limited.update v1 rev key value lease := rfl

theorem txn_delete_eq (v1 : Bool) (key : Bytes) (rev : Int) :
    Limited.txn v1 (deleteTxn key rev) = Limited.delete v1 key rev := rfl

theorem txn_facts {s s' : Sys} {v1 : Bool} {req : TxnReq} {t : List Obs} {a : Except ApiErr TxnResp}
    (hs : Reachable s) (hk : req.writtenKey ≠ some compactRevKey) (hr : Run s (Limited.txn v1 req) t a s') :
    Path (Limited.txn v1 req) t a ∧ Facts s.world t s'.world ∧ SysInv s' :=
  run_facts hr hs.sysInv (safe_txn hs.inv v1 req hk)

theorem create_facts {s s' : Sys} {put : PutReq} {t : List Obs} {a : Except ApiErr TxnResp}
    (hs : Reachable s) (hr : Run s (Limited.create put) t a s') :
    Path (Limited.create put) t a ∧ Facts s.world t s'.world ∧ SysInv s' :=
  run_facts hr hs.sysInv (safe_limited_create hs.inv put)

theorem update_facts {s s' : Sys} {v1 : Bool} {key value : Bytes} {rev lease : Int} {t : List Obs}
    {a : Except ApiErr TxnResp} (hs : Reachable s) (hk : key ≠ compactRevKey)
    (hr : Run s (Limited.update v1 rev key value lease) t a s') :
    Path (Limited.update v1 rev key value lease) t a ∧ Facts s.world t s'.world ∧ SysInv s' :=
  run_facts hr hs.sysInv (safe_limited_update hs.inv v1 rev hk value lease)

theorem delete_facts {s s' : Sys} {v1 : Bool} {key : Bytes} {rev : Int} {t : List Obs}
    {a : Except ApiErr TxnResp} (hs : Reachable s) (hk : key ≠ compactRevKey)
    (hr : Run s (Limited.delete v1 key rev) t a s') :
    Path (Limited.delete v1 key rev) t a ∧ Facts s.world t s'.world ∧ SysInv s' :=
  run_facts hr hs.sysInv (safe_limited_delete hs.inv v1 rev hk)

theorem range_facts {s s' : Sys} {v1 : Bool} {req : RangeReq} {t : List Obs} {a : Except ApiErr RangeResp}
    (hs : Reachable s) (hr : Run s (Bridge.range v1 req) t a s') :
    Path (Bridge.range v1 req) t a ∧ Facts s.world t s'.world ∧ SysInv s' :=
  run_facts hr hs.sysInv (safe_range hs.inv v1 req)

/-! ## C01 Revisions are unique and strictly increasing -/

/-- Revisions in the history of every reachable system are positive and strictly increasing in commit order;
so no two writes share one. -/
theorem C01_history_strictly_increasing {s : Sys} (hs : Reachable s) :
    s.world.hist.Pairwise (fun a b => a.rev < b.rev) ∧ ∀ c ∈ s.world.hist, 0 < c.rev :=
  ⟨hs.inv.wf.sorted, hs.inv.wf.pos⟩

/-- A successful write transaction (of any accepted shape) returns a revision that is larger than every
revision assigned before the call, is not larger than the current revision after it, and is the revision of a
commit on the written key made by this call. -/
theorem C01_write_returns_new_revision {s s' : Sys} {v1 : Bool} {req : TxnReq} {t : List Obs}
    {resp : TxnResp} (hs : Reachable s) (hk : req.writtenKey ≠ some compactRevKey)
    (hr : Run s (Limited.txn v1 req) t (.ok resp) s') (hok : resp.succeeded = true) :
    s.world.hist.top < resp.header ∧ resp.header ≤ s'.world.hist.top ∧
    (∀ c ∈ s.world.hist, c.rev < resp.header) ∧
    ∃ c ∈ s'.world.hist, c.rev = resp.header ∧ req.writtenKey = some c.key := by
  obtain ⟨hp, f, i'⟩ := txn_facts hs hk hr
  obtain ⟨ob, hob, key, wr, h1, h2, h3⟩ := txn_commit f hk hp hok
  have a := (f.pre ob hob).top
  have hmem : (⟨resp.header, key, wr⟩ : Commit) ∈ s'.world.hist :=
    (f.post ob hob).mem (by rw [h3]; simp)
  have b := le_top i'.inv.wf hmem
  refine ⟨by omega, b, ?_, _, hmem, rfl, h1⟩
  intro c hc
  have := le_top hs.inv.wf hc
  omega

/-- Two successful writes, the second started after the first returned: the revisions increase. -/
theorem C01_later_write_is_newer {s s₁ s₂ s' : Sys} {v1 v1' : Bool} {req req' : TxnReq} {t t' : List Obs}
    {resp resp' : TxnResp} (hs : Reachable s)
    (hk : req.writtenKey ≠ some compactRevKey) (hk' : req'.writtenKey ≠ some compactRevKey)
    (hr : Run s (Limited.txn v1 req) t (.ok resp) s₁) (hmid : Steps s₁ s₂)
    (hr' : Run s₂ (Limited.txn v1' req') t' (.ok resp') s')
    (hok : resp.succeeded = true) (hok' : resp'.succeeded = true) : resp.header < resp'.header := by
  obtain ⟨hp, f, i₁⟩ := txn_facts hs hk hr
  obtain ⟨ob, hob, key, wr, _, h2, h3⟩ := txn_commit f hk hp hok
  have hmem : (⟨resp.header, key, wr⟩ : Commit) ∈ s₁.world.hist :=
    (f.post ob hob).mem (by rw [h3]; simp)
  obtain ⟨i₂, hx⟩ := i₁.steps hmid
  obtain ⟨hp', f', _⟩ := run_facts hr' i₂ (safe_txn i₂.inv v1' req' hk')
  obtain ⟨ob', hob', key', wr', _, h2', h3'⟩ := txn_commit f' hk' hp' hok'
  have a := (f'.pre ob' hob').top
  have b := le_top i₁.inv.wf hmem
  have c := hx.top
  simp only at b
  omega

/-- The revision in the header of a read lies between the current revisions at call and return; hence it
never goes backwards from one read to a later one. -/
theorem C01_read_header_is_current {s s' : Sys} {v1 : Bool} {req : RangeReq} {t : List Obs}
    {resp : RangeResp} (hs : Reachable s) (hr : Run s (Bridge.range v1 req) t (.ok resp) s') :
    s.world.hist.top ≤ resp.header ∧ resp.header ≤ s'.world.hist.top := by
  obtain ⟨hp, f, _⟩ := range_facts hs hr
  obtain ⟨_, h1, h2, _⟩ := range_spec f hp
  exact ⟨h1, h2⟩

theorem C01_read_header_monotone {s s₁ s₂ s' : Sys} {v1 v1' : Bool} {req req' : RangeReq}
    {t t' : List Obs} {resp resp' : RangeResp} (hs : Reachable s)
    (hr : Run s (Bridge.range v1 req) t (.ok resp) s₁) (hmid : Steps s₁ s₂)
    (hr' : Run s₂ (Bridge.range v1' req') t' (.ok resp') s') : resp.header ≤ resp'.header := by
  obtain ⟨hp, f, i₁⟩ := range_facts hs hr
  obtain ⟨_, _, h2, _⟩ := range_spec f hp
  obtain ⟨i₂, hx⟩ := i₁.steps hmid
  obtain ⟨hp', f', _⟩ := run_facts hr' i₂ (safe_range i₂.inv v1' req')
  obtain ⟨_, h1', _⟩ := range_spec f' hp'
  have := hx.top
  omega

/-- Witness: an update in the demo system succeeds, with an interleaved write of another client. -/
example : ∃ s', Run Demo.sys (Limited.txn true (updateTxn Demo.ka 5 [9] 0))
    [⟨runCalls [(.txn true (createTxn Demo.kc [7] 0), oks 1)] Demo.world, .ok,
      (runCalls [(.txn true (createTxn Demo.kc [7] 0), oks 1)] Demo.world).exec
        (fun db => (updateSQL db Demo.ka 0 [9] 5).1) .ok⟩]
    (.ok { header := 9, succeeded := true, responses := [.put 9] }) s' :=
  ⟨_, runSched_run (is := [.env [(.txn true (createTxn Demo.kc [7] 0), oks 1)], .me .ok]) rfl⟩

/-! ## C02 Create -/

/-- What a create leaves behind: value and lease as given, create revision = mod revision = the new one. -/
theorem C02_create {s s' : Sys} {v1 : Bool} {key value : Bytes} {lease : Int} {t : List Obs}
    {resp : TxnResp} (hs : Reachable s)
    (hr : Run s (Limited.txn v1 (createTxn key value lease)) t (.ok resp) s') (hl : NoLost t) :
    (resp.succeeded = true →
      OneWrite t key resp.header (fun cur => cur = none)
        (fun _ => some { key := key, value := value, lease := lease, createRev := resp.header,
                         modRev := resp.header }) ∧
      resp.responses = [.put resp.header]) ∧
    (resp.succeeded = false →
      ChangesNothing t ∧ (∃ ob ∈ t, ob.pre.hist.now key ≠ none) ∧ resp.responses = []) := by
  rw [txn_create_eq] at hr
  obtain ⟨hp, f, _⟩ := create_facts hs hr
  obtain ⟨h1, h2, _⟩ := create_outcome f hp
  refine ⟨?_, ?_⟩
  · intro hok
    obtain ⟨a, b⟩ := h1 resp rfl hok hl
    refine ⟨a.imp (fun _ h => h) ?_, b⟩
    intro x hx; rw [hx]; rfl
  · intro hok
    obtain ⟨a, b, _, d⟩ := h2 resp rfl hok
    exact ⟨a hl, b, d⟩

/-- A create that returns an error has not changed anything either. -/
theorem C02_create_error {s s' : Sys} {v1 : Bool} {key value : Bytes} {lease : Int} {t : List Obs}
    {e : ApiErr} (hs : Reachable s)
    (hr : Run s (Limited.txn v1 (createTxn key value lease)) t (.error e) s') (hl : NoLost t) :
    ChangesNothing t := by
  rw [txn_create_eq] at hr
  obtain ⟨hp, f, _⟩ := create_facts hs hr
  exact (create_outcome f hp).2.2 e rfl hl

/-- Witness: creating the deleted key `/c` succeeds, creating `/a` fails. -/
example : (runSched [.me .ok] (Limited.txn true (createTxn Demo.kc [7] 5)) Demo.world).map (·.2.1)
      = some (.ok { header := 8, succeeded := true, responses := [.put 8] }) ∧
    (runSched [.me .ok] (Limited.txn true (createTxn Demo.ka [7] 5)) Demo.world).map (·.2.1)
      = some (.ok { header := 0, succeeded := false }) := by decide +kernel

/-! ## C03 Update -/

/-- Update is compare-and-swap on the mod revision. -/
theorem C03_update {s s' : Sys} {v1 : Bool} {key value : Bytes} {rev lease : Int} {t : List Obs}
    {resp : TxnResp} (hs : Reachable s) (hk : key ≠ compactRevKey) (h0 : rev ≠ 0)
    (hr : Run s (Limited.txn v1 (updateTxn key rev value lease)) t (.ok resp) s') :
    (resp.succeeded = true →
      OneWrite t key resp.header (fun cur => ∃ old, cur = some old ∧ old.modRev = rev)
        (fun cur => cur.map fun old =>
          { key := key, value := value, lease := lease, createRev := old.createRev,
            modRev := resp.header }) ∧
      resp.responses = [.put resp.header]) ∧
    (resp.succeeded = false →
      (NoLost t → ChangesNothing t) ∧
      ∃ ob ∈ t, ∀ old, ob.pre.hist.now key = some old → old.modRev ≠ rev) := by
  rw [txn_update_eq] at hr
  obtain ⟨hp, f, _⟩ := update_facts hs hk hr
  obtain ⟨o, h1⟩ := update_outcome hk h0 f hp
  refine ⟨?_, ?_⟩
  · intro hok
    refine ⟨(o.success resp rfl hok).imp (fun _ h => h) ?_, h1 resp rfl hok⟩
    rintro x ⟨old, rfl, _⟩; rfl
  · intro hok
    obtain ⟨a, b, _⟩ := o.failure resp rfl hok
    exact ⟨a, b⟩

/-- An update that returns an error has not changed anything, unless an acknowledgement was lost. -/
theorem C03_update_error {s s' : Sys} {v1 : Bool} {key value : Bytes} {rev lease : Int} {t : List Obs}
    {e : ApiErr} (hs : Reachable s) (hk : key ≠ compactRevKey) (h0 : rev ≠ 0)
    (hr : Run s (Limited.txn v1 (updateTxn key rev value lease)) t (.error e) s') (hl : NoLost t) :
    ChangesNothing t := by
  rw [txn_update_eq] at hr
  obtain ⟨hp, f, _⟩ := update_facts hs hk hr
  exact (update_outcome hk h0 f hp).1.error e rfl hl

/-- An update with expected revision 0 is a create. -/
theorem C03_update_zero {s s' : Sys} {v1 : Bool} {key value : Bytes} {lease : Int} {t : List Obs}
    {resp : TxnResp} (hs : Reachable s) (hk : key ≠ compactRevKey)
    (hr : Run s (Limited.txn v1 (updateTxn key 0 value lease)) t (.ok resp) s') (hl : NoLost t)
    (hok : resp.succeeded = true) :
    OneWrite t key resp.header (fun cur => cur = none)
      (fun _ => some { key := key, value := value, lease := lease, createRev := resp.header,
                       modRev := resp.header }) := by
  rw [txn_update_eq] at hr
  obtain ⟨hp, f, _⟩ := update_facts hs hk hr
  obtain ⟨t₁, t₂, ⟨rev', ok⟩, rfl, h1, h2⟩ := path_andThen_ok hp
  have h1 : Path (Backend.create key value lease) t₁ (.ok (rev', ok)) := h1
  obtain ⟨a1, a2, a3, a4, _⟩ := path_write (cas_create key value lease) f.append_left h1
  cases ok with
  | true =>
    simp only [↓reduceIte] at h2
    obtain ⟨e1, e2⟩ := path_ret h2
    subst e1
    cases e2
    rw [List.append_nil] at *
    refine ((a1 rev' rfl (Or.inl hl)).oneWrite f fun w h => h).imp (fun _ h => h) ?_
    intro x hx; rw [hx]; rfl
  | false =>
    simp only [Bool.false_eq_true, ↓reduceIte] at h2
    obtain ⟨_, _, ⟨_, _⟩, _, _, h4⟩ := path_andThen_ok h2
    obtain ⟨_, e2⟩ := path_ret h4
    cases e2; cases hok

/-- Witness: an update of `/a` at its revision 5 succeeds (create revision 3 is kept), one at the stale
revision 3 fails and returns the current version. -/
example : (runSched [.me .ok] (Limited.txn true (updateTxn Demo.ka 5 [9] 7)) Demo.world).map
      (fun x => (x.2.1, x.2.2.hist.now Demo.ka))
      = some (.ok { header := 8, succeeded := true, responses := [.put 8] },
              some { key := Demo.ka, value := [9], lease := 7, createRev := 3, modRev := 8 }) ∧
    (runSched [.me .ok, .me .ok, .me .ok] (Limited.txn true (updateTxn Demo.ka 3 [9] 7)) Demo.world).map
      (·.2.1) = some (.ok { header := 0, succeeded := false, responses := [.range { header := 7, kvs :=
        [{ key := Demo.ka, value := [3], lease := 0, createRev := 3, modRev := 5 }] }] }) := by
  decide +kernel

/-! ## C04 Delete -/

/-- Delete is compare-and-delete on the mod revision. -/
theorem C04_delete {s s' : Sys} {v1 : Bool} {key : Bytes} {rev : Int} {t : List Obs}
    {resp : TxnResp} (hs : Reachable s) (hk : key ≠ compactRevKey)
    (hr : Run s (Limited.txn v1 (deleteTxn key rev)) t (.ok resp) s') :
    (resp.succeeded = true →
      OneWrite t key resp.header (fun cur => ∃ old, cur = some old ∧ old.modRev = rev) (fun _ => none) ∧
      resp.responses = [.deleteRange resp.header]) ∧
    (resp.succeeded = false →
      (NoLost t → ChangesNothing t) ∧
      ∃ ob ∈ t, ∀ old, ob.pre.hist.now key = some old → old.modRev ≠ rev) := by
  rw [txn_delete_eq] at hr
  obtain ⟨hp, f, _⟩ := delete_facts hs hk hr
  obtain ⟨o, h1⟩ := delete_outcome hk f hp
  refine ⟨?_, ?_⟩
  · intro hok
    refine ⟨(o.success resp rfl hok).imp (fun _ h => h) ?_, h1 resp rfl hok⟩
    rintro x ⟨old, rfl, _⟩; rfl
  · intro hok
    obtain ⟨a, b, _⟩ := o.failure resp rfl hok
    exact ⟨a, b⟩

theorem C04_delete_error {s s' : Sys} {v1 : Bool} {key : Bytes} {rev : Int} {t : List Obs}
    {e : ApiErr} (hs : Reachable s) (hk : key ≠ compactRevKey)
    (hr : Run s (Limited.txn v1 (deleteTxn key rev)) t (.error e) s') (hl : NoLost t) :
    ChangesNothing t := by
  rw [txn_delete_eq] at hr
  obtain ⟨hp, f, _⟩ := delete_facts hs hk hr
  exact (delete_outcome hk f hp).1.error e rfl hl

/-- Once deleted, a key stays absent at every revision until the next write on it, whatever else happens
afterwards (other writes, compactions, restarts). -/
theorem C04_deleted_until_recreated {s s₁ s₂ : Sys} {v1 : Bool} {key : Bytes} {rev : Int} {t : List Obs}
    {resp : TxnResp} (hs : Reachable s) (hk : key ≠ compactRevKey)
    (hr : Run s (Limited.txn v1 (deleteTxn key rev)) t (.ok resp) s₁) (hok : resp.succeeded = true)
    (hlater : Steps s₁ s₂) {r : Int} (hr1 : resp.header ≤ r)
    (hno : ∀ c ∈ s₂.world.hist, c.key = key → resp.header < c.rev → r < c.rev) :
    s₂.world.hist.at r key = none := by
  have hk' : (deleteTxn key rev).writtenKey ≠ some compactRevKey := by
    intro h; exact hk (Option.some.inj h)
  obtain ⟨hp, f, i₁⟩ := txn_facts hs hk' hr
  obtain ⟨i₂, hx⟩ := i₁.steps hlater
  rw [txn_delete_eq] at hr
  obtain ⟨hp2, f2, _⟩ := delete_facts hs hk hr
  obtain ⟨a, ob, b, e, _, _, heff⟩ := ((delete_outcome hk f2 hp2).1).success resp rfl hok
  have hob : ob ∈ t := by rw [e]; simp
  have hpost := (f.post ob hob).trans hx
  have hnow : s₂.world.hist.at resp.header key = none := by
    rw [hpost.at (by rw [heff.current]; omega)]
    rw [at_ge_top (f.step ob hob).inv.wf (by rw [heff.current]; omega), heff.now]
    rfl
  rw [← hnow]
  apply at_eq_of_no_between hr1
  intro c hc hck hcr
  apply Classical.byContradiction
  intro hgt
  have := hno c hc hck (by omega)
  omega

/-- Witness: deleting `/b` at its revision 4. -/
example : (runSched [.me .ok] (Limited.txn true (deleteTxn Demo.kb 4)) Demo.world).map
      (fun x => (x.2.1, x.2.2.hist.now Demo.kb))
      = some (.ok { header := 8, succeeded := true, responses := [.deleteRange 8] }, none) := by
  decide +kernel

/-! ## C25 Lost acknowledgements never duplicate an update or delete -/

/-- Whatever errors, retries and lost acknowledgements happen during an update call, and whatever it
answers, it changes the store at most once. -/
theorem C25_update_at_most_once {s s' : Sys} {v1 : Bool} {key value : Bytes} {rev lease : Int}
    {t : List Obs} {a : Except ApiErr TxnResp} (hs : Reachable s) (hk : key ≠ compactRevKey) (h0 : rev ≠ 0)
    (hr : Run s (Limited.txn v1 (updateTxn key rev value lease)) t a s') :
    ChangesNothing t ∨ ∃ new, OneWrite t key new (fun cur => ∃ old, cur = some old ∧ old.modRev = rev)
      (fun cur => cur.map fun old =>
        { key := key, value := value, lease := lease, createRev := old.createRev, modRev := new }) := by
  rw [txn_update_eq] at hr
  obtain ⟨hp, f, _⟩ := update_facts hs hk hr
  rcases (update_outcome hk h0 f hp).1.once with h | ⟨new, h⟩
  · exact Or.inl h
  · refine Or.inr ⟨new, h.imp (fun _ h => h) ?_⟩
    rintro x ⟨old, rfl, _⟩; rfl

/-- The same for a delete call. -/
theorem C25_delete_at_most_once {s s' : Sys} {v1 : Bool} {key : Bytes} {rev : Int}
    {t : List Obs} {a : Except ApiErr TxnResp} (hs : Reachable s) (hk : key ≠ compactRevKey)
    (hr : Run s (Limited.txn v1 (deleteTxn key rev)) t a s') :
    ChangesNothing t ∨ ∃ new, OneWrite t key new (fun cur => ∃ old, cur = some old ∧ old.modRev = rev)
      (fun _ => none) := by
  rw [txn_delete_eq] at hr
  obtain ⟨hp, f, _⟩ := delete_facts hs hk hr
  rcases (delete_outcome hk f hp).1.once with h | ⟨new, h⟩
  · exact Or.inl h
  · refine Or.inr ⟨new, h.imp (fun _ h => h) ?_⟩
    rintro x ⟨old, rfl, _⟩; rfl

/-- Witness: the acknowledgement of the first attempt is lost, the retry does nothing; the client is told the
update failed, with its own new version in the else branch. -/
example : (runSched [.me (.lost .busy), .me .ok, .me .ok, .me .ok]
      (Limited.txn true (updateTxn Demo.ka 5 [9] 7)) Demo.world).map
      (fun x => (x.2.1, x.2.2.hist.length))
      = some (.ok { header := 0, succeeded := false, responses := [.range { header := 8, kvs :=
        [{ key := Demo.ka, value := [9], lease := 7, createRev := 3, modRev := 8 }] }] }, 8) := by
  decide +kernel

end Verif
