import Verif.Props.Compaction
/-!
# C19 Crash safety
-/

namespace Verif

/-- The system after a call was cut off at any point, on a store that was reachable, is again a reachable
system: so every theorem about reachable systems (all read guarantees, compaction, watches) holds after the
crash and after any number of restarts. -/
theorem C19_consistent_after_crash {s s' : Sys} {c : Call} {t : List Obs} (hs : Reachable s) (hc : c.allowed)
    (hd : Dies s c.prog t s') : Reachable s' := hd.reachable hs hc

/-- No partial write is visible: each statement the interrupted call got to execute has committed nothing or
exactly one whole write with the next revision. -/
theorem C19_no_torn_write {s s' : Sys} {c : Call} {t : List Obs} (hs : Reachable s) (hc : c.allowed)
    (hd : Dies s c.prog t s') :
    ∀ ob ∈ t, ob.post.hist = ob.pre.hist ∨
      ∃ x, ob.post.hist = ob.pre.hist ++ [x] ∧ x.rev = ob.pre.hist.top + 1 := by
  obtain ⟨hp, f, _⟩ := dies_facts hd hs.sysInv (safe_call hs.inv c hc)
  intro ob hob
  obtain ⟨eff, hk, e⟩ := prefix_allStmts hp (all_call (l := true) c hc (by simp)) ob hob
  rw [e]
  exact kind_commits (f.pre ob hob).inv hk ob.out

/-- Whatever happens to any call, what was committed before stays committed. -/
theorem C19_committed_stays {s s' : Sys} {c : Call} {t : List Obs} (hs : Reachable s) (hc : c.allowed)
    (hd : Dies s c.prog t s') : s'.world.hist.Extends s.world.hist := by
  obtain ⟨_, f, _⟩ := dies_facts hd hs.sysInv (safe_call hs.inv c hc)
  exact f.total.hist

/-- An acknowledged write is still readable after anything that happens later (crashes, restarts, compaction):
a read of its key at its revision, if that revision is not compacted, returns exactly the acknowledged state —
the written version for a put, nothing for a delete. -/
theorem C19_acknowledged_write_survives {s s₁ s₂ s' : Sys} {v1 v1' : Bool} {req : TxnReq} {t t' : List Obs}
    {resp : TxnResp} {resp' : RangeResp} {key : Bytes} (hs : Reachable s)
    (hk : key ≠ compactRevKey) (hreq : req.writtenKey = some key)
    (hr : Run s (Limited.txn v1 req) t (.ok resp) s₁) (hok : resp.succeeded = true) (hmid : Steps s₁ s₂)
    (hr' : Run s₂ (Bridge.range v1' { key := key, revision := resp.header }) t' (.ok resp') s') (hnt : NoTrunc t')
    (hc : s'.world.db.compactRev ≤ resp.header) :
    ∃ c ∈ s₁.world.hist, c.rev = resp.header ∧ c.key = key ∧
      match c.write with
      | none => resp'.kvs = []
      | some (v, l) => ∃ kv, resp'.kvs = [kv] ∧ kv.key = key ∧ kv.value = v ∧ kv.lease = l ∧
          kv.modRev = resp.header := by
  have hk' : req.writtenKey ≠ some compactRevKey := by rw [hreq]; intro h; exact hk (Option.some.inj h)
  obtain ⟨hp, f, i₁⟩ := txn_facts hs hk' hr
  obtain ⟨ob, hob, key', wr, h1, h2, h3⟩ := txn_commit f hk' hp hok
  have hkk : key' = key := by rw [hreq] at h1; exact (Option.some.inj h1).symm
  subst hkk
  have hmem : (⟨resp.header, key', wr⟩ : Commit) ∈ s₁.world.hist :=
    (f.post ob hob).mem (by rw [h3]; simp)
  refine ⟨_, hmem, rfl, rfl, ?_⟩
  obtain ⟨i₂, hx⟩ := i₁.steps hmid
  obtain ⟨hp', f', i'⟩ := run_facts hr' i₂ (safe_range i₂.inv v1' _)
  have hle : resp.header ≤ s₂.world.hist.top := by
    have := le_top i₁.inv.wf hmem; have := hx.top; simp only at *; omega
  have h0 : resp.header ≠ 0 := by
    have := i₁.inv.wf.pos _ hmem; simp only at this; omega
  obtain ⟨_, _, _, q, _, hq, _, _, _, hfull⟩ := range_spec f' hp'
  have hqr : q = resp.header := (hq h0 hle).1
  rw [hqr] at hfull
  obtain ⟨full, ha, a1, _, _⟩ := hfull hnt hc
  obtain ⟨e1, _, _⟩ := a1 rfl
  have hmem' : (⟨resp.header, key', wr⟩ : Commit) ∈ s'.world.hist := (hx.trans f'.total).mem hmem
  have hat : s'.world.hist.at resp.header key'
      = (⟨resp.header, key', wr⟩ : Commit).applyTo (s'.world.hist.at (resp.header - 1) key') :=
    at_of_last i'.inv.wf hmem' rfl (Int.le_refl _) (fun c' _ _ h => h)
  rw [e1]
  have hkeys : ∀ kv ∈ full, kv.key = key' := by
    intro kv hkv
    have := ((ha.2 kv).1 hkv).1
    unfold Wanted at this
    rw [if_pos rfl] at this
    exact this
  cases wr with
  | none =>
    simp only
    cases hf : full with
    | nil => rfl
    | cons kv rest =>
      have hkv : kv ∈ full := by simp [hf]
      have := ((ha.2 kv).1 hkv).2
      rw [hkeys kv hkv, hat] at this
      cases this
  | some vl =>
    obtain ⟨v, l⟩ := vl
    simp only
    have hkv : ∃ kv, s'.world.hist.at resp.header key' = some kv ∧ kv.key = key' ∧ kv.value = v ∧ kv.lease = l ∧
        kv.modRev = resp.header := ⟨_, hat, rfl, rfl, rfl, rfl⟩
    obtain ⟨kv, b1, b2, b3, b4, b5⟩ := hkv
    refine ⟨kv, ?_, b2, b3, b4, b5⟩
    have hsing : Answers s'.world.hist resp.header key' [] [kv] := by
      refine ⟨by simp, fun x => ?_⟩
      unfold Wanted
      rw [if_pos rfl, List.mem_singleton]
      constructor
      · rintro rfl; exact ⟨b2, by rw [b2]; exact b1⟩
      · rintro ⟨c1, c2⟩
        rw [c1, b1] at c2
        exact (Option.some.inj c2).symm
    exact Answers.unique ha hsing

/-- An update transaction cut off at any point has changed nothing or has been applied exactly once. -/
theorem C19_interrupted_update {s s' : Sys} {v1 : Bool} {key value : Bytes} {rev lease : Int} {t : List Obs}
    (hs : Reachable s) (hk : key ≠ compactRevKey) (h0 : rev ≠ 0)
    (hd : Dies s (Limited.txn v1 (updateTxn key rev value lease)) t s') :
    ChangesNothing t ∨ ∃ new, OneWrite t key new (fun cur => ∃ old, cur = some old ∧ old.modRev = rev)
      (fun cur => cur.map fun old =>
        { key := key, value := value, lease := lease, createRev := old.createRev, modRev := new }) := by
  rw [txn_update_eq] at hd
  obtain ⟨hp, f, _⟩ := dies_facts hd hs.sysInv (safe_limited_update hs.inv v1 rev hk value lease)
  have hE : AllStmts (fun e => e = id ∨ e = fun db => (updateSQL db key lease value rev).1)
      (Limited.update v1 rev key value lease) := by
    unfold Limited.update
    apply all_andThen
    · rw [if_neg h0]; exact all_write (Or.inr rfl)
    · intro a; simp only; split
      · trivial
      · exact all_elseRange (Or.inl rfl) _ _ _
  have hall : ∀ ob ∈ t, ob.isExec (fun db => updateSQL db key lease value rev) ∨ ob.post = ob.pre := by
    intro ob hob
    obtain ⟨eff, hk, e⟩ := prefix_allStmts hp hE ob hob
    rcases hk with rfl | rfl
    · right; rw [e, (f.inv hob).exec_id]
    · left; exact e
  rcases once_of_execs (cas_update hk value lease rev) (once_atRev key rev _) f hall with h | ⟨new, h⟩
  · exact Or.inl h
  · refine Or.inr ⟨new, (h.oneWrite f (fun _ h => h)).imp (fun _ h => h) ?_⟩
    rintro cur ⟨old, rfl, _⟩
    rfl

/-- The same for a delete transaction. -/
theorem C19_interrupted_delete {s s' : Sys} {v1 : Bool} {key : Bytes} {rev : Int} {t : List Obs}
    (hs : Reachable s) (hk : key ≠ compactRevKey) (hd : Dies s (Limited.txn v1 (deleteTxn key rev)) t s') :
    ChangesNothing t ∨ ∃ new, OneWrite t key new (fun cur => ∃ old, cur = some old ∧ old.modRev = rev)
      (fun _ => none) := by
  rw [txn_delete_eq] at hd
  obtain ⟨hp, f, _⟩ := dies_facts hd hs.sysInv (safe_limited_delete hs.inv v1 rev hk)
  have hE : AllStmts (fun e => e = id ∨ e = fun db => (deleteSQL db key rev).1)
      (Limited.delete v1 key rev) := by
    unfold Limited.delete
    refine all_andThen (all_write (Or.inr rfl)) ?_
    intro a; simp only; split
    · trivial
    · exact all_elseRange (Or.inl rfl) _ _ _
  have hall : ∀ ob ∈ t, ob.isExec (fun db => deleteSQL db key rev) ∨ ob.post = ob.pre := by
    intro ob hob
    obtain ⟨eff, hk, e⟩ := prefix_allStmts hp hE ob hob
    rcases hk with rfl | rfl
    · right; rw [e, (f.inv hob).exec_id]
    · left; exact e
  rcases once_of_execs (cas_delete hk rev) (once_atRev key rev _) f hall with h | ⟨new, h⟩
  · exact Or.inl h
  · exact Or.inr ⟨new, (h.oneWrite f (fun _ h => h)).imp (fun _ h => h) (fun _ _ => rfl)⟩

/-- Witness: the demo store; an update dies after a first attempt that was committed but not acknowledged. -/
example : ∃ s' ob, Dies Demo.sys (Limited.txn true (updateTxn Demo.ka 5 [9] 0)) [ob] s' ∧
    s'.world.hist.now Demo.ka = some ⟨Demo.ka, [9], 0, 3, 8⟩ :=
  ⟨_, _, .step (.lost .busy) (.die _ _), by decide +kernel⟩

end Verif
