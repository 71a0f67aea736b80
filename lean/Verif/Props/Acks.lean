import Verif.Props.Writes
/-!
# Lost acknowledgements of creates (C72)

The database may execute a statement and yet report a retryable error (`Outcome.lost .busy`: a leader that steps down
after having committed); `execute` then sends it again (`/repo/pkg/backend/sqlite/driver.go:442-478`). For updates and
deletes the condition on the revision makes the retry harmless (C25). A create has no such condition.
-/

namespace Verif

/-- Whatever errors, retries and lost acknowledgements happen during a create, and whatever it answers: every single
statement of the call either changes nothing, or finds the key absent and creates it with the given value and lease at
the next revision. So a create never touches a live key, and if it is applied a second time then somebody else has
deleted the key in between. A successful answer names a revision created by this call, and there are at most 500
attempts. -/
theorem C72_create_only_when_absent_partial {s s' : Sys} {v1 : Bool} {key value : Bytes} {lease : Int} {t : List Obs}
    {a : Except ApiErr TxnResp} (hs : Reachable s)
    (hr : Run s (Limited.txn v1 (createTxn key value lease)) t a s') :
    (∀ ob ∈ t, ob.post = ob.pre ∨ (ob.pre.hist.now key = none ∧ ∃ rev, Effect ob.pre ob.post key rev
      (some { key := key, value := value, lease := lease, createRev := rev, modRev := rev }))) ∧
    (∀ resp, a = .ok resp → resp.succeeded = true →
      ∃ ob ∈ t, ob.pre.hist.now key = none ∧ Effect ob.pre ob.post key resp.header
        (some { key := key, value := value, lease := lease, createRev := resp.header, modRev := resp.header })) ∧
    t.length ≤ 500 := by
  rw [txn_create_eq] at hr
  obtain ⟨hp, f, _⟩ := create_facts hs hr
  have c := cas_create key value lease
  have heff : ∀ ob ∈ t, ob.pre.hist.now key = none → ∀ rev, rev = ob.pre.hist.top + 1 →
      ob.post.hist = ob.pre.hist ++ [⟨rev, key, some (value, lease)⟩] → Effect ob.pre ob.post key rev
        (some { key := key, value := value, lease := lease, createRev := rev, modRev := rev }) := by
    intro ob hob hn rev h3 h4
    have := effect_of_commit (f.step ob hob).inv h3 h4
    rw [hn] at this
    exact this
  have hall : ∀ n r, ExecAny (fun db => createSQL db key lease value) n t r →
      ∀ ob ∈ t, ob.post = ob.pre ∨ (ob.pre.hist.now key = none ∧ ∃ rev, Effect ob.pre ob.post key rev
        (some { key := key, value := value, lease := lease, createRev := rev, modRev := rev })) := by
    intro n r hx ob hob
    by_cases hg : ob.out.applied = true ∧ Absent key ob.pre
    · exact Or.inr ⟨hg.2, _, heff ob hob hg.2 _ rfl (c.commits (f.inv hob) (hx.1 ob hob) hg.1 hg.2)⟩
    · left
      apply c.nothing (f.inv hob) (hx.1 ob hob)
      cases ha : ob.out.applied with
      | false => exact Or.inl rfl
      | true => exact Or.inr fun h => hg ⟨ha, h⟩
  rcases path_andThen (p := Backend.create key value lease) hp with ⟨t₁, t₂, ⟨rev, ok⟩, rfl, h1, h2⟩ | ⟨e, rfl, h1⟩
  · have ht : t₂ = [] := by
      simp only at h2
      split at h2 <;> exact (path_ret h2).1
    subst ht
    rw [List.append_nil] at *
    have hpw := path_write c f h1
    refine ⟨?_, ?_, hpw.2.2.2.2⟩
    · obtain ⟨u₁, u₂, res, e1, h3, h4⟩ := path_andThen_ok h1
      have e2 := (path_ret h4).1
      subst e2
      rw [List.append_nil] at e1
      subst e1
      exact hall _ _ (path_executeLoop h3)
    · intro resp hres hok
      cases ok with
      | false =>
        simp only [Bool.false_eq_true, ↓reduceIte] at h2
        have := (path_ret h2).2
        rw [hres] at this
        cases this
        cases hok
      | true =>
        simp only [↓reduceIte] at h2
        have := (path_ret h2).2
        rw [hres] at this
        cases this
        obtain ⟨ob, hob, hg, hrev, hc⟩ := path_write_rev c f h1
        exact ⟨ob, hob, hg, heff ob hob hg _ hrev hc⟩
  · have hpw := path_write c f h1
    refine ⟨?_, ?_, hpw.2.2.2.2⟩
    · rcases path_andThen h1 with ⟨u₁, u₂, res, e1, h3, h4⟩ | ⟨e', _, h3⟩
      · cases (path_ret h4).2
      · exact hall _ _ (path_executeLoop h3)
    · intro resp hres; cases hres

/-- The client is told that the key already existed although its own create made it: the acknowledgement of the first
attempt is lost, the retry finds the key. Nobody else does anything. -/
theorem C72_told_failure_counterexample : ∃ s s' t, Reachable s ∧
    Run s (Limited.txn true (createTxn Demo.kc [7] 5)) t (.ok { header := 0, succeeded := false }) s' ∧
    s.world.hist.now Demo.kc = none ∧
    s'.world.hist = s.world.hist ++ [⟨8, Demo.kc, some ([7], 5)⟩] :=
  ⟨_, _, _, Demo.reachable, runSched_run (is := [.me (.lost .busy), .me .ok]) rfl, by decide +kernel, by decide +kernel⟩

/-- One create is applied twice: the acknowledgement of the first attempt is lost, another client deletes the key, and
the retry brings it back to life. -/
theorem C72_applied_twice_counterexample : ∃ s s' t, Reachable s ∧
    Run s (Limited.txn true (createTxn Demo.kc [7] 5)) t
      (.ok { header := 10, succeeded := true, responses := [.put 10] }) s' ∧
    s'.world.hist = s.world.hist ++
      [⟨8, Demo.kc, some ([7], 5)⟩, ⟨9, Demo.kc, none⟩, ⟨10, Demo.kc, some ([7], 5)⟩] :=
  ⟨_, _, _, Demo.reachable, runSched_run (is := [.me (.lost .busy),
    .env [(.txn true (deleteTxn Demo.kc 8), oks 1)], .me .ok]) rfl, by decide +kernel⟩

end Verif
