import Verif.Props.Polling
import Verif.Lemmas.TExec
/-!
# Properties of lease expiry: C38, C39, C40, C55
-/

namespace Verif

theorem TReachable.base {a : TSys} (h : TReachable a) : Reachable a.base.sys := h.inv.base.reachable

/-- The deletion issued for a timer. -/
theorem expire_facts {s s' : Sys} {key : Bytes} {rev : Int} {t : List Obs} {r : Except ApiErr (Int × Bool)}
    (hs : Reachable s) (hk : key ≠ compactRevKey) (hr : Run s (Backend.delete key rev) t r s') :
    Path (Backend.delete key rev) t r ∧ Facts s.world t s'.world ∧ SysInv s' :=
  run_facts hr hs.sysInv (wp_safe (wp_delete hs.inv hk rev))

/-! ## C38 Lease expiry never removes a newer version -/

/-- Whatever timer of the TTL loop fires, at whatever moment, interleaved with anything: the deletion it issues
either changes nothing, or it is a single write that deletes the key at an instant when the current version of the
key is exactly the one the timer was started for. A version written since is never touched. -/
theorem C38_expiry_exact {a : TSys} (h : TReachable a) {x : Timer} (hx : x ∈ a.ttl.timers) {t : List Obs}
    {r : Except ApiErr (Int × Bool)} {s' : Sys} (hr : Run a.base.sys (Backend.delete x.key x.rev) t r s') :
    ChangesNothing t ∨
    ∃ rev, OneWrite t x.key rev (fun cur => ∃ old, cur = some old ∧ old.modRev = x.rev) (fun _ => none) := by
  have hk := (h.inv.timers x hx).key h.base.markerPlain
  obtain ⟨hp, f, _⟩ := expire_facts h.base hk hr
  have h4 := (path_write (cas_delete hk x.rev) f hp).2.2.2.1 (once_atRev _ _ _)
  rcases h4 with h4 | ⟨rev, h4⟩
  · exact Or.inl h4
  · right
    refine ⟨rev, (h4.oneWrite f fun w h => h).imp (fun _ h => h) ?_⟩
    rintro y ⟨old, rfl, _⟩
    rfl

/-- The same in terms of the store: if at no instant at which the deletion executes a statement the version of the
timer is the current one, because the key was renewed, re-created or deleted, nothing happens at all. -/
theorem C38_renewed_is_safe {a : TSys} (h : TReachable a) {x : Timer} (hx : x ∈ a.ttl.timers) {t : List Obs}
    {r : Except ApiErr (Int × Bool)} {s' : Sys} (hr : Run a.base.sys (Backend.delete x.key x.rev) t r s')
    (hnew : ∀ ob ∈ t, ∀ kv, ob.pre.hist.now x.key = some kv → kv.modRev ≠ x.rev) : ChangesNothing t := by
  rcases C38_expiry_exact h hx hr with h1 | ⟨rev, p, ob, q, rfl, _, ⟨old, h2, h3⟩, _⟩
  · exact h1
  · exact absurd h3 (hnew ob (by simp) old h2)

/-- And expiry is effective: when the deletion returns without an error, the version is gone. -/
theorem C38_expired_is_gone {a : TSys} (h : TReachable a) {x : Timer} (hx : x ∈ a.ttl.timers) {t : List Obs}
    {res : Int × Bool} {s' : Sys} (hr : Run a.base.sys (Backend.delete x.key x.rev) t (.ok res) s') :
    ∀ kv, s'.world.hist.now x.key = some kv → kv.modRev ≠ x.rev := by
  have hok := h.inv.timers x hx
  have hk := hok.key h.base.markerPlain
  obtain ⟨hp, f, hs'⟩ := expire_facts h.base hk hr
  have hle : x.rev ≤ a.base.sys.world.hist.top := by
    obtain ⟨_, ⟨c, hc, h1, _⟩, _⟩ := hok
    rw [← h1]; exact le_top h.base.inv.wf hc
  intro kv hn hm
  obtain ⟨h1, h2, _⟩ := path_write (cas_delete hk x.rev) f hp
  obtain ⟨rev, ok⟩ := res
  cases ok with
  | false =>
    obtain ⟨_, ⟨ob, hob, hg⟩, _⟩ := h2 rev rfl
    have hpre := (f.step ob hob).trans (f.post ob hob)
    have := (f.pre ob hob).top
    exact hg ⟨kv, hpre.now_back (f.pre ob hob).inv hn (by omega), hm⟩
  | true =>
    obtain ⟨p, ob, q, e, _, hg, hrev, hh⟩ := h1 rev rfl (Or.inr (once_atRev _ _ _))
    have hob : ob ∈ t := by rw [e]; simp
    rw [hrev] at hh
    exact once_atRev x.key x.rev none ob.pre ob.post s'.world (f.inv hob) hg hh (f.post ob hob) ⟨kv, hn, hm⟩

/-- A leased key is listed when the loop starts: its timer. -/
def ttlDemo : TScenario := ⟨⟨Demo.setup, 4, []⟩,
  [.exec .ok, .done, .exec .ok, .done, .openGroup, .watch, .node (.exec 0 .ok), .node (.done 0), .node (.exec 0 .ok),
   .node (.done 0), .calls [(.txn true (createTxn [0x2f, 0x64] [9] 5), oks 1)],
   .node .pollStart, .node (.pollExec .ok), .node .pollDone, .recv 700]⟩

/-- The hypotheses are met: `/b` (lease 30, revision 4) was listed, `/d` (lease 5, revision 8) came with the watch;
the timer for `/b` fires, and deletes it. -/
example : ∃ w n t, TReachable ⟨⟨⟨w, []⟩, n⟩, t⟩ ∧
    (⟨Demo.kb, 4, 30, 30000000000⟩ : Timer) ∈ t.timers ∧ (⟨[0x2f, 0x64], 8, 5, 5700000000⟩ : Timer) ∈ t.timers ∧
    ∃ obs s', Run ⟨w, []⟩ (Backend.delete Demo.kb 4) obs (.ok (9, true)) s' := by
  obtain ⟨w, n, t, h, hP⟩ := ttlDemo.check
    (fun w n t => decide ((⟨Demo.kb, 4, 30, 30000000000⟩ : Timer) ∈ t.timers) &&
      decide ((⟨[0x2f, 0x64], 8, 5, 5700000000⟩ : Timer) ∈ t.timers) &&
      (match runSched [.me .ok] (Backend.delete Demo.kb 4) w with
        | some (_, .ok (9, true), _) => true
        | _ => false)) (by decide +kernel)
  simp only [Bool.and_eq_true, decide_eq_true_eq] at hP
  refine ⟨w, n, t, h, hP.1.1, hP.1.2, ?_⟩
  have h3 := hP.2
  split at h3
  · rename_i e
    exact ⟨_, _, runSched_run e⟩
  · cases h3

/-! ## C40 Keys without lease never expire -/

/-- The TTL loop only has timers for versions written with a lease, or for deletions. -/
theorem C40_timers_leased {a : TSys} (h : TReachable a) {x : Timer} (hx : x ∈ a.ttl.timers) :
    ∃ c ∈ a.base.sys.world.hist, c.rev = x.rev ∧ c.key = x.key ∧
      ∀ v l, c.write = some (v, l) → l = x.lease ∧ l ≠ 0 := by
  obtain ⟨h1, ⟨c, hc, h2, h3, h4⟩, _⟩ := h.inv.timers x hx
  refine ⟨c, hc, h2, h3, fun v l hw => ?_⟩
  rcases h4 with h4 | ⟨v', h4⟩
  · rw [h4] at hw; cases hw
  · rw [h4] at hw; cases hw; exact ⟨rfl, h1⟩

/-- Whatever timer fires: if its deletion removes a version, that version had the (non-zero) lease of the timer. A
version with lease 0 is never deleted by the TTL machinery. -/
theorem C40_only_leased_expire {a : TSys} (h : TReachable a) {x : Timer} (hx : x ∈ a.ttl.timers) {t : List Obs}
    {r : Except ApiErr (Int × Bool)} {s' : Sys} (hr : Run a.base.sys (Backend.delete x.key x.rev) t r s') :
    ∀ ob ∈ t, ob.post ≠ ob.pre → ∃ old, ob.pre.hist.now x.key = some old ∧ old.lease = x.lease ∧ old.lease ≠ 0 ∧
      ∀ k, k ≠ x.key → ob.post.hist.now k = ob.pre.hist.now k := by
  intro ob hob hne
  have hk := (h.inv.timers x hx).key h.base.markerPlain
  obtain ⟨_, f, _⟩ := expire_facts h.base hk hr
  rcases C38_expiry_exact h hx hr with h1 | ⟨rev, p, ob', q, e, hno, ⟨old, h2, h3⟩, heff⟩
  · exact absurd (h1 ob hob) hne
  · have : ob = ob' := by
      rw [e] at hob
      simp only [List.mem_append, List.mem_cons] at hob
      rcases hob with h | h | h
      · exact absurd (hno ob (by simp [h])) hne
      · exact h
      · exact absurd (hno ob (by simp [h])) hne
    subst this
    obtain ⟨c, hc, c1, c2, c3⟩ := C40_timers_leased h hx
    have hat := h2
    rw [← at_ge_top (f.inv hob).wf (Int.le_refl _)] at hat
    obtain ⟨_, _, _, ⟨c', hc', e1, e2, e3⟩, _⟩ := at_some_inv (f.inv hob).wf hat
    have : c' = c := Wf_rev_inj (f.inv hob).wf hc' ((f.pre ob hob).mem hc) (by rw [e1, h3, c1])
    subst this
    obtain ⟨l1, l2⟩ := c3 _ _ e3
    exact ⟨old, h2, l1, l2, heff.others⟩

/-! ## C39 Every leased key is scheduled for expiry -/

/-- As soon as the listing is done (and its cursor did not break), every live version with a lease that existed at the
start revision of the loop has a timer for exactly that version, and keeps it while it is current. -/
theorem C39_listed {a : TSys} (h : TReachable a) {start : Int}
    (hp : a.ttl.phase = .group start ∨ ∃ i, a.ttl.phase = .watch start i ∨ a.ttl.phase = .serve start i)
    (htr : a.ttl.truncated = false) {k : Bytes} {kv : KV} (hn : a.base.sys.world.hist.now k = some kv)
    (hl : kv.lease ≠ 0) (hr : kv.modRev ≤ start) :
    ∃ x ∈ a.ttl.timers, x.key = k ∧ x.rev = kv.modRev ∧ x.lease = kv.lease := by
  have hph := h.inv.phase
  unfold PhaseOk at hph
  rcases hp with hp | ⟨i, hp | hp⟩ <;> simp only [hp] at hph
  · exact hph.2 htr k kv hn hl hr
  · exact hph.2.1 htr k kv hn hl hr
  · exact hph.2.1 htr k kv hn hl hr

/-- While the loop follows its watch: every live version with a positive lease that the node has seen (revision up to
the one published to the loop, everything received) has a timer for exactly that version, for keys in the watched
range `[0x00, 0xff)`, provided that nothing went wrong: the listing was complete, the watch was started successfully,
its initial query and the poller were not overtaken by compaction, the channel did not overflow. Missing from the full
property: keys `≥ 0xff`, negative leases, and recovery from each of these failures (see the counterexamples). -/
theorem C39_scheduled_partial {a : TSys} (h : TReachable a) {start : Int} {i : Nat}
    (hp : a.ttl.phase = .serve start i) (hstart : 0 < start) (htr : a.ttl.truncated = false)
    {g : Group} (hg : a.base.node.groupAt i = some g) {x : Watcher} (hx : x ∈ g.watchers)
    (hinit : x.initialized = true) (hlossy : x.lossy = false) (hot : a.base.node.overtaken = false)
    (hdrop : g.dropped = false) (hq : g.queue = []) (hev : x.events = [])
    {k : Bytes} {kv : KV} (hn : a.base.sys.world.hist.now k = some kv) (hl : kv.lease > 0)
    (hk : inRange [0] [255] k = true) (hr : kv.modRev ≤ g.currentRevision) :
    ∃ t ∈ a.ttl.timers, t.key = k ∧ t.rev = kv.modRev ∧ t.lease = kv.lease := by
  by_cases hle : kv.modRev ≤ start
  · exact C39_listed h (Or.inr ⟨i, Or.inr hp⟩) htr hn (by omega) hle
  · have hph := h.inv.phase
    unfold PhaseOk at hph
    simp only [hp] at hph
    obtain ⟨h1, h2, g', hg', tg⟩ := hph
    rw [hg] at hg'
    cases hg'
    have ninv := h.inv.base.ninv
    have gi := ninv.groups g (List.mem_of_getElem? hg)
    have hid : x.id = 1 := by
      have := gi.used x hx
      rw [tg.used] at this
      simpa using this
    obtain ⟨e1, e2, e3⟩ := tg.range x hx
    obtain ⟨rest, _, hcov, hrest⟩ := (gi.ok x hx).full hot hlossy (Or.inl hdrop)
    rw [hrest hdrop, hev, List.append_nil] at hcov
    have wf := ninv.sys.inv.wf
    have hat := hn
    rw [← at_ge_top wf (Int.le_refl _)] at hat
    obtain ⟨hkey, _, _, ⟨c, hc, c1, c2, c3⟩, _⟩ := at_some_inv wf hat
    have hrange : x.range c.key = true := by
      unfold Watcher.range
      rw [e1, e2, c2]; exact hk
    have hfrom : x.from < c.rev := by
      unfold Watcher.from
      rw [if_pos ⟨hinit, by omega⟩, e3, c1]
      omega
    obtain ⟨e, he, her⟩ := hcov c hc hrange hfrom (by rw [c1]; exact hr)
    obtain ⟨_, _, _, c', hc', hd⟩ := (gi.ok x hx).sound.mem e (List.mem_append.2 (Or.inl he))
    have : c' = c := Wf_rev_inj wf hc' hc (hd.1.symm.trans her)
    subst this
    have hdel : e.isDelete = false := by
      cases hdd : e.isDelete with
      | false => rfl
      | true => rw [hd.2.2.1.1 hdd] at c3; cases c3
    have hkv : e.kv = kv := by
      have h4 := hd.2.2.2.1 hdel
      have : a.base.sys.world.hist.at c'.rev c'.key = some kv := by
        rw [c1, c2, ← hat]
        symm
        apply at_eq_of_no_between (now_le_top wf hn)
        intro d hd1 hd2 hd3
        have := now_newer wf hd1 (by rw [hd2]; exact hn)
        omega
      rw [this] at h4
      exact (Option.some.inj h4).symm
    rw [hid] at he
    have he' : e ∈ sentTo g.received 1 := by
      unfold Group.sent at he
      rw [hq, List.append_nil] at he
      exact he
    obtain ⟨t, ht, t1, t2, t3⟩ := tg.seen e he' (by rw [hkv]; exact hl)
    rw [hkv] at t1 t2 t3
    exact ⟨t, ht, t1.trans hkey, t2, t3⟩

/-- The hypotheses are met, for a version seen by the watch (`/d`, revision 8, after the start revision 7). -/
example : ∃ w n t g x, TReachable ⟨⟨⟨w, []⟩, n⟩, t⟩ ∧ t.phase.index? = some 0 ∧ t.truncated = false ∧
    n.groupAt 0 = some g ∧ x ∈ g.watchers ∧ x.initialized = true ∧ x.lossy = false ∧ n.overtaken = false ∧
    g.dropped = false ∧ g.queue = [] ∧ x.events = [] ∧ x.start = 7 ∧ g.currentRevision = 8 ∧
    w.hist.now [0x2f, 0x64] = some ⟨[0x2f, 0x64], [9], 5, 8, 8⟩ := by
  obtain ⟨w, n, t, h, hP⟩ := ttlDemo.check
    (fun w n t => decide (t.phase.index? = some 0) && decide (t.truncated = false) && !n.overtaken &&
      decide (w.hist.now [0x2f, 0x64] = some ⟨[0x2f, 0x64], [9], 5, 8, 8⟩) &&
      match n.groups[0]? with
      | some g => !g.dropped && decide (g.queue = []) && decide (g.currentRevision = 8) &&
          g.watchers.any fun x => x.initialized && !x.lossy && decide (x.events = []) && decide (x.start = 7)
      | none => false) (by decide +kernel)
  simp only [Bool.and_eq_true, decide_eq_true_eq, Bool.not_eq_true'] at hP
  obtain ⟨⟨⟨⟨h1, h2⟩, h3⟩, h4⟩, h5⟩ := hP
  cases hg : n.groups[0]? with
  | none => rw [hg] at h5; cases h5
  | some g =>
    rw [hg] at h5
    simp only [Bool.and_eq_true, decide_eq_true_eq, Bool.not_eq_true', List.any_eq_true] at h5
    obtain ⟨⟨⟨g1, g2⟩, g3⟩, x, hx, ⟨⟨x1, x2⟩, x3⟩, x4⟩ := h5
    exact ⟨w, n, t, g, x, h, h1, h2, hg, hx, x1, x2, h3, g1, g2, x3, x4, g3, h4⟩

/-- A leased key outside the watched range is not scheduled: the loop watches `[0x00, 0xff)`, so a key starting with
the byte `0xff` that is written after the loop has started never gets a timer, although the node has published it and
the loop has received everything. -/
theorem C39_high_keys_counterexample : ∃ a, TReachable a ∧ ∃ k kv, a.base.sys.world.hist.now k = some kv ∧ kv.lease = 5 ∧
    (∃ g, a.base.node.groupAt 0 = some g ∧ kv.modRev ≤ g.currentRevision ∧ g.queue = [] ∧
      ∀ x ∈ g.watchers, x.events = [] ∧ x.initialized = true) ∧
    a.ttl.phase.index? = some 0 ∧ ∀ x ∈ a.ttl.timers, x.key ≠ k := by
  obtain ⟨w, n, t, h, hP⟩ := (TScenario.mk ⟨Demo.setup, 4, []⟩
    [.exec .ok, .done, .exec .ok, .done, .openGroup, .watch, .node (.exec 0 .ok), .node (.done 0), .node (.exec 0 .ok),
     .node (.done 0), .calls [(.txn true (createTxn [0xff, 0x64] [9] 5), oks 1)],
     .node .pollStart, .node (.pollExec .ok), .node .pollDone, .recv 700]).check
    (fun w n t => decide (t.phase.index? = some 0) &&
      decide (w.hist.now [0xff, 0x64] = some ⟨[0xff, 0x64], [9], 5, 8, 8⟩) &&
      (t.timers.all fun x => decide (x.key ≠ [0xff, 0x64])) &&
      match n.groups[0]? with
      | some g => decide (g.queue = []) && decide (8 ≤ g.currentRevision) &&
          g.watchers.all fun x => decide (x.events = []) && decide (x.initialized = true)
      | none => false) (by decide +kernel)
  simp only [Bool.and_eq_true, decide_eq_true_eq, List.all_eq_true] at hP
  obtain ⟨⟨⟨h1, h2⟩, h3⟩, h4⟩ := hP
  cases hg : n.groups[0]? with
  | none => rw [hg] at h4; cases h4
  | some g =>
    rw [hg] at h4
    simp only [Bool.and_eq_true, decide_eq_true_eq, List.all_eq_true] at h4
    obtain ⟨⟨g1, g2⟩, g3⟩ := h4
    exact ⟨_, h, _, _, h2, rfl, ⟨g, hg, g2, g1, g3⟩, h1, h3⟩

/-- A failed `Watch` is only logged: the loop then waits for updates that never concern it. Here the query for the
compact revision fails; `/d` gets no timer although everything published has been received, and `Watch` is never called
again: the only way out of this phase does not exist. -/
theorem C39_failed_watch_counterexample : ∃ a, TReachable a ∧ ∃ k kv, a.base.sys.world.hist.now k = some kv ∧
    kv.lease = 5 ∧ inRange [0] [255] k = true ∧
    (∃ g, a.base.node.groupAt 0 = some g ∧ kv.modRev ≤ g.currentRevision ∧ g.queue = [] ∧
      g.answers.map (·.2) = [.error] ∧ ∀ x ∈ g.watchers, x.initialized = false) ∧
    a.ttl.phase.index? = some 0 ∧ ∀ x ∈ a.ttl.timers, x.key ≠ k := by
  obtain ⟨w, n, t, h, hP⟩ := (TScenario.mk ⟨Demo.setup, 4, []⟩
    [.exec .ok, .done, .exec .ok, .done, .openGroup, .watch, .node (.exec 0 (.fail .other)), .node (.done 0),
     .calls [(.txn true (createTxn [0x2f, 0x64] [9] 5), oks 1)],
     .node .pollStart, .node (.pollExec .ok), .node .pollDone, .recv 700]).check
    (fun w n t => decide (t.phase.index? = some 0) &&
      decide (w.hist.now [0x2f, 0x64] = some ⟨[0x2f, 0x64], [9], 5, 8, 8⟩) &&
      (t.timers.all fun x => decide (x.key ≠ [0x2f, 0x64])) &&
      match n.groups[0]? with
      | some g => decide (g.queue = []) && decide (8 ≤ g.currentRevision) &&
          decide (g.answers.map (·.2) = [.error]) && g.watchers.all fun x => decide (x.initialized = false)
      | none => false) (by decide +kernel)
  simp only [Bool.and_eq_true, decide_eq_true_eq, List.all_eq_true] at hP
  obtain ⟨⟨⟨h1, h2⟩, h3⟩, h4⟩ := hP
  cases hg : n.groups[0]? with
  | none => rw [hg] at h4; cases h4
  | some g =>
    rw [hg] at h4
    simp only [Bool.and_eq_true, decide_eq_true_eq, List.all_eq_true] at h4
    obtain ⟨⟨⟨g1, g2⟩, g3⟩, g4⟩ := h4
    exact ⟨_, h, _, _, h2, rfl, by decide, ⟨g, hg, g2, g1, g3, g4⟩, h1, h3⟩

/-- A broken cursor while listing is not noticed: the remaining keys get no timer. -/
theorem C39_broken_list_counterexample : ∃ a, TReachable a ∧ ∃ k kv, a.base.sys.world.hist.now k = some kv ∧
    kv.lease = 30 ∧ (∃ start, a.ttl.phase = .group start ∧ kv.modRev ≤ start) ∧ a.ttl.timers = [] := by
  obtain ⟨w, n, t, h, hP⟩ := (TScenario.mk ⟨Demo.setup, 4, []⟩
    [.exec .ok, .done, .exec (.trunc 0), .done]).check
    (fun w n t => decide (w.hist.now Demo.kb = some ⟨Demo.kb, [2], 30, 4, 4⟩) &&
      decide (t.timers = []) && match t.phase with
        | .group start => decide (4 ≤ start)
        | _ => false) (by decide +kernel)
  simp only [Bool.and_eq_true, decide_eq_true_eq] at hP
  obtain ⟨⟨h1, h2⟩, h3⟩ := hP
  refine ⟨_, h, _, _, h1, rfl, ?_, h2⟩
  split at h3
  · rename_i start e
    exact ⟨start, e, by simpa using h3⟩
  · cases h3

/-! ## C55 A granted lease expires keys after the requested TTL -/

/-- For every TTL up to 9223372035 seconds, the delay of a timer for a key written with the lease ID returned by a
grant is the requested TTL, plus a jitter below one second. -/
theorem C55_delay {a : TSys} (h : TReachable a) {x : Timer} (hx : x ∈ a.ttl.timers) {ttl reqId : Int}
    (hlease : x.lease = (leaseGrant ttl reqId).1) (h0 : 0 < ttl) (hmax : ttl ≤ 9223372035) :
    (leaseGrant ttl reqId).2 = ttl ∧ ttl * 1000000000 ≤ x.delay ∧ x.delay < (ttl + 1) * 1000000000 := by
  refine ⟨rfl, ?_⟩
  have hl : x.lease = ttl := hlease
  have hd : leaseDelay ttl = ttl * 1000000000 := by unfold leaseDelay wrap64; omega
  obtain ⟨_, _, h3 | ⟨_, j, hj, h3⟩⟩ := h.inv.timers x hx
  · rw [hl, hd] at h3; omega
  · rw [hl] at h3
    unfold jitteredDelay at h3
    rw [hd] at h3
    unfold wrap64 at h3
    rw [Int.emod_eq_of_lt (by omega) (by omega)] at h3
    omega

/-- `/d` of `ttlDemo` has the lease granted for 5 seconds and expires after 5.7 seconds. -/
example : ∃ a, TReachable a ∧ ∃ x ∈ a.ttl.timers, x.lease = (leaseGrant 5 0).1 ∧ x.delay = 5700000000 := by
  obtain ⟨w, n, t, h, hP⟩ := ttlDemo.check
    (fun _ _ t => decide ((⟨[0x2f, 0x64], 8, 5, 5700000000⟩ : Timer) ∈ t.timers)) (by decide +kernel)
  exact ⟨_, h, _, by simpa using hP, rfl, rfl⟩

/-- A TTL of 9223372037 seconds (293 years) overflows: the delay is negative, so that the key expires at once. -/
theorem C55_overflow_counterexample : ∃ a, TReachable a ∧ ∃ x ∈ a.ttl.timers,
    x.lease = (leaseGrant 9223372037 0).1 ∧ x.delay < 0 := by
  obtain ⟨w, n, t, h, hP⟩ := (TScenario.mk
    ⟨Demo.setup ++ [(.txn true (createTxn [0x2f, 0x64] [9] 9223372037), oks 1)], 4, []⟩
    [.exec .ok, .done, .exec .ok, .done]).check
    (fun _ _ t => t.timers.any fun x => decide (x.lease = 9223372037) && decide (x.delay < 0)) (by decide +kernel)
  simp only [List.any_eq_true, Bool.and_eq_true, decide_eq_true_eq] at hP
  obtain ⟨x, hx, h1, h2⟩ := hP
  exact ⟨_, h, x, hx, h1, h2⟩

end Verif
