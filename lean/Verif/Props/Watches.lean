import Verif.Lemmas.NExec
import Verif.Props.Reads
/-!
# Properties of watches: C28–C34, C37

A watcher has been *answered* once it is `initialized`. What it has got so far is `sentTo (received ++ queue)`:
the updates its stream has received or that lie in the stream's channel; `events` is what the next publish adds.
-/

namespace Verif

/-- What a watcher of a group has been sent, plus what is pending for it. -/
def Group.delivered (g : Group) (x : Watcher) : List Event := sentTo (g.received ++ g.queue) x.id ++ x.events

/-- Only the events at or after a revision. -/
def fromRev (r : Int) (es : List Event) : List Event := es.filter fun e => decide (r ≤ e.kv.modRev)

/-! ## C28 A watch delivers every event from its start revision exactly once, in order -/

theorem Sound.fromRev {h : History} {P : Bytes → Bool} {a b r : Int} {es : List Event} (hs : Sound h P a b es) :
    Sound h P (r - 1) b (fromRev r es) := by
  refine ⟨hs.asc.filter _, fun e he => ?_⟩
  obtain ⟨h1, h2⟩ := List.mem_filter.1 he
  obtain ⟨x1, _, x3, x4⟩ := hs.mem e h1
  have : r ≤ e.kv.modRev := by simpa using h2
  exact ⟨x1, by omega, x3, x4⟩

theorem Covers.fromRev {h : History} {P : Bytes → Bool} {a b r : Int} {es : List Event} (hs : Covers h P a b es)
    (ha : a ≤ r - 1) : Covers h P (r - 1) b (fromRev r es) := by
  intro c hc hp h1 h2
  obtain ⟨e, he, hr⟩ := hs c hc hp (by omega) h2
  exact ⟨e, List.mem_filter.2 ⟨he, by simp; omega⟩, hr⟩

/-- A registered and answered watcher with start revision `x.start` has been sent, or has pending for the next
publish, exactly one event for every commit on its range from its start revision up to the revision its group
has reached, in order, each describing its commit. That revision is the node's poll revision while the group
is alive. Hypotheses: no update was dropped (the stream keeps up), no poll ran after compaction had passed the
poll revision, and the watcher's initial query ran before compaction reached the start revision and without a
broken cursor. -/
theorem C28_exactly_once {s : NSys} (h : NReachable s) {g : Group} (hg : g ∈ s.node.groups) {x : Watcher}
    (hx : x ∈ g.watchers) (hi : x.initialized = true) (hp : x.start > 0) (hd : g.dropped = false)
    (ho : s.node.overtaken = false) (hl : x.lossy = false) :
    EventsOf s.sys.world.hist
      (s.sys.world.hist.stretch (inRange x.lo x.hi) (x.start - 1) g.currentRevision)
      (fromRev x.start (g.delivered x)) ∧
    (g.inMap = true → g.currentRevision = s.node.pollRevision) := by
  have i := h.ninv
  have gi := i.groups g hg
  obtain ⟨rest, r1, r2, r3⟩ := (gi.ok x hx).full ho hl (Or.inl hd)
  have := r3 hd
  subst this
  refine ⟨r1.fromRev.eventsOf i.sys.inv.wf (r2.fromRev ?_), gi.curMap⟩
  unfold Watcher.from
  rw [if_pos ⟨hi, hp⟩]
  omega

/-- A watcher without start revision gets exactly the commits after the revision its group had reached when it
was registered. -/
theorem C28_without_start_revision {s : NSys} (h : NReachable s) {g : Group} (hg : g ∈ s.node.groups)
    {x : Watcher} (hx : x ∈ g.watchers) (hp : ¬ x.start > 0) (hd : g.dropped = false)
    (ho : s.node.overtaken = false) (hl : x.lossy = false) :
    EventsOf s.sys.world.hist
      (s.sys.world.hist.stretch (inRange x.lo x.hi) x.base g.currentRevision) (g.delivered x) := by
  have i := h.ninv
  have gi := i.groups g hg
  obtain ⟨rest, r1, r2, r3⟩ := (gi.ok x hx).full ho hl (Or.inl hd)
  have := r3 hd
  subst this
  have hf : x.from = x.base := by
    unfold Watcher.from
    rw [if_neg (fun hc => hp hc.2)]
  rw [hf] at r1 r2
  exact r1.eventsOf i.sys.inv.wf r2

/-- When a slow stream's group was dropped, what had been sent before is an initial part of what should be
delivered: the client never sees a gap followed by later events. -/
theorem C28_slow_stream_no_gap {s : NSys} (h : NReachable s) {g : Group} (hg : g ∈ s.node.groups) {x : Watcher}
    (hx : x ∈ g.watchers) (hi : x.initialized = true) (hp : x.start > 0) (hst : g.after = .stopped)
    (ho : s.node.overtaken = false) (hl : x.lossy = false) :
    ∃ rest, EventsOf s.sys.world.hist
      (s.sys.world.hist.stretch (inRange x.lo x.hi) (x.start - 1) g.currentRevision)
      (fromRev x.start (sentTo (g.received ++ g.queue) x.id) ++ rest) := by
  have i := h.ninv
  have gi := i.groups g hg
  obtain ⟨rest, r1, r2, _⟩ := (gi.ok x hx).full ho hl (Or.inr hst)
  refine ⟨fromRev x.start rest, ?_⟩
  have := r1.fromRev (r := x.start) |>.eventsOf i.sys.inv.wf (r2.fromRev (r := x.start) (by
    unfold Watcher.from
    rw [if_pos ⟨hi, hp⟩]
    omega))
  unfold fromRev at this ⊢
  rw [← List.filter_append]
  exact this

/-- Whatever happens (compaction, faults, overflow, cancellation): what a watcher gets is in strictly
increasing revision order, hence never twice, and only on its range. -/
theorem C28_ordered {s : NSys} (h : NReachable s) {g : Group} (hg : g ∈ s.node.groups) {x : Watcher}
    (hx : x ∈ g.watchers) :
    (g.delivered x).Pairwise (fun a b => a.kv.modRev < b.kv.modRev) ∧
    ∀ e ∈ g.delivered x, inRange x.lo x.hi e.kv.key = true ∧
      ∃ c ∈ s.sys.world.hist, Describes s.sys.world.hist c e := by
  have hs := ((h.ninv.groups g hg).ok x hx).sound
  exact ⟨hs.asc, fun e he => ⟨(hs.mem e he).1, (hs.mem e he).2.2.2⟩⟩

/-- A publish leaves nothing pending: every answered watcher of a live group has then been sent everything up
to the node's poll revision, or the group was dropped. -/
theorem C28_publish_flushes {n : Node} {rows : List Row × Option Nat} {g : Group} {x : Watcher}
    (hg : g ∈ (n.publishEvents (scanAll scanEvent rows)).groups) (hm : g.inMap = true) (hx : x ∈ g.watchers)
    (hi : x.initialized = true) : x.events = [] := by
  obtain ⟨g₀, hg₀, e⟩ := List.mem_map.1 hg
  generalize scanAll scanEvent rows = es at e
  generalize nextPollRevision n.pollRevision es = rev at e
  by_cases hin : g₀.inMap = true
  · rw [if_pos hin] at e
    have hw : g.watchers = g₀.watchers.map fun (x : Watcher) => (x.update es).1 := by
      rw [← e]
      unfold Group.publishOrDrop Group.publish
      simp only
      split
      · rename_i h; split at h
        · cases h; rfl
        · split at h
          · cases h; rfl
          · cases h
      · rename_i h; split at h
        · cases h
        · split at h
          · cases h
          · cases h
            split
            · rfl
            · rfl
    rw [hw] at hx
    obtain ⟨y, _, rfl⟩ := List.mem_map.1 hx
    have hy : y.initialized = true := (y.update_same es).2.2.2.2.2 ▸ hi
    rw [Watcher.update_init hy]
  · rw [if_neg hin] at e
    rw [← e] at hm
    exact absurd hm hin

/-- A concrete run: a node is started on a store with some commits; a stream opens and watches `/` from
revision 4 while `/b` is deleted and polls happen in between. -/
def watchDemo : NScenario :=
  { setup := Demo.setup, start := 4
    acts := [.pollStart, .pollExec .ok, .pollDone, .openGroup, .watch 0 1 [0x2f] [0x30] 4, .exec 0 .ok,
      .calls [(.txn true (deleteTxn Demo.kb 4), oks 1)], .pollStart, .pollExec .ok, .done 0, .exec 0 (.fail .busy),
      .pollDone, .exec 0 .ok, .done 0, .calls [(.txn true (createTxn Demo.kc [9] 0), oks 1)],
      .pollStart, .pollExec .ok, .pollDone, .recv 0] }

/-- The watcher of the run got revisions 4 to 9 (all of `/a`, `/b`, `/c`), each once, and the hypotheses of
`C28_exactly_once` hold. -/
example : ∃ w n, NReachable ⟨⟨w, []⟩, n⟩ ∧ ∃ g ∈ n.groups, ∃ x ∈ g.watchers, x.initialized = true ∧ x.start = 4 ∧
    g.dropped = false ∧ n.overtaken = false ∧ x.lossy = false ∧
    (g.delivered x).map (·.kv.modRev) = [4, 5, 6, 7, 8, 9] ∧ g.received.length = 1 := by
  obtain ⟨w, n, h, hP⟩ := watchDemo.check (fun _ n => n.groups.any fun g => g.watchers.any fun x =>
    x.initialized && decide (x.start = 4) && !g.dropped && !n.overtaken && !x.lossy &&
    decide ((g.delivered x).map (·.kv.modRev) = [4, 5, 6, 7, 8, 9]) && decide (g.received.length = 1))
    (by decide +kernel)
  refine ⟨w, n, h, ?_⟩
  simp only [List.any_eq_true, Bool.and_eq_true, decide_eq_true_eq, Bool.not_eq_true'] at hP
  obtain ⟨g, hg, x, hx, ⟨⟨⟨⟨⟨h1, h2⟩, h3⟩, h4⟩, h5⟩, h6⟩, h7⟩ := hP
  exact ⟨g, hg, x, hx, h1, h2, h3, h4, h5, h6, h7⟩

/-! ## C29 A watch never delivers events older than its start revision -/

/-- A watch whose start revision does not lie beyond the revision its group had reached when it was registered
(plus one) only gets events from its start revision on. -/
theorem C29_not_older_partial {s : NSys} (h : NReachable s) {g : Group} (hg : g ∈ s.node.groups) {x : Watcher}
    (hx : x ∈ g.watchers) (hi : x.initialized = true) (hp : x.start > 0) (hb : x.start ≤ x.base + 1) :
    ∀ e ∈ g.delivered x, x.start ≤ e.kv.modRev := by
  have hs := ((h.ninv.groups g hg).ok x hx).sound
  intro e he
  have := (hs.mem e he).2.1
  unfold Watcher.from at this
  rw [if_pos ⟨hi, hp⟩] at this
  omega

/-- What holds for every watch: nothing at or before the revision its group had reached, unless it is at or
after the start revision. -/
theorem C29_bound_partial {s : NSys} (h : NReachable s) {g : Group} (hg : g ∈ s.node.groups) {x : Watcher}
    (hx : x ∈ g.watchers) : ∀ e ∈ g.delivered x, x.base < e.kv.modRev ∨ (x.start > 0 ∧ x.start ≤ e.kv.modRev) := by
  have hs := ((h.ninv.groups g hg).ok x hx).sound
  intro e he
  have := (hs.mem e he).2.1
  unfold Watcher.from at this
  split at this
  · omega
  · left; exact this

/-- The code does not filter by revision: a watch from revision 100 on a store at revision 7 is sent the commit
at revision 8 (`watcher.go:74-86,109-140`). -/
theorem C29_future_start_counterexample : ∃ s, NReachable s ∧ ∃ g ∈ s.node.groups, ∃ x ∈ g.watchers,
    x.initialized = true ∧ x.start = 100 ∧ g.dropped = false ∧ ∃ u ∈ g.received, ∃ p ∈ u.updates, p.1 = x.id ∧
    ∃ e ∈ p.2, e.kv.modRev = 8 := by
  obtain ⟨w, n, h, hP⟩ := (NScenario.mk Demo.setup 4
    [.pollStart, .pollExec .ok, .pollDone, .openGroup, .watch 0 1 [0x2f] [0x30] 100, .exec 0 .ok, .done 0,
     .exec 0 .ok, .done 0, .calls [(.txn true (deleteTxn Demo.kb 4), oks 1)], .pollStart, .pollExec .ok, .pollDone,
     .recv 0]).check
    (fun _ n => n.groups.any fun g => g.watchers.any fun x => x.initialized && decide (x.start = 100) &&
      !g.dropped && g.received.any fun u => u.updates.any fun p => decide (p.1 = x.id) &&
        p.2.any fun e => decide (e.kv.modRev = 8)) (by decide +kernel)
  refine ⟨_, h, ?_⟩
  simp only [List.any_eq_true, Bool.and_eq_true, decide_eq_true_eq, Bool.not_eq_true'] at hP
  obtain ⟨g, hg, x, hx, ⟨⟨h1, h2⟩, h3⟩, u, hu, p, hp, h4, e, he, h5⟩ := hP
  exact ⟨g, hg, x, hx, h1, h2, h3, u, hu, p, hp, h4, e, he, h5⟩

/-- The same in everyday use: `/b` is updated at revision 8 and deleted at 9. A client lists through one node (at
revision 9, `/b` is gone) and watches from revision 10 through another node that has not polled yet. It is sent the
update of revision 8, so in its copy `/b` comes back. -/
theorem C29_lagging_node_counterexample : ∃ s, NReachable s ∧ s.sys.world.hist.top = 9 ∧
    s.sys.world.hist.at 9 Demo.kb = none ∧ ∃ g ∈ s.node.groups, ∃ x ∈ g.watchers,
    x.initialized = true ∧ x.start = 9 + 1 ∧ g.dropped = false ∧ ∃ u ∈ g.received, ∃ p ∈ u.updates, p.1 = x.id ∧
    ∃ e ∈ p.2, e.kv.modRev = 8 ∧ e.kv.key = Demo.kb ∧ e.isDelete = false := by
  obtain ⟨w, n, h, hP⟩ := (NScenario.mk Demo.setup 4
    [.pollStart, .pollExec .ok, .pollDone,
     .calls [(.txn true (updateTxn Demo.kb 4 [7] 0), oks 1), (.txn true (deleteTxn Demo.kb 8), oks 1)],
     .openGroup, .watch 0 1 [0x2f] [0x30] 10, .exec 0 .ok, .done 0, .exec 0 .ok, .done 0,
     .pollStart, .pollExec .ok, .pollDone, .recv 0]).check
    (fun w n => decide (w.hist.top = 9) && decide (w.hist.at 9 Demo.kb = none) &&
      n.groups.any fun g => g.watchers.any fun x => x.initialized && decide (x.start = 9 + 1) &&
      !g.dropped && g.received.any fun u => u.updates.any fun p => decide (p.1 = x.id) &&
        p.2.any fun e => decide (e.kv.modRev = 8) && decide (e.kv.key = Demo.kb) && decide (e.isDelete = false))
    (by decide +kernel)
  simp only [List.any_eq_true, Bool.and_eq_true, decide_eq_true_eq, Bool.not_eq_true'] at hP
  obtain ⟨⟨h6, h7⟩, g, hg, x, hx, ⟨⟨h1, h2⟩, h3⟩, u, hu, p, hp, h4, e, he, ⟨h5, h8⟩, h9⟩ := hP
  exact ⟨_, h, h6, h7, g, hg, x, hx, h1, h2, h3, u, hu, p, hp, h4, e, he, h5, h8, h9⟩

/-- The run of `watchDemo` meets the hypotheses of `C29_not_older_partial`: start 4, registered at revision 7. -/
example : ∃ s, NReachable s ∧ ∃ g ∈ s.node.groups, ∃ x ∈ g.watchers, x.initialized = true ∧ x.start > 0 ∧
    x.start ≤ x.base + 1 ∧ g.delivered x ≠ [] := by
  obtain ⟨w, n, h, hP⟩ := watchDemo.check (fun _ n => n.groups.any fun g => g.watchers.any fun x =>
    x.initialized && decide (x.start > 0) && decide (x.start ≤ x.base + 1) && decide (g.delivered x ≠ []))
    (by decide +kernel)
  refine ⟨_, h, ?_⟩
  simp only [List.any_eq_true, Bool.and_eq_true, decide_eq_true_eq] at hP
  obtain ⟨g, hg, x, hx, ⟨⟨h1, h2⟩, h3⟩, h4⟩ := hP
  exact ⟨g, hg, x, hx, h1, h2, h3, h4⟩

/-! ## C30 A watch from a compacted revision is refused, otherwise complete -/

/-- A watch whose start revision lies below the compact revision when the call is made is not accepted; and the
compacted answer is only given when the start revision really lies below the compact revision. -/
theorem C30_compacted_is_refused {s : NSys} (h : NReachable s) {g : Group} (hg : g ∈ s.node.groups)
    {a : WatchArgs} {ans : WatchAnswer} (ha : (a, ans) ∈ g.answers) (hp : a.start > 0) :
    (a.start < a.compactThen → ans ≠ .ok) ∧
    ∀ cr cur, ans = .compacted cr cur → a.start < cr ∧ cr ≤ s.sys.world.db.compactRev ∧
      cur ≤ s.sys.world.hist.top := by
  obtain ⟨h1, h2⟩ := (h.ninv.groups g hg).answers _ ha hp
  refine ⟨fun hlt he => ?_, h2⟩
  have := h1 he
  simp only at this
  omega

/-- The database after the revisions of `/a` (created at 3, deleted at 4) were compacted: compact revision 4. -/
def tombSetup : List (Call × List Outcome) :=
  [ (.start, oks 6), (.txn true (createTxn Demo.ka [1] 0), oks 1), (.txn true (deleteTxn Demo.ka 3), oks 1) ]
  ++ ((List.range 100).map fun i => (.txn true (createTxn [0x30, UInt8.ofNat i] [0] 0), oks 1))
  ++ [(.doCompact fun _ => some true, oks 20)]

/-- A watch from exactly the compact revision is accepted although the delete at that revision has been removed:
it is never delivered (`watcher.go:119` should refuse `startRevision <= compactRev` or compaction keep it). -/
theorem C30_start_at_compact_revision_counterexample : ∃ s, NReachable s ∧ s.node.overtaken = false ∧
    ∃ g ∈ s.node.groups, ∃ x ∈ g.watchers, x.initialized = true ∧ x.start = 4 ∧ g.dropped = false ∧
    g.currentRevision = 104 ∧ x.events = [] ∧
    (∃ c ∈ s.sys.world.hist, c.rev = 4 ∧ inRange x.lo x.hi c.key = true ∧ c.write = none) ∧
    sentTo (g.received ++ g.queue) x.id = [] := by
  obtain ⟨w, n, h, hP⟩ := (NScenario.mk tombSetup 4
    [.openGroup, .watch 0 1 [0x2f] [0x30] 4, .exec 0 .ok, .done 0, .exec 0 .ok, .done 0,
     .pollStart, .pollExec .ok, .pollDone, .recv 0]).check
    (fun w n => !n.overtaken && n.groups.any fun g => g.watchers.any fun x => x.initialized && decide (x.start = 4) &&
      !g.dropped && decide (g.currentRevision = 104) && decide (x.events = []) &&
      (w.hist.any fun c => decide (c.rev = 4) && inRange x.lo x.hi c.key && decide (c.write = none)) &&
      decide (sentTo (g.received ++ g.queue) x.id = [])) (by decide +kernel)
  simp only [List.any_eq_true, Bool.and_eq_true, decide_eq_true_eq, Bool.not_eq_true'] at hP
  obtain ⟨h0, g, hg, x, hx, ⟨⟨⟨⟨⟨h1, h2⟩, h3⟩, h4⟩, h5⟩, c, hc, ⟨h6, h7⟩, h8⟩, h9⟩ := hP
  exact ⟨_, h, h0, g, hg, x, hx, h1, h2, h3, h4, h5, ⟨c, hc, h6, h7, h8⟩, h9⟩

/-- The compact revision is read before the initial query: a compaction in between makes an accepted watch miss
events (`watcher.go:115-123`). Here the compact revision is 0 when the call is made, the start revision is 3, and
the creation of `/a` at revision 3 is never delivered. -/
theorem C30_race_counterexample : ∃ s, NReachable s ∧ s.node.overtaken = false ∧
    ∃ g ∈ s.node.groups, (∃ a, (a, WatchAnswer.ok) ∈ g.answers ∧ a.compactThen = 0) ∧
    ∃ x ∈ g.watchers, x.initialized = true ∧ x.start = 3 ∧ g.dropped = false ∧
    x.events = [] ∧ (∃ c ∈ s.sys.world.hist, c.rev = 3 ∧ inRange x.lo x.hi c.key = true) ∧
    sentTo (g.received ++ g.queue) x.id = [] := by
  obtain ⟨w, n, h, hP⟩ := (NScenario.mk
      ([ (.start, oks 6), (.txn true (createTxn Demo.ka [1] 0), oks 1), (.txn true (deleteTxn Demo.ka 3), oks 1) ]
        ++ ((List.range 102).map fun i => (.txn true (createTxn [0x30, UInt8.ofNat i] [0] 0), oks 1))) 4
    [.pollStart, .pollExec .ok, .pollDone, .openGroup, .watch 0 1 [0x2f] [0x30] 3, .exec 0 .ok, .done 0,
     .calls [(.doCompact fun _ => some true, oks 20)], .exec 0 .ok, .done 0,
     .pollStart, .pollExec .ok, .pollDone, .recv 0]).check
    (fun w n => !n.overtaken && n.groups.any fun g =>
      (g.answers.any fun a => decide (a.2 = .ok) && decide (a.1.compactThen = 0)) &&
      g.watchers.any fun x => x.initialized && decide (x.start = 3) &&
      !g.dropped && decide (x.events = []) &&
      (w.hist.any fun c => decide (c.rev = 3) && inRange x.lo x.hi c.key) &&
      decide (sentTo (g.received ++ g.queue) x.id = [])) (by decide +kernel)
  simp only [List.any_eq_true, Bool.and_eq_true, decide_eq_true_eq, Bool.not_eq_true'] at hP
  obtain ⟨h0, g, hg, ⟨a, ha, h10, h11⟩, x, hx, ⟨⟨⟨⟨h1, h2⟩, h3⟩, h4⟩, c, hc, h6, h7⟩, h9⟩ := hP
  exact ⟨_, h, h0, g, hg, ⟨a.1, by rw [← h10]; exact ha, h11⟩, x, hx, h1, h2, h3, h4, ⟨c, hc, h6, h7⟩, h9⟩

/-- What does hold: an accepted watch whose initial query ran, without a broken cursor, while the compact
revision was below its start revision misses nothing. (`lossy` is set exactly when a statement of the initial
query runs on a database whose compact revision has reached the start revision, or when its cursor breaks:
`Group.noteQuery`.) -/
theorem C30_accepted_is_complete_partial {s : NSys} (h : NReachable s) {g : Group} (hg : g ∈ s.node.groups)
    {x : Watcher} (hx : x ∈ g.watchers) (hi : x.initialized = true) (hp : x.start > 0) (hd : g.dropped = false)
    (ho : s.node.overtaken = false) (hl : x.lossy = false) {c : Commit} (hc : c ∈ s.sys.world.hist)
    (hr : inRange x.lo x.hi c.key = true) (h1 : x.start ≤ c.rev) (h2 : c.rev ≤ g.currentRevision) :
    ∃ e ∈ g.delivered x, Describes s.sys.world.hist c e := by
  have i := h.ninv
  obtain ⟨⟨he, hd'⟩, _⟩ := C28_exactly_once h hg hx hi hp hd ho hl
  have hcs : c ∈ s.sys.world.hist.stretch (inRange x.lo x.hi) (x.start - 1) g.currentRevision := by
    unfold History.stretch
    rw [List.mem_filter]
    refine ⟨hc, ?_⟩
    simp only [Bool.and_eq_true, decide_eq_true_eq]
    exact ⟨hr, by omega, h2⟩
  have hm : c.rev ∈ (fromRev x.start (g.delivered x)).map (·.kv.modRev) := by
    rw [he]; exact List.mem_map_of_mem hcs
  obtain ⟨e, hem, hrev⟩ := List.mem_map.1 hm
  obtain ⟨c', hc', hdes⟩ := hd' e hem
  have : c' = c := Wf_rev_inj i.sys.inv.wf (List.mem_filter.1 hc').1 hc (by rw [← hdes.1]; exact hrev)
  subst this
  exact ⟨e, (List.mem_filter.1 hem).1, hdes⟩

end Verif
