import Verif.Lemmas.SExec
import Verif.Props.Polling
import Verif.Props.Watches
/-!
# Client watch streams: progress notifications, watch ids, termination (C35, C36, C59, C65)
-/

namespace Verif

theorem SReachable.steps {a b : SSys} (h : SReachable a) (st : SSteps a b) : SReachable b := by
  induction st with
  | refl => exact h
  | tail _ s ih => exact ih.step s

/-- A step of a stream system is a step of its node, or leaves the node alone. -/
theorem SStep.base {a b : SSys} (h : SReachable a) (st : SStep a b) :
    NSteps a.base b.base ∧ a.stream.index = b.stream.index := by
  obtain ⟨hn, g, hg, hi⟩ := h.inv
  cases st with
  | env a b st hst quiet => exact ⟨.one hst, rfl⟩
  | recv s n st pre post g₁ u q c hidx hq free =>
    exact ⟨.one (.group s n _ pre post g₁ _ c (.recv _ _ u q hq)), rfl⟩
  | store => exact ⟨.refl _, rfl⟩
  | sendUpdates => exact ⟨.refl _, rfl⟩
  | create s n st pre post g₁ g' key rangeEnd start c hidx idle seq hgw =>
    have hg₁ := groupAt_mid c hidx
    rw [hg₁] at hg
    cases hg
    have hfresh : st.next ∉ g.used := by
      intro hm
      rcases hi.used _ hm with h1 | h1
      · simp only at h1; omega
      · rw [seq.1] at h1; cases h1
    refine ⟨.one (.group s n _ pre post g g' c ?_), rfl⟩
    rw [hgw]
    exact .watch _ _ _ _ _ _ idle hfresh (watchRangeEnd_ne key rangeEnd)
  | created a st g₁ id args ans hg₁ idle hc ha =>
    refine ⟨.refl _, ?_⟩
    unfold Stream.created
    cases ans <;> rfl
  | unwatch s n st pre post g₁ id c hidx seq =>
    have hg₁ := groupAt_mid c hidx
    rw [hg₁] at hg
    cases hg
    exact ⟨.one (.group s n _ pre post g _ c (.unwatch _ _ id (hi.idle seq.1))), rfl⟩
  | closed => exact ⟨.refl _, rfl⟩
  | tick => exact ⟨.refl _, rfl⟩
  | requestProgress => exact ⟨.refl _, rfl⟩

theorem SSteps.base {a b : SSys} (h : SReachable a) (st : SSteps a b) :
    NSteps a.base b.base ∧ a.stream.index = b.stream.index := by
  induction st with
  | refl => exact ⟨.refl _, rfl⟩
  | tail hst s ih =>
    have := SStep.base (h.steps hst) s
    exact ⟨ih.1.trans this.1, ih.2.trans this.2⟩

/-! ## C35 Progress notifications are truthful -/

/-- The progress notifications a step sends all carry the stream's revision. -/
theorem SStep.progress {a b : SSys} (h : SReachable a) (st : SStep a b) {new : List WatchResponse}
    (ho : b.stream.out = a.stream.out ++ new) {r : WatchResponse} (hr : r ∈ new) (hp : r.isProgress = true) :
    r.revision = a.stream.revision ∧ (r.watchId = -1 ∨ eventsFor a.stream.out r.watchId = []) := by
  obtain ⟨hn, g, hg, hi⟩ := h.inv
  have self : ∀ {x : List WatchResponse}, x = x ++ new → False := by
    intro x hx
    have : new = [] := by simpa using hx
    rw [this] at hr; cases hr
  cases st with
  | env => exact (self ho).elim
  | recv => exact (self ho).elim
  | store => exact (self ho).elim
  | sendUpdates a st u hs _ _ =>
    have : new = u.updates.map fun p => { revision := st.revision, watchId := p.1, events := p.2 } :=
      (List.append_cancel_left ho).symm
    rw [this] at hr
    obtain ⟨p, hpm, rfl⟩ := List.mem_map.1 hr
    have hne : p.2 ≠ [] := hi.ne u (by
      have := hi.last u hs
      simp only [List.mem_append]
      exact Or.inl (List.mem_of_getLast? this)) p hpm
    simp [WatchResponse.isProgress, hne] at hp
  | create => exact (self ho).elim
  | created a st g₁ id args ans hg₁ idle hc ha =>
    cases ans with
    | ok =>
      have : new = [_] := (List.append_cancel_left ho).symm
      rw [this, List.mem_singleton] at hr
      rw [hr] at hp
      simp [WatchResponse.isProgress] at hp
    | compacted cr cur =>
      have : new = [_] := (List.append_cancel_left ho).symm
      rw [this, List.mem_singleton] at hr
      rw [hr] at hp
      simp [WatchResponse.isProgress] at hp
    | error =>
      have : new = [_] := (List.append_cancel_left ho).symm
      rw [this, List.mem_singleton] at hr
      rw [hr] at hp
      simp [WatchResponse.isProgress] at hp
  | unwatch => exact (self ho).elim
  | closed => exact (self ho).elim
  | tick a st l hl _ =>
    have : new = l.map fun p => { revision := st.revision, watchId := p.1 } :=
      (List.append_cancel_left ho).symm
    rw [this] at hr
    obtain ⟨p, hpm, rfl⟩ := List.mem_map.1 hr
    have hpm := hl p hpm
    obtain ⟨id, b⟩ := p
    obtain ⟨hpm, hb⟩ := List.mem_filter.1 hpm
    simp only at hb
    subst hb
    exact ⟨rfl, Or.inr (hi.flag id hpm)⟩
  | requestProgress a st _ =>
    have : new = [{ revision := st.revision, watchId := invalidWatchId }] :=
      (List.append_cancel_left ho).symm
    rw [this, List.mem_singleton] at hr
    subst hr
    exact ⟨rfl, Or.inl rfl⟩

/-- The commits a watch has to deliver: from its start revision on, or, without one, after the revision its group
had reached when it was registered. -/
def Watcher.due (x : Watcher) (c : Commit) : Prop :=
  inRange x.lo x.hi c.key = true ∧ (x.start > 0 → x.start ≤ c.rev) ∧ (¬ x.start > 0 → x.base < c.rev)

theorem Watcher.due.from {x : Watcher} {c : Commit} (h : x.due c) (hi : x.initialized = true) : x.from < c.rev := by
  unfold Watcher.from
  split
  · rename_i hc
    have := h.2.1 hc.2
    omega
  · rename_i hc
    exact h.2.2 (fun hp => hc ⟨hi, hp⟩)

/-- While the update goroutine is not between receiving an update and sending it: a progress notification with
revision `R` is sent only after all events up to `R` of every watch that has no start revision, or that has been sent
an event before. Not covered (see the counterexamples): the window while an update is being sent, and the backlog of
a watch with a start revision before its first event. The other hypotheses are those of C28. -/
theorem C35_truthful_partial {a b : SSys} (h : SReachable a) (st : SStep a b) {new : List WatchResponse}
    (ho : b.stream.out = a.stream.out ++ new) {r : WatchResponse} (hr : r ∈ new) (hp : r.isProgress = true)
    (hs : a.stream.sending = none)
    {g : Group} (hg : a.base.node.groupAt a.stream.index = some g) {x : Watcher} (hx : x ∈ g.watchers)
    (hin : x.initialized = true) (hf : x.start ≤ 0 ∨ eventsFor a.stream.out x.id ≠ [])
    (hot : a.base.node.overtaken = false) (hl : x.lossy = false) (hd : g.dropped = false ∨ g.after = .stopped)
    {c : Commit} (hc : c ∈ a.base.sys.world.hist) (hdue : x.due c) (hrev : c.rev ≤ r.revision) :
    ∃ e ∈ eventsFor a.stream.out x.id, Describes a.base.sys.world.hist c e := by
  obtain ⟨hn, g₁, hg₁, hi⟩ := h.inv
  rw [hg] at hg₁
  cases hg₁
  have inv := hn.ninv
  have gi := inv.groups g (List.mem_of_getElem? hg)
  rw [(SStep.progress h st ho hr hp).1] at hrev
  have hsent : ∀ id, sentTo g.received id = eventsFor a.stream.out id := by
    intro id
    rw [hi.sent id, hs]
    simp [sentTo]
  have hpos : 0 < c.rev := inv.sys.inv.wf.pos c hc
  rcases List.eq_nil_or_concat g.received with hnil | ⟨A, u, hA⟩
  · have := hi.rev hs
    rw [hnil] at this
    simp at this
    omega
  · rw [List.concat_eq_append] at hA
    have hr2 : a.stream.revision = u.revision := by
      rw [hi.rev hs, hA]; simp
    have hcov := (hn.flush _ g hg).cov x hx hot hl hd A u g.queue (by rw [hA]; simp) (by
      rw [← hA, hsent]; exact hf)
    rw [← hA, hsent] at hcov
    obtain ⟨e, he, hem⟩ := hcov c hc hdue.1 (hdue.from hin) (by omega)
    refine ⟨e, he, ?_⟩
    have hm : e ∈ g.delivered x := by
      unfold Group.delivered
      rw [sentTo_append, hsent]
      simp [he]
    obtain ⟨-, -, -, c', hc', hdes⟩ := ((gi.ok x hx).sound.mem e hm)
    have : c' = c := Wf_rev_inj inv.sys.inv.wf hc' hc (by rw [← hdes.1]; exact hem)
    subst this
    exact hdes

/-- For a watch with nothing pending (no unsent backlog, nothing for it in the channel) progress notifications are
truthful too, also if it was never sent an event. -/
theorem C35_truthful_idle_partial {a b : SSys} (h : SReachable a) (st : SStep a b) {new : List WatchResponse}
    (ho : b.stream.out = a.stream.out ++ new) {r : WatchResponse} (hr : r ∈ new) (hp : r.isProgress = true)
    (hs : a.stream.sending = none)
    {g : Group} (hg : a.base.node.groupAt a.stream.index = some g) {x : Watcher} (hx : x ∈ g.watchers)
    (hin : x.initialized = true) (hb : x.events = []) (hq : sentTo g.queue x.id = [])
    (hot : a.base.node.overtaken = false) (hl : x.lossy = false) (hd : g.dropped = false)
    {c : Commit} (hc : c ∈ a.base.sys.world.hist) (hdue : x.due c) (hrev : c.rev ≤ r.revision) :
    ∃ e ∈ eventsFor a.stream.out x.id, Describes a.base.sys.world.hist c e := by
  obtain ⟨hn, g₁, hg₁, hi⟩ := h.inv
  rw [hg] at hg₁
  cases hg₁
  have inv := hn.ninv
  have hgm := List.mem_of_getElem? hg
  have gi := inv.groups g hgm
  rw [(SStep.progress h st ho hr hp).1] at hrev
  have hdel : g.delivered x = eventsFor a.stream.out x.id := by
    unfold Group.delivered
    rw [sentTo_append, hq, hb, hi.sent x.id, hs]
    simp [sentTo]
  have hpos : 0 < c.rev := inv.sys.inv.wf.pos c hc
  have hle : c.rev ≤ g.currentRevision := by
    have h1 := hi.rev hs
    cases hlast : g.received.getLast? with
    | none => rw [hlast] at h1; simp at h1; omega
    | some u =>
      rw [hlast] at h1
      simp at h1
      have := (hn.flush _ g hg).revs u (by
        rw [List.mem_append]; exact Or.inl (List.mem_of_getLast? hlast))
      omega
  obtain ⟨rest, r1, r2, r3⟩ := (gi.ok x hx).full hot hl (Or.inl hd)
  have := r3 hd
  subst this
  obtain ⟨e, he, hem⟩ := r2 c hc hdue.1 (hdue.from hin) hle
  obtain ⟨-, -, -, c', hc', hdes⟩ := r1.mem e he
  have : c' = c := Wf_rev_inj inv.sys.inv.wf hc' hc (by rw [← hdes.1]; exact hem)
  subst this
  refine ⟨e, ?_, hdes⟩
  rw [← hdel]
  exact he

/-- A stream on the node of the demo (revision 7): a watch of `/` without start revision; then `/b` is deleted
(revision 8), polled and received. -/
def streamDemo : SScenario :=
  { node := { setup := Demo.setup, start := 4, acts := [.pollStart, .pollExec .ok, .pollDone] }
    acts := [.create [0x2f] [0x30] 0, .created, .calls [(.txn true (deleteTxn Demo.kb 4), oks 1)],
      .node .pollStart, .node (.pollExec .ok), .node .pollDone, .recv] }

/-- A response as seen by the client: watch id, header revision, created, cancelled, revisions of its events. -/
def WatchResponse.view (r : WatchResponse) : Int × Int × Bool × Bool × List Int :=
  (r.watchId, r.revision, r.created, r.canceled, r.events.map (·.kv.modRev))

/-- The revision is stored outside the lock before the events are sent: the client is told that watch 1 is up to date
with revision 8 (a progress notification: neither created nor cancelled, no events), and gets the event of revision 8
afterwards (`/repo/pkg/limited/watch.go:87-89`). -/
theorem C35_window_counterexample : ∃ a, SReachable a ∧
    a.stream.out.map WatchResponse.view =
      [(1, 0, true, false, []), (1, 8, false, false, []), (1, 8, false, false, [8])] := by
  obtain ⟨w, n, st, h, hP⟩ := (SScenario.mk streamDemo.node (streamDemo.acts ++ [.tick, .sendUpdates])).check
    (fun _ _ st => decide (st.out.map WatchResponse.view =
      [(1, 0, true, false, []), (1, 8, false, false, []), (1, 8, false, false, [8])])) (by decide +kernel)
  exact ⟨_, h, by simpa using hP⟩

/-- A progress notification ignores the backlog of a new watch: the client watches from revision 4, is told that the
watch is up to date with revision 7, and gets the events of revisions 4 to 7 afterwards. -/
theorem C35_backlog_counterexample : ∃ a, SReachable a ∧
    a.stream.out.map WatchResponse.view =
      [(1, 0, true, false, []), (1, 7, false, false, []), (1, 7, false, false, [4, 5, 6, 7])] := by
  obtain ⟨w, n, st, h, hP⟩ := (SScenario.mk streamDemo.node
      [.node .pollStart, .node (.pollExec .ok), .node .pollDone, .recv, .sendUpdates, .create [0x2f] [0x30] 4,
       .node (.exec 0 .ok), .node (.done 0), .node (.exec 0 .ok), .node (.done 0), .created, .tick,
       .node .pollStart, .node (.pollExec .ok), .node .pollDone, .recv, .sendUpdates]).check
    (fun _ _ st => decide (st.out.map WatchResponse.view =
      [(1, 0, true, false, []), (1, 7, false, false, []), (1, 7, false, false, [4, 5, 6, 7])])) (by decide +kernel)
  exact ⟨_, h, by simpa using hP⟩

/-- Witness for `C35_truthful_partial`: after the event of revision 8 was sent, a requested progress notification
carries revision 8, and the delete of `/b` at revision 8 is due. -/
example : ∃ a b, SReachable a ∧ SStep a b ∧ ∃ r, b.stream.out = a.stream.out ++ [r] ∧ r.isProgress = true ∧
    a.stream.sending = none ∧ ∃ g, a.base.node.groupAt a.stream.index = some g ∧ ∃ x ∈ g.watchers,
    x.initialized = true ∧ x.start ≤ 0 ∧ eventsFor a.stream.out x.id ≠ [] ∧ a.base.node.overtaken = false ∧
    x.lossy = false ∧ g.dropped = false ∧ ∃ c ∈ a.base.sys.world.hist, x.due c ∧ c.rev = r.revision := by
  obtain ⟨w, n, st, h, hP⟩ := (SScenario.mk streamDemo.node (streamDemo.acts ++ [.sendUpdates])).check
    (fun w n st => decide (st.sending = none) && decide (st.creating = none) && decide (st.closing = none) &&
      !n.overtaken && match n.groups[st.index]? with
      | none => false
      | some g => !g.dropped && g.watchers.any fun x => x.initialized && decide (x.start = 0) &&
        decide (eventsFor st.out x.id ≠ []) && !x.lossy && w.hist.any fun c => inRange x.lo x.hi c.key &&
          decide (x.base < c.rev) && decide (c.rev = st.revision)) (by decide +kernel)
  simp only [Bool.and_eq_true, decide_eq_true_eq, Bool.not_eq_true'] at hP
  obtain ⟨⟨⟨⟨h1, h2⟩, h3⟩, h4⟩, hP⟩ := hP
  split at hP
  · cases hP
  · rename_i g hg
    simp only [List.any_eq_true, Bool.and_eq_true, decide_eq_true_eq, Bool.not_eq_true'] at hP
    obtain ⟨h5, x, hx, ⟨⟨⟨h6, h7⟩, h8⟩, h9⟩, c, hc, ⟨h10, h11⟩, h12⟩ := hP
    exact ⟨_, _, h, .requestProgress _ _ ⟨h2, h3⟩, _, rfl, rfl, h1, g, hg, x, hx, h6, by omega, h8, h4, h9, h5, c, hc,
      ⟨h10, fun hp => by omega, fun _ => h11⟩, h12⟩

/-- Witness for `C35_truthful_idle_partial`: a watch from revision 8 that has got its event and was never sent a
later one; a progress notification at revision 9 (a commit outside its range). -/
example : ∃ a b, SReachable a ∧ SStep a b ∧ ∃ r, b.stream.out = a.stream.out ++ [r] ∧ r.isProgress = true ∧
    a.stream.sending = none ∧ ∃ g, a.base.node.groupAt a.stream.index = some g ∧ ∃ x ∈ g.watchers,
    x.initialized = true ∧ x.start = 8 ∧ x.events = [] ∧ sentTo g.queue x.id = [] ∧ a.base.node.overtaken = false ∧
    x.lossy = false ∧ g.dropped = false ∧ ∃ c ∈ a.base.sys.world.hist, x.due c ∧ c.rev + 1 = r.revision := by
  obtain ⟨w, n, st, h, hP⟩ := (SScenario.mk streamDemo.node
      [.create [0x2f] [0x30] 8, .node (.exec 0 .ok), .node (.done 0), .node (.exec 0 .ok), .node (.done 0), .created,
       .calls [(.txn true (deleteTxn Demo.kb 4), oks 1), (.txn true (createTxn [0x60] [1] 0), oks 1)],
       .node .pollStart, .node (.pollExec .ok), .node .pollDone, .recv, .sendUpdates]).check
    (fun w n st => decide (st.sending = none) && decide (st.creating = none) && decide (st.closing = none) &&
      !n.overtaken && match n.groups[st.index]? with
      | none => false
      | some g => !g.dropped && g.watchers.any fun x => x.initialized && decide (x.start = 8) &&
        decide (x.events = []) && decide (sentTo g.queue x.id = []) && !x.lossy &&
        w.hist.any fun c => inRange x.lo x.hi c.key &&
          decide (x.start ≤ c.rev) && decide (c.rev + 1 = st.revision)) (by decide +kernel)
  simp only [Bool.and_eq_true, decide_eq_true_eq, Bool.not_eq_true'] at hP
  obtain ⟨⟨⟨⟨h1, h2⟩, h3⟩, h4⟩, hP⟩ := hP
  split at hP
  · cases hP
  · rename_i g hg
    simp only [List.any_eq_true, Bool.and_eq_true, decide_eq_true_eq, Bool.not_eq_true'] at hP
    obtain ⟨h5, x, hx, ⟨⟨⟨⟨h6, h7⟩, h8⟩, h13⟩, h9⟩, c, hc, ⟨h10, h11⟩, h12⟩ := hP
    exact ⟨_, _, h, .requestProgress _ _ ⟨h2, h3⟩, _, rfl, rfl, h1, g, hg, x, hx, h6, h7, h8, h13, h4, h9, h5, c, hc,
      ⟨h10, fun _ => h11, fun hn => by omega⟩, h12⟩

/-! ## C36 Idle watchers keep receiving progress notifications -/

/-- A watch that was announced, not cancelled and never sent an event gets a notification at every tick. -/
theorem C36_until_first_event_partial {a : SSys} (h : SReachable a) (hc : a.stream.creating = none) {A B : List WatchResponse}
    {r : WatchResponse} {id : Int} (ho : a.stream.out = A ++ r :: B) (hr : r.announces id = true)
    (hn : id ∉ a.stream.cancelled) (he : eventsFor a.stream.out id = []) :
    SStep a ⟨a.base, a.stream.sendProgress⟩ ∧ ∃ new, a.stream.sendProgress.out = a.stream.out ++ new ∧
      { revision := a.stream.revision, watchId := id } ∈ new := by
  obtain ⟨_, g, hg, hi⟩ := h.inv
  refine ⟨.tick _ _ _ (fun _ h => h) hc, _, rfl, ?_⟩
  have hid : id ∈ announcedIds a.stream.out := by
    unfold announcedIds
    rw [ho]
    simp only [WatchResponse.announces, Bool.and_eq_true, decide_eq_true_eq] at hr
    rw [List.mem_map]
    exact ⟨r, List.mem_filter.2 ⟨by simp, by simp [hr.1]⟩, hr.2⟩
  exact List.mem_map.2 ⟨(id, true), List.mem_filter.2 ⟨hi.flagOn id hid hn he, rfl⟩, rfl⟩

/-- The events sent for an id only grow. -/
theorem SSteps.events {a b : SSys} (st : SSteps a b) : ∃ new, b.stream.out = a.stream.out ++ new := by
  induction st with
  | refl => exact ⟨[], by simp⟩
  | tail _ s ih =>
    obtain ⟨new, e⟩ := ih
    have : ∀ {t u : SSys}, SStep t u → ∃ n', u.stream.out = t.stream.out ++ n' := by
      intro t u s
      cases s with
      | sendUpdates => exact ⟨_, rfl⟩
      | created a st g id args ans =>
        cases ans <;> exact ⟨_, rfl⟩
      | tick => exact ⟨_, rfl⟩
      | requestProgress => exact ⟨_, rfl⟩
      | env => exact ⟨[], by simp⟩
      | recv => exact ⟨[], by simp⟩
      | store => exact ⟨[], by simp⟩
      | create => exact ⟨[], by simp⟩
      | unwatch => exact ⟨[], by simp⟩
      | closed => exact ⟨[], by simp⟩
    obtain ⟨n', e'⟩ := this s
    exact ⟨new ++ n', by rw [e', e, List.append_assoc]⟩

/-- Once a watch has been sent an event, no later step ever sends a progress notification for it, however long it
stays idle: `sendProgress` sets a loop variable instead of the map entry (`/repo/pkg/limited/watch.go:145-147`). -/
theorem C36_never_after_event_counterexample {a b c : SSys} (h : SReachable a) (hs : SSteps a b) (st : SStep b c)
    {id : Int} (hid : id ≠ -1) (he : eventsFor a.stream.out id ≠ []) {new : List WatchResponse}
    (ho : c.stream.out = b.stream.out ++ new) {r : WatchResponse} (hr : r ∈ new) (hp : r.isProgress = true) :
    r.watchId ≠ id := by
  intro hw
  rcases (SStep.progress (h.steps hs) st ho hr hp).2 with h1 | h1
  · exact hid (hw ▸ h1)
  · obtain ⟨new', e⟩ := hs.events
    rw [hw, e] at h1
    unfold eventsFor at h1 he
    rw [List.filter_append, List.flatMap_append] at h1
    exact he (List.append_eq_nil_iff.1 h1).1

/-- A concrete stream with such a watch: one notification before its first event, then three ticks without one. -/
theorem C36_idle_counterexample : ∃ a, SReachable a ∧ a.stream.cancelled = [] ∧ ∃ b, SReachable b ∧ SStep a b ∧
    b = ⟨a.base, a.stream.sendProgress⟩ ∧ b.stream.out = a.stream.out ∧
    a.stream.out.map WatchResponse.view =
      [(1, 0, true, false, []), (1, 0, false, false, []), (1, 8, false, false, [8])] := by
  obtain ⟨w, n, st, h, hP⟩ := (SScenario.mk streamDemo.node ([.create [0x2f] [0x30] 0, .created, .tick] ++
      streamDemo.acts.drop 2 ++ [.sendUpdates, .tick, .tick])).check
    (fun _ _ st => decide (st.cancelled = []) && decide (st.creating = none) && decide (st.sendProgress.out = st.out) &&
      decide (st.out.map WatchResponse.view =
      [(1, 0, true, false, []), (1, 0, false, false, []), (1, 8, false, false, [8])])) (by decide +kernel)
  simp only [Bool.and_eq_true, decide_eq_true_eq] at hP
  obtain ⟨⟨⟨h1, h2⟩, h3⟩, h4⟩ := hP
  exact ⟨_, h, h1, _, h.step (.tick _ _ _ (fun _ h => h) h2), .tick _ _ _ (fun _ h => h) h2, rfl, h3, h4⟩

/-! ## C59 Watch ids are fresh and announced before use -/

/-- On every stream: ids announced later are larger than those announced before (so never reused), they are
positive, and a response with events comes after the announcement of its watch. -/
theorem C59_fresh_and_announced {a : SSys} (h : SReachable a) :
    (∀ A r B r' C i j, a.stream.out = A ++ r :: B ++ r' :: C → r.announces i = true → r'.announces j = true → i < j) ∧
    (∀ r ∈ a.stream.out, ∀ i, r.announces i = true → 0 < i) ∧
    (∀ A r B, a.stream.out = A ++ r :: B → r.events ≠ [] → ∃ r' ∈ A, r'.announces r.watchId = true) := by
  obtain ⟨_, g, hg, hi⟩ := h.inv
  have ann : ∀ (l : List WatchResponse) (r : WatchResponse), r ∈ l → ∀ i, r.announces i = true → i ∈ announcedIds l := by
    intro l r hr i ha
    simp only [WatchResponse.announces, Bool.and_eq_true, decide_eq_true_eq] at ha
    exact List.mem_map.2 ⟨r, List.mem_filter.2 ⟨hr, by simp [ha.1]⟩, ha.2⟩
  refine ⟨?_, ?_, ?_⟩
  · intro A r B r' C i j e h1 h2
    have hp := hi.asc
    rw [e, announcedIds_append] at hp
    exact (List.pairwise_append.1 hp).2.2 i (ann _ r (by simp) i h1) j (ann _ r' (by simp) j h2)
  · intro r hr i ha
    exact (hi.annId i (ann _ r hr i ha)).1
  · intro A r B e hne
    have := hi.ord A r B e hne
    obtain ⟨r', hr', he⟩ := List.mem_map.1 this
    obtain ⟨h1, h2⟩ := List.mem_filter.1 hr'
    refine ⟨r', h1, ?_⟩
    simp only [WatchResponse.announces, Bool.and_eq_true, decide_eq_true_eq]
    exact ⟨by simpa using h2, he⟩

/-- Witness: two watches on one stream, both announced, both sent the event of revision 8. -/
example : ∃ a, SReachable a ∧ a.stream.out.map WatchResponse.view =
    [(1, 0, true, false, []), (2, 0, true, false, []), (1, 8, false, false, [8]), (2, 8, false, false, [8])] := by
  obtain ⟨w, n, st, h, hP⟩ := (SScenario.mk streamDemo.node ([.create [0x2f] [0x30] 0, .created] ++
      streamDemo.acts ++ [.sendUpdates])).check
    (fun _ _ st => decide (st.out.map WatchResponse.view =
      [(1, 0, true, false, []), (2, 0, true, false, []), (1, 8, false, false, [8]), (2, 8, false, false, [8])]))
    (by decide +kernel)
  exact ⟨_, h, by simpa using hP⟩

/-! ## C65 A stream that can no longer be served is terminated -/

/-- After the channel of a stream's group was closed, the client is never sent an event that was not already in the
channel. -/
theorem closed_stream_starves {a b : SSys} (h : SReachable a) (st : SSteps a b) {g : Group}
    (hg : a.base.node.groupAt a.stream.index = some g) (hc : g.closed = 1) (id : Int) :
    ∀ e ∈ eventsFor b.stream.out id, e ∈ sentTo (g.received ++ g.queue) id := by
  obtain ⟨hn, -⟩ := h.inv
  obtain ⟨hb, hidx⟩ := SSteps.base h st
  obtain ⟨g', hg', _, he⟩ := C34_nothing_after_close hn hb hg hc
  obtain ⟨_, g₁, hg₁, hi⟩ := (h.steps st).inv
  rw [← hidx, hg'] at hg₁
  cases hg₁
  intro e hem
  rw [← he, sentTo_append, hi.sent id]
  simp [hem]

/-- A slow client's stream is dropped from the poller (after 100 unread updates), but the stream is not ended: the
client is never told, further watches on it are even accepted, and the commit at revision 8 is not delivered in any
future (`ServeUpdates` returns nil on a closed channel, `/repo/pkg/limited/watch.go:86-94`; the other two goroutines
go on). -/
theorem C65_stays_open_counterexample : ∃ a, SReachable a ∧
    (∃ c ∈ a.base.sys.world.hist, c.rev = 8 ∧ inRange [0x2f] [0x30] c.key = true) ∧
    a.stream.cancelled = [] ∧ a.stream.out.map WatchResponse.view = [(1, 0, true, false, []), (2, 0, true, false, [])] ∧
    (∃ g, a.base.node.groupAt a.stream.index = some g ∧ g.watchers.map (fun x => (x.id, x.lo, x.hi)) =
      [(1, [0x2f], [0x30]), (2, [0x2f], [0x30])]) ∧
    ∀ b, SSteps a b → ∀ e ∈ eventsFor b.stream.out 1 ++ eventsFor b.stream.out 2, e.kv.modRev ≠ 8 := by
  obtain ⟨w, n, st, h, hP⟩ := (SScenario.mk streamDemo.node ([.create [0x2f] [0x30] 0, .created]
      ++ (List.replicate 100 [SAct.node .pollStart, .node (.pollExec .ok), .node .pollDone]).flatten
      ++ [.calls [(.txn true (deleteTxn Demo.kb 4), oks 1)], .node .pollStart, .node (.pollExec .ok), .node .pollDone,
          .create [0x2f] [0x30] 0, .created])).check
    (fun w n st => (w.hist.any fun c => decide (c.rev = 8) && inRange [0x2f] [0x30] c.key) &&
      decide (st.cancelled = []) &&
      decide (st.out.map WatchResponse.view = [(1, 0, true, false, []), (2, 0, true, false, [])]) &&
      match n.groups[st.index]? with
      | none => false
      | some g => decide (g.watchers.map (fun x => (x.id, x.lo, x.hi)) = [(1, [0x2f], [0x30]), (2, [0x2f], [0x30])]) &&
        decide (g.closed = 1) && decide (sentTo (g.received ++ g.queue) 1 = []) &&
        decide (sentTo (g.received ++ g.queue) 2 = [])) (by decide +kernel)
  simp only [Bool.and_eq_true, decide_eq_true_eq, List.any_eq_true] at hP
  obtain ⟨⟨⟨hc, h1⟩, h2⟩, hP⟩ := hP
  split at hP
  · cases hP
  · rename_i g hg
    simp only [Bool.and_eq_true, decide_eq_true_eq] at hP
    obtain ⟨⟨⟨h3, h4⟩, h5⟩, h6⟩ := hP
    refine ⟨_, h, hc, h1, h2, ⟨g, hg, h3⟩, ?_⟩
    intro b hb e he
    exfalso
    rcases List.mem_append.1 he with he | he
    · have := closed_stream_starves h hb hg h4 1 e he
      rw [h5] at this; cases this
    · have := closed_stream_starves h hb hg h4 2 e he
      rw [h6] at this; cases this

/-- What does hold: the client of such a stream is never misled. At every moment, what a client has been sent for a
watch is an initial part of the exact event sequence from its start revision on: a stream that stops being served
stops, it does not skip events and go on. (The stream keeps up or has been dropped; `after ≠ .stopped` with an update
dropped is a stream whose client has already gone away.) -/
theorem C65_never_skips_partial {a : SSys} (h : SReachable a) {g : Group}
    (hg : a.base.node.groupAt a.stream.index = some g) {x : Watcher} (hx : x ∈ g.watchers)
    (hi : x.initialized = true) (hp : x.start > 0) (hd : g.dropped = false ∨ g.after = .stopped)
    (ho : a.base.node.overtaken = false) (hl : x.lossy = false) :
    ∃ rest, EventsOf a.base.sys.world.hist
      (a.base.sys.world.hist.stretch (inRange x.lo x.hi) (x.start - 1) g.currentRevision)
      (fromRev x.start (eventsFor a.stream.out x.id) ++ rest) := by
  obtain ⟨hn, g₁, hg₁, hi₁⟩ := h.inv
  rw [hg] at hg₁
  cases hg₁
  have hm : g ∈ a.base.node.groups := List.mem_of_getElem? hg
  have key : ∀ rest, ∃ rest', fromRev x.start (sentTo (g.received ++ g.queue) x.id) ++ rest =
      fromRev x.start (eventsFor a.stream.out x.id) ++ rest' := by
    intro rest
    refine ⟨fromRev x.start (sentTo a.stream.sending.toList x.id ++ sentTo g.queue x.id) ++ rest, ?_⟩
    rw [sentTo_append, hi₁.sent x.id]
    unfold fromRev
    simp only [List.filter_append, List.append_assoc]
  rcases hd with hd | hd
  · have e := (C28_exactly_once hn hm hx hi hp hd ho hl).1
    obtain ⟨rest', hr⟩ := key (fromRev x.start x.events)
    refine ⟨rest', ?_⟩
    rw [← hr]
    unfold Group.delivered at e
    unfold fromRev at e ⊢
    rwa [List.filter_append] at e
  · obtain ⟨rest, e⟩ := C28_slow_stream_no_gap hn hm hx hi hp hd ho hl
    obtain ⟨rest', hr⟩ := key rest
    exact ⟨rest', by rw [← hr]; exact e⟩

/-- Witness: a stream that received revision 8, then never read again and was dropped while 9 was pending for it: the
client has 8, not 9, and nothing will follow. -/
example : ∃ a, SReachable a ∧ a.stream.out.map WatchResponse.view = [(1, 0, true, false, []), (1, 8, false, false, [8])] ∧
    a.base.sys.world.hist.top = 9 ∧
    ∃ g x, a.base.node.groupAt a.stream.index = some g ∧ x ∈ g.watchers ∧ x.initialized = true ∧ x.start > 0 ∧
      g.dropped = true ∧ g.after = .stopped ∧ a.base.node.overtaken = false ∧ x.lossy = false := by
  obtain ⟨w, n, st, h, hP⟩ := (SScenario.mk streamDemo.node ([.create [0x2f] [0x30] 8, .node (.exec 0 .ok), .node (.done 0), .node (.exec 0 .ok),
      .node (.done 0), .created] ++
      streamDemo.acts.drop 2 ++ [.sendUpdates]
      ++ (List.replicate 100 [SAct.node .pollStart, .node (.pollExec .ok), .node .pollDone]).flatten
      ++ [.calls [(.txn true (createTxn Demo.kc [7] 0), oks 1)], .node .pollStart, .node (.pollExec .ok),
        .node .pollDone])).check
    (fun w n st => decide (st.out.map WatchResponse.view = [(1, 0, true, false, []), (1, 8, false, false, [8])]) &&
      decide (w.hist.top = 9) && decide (n.overtaken = false) &&
      match n.groups[st.index]? with
      | none => false
      | some g => decide (g.dropped = true) && decide (g.after = .stopped) &&
        g.watchers.any fun x => decide (x.initialized = true) && decide (x.start > 0) && decide (x.lossy = false))
    (by decide +kernel)
  simp only [Bool.and_eq_true, decide_eq_true_eq] at hP
  obtain ⟨⟨⟨h1, h2⟩, h3⟩, hP⟩ := hP
  split at hP
  · cases hP
  · rename_i g hg
    simp only [Bool.and_eq_true, decide_eq_true_eq, List.any_eq_true] at hP
    obtain ⟨⟨h4, h5⟩, x, hx, ⟨h6, h7⟩, h8⟩ := hP
    exact ⟨_, h, h1, h2, g, x, hg, hx, h6, h7, h4, h5, h3, h8⟩

end Verif
