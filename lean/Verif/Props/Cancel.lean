import Verif.Props.Requests
/-!
# Cancelled and refused watches: C88, C89
-/

namespace Verif

/-! ## C88 A cancelled watch stops -/

/-- Watch `id` is gone from the group for good: its number was handed out, nobody has it, and no call works on it; the
updates that ever mentioned it carry exactly the events `E`. -/
structure Gone (id : Int) (E : List Event) (g : Group) (st : Stream) : Prop where
  past : id < st.next
  none : ∀ x ∈ g.watchers, x.id ≠ id
  sent : sentTo (g.received ++ g.queue) id = E

theorem Gone.move {w w' : World} {g g' : Group} {st : Stream} {id : Int} {E : List Event} (h : Gone id E g st)
    (m : GroupMove w w' g g') (hu : g'.used = g.used) : Gone id E g' st := by
  refine ⟨h.past, ?_, ?_⟩
  · intro x' hx'
    obtain ⟨x, hx, e, _⟩ := m.old hu hx'
    rw [e]
    exact h.none x hx
  · cases m with
    | same => exact h.sent
    | publish rev es hin hcur =>
      obtain ⟨hr, hq⟩ := publishOrDrop_sent g rev es
      rw [hr]
      rcases hq with hq | hq
      · rw [hq]; exact h.sent
      · rw [hq, ← List.append_assoc, sentTo_append, sentTo_update_not h.none, List.append_nil]
        exact h.sent
    | step hs => rw [hs.sent_eq]; exact h.sent

theorem SStep.gone {a b : SSys} (hr : SReachable a) (st : SStep a b) {id : Int} {E : List Event} {g g' : Group}
    (hg : a.base.node.groupAt a.stream.index = some g) (hg' : b.base.node.groupAt b.stream.index = some g')
    (h : Gone id E g a.stream) : Gone id E g' b.stream := by
  obtain ⟨hn, g₀, hg₀, hi⟩ := hr.inv
  rw [hg] at hg₀
  cases hg₀
  have inv := hn.ninv
  cases st with
  | env a b st hst quiet =>
    obtain ⟨g₁, hg₁, _, hu⟩ := quiet g hg
    obtain ⟨g₂, hg₂, mv⟩ := NStep.move inv hst hg
    rw [hg₁] at hg₂
    cases hg₂
    rw [hg₁] at hg'
    cases hg'
    exact h.move mv hu
  | recv s n st pre post g₁ u qu c hidx hq free =>
    have hg₁ := groupAt_mid c hidx
    rw [hg₁] at hg
    cases hg
    rw [groupAt_mid rfl hidx] at hg'
    cases hg'
    refine ⟨h.past, h.none, ?_⟩
    rw [← h.sent, hq]
    simp
  | store =>
    cases (show some g = some g' from hg.symm.trans hg')
    exact ⟨h.past, h.none, h.sent⟩
  | sendUpdates =>
    cases (show some g = some g' from hg.symm.trans hg')
    exact ⟨h.past, h.none, h.sent⟩
  | create s n st pre post g₁ g₂ key rangeEnd start c hidx idle seq hgw =>
    have hg₁ := groupAt_mid c hidx
    rw [hg₁] at hg
    cases hg
    rw [groupAt_mid rfl hidx] at hg'
    cases hg'
    have hw : g'.watchers = removeWatcher g.watchers st.next ++
        [({ id := st.next, lo := key, hi := watchRangeEnd key rangeEnd, start, base := g.currentRevision, compactThen := s.world.db.compactRev } : WatchArgs).watcher] := by
      rw [hgw]; unfold Group.watch; simp only; split <;> rfl
    have hs : g'.received ++ g'.queue = g.received ++ g.queue := by
      rw [hgw]; unfold Group.watch; simp only; split <;> rfl
    refine ⟨h.past, ?_, by rw [hs]; exact h.sent⟩
    intro x hx
    rw [hw] at hx
    rcases List.mem_append.1 hx with hx | hx
    · exact h.none x (removeWatcher_sub hx).1
    · simp only [List.mem_singleton] at hx
      subst hx
      have := h.past
      change st.next ≠ id
      change id < st.next at this
      omega
  | created a st g₁ id' args ans hg₁ idle hc ha =>
    have : (st.created id' ans).index = st.index := by cases ans <;> rfl
    change a.node.groupAt (st.created id' ans).index = some g' at hg'
    rw [this] at hg'
    cases (show some g = some g' from hg.symm.trans hg')
    refine ⟨?_, h.none, h.sent⟩
    have hp := h.past
    have : (st.created id' ans).next = st.next + 1 := by cases ans <;> rfl
    change id < (st.created id' ans).next
    change id < st.next at hp
    omega
  | unwatch s n st pre post g₁ id' c hidx seq =>
    have hg₁ := groupAt_mid c hidx
    rw [hg₁] at hg
    cases hg
    rw [groupAt_mid rfl hidx] at hg'
    cases hg'
    exact ⟨h.past, fun x hx => h.none x (removeWatcher_sub hx).1, h.sent⟩
  | closed =>
    cases (show some g = some g' from hg.symm.trans hg')
    exact ⟨h.past, h.none, h.sent⟩
  | tick =>
    cases (show some g = some g' from hg.symm.trans hg')
    exact ⟨h.past, h.none, h.sent⟩
  | requestProgress =>
    cases (show some g = some g' from hg.symm.trans hg')
    exact ⟨h.past, h.none, h.sent⟩

theorem SSteps.gone {a b : SSys} (hr : SReachable a) (st : SSteps a b) {id : Int} {E : List Event} {g : Group}
    (hg : a.base.node.groupAt a.stream.index = some g) (h : Gone id E g a.stream) :
    ∃ g', b.base.node.groupAt b.stream.index = some g' ∧ Gone id E g' b.stream := by
  induction st with
  | refl => exact ⟨g, hg, h⟩
  | tail hst s ih =>
    obtain ⟨g₁, hg₁, h₁⟩ := ih
    obtain ⟨_, g₂, hg₂, _⟩ := ((hr.steps hst).step s).inv
    exact ⟨g₂, hg₂, SStep.gone (hr.steps hst) s hg₁ hg₂ h₁⟩

/-- A cancel request, step by step: what it removes and what it leaves. -/
theorem SStep.cancel {a b : SSys} (h : SReachable a) (st : SStep a b) {id : Int}
    (hc : b.stream.asked = a.stream.asked ++ [.cancel id]) {g : Group}
    (hg : a.base.node.groupAt a.stream.index = some g) :
    b.base.node.groupAt b.stream.index = some { g with watchers := removeWatcher g.watchers id } ∧
    b.stream.out = a.stream.out ∧ b.stream.next = a.stream.next ∧ b.stream.report = a.stream.report ∧
    b.stream.sending = a.stream.sending := by
  have no : ∀ (l : List WatchAsk) (x : WatchAsk), l ≠ l ++ [x] := by
    intro l x e
    have := congrArg List.length e
    simp at this
  cases st with
  | unwatch s n st pre post g₁ id' c hidx seq =>
    have hg₁ := groupAt_mid c hidx
    rw [hg₁] at hg
    cases hg
    have : id' = id := by
      have e := List.append_cancel_left hc
      cases e
      rfl
    subst this
    exact ⟨groupAt_mid rfl hidx, rfl, rfl, rfl, rfl⟩
  | env => exact absurd hc (no _ _)
  | recv => exact absurd hc (no _ _)
  | store => exact absurd hc (no _ _)
  | sendUpdates => exact absurd hc (no _ _)
  | create =>
    have e := List.append_cancel_left hc
    cases e
  | created a st g₁ id' args ans =>
    exfalso
    have : (st.created id' ans).asked = st.asked := by cases ans <;> rfl
    change (st.created id' ans).asked = st.asked ++ [.cancel id] at hc
    rw [this] at hc
    exact no _ _ hc
  | closed => exact absurd hc (no _ _)
  | tick => exact absurd hc (no _ _)
  | requestProgress =>
    have e := List.append_cancel_left hc
    cases e

/-- The client cancels a watch. However the execution goes on — commits, polls, other watches created and cancelled —
the events it is ever sent for that watch are an initial part of those published for it before the cancellation: no
later commit reaches it. Other watches of the stream are untouched by the request. -/
theorem C88_no_event_after_cancel {a b c : SSys} (h : SReachable a) (st : SStep a b) {id : Int}
    (hc : b.stream.asked = a.stream.asked ++ [.cancel id]) (hid : id < a.stream.next) (later : SSteps b c) {g : Group}
    (hg : a.base.node.groupAt a.stream.index = some g) :
    eventsFor c.stream.out id <+: sentTo (g.received ++ g.queue) id ∧
    (∃ gc, c.base.node.groupAt c.stream.index = some gc ∧ ∀ x ∈ gc.watchers, x.id ≠ id) ∧
    ∃ gb, b.base.node.groupAt b.stream.index = some gb ∧
      ∀ x : Watcher, x.id ≠ id → (x ∈ gb.watchers ↔ x ∈ g.watchers) := by
  obtain ⟨h1, h2, h3, _⟩ := SStep.cancel h st hc hg
  have hgone : Gone id (sentTo (g.received ++ g.queue) id) { g with watchers := removeWatcher g.watchers id } b.stream := by
    refine ⟨by rw [h3]; exact hid, ?_, rfl⟩
    intro x hx
    exact (removeWatcher_sub hx).2
  obtain ⟨gc, hgc, hG⟩ := SSteps.gone (h.step st) later h1 hgone
  refine ⟨?_, ⟨gc, hgc, hG.none⟩, ⟨_, h1, ?_⟩⟩
  · obtain ⟨_, g₁, hg₁, hi⟩ := ((h.step st).steps later).inv
    rw [hgc] at hg₁
    cases hg₁
    rw [← hG.sent, sentTo_append, hi.sent id, List.append_assoc]
    exact List.prefix_append _ _
  · intro x hx
    unfold removeWatcher
    rw [List.mem_filter]
    simp [hx]

/-- The watch `id` has been cancelled, and its progress flag is off or about to be taken off. -/
structure Off (id : Int) (st : Stream) : Prop where
  pos : 0 < id
  past : id < st.next
  flag : st.closing = some id ∨ (id, true) ∉ st.report
  nocreate : ∀ i, st.creating = some i → i ≠ id

theorem SStep.off {a b : SSys} (hr : SReachable a) (st : SStep a b) {id : Int} (h : Off id a.stream) :
    Off id b.stream ∧ ((id, true) ∉ a.stream.report → (id, true) ∉ b.stream.report ∧
      ∃ new, b.stream.out = a.stream.out ++ new ∧ ∀ r ∈ new, r.watchId = id → r.events ≠ []) := by
  obtain ⟨hn, g, hg, hi⟩ := hr.inv
  obtain ⟨hpos, hpast, hflag, hnc⟩ := h
  cases st with
  | env => exact ⟨⟨hpos, hpast, hflag, hnc⟩, fun hf => ⟨hf, [], by simp, by nofun⟩⟩
  | recv => exact ⟨⟨hpos, hpast, hflag, hnc⟩, fun hf => ⟨hf, [], by simp, by nofun⟩⟩
  | store => exact ⟨⟨hpos, hpast, hflag, hnc⟩, fun hf => ⟨hf, [], by simp, by nofun⟩⟩
  | sendUpdates a st u hs hrev unlocked =>
    have hmem : u ∈ g.received ++ g.queue := List.mem_append.2 (Or.inl (List.mem_of_getLast? (hi.last u hs)))
    refine ⟨⟨hpos, hpast, hflag.imp_right fun hf hm => hf ((foldReport_true _ _ _).1 hm).1, hnc⟩, fun hf => ⟨fun hm => hf ((foldReport_true _ _ _).1 hm).1, _, rfl, ?_⟩⟩
    intro r hrm _
    obtain ⟨p, hp, rfl⟩ := List.mem_map.1 hrm
    exact hi.ne u hmem p hp
  | create s n st pre post g₁ g₂ key rangeEnd start c hidx idle seq hgw =>
    refine ⟨⟨hpos, hpast, hflag, ?_⟩, fun hf => ⟨hf, [], by simp, by nofun⟩⟩
    intro i hi'
    change some st.next = some i at hi'
    cases hi'
    change id < st.next at hpast
    omega
  | created a st g₁ id' args ans hg₁ idle hc ha =>
    have hne : id' ≠ id := hnc id' hc
    change id < st.next at hpast
    cases ans with
    | ok =>
      refine ⟨⟨hpos, ?_, ?_, nofun⟩,
        fun hf => ⟨?_, [{ revision := 0, watchId := id', created := true }], rfl, ?_⟩⟩
      · change id < st.next + 1
        omega
      · refine hflag.imp_right fun hf hm => ?_
        rcases setReport_true (l := st.report) hm with ⟨h1, _⟩ | ⟨h1, _⟩
        · exact hf h1
        · exact hne h1.symm
      · intro hm
        rcases setReport_true (l := st.report) hm with ⟨h1, _⟩ | ⟨h1, _⟩
        · exact hf h1
        · exact hne h1.symm
      · intro r hrm e; simp only [List.mem_singleton] at hrm; rw [hrm] at e; exact absurd e hne
    | compacted cr cur =>
      refine ⟨⟨hpos, ?_, hflag, nofun⟩,
        fun hf => ⟨hf, [{ revision := cur, watchId := invalidWatchId, created := true, canceled := true }], rfl, ?_⟩⟩
      · change id < st.next + 1
        omega
      · intro r hrm e; simp only [List.mem_singleton] at hrm; rw [hrm] at e; change (-1 : Int) = id at e; omega
    | error =>
      refine ⟨⟨hpos, ?_, hflag, nofun⟩,
        fun hf => ⟨hf, [{ revision := st.revision, watchId := 0, canceled := true }], rfl, ?_⟩⟩
      · change id < st.next + 1
        omega
      · intro r hrm e; simp only [List.mem_singleton] at hrm; rw [hrm] at e; change (0 : Int) = id at e; omega
  | unwatch s n st pre post g₁ id' c hidx seq =>
    refine ⟨⟨hpos, hpast, Or.inr ?_, hnc⟩, fun hf => ⟨hf, [], by simp, by nofun⟩⟩
    rcases hflag with h | h
    · change st.closing = some id at h
      rw [seq.2] at h
      cases h
    · exact h
  | closed a st id' hc =>
    refine ⟨⟨hpos, hpast, Or.inr ?_, hnc⟩, fun hf => ⟨fun hm => hf (List.mem_filter.1 hm).1, [], by simp, by nofun⟩⟩
    intro hm
    obtain ⟨h1, h2⟩ := List.mem_filter.1 hm
    rcases hflag with h | h
    · change st.closing = some id at h
      rw [hc] at h
      cases h
      simp at h2
    · exact h h1
  | tick a st l hl unlocked =>
    refine ⟨⟨hpos, hpast, hflag, hnc⟩, fun hf => ⟨hf, _, rfl, ?_⟩⟩
    intro r hrm e
    obtain ⟨p, hp, rfl⟩ := List.mem_map.1 hrm
    obtain ⟨hp1, hp2⟩ := List.mem_filter.1 (hl p hp)
    exfalso
    refine hf ?_
    rw [show (id, true) = p from Prod.ext e.symm hp2.symm]
    exact hp1
  | requestProgress a st seq =>
    refine ⟨⟨hpos, hpast, hflag, hnc⟩, fun hf => ⟨hf, _, rfl, ?_⟩⟩
    intro r hrm e
    simp only [List.mem_singleton] at hrm
    rw [hrm] at e
    change (-1 : Int) = id at e
    omega

theorem SSteps.trans {a b c : SSys} (h1 : SSteps a b) (h2 : SSteps b c) : SSteps a c := by
  induction h2 with
  | refl => exact h1
  | tail _ st ih => exact .tail ih st

theorem SSteps.off {a b : SSys} (hr : SReachable a) (st : SSteps a b) {id : Int} (h : Off id a.stream) :
    Off id b.stream ∧ ((id, true) ∉ a.stream.report → (id, true) ∉ b.stream.report ∧
      ∃ new, b.stream.out = a.stream.out ++ new ∧ ∀ r ∈ new, r.watchId = id → r.events ≠ []) := by
  induction st with
  | refl => exact ⟨h, fun hf => ⟨hf, [], by simp, by nofun⟩⟩
  | tail hst s ih =>
    obtain ⟨h1, h2⟩ := ih
    obtain ⟨h3, h4⟩ := SStep.off (hr.steps hst) s h1
    refine ⟨h3, fun hf => ?_⟩
    obtain ⟨hf1, new₁, e₁, q₁⟩ := h2 hf
    obtain ⟨hf2, new₂, e₂, q₂⟩ := h4 hf1
    refine ⟨hf2, new₁ ++ new₂, by rw [e₂, e₁, List.append_assoc], ?_⟩
    intro r hm
    rcases List.mem_append.1 hm with hm | hm
    · exact q₁ r hm
    · exact q₂ r hm

/-- After the server has finished with the cancel request, no progress notification is sent for the watch any more: every
response that still mentions it carries events, which were published before the cancellation (see above). And when those
have been delivered, the watch is never mentioned again. -/
theorem C88_silent_after_cancel {a b c d : SSys} (h : SReachable a) (st : SStep a b) {id : Int}
    (hc : b.stream.asked = a.stream.asked ++ [.cancel id]) (hid : 0 < id ∧ id < a.stream.next) (later : SSteps b c)
    (done : c.stream.closing ≠ some id) (later' : SSteps c d) :
    ∃ new, d.stream.out = c.stream.out ++ new ∧ (∀ r ∈ new, r.watchId = id → r.events ≠ []) ∧
    ∀ g, a.base.node.groupAt a.stream.index = some g → eventsFor c.stream.out id = sentTo (g.received ++ g.queue) id →
      ∀ r ∈ new, r.watchId ≠ id := by
  obtain ⟨_, g, hg, _⟩ := h.inv
  have hcl : b.stream.closing = some id ∧ b.stream.creating = none ∧ b.stream.next = a.stream.next := by
    cases st with
    | unwatch s n st pre post g₁ id' c hidx seq =>
      have e := List.append_cancel_left hc
      cases e
      exact ⟨rfl, seq.1, rfl⟩
    | create => have e := List.append_cancel_left hc; cases e
    | requestProgress => have e := List.append_cancel_left hc; cases e
    | created a st g₁ id' args ans =>
      exfalso
      have : (st.created id' ans).asked = st.asked := by cases ans <;> rfl
      change (st.created id' ans).asked = st.asked ++ [.cancel id] at hc
      rw [this] at hc
      simpa using congrArg List.length hc
    | env => exact absurd (congrArg List.length hc) (by simp)
    | recv => exact absurd (congrArg List.length hc) (by simp)
    | store => exact absurd (congrArg List.length hc) (by simp)
    | sendUpdates => exact absurd (congrArg List.length hc) (by simp [Stream.sendUpdates])
    | closed => exact absurd (congrArg List.length hc) (by simp)
    | tick => exact absurd (congrArg List.length hc) (by simp [Stream.sendProgressTo])
  have hb : Off id b.stream := by
    refine ⟨hid.1, by rw [hcl.2.2]; exact hid.2, Or.inl hcl.1, ?_⟩
    intro i hi'
    rw [hcl.2.1] at hi'
    cases hi'
  have hoc := (SSteps.off (h.step st) later hb).1
  have hf : (id, true) ∉ c.stream.report := hoc.flag.resolve_left done
  obtain ⟨_, new, e, q⟩ := (SSteps.off ((h.step st).steps later) later' hoc).2 hf
  refine ⟨new, e, q, ?_⟩
  intro g' hg' hdel r hm hw
  have hpre := (C88_no_event_after_cancel h st hc hid.2 (later.trans later') hg').1
  rw [e, eventsFor_append, hdel] at hpre
  have hnil : eventsFor new id = [] := by
    obtain ⟨t, ht⟩ := hpre
    rw [List.append_assoc] at ht
    have := List.append_cancel_left (ht.trans (List.append_nil _).symm)
    exact (List.append_eq_nil_iff.1 this).1
  apply q r hm hw
  unfold eventsFor at hnil
  exact List.flatMap_eq_nil_iff.1 hnil r (List.mem_filter.2 ⟨hm, by simpa using hw⟩)

/-- A watch of `/` is cancelled while the deletion of `/b` (revision 8) is on its way: that event is still delivered; the
re-creation of `/b` (revision 9) is not, while the second watch gets both. Ticks send nothing for watch 1. -/
example : ∃ a, SReachable a ∧
    a.stream.asked = [.create [0x2f] [0x30] 0, .create [0x2f] [0x30] 0, .cancel 1] ∧
    a.stream.out.map WatchResponse.view = [(1, 0, true, false, []), (2, 0, true, false, []), (1, 8, false, false, [8]),
      (2, 8, false, false, [8]), (2, 9, false, false, [9])] := by
  obtain ⟨w, n, st, h, hP⟩ := (SScenario.mk streamDemo.node
      ([.create [0x2f] [0x30] 0, .created] ++ streamDemo.acts ++ [.unwatch 1, .closed, .sendUpdates,
        .calls [(.txn true (createTxn Demo.kb [0x31] 0), oks 2)],
        .node .pollStart, .node (.pollExec .ok), .node .pollDone, .recv, .sendUpdates, .tick])).check
    (fun _ _ st =>
      decide (st.asked = [.create [0x2f] [0x30] 0, .create [0x2f] [0x30] 0, .cancel 1]) &&
      decide (st.out.map WatchResponse.view = [(1, 0, true, false, []), (2, 0, true, false, []), (1, 8, false, false, [8]),
      (2, 8, false, false, [8]), (2, 9, false, false, [9])]))
    (by decide +kernel)
  simp only [Bool.and_eq_true, decide_eq_true_eq] at hP
  exact ⟨_, h, hP⟩

/-! ## C89 A refused watch leaves nothing behind -/

/-- Answers are never taken back: the `k`-th answer stays the `k`-th answer. -/
theorem SSteps.answer {a b : SSys} (st : SSteps a b) {k : Nat} {r : WatchResponse}
    (h : (a.stream.out.filter (·.answersCreate))[k]? = some r) :
    (b.stream.out.filter (·.answersCreate))[k]? = some r := by
  obtain ⟨new, e⟩ := st.events
  rw [e, List.filter_append, List.getElem?_append_left (List.getElem?_eq_some_iff.1 h).1]
  exact h

/-- A create request that was refused (its start revision is compacted, or a query failed): the client is never sent
anything for the watch it would have been, neither events nor progress notifications, in any continuation. -/
theorem C89_refused_gets_nothing_partial {a b : SSys} (h : SReachable a) {k : Nat} {r : WatchResponse}
    (hk : (a.stream.out.filter (·.answersCreate))[k]? = some r) (hr : r.canceled = true) (later : SSteps a b) :
    ∀ x ∈ b.stream.out, x.watchId ≠ k + 1 := by
  intro x hx e
  obtain ⟨g, hg, q⟩ := (h.steps later).qinv
  have hann := q.named x hx (by omega)
  unfold announcedIds at hann
  obtain ⟨y, hy, hyw⟩ := List.mem_map.1 hann
  obtain ⟨hy1, hy2⟩ := List.mem_filter.1 hy
  simp only [Bool.and_eq_true, Bool.not_eq_true'] at hy2
  have hm : y ∈ b.stream.out.filter (·.answersCreate) :=
    List.mem_filter.2 ⟨hy1, by simp [WatchResponse.answersCreate, hy2.1]⟩
  obtain ⟨m, hm⟩ := List.mem_iff_getElem?.1 hm
  have hyid : y.watchId = ((m + 1 : Nat) : Int) := by
    rcases (q.answers m y hm).2 with ⟨_, _, h3⟩ | ⟨_, h2, _⟩ | ⟨_, h2, _⟩
    · exact h3
    · rw [hy2.2] at h2; cases h2
    · rw [hy2.2] at h2; cases h2
  have : m = k := by omega
  subst this
  rw [later.answer hk] at hm
  cases hm
  rw [hy2.2] at hr
  cases hr

/-- A watcher of the group that nothing will ever initialise, with its buffer. -/
structure Stuck (id : Int) (ev : List Event) (g : Group) (st : Stream) : Prop where
  past : id < st.next
  nocreate : ∀ i, st.creating = some i → i ≠ id
  buf : ∀ x ∈ g.watchers, x.id = id → x.initialized = false ∧ ev <+: x.events

theorem Stuck.move {w w' : World} {g g' : Group} {st : Stream} {id : Int} {ev : List Event} (hi : SInv g st)
    (h : Stuck id ev g st) (m : GroupMove w w' g g') (hu : g'.used = g.used) : Stuck id ev g' st := by
  refine ⟨h.past, h.nocreate, ?_⟩
  intro x' hx' hid
  cases m with
  | same => exact h.buf x' hx' hid
  | publish rev es hin hcur =>
    rw [publishOrDrop_watchers] at hx'
    obtain ⟨y, hy, rfl⟩ := List.mem_map.1 hx'
    rw [Watcher.update_id] at hid
    obtain ⟨h1, h2⟩ := h.buf y hy hid
    rw [Watcher.update_uninit h1]
    exact ⟨h1, h2.trans (List.prefix_append _ _)⟩
  | step hs =>
    cases hs with
    | watch id lo hi start idle fresh ne =>
      exfalso
      have : g.used ++ [id] = g.used := by
        unfold Group.watch at hu
        simp only at hu
        split at hu <;> exact hu
      simpa using congrArg List.length this
    | checkExec => exact h.buf x' hx' hid
    | checked a r c =>
      refine h.buf x' ?_ hid
      unfold Group.checked at hx'
      split at hx'
      · exact hx'
      · split at hx' <;> exact hx'
    | queryExec a eff k o c =>
      obtain ⟨z, hz, ⟨e, rfl⟩ | ⟨_, rfl⟩⟩ := mem_updateWatcher hx'
      · exact absurd (e.symm.trans hid) (h.nocreate _ (hi.queryId a _ c))
      · exact h.buf _ hz hid
    | queried a r c =>
      unfold Group.queried at hx'
      split at hx'
      · exact h.buf _ (removeWatcher_sub hx').1 hid
      · obtain ⟨z, hz, ⟨e, rfl⟩ | ⟨_, rfl⟩⟩ := mem_updateWatcher hx'
        · exact absurd (e.symm.trans hid) (h.nocreate _ (hi.queryId a _ c))
        · exact h.buf _ hz hid
    | unwatch id idle => exact h.buf _ (removeWatcher_sub hx').1 hid
    | recv => exact h.buf x' hx' hid
    | cancel => exact h.buf x' hx' hid
    | afterFunc => exact h.buf x' hx' hid

theorem SStep.stuck {a b : SSys} (hr : SReachable a) (st : SStep a b) {id : Int} {ev : List Event} {g g' : Group}
    (hg : a.base.node.groupAt a.stream.index = some g) (hg' : b.base.node.groupAt b.stream.index = some g')
    (h : Stuck id ev g a.stream) : Stuck id ev g' b.stream := by
  obtain ⟨hn, g₀, hg₀, hi⟩ := hr.inv
  rw [hg] at hg₀
  cases hg₀
  have inv := hn.ninv
  cases st with
  | env a b st hst quiet =>
    obtain ⟨g₁, hg₁, _, hu⟩ := quiet g hg
    obtain ⟨g₂, hg₂, mv⟩ := NStep.move inv hst hg
    rw [hg₁] at hg₂
    cases hg₂
    rw [hg₁] at hg'
    cases hg'
    exact h.move hi mv hu
  | recv s n st pre post g₁ u qu c hidx hq free =>
    have hg₁ := groupAt_mid c hidx
    rw [hg₁] at hg
    cases hg
    rw [groupAt_mid rfl hidx] at hg'
    cases hg'
    exact ⟨h.past, h.nocreate, h.buf⟩
  | store =>
    cases (show some g = some g' from hg.symm.trans hg')
    exact ⟨h.past, h.nocreate, h.buf⟩
  | sendUpdates =>
    cases (show some g = some g' from hg.symm.trans hg')
    exact ⟨h.past, h.nocreate, h.buf⟩
  | create s n st pre post g₁ g₂ key rangeEnd start c hidx idle seq hgw =>
    have hg₁ := groupAt_mid c hidx
    rw [hg₁] at hg
    cases hg
    rw [groupAt_mid rfl hidx] at hg'
    cases hg'
    have hpast := h.past
    change id < st.next at hpast
    have hw : g'.watchers = removeWatcher g.watchers st.next ++
        [({ id := st.next, lo := key, hi := watchRangeEnd key rangeEnd, start, base := g.currentRevision, compactThen := s.world.db.compactRev } : WatchArgs).watcher] := by
      rw [hgw]; unfold Group.watch; simp only; split <;> rfl
    refine ⟨h.past, ?_, ?_⟩
    · intro i hi'
      change some st.next = some i at hi'
      cases hi'
      omega
    · intro x hx hid
      rw [hw] at hx
      rcases List.mem_append.1 hx with hx | hx
      · exact h.buf x (removeWatcher_sub hx).1 hid
      · simp only [List.mem_singleton] at hx
        subst hx
        change st.next = id at hid
        omega
  | created a st g₁ id' args ans hg₁ idle hc ha =>
    have : (st.created id' ans).index = st.index := by cases ans <;> rfl
    change a.node.groupAt (st.created id' ans).index = some g' at hg'
    rw [this] at hg'
    cases (show some g = some g' from hg.symm.trans hg')
    refine ⟨?_, ?_, h.buf⟩
    · have hp := h.past
      have : (st.created id' ans).next = st.next + 1 := by cases ans <;> rfl
      change id < (st.created id' ans).next
      change id < st.next at hp
      omega
    · intro i hi'
      have : (st.created id' ans).creating = none := by cases ans <;> rfl
      change (st.created id' ans).creating = some i at hi'
      rw [this] at hi'
      cases hi'
  | unwatch s n st pre post g₁ id' c hidx seq =>
    have hg₁ := groupAt_mid c hidx
    rw [hg₁] at hg
    cases hg
    rw [groupAt_mid rfl hidx] at hg'
    cases hg'
    exact ⟨h.past, h.nocreate, fun x hx => h.buf x (removeWatcher_sub hx).1⟩
  | closed =>
    cases (show some g = some g' from hg.symm.trans hg')
    exact ⟨h.past, h.nocreate, h.buf⟩
  | tick =>
    cases (show some g = some g' from hg.symm.trans hg')
    exact ⟨h.past, h.nocreate, h.buf⟩
  | requestProgress =>
    cases (show some g = some g' from hg.symm.trans hg')
    exact ⟨h.past, h.nocreate, h.buf⟩

theorem watcher_uniq {l : List Watcher} (h : l.Pairwise fun a b => a.id ≠ b.id) {x y : Watcher} (hx : x ∈ l) (hy : y ∈ l)
    (e : x.id = y.id) : x = y := by
  induction l with
  | nil => cases hx
  | cons z l ih =>
    obtain ⟨h1, h2⟩ := List.pairwise_cons.1 h
    rcases List.mem_cons.1 hx with hx' | hx'
    · rcases List.mem_cons.1 hy with hy' | hy'
      · rw [hx', hy']
      · exact absurd (hx' ▸ e) (h1 y hy')
    · rcases List.mem_cons.1 hy with hy' | hy'
      · exact absurd (hy' ▸ e).symm (h1 x hx')
      · exact ih h2 hx' hy'

/-- What is left behind is never freed: a watcher that is registered but not initialised while no create request is being
served keeps its buffered events, and never becomes initialised, for as long as it is registered. -/
theorem C89_never_freed_counterexample {a b : SSys} (h : SReachable a) (hc : a.stream.creating = none) {g g' : Group}
    (hg : a.base.node.groupAt a.stream.index = some g) {x : Watcher} (hx : x ∈ g.watchers) (hu : x.initialized = false)
    (later : SSteps a b) (hg' : b.base.node.groupAt b.stream.index = some g') :
    ∀ x' ∈ g'.watchers, x'.id = x.id → x'.initialized = false ∧ x.events <+: x'.events := by
  obtain ⟨hn, g₀, hg₀, hi⟩ := h.inv
  rw [hg] at hg₀
  cases hg₀
  have gi := hn.ninv.groups g (List.mem_of_getElem? hg)
  have start : Stuck x.id x.events g a.stream := by
    refine ⟨?_, (fun i hi' => by rw [hc] at hi'; nomatch hi'), ?_⟩
    · rcases hi.used x.id (gi.used x hx) with h1 | h1
      · exact h1
      · rw [hc] at h1; cases h1
    · intro y hy hid
      have : y = x := watcher_uniq gi.ids hy hx hid
      subst this
      exact ⟨hu, List.prefix_refl _⟩
  have key : ∀ {b : SSys}, SSteps a b → ∃ gb, b.base.node.groupAt b.stream.index = some gb ∧ Stuck x.id x.events gb b.stream := by
    intro b st
    induction st with
    | refl => exact ⟨g, hg, start⟩
    | tail hst s ih =>
      obtain ⟨g₁, hg₁, h₁⟩ := ih
      obtain ⟨_, g₂, hg₂, _⟩ := ((h.steps hst).step s).inv
      exact ⟨g₂, hg₂, SStep.stuck (h.steps hst) s hg₁ hg₂ h₁⟩
  obtain ⟨gb, hgb, hS⟩ := key later
  rw [hg'] at hgb
  cases hgb
  exact hS.buf

/-- The first query of a create request fails, or the start revision is compacted: the request is refused, but the watcher
stays registered (`/repo/pkg/backend/internal/backend/watcher.go:115-121` return without `delete(w.watchers, watchId)`,
unlike lines 124-132) and buffers every event of its range for as long as the stream lives. The client cannot know its
number. Here the deletion of `/b` and its re-creation (revisions 8, 9) are buffered for a watch refused before. -/
theorem C89_failed_leak_counterexample : ∃ a, SReachable a ∧ a.stream.creating = none ∧
    a.stream.out.map WatchResponse.view = [(0, 0, false, true, [])] ∧
    ∃ g, a.base.node.groupAt a.stream.index = some g ∧ ∃ x ∈ g.watchers, x.initialized = false ∧
      x.events.map (·.kv.modRev) = [8, 9] := by
  obtain ⟨w, n, st, h, hP⟩ := (SScenario.mk streamDemo.node
      [.create [0x2f] [0x30] 4, .node (.exec 0 (.fail .other)), .node (.done 0), .created,
        .calls [(.txn true (deleteTxn Demo.kb 4), oks 1), (.txn true (createTxn Demo.kb [0x31] 0), oks 2)],
        .node .pollStart, .node (.pollExec .ok), .node .pollDone]).check
    (fun _ n st => decide (st.creating = none) &&
      decide (st.out.map WatchResponse.view = [(0, 0, false, true, [])]) &&
      match n.groups[st.index]? with
      | none => false
      | some g => g.watchers.any fun x => !x.initialized && decide (x.events.map (·.kv.modRev) = [8, 9])) (by decide +kernel)
  simp only [Bool.and_eq_true, decide_eq_true_eq] at hP
  obtain ⟨⟨h1, h2⟩, hP⟩ := hP
  split at hP
  · cases hP
  · rename_i g hg
    simp only [List.any_eq_true, Bool.and_eq_true, decide_eq_true_eq, Bool.not_eq_true'] at hP
    obtain ⟨x, hx, h3, h4⟩ := hP
    exact ⟨_, h, h1, h2, g, hg, x, hx, h3, h4⟩

/-- The same for a start revision that has been compacted. -/
theorem C89_compacted_leak_counterexample : ∃ a, SReachable a ∧ a.stream.creating = none ∧
    a.stream.out.map (fun r => (r.watchId, r.created, r.canceled)) = [(-1, true, true)] ∧
    ∃ g, a.base.node.groupAt a.stream.index = some g ∧ ∃ x ∈ g.watchers, x.initialized = false ∧
      x.events.map (·.kv.modRev) = [107] := by
  obtain ⟨w, n, st, h, hP⟩ := (SScenario.mk
      { setup := [ (.start, oks 6), (.txn true (createTxn Demo.ka [1] 0), oks 1), (.txn true (deleteTxn Demo.ka 3), oks 1) ]
          ++ ((List.range 102).map fun i => (.txn true (createTxn [0x30, UInt8.ofNat i] [0] 0), oks 1))
        start := 4
        acts := [.pollStart, .pollExec .ok, .pollDone, .calls [(.doCompact fun _ => some true, oks 20)]] }
      [.create [0x2f] [0x30] 3, .node (.exec 0 .ok), .node (.done 0), .created,
        .calls [(.txn true (createTxn Demo.ka [1] 0), oks 1)],
        .node .pollStart, .node (.pollExec .ok), .node .pollDone]).check
    (fun _ n st => decide (st.creating = none) &&
      decide (st.out.map (fun r => (r.watchId, r.created, r.canceled)) = [(-1, true, true)]) &&
      match n.groups[st.index]? with
      | none => false
      | some g => g.watchers.any fun x => !x.initialized && decide (x.events.map (·.kv.modRev) = [107])) (by decide +kernel)
  simp only [Bool.and_eq_true, decide_eq_true_eq] at hP
  obtain ⟨⟨h1, h2⟩, hP⟩ := hP
  split at hP
  · cases hP
  · rename_i g hg
    simp only [List.any_eq_true, Bool.and_eq_true, decide_eq_true_eq, Bool.not_eq_true'] at hP
    obtain ⟨x, hx, h3, h4⟩ := hP
    exact ⟨_, h, h1, h2, g, hg, x, hx, h3, h4⟩

end Verif
