import Verif.Lemmas.GoWatchExec
import Verif.Lemmas.WatchAnswered
import Verif.Props.Polling
/-!
# C104 What the text of `watcher.go` does, run by any number of goroutines

`WReachable N s`: the goroutines, running the text of `watcher.go` (`Verif.Model.GoText`), can get from a node that has just started to `s`.
`s.thr` are the goroutines: the poller, calls of `WatcherGroup`, `Watch` and `Unwatch`, and the functions that run when a context ends. `s.mem` is
their memory; `(s.mem.grp i).received` is what the client of group `i` has received from its channel, `.queue` what lies in the channel. All of
these are values of Go.
-/

namespace Verif.Go

open Verif.GoText

variable {N : Nat} {s : WSys}

/-! ### Specification -/

/-- The updates in a value that was sent on a channel. -/
def updatesIn : V → List V
  | .imm (.struct _ [_, (_, .list us)]) => us
  | _ => []

/-- The revision in it. -/
def revisionIn : V → Option Int
  | .imm (.struct _ [(_, .int r), _]) => some r
  | _ => none

/-- The events of an update, if it is for watch `id`. -/
def eventsFor (id : Int) : V → List V
  | .struct _ [(_, .int j), (_, .list es)] => if j = id then es else []
  | _ => []

/-- The events for watch `id` in what was sent on a channel. -/
def sentOn (id : Int) (vs : List V) : List V := vs.flatMap fun v => (updatesIn v).flatMap (eventsFor id)

/-- Everything for watch `id` of group `i`: what was sent, and what waits in its watcher `w` for the next publish. -/
def WSys.eventsOf (s : WSys) (i : Nat) (id : Int) (w : Nat) : List V :=
  sentOn id ((s.mem.grp i).received ++ (s.mem.grp i).queue) ++ (s.mem.wat w).events

/-! ### Proofs -/

theorem perm_short {α : Type} {l m : List α} (h : l.Perm m) (hl : m.length ≤ 1) : l = m := by
  match m, hl with
  | [], _ => exact h.eq_nil
  | [a], _ => exact List.perm_singleton.1 h

theorem flatMap_filter {α β : Type} (f : α → List β) (q : α → Bool) (hq : ∀ a, q a = false → f a = []) (l : List α) : (l.filter q).flatMap f = l.flatMap f := by
  induction l with
  | nil => rfl
  | cons a l ih =>
    rw [List.filter_cons]
    by_cases h : q a = true
    · rw [if_pos h, List.flatMap_cons, List.flatMap_cons, ih]
    · rw [if_neg h, List.flatMap_cons, ih, hq a (by simpa using h), List.nil_append]

theorem filter_id_short {β : Type} (id : Int) {l : List (Int × β)} (h : (l.map (·.1)).Nodup) : (l.filter fun x => decide (x.1 = id)).length ≤ 1 := by
  induction l with
  | nil => exact Nat.zero_le _
  | cons a l ih =>
    rw [List.map_cons, List.nodup_cons] at h
    rw [List.filter_cons]
    split
    · rename_i ha
      have e : l.filter (fun x => decide (x.1 = id)) = [] := by
        rw [List.filter_eq_nil_iff]
        intro x hx hxid
        refine h.1 (List.mem_map.2 ⟨x, hx, ?_⟩)
        rw [of_decide_eq_true hxid, of_decide_eq_true ha]
      rw [e]
      exact Nat.le_refl _
    · exact ih h.2

/-- The watch an update is for. -/
def updFor (id : Int) : V → Bool
  | .struct _ [(_, .int j), (_, .list _)] => decide (j = id)
  | _ => false

theorem updFor_false {id : Int} {v : V} (h : updFor id v = false) : eventsFor id v = [] := by
  unfold eventsFor
  split
  · rw [if_neg]
    exact of_decide_eq_false h
  · rfl

theorem UpdRel.events {v : V} {u : GroupUpdate} (h : UpdRel v u) (id : Int) :
    (updatesIn v).flatMap (eventsFor id) = ((u.updates.filter fun x => decide (x.1 = id)).flatMap (·.2)).map encEvent := by
  obtain ⟨us, hp, rfl, hn⟩ := h
  show us.flatMap (eventsFor id) = _
  rw [← flatMap_filter (eventsFor id) (updFor id) (fun _ => updFor_false)]
  have e : (u.updates.map encWatcherUpdate).filter (updFor id) = (u.updates.filter fun x => decide (x.1 = id)).map encWatcherUpdate := by
    rw [List.filter_map]
    rfl
  have hp' := hp.filter (updFor id)
  rw [e] at hp'
  rw [perm_short hp' (by rw [List.length_map]; exact filter_id_short id hn), List.map_flatMap, List.flatMap_map]
  have hall : ∀ x ∈ u.updates.filter (fun x => decide (x.1 = id)), x.1 = id := fun x hx => of_decide_eq_true (List.mem_filter.1 hx).2
  generalize u.updates.filter (fun x => decide (x.1 = id)) = l at hall
  induction l with
  | nil => rfl
  | cons a l ih =>
    rw [List.flatMap_cons, List.flatMap_cons, ih fun x hx => hall x (List.mem_cons_of_mem _ hx)]
    congr 1
    exact if_pos (hall a List.mem_cons_self)

theorem Each.sent {vs : List V} {us : List GroupUpdate} (h : Each UpdRel vs us) (id : Int) : sentOn id vs = (sentTo us id).map encEvent := by
  induction h with
  | nil => rfl
  | @cons a b as bs h _ ih =>
    show (updatesIn a).flatMap (eventsFor id) ++ sentOn id as = _
    rw [h.events, ih, ← List.map_append]
    rfl

/-- The arguments of every call of `Watch` are recorded. -/
def Recorded (s : WSys) : Prop := ∀ t i id lo hi start c x, s.thr t = some ⟨.watch i id lo hi start c, x⟩ → (id, start, lo, hi) ∈ s.used i

theorem Recorded.thread {s s' : WSys} (h : Recorded s) {t : Nat} {r : WRole} {x x' : Tw} (ht : s.thr t = some ⟨r, x⟩)
    (e1 : s'.thr = fun u => if u = t then some ⟨r, x'⟩ else s.thr u) (e2 : s'.used = s.used) : Recorded s' := by
  intro u i id lo hi start c y hu
  rw [e1] at hu
  rw [e2]
  dsimp only at hu
  by_cases e : u = t
  · rw [if_pos e] at hu
    cases hu
    exact h t i id lo hi start c x ht
  · rw [if_neg e] at hu
    exact h u i id lo hi start c y hu

theorem note_used (s : WSys) (r : WRole) (out : Outcome) : (s.note r out).used = s.used ∧ (s.note r out).thr = s.thr := by
  unfold WSys.note
  split <;> exact ⟨rfl, rfl⟩

theorem WReachable.recorded (h : WReachable N s) : Recorded s := by
  induction h with
  | start o _ _ =>
    intro t i id lo hi start c x ht
    unfold WSys.init at ht
    dsimp only at ht
    by_cases e : t = 0
    · rw [if_pos e] at ht; cases ht
    · rw [if_neg e] at ht; cases ht
  | step hr st ih =>
    have spawned : ∀ (a b : WSys) (r : WRole) (x : Tw), Recorded a → b.thr = (fun u => if u = a.nt then some ⟨r, x⟩ else a.thr u) →
        (∀ i, ∀ p ∈ a.used i, p ∈ b.used i) → (∀ i id lo hi start c, r = .watch i id lo hi start c → (id, start, lo, hi) ∈ b.used i) → Recorded b := by
      intro a b r x ha e1 e2 e3 u i id lo hi start c y hu
      rw [e1] at hu
      dsimp only at hu
      by_cases e : u = a.nt
      · rw [if_pos e] at hu
        cases hu
        exact e3 i id lo hi start c rfl
      · rw [if_neg e] at hu
        exact e2 i _ (ha u i id lo hi start c y hu)
    cases st with
    | env => exact ih
    | lockS o t r k ht free => exact ih.thread ht rfl rfl
    | lockW o t r g k ht => exact ih.thread ht rfl rfl
    | checkExec t r eff k ok er out ht => exact ih.thread ht rfl rfl
    | checkOk o t r a b ok er ht => exact ih.thread ht rfl rfl
    | checkErr o t r e ok er ht => exact ih.thread ht rfl rfl
    | rowsExec t r eff k ok er out ht =>
      rename_i a
      obtain ⟨h1, h2⟩ := note_used a r out
      refine ih.thread (x' := .rows (k out a.sys.world.db) ok er) ht ?_ h1
      unfold WSys.exec
      dsimp only
      rw [h2]
    | rowsOk o t r rs b ok er ht => exact ih.thread ht rfl rfl
    | rowsErr o t r e ok er ht => exact ih.thread ht rfl rfl
    | pollDone o t r a b c ht => exact ih.thread ht rfl rfl
    | pollNotified o t r a b c n ht => exact ih.thread ht rfl rfl
    | pollTick o t r a b c ht => exact ih.thread ht rfl rfl
    | recv => exact ih
    | cancel o a ha hs => exact spawned _ _ _ _ ih rfl (fun _ _ h => h) nofun
    | openCall o => exact spawned _ _ _ _ ih rfl (fun _ _ h => h) nofun
    | watchCall o g id lo hi start hg idle fresh ne =>
      refine spawned _ _ _ _ ih rfl ?_ ?_
      · intro i p hp
        show p ∈ if i = g then _ else _
        split
        · exact List.mem_append_left _ hp
        · exact hp
      · intro i id' lo' hi' start' c e
        cases e
        show _ ∈ if g = g then _ else _
        rw [if_pos rfl]
        exact List.mem_append_right _ (List.mem_singleton.2 rfl)
    | unwatchCall o g id hg idle => exact spawned _ _ _ _ ih rfl (fun _ _ h => h) nofun

theorem nodup_fst {α β : Type} {l : List (α × β)} (h : (l.map (·.1)).Nodup) {a : α} {b b' : β} (h1 : (a, b) ∈ l) (h2 : (a, b') ∈ l) : b = b' := by
  induction l with
  | nil => cases h1
  | cons x l ih =>
    rw [List.map_cons, List.nodup_cons] at h
    rcases List.mem_cons.1 h1 with e1 | h1 <;> rcases List.mem_cons.1 h2 with e2 | h2
    · rw [← e1] at e2; exact (Prod.mk.inj e2).2.symm
    · exact absurd (List.mem_map.2 ⟨_, h2, by rw [← e1]⟩) h.1
    · exact absurd (List.mem_map.2 ⟨_, h1, by rw [← e2]⟩) h.1
    · exact ih h.2 h1 h2

/-- The watcher of the model. -/
theorem GRel.watcher {i : Nat} {g : Group} (h : GRel i s g) {id : Int} {w : Nat} (hw : (id, w) ∈ (s.mem.grp i).watchers) :
    ∃ x ∈ g.watchers, x.id = id ∧ x.lo = (s.mem.wat w).lo ∧ x.hi = (s.mem.wat w).hi ∧ x.initialized = (s.mem.wat w).initialized ∧
      (s.mem.wat w).events = x.events.map encEvent ∧ x.lossy = s.lossy i id ∧ (id, x.start, x.lo, x.hi) ∈ s.used i := by
  have hm : s.mem.view (id, w) ∈ g.watchers.map Watcher.view := by
    rw [← h.views]
    exact List.mem_map_of_mem hw
  obtain ⟨x, hx, e⟩ := List.mem_map.1 hm
  obtain ⟨m1, m2⟩ := h.marks x hx
  unfold WatchMem.view Watcher.view at e
  simp only [Prod.mk.injEq] at e
  obtain ⟨e1, e2, e3, e4, e5⟩ := e
  refine ⟨x, hx, e1, e2, e3, e4, e5.symm, ?_, ?_⟩
  · rw [← e1]; exact m1
  · rw [← e1]; exact m2

theorem GRel.events {i : Nat} {g : Group} (h : GRel i s g) {w : Nat} {x : Watcher} (he : (s.mem.wat w).events = x.events.map encEvent) :
    s.eventsOf i x.id w = (g.delivered x).map encEvent := by
  unfold WSys.eventsOf Group.delivered
  rw [(h.received.append h.queue).sent, he, List.map_append]

/-- The watch of a call of `Watch` that is registered, in the model. -/
theorem WReachable.watch (h : WReachable N s) {t i w : Nat} {id start c : Int} {lo hi : List UInt8} {x : Tw} (ht : s.thr t = some ⟨.watch i id lo hi start c, x⟩)
    (hw : (id, w) ∈ (s.mem.grp i).watchers) :
    ∃ n g y, NReachable n ∧ n.sys = s.sys ∧ n.node.overtaken = s.overtaken ∧ WRel i s n ∧ n.node.groups = [g] ∧ GRel i s g ∧ y ∈ g.watchers ∧ y.id = id ∧ y.lo = lo ∧ y.hi = hi ∧
      y.start = start ∧ y.lossy = s.lossy i id ∧ s.eventsOf i id w = (g.delivered y).map encEvent ∧ (x = .ret [.nil] → y.initialized = true) := by
  have hS := h.sim
  obtain ⟨hi', _⟩ := hS.inv.call t _ x i ht rfl
  obtain ⟨n, hn⟩ := hS.rel i
  obtain ⟨g, hg, hR⟩ := hn.grel hi'
  obtain ⟨y, hy, y1, y2, y3, y4, y5, y6, y7⟩ := hR.watcher hw
  have hu := h.recorded t i id lo hi start c x ht
  have e := nodup_fst hR.once y7 hu
  simp only [Prod.mk.injEq] at e
  obtain ⟨e1, e2, e3⟩ := e
  refine ⟨n, g, y, hn.reach, hn.sys, hn.over, hn, hg, hR, hy, y1, e2, e3, e1, y6, by rw [← y1]; exact hR.events y5, ?_⟩
  rintro rfl
  obtain ⟨a, ans, ha, h1, h2, _, h4⟩ := hR.answers t id lo hi start c [.nil] ht
  have hok : ans = .ok := by
    generalize ev : [GV.nil] = vs at h4
    cases h4 with
    | ok => rfl
    | compacted => cases ev
    | error e => cases ev
  exact (hn.reach.ansInv g (by rw [hg]; exact List.mem_singleton.2 rfl)).init _ ha hok y hy (y1.trans h1.symm)

/-- A call `Watch(id, lo, hi, start)` on group `i` has returned nil and the watch has not been removed. Then what was sent on the channel for
`id`, and what waits for the next publish, are the Go values of a list of events that, from the start revision on, has exactly one event for
every commit on the range from the start revision to the revision the group has reached, in order, each describing its commit; and while the
group is served that revision is the node's poll revision, unless a publish is under way. Provided that: no update was dropped (the stream keeps
up), no poll query ran after compaction had passed the poll revision, and the initial query of the watch ran before compaction had reached the
start revision and its cursor did not break. -/
theorem C104_exactly_once (h : WReachable N s) {t i w : Nat} {id start c : Int} {lo hi : List UInt8}
    (ht : s.thr t = some ⟨.watch i id lo hi start c, .ret [.nil]⟩) (hw : (id, w) ∈ (s.mem.grp i).watchers) (hp : start > 0)
    (hd : (s.mem.grp i).dropped = false) (ho : s.overtaken = false) (hl : s.lossy i id = false) :
    ∃ es : List Event, s.eventsOf i id w = es.map encEvent ∧
      EventsOf s.sys.world.hist (s.sys.world.hist.stretch (inRange lo hi) (start - 1) (s.mem.grp i).cur) (fromRev start es) ∧
      (i ∈ s.mem.map → s.mem.owner = none → (s.mem.grp i).cur = s.mem.pollRev) := by
  obtain ⟨n, g, y, hr, hs, hov, hn, hg, hR, hy, e1, e2, e3, e4, e5, e6, e7⟩ := h.watch ht hw
  have hgm : g ∈ n.node.groups := by rw [hg]; exact List.mem_singleton.2 rfl
  obtain ⟨h1, h2⟩ := C28_exactly_once hr hgm hy (e7 rfl) (by rw [e4]; exact hp) (by rw [← hR.dropped]; exact hd) (by rw [hov]; exact ho) (by rw [e5]; exact hl)
  refine ⟨g.delivered y, e6, ?_, ?_⟩
  · rw [hs, e2, e3, e4, ← hR.cur] at h1
    exact h1
  · intro hm hfree
    rw [hR.cur, h2 (hR.inMap.2 hm)]
    obtain ⟨x, hx⟩ := h.sim.inv.first
    cases hn.poll x hx with
    | out _ rev => exact rev
    | ret _ rev => exact rev
    | sel _ _ rev _ => exact rev
    | qry _ _ _ _ rev _ _ => exact rev
    | lock _ _ _ _ rev _ => exact rev
    | pend _ _ _ _ _ held _ _ _ _ _ => rw [held] at hfree; cases hfree
    | past _ _ _ _ _ _ _ _ _ rev _ => exact rev

/-- Whatever happens: the events for a registered watch are in strictly increasing revision order, hence none comes twice, they are on its range,
and each describes a commit. -/
theorem C104_ordered (h : WReachable N s) {t i w : Nat} {id start c : Int} {lo hi : List UInt8} {x : Tw}
    (ht : s.thr t = some ⟨.watch i id lo hi start c, x⟩) (hw : (id, w) ∈ (s.mem.grp i).watchers) :
    ∃ es : List Event, s.eventsOf i id w = es.map encEvent ∧ es.Pairwise (fun a b => a.kv.modRev < b.kv.modRev) ∧
      ∀ e ∈ es, inRange lo hi e.kv.key = true ∧ ∃ c ∈ s.sys.world.hist, Describes s.sys.world.hist c e := by
  obtain ⟨n, g, y, hr, hs, _, _, hg, hR, hy, e1, e2, e3, e4, e5, e6, e7⟩ := h.watch ht hw
  have hgm : g ∈ n.node.groups := by rw [hg]; exact List.mem_singleton.2 rfl
  obtain ⟨h1, h2⟩ := C28_ordered hr hgm hy
  rw [hs, e2, e3] at h2
  exact ⟨g.delivered y, e6, h1, h2⟩

/-- When the channel of a slow stream was full and its group was dropped for that (its `AfterFunc` was stopped), what was sent before is an
initial part of what should have been sent: no gap is followed by later events. -/
theorem C104_slow_stream_no_gap (h : WReachable N s) {t i w a : Nat} {id start c : Int} {lo hi : List UInt8}
    (ht : s.thr t = some ⟨.watch i id lo hi start c, .ret [.nil]⟩) (hw : (id, w) ∈ (s.mem.grp i).watchers) (hp : start > 0)
    (ha : (s.mem.grp i).stop = some a) (hst : s.mem.aft a = .stopped) (ho : s.overtaken = false) (hl : s.lossy i id = false) :
    ∃ es rest : List Event, sentOn id ((s.mem.grp i).received ++ (s.mem.grp i).queue) = es.map encEvent ∧
      EventsOf s.sys.world.hist (s.sys.world.hist.stretch (inRange lo hi) (start - 1) (s.mem.grp i).cur) (fromRev start es ++ rest) := by
  obtain ⟨n, g, y, hr, hs, hov, hn, hg, hR, hy, e1, e2, e3, e4, e5, e6, e7⟩ := h.watch ht hw
  have hgm : g ∈ n.node.groups := by rw [hg]; exact List.mem_singleton.2 rfl
  have haf : g.after = .stopped := by
    have := hR.aft a ha
    rw [hst] at this
    generalize g.after = z at this
    cases this
    rfl
  obtain ⟨rest, h1⟩ := C28_slow_stream_no_gap hr hgm hy (e7 rfl) (by rw [e4]; exact hp) haf (by rw [hov]; exact ho) (by rw [e5]; exact hl)
  refine ⟨sentTo (g.received ++ g.queue) id, rest, (hR.received.append hR.queue).sent id, ?_⟩
  rw [hs, e1, e2, e3, e4, ← hR.cur] at h1
  exact h1

/-- A `Watch` whose start revision lies below the compact revision when it is called is not accepted; and the compacted error is returned only
when the start revision lies below the compact revision it names, which had been reached. -/
theorem C104_compacted (h : WReachable N s) {t i : Nat} {id start c : Int} {lo hi : List UInt8} {vs : List V}
    (ht : s.thr t = some ⟨.watch i id lo hi start c, .ret vs⟩) (hp : start > 0) :
    (start < c → vs ≠ [.nil]) ∧
    ∀ cr cur, vs = [compactedV cr cur] → start < cr ∧ cr ≤ s.sys.world.db.compactRev ∧ cur ≤ s.sys.world.hist.top := by
  have hS := h.sim
  obtain ⟨hi', _⟩ := hS.inv.call t _ _ i ht rfl
  obtain ⟨n, hn⟩ := hS.rel i
  obtain ⟨g, hg, hR⟩ := hn.grel hi'
  obtain ⟨a, ans, ha, h1, h2, h3, h4⟩ := hR.answers t id lo hi start c vs ht
  obtain ⟨k1, k2⟩ := C30_compacted_is_refused hn.reach (g := g) (by rw [hg]; exact List.mem_singleton.2 rfl) ha (by rw [h2]; exact hp)
  rw [hn.sys, h2] at k2
  rw [h2] at k1
  refine ⟨?_, ?_⟩
  · rintro hlt rfl
    refine k1 (by omega) ?_
    generalize ev : [GV.nil] = vs at h4
    cases h4 with
    | ok => rfl
    | compacted => cases ev
    | error e => cases ev
  · rintro cr cur rfl
    refine k2 cr cur ?_
    generalize ev : [compactedV cr cur] = vs at h4
    cases h4 with
    | ok => cases ev
    | compacted c' r' => cases ev; rfl
    | error e => cases ev

/-- The channel of a group has been closed at most once, and exactly if the group is not served any more; nothing was sent on it after it was
closed and it was not closed a second time (`panicked`); it never holds more than its capacity; and the channel of a group that missed an update
is closed, or a goroutine started by the end of the group's context is about to close it. -/
theorem C104_channel (h : WReachable N s) {i : Nat} (hi : i < s.mem.ng) :
    (s.mem.grp i).closed ≤ 1 ∧ ((s.mem.grp i).closed = 1 ↔ i ∉ s.mem.map) ∧ (s.mem.grp i).panicked = false ∧ (s.mem.grp i).queue.length ≤ 100 ∧
    ((s.mem.grp i).dropped = true → (s.mem.grp i).closed = 1 ∨
      ∃ a t k, (s.mem.grp i).stop = some a ∧ s.mem.aft a = .running t ∧ s.thr t = some ⟨.cancel a, .lockS k⟩) := by
  have hS := h.sim
  obtain ⟨n, hn⟩ := hS.rel i
  obtain ⟨g, hg, hR⟩ := hn.grel hi
  obtain ⟨h1, h2, h3, h4, h5⟩ := C34_closed_once hn.reach (g := g) (by rw [hg]; exact List.mem_singleton.2 rfl)
  rw [hR.closed, hR.panicked, hR.queue.length, hR.dropped]
  refine ⟨h1, ?_, h3, h4, ?_⟩
  · rw [h2, ← hR.inMap]
    cases g.inMap <;> simp
  · intro hd
    rcases h5 hd with h5 | h5
    · exact .inl h5
    · right
      obtain ⟨a, _, ha, _⟩ := hS.inv.mem.stop i hi
      have ha' := hR.aft a ha
      rw [h5] at ha'
      generalize he : s.mem.aft a = x at ha'
      cases ha' with
      | running t ht => exact ⟨a, t, _, ha, he, ht⟩

/-- No goroutine ever gets stuck: it has returned, or it waits for a mutex, the database or the poller's `select`; none touches a field that a
mutex guards without holding that mutex, unlocks a mutex it does not hold, or returns or waits for the database with a mutex. (`out`: the poller
has made as many rounds as are followed.) -/
theorem C104_never_stuck (h : WReachable N s) {t : Nat} {r : WRole} {x : Tw} (ht : s.thr t = some ⟨r, x⟩) : x ≠ .stuck := by
  rintro rfl
  have hS := h.sim
  generalize e : Tw.stuck = x at ht
  cases hS.who ht with
  | ret r vs => cases e
  | poll x h0 hp =>
    obtain ⟨n, _, hp⟩ := hp 0
    cases hp <;> exact nomatch e
  | opn x hx =>
    subst hx
    exact nomatch e
  | cancel => exact nomatch e
  | client i r x hi hr hc =>
    obtain ⟨n, g, _, _, _, hat⟩ := hS.at hc ht
    cases hat <;> exact nomatch e

/-- Only the poller keeps the mutex of the backend while it waits, and only for the mutex of a group, which nobody keeps: so it can always go on,
and nobody waits for the mutex of the backend for ever. -/
theorem C104_no_deadlock (h : WReachable N s) {t : Nat} (ho : s.mem.owner = some t) :
    t = 0 ∧ ∃ g k, s.thr 0 = some ⟨.poll, .lockW g k⟩ ∧ ∀ o, WStep N s (s.resume o 0 .poll (some g) s.mem k) := by
  have hS := h.sim
  have h0 : t = 0 := by
    rcases hS.owner with e | e
    · rw [e] at ho; cases ho
    · rw [e] at ho; cases ho; rfl
  subst h0
  refine ⟨rfl, ?_⟩
  obtain ⟨x, hx⟩ := hS.inv.first
  obtain ⟨n, hn⟩ := hS.rel 0
  have go : ∀ g k, s.thr 0 = some ⟨.poll, .lockW g k⟩ → ∃ g k, s.thr 0 = some ⟨.poll, .lockW g k⟩ ∧ ∀ o, WStep N s (s.resume o 0 .poll (some g) s.mem k) :=
    fun g k hk => ⟨g, k, hk, fun o => .lockW s o 0 .poll g k hk⟩
  cases hn.poll x hx with
  | out free => rw [free] at ho; cases ho
  | ret free => rw [free] at ho; cases ho
  | sel _ free => rw [free] at ho; cases ho
  | qry _ _ _ free => rw [free] at ho; cases ho
  | lock _ _ _ free => rw [free] at ho; cases ho
  | pend j b rows g rest => exact go g _ hx
  | past j b es g rest => exact go g _ hx

/-! ### An execution -/

/-- The poller polls. Client 0 opens a stream and watches the keys from `/` to `0` from revision 5; client 1 opens a stream, and tries to watch with the
id 7 from revision 3, which has not been compacted; its context ends. A delete is committed, and the poller publishes to the first stream. -/
def exampleWatch : List WAct :=
  [.tick, .exec 0 .ok, .done 0, .lock 0, .openCall, .lock 1, .watch 0 1 [0x2f] [0x30] 5, .lock 2, .exec 2 .ok, .openCall, .lock 3, .done 2, .exec 2 .ok, .done 2,
   .watch 1 7 [0x2f] [0x30] 3, .lock 4, .lock 2, .cancel 1, .calls [(.txn true (deleteTxn Demo.kb 4), oks 1)], .notified 8, .exec 0 .ok, .lock 5, .done 0, .lock 0, .exec 4 .ok, .lock 0,
   .done 4, .recv 0]

/-- What can be seen of it. -/
def WSys.seen (s : WSys) : Option WThread × List (Int × Nat) × (Bool × Bool × Bool) × List V × List Nat × (Nat × Option Int) × Option (List V) :=
  (s.thr 2, (s.mem.grp 0).watchers, ((s.mem.grp 0).dropped, s.overtaken, s.lossy 0 1), sentOn 1 (s.mem.grp 0).received, s.mem.map,
    ((s.mem.grp 1).closed, (s.mem.grp 0).received.head?.bind revisionIn), s.returned 5)

/-- The update of `/a`, the creation and the deletion of `/c`, and the deletion of `/b`. -/
def exampleEvents : List Event :=
  [⟨false, ⟨[47, 97], [3], 0, 3, 5⟩, some ⟨[47, 97], [1], 0, 3, 3⟩⟩, ⟨false, ⟨[47, 99], [4], 0, 6, 6⟩, none⟩,
   ⟨true, ⟨[47, 99], [], 0, 6, 7⟩, some ⟨[47, 99], [4], 0, 6, 6⟩⟩, ⟨true, ⟨[47, 98], [], 30, 4, 8⟩, some ⟨[47, 98], [2], 30, 4, 4⟩⟩]

theorem example_seen_watch : (wrun 20 Demo.setup 4 exampleWatch).map WSys.seen = some (some ⟨.watch 0 1 [0x2f] [0x30] 5 0, .ret [.nil]⟩, [(1, 0)], (false, false, false),
    exampleEvents.map encEvent, [0], (1, some 8), some []) := by
  kernel_rfl

/-- The hypotheses of `C104_exactly_once` are met by an execution of two streams: the client of the first has received exactly the four events from
revision 5 on, the second stream was closed when its context ended. -/
theorem C104_example : ∃ s, WReachable 20 s ∧ s.thr 2 = some ⟨.watch 0 1 [0x2f] [0x30] 5 0, .ret [.nil]⟩ ∧ (1, 0) ∈ (s.mem.grp 0).watchers ∧
    (s.mem.grp 0).dropped = false ∧ s.overtaken = false ∧ s.lossy 0 1 = false ∧ sentOn 1 (s.mem.grp 0).received = exampleEvents.map encEvent ∧
    s.mem.map = [0] ∧ (s.mem.grp 1).closed = 1 := by
  have h := example_seen_watch
  cases hs : wrun 20 Demo.setup 4 exampleWatch with
  | none => rw [hs] at h; cases h
  | some s =>
    rw [hs] at h
    simp only [Option.map_some, Option.some.injEq, WSys.seen, Prod.mk.injEq] at h
    obtain ⟨h1, h2, ⟨h3, h4, h5⟩, h6, h7, ⟨h8, _⟩, _⟩ := h
    exact ⟨s, wrun_reach (by decide +kernel) hs, h1, by rw [h2]; exact List.mem_singleton.2 rfl, h3, h4, h5, h6, h7, h8⟩

end Verif.Go
