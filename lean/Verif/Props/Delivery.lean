import Verif.Props.Streams
import Verif.Lemmas.Live
/-!
# Every due event is eventually delivered (C85)

Infinite executions of a node with a client's watch stream. Fairness is stated about the states of the execution
only: polls keep completing, the update goroutine of the stream keeps receiving, and what it has received it
eventually sends.
-/

namespace Verif

/-- An infinite execution from a reachable state. -/
structure Execution (σ : Nat → SSys) : Prop where
  start : SReachable (σ 0)
  step : ∀ n, SStep (σ n) (σ (n + 1))

/-- Nobody stalls for ever: the poller completes a poll again and again, the update goroutine that holds an update
eventually has sent it, and an idle one with updates in its channel eventually takes one. -/
structure Fair (σ : Nat → SSys) : Prop where
  polls : ∀ n, ∃ m, n ≤ m ∧ PollCompletes (σ m).base (σ (m + 1)).base
  sends : ∀ n u, (σ n).stream.sending = some u → ∃ m, n ≤ m ∧ (σ m).stream.sending = none
  takes : ∀ n g, (σ n).base.node.groupAt (σ n).stream.index = some g → g.queue ≠ [] →
    (σ n).stream.sending = none → ∃ m, n ≤ m ∧ (σ m).stream.sending ≠ none

/-- The watch `id` is being served: its stream is known to the poller and has missed no update, and the watch is
registered. The node's poller has not been overtaken by compaction. -/
structure Served (a : SSys) (id : Int) : Prop where
  overtaken : a.base.node.overtaken = false
  group : ∃ g, a.base.node.groupAt a.stream.index = some g ∧ g.inMap = true ∧ g.dropped = false ∧
    ∃ x ∈ g.watchers, x.id = id

/-! ## Facts about one step -/

theorem Execution.reach {σ : Nat → SSys} (e : Execution σ) (n : Nat) : SReachable (σ n) := by
  induction n with
  | zero => exact e.start
  | succ n ih => exact ih.step (e.step n)

theorem Execution.steps {σ : Nat → SSys} (e : Execution σ) {n m : Nat} (h : n ≤ m) : SSteps (σ n) (σ m) := by
  induction m with
  | zero =>
    have : n = 0 := by omega
    subst this
    exact .refl _
  | succ m ih =>
    by_cases hn : n = m + 1
    · subst hn; exact .refl _
    · exact .tail (ih (by omega)) (e.step m)

theorem SStep.kinds {a b : SSys} (h : SReachable a) (st : SStep a b) : a.base = b.base ∨ NStep a.base b.base := by
  obtain ⟨hn, g, hg, hi⟩ := h.inv
  cases st with
  | env a b st hst quiet => exact .inr hst
  | recv s n st pre post g₁ u q c hidx hq free =>
    exact .inr (.group s n _ pre post g₁ _ c (.recv _ _ u q hq))
  | store => exact .inl rfl
  | sendUpdates => exact .inl rfl
  | create s n st pre post g₁ g' key rangeEnd start c hidx idle seq hgw =>
    have hg₁ := groupAt_mid c hidx
    rw [hg₁] at hg
    cases hg
    have hfresh : st.next ∉ g.used := by
      intro hm
      rcases hi.used _ hm with h1 | h1
      · simp only at h1; omega
      · rw [seq.1] at h1; cases h1
    refine .inr (.group s n _ pre post g g' c ?_)
    rw [hgw]
    exact .watch _ _ _ _ _ _ idle hfresh (watchRangeEnd_ne key rangeEnd)
  | created => exact .inl rfl
  | unwatch s n st pre post g₁ id c hidx seq =>
    have hg₁ := groupAt_mid c hidx
    rw [hg₁] at hg
    cases hg
    exact .inr (.group s n _ pre post g _ c (.unwatch _ _ id (hi.idle seq.1)))
  | closed => exact .inl rfl
  | tick => exact .inl rfl
  | requestProgress => exact .inl rfl

/-- The node of a stream's execution. -/
theorem Execution.node {σ : Nat → SSys} (e : Execution σ) : NRun fun n => (σ n).base :=
  ⟨e.start.inv.1, fun n => (e.step n).kinds (e.reach n)⟩

theorem Execution.ext {σ : Nat → SSys} (e : Execution σ) {n m : Nat} (h : n ≤ m) :
    Ext (σ n).base.sys.world (σ m).base.sys.world := e.node.ext h

theorem Execution.poll_mono {σ : Nat → SSys} (e : Execution σ) {n m : Nat} (h : n ≤ m) :
    (σ n).base.node.pollRevision ≤ (σ m).base.node.pollRevision := e.node.poll_mono h

/-! ## The stream hands over what is in its channel -/

/-- The updates received by a stream and those in its channel, and how they evolve in one step. -/
theorem SStep.channel {a b : SSys} (h : SReachable a) (st : SStep a b) {g : Group}
    (hg : a.base.node.groupAt a.stream.index = some g) :
    ∃ g', b.base.node.groupAt b.stream.index = some g' ∧ b.stream.index = a.stream.index ∧
      (∃ t, g'.received ++ g'.queue = g.received ++ g.queue ++ t) ∧
      g.received.length ≤ g'.received.length ∧
      (a.stream.sending = none → b.stream.sending ≠ none → g.received.length < g'.received.length) := by
  have inv := h.inv.1.ninv
  have move : ∀ {w w' : World} {g' : Group}, GroupMove w w' g g' →
      ∃ t, g'.received ++ g'.queue = g.received ++ g.queue ++ t := by
    intro w w' g' m
    cases m with
    | same => exact ⟨[], by simp⟩
    | publish rev es hin hcur =>
      obtain ⟨e1, e2 | e2⟩ := publishOrDrop_sent g rev es
      · exact ⟨[], by rw [e1, e2]; simp⟩
      · exact ⟨[groupUpdate g.watchers rev es], by rw [e1, e2]; simp⟩
    | step hs => exact ⟨[], by rw [hs.sent_eq]; simp⟩
  cases st with
  | env a b st hst quiet =>
    obtain ⟨g', hg', hr, _⟩ := quiet g hg
    obtain ⟨g'', hg'', m⟩ := NStep.move inv hst hg
    rw [hg'] at hg''
    cases hg''
    exact ⟨g', hg', rfl, move m, by rw [hr]; exact Nat.le_refl _, fun h1 h2 => absurd h1 h2⟩
  | recv s n st pre post g₁ u q c hidx hq free =>
    have hg₁ := groupAt_mid c hidx
    rw [hg₁] at hg
    cases hg
    exact ⟨{ g with queue := q, received := g.received ++ [u] }, groupAt_mid rfl hidx, rfl,
      ⟨[], by simp [hq]⟩, by simp, fun _ _ => by simp⟩
  | store a st u hs =>
    exact ⟨g, hg, rfl, ⟨[], by simp⟩, Nat.le_refl _, fun h1 h2 => absurd (hs.symm.trans h1) (by nofun)⟩
  | sendUpdates a st u hs hrev unlocked =>
    exact ⟨g, hg, rfl, ⟨[], by simp⟩, Nat.le_refl _, fun _ h2 => absurd rfl h2⟩
  | create s n st pre post g₁ g' key rangeEnd start c hidx idle seq hgw =>
    have hg₁ := groupAt_mid c hidx
    rw [hg₁] at hg
    cases hg
    have e : g'.received = g.received ∧ g'.queue = g.queue := by
      rw [hgw]; unfold Group.watch; simp only; split <;> exact ⟨rfl, rfl⟩
    exact ⟨g', groupAt_mid rfl hidx, rfl, ⟨[], by simp [e]⟩, by rw [e.1]; exact Nat.le_refl _,
      fun h1 h2 => absurd h1 h2⟩
  | created a st g₁ id args ans hg₁ idle hc ha =>
    have e : (st.created id ans).index = st.index ∧ (st.created id ans).sending = st.sending := by
      cases ans <;> exact ⟨rfl, rfl⟩
    refine ⟨g, by rw [e.1]; exact hg, e.1, ⟨[], by simp⟩, Nat.le_refl _, fun h1 h2 => ?_⟩
    rw [e.2] at h2
    exact absurd h1 h2
  | unwatch s n st pre post g₁ id c hidx seq =>
    have hg₁ := groupAt_mid c hidx
    rw [hg₁] at hg
    cases hg
    exact ⟨{ g with watchers := removeWatcher g.watchers id }, groupAt_mid rfl hidx, rfl, ⟨[], by simp⟩,
      Nat.le_refl _, fun h1 h2 => absurd h1 h2⟩
  | closed => exact ⟨g, hg, rfl, ⟨[], by simp⟩, Nat.le_refl _, fun h1 h2 => absurd h1 h2⟩
  | tick => exact ⟨g, hg, rfl, ⟨[], by simp⟩, Nat.le_refl _, fun h1 h2 => absurd h1 h2⟩
  | requestProgress => exact ⟨g, hg, rfl, ⟨[], by simp⟩, Nat.le_refl _, fun h1 h2 => absurd h1 h2⟩

/-- The stream's group in a state of an execution. -/
theorem Execution.group {σ : Nat → SSys} (e : Execution σ) (n : Nat) :
    ∃ g, (σ n).base.node.groupAt (σ n).stream.index = some g ∧ SInv g (σ n).stream := (e.reach n).inv.2

theorem Execution.channel {σ : Nat → SSys} (e : Execution σ) {n m : Nat} (h : n ≤ m) {g g' : Group}
    (hg : (σ n).base.node.groupAt (σ n).stream.index = some g)
    (hg' : (σ m).base.node.groupAt (σ m).stream.index = some g') :
    (∃ t, g'.received ++ g'.queue = g.received ++ g.queue ++ t) ∧ g.received.length ≤ g'.received.length ∧
    ((σ n).stream.sending = none → (σ m).stream.sending ≠ none → g.received.length < g'.received.length) := by
  induction m generalizing g' with
  | zero =>
    have : n = 0 := by omega
    subst this
    rw [hg] at hg'
    cases hg'
    exact ⟨⟨[], by simp⟩, Nat.le_refl _, fun h1 h2 => absurd h1 h2⟩
  | succ m ih =>
    by_cases hn : n = m + 1
    · subst hn
      rw [hg] at hg'
      cases hg'
      exact ⟨⟨[], by simp⟩, Nat.le_refl _, fun h1 h2 => absurd h1 h2⟩
    · obtain ⟨g₁, hg₁, _⟩ := e.group m
      obtain ⟨⟨t, ht⟩, hl, hs⟩ := ih (by omega) hg₁
      obtain ⟨g₂, hg₂, _, ⟨t', ht'⟩, hl', hs'⟩ := (e.step m).channel (e.reach m) hg₁
      rw [hg'] at hg₂
      cases hg₂
      refine ⟨⟨t ++ t', by rw [ht', ht]; simp⟩, by omega, fun h1 h2 => ?_⟩
      by_cases hm : (σ m).stream.sending = none
      · have := hs' hm h2; omega
      · have := hs h1 hm; omega

/-- Under fairness everything that is in the channel is received. -/
theorem Fair.receives {σ : Nat → SSys} (e : Execution σ) (f : Fair σ) (k : Nat) :
    ∀ {n : Nat} {g : Group}, (σ n).base.node.groupAt (σ n).stream.index = some g → ∀ K,
    K ≤ (g.received ++ g.queue).length → K ≤ g.received.length + k →
    ∃ m g', n ≤ m ∧ (σ m).base.node.groupAt (σ m).stream.index = some g' ∧ K ≤ g'.received.length := by
  induction k with
  | zero => intro n g hg K _ h; exact ⟨n, g, Nat.le_refl _, hg, by simpa using h⟩
  | succ k ih =>
    intro n g hg K hK h
    by_cases hdone : K ≤ g.received.length
    · exact ⟨n, g, Nat.le_refl _, hg, hdone⟩
    -- first an idle moment
    obtain ⟨m₁, h₁, hs₁⟩ : ∃ m, n ≤ m ∧ (σ m).stream.sending = none := by
      cases hs : (σ n).stream.sending with
      | none => exact ⟨n, Nat.le_refl _, hs⟩
      | some u => exact f.sends n u hs
    obtain ⟨g₁, hg₁, _⟩ := e.group m₁
    obtain ⟨⟨t, ht⟩, hl, _⟩ := e.channel h₁ hg hg₁
    have hlen := congrArg List.length ht
    simp only [List.length_append] at hlen hK
    have cont : ∀ {m : Nat} {g' : Group}, n ≤ m → (σ m).base.node.groupAt (σ m).stream.index = some g' →
        g.received.length < g'.received.length →
        ∃ m g', n ≤ m ∧ (σ m).base.node.groupAt (σ m).stream.index = some g' ∧ K ≤ g'.received.length := by
      intro m g' hm hg' hlt
      obtain ⟨⟨t, ht⟩, _, _⟩ := e.channel hm hg hg'
      have hlen := congrArg List.length ht
      simp only [List.length_append] at hlen
      obtain ⟨m', g'', hm', hg'', hfin⟩ := ih hg' K (by simp only [List.length_append]; omega) (by omega)
      exact ⟨m', g'', by omega, hg'', hfin⟩
    by_cases hgrown : g.received.length < g₁.received.length
    · exact cont h₁ hg₁ hgrown
    have hq : g₁.queue ≠ [] := by
      intro e
      rw [e] at hlen
      simp only [List.length_nil] at hlen
      omega
    obtain ⟨m₂, h₂, hs₂⟩ := f.takes m₁ g₁ hg₁ hq hs₁
    obtain ⟨g₂, hg₂, _⟩ := e.group m₂
    have := (e.channel h₂ hg₁ hg₂).2.2 hs₁ hs₂
    exact cont (by omega) hg₂ (by omega)

/-- Under fairness everything ever put into the channel for a watch reaches the client. -/
theorem Fair.sent_arrives {σ : Nat → SSys} (e : Execution σ) (f : Fair σ) {n : Nat} {g : Group}
    (hg : (σ n).base.node.groupAt (σ n).stream.index = some g) {id : Int} {ev : Event}
    (hev : ev ∈ sentTo (g.received ++ g.queue) id) : ∃ m, n ≤ m ∧ ev ∈ eventsFor (σ m).stream.out id := by
  obtain ⟨m₁, g₁, h₁, hg₁, hl₁⟩ := f.receives e (g.received ++ g.queue).length hg _ (Nat.le_refl _) (by omega)
  obtain ⟨m₂, h₂, hs₂⟩ : ∃ m, m₁ ≤ m ∧ (σ m).stream.sending = none := by
    cases hs : (σ m₁).stream.sending with
    | none => exact ⟨m₁, Nat.le_refl _, hs⟩
    | some u => exact f.sends m₁ u hs
  obtain ⟨g₂, hg₂, hi₂⟩ := e.group m₂
  obtain ⟨⟨t, ht⟩, _, _⟩ := e.channel (show n ≤ m₂ by omega) hg hg₂
  have hl₂ := (e.channel h₂ hg₁ hg₂).2.1
  refine ⟨m₂, by omega, ?_⟩
  have hsent := hi₂.sent id
  rw [hs₂] at hsent
  simp only [Option.toList_none] at hsent
  have hnil : sentTo [] id = [] := rfl
  rw [hnil, List.append_nil] at hsent
  rw [← hsent]
  -- the received updates start with all those sent at `n`
  have hpre : ∃ t', g₂.received = g.received ++ g.queue ++ t' := by
    have h1 : g₂.received = (g₂.received ++ g₂.queue).take g₂.received.length := by simp
    rw [ht] at h1
    have hle : (g.received ++ g.queue).length ≤ g₂.received.length := by omega
    rw [List.take_append, List.take_of_length_le hle] at h1
    exact ⟨_, h1⟩
  obtain ⟨t', ht'⟩ := hpre
  rw [ht', sentTo_append]
  exact List.mem_append.2 (Or.inl hev)

/-! ## A watch keeps its parameters -/

theorem SStep.keeps {a b : SSys} (h : SReachable a) (st : SStep a b) {g g' : Group}
    (hg : a.base.node.groupAt a.stream.index = some g) (hg' : b.base.node.groupAt b.stream.index = some g')
    {x x' : Watcher} (hx : x ∈ g.watchers) (hi : x.initialized = true) (hx' : x' ∈ g'.watchers)
    (hid : x'.id = x.id) :
    x'.lo = x.lo ∧ x'.hi = x.hi ∧ x'.start = x.start ∧ x'.base = x.base ∧ x'.lossy = x.lossy ∧
      x'.initialized = true := by
  have inv := h.inv.1.ninv
  have gi := inv.groups g (List.mem_of_getElem? hg)
  rw [← (st.base h).2] at hg'
  rcases st.kinds h with e | hst
  · rw [← e, hg] at hg'
    cases hg'
    exact GroupMove.keeps (w' := a.base.sys.world) gi .same hx hi hx' hid
  · obtain ⟨g₁, hg₁, m⟩ := hst.move inv hg
    rw [hg'] at hg₁
    cases hg₁
    exact m.keeps gi hx hi hx' hid

theorem Execution.keeps {σ : Nat → SSys} (e : Execution σ) {n m : Nat} (hnm : n ≤ m) {id : Int}
    (hs : ∀ k, n ≤ k → Served (σ k) id) {g g' : Group} {x x' : Watcher}
    (hg : (σ n).base.node.groupAt (σ n).stream.index = some g) (hx : x ∈ g.watchers) (hid : x.id = id)
    (hi : x.initialized = true)
    (hg' : (σ m).base.node.groupAt (σ m).stream.index = some g') (hx' : x' ∈ g'.watchers) (hid' : x'.id = id) :
    x'.lo = x.lo ∧ x'.hi = x.hi ∧ x'.start = x.start ∧ x'.base = x.base ∧ x'.lossy = x.lossy ∧
      x'.initialized = true := by
  have gi := (e.reach n).inv.1.ninv.groups g (List.mem_of_getElem? hg)
  induction m generalizing g' x' with
  | zero =>
    have : n = 0 := by omega
    subst this
    rw [hg] at hg'
    cases hg'
    exact GroupMove.keeps (w' := (σ 0).base.sys.world) gi .same hx hi hx' (hid'.trans hid.symm)
  | succ m ih =>
    by_cases hn : n = m + 1
    · subst hn
      rw [hg] at hg'
      cases hg'
      exact GroupMove.keeps (w' := (σ (m + 1)).base.sys.world) gi .same hx hi hx' (hid'.trans hid.symm)
    · obtain ⟨_, g₁, hg₁, _, _, x₁, hx₁, hid₁⟩ := hs m (by omega)
      obtain ⟨a1, a2, a3, a4, a5, a6⟩ := ih (by omega) hg₁ hx₁ hid₁
      obtain ⟨b1, b2, b3, b4, b5, b6⟩ := (e.step m).keeps (e.reach m) hg₁ hg' hx₁ a6 hx' (hid'.trans hid₁.symm)
      exact ⟨b1.trans a1, b2.trans a2, b3.trans a3, b4.trans a4, b5.trans a5, b6⟩

/-! ## C85 -/

/-- In every fair execution: if a commit is due on an established watch (answered, its backlog complete) and the watch
goes on being served, then the client is eventually sent an event that describes the commit. -/
theorem C85_due_events_arrive {σ : Nat → SSys} (e : Execution σ) (f : Fair σ) {n : Nat} {g : Group} {x : Watcher}
    (hg : (σ n).base.node.groupAt (σ n).stream.index = some g) (hx : x ∈ g.watchers) (hi : x.initialized = true)
    (hl : x.lossy = false) (hs : ∀ m, n ≤ m → Served (σ m) x.id) {c : Commit}
    (hc : c ∈ (σ n).base.sys.world.hist) (hdue : x.due c) :
    ∃ m, n ≤ m ∧ ∃ ev ∈ eventsFor (σ m).stream.out x.id, Describes (σ m).base.sys.world.hist c ev := by
  obtain ⟨m₁, h₁, hp₁⟩ := e.node.catches_up f.polls hc
  obtain ⟨m₂, h₂, p₂⟩ := f.polls m₁
  obtain ⟨ho, g', hg', hin, hd, x', hx', hid'⟩ := hs (m₂ + 1) (by omega)
  obtain ⟨a1, a2, a3, a4, a5, a6⟩ := e.keeps (show n ≤ m₂ + 1 by omega) hs hg hx rfl hi hg' hx' hid'
  have hn := (e.reach (m₂ + 1)).inv.1
  have gi := hn.ninv.groups g' (List.mem_of_getElem? hg')
  -- nothing is pending after the publish
  have hev : x'.events = [] := by
    obtain ⟨s, nd, rows, _, _, hb⟩ := p₂.publish (e.node.step m₂)
    have hm : g' ∈ (σ (m₂ + 1)).base.node.groups := List.mem_of_getElem? hg'
    rw [hb] at hm
    exact C28_publish_flushes (n := nd) (rows := (rows, none)) hm hin hx' a6
  obtain ⟨rest, r1, r2, r3⟩ := (gi.ok x' hx').full ho (a5.trans hl) (Or.inl hd)
  have := r3 hd
  subst this
  rw [hev, List.append_nil] at r1 r2
  have hdue' : x'.due c := by
    unfold Watcher.due at hdue ⊢
    rw [a1, a2, a3, a4]
    exact hdue
  have hcur : c.rev ≤ g'.currentRevision := by
    rw [gi.curMap hin]
    have := e.poll_mono (show m₁ ≤ m₂ + 1 by omega)
    omega
  have hc₂ := (e.ext (show n ≤ m₂ + 1 by omega)).mem hc
  obtain ⟨ev, hev₁, hrev⟩ := r2 c hc₂ hdue'.1 (hdue'.from a6) hcur
  obtain ⟨c', hc', hdes⟩ := (r1.mem ev hev₁).2.2.2
  have wf := hn.ninv.sys.inv.wf
  have : c' = c := Wf_rev_inj wf hc' hc₂ (by rw [← hdes.1, hrev])
  subst this
  obtain ⟨m₃, h₃, hout⟩ := f.sent_arrives e hg' hev₁
  rw [hid'] at hout
  exact ⟨m₃, by omega, ev, hout, hdes.ext (e.ext h₃) hc₂ wf⟩

/-! ## Fair executions exist -/

/-- A quiet moment of a stream that is being served. -/
structure Ready (ids : List Int) (a : SSys) : Prop where
  reach : SReachable a
  poll : a.base.node.poll = .idle
  sending : a.stream.sending = none
  creating : a.stream.creating = none
  overtaken : a.base.node.overtaken = false
  ahead : a.base.sys.world.db.compactRev ≤ a.base.node.pollRevision
  group : ∃ g, a.base.node.groupAt a.stream.index = some g ∧ g.inMap = true ∧ g.dropped = false ∧ g.queue = [] ∧
    g.watchers.map (·.id) = ids

/-- One round: poll, publish, receive, send. -/
structure Round (ids : List Int) (a : SSys) (t : Nat → SSys) : Prop where
  start : t 0 = a
  step : ∀ r, r < 6 → SStep (t r) (t (r + 1))
  poll : PollCompletes (t 2).base (t 3).base
  taken : (t 4).stream.sending ≠ none
  ready : Ready ids (t 6)
  served : ∀ r, r < 6 → ∀ id ∈ ids, Served (t r) id
  out : ∀ id, eventsFor (t 6).stream.out id ≠ eventsFor a.stream.out id → id ∈ ids

theorem Ready.round {ids : List Int} {a : SSys} (h : Ready ids a) : ∃ t, Round ids a t := by
  obtain ⟨⟨s, n⟩, st⟩ := a
  obtain ⟨hr, hp, hsnd, hcr, ho, hah, g, hg, hin, hd, hq, hids⟩ := h
  simp only at hp hsnd hcr ho hah hg
  have inv := hr.inv.1.ninv
  have i := inv.sys.inv
  have gi := inv.groups g (List.mem_of_getElem? hg)
  have hclosed : g.closed = 0 := by rw [gi.life.closed, if_pos hin]
  obtain ⟨k, hk, hok, _⟩ := after_unfold n.pollRevision pollBatchSize
  -- the states of the node
  let rows := afterSQL s.world.db n.pollRevision pollBatchSize
  let es := scanAll scanEvent (rows, none)
  let n₁ : Node := { n with poll := .querying (Driver.after n.pollRevision pollBatchSize) }
  let n₂ : Node := { n with poll := .querying (.ret (.ok (rows, none))) }
  let n₃ : Node := { n.publishEvents es with poll := .idle }
  let rev := nextPollRevision n.pollRevision es
  let u := groupUpdate g.watchers rev es
  let g₃ : Group := { g with currentRevision := rev, watchers := g.watchers.map fun (w : Watcher) => (w.update es).1,
                             queue := [u] }
  let g₄ : Group := { g₃ with queue := [], received := g.received ++ [u] }
  have hlt : st.index < n.groups.length := (List.getElem?_eq_some_iff.1 hg).1
  have hg₃ : n₃.groupAt st.index = some g₃ := by
    have e : g.publishOrDrop rev es = g₃ := by
      unfold Group.publishOrDrop Group.publish
      simp only [hclosed, hq, List.length_nil, show ¬ (0 : Nat) > 0 by omega, show 0 < updateCapacity by decide,
        if_true, if_false, List.nil_append]
      change ({ g with currentRevision := rev, watchers := _, queue := [u], closed := 0 } : Group) = g₃
      rw [← hclosed]
    change (n.groups.map _)[st.index]? = _
    rw [List.getElem?_map, show n.groups[st.index]? = some g from hg]
    simp only [Option.map_some, hin, if_true]
    exact congrArg some e
  obtain ⟨hsplit, hlen⟩ := split_at_index hg₃
  generalize n₃.groups.take st.index = pre at hsplit hlen
  generalize n₃.groups.drop (st.index + 1) = post at hsplit
  let n₄ : Node := { n₃ with groups := pre ++ g₄ :: post }
  let st₄ : Stream := { st with sending := some u }
  let st₅ : Stream := { st with revision := u.revision, sending := some u }
  have hg₄ : n₄.groupAt st.index = some g₄ := groupAt_mid rfl hlen
  have hids₃ : g₃.watchers.map (·.id) = ids := by
    change (g.watchers.map fun (w : Watcher) => (w.update es).1).map (·.id) = ids
    rw [List.map_map, ← hids]
    refine List.map_congr_left fun x _ => ?_
    exact Watcher.update_id x es
  have wx : ∀ {ws : List Watcher}, ws.map (·.id) = ids → ∀ id ∈ ids, ∃ x ∈ ws, x.id = id := by
    intro ws e id hm
    rw [← e] at hm
    obtain ⟨x, hx, he⟩ := List.mem_map.1 hm
    exact ⟨x, hx, he⟩
  -- the steps
  have s0 : SStep ⟨⟨s, n⟩, st⟩ ⟨⟨s, n₁⟩, st⟩ :=
    .env _ _ _ (.pollStart s n hp) (fun g hg => ⟨g, hg, rfl, rfl⟩)
  have s1 : SStep ⟨⟨s, n₁⟩, st⟩ ⟨⟨s, n₂⟩, st⟩ := by
    have h2 := NStep.pollExec s n₁ id k .ok (by change PollState.querying _ = _; rw [hk])
    have hs : ({ s with world := s.world.exec id .ok } : Sys) = s := by rw [i.exec_id]
    rw [hs, hok] at h2
    have hov : (n₁.overtaken || decide (n₁.pollRevision < s.world.db.compactRev)) = n.overtaken := by
      change (n.overtaken || decide (n.pollRevision < s.world.db.compactRev)) = n.overtaken
      rw [decide_eq_false (by omega), Bool.or_false]
    rw [hov] at h2
    exact .env _ _ _ h2 (fun g hg => ⟨g, hg, rfl, rfl⟩)
  have s2 : SStep ⟨⟨s, n₂⟩, st⟩ ⟨⟨s, n₃⟩, st⟩ := by
    refine .env _ _ _ (.pollPublish s n₂ (rows, none) rfl) (fun g' hg' => ?_)
    have : g' = g := by
      change n.groupAt st.index = some g' at hg'
      rw [hg] at hg'
      exact (Option.some.inj hg').symm
    subst this
    exact ⟨g₃, hg₃, rfl, rfl⟩
  have s3 : SStep ⟨⟨s, n₃⟩, st⟩ ⟨⟨s, n₄⟩, st₄⟩ := .recv s n₃ st pre post g₃ u [] hsplit hlen rfl hsnd
  have s4 : SStep ⟨⟨s, n₄⟩, st₄⟩ ⟨⟨s, n₄⟩, st₅⟩ := .store _ st₄ u rfl
  have s5 : SStep ⟨⟨s, n₄⟩, st₅⟩ ⟨⟨s, n₄⟩, st₅.sendUpdates u⟩ := .sendUpdates _ _ _ rfl rfl hcr
  have hrev := (i.poll_events n.pollRevision pollBatchSize none).1
  refine ⟨fun r => match r with
    | 0 => ⟨⟨s, n⟩, st⟩ | 1 => ⟨⟨s, n₁⟩, st⟩ | 2 => ⟨⟨s, n₂⟩, st⟩ | 3 => ⟨⟨s, n₃⟩, st⟩ | 4 => ⟨⟨s, n₄⟩, st₄⟩
    | 5 => ⟨⟨s, n₄⟩, st₅⟩
    | _ => ⟨⟨s, n₄⟩, st₅.sendUpdates u⟩, rfl, ?_, ⟨rows, rfl, rfl⟩, nofun, ?_, ?_, ?_⟩
  · intro r hr
    match r, hr with
    | 0, _ => exact s0
    | 1, _ => exact s1
    | 2, _ => exact s2
    | 3, _ => exact s3
    | 4, _ => exact s4
    | 5, _ => exact s5
  · refine ⟨(((((hr.step s0).step s1).step s2).step s3).step s4).step s5, rfl, rfl, hcr, ho, ?_, g₄, hg₄, hin, hd, rfl, hids₃⟩
    change s.world.db.compactRev ≤ nextPollRevision _ _
    exact Int.le_trans hah hrev
  · intro r hr id hm
    match r, hr with
    | 0, _ => exact ⟨ho, g, hg, hin, hd, wx hids id hm⟩
    | 1, _ => exact ⟨ho, g, hg, hin, hd, wx hids id hm⟩
    | 2, _ => exact ⟨ho, g, hg, hin, hd, wx hids id hm⟩
    | 3, _ => exact ⟨ho, g₃, hg₃, hin, hd, wx hids₃ id hm⟩
    | 4, _ => exact ⟨ho, g₄, hg₄, hin, hd, wx hids₃ id hm⟩
    | 5, _ => exact ⟨ho, g₄, hg₄, hin, hd, wx hids₃ id hm⟩
  · intro id hne
    apply Classical.byContradiction
    intro hm
    apply hne
    change eventsFor (st.out ++ _) id = eventsFor st.out id
    rw [eventsFor_append, eventsFor_updates]
    have : sentTo [u] id = [] := sentTo_update_not (by
      intro x hx he
      exact hm (by rw [← hids, ← he]; exact List.mem_map_of_mem hx)) rev es
    rw [this, List.append_nil]

/-- From every quiet moment there is a fair infinite execution that goes on serving the registered watches: the
hypotheses of `C85_due_events_arrive` can be met from there. -/
theorem C85_fair_executions_exist {ids : List Int} {a : SSys} (h : Ready ids a) :
    ∃ σ, σ 0 = a ∧ Execution σ ∧ Fair σ ∧ ∀ n, ∀ id ∈ ids, Served (σ n) id := by
  let S := { a : SSys // Ready ids a }
  let F : S → Nat → SSys := fun x => Classical.choose x.2.round
  have hF : ∀ x : S, Round ids x.1 (F x) := fun x => Classical.choose_spec x.2.round
  let it : Nat → S := fun k => k.rec ⟨a, h⟩ fun _ x => ⟨F x 6, (hF x).ready⟩
  have hit : ∀ k, (it (k + 1)).1 = F (it k) 6 := fun k => rfl
  let σ : Nat → SSys := fun n => F (it (n / 6)) (n % 6)
  have hσ : ∀ k r, r < 6 → σ (6 * k + r) = F (it k) r := by
    intro k r hr
    change F (it ((6 * k + r) / 6)) ((6 * k + r) % 6) = _
    rw [show (6 * k + r) / 6 = k by omega, show (6 * k + r) % 6 = r by omega]
  have hσ6 : ∀ k, σ (6 * k + 6) = F (it k) 6 := by
    intro k
    have := hσ (k + 1) 0 (by omega)
    rw [show 6 * (k + 1) + 0 = 6 * k + 6 by omega] at this
    rw [this, (hF (it (k + 1))).start, hit]
  have hnext : ∀ k r, r < 6 → σ (6 * k + r + 1) = F (it k) (r + 1) := by
    intro k r hr
    by_cases h4 : r = 5
    · subst h4; exact hσ6 k
    · exact hσ k (r + 1) (by omega)
  refine ⟨σ, ?_, ⟨?_, ?_⟩, ⟨?_, ?_, ?_⟩, ?_⟩
  · have := hσ 0 0 (by omega)
    rw [show 6 * 0 + 0 = 0 by rfl] at this
    rw [this, (hF (it 0)).start]
    rfl
  · have := hσ 0 0 (by omega)
    rw [show 6 * 0 + 0 = 0 by rfl] at this
    rw [this, (hF (it 0)).start]
    exact h.reach
  · intro n
    have e : n = 6 * (n / 6) + n % 6 := by omega
    have hr : n % 6 < 6 := by omega
    rw [e, hnext _ _ hr, hσ _ _ hr]
    exact (hF _).step _ hr
  · intro n
    refine ⟨6 * n + 2, by omega, ?_⟩
    rw [hnext n 2 (by omega), hσ n 2 (by omega)]
    exact (hF _).poll
  · intro n u _
    refine ⟨6 * n + 0, by omega, ?_⟩
    rw [hσ n 0 (by omega), (hF _).start]
    exact (it n).2.sending
  · intro n g _ _ _
    refine ⟨6 * n + 4, by omega, ?_⟩
    rw [hσ n 4 (by omega)]
    exact (hF _).taken
  · intro n id hm
    have e : n = 6 * (n / 6) + n % 6 := by omega
    have hr : n % 6 < 6 := by omega
    rw [e, hσ _ _ hr]
    exact (hF _).served _ hr id hm

/-- A concrete case: a stream with a watch of `/` registered at revision 7; `/b` is deleted at revision 8 and not yet
polled. The event is due, the state is a quiet one, so there are fair executions from it, and in all of those that go
on serving the watch the event arrives. -/
theorem C85_concrete : ∃ (a : SSys) (g : Group) (x : Watcher) (c : Commit), Ready [1] a ∧
    a.base.node.groupAt a.stream.index = some g ∧ x ∈ g.watchers ∧ x.id = 1 ∧ x.initialized = true ∧
    x.lossy = false ∧ c ∈ a.base.sys.world.hist ∧ c.rev = 8 ∧ c.write = none ∧ x.due c ∧
    eventsFor a.stream.out 1 = [] ∧
    ∃ σ, σ 0 = a ∧ Execution σ ∧ Fair σ ∧
      ∃ m, ∃ ev ∈ eventsFor (σ m).stream.out 1, Describes (σ m).base.sys.world.hist c ev := by
  obtain ⟨w, n, st, h, hP⟩ := (SScenario.mk streamDemo.node
      [.create [0x2f] [0x30] 0, .created, .calls [(.txn true (deleteTxn Demo.kb 4), oks 1)]]).check
    (fun w n st => (match n.poll with | .idle => true | _ => false) && decide (st.sending = none) &&
      decide (st.creating = none) && !n.overtaken && decide (w.db.compactRev ≤ n.pollRevision) &&
      decide (eventsFor st.out 1 = []) &&
      match n.groups[st.index]?, w.hist.getLast? with
      | some g, some c => g.inMap && !g.dropped && decide (g.queue = []) && decide (g.watchers.map (·.id) = [1]) &&
          (g.watchers.all fun x => x.initialized && !x.lossy && inRange x.lo x.hi c.key && decide (x.start = 0) &&
            decide (x.base < c.rev)) && decide (c.rev = 8) && decide (c.write = none)
      | _, _ => false) (by decide +kernel)
  simp only [Bool.and_eq_true, decide_eq_true_eq, Bool.not_eq_true'] at hP
  obtain ⟨⟨⟨⟨⟨⟨p1, p2⟩, p3⟩, p4⟩, p5⟩, p6⟩, hP⟩ := hP
  split at hP
  · rename_i g c hg hc
    simp only [Bool.and_eq_true, decide_eq_true_eq, Bool.not_eq_true', List.all_eq_true] at hP
    obtain ⟨⟨⟨⟨⟨⟨q1, q2⟩, q3⟩, q4⟩, q5⟩, q6⟩, q7⟩ := hP
    have hidle : n.poll = .idle := by
      revert p1
      cases n.poll with
      | idle => intro _; rfl
      | querying p => intro h; cases h
      | dead => intro h; cases h
    have hready : Ready [1] ⟨⟨⟨w, []⟩, n⟩, st⟩ := ⟨h, hidle, p2, p3, p4, p5, g, hg, q1, q2, q3, q4⟩
    obtain ⟨x, hx, hid⟩ : ∃ x ∈ g.watchers, x.id = 1 := by
      have : (1 : Int) ∈ g.watchers.map (·.id) := by rw [q4]; simp
      obtain ⟨x, hx, e⟩ := List.mem_map.1 this
      exact ⟨x, hx, e⟩
    obtain ⟨⟨⟨⟨x1, x2⟩, x3⟩, x4⟩, x5⟩ := q5 x hx
    have hcm : c ∈ w.hist := List.mem_of_getLast? hc
    have hdue : x.due c := ⟨x3, fun hp => by omega, fun _ => x5⟩
    refine ⟨_, g, x, c, hready, hg, hx, hid, x1, x2, hcm, q6, q7, hdue, p6, ?_⟩
    obtain ⟨σ, hσ, he, hf, hs⟩ := C85_fair_executions_exist hready
    refine ⟨σ, hσ, he, hf, ?_⟩
    obtain ⟨m, _, hm⟩ := C85_due_events_arrive (n := 0) (g := g) (x := x) (c := c) he hf (by rw [hσ]; exact hg) hx x1 x2
      (fun m _ => by rw [hid]; exact hs m 1 (by simp)) (by rw [hσ]; exact hcm) hdue
    rw [hid] at hm
    exact ⟨m, hm⟩
  · cases hP

end Verif
