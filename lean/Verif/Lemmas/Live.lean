import Verif.Props.Polling
/-!
# Infinite executions of a node

A run of a node is an infinite sequence of states, each of which is the one before or one step later. Nothing can
keep a poller that goes on completing polls from passing a commit.
-/

namespace Verif

/-- An infinite run of a node (with stuttering). -/
structure NRun (ν : Nat → NSys) : Prop where
  start : NReachable (ν 0)
  step : ∀ n, ν n = ν (n + 1) ∨ NStep (ν n) (ν (n + 1))

/-- Between these two states of a node a poll whose query returned all its rows is published. -/
def PollCompletes (a b : NSys) : Prop :=
  ∃ rows, a.node.poll = .querying (.ret (.ok (rows, none))) ∧ b.node.poll = .idle

theorem NRun.reach {ν : Nat → NSys} (e : NRun ν) (n : Nat) : NReachable (ν n) := by
  induction n with
  | zero => exact e.start
  | succ n ih =>
    rcases e.step n with h | h
    · rw [← h]; exact ih
    · exact ih.step h

theorem NRun.steps {ν : Nat → NSys} (e : NRun ν) {n m : Nat} (h : n ≤ m) : NSteps (ν n) (ν m) := by
  induction m with
  | zero =>
    have : n = 0 := by omega
    subst this
    exact .refl _
  | succ m ih =>
    by_cases hn : n = m + 1
    · subst hn; exact .refl _
    · rcases e.step m with h | h
      · rw [← h]; exact ih (by omega)
      · exact .tail (ih (by omega)) h

/-- Induction along a run: what one step preserves holds from some point on. -/
theorem NRun.always {ν : Nat → NSys} (e : NRun ν) {P : NSys → Prop}
    (hP : ∀ a b, NReachable a → NStep a b → P a → P b) {n m : Nat} (h : n ≤ m) (hn : P (ν n)) : P (ν m) := by
  induction m with
  | zero =>
    have : n = 0 := by omega
    subst this
    exact hn
  | succ m ih =>
    by_cases hnm : n = m + 1
    · subst hnm; exact hn
    · rcases e.step m with h' | h'
      · rw [← h']; exact ih (by omega)
      · exact hP _ _ (e.reach m) h' (ih (by omega))

theorem NRun.ext {ν : Nat → NSys} (e : NRun ν) {n m : Nat} (h : n ≤ m) : Ext (ν n).sys.world (ν m).sys.world :=
  e.always (P := fun s => Ext (ν n).sys.world s.sys.world)
    (fun _ _ hr st hx => hx.trans (hr.ninv.step st).2) h (Ext.refl (e.reach n).ninv.sys.inv)

theorem NRun.poll_mono {ν : Nat → NSys} (e : NRun ν) {n m : Nat} (h : n ≤ m) :
    (ν n).node.pollRevision ≤ (ν m).node.pollRevision :=
  e.always (P := fun s => (ν n).node.pollRevision ≤ s.node.pollRevision)
    (fun _ _ hr st hx => Int.le_trans hx (hr.ninv.poll_mono st)) h (Int.le_refl _)

/-! ## The poller catches up with a commit -/

/-- If a poll query is in progress, it has not been executed yet or was executed when `c` was committed. -/
def Sees (c : Commit) (s : NSys) : Prop :=
  match s.node.poll with
  | .querying p => QState (fun db => afterSQL db s.node.pollRevision pollBatchSize)
      (fun wq _ => c ∈ wq.hist) s.sys.world p
  | _ => True

theorem Sees.step {c : Commit} {a b : NSys} (i : NInv a) (hc : c ∈ a.sys.world.hist) (h : Sees c a)
    (st : NStep a b) : Sees c b := by
  have hx := (i.step st).2
  have hp := h
  unfold Sees at hp ⊢
  have frame : b.node.poll = a.node.poll → b.node.pollRevision = a.node.pollRevision →
      (match b.node.poll with
      | .querying p => QState (fun db => afterSQL db b.node.pollRevision pollBatchSize)
          (fun wq _ => c ∈ wq.hist) b.sys.world p
      | _ => True) := by
    intro e1 e2
    rw [e1, e2]
    split
    · rename_i p hq
      rw [hq] at hp
      exact QState.mono hp hx (fun _ _ _ h => h)
    · trivial
  cases st with
  | env => exact frame rfl rfl
  | pollStart s n hidle =>
    exact .loop _
  | pollExec s n eff k o hq =>
    simp only [hq] at hp
    obtain ⟨e, hQ⟩ := QState.exec (C' := fun wq _ => c ∈ wq.hist) i.sys.inv hp o (fun _ _ => hc)
    simp only [e]
    exact hQ
  | pollPublish => trivial
  | pollError s n e hq =>
    cases e with
    | db d => cases d <;> trivial
    | _ => trivial
  | openGroup => exact frame rfl rfl
  | group s n w' pre post g g' hcg hst => exact frame rfl rfl

theorem NRun.sees {ν : Nat → NSys} (e : NRun ν) {c : Commit} {n m : Nat} (h : n ≤ m)
    (hc : c ∈ (ν n).sys.world.hist) (hs : Sees c (ν n)) : Sees c (ν m) :=
  (e.always (P := fun s => Sees c s ∧ c ∈ s.sys.world.hist)
    (fun _ _ hr st hx => ⟨hx.1.step hr.ninv hx.2 st, (hr.ninv.step st).2.mem hx.2⟩) h ⟨hs, hc⟩).1

/-- A complete query on a world where `c` lies beyond the poll revision advances the poll revision. -/
theorem poll_advances {w : World} (i : Inv w) {c : Commit} (hc : c ∈ w.hist) {a : Int} (h0 : 0 ≤ a)
    (hlt : a < c.rev) :
    a < nextPollRevision a (scanAll scanEvent (afterSQL w.db a pollBatchSize, none)) := by
  have ht := le_top i.wf hc
  exact pollRound_progress (n := { Node.init a with pollRevision := a }) i h0 (by
    change a < w.hist.top
    omega)

theorem PollCompletes.publish {a b : NSys} (hk : a = b ∨ NStep a b) (hp : PollCompletes a b) :
    ∃ s n rows, a = ⟨s, n⟩ ∧ n.poll = .querying (.ret (.ok (rows, none))) ∧
      b = ⟨s, { n.publishEvents (scanAll scanEvent (rows, none)) with poll := .idle }⟩ := by
  obtain ⟨rows, h1, h2⟩ := hp
  rcases hk with e | hst
  · rw [← e, h1] at h2; cases h2
  · cases hst with
    | env => simp only at h1 h2; rw [h1] at h2; cases h2
    | pollStart s n hc => rw [hc] at h1; cases h1
    | pollExec s n eff k o hc => rw [hc] at h1; cases h1
    | pollPublish s n rows' hc =>
      have : rows' = (rows, none) := by
        rw [hc] at h1
        cases h1
        rfl
      subst this
      exact ⟨s, n, rows, rfl, hc, rfl⟩
    | pollError s n e hc => rw [hc] at h1; cases h1
    | openGroup => simp only at h1 h2; rw [h1] at h2; cases h2
    | group => simp only at h1 h2; rw [h1] at h2; cases h2

/-- Polls go on completing. -/
def PollsComplete (ν : Nat → NSys) : Prop := ∀ n, ∃ m, n ≤ m ∧ PollCompletes (ν m) (ν (m + 1))

theorem NRun.advances {ν : Nat → NSys} (e : NRun ν) (f : PollsComplete ν) {c : Commit} {n : Nat}
    (hc : c ∈ (ν n).sys.world.hist) (hlt : (ν n).node.pollRevision < c.rev) :
    ∃ m, n ≤ m ∧ (ν n).node.pollRevision < (ν m).node.pollRevision := by
  obtain ⟨m₁, h₁, p₁⟩ := f n
  have hc₁ : c ∈ (ν (m₁ + 1)).sys.world.hist := (e.ext (by omega)).mem hc
  have s₁ : Sees c (ν (m₁ + 1)) := by
    obtain ⟨_, _, hidle⟩ := p₁
    unfold Sees
    rw [hidle]
    trivial
  obtain ⟨m₂, h₂, p₂⟩ := f (m₁ + 1)
  have s₂ := e.sees h₂ hc₁ s₁
  have hmono := e.poll_mono (show n ≤ m₂ by omega)
  refine ⟨m₂ + 1, by omega, ?_⟩
  by_cases hlt₂ : (ν n).node.pollRevision < (ν m₂).node.pollRevision
  · have := e.poll_mono (show m₂ ≤ m₂ + 1 by omega)
    omega
  obtain ⟨s, nd, rows, ha, hq, hb⟩ := p₂.publish (e.step m₂)
  have hn := (e.reach m₂).ninv
  rw [ha] at s₂ hmono hlt₂ hn
  rw [hb]
  unfold Sees at s₂
  simp only [hq] at s₂
  generalize hpp : (Prog.ret (Except.ok (rows, none)) : Prog (Except ApiErr (List Row × Option Nat))) = p at s₂
  cases s₂ with
  | loop m => cases m <;> simp [queryLoop] at hpp
  | err e => cases hpp
  | got wq tr iq xq cq =>
    cases hpp
    have h0 : 0 ≤ nd.pollRevision := by
      have h1 := hn.start; have h2 := hn.nonneg; simp only at h1 h2; omega
    have := poll_advances iq cq h0 (by simp only at hmono hlt₂; omega)
    simp only at hmono
    change _ < nextPollRevision _ _
    omega

theorem NRun.catches_up_by {ν : Nat → NSys} (e : NRun ν) (f : PollsComplete ν) {c : Commit} (k : Nat) :
    ∀ {n : Nat}, c ∈ (ν n).sys.world.hist → c.rev ≤ (ν n).node.pollRevision + k →
    ∃ m, n ≤ m ∧ c.rev ≤ (ν m).node.pollRevision := by
  induction k with
  | zero => intro n _ h; exact ⟨n, Nat.le_refl _, by simpa using h⟩
  | succ k ih =>
    intro n hc h
    by_cases hlt : (ν n).node.pollRevision < c.rev
    · obtain ⟨m, hm, hadv⟩ := e.advances f hc hlt
      obtain ⟨m', hm', hd⟩ := ih (n := m) ((e.ext hm).mem hc) (by omega)
      exact ⟨m', by omega, hd⟩
    · exact ⟨n, Nat.le_refl _, by omega⟩

/-- If polls go on completing, the poll revision passes every commit. -/
theorem NRun.catches_up {ν : Nat → NSys} (e : NRun ν) (f : PollsComplete ν) {c : Commit} {n : Nat}
    (hc : c ∈ (ν n).sys.world.hist) : ∃ m, n ≤ m ∧ c.rev ≤ (ν m).node.pollRevision :=
  e.catches_up_by f (c.rev - (ν n).node.pollRevision).toNat hc (by omega)

/-! ## Channels -/

theorem GroupStep.received_mono {w w' : World} {g g' : Group} (h : GroupStep w g w' g') :
    g.received.length ≤ g'.received.length := by
  cases h with
  | recv u q c => simp
  | watch => unfold Group.watch; simp only; split <;> exact Nat.le_refl _
  | checked => unfold Group.checked; split
               · exact Nat.le_refl _
               · split <;> exact Nat.le_refl _
  | queried => unfold Group.queried; split <;> exact Nat.le_refl _
  | _ => exact Nat.le_refl _

/-- A group keeps its position; what was put into its channel stays there or has been received. -/
theorem NRun.channel {ν : Nat → NSys} (e : NRun ν) {n m : Nat} (h : n ≤ m) {i : Nat} {g g' : Group}
    (hg : (ν n).node.groupAt i = some g) (hg' : (ν m).node.groupAt i = some g') :
    (∃ t, g'.received ++ g'.queue = g.received ++ g.queue ++ t) ∧ g.received.length ≤ g'.received.length := by
  have key := e.always (P := fun s => ∃ g', s.node.groupAt i = some g' ∧
    (∃ t, g'.received ++ g'.queue = g.received ++ g.queue ++ t) ∧ g.received.length ≤ g'.received.length) ?_ h
    ⟨g, hg, ⟨[], by simp⟩, Nat.le_refl _⟩
  · obtain ⟨g₁, hg₁, hx⟩ := key
    rw [hg'] at hg₁
    cases hg₁
    exact hx
  · intro a b hr st ⟨g₁, hg₁, ⟨t, ht⟩, hl⟩
    obtain ⟨g₂, hg₂, mv⟩ := st.move hr.ninv hg₁
    refine ⟨g₂, hg₂, ?_⟩
    cases mv with
    | same => exact ⟨⟨t, ht⟩, hl⟩
    | publish rev es hin hcur =>
      obtain ⟨e1, e2 | e2⟩ := publishOrDrop_sent g₁ rev es
      · exact ⟨⟨t, by rw [e1, e2, ht]⟩, by rw [e1]; exact hl⟩
      · refine ⟨⟨t ++ [groupUpdate g₁.watchers rev es], ?_⟩, by rw [e1]; exact hl⟩
        rw [e1, e2, ← List.append_assoc, ht]
        simp
    | step hs =>
      refine ⟨⟨t, by rw [hs.sent_eq, ht]⟩, Nat.le_trans hl hs.received_mono⟩

/-- Once as many updates have been received as had been put into the channel at some moment, exactly those have been
received first. -/
theorem NRun.received {ν : Nat → NSys} (e : NRun ν) {n m : Nat} (h : n ≤ m) {i : Nat} {g g' : Group}
    (hg : (ν n).node.groupAt i = some g) (hg' : (ν m).node.groupAt i = some g')
    (hl : (g.received ++ g.queue).length ≤ g'.received.length) :
    ∃ t, g'.received = g.received ++ g.queue ++ t := by
  obtain ⟨⟨t, ht⟩, _⟩ := e.channel h hg hg'
  have h1 : g'.received = (g'.received ++ g'.queue).take g'.received.length := by simp
  rw [ht, List.take_append, List.take_of_length_le hl] at h1
  exact ⟨_, h1⟩

/-! ## A watch keeps its parameters -/

/-- An initialised watcher keeps its parameters as long as it is registered. -/
theorem GroupMove.keeps {ot : Bool} {pr : Int} {w w' : World} {g g' : Group} (gi : GroupInv ot pr w g)
    (m : GroupMove w w' g g') {x x' : Watcher} (hx : x ∈ g.watchers) (hi : x.initialized = true)
    (hx' : x' ∈ g'.watchers) (hid : x'.id = x.id) :
    x'.lo = x.lo ∧ x'.hi = x.hi ∧ x'.start = x.start ∧ x'.base = x.base ∧ x'.lossy = x.lossy ∧
      x'.initialized = true := by
  have uniq : ∀ y ∈ g.watchers, y.id = x.id → y = x := by
    intro y hy he
    have h1 := filter_unique gi.ids hx
    have h2 : y ∈ g.watchers.filter fun y => decide (y.id = x.id) := List.mem_filter.2 ⟨hy, by simpa using he⟩
    rw [h1] at h2
    simpa using h2
  have same : x' = x → x'.lo = x.lo ∧ x'.hi = x.hi ∧ x'.start = x.start ∧ x'.base = x.base ∧
      x'.lossy = x.lossy ∧ x'.initialized = true := by
    rintro rfl; exact ⟨rfl, rfl, rfl, rfl, rfl, hi⟩
  have upd : ∀ (a : WatchArgs) (f : Watcher → Watcher),
      (∃ y, Registered g a y) → x' ∈ updateWatcher g.watchers a.id f → (∀ y, (f y).id = y.id) → x' = x := by
    intro a f hreg hm hf
    obtain ⟨z, hz⟩ := hreg
    obtain ⟨y, hy, ⟨he, rfl⟩ | ⟨hne, rfl⟩⟩ := mem_updateWatcher hm
    · rw [hf] at hid
      have h1 := uniq y hy hid
      have h2 := uniq z hz.mem (by rw [hz.id, ← he, hid])
      have := hz.uninit
      rw [h2, hi] at this
      cases this
    · exact uniq _ hy hid
  have rem : ∀ i, x' ∈ removeWatcher g.watchers i → x' = x := fun i hm => uniq x' (removeWatcher_sub hm).1 hid
  cases m with
  | same => exact same (uniq x' hx' hid)
  | publish rev es hin hcur =>
    have hw : (g.publishOrDrop rev es).watchers = g.watchers.map fun (x : Watcher) => (x.update es).1 := by
      unfold Group.publishOrDrop Group.publish
      simp only
      by_cases h1 : g.closed > 0
      · simp [h1]
      · by_cases h2 : g.queue.length < updateCapacity
        · simp [h1, h2]
        · simp only [h1, h2, if_false]
          split <;> rfl
    rw [hw] at hx'
    obtain ⟨y, hy, rfl⟩ := List.mem_map.1 hx'
    rw [Watcher.update_id] at hid
    have := uniq y hy hid
    subst this
    obtain ⟨h1, h2, h3, h4, h5, h6⟩ := y.update_same es
    exact ⟨h1, h2, h3, h4, h5, h6.trans hi⟩
  | step hs =>
    have hcall := gi.call
    unfold CallOk at hcall
    apply same
    cases hs with
    | watch id lo hi' start idle fresh ne =>
      have hne : x'.id ≠ id := by
        rw [hid]; intro e
        exact fresh (e ▸ gi.used x hx)
      have hm : x' ∈ removeWatcher g.watchers id ++
          [({ id, lo, hi := hi', start, base := g.currentRevision, compactThen := w.db.compactRev } : WatchArgs).watcher] := by
        unfold Group.watch at hx'
        simp only at hx'
        split at hx' <;> exact hx'
      rcases List.mem_append.1 hm with h | h
      · exact rem _ h
      · simp only [List.mem_singleton] at h
        exact absurd (by rw [h]; rfl) hne
    | checkExec => exact uniq x' hx' hid
    | checked a r c =>
      refine uniq x' ?_ hid
      unfold Group.checked at hx'
      split at hx'
      · exact hx'
      · split at hx' <;> exact hx'
    | queryExec a eff k o c =>
      rw [c] at hcall
      obtain ⟨_, z, hz, _⟩ := hcall
      exact upd a (fun w_1 => { w_1 with lossy := w_1.lossy || decide (a.start ≤ w.db.compactRev) || o.isTrunc })
        ⟨z, hz⟩ hx' (fun _ => rfl)
    | queried a r c =>
      rw [c] at hcall
      obtain ⟨_, z, hz, _⟩ := hcall
      unfold Group.queried at hx'
      split at hx'
      · exact rem _ hx'
      · exact upd a _ ⟨z, hz⟩ hx' (fun _ => rfl)
    | unwatch id idle => exact rem _ hx'
    | recv => exact uniq x' hx' hid
    | cancel => exact uniq x' hx' hid
    | afterFunc => exact uniq x' hx' hid

end Verif
