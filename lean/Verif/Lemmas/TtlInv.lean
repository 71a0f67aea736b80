import Verif.Lemmas.StreamInv
import Verif.Lemmas.Stmts
import Verif.Model.Ttl
import Verif.Lemmas.NReach
/-!
# The invariant of the TTL loop
-/

namespace Verif

/-- A timer belongs to a commit with a lease, or to a delete. -/
def TimerOk (h : History) (t : Timer) : Prop :=
  t.lease ≠ 0 ∧ (∃ c ∈ h, c.rev = t.rev ∧ c.key = t.key ∧ (c.write = none ∨ ∃ v, c.write = some (v, t.lease))) ∧
  (t.delay = leaseDelay t.lease ∨ (t.lease > 0 ∧ ∃ j : Nat, j < 1000 ∧ t.delay = jitteredDelay t.lease j))

/-- Every live leased version up to `start` has a timer. -/
def Listed (h : History) (start : Int) (ts : List Timer) : Prop :=
  ∀ k kv, h.now k = some kv → kv.lease ≠ 0 → kv.modRev ≤ start →
    ∃ t ∈ ts, t.key = k ∧ t.rev = kv.modRev ∧ t.lease = kv.lease

/-- The group of the loop. -/
structure TtlGroup (start : Int) (ts : List Timer) (g : Group) : Prop where
  used : g.used = [1]
  range : ∀ x ∈ g.watchers, x.lo = ttlLo ∧ x.hi = ttlHi ∧ x.start = start
  has : g.sent 1 ≠ [] → ∃ x ∈ g.watchers, x.id = 1
  seen : ∀ e ∈ sentTo g.received 1, e.kv.lease > 0 →
    ∃ t ∈ ts, t.key = e.kv.key ∧ t.rev = e.kv.modRev ∧ t.lease = e.kv.lease

/-- What holds in each phase. -/
def PhaseOk (w : World) (n : Node) (t : TtlLoop) : Prop :=
  match t.phase with
  | .current p => AllStmts (fun e => e = id) p ∧ WP (fun r w' => ∀ s, r = .ok s → s ≤ w'.hist.top) p w
  | .list start p => QState (fun db => ttlSQL db start)
      (fun wq tr => start ≤ wq.hist.top ∧ (t.truncated = false → tr = none)) w p ∧ start ≤ w.hist.top
  | .group start => start ≤ w.hist.top ∧ (t.truncated = false → Listed w.hist start t.timers)
  | .watch start i => start ≤ w.hist.top ∧ (t.truncated = false → Listed w.hist start t.timers) ∧
      ∃ g, n.groupAt i = some g ∧ g.used = [] ∧ g.received = []
  | .serve start i => start ≤ w.hist.top ∧ (t.truncated = false → Listed w.hist start t.timers) ∧
      ∃ g, n.groupAt i = some g ∧ TtlGroup start t.timers g
  | .dead => True

/-- The invariant. -/
structure TInv (a : TSys) : Prop where
  base : NReachable a.base
  timers : ∀ t ∈ a.ttl.timers, TimerOk a.base.sys.world.hist t
  phase : PhaseOk a.base.sys.world a.base.node a.ttl

theorem TimerOk.ext {w w' : World} (hx : Ext w w') {t : Timer} (h : TimerOk w.hist t) : TimerOk w'.hist t := by
  obtain ⟨h1, ⟨c, hc, h2⟩, h3⟩ := h
  exact ⟨h1, ⟨c, hx.mem hc, h2⟩, h3⟩

/-- A version that is current later and not newer than the end of an earlier history was current then. -/
theorem Ext.now_back {w w' : World} (i : Inv w) (hx : Ext w w') {k : Bytes} {kv : KV} (h : w'.hist.now k = some kv)
    (hle : kv.modRev ≤ w.hist.top) : w.hist.now k = some kv := by
  rw [← at_ge_top hx.inv.wf (Int.le_refl _)] at h
  rw [← at_ge_top i.wf (Int.le_refl _)]
  obtain ⟨_, _, _, _, hl⟩ := at_some_inv hx.inv.wf h
  have htop := hx.top
  rw [← hx.at (Int.le_refl _) k, ← h]
  symm
  apply at_eq_of_no_between htop
  intro c hc hk hr
  have := hl c hc hk hr
  omega

theorem Listed.ext {w w' : World} (i : Inv w) (hx : Ext w w') {start : Int} (hs : start ≤ w.hist.top) {ts : List Timer}
    (h : Listed w.hist start ts) : Listed w'.hist start ts := by
  intro k kv hn hl hr
  exact h k kv (hx.now_back i hn (by omega)) hl hr

theorem Listed.mono {h : History} {start : Int} {ts ts' : List Timer} (hl : Listed h start ts)
    (hsub : ∀ t ∈ ts, t ∈ ts') : Listed h start ts' := by
  intro k kv hn h1 h2
  obtain ⟨t, ht, h3⟩ := hl k kv hn h1 h2
  exact ⟨t, hsub t ht, h3⟩

theorem TtlGroup.mono {start : Int} {ts ts' : List Timer} {g : Group} (h : TtlGroup start ts g)
    (hsub : ∀ t ∈ ts, t ∈ ts') : TtlGroup start ts' g where
  used := h.used
  range := h.range
  has := h.has
  seen := by
    intro e he hl
    obtain ⟨t, ht, h3⟩ := h.seen e he hl
    exact ⟨t, hsub t ht, h3⟩

/-- `ttlSQL`: the rows are stored, leased, not deleted; and every live leased version up to the revision is there. -/
theorem Inv.ttlSQL_mem {w : World} (i : Inv w) {rev : Int} {r : Row} (h : r ∈ ttlSQL w.db rev) :
    r ∈ w.db.rows ∧ r.deleted = false ∧ r.lease ≠ 0 := by
  unfold ttlSQL at h
  obtain ⟨h1, h2⟩ := List.mem_filter.1 h
  simp only [Bool.and_eq_true, Bool.not_eq_true', decide_eq_true_eq] at h2
  refine ⟨?_, h2⟩
  have ur : (w.db.rows.filter fun r => decide (r.id ≤ rev)).Pairwise fun a b => a.id ≠ b.id :=
    UniqueIds.filter i.unique _
  rw [joinIds_eq_filter w.db (nodup_groupMaxIds ur)] at h1
  exact (List.mem_filter.1 h1).1

theorem Inv.ttlSQL_complete {w : World} (i : Inv w) {rev : Int} {k : Bytes} {kv : KV} (hn : w.hist.now k = some kv)
    (hl : kv.lease ≠ 0) (hr : kv.modRev ≤ rev) : ∃ r ∈ ttlSQL w.db rev, scanKeyValue r = kv := by
  rw [← at_ge_top i.wf (Int.le_refl _)] at hn
  obtain ⟨r, hrm, hs, hname, hle, hd, hmax⟩ := i.at_row i.compact_le_top hn
  refine ⟨r, ?_, hs⟩
  have hid : r.id = kv.modRev := by rw [← hs]; rfl
  have hlease : r.lease = kv.lease := by rw [← hs]; rfl
  have ur : (w.db.rows.filter fun r => decide (r.id ≤ rev)).Pairwise fun a b => a.id ≠ b.id :=
    UniqueIds.filter i.unique _
  unfold ttlSQL
  rw [joinIds_eq_filter w.db (nodup_groupMaxIds ur)]
  simp only [List.mem_filter, decide_eq_true_eq, Bool.and_eq_true, Bool.not_eq_true']
  refine ⟨⟨hrm, ?_⟩, hd, by rw [hlease]; exact hl⟩
  rw [mem_groupMaxIds]
  refine ⟨r, List.mem_filter.2 ⟨hrm, by simp; omega⟩, rfl, ?_⟩
  intro q hq hqn
  obtain ⟨hqm, _⟩ := List.mem_filter.1 hq
  exact hmax q hqm (hqn.trans hname) (i.row_le_top hqm)

theorem Inv.listTimers_ok {w : World} (i : Inv w) (rev : Int) (tr : Option Nat) :
    ∀ t ∈ listTimers (ttlSQL w.db rev, tr), TimerOk w.hist t := by
  intro t ht
  unfold listTimers at ht
  obtain ⟨m, em, _⟩ := scanAll_take
    (fun (r : Row) => ({ key := r.name, rev := r.id, lease := r.lease, delay := leaseDelay r.lease } : Timer))
    (ttlSQL w.db rev) tr
  rw [em] at ht
  obtain ⟨r, hr, rfl⟩ := List.mem_map.1 ht
  have hr' : r ∈ ttlSQL w.db rev := List.mem_of_mem_take hr
  obtain ⟨h1, h2, h3⟩ := i.ttlSQL_mem hr'
  refine ⟨h3, ⟨commitOf r, i.row_commit h1, rfl, rfl, Or.inr ⟨r.value, ?_⟩⟩, Or.inl rfl⟩
  simp [commitOf, h2]

theorem Inv.listTimers_complete {w : World} (i : Inv w) (rev : Int) :
    Listed w.hist rev (listTimers (ttlSQL w.db rev, none)) := by
  intro k kv hn hl hr
  obtain ⟨r, hm, hs⟩ := i.ttlSQL_complete hn hl hr
  have hk : kv.key = k := by
    rw [← at_ge_top i.wf (Int.le_refl _)] at hn
    exact at_key i.wf hn
  refine ⟨⟨r.name, r.id, r.lease, leaseDelay r.lease⟩, ?_, ?_, ?_, ?_⟩
  · unfold listTimers scanAll
    exact List.mem_map.2 ⟨r, hm, rfl⟩
  · rw [← hk, ← hs]; rfl
  · rw [← hs]; rfl
  · rw [← hs]; rfl

theorem all_currentRevision : AllStmts (fun e => e = id) Driver.currentRevision := by
  unfold Driver.currentRevision
  apply all_andThen
  · exact all_queryLoop (E := fun e => e = id) rfl _
  · intro r
    apply all_bind
    · exact all_oneRow r
    · intro a
      cases a with
      | error e => trivial
      | ok o => cases o <;> trivial

theorem wp_currentRevision {w : World} (i : Inv w) :
    WP (fun r w' => ∀ s, r = .ok s → s ≤ w'.hist.top) Driver.currentRevision w := by
  unfold Driver.currentRevision
  apply wp_andThen
  apply wp_queryLoop _ i
  · intro w1 cut h1
    apply wp_bind
    apply wp_oneRow
    · simp only
      cases hr : revSQL w1.db with
      | none => intro s hs; cases hs
      | some cur =>
        intro s hs
        cases hs
        have := h1.inv.currentRev_eq
        unfold DB.currentRev revisionIntervalSQL at this
        unfold revSQL at hr
        simp only [hr] at this
        simp at this
        omega
    · intro e s hs; cases hs
  · intro w1 e h1 s hs; cases hs

/-- The watchers of the loop's group keep their parameters. -/
theorem GroupMove.watchers {w w' : World} {g g' : Group} (m : GroupMove w w' g g') (hu : g'.used = g.used) :
    ∀ x ∈ g'.watchers, ∃ y ∈ g.watchers, x.id = y.id ∧ x.lo = y.lo ∧ x.hi = y.hi ∧ x.start = y.start := by
  cases m with
  | same => exact fun x hx => ⟨x, hx, rfl, rfl, rfl, rfl⟩
  | publish rev es hin hcur =>
    intro x hx
    have : (g.publishOrDrop rev es).watchers = g.watchers.map fun (w : Watcher) => (w.update es).1 := by
      unfold Group.publishOrDrop Group.publish
      simp only
      split
      · rename_i h; split at h
        · cases h; rfl
        · split at h
          · cases h; rfl
          · cases h
      · rename_i h; split at h
        · cases h
        · split at h
          · cases h
          · cases h
            split <;> rfl
    rw [this] at hx
    obtain ⟨y, hy, rfl⟩ := List.mem_map.1 hx
    obtain ⟨s1, s2, s3, s4, s5, s6⟩ := y.update_same es
    exact ⟨y, hy, y.update_id es, by assumption, by assumption, by assumption⟩
  | step h =>
    cases h with
    | watch id lo hi start idle fresh ne =>
      exfalso
      unfold Group.watch at hu
      simp only at hu
      split at hu <;> simp at hu
    | checkExec => exact fun x hx => ⟨x, hx, rfl, rfl, rfl, rfl⟩
    | checked =>
      unfold Group.checked
      split
      · exact fun x hx => ⟨x, hx, rfl, rfl, rfl, rfl⟩
      · split <;> exact fun x hx => ⟨x, hx, rfl, rfl, rfl, rfl⟩
    | queryExec =>
      intro x hx
      obtain ⟨y, hy, ⟨_, e⟩ | ⟨_, e⟩⟩ := mem_updateWatcher hx <;> rw [e] <;> exact ⟨y, hy, rfl, rfl, rfl, rfl⟩
    | queried a r c =>
      unfold Group.queried
      split
      · exact fun x hx => ⟨x, (removeWatcher_sub hx).1, rfl, rfl, rfl, rfl⟩
      · intro x hx
        obtain ⟨y, hy, ⟨_, e⟩ | ⟨_, e⟩⟩ := mem_updateWatcher hx <;> rw [e] <;> exact ⟨y, hy, rfl, rfl, rfl, rfl⟩
    | unwatch => exact fun x hx => ⟨x, (removeWatcher_sub hx).1, rfl, rfl, rfl, rfl⟩
    | recv => exact fun x hx => ⟨x, hx, rfl, rfl, rfl, rfl⟩
    | cancel => exact fun x hx => ⟨x, hx, rfl, rfl, rfl, rfl⟩
    | afterFunc => exact fun x hx => ⟨x, hx, rfl, rfl, rfl, rfl⟩

theorem GroupMove.sent {w w' : World} {g g' : Group} (m : GroupMove w w' g g') {id : Int} (h : g'.sent id ≠ []) :
    g.sent id ≠ [] ∨ ∃ x ∈ g'.watchers, x.id = id := by
  unfold Group.sent at h ⊢
  cases m with
  | same => exact Or.inl h
  | step hs => rw [hs.sent_eq] at h; exact Or.inl h
  | publish rev es hin hcur =>
    obtain ⟨e1, e2 | e2⟩ := publishOrDrop_sent g rev es
    · rw [e1, e2] at h; exact Or.inl h
    · rw [e1, e2, ← List.append_assoc, sentTo_append, sentTo_update] at h
      by_cases hz : sentTo (g.received ++ g.queue) id = []
      · right
        rw [hz, List.nil_append] at h
        obtain ⟨e, he⟩ := List.exists_mem_of_ne_nil _ h
        obtain ⟨x, hx, _⟩ := List.mem_flatMap.1 he
        obtain ⟨hx1, hx2⟩ := List.mem_filter.1 hx
        have hw : (g.publishOrDrop rev es).watchers = g.watchers.map fun (w : Watcher) => (w.update es).1 := by
          unfold Group.publishOrDrop Group.publish
          simp only
          split
          · rename_i h; split at h
            · cases h; rfl
            · split at h
              · cases h; rfl
              · cases h
          · rename_i h; split at h
            · cases h
            · split at h
              · cases h
              · cases h
                split <;> rfl
        rw [hw]
        exact ⟨(x.update es).1, List.mem_map.2 ⟨x, hx1, rfl⟩, by rw [x.update_id]; simpa using hx2⟩
      · exact Or.inl hz

theorem PhaseOk.ext {w w' : World} {n : Node} {t : TtlLoop} (i : Inv w) (hx : Ext w w') (h : PhaseOk w n t) :
    PhaseOk w' n t := by
  have htop := hx.top
  unfold PhaseOk at h ⊢
  split at h
  · refine ⟨h.1, wp_ext_sys ?_ hx h.2⟩
    intro r w₁ w₂ hx' hr s e
    have := hr s e
    have := hx'.top
    omega
  · exact ⟨h.1.mono hx (fun _ _ _ hc => hc), by omega⟩
  · exact ⟨by omega, fun ht => (h.2 ht).ext i hx h.1⟩
  · exact ⟨by omega, fun ht => (h.2.1 ht).ext i hx h.1, h.2.2⟩
  · exact ⟨by omega, fun ht => (h.2.1 ht).ext i hx h.1, h.2.2⟩
  · trivial

theorem PhaseOk.groups {w : World} {n n' : Node} {t : TtlLoop} (h : PhaseOk w n t)
    (hg : ∀ i g, t.phase.index? = some i → n.groupAt i = some g → ∃ g', n'.groupAt i = some g' ∧
      g'.received = g.received ∧ g'.used = g.used ∧
      (∀ x ∈ g'.watchers, ∃ y ∈ g.watchers, x.id = y.id ∧ x.lo = y.lo ∧ x.hi = y.hi ∧ x.start = y.start) ∧
      (g'.sent 1 ≠ [] → (g.sent 1 ≠ [] → ∃ x ∈ g.watchers, x.id = 1) → ∃ x ∈ g'.watchers, x.id = 1)) :
    PhaseOk w n' t := by
  unfold PhaseOk at h ⊢
  split at h
  · exact h
  · exact h
  · exact h
  · rename_i start i hp
    obtain ⟨h1, h2, g, h3, h4, h5⟩ := h
    obtain ⟨g', h6, h7, h8, _⟩ := hg i g (by rw [hp]; rfl) h3
    exact ⟨h1, h2, g', h6, by rw [h8, h4], by rw [h7, h5]⟩
  · rename_i start i hp
    obtain ⟨h1, h2, g, h3, h4⟩ := h
    obtain ⟨g', h6, h7, h8, h9, h10⟩ := hg i g (by rw [hp]; rfl) h3
    refine ⟨h1, h2, g', h6, by rw [h8, h4.used], ?_, fun hs => h10 hs h4.has, by rw [h7]; exact h4.seen⟩
    intro x hx
    obtain ⟨y, hy, _, e1, e2, e3⟩ := h9 x hx
    rw [e1, e2, e3]
    exact h4.range y hy
  · trivial

theorem TInv.init {a : NSys} (h : NReachable a) : TInv ⟨a, TtlLoop.init⟩ where
  base := h
  timers := by simp [TtlLoop.init]
  phase := ⟨all_currentRevision, wp_currentRevision h.ninv.sys.inv⟩

theorem Node.groupAt_mid {n : Node} {pre post : List Group} {g : Group} (h : n.groups = pre ++ g :: post) :
    n.groupAt pre.length = some g := by
  unfold Node.groupAt
  rw [h]
  simp

/-- An event that describes a commit gives a proper timer. -/
theorem timerOk_event {w : World} (i : Inv w) {c : Commit} (hc : c ∈ w.hist) {e : Event} (hd : Describes w.hist c e)
    (hl : e.kv.lease > 0) {j : Nat} (hj : j < 1000) :
    TimerOk w.hist ⟨e.kv.key, e.kv.modRev, e.kv.lease, jitteredDelay e.kv.lease j⟩ := by
  obtain ⟨d1, d2, d3, d4, _⟩ := hd
  refine ⟨by show e.kv.lease ≠ 0; omega, ⟨c, hc, d1.symm, d2.symm, ?_⟩, Or.inr ⟨hl, j, hj, rfl⟩⟩
  cases hw : c.write with
  | none => exact Or.inl rfl
  | some p =>
    right
    have hdel : e.isDelete = false := by
      cases h : e.isDelete with
      | false => rfl
      | true => rw [d3.1 h] at hw; cases hw
    have hat := d4 hdel
    obtain ⟨_, _, _, ⟨c', hc', h1, h2, h3⟩, _⟩ := at_some_inv i.wf hat
    have : c' = c := Wf_rev_inj i.wf hc' hc (h1.trans d1)
    subst this
    rw [hw] at h3
    exact ⟨e.kv.value, h3⟩

theorem TimerOk.key {h : History} {t : Timer} (ht : TimerOk h t) (hm : MarkerPlain h) : t.key ≠ compactRevKey := by
  obtain ⟨h1, ⟨c, hc, _, h3, h4⟩, _⟩ := ht
  intro hk
  obtain ⟨v, hv⟩ := hm c hc (h3.trans hk)
  rcases h4 with h4 | ⟨v', h4⟩
  · rw [h4] at hv; cases hv
  · rw [h4] at hv; simp at hv; exact h1 hv.2

theorem TInv.step {a b : TSys} (h : TInv a) (st : TStep a b) : TInv b := by
  have ninv := h.base.ninv
  have i := ninv.sys.inv
  cases st with
  | env a b t hst quiet =>
    obtain ⟨nb, hx⟩ := ninv.step hst
    refine ⟨.step h.base hst, fun t ht => (h.timers t ht).ext hx, (h.phase.ext i hx).groups ?_⟩
    intro k g hk hg
    obtain ⟨g', hg', hm⟩ := hst.move ninv hg
    obtain ⟨g'', hg'', q1, q2, q3⟩ := quiet k g hk hg
    rw [hg'] at hg''
    cases hg''
    refine ⟨g', hg', q1, q2, hm.watchers q2, ?_⟩
    intro hs hhas
    rcases hm.sent hs with h1 | h1
    · obtain ⟨x, hxm, hid⟩ := hhas h1
      have hok := (ninv.groups g (List.mem_of_getElem? hg)).ok x hxm
      have hinit : x.initialized = true := by
        cases hi : x.initialized with
        | true => rfl
        | false => exact absurd (hok.uninit hi) (by rw [hid]; exact h1)
      obtain ⟨x', hx', e⟩ := q3 x hxm hinit
      exact ⟨x', hx', e.trans hid⟩
    · exact h1
  | currentExec s n t eff k o c =>
    have hp := h.phase
    unfold PhaseOk at hp
    simp only [c] at hp
    obtain ⟨⟨he, ha⟩, hw⟩ := hp
    subst he
    have e := i.exec_id o
    simp only at e
    have hs : ({ s with world := s.world.exec id o } : Sys) = s := by rw [e]
    rw [hs]
    refine ⟨h.base, h.timers, ?_⟩
    have := (hw s.world (Ext.refl i) o).2
    rw [e] at this
    exact ⟨ha o _, this⟩
  | currentDone a t r c =>
    have hp := h.phase
    unfold PhaseOk at hp
    simp only [c] at hp
    cases r with
    | error e => exact ⟨h.base, h.timers, trivial⟩
    | ok start =>
      refine ⟨h.base, h.timers, ?_⟩
      exact ⟨.loop _, hp.2 start rfl⟩
  | listExec s n t start eff k o c =>
    have hp := h.phase
    unfold PhaseOk at hp
    simp only [c] at hp
    obtain ⟨hq, hs⟩ := hp
    obtain ⟨e, hq'⟩ := hq.exec
      (C' := fun wq tr => start ≤ wq.hist.top ∧ ((t.truncated || o.isTrunc) = false → tr = none)) i o
      (by
        intro tr htr
        refine ⟨hs, fun ht => htr ?_⟩
        simp only [Bool.or_eq_false_iff] at ht
        exact ht.2)
    have hs' : ({ s with world := s.world.exec eff o } : Sys) = s := by rw [e]
    rw [hs']
    exact ⟨h.base, h.timers, ⟨hq', hs⟩⟩
  | listDone a t start r c =>
    have hp := h.phase
    unfold PhaseOk at hp
    simp only [c] at hp
    obtain ⟨hq, hs⟩ := hp
    generalize hpp : (Prog.ret r : Prog (Except ApiErr (List Row × Option Nat))) = p at hq
    cases hq with
    | loop m =>
      cases m with
      | succ m => simp [queryLoop] at hpp
      | zero =>
        simp only [queryLoop, Prog.ret.injEq] at hpp
        subst hpp
        exact ⟨h.base, h.timers, trivial⟩
    | err e =>
      cases hpp
      exact ⟨h.base, h.timers, trivial⟩
    | got wq tr iq xq cq =>
      cases hpp
      refine ⟨h.base, ?_, hs, ?_⟩
      · intro x hx
        rcases List.mem_append.1 hx with hx | hx
        · exact h.timers x hx
        · exact (iq.listTimers_ok start tr x hx).ext xq
      · intro ht
        have := cq.2 ht
        subst this
        exact ((iq.listTimers_complete start).ext iq xq cq.1).mono fun x hx => List.mem_append.2 (Or.inr hx)
  | openGroup s n t start c =>
    have hp := h.phase
    unfold PhaseOk at hp
    simp only [c] at hp
    refine ⟨.step h.base (.openGroup s n), h.timers, hp.1, hp.2, Group.new n.pollRevision, ?_, rfl, rfl⟩
    unfold Node.groupAt
    simp
  | watch s n t start pre post g g' c hn idle hg =>
    have hp := h.phase
    unfold PhaseOk at hp
    simp only [c] at hp
    obtain ⟨h1, h2, g₀, h3, h4, h5⟩ := hp
    rw [n.groupAt_mid hn] at h3
    cases h3
    have hstep : GroupStep s.world g s.world g' := by
      rw [hg]; exact .watch _ g 1 ttlLo ttlHi start idle (by rw [h4]; simp) (by simp [ttlHi])
    have gi := ninv.groups g (by rw [hn]; simp)
    have hnil : g.watchers = [] := by
      cases hw : g.watchers with
      | nil => rfl
      | cons x xs =>
        have := gi.used x (by rw [hw]; simp)
        rw [h4] at this
        simp at this
    refine ⟨.step h.base (.group s n s.world pre post g g' hn hstep), h.timers, h1, h2, g', ?_, ?_⟩
    · exact Node.groupAt_mid rfl
    · subst hg
      have hsent : g.sent 1 = [] := gi.fresh 1 (by rw [h4]; simp)
      have hw : (g.watch 1 ttlLo ttlHi start s.world.db.compactRev).watchers =
          [(⟨1, ttlLo, ttlHi, start, g.currentRevision, s.world.db.compactRev⟩ : WatchArgs).watcher] := by
        unfold Group.watch
        simp only
        split <;> simp [hnil, removeWatcher]
      have hu : (g.watch 1 ttlLo ttlHi start s.world.db.compactRev).used = [1] := by
        unfold Group.watch
        simp only
        split <;> simp [h4]
      have hr : (g.watch 1 ttlLo ttlHi start s.world.db.compactRev).received = [] := by
        unfold Group.watch
        simp only
        split <;> exact h5
      refine ⟨hu, ?_, ?_, ?_⟩
      · rw [hw]; intro x hx; rw [List.mem_singleton.1 hx]; exact ⟨rfl, rfl, rfl⟩
      · intro _; rw [hw]; exact ⟨_, List.mem_singleton.2 rfl, rfl⟩
      · rw [hr]; intro e he; simp [sentTo] at he
  | recv s n t start pre post g u q jit hj c hn idle hq =>
    have hp := h.phase
    unfold PhaseOk at hp
    simp only [c] at hp
    obtain ⟨h1, h2, g₀, h3, h4⟩ := hp
    rw [n.groupAt_mid hn] at h3
    cases h3
    have gi := ninv.groups g (by rw [hn]; simp)
    have hstep : GroupStep s.world g s.world { g with queue := q, received := g.received ++ [u] } :=
      .recv _ g u q hq
    -- everything in the update is for watcher 1
    have hfor : ∀ p ∈ u.updates, ∀ e ∈ p.2, p.1 = 1 ∧ e ∈ sentTo [u] 1 := by
      intro p hpm e he
      have hin : ∀ id, id = p.1 → e ∈ sentTo [u] id := by
        intro id hid
        unfold sentTo
        simp only [List.flatMap_cons, List.flatMap_nil, List.append_nil]
        exact List.mem_flatMap.2 ⟨p, List.mem_filter.2 ⟨hpm, by simp [hid]⟩, he⟩
      have h1 : p.1 = 1 := by
        refine Decidable.byContradiction fun hne => ?_
        have hf := gi.fresh p.1 (by rw [h4.used]; simpa using hne)
        unfold Group.sent at hf
        rw [hq] at hf
        have hu : u :: q = [u] ++ q := rfl
        rw [hu, sentTo_append, sentTo_append] at hf
        have := hin p.1 rfl
        simp only [List.append_eq_nil_iff] at hf
        rw [hf.2.1] at this
        cases this
      exact ⟨h1, hin 1 h1.symm⟩
    have hsent : ∀ e ∈ sentTo [u] 1, e ∈ g.sent 1 := by
      intro e he
      unfold Group.sent
      rw [hq]
      have hu : u :: q = [u] ++ q := rfl
      rw [hu, sentTo_append, sentTo_append]
      exact List.mem_append.2 (Or.inr (List.mem_append.2 (Or.inl he)))
    refine ⟨.step h.base (.group s n s.world pre post g _ hn hstep), ?_, ?_⟩
    · intro x hx
      rcases List.mem_append.1 hx with hx | hx
      · exact h.timers x hx
      · unfold eventTimers at hx
        obtain ⟨k, hk, hx⟩ := List.mem_mapIdx.1 hx
        have he := List.getElem_mem hk
        generalize ((u.updates.flatMap (·.2)).filter fun e => decide (e.kv.lease > 0))[k] = e at hx he
        subst hx
        obtain ⟨he1, he2⟩ := List.mem_filter.1 he
        obtain ⟨p, hpm, hep⟩ := List.mem_flatMap.1 he1
        have hes := hsent e (hfor p hpm e hep).2
        obtain ⟨y, hy, hid⟩ := h4.has (by intro h0; rw [h0] at hes; cases hes)
        have hok := gi.ok y hy
        have hes' : e ∈ g.sent y.id ++ y.events := by rw [hid]; exact List.mem_append.2 (Or.inl hes)
        obtain ⟨_, _, _, cm, hcm, hd⟩ := hok.sound.mem e hes'
        exact timerOk_event i hcm hd (by simpa using he2) (hj _)
    · show PhaseOk _ _ _
      unfold PhaseOk
      simp only [c]
      refine ⟨h1, fun ht => (h2 ht).mono fun x hx => List.mem_append.2 (Or.inl hx), _, Node.groupAt_mid rfl, ?_⟩
      refine ⟨h4.used, h4.range, ?_, ?_⟩
      · intro hs
        apply h4.has
        unfold Group.sent at hs ⊢
        rw [hq]
        simpa using hs
      · intro e he hl
        rw [sentTo_append] at he
        rcases List.mem_append.1 he with he | he
        · obtain ⟨x, hx, hx'⟩ := h4.seen e he hl
          exact ⟨x, List.mem_append.2 (Or.inl hx), hx'⟩
        · have hm : e ∈ (u.updates.flatMap (·.2)).filter fun e => decide (e.kv.lease > 0) := by
            refine List.mem_filter.2 ⟨?_, by simpa using hl⟩
            unfold sentTo at he
            simp only [List.flatMap_cons, List.flatMap_nil, List.append_nil] at he
            obtain ⟨p, hpm, hep⟩ := List.mem_flatMap.1 he
            exact List.mem_flatMap.2 ⟨p, (List.mem_filter.1 hpm).1, hep⟩
          obtain ⟨k, hk, hke⟩ := List.getElem_of_mem hm
          refine ⟨⟨e.kv.key, e.kv.modRev, e.kv.lease, jitteredDelay e.kv.lease (jit k)⟩,
            List.mem_append.2 (Or.inr ?_), rfl, rfl, rfl⟩
          unfold eventTimers
          refine List.mem_mapIdx.2 ⟨k, hk, ?_⟩
          rw [hke]
  | fire s n t x hx =>
    have hk := (h.timers x hx).key h.base.reachable.markerPlain
    have hst : NStep ⟨s, n⟩ ⟨{ s with pool := (Call.expire x.key x.rev).prog :: s.pool }, n⟩ :=
      .env _ _ n (.spawn s (.expire x.key x.rev) hk)
    exact ⟨.step h.base hst, h.timers, h.phase⟩

theorem TReachable.inv {a : TSys} (h : TReachable a) : TInv a := by
  induction h with
  | start h => exact TInv.init h
  | step _ st ih => exact ih.step st

end Verif
