import Verif.Lemmas.GoWatchClient
/-!
# Steps of the poller
-/

namespace Verif.Go

open Verif.GoText

/-- The poller goes on. -/
theorem Sim.pollStep {s s' : WSys} (h : Sim s) {x x' : Tw} (ht : s.thr 0 = some ⟨.poll, x⟩) (hthr : s'.thr = fun u => if u = 0 then some ⟨.poll, x'⟩ else s.thr u)
    (hnt : s'.nt = s.nt) (hclient : s'.client = s.client) (hus : s'.used = s.used) (hm : MInv s'.mem) (hng : s'.mem.ng = s.mem.ng)
    (hst : ∀ g, (s'.mem.grp g).stop = (s.mem.grp g).stop)
    (haf : ∀ b u, b < s.mem.na → s.mem.aft b = .running u → s'.mem.aft b = .running u) (hnw : s.mem.nw ≤ s'.mem.nw)
    (hw : ∀ w, (s'.mem.wat w).grp = (s.mem.wat w).grp) (hx : ∀ g id lo hi start w, x' ≠ watchLockT g id lo hi start w)
    (each : ∀ i, ∃ n', NReachable n' ∧ n'.sys = s'.sys ∧ n'.node.overtaken = s'.overtaken ∧ PollRel i s'.mem n'.node x' ∧ GroupRel i s' n'.node) : Sim s' := by
  refine ⟨h.inv.step ht hthr hnt hclient hus hm (Nat.le_of_eq hng.symm) (fun g _ => hst g) haf hnw (fun _ w _ _ => hw w) hx nofun nofun nofun, fun i => ?_⟩
  obtain ⟨n', h1, h2, h3, h4, h5⟩ := each i
  refine ⟨n', h1, h2, h3, fun y hy => ?_, h5⟩
  rw [hthr] at hy
  dsimp only at hy
  rw [if_pos rfl] at hy
  cases hy
  exact h4

theorem same_poll {s s' : WSys} {x x' : Tw} (ht : s.thr 0 = some ⟨.poll, x⟩) (hthr : s'.thr = fun u => if u = 0 then some ⟨.poll, x'⟩ else s.thr u)
    (hclient : s'.client = s.client) (hus : s'.used = s.used) (hlos : s'.lossy = s.lossy) (hcr : s.sys.world.db.compactRev ≤ s'.sys.world.db.compactRev) (i : Nat)
    (lt : i < s'.mem.ng ↔ i < s.mem.ng) (grp : s'.mem.grp i = s.mem.grp i) (wat : i < s.mem.ng → ∀ p ∈ (s.mem.grp i).watchers, s'.mem.wat p.2 = s.mem.wat p.2)
    (map : i ∈ s'.mem.map ↔ i ∈ s.mem.map) (aft : ∀ a, (s.mem.grp i).stop = some a → s'.mem.aft a = s.mem.aft a)
    (pend : ∀ t w, s.client i = some t → Pend s t w → s'.mem.wat w = s.mem.wat w) : Same i s s' := by
  refine ⟨lt, grp, wat, map, fun _ => aft, by rw [hclient], by rw [hus], by rw [hlos], ?_, pend, hcr⟩
  intro _ u r' y ha
  refine thr_resume ht hthr ?_ u y
  rintro rfl
  rcases ha with ha | ⟨a, e, _⟩
  · cases ha
  · cases e

/-- The poller goes on without changing memory. -/
theorem Sim.pollQuiet {s s' : WSys} (h : Sim s) {x x' : Tw} (ht : s.thr 0 = some ⟨.poll, x⟩) (hthr : s'.thr = fun u => if u = 0 then some ⟨.poll, x'⟩ else s.thr u)
    (hnt : s'.nt = s.nt) (hclient : s'.client = s.client) (hus : s'.used = s.used) (hlos : s'.lossy = s.lossy) (hmem : s'.mem = s.mem) (hsys : s'.sys = s.sys)
    (hx : ∀ g id lo hi start w, x' ≠ watchLockT g id lo hi start w)
    (each : ∀ i n, WRel i s n → PollRel i s.mem n.node x → ∃ n', NReachable n' ∧ n'.sys = n.sys ∧ n'.node.overtaken = s'.overtaken ∧ n'.node.groups = n.node.groups ∧ PollRel i s.mem n'.node x') :
    Sim s' := by
  refine h.pollStep ht hthr hnt hclient hus (by rw [hmem]; exact h.inv.mem) (by rw [hmem]) (fun _ => by rw [hmem]) (fun _ _ _ e => by rw [hmem]; exact e)
    (by rw [hmem]; exact Nat.le_refl _) (fun _ => by rw [hmem]) hx fun i => ?_
  obtain ⟨n, hn⟩ := h.rel i
  obtain ⟨n', h1, h2, h3, h4, h5⟩ := each i n hn (hn.poll x ht)
  refine ⟨n', h1, by rw [h2, hsys]; exact hn.sys, h3, by rw [hmem]; exact h5, hn.group.same (same_poll ht hthr hclient hus hlos ?_ i ?_ ?_ ?_ ?_ ?_ ?_) h4⟩
  · rw [hsys]; exact Int.le_refl _
  · rw [hmem]
  · rw [hmem]
  · intro _ _ _; rw [hmem]
  · rw [hmem]
  · intro _ _; rw [hmem]
  · intro _ _ _ _; rw [hmem]

/-- Where the poller waits next. -/
theorem pause_rel {i : Nat} {m : WatchMem} {n : NSys} (h : NReachable n) (free : m.owner = none) (rev : n.node.pollRevision = m.pollRev) (idle : n.node.poll = .idle)
    (k : Nat) (b : Bool) : ∃ n', NReachable n' ∧ n'.sys = n.sys ∧ n'.node.overtaken = n.node.overtaken ∧ n'.node.groups = n.node.groups ∧
      PollRel i m n'.node (pollPause m.pollRev k b) := by
  cases k with
  | zero => exact ⟨n, h, rfl, rfl, rfl, .out free rev⟩
  | succ k =>
    cases b with
    | true => exact ⟨n, h, rfl, rfl, rfl, .sel k free rev idle⟩
    | false =>
      obtain ⟨ns, nn⟩ := n
      refine ⟨_, .step h (.pollStart ns nn idle), rfl, rfl, rfl, ?_⟩
      change nn.pollRevision = m.pollRev at rev
      refine .qry false k _ free rev ?_ (all_queryLoop (E := fun e => e = id) rfl _)
      show PollState.querying (Driver.after nn.pollRevision pollBatchSize) = _
      rw [rev]
      rfl

theorem pause_not_pend (rev : Int) (k : Nat) (b : Bool) (g : Nat) (id : Int) (lo hi : List UInt8) (start : Int) (w : Nat) :
    pollPause rev k b ≠ watchLockT g id lo hi start w := by
  cases k with
  | zero => exact nofun
  | succ k => cases b <;> exact nofun

theorem pubAt_not_pend (src : List Event) (rev : Int) (g' : Nat) (rest : List Nat) (K : Tw) (g : Nat) (id : Int) (lo hi : List UInt8) (start : Int) (w : Nat) :
    pubAt src rev g' rest K ≠ watchLockT g id lo hi start w := by
  intro e
  unfold pubAt publishLockT watchLockT at e
  injection e with _ e
  cases e

theorem Sim.select {s : WSys} (h : Sim s) {t : Nat} {r : WRole} {a c : Tw} {b : Int → Tw} (ht : s.thr t = some ⟨r, .pollSelect a b c⟩) :
    t = 0 ∧ r = .poll ∧ ∃ j, Tw.pollSelect a b c = pollStepT true (pollT j) := by
  cases h.who ht with
  | poll x h0 hp =>
    obtain ⟨n, _, hp⟩ := hp 0
    obtain ⟨j, e, _⟩ := hp.select_inv
    exact ⟨h0, rfl, j, e⟩
  | opn x e => exact nomatch e
  | client i r x hi hr hc =>
    obtain ⟨_, _, _, _, _, hat⟩ := h.at hc ht
    exact hat.select_inv.elim

theorem Sim.pollDone {s : WSys} (h : Sim s) (o : Orders) {t : Nat} {r : WRole} {a c : Tw} {b : Int → Tw} (ht : s.thr t = some ⟨r, .pollSelect a b c⟩) :
    Sim (s.resume o t r none s.mem a) := by
  obtain ⟨rfl, rfl, j, e⟩ := h.select ht
  obtain ⟨n0, hn0⟩ := h.rel 0
  obtain ⟨_, _, free, _, _⟩ := (hn0.poll _ ht).select_inv
  have ea : a = .ret [] := by
    unfold pollStepT at e
    injection e
  unfold WSys.resume
  rw [ea, run_ret _ _ (by rw [free]; nofun)]
  refine h.pollQuiet ht rfl rfl rfl rfl rfl rfl rfl (by exact fun _ _ _ _ _ _ => nofun) fun i n hn hp => ?_
  obtain ⟨_, _, free, rev, _⟩ := hp.select_inv
  exact ⟨n, hn.reach, rfl, hn.over, rfl, .ret free rev⟩

/-- A poll starts. -/
theorem Sim.pollQuery {s : WSys} (h : Sim s) (o : Orders) {a c : Tw} {b : Int → Tw} {j : Nat} (ht : s.thr 0 = some ⟨.poll, .pollSelect a b c⟩) (k : Tw)
    (ek : k.run o 0 none s.mem = (s.mem, pollQueryT true (pollT j) (Driver.after s.mem.pollRev 500))) :
    Sim (s.resume o 0 .poll none s.mem k) := by
  unfold WSys.resume
  rw [ek]
  refine h.pollQuiet ht rfl rfl rfl rfl rfl rfl rfl (by exact fun _ _ _ _ _ _ => nofun) fun i n hn hp => ?_
  obtain ⟨_, _, free, rev, idle⟩ := hp.select_inv
  obtain ⟨ns, nn⟩ := n
  refine ⟨_, .step hn.reach (.pollStart ns nn idle), rfl, hn.over, rfl, ?_⟩
  change nn.pollRevision = s.mem.pollRev at rev
  refine .qry true j _ free rev ?_ (all_queryLoop (E := fun e => e = id) rfl _)
  show PollState.querying (Driver.after nn.pollRevision pollBatchSize) = _
  rw [rev]
  rfl

theorem Sim.pollTick {s : WSys} (h : Sim s) (o : Orders) {t : Nat} {r : WRole} {a c : Tw} {b : Int → Tw} (ht : s.thr t = some ⟨r, .pollSelect a b c⟩) :
    Sim (s.resume o t r none s.mem c) := by
  obtain ⟨rfl, rfl, j, e⟩ := h.select ht
  obtain ⟨n0, hn0⟩ := h.rel 0
  obtain ⟨_, _, free, _, _⟩ := (hn0.poll _ ht).select_inv
  have ea : c = .getPollRev fun rev => pollQueryT true (pollT j) (Driver.after rev 500) := by
    unfold pollStepT at e
    injection e
  refine h.pollQuery o (j := j) ht c ?_
  rw [ea, Tw.run]
  unfold pollQueryT
  rw [Tw.run, if_pos ⟨rfl, by rw [free]; nofun⟩]

theorem Sim.pollNotified {s : WSys} (h : Sim s) (o : Orders) {t : Nat} {r : WRole} {a c : Tw} {b : Int → Tw} (n : Int) (ht : s.thr t = some ⟨r, .pollSelect a b c⟩) :
    Sim (s.resume o t r none s.mem (b n)) := by
  obtain ⟨rfl, rfl, j, e⟩ := h.select ht
  obtain ⟨n0, hn0⟩ := h.rel 0
  obtain ⟨_, _, free, _, _⟩ := (hn0.poll _ ht).select_inv
  have ho : s.mem.owner ≠ some 0 := by rw [free]; nofun
  have ea : b = fun n => .getPollRev fun rev => cond (decide (n ≤ rev)) (pollT j true) (.getPollRev fun rev => pollQueryT true (pollT j) (Driver.after rev 500)) := by
    unfold pollStepT at e
    injection e
  by_cases hle : n ≤ s.mem.pollRev
  · have ek : (b n).run o 0 none s.mem = (s.mem, pollPause s.mem.pollRev j true) := by
      rw [ea, Tw.run, show decide (n ≤ s.mem.pollRev) = true by simpa using hle, cond_true, run_pollT _ _ _ ho]
    unfold WSys.resume
    rw [ek]
    refine h.pollQuiet ht rfl rfl rfl rfl rfl rfl rfl (pause_not_pend _ _ _) fun i m hm hp => ?_
    obtain ⟨_, _, free, rev, idle⟩ := hp.select_inv
    obtain ⟨n', h1, h2, h3, h4, h5⟩ := pause_rel (i := i) hm.reach free rev idle j true
    exact ⟨n', h1, h2, h3.trans hm.over, h4, h5⟩
  · refine h.pollQuery o (j := j) ht (b n) ?_
    rw [ea, Tw.run, show decide (n ≤ s.mem.pollRev) = false by simpa using hle, cond_false, Tw.run]
    unfold pollQueryT
    rw [Tw.run, if_pos ⟨rfl, ho⟩]

/-- A statement of the query of the poller. -/
theorem Sim.pollExec {s : WSys} (h : Sim s) {eff : DB → DB} {k : Outcome → DB → Prog (Except ApiErr (List Row × Option Nat))}
    {ok : List Row → Option Nat → Tw} {er : ApiErr → Tw} (out : Outcome) (ht : s.thr 0 = some ⟨.poll, .rows (.stmt eff k) ok er⟩) :
    Sim ((s.note .poll out).exec 0 .poll eff out (.rows (k out s.sys.world.db) ok er)) := by
  obtain ⟨n0, hn0⟩ := h.rel 0
  obtain ⟨b, j, e, free, _, _, hp0⟩ := (hn0.poll _ ht).rows_inv
  obtain ⟨rfl, hp0⟩ := hp0
  have e' : Tw.rows (k out s.sys.world.db) ok er = pollQueryT b (pollT j) (k out s.sys.world.db) := by
    unfold pollQueryT at *
    injection e with _ e1 e2
    rw [e1, e2]
  rw [e']
  refine h.pollQuiet ht rfl rfl rfl rfl rfl rfl (exec_same h out) (by exact fun _ _ _ _ _ _ => nofun) fun i n hn hp => ?_
  obtain ⟨_, _, _, free, rev, q, hps⟩ := hp.rows_inv
  obtain ⟨ns, nn⟩ := n
  have hs := hn.sys
  have hov := hn.over
  change ns = s.sys at hs
  change nn.overtaken = s.overtaken at hov
  change nn.pollRevision = s.mem.pollRev at rev
  subst hs
  have st := NStep.pollExec s.sys nn id k out q
  rw [exec_same h out] at st
  refine ⟨_, .step hn.reach st, rfl, ?_, rfl, .qry b j _ free rev rfl (hps.2 _ _)⟩
  show (nn.overtaken || decide (nn.pollRevision < s.sys.world.db.compactRev)) = _
  rw [hov, rev]
  rfl

theorem Sim.pollOk {s : WSys} (h : Sim s) (o : Orders) {rs : List Row} {br : Option Nat} {ok : List Row → Option Nat → Tw} {er : ApiErr → Tw}
    (ht : s.thr 0 = some ⟨.poll, .rows (.ret (.ok (rs, br))) ok er⟩) : Sim (s.resume o 0 .poll none s.mem (ok rs br)) := by
  obtain ⟨n0, hn0⟩ := h.rel 0
  obtain ⟨b, j, e, free, _⟩ := (hn0.poll _ ht).rows_inv
  have e' : ok rs br = publishEventsT (scanAll scanEvent (rs, br)) (pollT j (decide (((scanAll scanEvent (rs, br)).length : Int) < 100))) := by
    unfold pollQueryT at e
    injection e with _ e1 e2
    rw [e1]
  have e2 : (ok rs br).run o 0 none s.mem = (s.mem, ok rs br) := by rw [e']; rfl
  unfold WSys.resume
  rw [e2, e']
  refine h.pollQuiet ht rfl rfl rfl rfl rfl rfl rfl (by exact fun _ _ _ _ _ _ => nofun) fun i n hn hp => ?_
  obtain ⟨_, _, _, free, rev, q, _⟩ := hp.rows_inv
  exact ⟨n, hn.reach, rfl, hn.over, rfl, .lock j _ (rs, br) free rev q⟩

theorem Sim.pollErr {s : WSys} (h : Sim s) (o : Orders) {x : ApiErr} {ok : List Row → Option Nat → Tw} {er : ApiErr → Tw}
    (ht : s.thr 0 = some ⟨.poll, .rows (.ret (.error x)) ok er⟩) : Sim (s.resume o 0 .poll none s.mem (er x)) := by
  obtain ⟨n0, hn0⟩ := h.rel 0
  obtain ⟨b, j, e, free, _⟩ := (hn0.poll _ ht).rows_inv
  have ho : s.mem.owner ≠ some 0 := by rw [free]; nofun
  have e' : er x = cond (pollEnds x) (.ret []) (pollT j b) := by
    unfold pollQueryT at e
    injection e with _ e1 e2
    rw [e2]
  cases hx : pollEnds x with
  | true =>
    have e2 : (er x).run o 0 none s.mem = (s.mem, .ret []) := by rw [e', hx, cond_true, run_ret _ _ ho]
    unfold WSys.resume
    rw [e2]
    refine h.pollQuiet ht rfl rfl rfl rfl rfl rfl rfl (by exact fun _ _ _ _ _ _ => nofun) fun i n hn hp => ?_
    obtain ⟨_, _, _, free, rev, q, _⟩ := hp.rows_inv
    exact ⟨n, hn.reach, rfl, hn.over, rfl, .ret free rev⟩
  | false =>
    have e2 : (er x).run o 0 none s.mem = (s.mem, pollPause s.mem.pollRev j b) := by rw [e', hx, cond_false, run_pollT _ _ _ ho]
    unfold WSys.resume
    rw [e2]
    refine h.pollQuiet ht rfl rfl rfl rfl rfl rfl rfl (pause_not_pend _ _ _) fun i n hn hp => ?_
    obtain ⟨_, _, _, free, rev, q, _⟩ := hp.rows_inv
    obtain ⟨ns, nn⟩ := n
    have hi : pollAfterError x = .idle := by
      unfold pollEnds at hx
      unfold pollAfterError
      split at hx
      · cases hx
      · cases hx
      · rename_i h1 h2
        split
        · exact absurd rfl h1
        · exact absurd rfl h2
        · rfl
    have st := NStep.pollError ns nn x q
    rw [hi] at st
    obtain ⟨n', h1, h2, h3, h4, h5⟩ := pause_rel (i := i) (m := s.mem) (.step hn.reach st) free rev rfl j b
    exact ⟨n', h1, h2, h3.trans hn.over, h4, h5⟩

/-! ### `publishEvents` -/

theorem pubPause_not_pend (src : List Event) (rev : Int) (k : Nat) (b : Bool) (gs : List Nat) (g : Nat) (id : Int) (lo hi : List UInt8) (start : Int) (w : Nat) :
    pubPause src rev k b gs ≠ watchLockT g id lo hi start w := by
  cases gs with
  | nil => exact pause_not_pend _ _ _ _ _ _ _ _ _
  | cons g' rest => exact pubAt_not_pend _ _ _ _ _ _ _ _ _ _ _

theorem pubEnd_fields (m : WatchMem) (gs : List Nat) : (m.pubEnd gs).grp = m.grp ∧ (m.pubEnd gs).wat = m.wat ∧ (m.pubEnd gs).map = m.map ∧
    (m.pubEnd gs).aft = m.aft ∧ (m.pubEnd gs).ng = m.ng ∧ (m.pubEnd gs).na = m.na ∧ (m.pubEnd gs).nw = m.nw ∧ (m.pubEnd gs).pollRev = m.pollRev := by
  cases gs <;> exact ⟨rfl, rfl, rfl, rfl, rfl, rfl, rfl, rfl⟩

/-- Nothing is published to a group that is not in the map. -/
theorem publish_none {n : Node} {es : List Event} (h : ∀ g ∈ n.groups, g.inMap = false) : (n.publishEvents es).groups = n.groups := by
  show (n.groups.map fun g => if g.inMap then g.publishOrDrop (nextPollRevision n.pollRevision es) es else g) = _
  rw [List.map_congr_left (g := fun g => g) fun g hg => by rw [h g hg]; rfl]
  exact List.map_id' _

theorem GroupRel.not_inMap {i : Nat} {s : WSys} {n : Node} (h : GroupRel i s n) (hi : i ∉ s.mem.map) : ∀ g ∈ n.groups, g.inMap = false := by
  intro g hg
  unfold GroupRel at h
  split at h
  · obtain ⟨g', h1, h2⟩ := h
    rw [h1] at hg
    cases List.mem_singleton.1 hg
    cases hb : g.inMap with
    | false => rfl
    | true => exact absurd (h2.inMap.1 hb) hi
  · rw [h] at hg
    cases hg

/-- `publishEvents` gets the mutex of the backend. -/
theorem Sim.pollLock {s : WSys} (h : Sim s) (o : Orders) {k : Tw} (ht : s.thr 0 = some ⟨.poll, .lockS k⟩) :
    Sim (s.resume o 0 .poll none { s.mem with owner := some 0 } k) := by
  have key : ∀ es j b, Tw.lockS k = publishEventsT es (pollT j b) → k.run o 0 none { s.mem with owner := some 0 } =
      ({ { s.mem with owner := some 0 } with pollRev := nextPollRevision s.mem.pollRev es }.pubEnd (o.groups s.mem.map),
        pubPause es (nextPollRevision s.mem.pollRev es) j b (o.groups s.mem.map)) := by
    intro es j b e
    obtain ⟨k', e1, e2⟩ := run_publishEvents (o := o) (t := 0) es j b { s.mem with owner := some 0 } rfl
    have ek : k = k' := by rw [e1] at e; injection e
    subst ek
    exact e2
  have hperm : ∀ g, g ∈ o.groups s.mem.map ↔ g ∈ s.mem.map := fun g => (o.groups_perm s.mem.map).mem_iff
  have hnod : (o.groups s.mem.map).Nodup := (o.groups_perm s.mem.map).nodup_iff.2 h.inv.mem.nodup
  unfold WSys.resume
  generalize hgs : o.groups s.mem.map = gs at hperm hnod key
  generalize hR : k.run o 0 none { s.mem with owner := some 0 } = R at key
  have fields : ∀ i, ∃ n, WRel i s n ∧ ∃ j b rows, n.node.pollRevision = s.mem.pollRev ∧ n.node.poll = .querying (.ret (.ok rows)) ∧
      R = ({ { s.mem with owner := some 0 } with pollRev := nextPollRevision s.mem.pollRev (scanAll scanEvent rows) }.pubEnd gs,
        pubPause (scanAll scanEvent rows) (nextPollRevision s.mem.pollRev (scanAll scanEvent rows)) j b gs) := by
    intro i
    obtain ⟨n, hn⟩ := h.rel i
    obtain ⟨j, b, rows, e, _, hr, q⟩ := (hn.poll _ ht).lockS_inv
    exact ⟨n, hn, j, b, rows, hr, q, key _ j b e⟩
  obtain ⟨_, _, j0, b0, rows0, _, _, e0⟩ := fields 0
  obtain ⟨p1, p2, p3, p4, p5, p6, p7, p8⟩ := pubEnd_fields { { s.mem with owner := some 0 } with pollRev := nextPollRevision s.mem.pollRev (scanAll scanEvent rows0) } gs
  have hR1 : R.1 = { { s.mem with owner := some 0 } with pollRev := nextPollRevision s.mem.pollRev (scanAll scanEvent rows0) }.pubEnd gs := by rw [e0]
  rw [← hR1] at p1 p2 p3 p4 p5 p6 p7 p8
  refine h.pollStep (x' := R.2) ht rfl rfl rfl rfl (by dsimp only; rw [hR1]; exact ((h.inv.mem.owner (some 0)).pollRev _).pubEnd gs) p5 (fun _ => by dsimp only; rw [p1])
    (fun b u _ hb => by dsimp only; rw [p4]; exact hb)
    (Nat.le_of_eq p7.symm) (fun _ => by dsimp only; rw [p2]) (by rw [e0]; exact pubPause_not_pend _ _ _ _ _) fun i => ?_
  obtain ⟨n, hn, j, b, rows, hrev, q, e⟩ := fields i
  have hsame : Same i s { s with mem := R.1, thr := fun u => if u = 0 then some ⟨.poll, R.2⟩ else s.thr u } := by
    refine same_poll (x' := R.2) ht ?_ ?_ ?_ ?_ ?_ i ?_ ?_ ?_ ?_ ?_ ?_
    · rfl
    · rfl
    · rfl
    · rfl
    · exact Int.le_refl _
    · dsimp only; rw [p5]
    · dsimp only; rw [p1]
    · intro _ _ _; dsimp only; rw [p2]
    · dsimp only; rw [p3]
    · intro _ _; dsimp only; rw [p4]
    · intro _ _ _ _; dsimp only; rw [p2]
  have hm1 : R.1 = { { s.mem with owner := some 0 } with pollRev := nextPollRevision s.mem.pollRev (scanAll scanEvent rows) }.pubEnd gs := by rw [e]
  have hx1 : R.2 = pubPause (scanAll scanEvent rows) (nextPollRevision s.mem.pollRev (scanAll scanEvent rows)) j b gs := by rw [e]
  by_cases hi : i ∈ s.mem.map
  · refine ⟨n, hn.reach, hn.sys, hn.over, ?_, hn.group.same hsame rfl⟩
    dsimp only
    rw [hm1, hx1]
    have him := (hperm i).2 hi
    cases gs with
    | nil => cases him
    | cons g rest =>
      exact .pend j b rows g rest rfl hnod (fun x hx => (hperm x).1 hx) him (by rw [hrev]; rfl) q
  · obtain ⟨ns, nn⟩ := n
    have st := NStep.pollPublish ns nn rows q
    change nn.pollRevision = s.mem.pollRev at hrev
    have hg : (nn.publishEvents (scanAll scanEvent rows)).groups = nn.groups := publish_none (hn.group.not_inMap hi)
    have hr' : (nn.publishEvents (scanAll scanEvent rows)).pollRevision = nextPollRevision s.mem.pollRev (scanAll scanEvent rows) := by
      show nextPollRevision nn.pollRevision _ = _
      rw [hrev]
    cases hgs' : gs with
    | nil =>
      subst hgs'
      obtain ⟨n', h1, h2, h3, h4, h5⟩ := pause_rel (i := i) (m := R.1) (.step hn.reach st) (by rw [hm1]; rfl) (by rw [hm1]; exact hr') rfl j b
      refine ⟨n', h1, h2.trans hn.sys, h3.trans hn.over, ?_, hn.group.same hsame (h4.trans hg)⟩
      dsimp only
      rw [hx1]
      have : R.1.pollRev = nextPollRevision s.mem.pollRev (scanAll scanEvent rows) := by rw [hm1]; rfl
      rw [this] at h5
      exact h5
    | cons g rest =>
      subst hgs'
      refine ⟨_, .step hn.reach st, hn.sys, hn.over, ?_, hn.group.same hsame hg⟩
      dsimp only
      rw [hm1, hx1]
      exact .past j b _ g rest rfl hnod (fun x hx => (hperm x).1 hx) (fun hx => hi ((hperm i).1 hx)) hr' rfl

end Verif.Go
