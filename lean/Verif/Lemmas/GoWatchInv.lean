import Verif.Lemmas.GoWatchFrame
/-!
# Where the goroutines of `watcher.go` can be
-/

namespace Verif.Go

open Verif.GoText

/-! ### What a goroutine with a given next action is -/

theorem PollRel.lockS_inv {i : Nat} {m : WatchMem} {n : Node} {k : Tw} (h : PollRel i m n (.lockS k)) :
    ∃ j b rows, .lockS k = publishEventsT (scanAll scanEvent rows) (pollT j b) ∧ m.owner = none ∧ n.pollRevision = m.pollRev ∧ n.poll = .querying (.ret (.ok rows)) := by
  generalize e : Tw.lockS k = x at h
  cases h with
  | out => exact nomatch e
  | ret => exact nomatch e
  | sel => exact nomatch e
  | qry => exact nomatch e
  | lock j b rows free rev q => exact ⟨j, b, rows, rfl, free, rev, q⟩
  | pend => exact nomatch e
  | past => exact nomatch e

theorem PollRel.lockW_inv {i g : Nat} {m : WatchMem} {n : Node} {k : Tw} (h : PollRel i m n (.lockW g k)) :
    ∃ j b es rest, Tw.lockW g k = pubAt es m.pollRev g rest (pollT j b) ∧ m.owner = some 0 ∧ (g :: rest).Nodup ∧ (∀ x ∈ g :: rest, x ∈ m.map) ∧
      (if i ∈ g :: rest then ∃ rows, es = scanAll scanEvent rows ∧ m.pollRev = nextPollRevision n.pollRevision es ∧ n.poll = .querying (.ret (.ok rows))
       else n.pollRevision = m.pollRev ∧ n.poll = .idle) := by
  generalize e : Tw.lockW g k = x at h
  cases h with
  | out => exact nomatch e
  | ret => exact nomatch e
  | sel => exact nomatch e
  | qry => exact nomatch e
  | lock => exact nomatch e
  | pend j b rows g' rest held nodup sub mem rev q =>
    have : g = g' := by unfold pubAt publishLockT at e; injection e
    subst this
    exact ⟨j, b, _, rest, rfl, held, nodup, sub, by rw [if_pos mem]; exact ⟨rows, rfl, rev, q⟩⟩
  | past j b es g' rest held nodup sub mem rev idle =>
    have : g = g' := by unfold pubAt publishLockT at e; injection e
    subst this
    exact ⟨j, b, es, rest, rfl, held, nodup, sub, by rw [if_neg mem]; exact ⟨rev, idle⟩⟩

theorem PollRel.rows_inv {i : Nat} {m : WatchMem} {n : Node} {p : Prog (Except ApiErr (List Row × Option Nat))} {ok : List Row → Option Nat → Tw} {er : ApiErr → Tw}
    (h : PollRel i m n (.rows p ok er)) :
    ∃ b j, Tw.rows p ok er = pollQueryT b (pollT j) p ∧ m.owner = none ∧ n.pollRevision = m.pollRev ∧ n.poll = .querying p ∧ AllStmts (fun e => e = id) p := by
  generalize e : Tw.rows p ok er = x at h
  cases h with
  | out => exact nomatch e
  | ret => exact nomatch e
  | sel => exact nomatch e
  | qry b j p' free rev q hp =>
    have : p = p' := by unfold pollQueryT at e; injection e
    subst this
    exact ⟨b, j, rfl, free, rev, q, hp⟩
  | lock => exact nomatch e
  | pend => exact nomatch e
  | past => exact nomatch e

theorem PollRel.select_inv {i : Nat} {m : WatchMem} {n : Node} {a c : Tw} {b : Int → Tw} (h : PollRel i m n (.pollSelect a b c)) :
    ∃ j, Tw.pollSelect a b c = pollStepT true (pollT j) ∧ m.owner = none ∧ n.pollRevision = m.pollRev ∧ n.poll = .idle := by
  generalize e : Tw.pollSelect a b c = x at h
  cases h with
  | out => exact nomatch e
  | ret => exact nomatch e
  | sel j free rev idle => exact ⟨j, rfl, free, rev, idle⟩
  | qry => exact nomatch e
  | lock => exact nomatch e
  | pend => exact nomatch e
  | past => exact nomatch e

theorem PollRel.check_inv {i : Nat} {m : WatchMem} {n : Node} {p : Prog (Except ApiErr (Int × Int))} {ok : Int → Int → Tw} {er : ApiErr → Tw}
    (h : PollRel i m n (.check p ok er)) : False := by
  generalize e : Tw.check p ok er = x at h
  cases h <;> exact nomatch e

theorem ClientAt.lockS_inv {s : WSys} {i : Nat} {g : Group} {r : WRole} {k : Tw} (h : ClientAt s i g r (.lockS k)) : False := by
  generalize e : Tw.lockS k = x at h
  cases h <;> exact nomatch e

theorem ClientAt.select_inv {s : WSys} {i : Nat} {g : Group} {r : WRole} {a c : Tw} {b : Int → Tw} (h : ClientAt s i g r (.pollSelect a b c)) : False := by
  generalize e : Tw.pollSelect a b c = x at h
  cases h <;> exact nomatch e

theorem ClientAt.check_inv {s : WSys} {i : Nat} {g : Group} {r : WRole} {p : Prog (Except ApiErr (Int × Int))} {ok : Int → Int → Tw} {er : ApiErr → Tw}
    (h : ClientAt s i g r (.check p ok er)) :
    ∃ a w c, r = .watch i a.id a.lo a.hi a.start c ∧ Tw.check p ok er = watchCheckT i a.id a.lo a.hi a.start w a.base p ∧ g.call = .check a p ∧
      (a.id, w) ∈ (s.mem.grp i).watchers ∧ c ≤ a.compactThen ∧ AllStmts (fun e => e = id) p := by
  generalize e : Tw.check p ok er = x at h
  cases h with
  | check a p' w c call hw hc hp =>
    have : p = p' := by unfold watchCheckT at e; injection e
    subst this
    exact ⟨a, w, c, rfl, rfl, call, hw, hc, hp⟩
  | _ => exact nomatch e

theorem ClientAt.rows_inv {s : WSys} {i : Nat} {g : Group} {r : WRole} {p : Prog (Except ApiErr (List Row × Option Nat))} {ok : List Row → Option Nat → Tw}
    {er : ApiErr → Tw} (h : ClientAt s i g r (.rows p ok er)) :
    ∃ a w c, r = .watch i a.id a.lo a.hi a.start c ∧ Tw.rows p ok er = watchQueryT i a.id w p ∧ g.call = .query a p ∧
      (a.id, w) ∈ (s.mem.grp i).watchers ∧ c ≤ a.compactThen ∧ AllStmts (fun e => e = id) p := by
  generalize e : Tw.rows p ok er = x at h
  cases h with
  | query a p' w c call hw hc hp =>
    have : p = p' := by unfold watchQueryT at e; injection e
    subst this
    exact ⟨a, w, c, rfl, rfl, call, hw, hc, hp⟩
  | _ => exact nomatch e

theorem ClientAt.ret_inv {s : WSys} {i : Nat} {g : Group} {r : WRole} {vs : List V} (h : ClientAt s i g r (.ret vs)) : g.call = .idle := by
  generalize e : Tw.ret vs = x at h
  cases h with
  | ret r vs idle => exact idle
  | _ => exact nomatch e

/-- A goroutine that is about to lock the mutex of a group for a client. -/
theorem ClientAt.lockW_inv {s : WSys} {i j : Nat} {g : Group} {r : WRole} {k : Tw} (h : ClientAt s i g r (.lockW j k)) : j = i := by
  generalize e : Tw.lockW j k = x at h
  cases h with
  | ret => exact nomatch e
  | unwatch id idle => unfold unwatchT at e; injection e
  | reg => unfold watchLockT at e; injection e
  | check => exact nomatch e
  | query => exact nomatch e
  | rows => unfold watchRowsT at e; injection e
  | fail => unfold watchFailT at e; injection e

/-- Who a goroutine is. -/
inductive Who (s : WSys) (t : Nat) : WRole → Tw → Prop where
  | poll (x : Tw) (h0 : t = 0) (h : ∀ i, ∃ n, WRel i s n ∧ PollRel i s.mem n.node x) : Who s t .poll x
  | opn (x : Tw) (h : x = openLockT) : Who s t .opn x
  | ret (r : WRole) (vs : List V) : Who s t r (.ret vs)
  | cancel (a g : Nat) (hg : g < s.mem.ng) (hs : (s.mem.grp g).stop = some a) (ha : s.mem.aft a = .running t) : Who s t (.cancel a) (cancelT g)
  | client (i : Nat) (r : WRole) (x : Tw) (hi : i < s.mem.ng) (hr : r.grp = some i) (hc : s.client i = some t) : Who s t r x

theorem Sim.who {s : WSys} (h : Sim s) {t : Nat} {r : WRole} {x : Tw} (ht : s.thr t = some ⟨r, x⟩) : Who s t r x := by
  have hcl : ∀ i, r.grp = some i → Who s t r x := by
    intro i hr
    obtain ⟨hi, h2⟩ := h.inv.call t r x i ht hr
    rcases h2 with h2 | ⟨vs, rfl⟩
    · exact .client i r x hi hr h2
    · exact .ret r vs
  cases r with
  | poll =>
    have h0 := h.inv.poll t x ht
    refine .poll x h0 fun i => ?_
    obtain ⟨n, hn⟩ := h.rel i
    exact ⟨n, hn, hn.poll x (h0 ▸ ht)⟩
  | opn =>
    rcases h.inv.opn t x ht with rfl | ⟨vs, rfl⟩
    · exact .opn _ rfl
    · exact .ret _ vs
  | cancel a =>
    obtain ⟨g, h1, h2, h3, h4⟩ := h.inv.cancel t a x ht
    rcases h4 with rfl | rfl
    · exact .cancel a g h1 h2 h3
    · exact .ret _ _
  | watch g id lo hi start c => exact hcl g rfl
  | unwatch g id => exact hcl g rfl

/-- The model of a group that exists. -/
theorem WRel.grel {i : Nat} {s : WSys} {n : NSys} (h : WRel i s n) (hi : i < s.mem.ng) : ∃ g, n.node.groups = [g] ∧ GRel i s g := by
  have := h.group
  unfold GroupRel at this
  rw [if_pos hi] at this
  exact this

theorem Sim.client_role {s : WSys} (h : Sim s) {i t : Nat} (hc : s.client i = some t) {r : WRole} {x : Tw} (ht : s.thr t = some ⟨r, x⟩) : r.grp = some i := by
  obtain ⟨n, hn⟩ := h.rel i
  obtain ⟨g, _, hg⟩ := hn.grel (h.inv.client i t hc)
  obtain ⟨r', x', h1, h2, _⟩ := hg.call t hc
  rw [ht] at h1
  cases h1
  exact h2

theorem Sim.at {s : WSys} (h : Sim s) {i t : Nat} (hc : s.client i = some t) {r : WRole} {x : Tw} (ht : s.thr t = some ⟨r, x⟩) :
    ∃ n g, WRel i s n ∧ n.node.groups = [g] ∧ GRel i s g ∧ ClientAt s i g r x := by
  obtain ⟨n, hn⟩ := h.rel i
  obtain ⟨g, h0, hg⟩ := hn.grel (h.inv.client i t hc)
  obtain ⟨r', x', h1, h2, h3⟩ := hg.call t hc
  rw [ht] at h1
  cases h1
  exact ⟨n, g, hn, h0, hg, h3⟩

theorem Sim.world {s : WSys} (h : Sim s) : Inv s.sys.world := by
  obtain ⟨n, hn⟩ := h.rel 0
  have := hn.reach.reachable.inv
  rw [hn.sys] at this
  exact this

theorem Sim.reachable {s : WSys} (h : Sim s) : Reachable s.sys := by
  obtain ⟨n, hn⟩ := h.rel 0
  have := hn.reach.reachable
  rw [hn.sys] at this
  exact this

theorem Sim.owner {s : WSys} (h : Sim s) : s.mem.owner = none ∨ s.mem.owner = some 0 := by
  obtain ⟨n, hn⟩ := h.rel 0
  obtain ⟨x, hx⟩ := h.inv.first
  exact (hn.poll x hx).owner

/-! ### Steps that leave the poller alone -/

/-- The poller, and what it looks at, as before. -/
structure PSame (s s' : WSys) : Prop where
  thr : ∀ x, s'.thr 0 = some ⟨.poll, x⟩ → s.thr 0 = some ⟨.poll, x⟩
  rev : s'.mem.pollRev = s.mem.pollRev
  owner : s'.mem.owner = s.mem.owner
  map : s.mem.owner = some 0 → s'.mem.map = s.mem.map

/-- The model of a group does, perhaps, a step. -/
def Goes (j : Nat) (s s' : WSys) : Prop :=
  ∃ n n', WRel j s n ∧ NReachable n' ∧ n'.sys = n.sys ∧ n'.node.overtaken = n.node.overtaken ∧ n'.node.pollRevision = n.node.pollRevision ∧
    n'.node.poll = n.node.poll ∧ GroupRel j s' n'.node

theorem Sim.side {s s' : WSys} (h : Sim s) (inv' : TInv s') (hsys : s'.sys = s.sys) (hov : s'.overtaken = s.overtaken) (ps : PSame s s') (j : Nat)
    (others : ∀ i, i ≠ j → Same i s s')
    (own : Goes j s s') : Sim s' := by
  refine ⟨inv', fun i => ?_⟩
  by_cases hi : i = j
  · subst hi
    obtain ⟨n, n', hn, h1, h2, h3, h4, h5, h6⟩ := own
    exact ⟨n', h1, by rw [h2, hsys]; exact hn.sys, by rw [h3, hov]; exact hn.over,
      fun x hx => (hn.poll x (ps.thr x hx)).frame ps.rev ps.owner ps.map h4 h5, h6⟩
  · obtain ⟨n, hn⟩ := h.rel i
    exact ⟨n, hn.reach, by rw [hsys]; exact hn.sys, by rw [hov]; exact hn.over,
      fun x hx => (hn.poll x (ps.thr x hx)).frame ps.rev ps.owner ps.map rfl rfl, hn.group.same (others i hi) rfl⟩

/-- A step of the model of a group alone. -/
theorem WRel.own {j : Nat} {s s' : WSys} {n : NSys} (h : WRel j s n) {g g' : Group} (hg : n.node.groups = [g]) (st : GroupStep s.sys.world g s.sys.world g')
    (hj : j < s'.mem.ng) (hG : GRel j s' g') :
    Goes j s s' := by
  obtain ⟨ns, nn⟩ := n
  have hs := h.sys
  change ns = s.sys at hs
  rw [← hs] at st
  refine ⟨_, _, h, .step h.reach (.group ns nn ns.world [] [] g g' hg st), rfl, rfl, rfl, rfl, ?_⟩
  unfold GroupRel
  rw [if_pos hj]
  exact ⟨g', rfl, hG⟩

/-- The model of a group stays where it is. -/
theorem WRel.stay {j : Nat} {s s' : WSys} {n : NSys} (h : WRel j s n) {g : Group} (hg : n.node.groups = [g]) (hj : j < s'.mem.ng) (hG : GRel j s' g) :
    Goes j s s' := by
  refine ⟨n, n, h, h.reach, rfl, rfl, rfl, rfl, ?_⟩
  unfold GroupRel
  rw [if_pos hj]
  exact ⟨g, hg, hG⟩

theorem WRel.stay' {j : Nat} {s s' : WSys} {n : NSys} (h : WRel j s n) (k : Same j s s') :
    Goes j s s' :=
  ⟨n, n, h, h.reach, rfl, rfl, rfl, rfl, h.group.same k rfl⟩

/-- One group after a step of its client. -/
theorem GRel.callStep {i : Nat} {s s' : WSys} {g g' : Group} (h : GRel i s g) {t : Nat} {r : WRole} {x x' : Tw} (ht : s.thr t = some ⟨r, x⟩)
    (hr : r.grp = some i) (hcl : s.client i = some t) (hthr : s'.thr = fun u => if u = t then some ⟨r, x'⟩ else s.thr u) (hclient : s'.client i = s.client i)
    (hus : s'.used i = s.used i) (hgrp : ∃ ws, s'.mem.grp i = { s.mem.grp i with watchers := ws }) (hmap : s'.mem.map = s.mem.map)
    (haft : s'.mem.aft = s.mem.aft) (hviews : (s'.mem.grp i).watchers.map s'.mem.view = g'.watchers.map Watcher.view)
    (hmarks : ∀ y ∈ g'.watchers, y.lossy = s'.lossy i y.id ∧ (y.id, y.start, y.lo, y.hi) ∈ s.used i)
    (hg : g' = { g with watchers := g'.watchers, call := g'.call, used := g'.used, answers := g'.answers })
    (hat : ClientAt s' i g' r x') (hans : ∀ id lo hi start c vs, r = .watch i id lo hi start c → x' = .ret vs → Answered g' id start c vs)
    (hmono : ∀ y ∈ g.answers, y ∈ g'.answers) (hused : ∀ id ∈ g'.used, ∃ p ∈ s.used i, p.1 = id) : GRel i s' g' := by
  obtain ⟨ws, hgrp⟩ := hgrp
  have hcase : ∀ u r' y, s'.thr u = some ⟨r', y⟩ → (u = t ∧ r' = r ∧ y = x') ∨ (u ≠ t ∧ s.thr u = some ⟨r', y⟩) := by
    intro u r' y hu
    rw [hthr] at hu
    dsimp only at hu
    by_cases e : u = t
    · rw [if_pos e] at hu
      cases hu
      exact .inl ⟨e, rfl, rfl⟩
    · rw [if_neg e] at hu
      exact .inr ⟨e, hu⟩
  refine ⟨?_, ?_, hviews, fun y hy => ⟨(hmarks y hy).1, by rw [hus]; exact (hmarks y hy).2⟩, ?_, ?_, ?_, ?_, ?_, ?_, ?_, ?_, ?_, ?_, ?_, ?_⟩
  · rw [hgrp, hg]; exact h.cur
  · rw [hgrp]; exact h.cap
  · rw [hgrp, hg]; exact h.queue
  · rw [hgrp, hg]; exact h.received
  · rw [hgrp, hg]; exact h.closed
  · rw [hgrp, hg]; exact h.panicked
  · rw [hgrp, hg]; exact h.dropped
  · rw [hmap, hg]; exact h.inMap
  · intro a ha
    rw [hgrp] at ha
    rw [haft, hg]
    refine (h.aft a ha).same fun u z hz => ?_
    rw [hthr]
    dsimp only
    by_cases e : u = t
    · subst e
      rw [ht] at hz
      cases hz
      cases hr
    · rw [if_neg e]; exact hz
  · intro hn
    rw [hclient, hcl] at hn
    cases hn
  · intro u hu
    rw [hclient, hcl] at hu
    cases hu
    exact ⟨r, x', by rw [hthr]; exact if_pos rfl, hr, hat⟩
  · intro u id lo hi start c vs hu
    rcases hcase u _ _ hu with ⟨_, e1, e2⟩ | ⟨_, hu⟩
    · exact hans id lo hi start c vs e1.symm e2.symm
    · obtain ⟨a, ans, h1, h2⟩ := h.answers u id lo hi start c vs hu
      exact ⟨a, ans, hmono _ h1, h2⟩
  · rw [hus]; exact hused
  · rw [hus]; exact h.once

/-- The other groups after a step of a client. -/
theorem Sim.others {s s' : WSys} (h : Sim s) {i j : Nat} (hi : i ≠ j) {t : Nat} {r : WRole} {x x' : Tw} (ht : s.thr t = some ⟨r, x⟩) (hr : r.grp = some j)
    (hthr : s'.thr = fun u => if u = t then some ⟨r, x'⟩ else s.thr u) (hclient : s'.client = s.client) (hus : s'.used = s.used) (hlos : s'.lossy i = s.lossy i)
    (hng : s'.mem.ng = s.mem.ng) (hgrp : s'.mem.grp i = s.mem.grp i) (hwat : i < s.mem.ng → ∀ p ∈ (s.mem.grp i).watchers, s'.mem.wat p.2 = s.mem.wat p.2)
    (hmap : s'.mem.map = s.mem.map) (haft : s'.mem.aft = s.mem.aft) (hp : ∀ u w, u ≠ t → Pend s u w → s'.mem.wat w = s.mem.wat w)
    (hsys : s'.sys = s.sys) : Same i s s' := by
  refine ⟨by rw [hng], hgrp, hwat, by rw [hmap], fun _ a _ => by rw [haft], by rw [hclient], by rw [hus], hlos, ?_, ?_, by rw [hsys]; exact Int.le_refl _⟩
  · intro _ u r' y ha
    refine thr_resume ht hthr ?_ u y
    rintro rfl
    rcases ha with ha | ⟨a, rfl, _⟩
    · rw [hr] at ha
      cases ha
      exact hi rfl
    · cases hr
  · intro u w hc hw
    refine hp u w ?_ hw
    rintro rfl
    have := h.client_role hc ht
    rw [hr] at this
    cases this
    exact hi rfl

theorem PSame.of {s s' : WSys} {t : Nat} {r : WRole} {x x' : Tw} (ht : s.thr t = some ⟨r, x⟩) (hp : r ≠ .poll)
    (hthr : s'.thr = fun u => if u = t then some ⟨r, x'⟩ else s.thr u)
    (hrev : s'.mem.pollRev = s.mem.pollRev) (hown : s'.mem.owner = s.mem.owner) (hmap : s.mem.owner = some 0 → s'.mem.map = s.mem.map) : PSame s s' :=
  ⟨fun y hy => (thr_resume ht hthr (fun e => hp e.symm) 0 y).1 hy, hrev, hown, hmap⟩

end Verif.Go
