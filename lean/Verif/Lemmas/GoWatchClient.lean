import Verif.Lemmas.GoWatchInv
/-!
# Steps of `Watch` and `Unwatch`
-/

namespace Verif.Go

open Verif.GoText

theorem filter_views {L : List (Int × Nat)} {M : List Watcher} {v : Int × Nat → Int × List UInt8 × List UInt8 × Bool × List V} (hv : ∀ p, (v p).1 = p.1)
    (h : L.map v = M.map Watcher.view) (id : Int) :
    (L.filter fun p => decide (p.1 ≠ id)).map v = (removeWatcher M id).map Watcher.view := by
  have e1 : (L.filter fun p => decide (p.1 ≠ id)) = L.filter ((fun y : Int × List UInt8 × List UInt8 × Bool × List V => decide (y.1 ≠ id)) ∘ v) :=
    List.filter_congr fun p _ => by show _ = decide ((v p).1 ≠ id); rw [hv]
  have e2 : removeWatcher M id = M.filter ((fun y : Int × List UInt8 × List UInt8 × Bool × List V => decide (y.1 ≠ id)) ∘ Watcher.view) := rfl
  rw [e1, e2, ← List.filter_map, ← List.filter_map, h]

theorem mem_removeWatcher {M : List Watcher} {id : Int} {x : Watcher} (h : x ∈ removeWatcher M id) : x ∈ M := (List.mem_filter.1 h).1

/-- The watcher `w` is the one with id `id`: a change to it. -/
theorem change_views {m m' : WatchMem} {L : List (Int × Nat)} {M : List Watcher} {id : Int} {w : Nat} {f : Watcher → Watcher} (hw : (id, w) ∈ L)
    (h1 : (L.map (·.1)).Nodup) (h2 : (L.map (·.2)).Nodup) (h : L.map m.view = M.map Watcher.view)
    (ho : ∀ i, i ≠ w → m'.wat i = m.wat i) (hf : ∀ x, m.view (id, w) = x.view → m'.view (id, w) = (f x).view) :
    L.map m'.view = (updateWatcher M id f).map Watcher.view := by
  induction L generalizing M with
  | nil => cases hw
  | cons p L ih =>
    cases M with
    | nil => cases h
    | cons x M =>
      rw [List.map_cons, List.map_cons] at h
      obtain ⟨e, h'⟩ := List.cons.inj h
      rw [List.map_cons, List.nodup_cons] at h1 h2
      have hid : p.1 = x.id := congrArg Prod.fst e
      show m'.view p :: L.map m'.view = Watcher.view (if x.id = id then f x else x) :: (updateWatcher M id f).map Watcher.view
      have keep : ∀ (L : List (Int × Nat)) (M : List Watcher), L.map m.view = M.map Watcher.view → (∀ q ∈ L, q.1 ≠ id ∧ q.2 ≠ w) →
          L.map m'.view = (updateWatcher M id f).map Watcher.view := by
        intro L
        induction L with
        | nil =>
          intro M h _
          cases M with
          | nil => rfl
          | cons _ _ => cases h
        | cons q L ih =>
          intro M h hne
          cases M with
          | nil => cases h
          | cons x M =>
            rw [List.map_cons, List.map_cons] at h
            obtain ⟨e, h'⟩ := List.cons.inj h
            have hid : q.1 = x.id := congrArg Prod.fst e
            show m'.view q :: L.map m'.view = Watcher.view (if x.id = id then f x else x) :: (updateWatcher M id f).map Watcher.view
            rw [if_neg (by rw [← hid]; exact (hne q (by simp)).1), ih M h' fun q' hq' => hne q' (by simp [hq']), ← e]
            congr 1
            unfold WatchMem.view
            rw [ho _ (hne q (by simp)).2]
      by_cases hp : p = (id, w)
      · subst hp
        rw [if_pos hid.symm, hf x e, keep L M h']
        intro q hq
        exact ⟨fun e => h1.1 (List.mem_map.2 ⟨q, hq, e⟩), fun e => h2.1 (List.mem_map.2 ⟨q, hq, e⟩)⟩
      · have hm : (id, w) ∈ L := by
          rcases List.mem_cons.1 hw with e | e
          · exact absurd e.symm hp
          · exact e
        have hn1 : p.1 ≠ id := fun e => h1.1 (List.mem_map.2 ⟨_, hm, e.symm⟩)
        have hn2 : p.2 ≠ w := fun e => h2.1 (List.mem_map.2 ⟨_, hm, e.symm⟩)
        rw [if_neg (by rw [← hid]; exact hn1), ih hm h1.2 h2.2 h', ← e]
        congr 1
        unfold WatchMem.view
        rw [ho _ hn2]

theorem updateWatcher_mem {M : List Watcher} {id : Int} {f : Watcher → Watcher} {y : Watcher} (h : y ∈ updateWatcher M id f) :
    ∃ x ∈ M, (x.id = id ∧ y = f x) ∨ (x.id ≠ id ∧ y = x) := by
  obtain ⟨x, hx, e⟩ := List.mem_map.1 h
  refine ⟨x, hx, ?_⟩
  by_cases he : x.id = id
  · rw [if_pos he] at e; exact .inl ⟨he, e.symm⟩
  · rw [if_neg he] at e; exact .inr ⟨he, e.symm⟩

theorem WRole.not_poll {r : WRole} {i : Nat} (h : r.grp = some i) : r ≠ .poll := by rintro rfl; cases h

/-- A step of a client that changes no memory. -/
theorem Sim.clientStep {s s' : WSys} (h : Sim s) {i t : Nat} {r : WRole} {x x' : Tw} (ht : s.thr t = some ⟨r, x⟩) (hc : s.client i = some t)
    (hmem : MInv s'.mem) (hthr : s'.thr = fun u => if u = t then some ⟨r, x'⟩ else s.thr u) (hnt : s'.nt = s.nt) (hclient : s'.client = s.client) (hus : s'.used = s.used)
    (hlos : ∀ j, j ≠ i → s'.lossy j = s.lossy j) (hov : s'.overtaken = s.overtaken) (hsys : s'.sys = s.sys)
    (hng : s'.mem.ng = s.mem.ng) (hgrp : ∃ f : GMem → GMem, (∀ y, (f y).stop = y.stop) ∧ ∀ j, s'.mem.grp j = if j = i then f (s.mem.grp j) else s.mem.grp j)
    (hmap : s'.mem.map = s.mem.map) (haft : s'.mem.aft = s.mem.aft)
    (hrev : s'.mem.pollRev = s.mem.pollRev) (hown : s'.mem.owner = s.mem.owner) (hnw : s'.mem.nw = s.mem.nw)
    (hwat : ∀ w, s'.mem.wat w = s.mem.wat w ∨ (s.mem.wat w).grp = some i ∨ Pend s t w)
    (hx : ∀ g id lo hi start w, x' ≠ watchLockT g id lo hi start w)
    (own : Goes i s s') : Sim s' := by
  have hr := h.client_role hc ht
  obtain ⟨f, hf, hgrp⟩ := hgrp
  have hpend : ∀ u w, Pend s u w → u ≠ t → s'.mem.wat w = s.mem.wat w := by
    intro u w hp hu
    rcases hwat w with e | e | e
    · exact e
    · rw [(h.inv.pend u w hp).2] at e; cases e
    · exact absurd (h.inv.pendInj u t w hp e) hu
  have hst : ∀ g, (s'.mem.grp g).stop = (s.mem.grp g).stop := by
    intro g
    rw [hgrp]
    split
    · exact hf _
    · rfl
  refine h.side ?_ hsys hov (.of ht (WRole.not_poll hr) hthr hrev hown fun _ => hmap) i ?_ own
  · refine h.inv.step ht hthr hnt hclient hus hmem (Nat.le_of_eq hng.symm) (fun g _ => hst g) (fun b u _ e => by rw [haft]; exact e) (Nat.le_of_eq hnw.symm)
      (fun u w hp hu => by rw [hpend u w hp hu]) hx (fun e => by subst e; cases hr) (fun g hg => ?_) (fun a e => by subst e; cases hr)
    rw [hr] at hg
    cases hg
    exact .inl hc
  · intro j hj
    refine h.others hj ht hr hthr hclient hus (hlos j hj) hng (by rw [hgrp, if_neg hj]) ?_ hmap haft (fun u w hu hp => hpend u w hp hu) hsys
    intro hlt p hp
    have hg := (h.inv.mem.refs j hlt p hp).2
    rcases hwat p.2 with e | e | e
    · exact e
    · rw [hg] at e
      cases e
      exact absurd rfl hj
    · rw [(h.inv.pend t p.2 e).2] at hg
      cases hg

theorem grp_keep (s : WSys) (i : Nat) : ∃ f : GMem → GMem, (∀ y, (f y).stop = y.stop) ∧ ∀ j, s.mem.grp j = if j = i then f (s.mem.grp j) else s.mem.grp j :=
  ⟨fun y => y, fun _ => rfl, fun j => by split <;> rfl⟩

/-- A step of a client that changes no memory: the model of its group. -/
theorem GRel.quiet {i : Nat} {s s' : WSys} {g g' : Group} (h : GRel i s g) {t : Nat} {r : WRole} {x x' : Tw} (ht : s.thr t = some ⟨r, x⟩)
    (hr : r.grp = some i) (hcl : s.client i = some t) (hthr : s'.thr = fun u => if u = t then some ⟨r, x'⟩ else s.thr u) (hclient : s'.client i = s.client i)
    (hus : s'.used i = s.used i) (hmem : s'.mem = s.mem) (hlos : s'.lossy i = s.lossy i)
    (hg : g' = { g with call := g'.call, answers := g'.answers })
    (hat : ClientAt s' i g' r x') (hans : ∀ id lo hi start c vs, r = .watch i id lo hi start c → x' = .ret vs → Answered g' id start c vs)
    (hmono : ∀ y ∈ g.answers, y ∈ g'.answers) : GRel i s' g' := by
  have hw : g'.watchers = g.watchers := by rw [hg]
  have hu : g'.used = g.used := by rw [hg]
  refine h.callStep ht hr hcl hthr hclient hus ⟨(s.mem.grp i).watchers, by rw [hmem]⟩ (by rw [hmem]) (by rw [hmem]) (by rw [hmem, hw]; exact h.views)
    (fun y hy => by rw [hlos]; exact h.marks y (hw ▸ hy)) ?_ hat hans hmono (by rw [hu]; exact h.used)
  rw [hw, hu, ← hg]

/-- A step of a client that changes no memory. -/
theorem Sim.clientQuiet {s s' : WSys} (h : Sim s) {i t : Nat} {r : WRole} {x x' : Tw} (ht : s.thr t = some ⟨r, x⟩) (hc : s.client i = some t)
    (hmem : s'.mem = s.mem) (hthr : s'.thr = fun u => if u = t then some ⟨r, x'⟩ else s.thr u) (hnt : s'.nt = s.nt) (hclient : s'.client = s.client) (hus : s'.used = s.used)
    (hlos : ∀ j, j ≠ i → s'.lossy j = s.lossy j) (hov : s'.overtaken = s.overtaken) (hsys : s'.sys = s.sys)
    (hx : ∀ g id lo hi start w, x' ≠ watchLockT g id lo hi start w)
    (own : Goes i s s') : Sim s' := by
  refine h.clientStep ht hc (by rw [hmem]; exact h.inv.mem) hthr hnt hclient hus hlos hov hsys (by rw [hmem]) ?_ (by rw [hmem]) (by rw [hmem]) (by rw [hmem])
    (by rw [hmem]) (by rw [hmem]) (fun w => .inl (by rw [hmem])) hx own
  rw [hmem]
  exact grp_keep s i

theorem exec_same {s : WSys} (h : Sim s) (out : Outcome) : ({ s.sys with world := s.sys.world.exec id out } : Sys) = s.sys := by
  rw [h.world.exec_id]

theorem Sim.owner_ne {s : WSys} (h : Sim s) {t : Nat} (ht : t ≠ 0) : s.mem.owner ≠ some t := by
  rcases h.owner with e | e
  · rw [e]; nofun
  · rw [e]; intro e; cases e; exact ht rfl

theorem Sim.client_ne {s : WSys} (h : Sim s) {i t : Nat} (hc : s.client i = some t) : t ≠ 0 := by
  rintro rfl
  obtain ⟨x, hx⟩ := h.inv.first
  have := h.client_role hc hx
  cases this

theorem run_watchCheck {o : Orders} {t : Nat} (m : WatchMem) (g : Nat) (id : Int) (lo hi : List UInt8) (start : Int) (w : Nat) (cur : Int)
    (p : Prog (Except ApiErr (Int × Int))) (ho : m.owner ≠ some t) :
    (watchCheckT g id lo hi start w cur p).run o t none m = (m, watchCheckT g id lo hi start w cur p) := by
  unfold watchCheckT
  rw [Tw.run, if_pos ⟨rfl, ho⟩]

theorem run_watchQuery {o : Orders} {t : Nat} (m : WatchMem) (g : Nat) (id : Int) (w : Nat) (p : Prog (Except ApiErr (List Row × Option Nat))) (ho : m.owner ≠ some t) :
    (watchQueryT g id w p).run o t none m = (m, watchQueryT g id w p) := by
  unfold watchQueryT
  rw [Tw.run, if_pos ⟨rfl, ho⟩]

theorem run_ret {o : Orders} {t : Nat} (m : WatchMem) (vs : List V) (ho : m.owner ≠ some t) : (Tw.ret vs).run o t none m = (m, .ret vs) := by
  rw [Tw.run, if_pos ⟨rfl, ho⟩]

/-- A statement of `GetCompactRevision`. -/
theorem Sim.checkExec {s : WSys} (h : Sim s) {t : Nat} {r : WRole} {eff : DB → DB} {k : Outcome → DB → Prog (Except ApiErr (Int × Int))} {ok : Int → Int → Tw}
    {er : ApiErr → Tw} (out : Outcome) (ht : s.thr t = some ⟨r, .check (.stmt eff k) ok er⟩) : Sim (s.exec t r eff out (.check (k out s.sys.world.db) ok er)) := by
  cases h.who ht with
  | poll x h0 hp => obtain ⟨n, _, hp⟩ := hp 0; exact hp.check_inv.elim
  | opn x e => exact nomatch e
  | client i r x hi hr hc =>
    obtain ⟨n, g, hn, hg, hG, hat⟩ := h.at hc ht
    obtain ⟨a, w, c, rfl, e, call, hw, hcr, hp⟩ := hat.check_inv
    obtain ⟨rfl, hp⟩ := hp
    have e' : Tw.check (k out s.sys.world.db) ok er = watchCheckT i a.id a.lo a.hi a.start w a.base (k out s.sys.world.db) := by
      unfold watchCheckT at *
      injection e with _ e1 e2
      rw [e1, e2]
    rw [e']
    refine h.clientQuiet ht hc rfl rfl rfl rfl rfl (fun _ _ => rfl) rfl (exec_same h out) (by exact fun _ _ _ _ _ _ => nofun) ?_
    have st := GroupStep.checkExec s.sys.world g a id k out call
    rw [h.world.exec_id] at st
    refine hn.own hg st hi (hG.quiet ht hr hc rfl rfl rfl rfl rfl rfl ?_ (by exact nofun) fun _ hy => hy)
    exact .check a _ w c rfl hw hcr (hp _ _)

theorem Sim.check_client {s : WSys} (h : Sim s) {t : Nat} {r : WRole} {p : Prog (Except ApiErr (Int × Int))} {ok : Int → Int → Tw} {er : ApiErr → Tw}
    (ht : s.thr t = some ⟨r, .check p ok er⟩) : ∃ i, i < s.mem.ng ∧ s.client i = some t := by
  cases h.who ht with
  | poll x h0 hp => obtain ⟨n, _, hp⟩ := hp 0; exact hp.check_inv.elim
  | opn x e => exact nomatch e
  | client i r x hi hr hc => exact ⟨i, hi, hc⟩

/-- `GetCompactRevision` returns. -/
theorem Sim.checkOk {s : WSys} (h : Sim s) (o : Orders) {t : Nat} {r : WRole} {x y : Int} {ok : Int → Int → Tw}
    {er : ApiErr → Tw} (ht : s.thr t = some ⟨r, .check (.ret (.ok (x, y))) ok er⟩) : Sim (s.resume o t r none s.mem (ok x y)) := by
  obtain ⟨i, hi, hc⟩ := h.check_client ht
  have hr := h.client_role hc ht
  have ho := h.owner_ne (h.client_ne hc)
  obtain ⟨n, g, hn, hg, hG, hat⟩ := h.at hc ht
  obtain ⟨a, w, c, rfl, e, call, hw, hcr, _⟩ := hat.check_inv
  have e' : ok x y = cond (decide (a.start < x)) (.ret [compactedV x y]) (watchQueryT i a.id w (Driver.afterPrefix a.lo a.hi (a.start - 1) a.base)) := by
    unfold watchCheckT at e
    injection e with _ e1 e2
    rw [e1]
  have st := GroupStep.checked s.sys.world g a (.ok (x, y)) call
  by_cases hlt : a.start < x
  · have e2 : (ok x y).run o t none s.mem = (s.mem, .ret [compactedV x y]) := by
      rw [e', show decide (a.start < x) = true by simpa using hlt, cond_true, run_ret _ _ ho]
    unfold WSys.resume
    rw [e2]
    refine h.clientQuiet ht hc rfl rfl rfl rfl rfl (fun _ _ => rfl) rfl rfl (by exact fun _ _ _ _ _ _ => nofun) ?_
    unfold Group.checked at st
    simp only [if_pos hlt] at st
    refine hn.own hg st hi (hG.quiet ht hr hc rfl rfl rfl rfl rfl rfl ?_ ?_ ?_)
    · exact .ret _ _ rfl
    · intro id lo hi' start c' vs e1 e2
      cases e1
      cases e2
      exact ⟨a, _, List.mem_append.2 (.inr (List.mem_singleton.2 rfl)), rfl, rfl, hcr, .compacted x y⟩
    · exact fun y hy => List.mem_append.2 (.inl hy)
  · have e2 : (ok x y).run o t none s.mem = (s.mem, watchQueryT i a.id w (Driver.afterPrefix a.lo a.hi (a.start - 1) a.base)) := by
      rw [e', show decide (a.start < x) = false by simpa using hlt, cond_false, run_watchQuery _ _ _ _ _ ho]
    unfold WSys.resume
    rw [e2]
    refine h.clientQuiet ht hc rfl rfl rfl rfl rfl (fun _ _ => rfl) rfl rfl (by exact fun _ _ _ _ _ _ => nofun) ?_
    unfold Group.checked at st
    simp only [if_neg hlt] at st
    refine hn.own hg st hi (hG.quiet ht hr hc rfl rfl rfl rfl rfl rfl ?_ (by exact nofun) fun _ hy => hy)
    exact .query a _ w c rfl hw hcr (all_queryLoop (E := fun e => e = id) rfl _)

theorem Sim.checkErr {s : WSys} (h : Sim s) (o : Orders) {t : Nat} {r : WRole} {x : ApiErr} {ok : Int → Int → Tw}
    {er : ApiErr → Tw} (ht : s.thr t = some ⟨r, .check (.ret (.error x)) ok er⟩) : Sim (s.resume o t r none s.mem (er x)) := by
  obtain ⟨i, hi, hc⟩ := h.check_client ht
  have hr := h.client_role hc ht
  have ho := h.owner_ne (h.client_ne hc)
  obtain ⟨n, g, hn, hg, hG, hat⟩ := h.at hc ht
  obtain ⟨a, w, c, rfl, e, call, hw, hcr, _⟩ := hat.check_inv
  have e' : er x = .ret [errV x] := by
    unfold watchCheckT at e
    injection e with _ e1 e2
    rw [e2]
  have st := GroupStep.checked s.sys.world g a (.error x) call
  unfold WSys.resume
  rw [e', run_ret _ _ ho]
  refine h.clientQuiet ht hc rfl rfl rfl rfl rfl (fun _ _ => rfl) rfl rfl (by exact fun _ _ _ _ _ _ => nofun) ?_
  refine hn.own hg st hi (hG.quiet ht hr hc rfl rfl rfl rfl rfl rfl ?_ ?_ ?_)
  · exact .ret _ _ rfl
  · intro id lo hi' start c' vs e1 e2
    cases e1
    cases e2
    exact ⟨a, _, List.mem_append.2 (.inr (List.mem_singleton.2 rfl)), rfl, rfl, hcr, .error x⟩
  · exact fun y hy => List.mem_append.2 (.inl hy)

/-- A statement of the initial query. -/
theorem Sim.queryExec {s : WSys} (h : Sim s) {i t : Nat} {r : WRole} {eff : DB → DB} {k : Outcome → DB → Prog (Except ApiErr (List Row × Option Nat))}
    {ok : List Row → Option Nat → Tw} {er : ApiErr → Tw} (out : Outcome) (ht : s.thr t = some ⟨r, .rows (.stmt eff k) ok er⟩) (hi : i < s.mem.ng)
    (hc : s.client i = some t) : Sim ((s.note r out).exec t r eff out (.rows (k out s.sys.world.db) ok er)) := by
  have hr := h.client_role hc ht
  obtain ⟨n, g, hn, hg, hG, hat⟩ := h.at hc ht
  obtain ⟨a, w, c, rfl, e, call, hw, hcr, hp⟩ := hat.rows_inv
  obtain ⟨rfl, hp⟩ := hp
  have e' : Tw.rows (k out s.sys.world.db) ok er = watchQueryT i a.id w (k out s.sys.world.db) := by
    unfold watchQueryT at *
    injection e with _ e1 e2
    rw [e1, e2]
  rw [e']
  refine h.clientQuiet ht hc rfl rfl rfl rfl rfl (fun j hj => ?_) rfl (exec_same h out) (by exact fun _ _ _ _ _ _ => nofun) ?_
  · funext b
    exact if_neg fun e => hj e.1
  have st := GroupStep.queryExec s.sys.world g a id k out call
  rw [h.world.exec_id] at st
  refine hn.own hg st hi (hG.callStep ht hr hc rfl rfl rfl ⟨(s.mem.grp i).watchers, rfl⟩ rfl rfl ?_ ?_ rfl ?_ (by exact nofun) (fun _ hy => hy) hG.used)
  · refine hG.views.trans ?_
    show _ = (updateWatcher g.watchers a.id _).map Watcher.view
    unfold updateWatcher
    rw [List.map_map]
    refine List.map_congr_left fun y _ => ?_
    show _ = Watcher.view (if y.id = a.id then _ else y)
    split <;> rfl
  · intro y hy
    obtain ⟨x, hx, h1 | h1⟩ := updateWatcher_mem hy
    · obtain ⟨h1, rfl⟩ := h1
      obtain ⟨m1, m2⟩ := hG.marks x hx
      refine ⟨?_, m2⟩
      show (x.lossy || decide (a.start ≤ s.sys.world.db.compactRev) || out.isTrunc) = if i = i ∧ x.id = a.id then _ else _
      rw [if_pos ⟨rfl, h1⟩, m1]
    · obtain ⟨h1, rfl⟩ := h1
      obtain ⟨m1, m2⟩ := hG.marks y hx
      refine ⟨?_, m2⟩
      show _ = if i = i ∧ y.id = a.id then _ else _
      rw [if_neg fun e => h1 e.2, m1]
  · exact .query a _ w c rfl hw hcr (hp _ _)

/-- The initial query returns. -/
theorem Sim.queryOk {s : WSys} (h : Sim s) (o : Orders) {i t : Nat} {r : WRole} {rs : List Row} {b : Option Nat}
    {ok : List Row → Option Nat → Tw} {er : ApiErr → Tw} (ht : s.thr t = some ⟨r, .rows (.ret (.ok (rs, b))) ok er⟩) (hi : i < s.mem.ng)
    (hc : s.client i = some t) : Sim (s.resume o t r none s.mem (ok rs b)) := by
  have hr := h.client_role hc ht
  obtain ⟨n, g, hn, hg, hG, hat⟩ := h.at hc ht
  obtain ⟨a, w, c, rfl, e, call, hw, hcr, hp⟩ := hat.rows_inv
  have e' : ok rs b = watchRowsT i w (scanAll scanEvent (rs, b)) := by
    unfold watchQueryT at *
    injection e with _ e1 e2
    rw [e1]
  have e2 : (watchRowsT i w (scanAll scanEvent (rs, b))).run o t none s.mem = (s.mem, watchRowsT i w (scanAll scanEvent (rs, b))) := rfl
  unfold WSys.resume
  rw [e', e2]
  refine h.clientQuiet ht hc rfl rfl rfl rfl rfl (fun _ _ => rfl) rfl rfl ?_ ?_
  · intro g id lo hi start w' e
    unfold watchRowsT watchLockT at e
    injection e with _ e
    cases e
  · exact hn.stay hg hi (hG.quiet ht hr hc rfl rfl rfl rfl rfl rfl (.rows a _ w c call hw hcr) (by exact nofun) fun _ hy => hy)

theorem Sim.queryErr {s : WSys} (h : Sim s) (o : Orders) {i t : Nat} {r : WRole} {x : ApiErr}
    {ok : List Row → Option Nat → Tw} {er : ApiErr → Tw} (ht : s.thr t = some ⟨r, .rows (.ret (.error x)) ok er⟩) (hi : i < s.mem.ng)
    (hc : s.client i = some t) : Sim (s.resume o t r none s.mem (er x)) := by
  have hr := h.client_role hc ht
  obtain ⟨n, g, hn, hg, hG, hat⟩ := h.at hc ht
  obtain ⟨a, w, c, rfl, e, call, hw, hcr, hp⟩ := hat.rows_inv
  have e' : er x = watchFailT i a.id x := by
    unfold watchQueryT at *
    injection e with _ e1 e2
    rw [e2]
  have e2 : (watchFailT i a.id x).run o t none s.mem = (s.mem, watchFailT i a.id x) := rfl
  unfold WSys.resume
  rw [e', e2]
  refine h.clientQuiet ht hc rfl rfl rfl rfl rfl (fun _ _ => rfl) rfl rfl ?_ ?_
  · intro g id lo hi start w' e
    unfold watchFailT watchLockT at e
    injection e with _ e
    cases e
  · exact hn.stay hg hi (hG.quiet ht hr hc rfl rfl rfl rfl rfl rfl (.fail a x w c call hw hcr) (by exact nofun) fun _ hy => hy)

theorem unwatch_grps (m : WatchMem) (i : Nat) (id : Int) :
    ∃ f : GMem → GMem, (∀ y, (f y).stop = y.stop) ∧ ∀ j, (m.unwatch i id).grp j = if j = i then f (m.grp j) else m.grp j :=
  ⟨fun x => { x with watchers := x.watchers.filter fun p => decide (p.1 ≠ id) }, fun _ => rfl, fun _ => rfl⟩

theorem unwatch_same (m : WatchMem) (i : Nat) (id : Int) : ∃ ws, (m.unwatch i id).grp i = { m.grp i with watchers := ws } :=
  ⟨(m.grp i).watchers.filter fun p => decide (p.1 ≠ id), if_pos rfl⟩

theorem register_grps (m : WatchMem) (i : Nat) (id : Int) (w : Nat) (b : Bool) :
    ∃ f : GMem → GMem, (∀ y, (f y).stop = y.stop) ∧ ∀ j, (m.register i id w b).grp j = if j = i then f (m.grp j) else m.grp j :=
  ⟨fun x => { x with watchers := x.watchers.filter (fun p => decide (p.1 ≠ id)) ++ [(id, w)] }, fun _ => rfl, fun _ => rfl⟩

theorem ready_other (m : WatchMem) (w : Nat) (es : List Event) {i : Nat} (h : i ≠ w) : (m.ready w es).wat i = m.wat i := if_neg h

theorem ready_same (m : WatchMem) (w : Nat) (es : List Event) :
    (m.ready w es).wat w = { m.wat w with events := es.map encEvent ++ (m.wat w).events, initialized := true } := if_pos rfl

theorem MInv.ready {m : WatchMem} (h : MInv m) (w : Nat) (es : List Event) : MInv (m.ready w es) :=
  h.setW w (fun x => { x with events := es.map encEvent ++ x.events, initialized := true }) fun _ => rfl

theorem unwatch_views {m : WatchMem} {i : Nat} {M : List Watcher} (h : (m.grp i).watchers.map m.view = M.map Watcher.view) (id : Int) :
    ((m.unwatch i id).grp i).watchers.map (m.unwatch i id).view = (removeWatcher M id).map Watcher.view := by
  have e : ((m.unwatch i id).grp i).watchers = (m.grp i).watchers.filter fun p => decide (p.1 ≠ id) := congrArg GMem.watchers (setG_same _ _ _)
  rw [e]
  exact filter_views (fun _ => rfl) h id

/-- A client has the mutex of its group. -/
theorem Sim.clientLock {s : WSys} (h : Sim s) (o : Orders) {i j t : Nat} {r : WRole} {k : Tw} (ht : s.thr t = some ⟨r, .lockW j k⟩) (hi : i < s.mem.ng)
    (hc : s.client i = some t) : Sim (s.resume o t r (some j) s.mem k) := by
  have hr := h.client_role hc ht
  have ho := h.owner_ne (h.client_ne hc)
  obtain ⟨n, g, hn, hg, hG, hat⟩ := h.at hc ht
  have hj := hat.lockW_inv
  subst hj
  have hnr : ∀ (vs : List V) (g : Nat) (id : Int) (lo hi : List UInt8) (start : Int) (w : Nat), (Tw.ret vs) ≠ watchLockT g id lo hi start w :=
    fun _ _ _ _ _ _ _ => nofun
  generalize e : Tw.lockW j k = x at hat
  cases hat with
  | ret => exact nomatch e
  | check => exact nomatch e
  | query => exact nomatch e
  | unwatch id idle =>
    have ek : k = .delWatcher j id (.unlockW j (.ret [])) := by unfold unwatchT at e; injection e
    unfold WSys.resume
    rw [ek, run_unwatch _ _ _ _ ho]
    refine h.clientStep ht hc (h.inv.mem.unwatch j id) rfl rfl rfl rfl (fun _ _ => rfl) rfl rfl rfl (unwatch_grps _ _ _) rfl rfl rfl rfl rfl
      (fun _ => .inl rfl) (hnr _) ?_
    refine hn.own hg (.unwatch _ g id idle) hi (hG.callStep ht hr hc rfl rfl rfl (unwatch_same _ _ _) rfl rfl (unwatch_views hG.views id) ?_ rfl (.ret _ _ idle)
      (by exact nofun) (fun _ hy => hy) hG.used)
    exact fun y hy => hG.marks y (mem_removeWatcher hy)
  | fail a er w c call hw hcr =>
    have ek : k = .delWatcher j a.id (.unlockW j (.ret [errV er])) := by unfold watchFailT at e; injection e
    unfold WSys.resume
    rw [ek, run_unwatch _ _ _ _ ho]
    refine h.clientStep ht hc (h.inv.mem.unwatch j a.id) rfl rfl rfl rfl (fun _ _ => rfl) rfl rfl rfl (unwatch_grps _ _ _) rfl rfl rfl rfl rfl
      (fun _ => .inl rfl) (hnr _) ?_
    refine hn.own hg (.queried _ g a (.error er) call) hi (hG.callStep ht hr hc rfl rfl rfl (unwatch_same _ _ _) rfl rfl (unwatch_views hG.views a.id) ?_ rfl (.ret _ _ rfl)
      ?_ (fun _ hy => List.mem_append.2 (.inl hy)) hG.used)
    · exact fun y hy => hG.marks y (mem_removeWatcher hy)
    · intro id lo hi' start c' vs e1 e2
      cases e1
      cases e2
      exact ⟨a, _, List.mem_append.2 (.inr (List.mem_singleton.2 rfl)), rfl, rfl, hcr, .error er⟩
  | rows a rs w c call hw hcr =>
    have hgw := (h.inv.mem.refs j hi _ hw).2
    obtain ⟨k', e1, e2⟩ := run_watchRows (o := o) (t := t) j w (scanAll scanEvent rs) s.mem ho hgw
    have ek : k = k' := by rw [e1] at e; injection e
    subst ek
    unfold WSys.resume
    rw [e2]
    refine h.clientStep ht hc (h.inv.mem.ready w _) rfl rfl rfl rfl (fun _ _ => rfl) rfl rfl rfl (grp_keep s j) rfl rfl rfl rfl rfl
      (fun w' => ?_) (hnr _) ?_
    · by_cases hw' : w' = w
      · subst hw'; exact .inr (.inl hgw)
      · exact .inl (ready_other _ _ _ hw')
    refine hn.own hg (.queried _ g a (.ok rs) call) hi (hG.callStep ht hr hc rfl rfl rfl ⟨(s.mem.grp j).watchers, rfl⟩ rfl rfl ?_ ?_ rfl (.ret _ _ rfl)
      ?_ (fun _ hy => List.mem_append.2 (.inl hy)) hG.used)
    · refine change_views (m := s.mem) hw (h.inv.mem.idsNodup j hi) (h.inv.mem.refsNodup j hi) hG.views (fun i hi => ready_other _ _ _ hi) fun x hx => ?_
      have e3 : (s.mem.wat w).events = x.events.map encEvent := congrArg (·.2.2.2.2) hx
      have e4 : (s.mem.wat w).lo = x.lo := congrArg (·.2.1) hx
      have e5 : (s.mem.wat w).hi = x.hi := congrArg (·.2.2.1) hx
      have e6 : a.id = x.id := congrArg (·.1) hx
      show WatchMem.view (s.mem.ready w _) (a.id, w) = _
      unfold WatchMem.view Watcher.view
      rw [ready_same]
      show (a.id, (s.mem.wat w).lo, (s.mem.wat w).hi, true, (scanAll scanEvent rs).map encEvent ++ (s.mem.wat w).events) = _
      rw [e3, e4, e5, e6, ← List.map_append]
    · intro y hy
      obtain ⟨x, hx, h1 | h1⟩ := updateWatcher_mem hy
      · obtain ⟨h1, rfl⟩ := h1
        exact hG.marks x hx
      · obtain ⟨h1, rfl⟩ := h1
        exact hG.marks y hx
    · intro id lo hi' start c' vs e1 e2
      cases e1
      cases e2
      exact ⟨a, _, List.mem_append.2 (.inr (List.mem_singleton.2 rfl)), rfl, rfl, hcr, .ok⟩
  | reg id lo hi' start c w idle hw hcr fresh hl ne hu =>
    obtain ⟨k', e1, e2⟩ := run_watchLock (o := o) (t := t) j id lo hi' start w s.mem ho
    have ek : k = k' := by rw [e1] at e; injection e
    have hpw : Pend s t w := ⟨j, id, lo, hi', start, c, by rw [ht, e]⟩
    subst ek
    unfold WSys.resume
    rw [e2]
    dsimp only
    generalize hx' : (if start > 0 then watchCheckT j id lo hi' start w (s.mem.grp j).cur Driver.getCompactRevision else .ret [.nil]) = x'
    have hx'' : ∀ g id lo hi start w, x' ≠ watchLockT g id lo hi start w := by
      intro _ _ _ _ _ _
      rw [← hx']
      split <;> nofun
    refine h.clientStep ht hc (h.inv.mem.register j id w _ (h.inv.pend t w hpw).1 (h.inv.pend t w hpw).2) rfl rfl rfl rfl (fun _ _ => rfl) rfl rfl rfl
      (register_grps _ _ _ _ _) rfl rfl rfl rfl rfl (fun w' => ?_) hx'' ?_
    · by_cases hw' : w' = w
      · subst hw'; exact .inr (.inr hpw)
      · exact .inl (register_wat_other _ _ _ _ _ hw')
    let a : WatchArgs := { id := id, lo := lo, hi := hi', start := start, base := g.currentRevision, compactThen := s.sys.world.db.compactRev }
    have hgw : (g.watch id lo hi' start s.sys.world.db.compactRev).watchers = removeWatcher g.watchers id ++ [a.watcher] := by
      unfold Group.watch
      dsimp only
      split <;> rfl
    have hgu : (g.watch id lo hi' start s.sys.world.db.compactRev).used = g.used ++ [id] := by
      unfold Group.watch
      dsimp only
      split <;> rfl
    refine hn.own hg (.watch _ g id lo hi' start idle fresh ne) hi (hG.callStep ht hr hc rfl rfl rfl ⟨_, register_grp_same _ _ _ _ _⟩ rfl rfl ?_ ?_ ?_ ?_
      ?_ ?_ ?_)
    · show ((s.mem.register j id w (decide ¬ start > 0)).grp j).watchers.map _ = _
      rw [register_grp_same, hgw, List.map_append, List.map_append]
      congr 1
      · refine (List.map_congr_left fun p hp => ?_).trans (filter_views (v := s.mem.view) (fun _ => rfl) hG.views id)
        have hne : p.2 ≠ w := by
          intro e
          have := (h.inv.mem.refs j hi p (List.mem_filter.1 hp).1).2
          rw [e, (h.inv.pend t w hpw).2] at this
          cases this
        unfold WatchMem.view
        rw [register_wat_other _ _ _ _ _ hne]
      · show [WatchMem.view _ (id, w)] = [_]
        unfold WatchMem.view WatchMem.register
        rw [setW_same, setG_wat, hw]
        simp [Watcher.view, WatchArgs.watcher, a]
    · intro y hy
      rw [hgw] at hy
      rcases List.mem_append.1 hy with hy | hy
      · exact hG.marks y (mem_removeWatcher hy)
      · rw [List.mem_singleton.1 hy]
        exact ⟨hl.symm, hu⟩
    · unfold Group.watch
      dsimp only
      split <;> rfl
    · rw [← hx']
      by_cases hs : start > 0
      · rw [if_pos hs, hG.cur]
        refine ClientAt.check a Driver.getCompactRevision w c ?_ ?_ hcr (all_getCompactRevision (E := fun e => e = _root_.id) rfl)
        · unfold Group.watch
          dsimp only
          rw [if_pos hs]
        · show (id, w) ∈ ((s.mem.register j id w (decide ¬ start > 0)).grp j).watchers
          rw [register_grp_same]
          exact List.mem_append.2 (.inr (List.mem_singleton.2 rfl))
      · rw [if_neg hs]
        refine .ret _ _ ?_
        unfold Group.watch
        dsimp only
        rw [if_neg hs]
        exact idle
    · intro id' lo' hi'' start' c' vs e1 e2
      cases e1
      rw [← hx'] at e2
      by_cases hs : start > 0
      · rw [if_pos hs] at e2
        exact nomatch e2
      · rw [if_neg hs] at e2
        cases e2
        refine ⟨a, .ok, ?_, rfl, rfl, hcr, .ok⟩
        unfold Group.watch
        dsimp only
        rw [if_neg hs]
        exact List.mem_append.2 (.inr (List.mem_singleton.2 rfl))
    · intro y hy
      unfold Group.watch
      dsimp only
      split
      · exact hy
      · exact List.mem_append.2 (.inl hy)
    · intro id' hid
      rw [hgu] at hid
      rcases List.mem_append.1 hid with hid | hid
      · exact hG.used id' hid
      · rw [List.mem_singleton.1 hid]
        exact ⟨_, hu, rfl⟩

end Verif.Go
