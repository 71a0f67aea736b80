import Verif.Lemmas.GoWatchPublish
/-!
# Every step of the goroutines of `watcher.go` is one of the model
-/

namespace Verif.Go

open Verif.GoText

/-- A group whose watchers stay as they are. -/
theorem GRel.shift {i : Nat} {s s' : WSys} {G G' : Group} (h : GRel i s G) {x : GMem} (hg : s'.mem.grp i = x) (e1 : x.cur = (s.mem.grp i).cur) (e2 : x.cap = (s.mem.grp i).cap)
    (e3 : x.watchers = (s.mem.grp i).watchers) (e4 : x.stop = (s.mem.grp i).stop)
    (hw : ∀ p ∈ (s.mem.grp i).watchers, s'.mem.wat p.2 = s.mem.wat p.2) (hp : ∀ t w, s.client i = some t → Pend s t w → s'.mem.wat w = s.mem.wat w)
    (hclient : s'.client = s.client) (hus : s'.used = s.used) (hlos : s'.lossy = s.lossy) (hsys : s'.sys = s.sys)
    (hthr : ∀ t r y, r.grp = some i → (s'.thr t = some ⟨r, y⟩ ↔ s.thr t = some ⟨r, y⟩))
    (g1 : G'.currentRevision = G.currentRevision) (g2 : G'.watchers = G.watchers) (g3 : G'.call = G.call) (g4 : G'.used = G.used) (g5 : G'.answers = G.answers)
    (n1 : Each UpdRel x.queue G'.queue) (n2 : Each UpdRel x.received G'.received) (n3 : x.closed = G'.closed) (n4 : x.panicked = G'.panicked) (n5 : x.dropped = G'.dropped)
    (n6 : G'.inMap = true ↔ i ∈ s'.mem.map) (n7 : ∀ a, (s.mem.grp i).stop = some a → AftRel i s'.thr a (s'.mem.aft a) G'.after) : GRel i s' G' := by
  refine ⟨by rw [hg, e1, g1]; exact h.cur, by rw [hg, e2]; exact h.cap, ?_, by rw [g2, hlos, hus]; exact h.marks, by rw [hg]; exact n1, by rw [hg]; exact n2,
    by rw [hg]; exact n3, by rw [hg]; exact n4, by rw [hg]; exact n5, n6, ?_, by rw [hclient, g3]; exact h.free, ?_, ?_, by rw [g4, hus]; exact h.used, by rw [hus]; exact h.once⟩
  · rw [hg, e3, g2, ← h.views]
    refine List.map_congr_left fun p hp => ?_
    unfold WatchMem.view
    rw [hw p hp]
  · intro a ha
    rw [hg, e4] at ha
    exact n7 a ha
  · intro t ht
    rw [hclient] at ht
    obtain ⟨r, y, h1, h2, h3⟩ := h.call t ht
    refine ⟨r, y, (hthr t r y h2).2 h1, h2, ?_⟩
    have hwm : ∀ q, q ∈ (s.mem.grp i).watchers → q ∈ (s'.mem.grp i).watchers := fun q hq => by rw [hg, e3]; exact hq
    cases h3 with
    | ret r vs idle => exact .ret _ _ (g3.trans idle)
    | unwatch id idle => exact .unwatch id (g3.trans idle)
    | reg id lo hi start c w idle hw hc fresh hl ne hu =>
      exact .reg id lo hi start c w (g3.trans idle) ((hp t w ht ⟨_, _, _, _, _, _, h1⟩).trans hw) (by rw [hsys]; exact hc) (by rw [g4]; exact fresh) (by rw [hlos]; exact hl) ne
        (by rw [hus]; exact hu)
    | check b p w c call hw hc hp => exact .check b p w c (g3.trans call) (hwm _ hw) hc hp
    | query b p w c call hw hc hp => exact .query b p w c (g3.trans call) (hwm _ hw) hc hp
    | rows b rs w c call hw hc => exact .rows b rs w c (g3.trans call) (hwm _ hw) hc
    | fail b e w c call hw hc => exact .fail b e w c (g3.trans call) (hwm _ hw) hc
  · intro t id lo hi start c vs ht
    obtain ⟨b, ans, h1, h2⟩ := h.answers t id lo hi start c vs ((hthr t _ _ rfl).1 ht)
    exact ⟨b, ans, by rw [g5]; exact h1, h2⟩

/-! ### `WatcherGroup` and the end of a context get the mutex of the backend -/

theorem Sim.openLock {s : WSys} (h : Sim s) (o : Orders) {t : Nat} {k : Tw} (ht : s.thr t = some ⟨.opn, .lockS k⟩) (e : Tw.lockS k = openLockT) (free : s.mem.owner = none) :
    Sim (s.resume o t .opn none { s.mem with owner := some t } k) := by
  obtain ⟨k', e1, e2⟩ := run_open (o := o) (t := t) { s.mem with owner := some t } rfl
  have ek : k = k' := by rw [e1] at e; injection e
  subst ek
  unfold WSys.resume
  rw [e2]
  have hne : ∀ g, g < s.mem.ng → g ≠ s.mem.ng := fun g hg => Nat.ne_of_lt hg
  have hgrp : ∀ i, i ≠ s.mem.ng → s.mem.opened.grp i = s.mem.grp i := fun i hi => if_neg hi
  have hmap : ∀ i, i ≠ s.mem.ng → (i ∈ s.mem.opened.map ↔ i ∈ s.mem.map) := by
    intro i hi
    show i ∈ s.mem.map.filter _ ++ [s.mem.ng] ↔ _
    rw [List.mem_append, mem_filter_ne, List.mem_singleton]
    exact ⟨fun h => h.elim (fun h => h.1) fun h => absurd h hi, fun h => .inl ⟨h, hi⟩⟩
  have haft : ∀ a, a < s.mem.na → s.mem.opened.aft a = s.mem.aft a := fun a ha => if_neg (Nat.ne_of_lt ha)
  refine h.side (s' := { s with mem := s.mem.opened, thr := fun i => if i = t then some ⟨.opn, .ret [groupV s.mem.ng, .nil]⟩ else s.thr i })
    (h.inv.step ht rfl rfl rfl rfl h.inv.mem.opened (Nat.le_succ _) (fun g hg => by dsimp only; rw [hgrp g (hne g hg)])
      (fun b u hb hu => by dsimp only; rw [haft b hb]; exact hu) (Nat.le_refl _) (fun _ _ _ _ => rfl) (by exact fun _ _ _ _ _ _ => nofun) (fun _ => ⟨_, rfl⟩) nofun nofun)
    rfl rfl (.of ht (by nofun) rfl rfl free.symm (fun h => by rw [free] at h; cases h)) s.mem.ng ?_ ?_
  · intro i hi
    refine ⟨?_, hgrp i hi, fun _ _ _ => rfl, hmap i hi, ?_, rfl, rfl, rfl, ?_, fun _ _ _ _ => rfl, Int.le_refl _⟩
    · show i < s.mem.ng + 1 ↔ _
      omega
    · intro hlt a ha
      obtain ⟨a', h1, h2, _⟩ := h.inv.mem.stop i hlt
      rw [ha] at h2
      cases h2
      exact haft a h1
    · intro _ u r y ha
      refine thr_resume ht rfl ?_ u y
      rintro rfl
      rcases ha with ha | ⟨a, e, _⟩
      · cases ha
      · cases e
  · obtain ⟨n, hn⟩ := h.rel s.mem.ng
    obtain ⟨y, hy⟩ := h.inv.first
    have hrev := (hn.poll y hy).rev free
    have hnil : n.node.groups = [] := by
      have := hn.group
      unfold GroupRel at this
      rw [if_neg (Nat.lt_irrefl _)] at this
      exact this
    obtain ⟨ns, nn⟩ := n
    refine ⟨_, _, hn, .step hn.reach (.openGroup ns nn), rfl, rfl, rfl, rfl, ?_⟩
    unfold GroupRel
    rw [if_pos (by exact Nat.lt_succ_self s.mem.ng)]
    refine ⟨Group.new nn.pollRevision, by rw [show nn.groups = [] from hnil]; rfl, ?_⟩
    have hn0 : s.mem.opened.grp s.mem.ng = ⟨s.mem.pollRev, [], 100, [], some s.mem.na, 0, false, false, []⟩ := if_pos rfl
    refine ⟨?_, ?_, ?_, nofun, ?_, ?_, ?_, ?_, ?_, ?_, ?_, fun _ => rfl, ?_, ?_, nofun, ?_⟩
    · dsimp only; rw [hn0]; exact hrev.symm
    · dsimp only; rw [hn0]
    · dsimp only; rw [hn0]; rfl
    · dsimp only; rw [hn0]; exact .nil
    · dsimp only; rw [hn0]; exact .nil
    · dsimp only; rw [hn0]; rfl
    · dsimp only; rw [hn0]; rfl
    · dsimp only; rw [hn0]; rfl
    · refine ⟨fun _ => ?_, fun _ => rfl⟩
      show s.mem.ng ∈ s.mem.map.filter _ ++ [s.mem.ng]
      simp
    · intro a ha
      dsimp only at ha ⊢
      rw [hn0] at ha
      cases ha
      rw [show s.mem.opened.aft s.mem.na = .armed from if_pos rfl]
      exact .armed
    · intro u hu
      exact absurd (h.inv.client _ u hu) (Nat.lt_irrefl _)
    · intro u id lo hi start c vs hu
      have := (thr_resume ht rfl (by nofun) u _).1 hu
      exact absurd (h.inv.call u _ _ s.mem.ng this rfl).1 (Nat.lt_irrefl _)
    · show ((s.used s.mem.ng).map _).Nodup
      rw [h.inv.clean _ (Nat.lt_irrefl _)]
      exact .nil

theorem cancelled_other (m : WatchMem) {g i : Nat} (h : i ≠ g) : (m.cancelled g).grp i = m.grp i := if_neg h

theorem cancelled_same (m : WatchMem) (g : Nat) :
    (m.cancelled g).grp g = { m.grp g with closed := (m.grp g).closed + 1, panicked := (m.grp g).panicked || decide ((m.grp g).closed > 0) } := if_pos rfl

theorem Sim.cancelLock {s : WSys} (h : Sim s) (o : Orders) {t a g : Nat} {k : Tw} (ht : s.thr t = some ⟨.cancel a, .lockS k⟩) (e : Tw.lockS k = cancelT g)
    (hg : g < s.mem.ng) (hs : (s.mem.grp g).stop = some a) (ha : s.mem.aft a = .running t) (free : s.mem.owner = none) :
    Sim (s.resume o t (.cancel a) none { s.mem with owner := some t } k) := by
  obtain ⟨k', e1, e2⟩ := run_cancel (o := o) (t := t) g { s.mem with owner := some t } rfl
  have ek : k = k' := by rw [e1] at e; injection e
  have eT : Tw.lockS k = cancelT g := e
  subst ek
  unfold WSys.resume
  rw [e2]
  have hstop : ∀ i, ((s.mem.cancelled g).grp i).stop = (s.mem.grp i).stop := fun i => setG_field _ g closeG (·.stop) (fun _ => rfl) i
  refine h.side (s' := { s with mem := s.mem.cancelled g, thr := fun i => if i = t then some ⟨.cancel a, .ret []⟩ else s.thr i })
    (h.inv.step ht rfl rfl rfl rfl (h.inv.mem.cancelled g) (Nat.le_refl _) (fun i _ => hstop i)
      (fun b u hb hu => hu) (Nat.le_refl _) (fun _ _ _ _ => rfl) (by exact fun _ _ _ _ _ _ => nofun) nofun nofun (fun _ _ => rfl))
    rfl rfl (.of ht (by nofun) rfl rfl free.symm (fun h => by rw [free] at h; cases h)) g ?_ ?_
  · intro i hi
    refine ⟨Iff.rfl, cancelled_other _ hi, fun _ _ _ => rfl, ?_, fun _ _ _ => rfl, rfl, rfl, rfl, ?_, fun _ _ _ _ => rfl, Int.le_refl _⟩
    · show i ∈ s.mem.map.filter _ ↔ _
      rw [mem_filter_ne]
      exact ⟨fun h => h.1, fun h => ⟨h, hi⟩⟩
    · intro hlt u r y hab
      refine thr_resume ht rfl ?_ u y
      rintro rfl
      rcases hab with hab | ⟨b, e, hb⟩
      · cases hab
      · cases e
        exact hi (h.inv.mem.inj i g a hlt hg hb hs)
  · obtain ⟨n, hn⟩ := h.rel g
    obtain ⟨G, hG, hR⟩ := hn.grel hg
    have hrun : G.after = .running := by
      have hr := hR.aft a hs
      rw [ha] at hr
      generalize hst : AftSt.running t = st at hr
      generalize hG' : G.after = ga at hr
      cases hr with
      | armed => cases hst
      | stopped => cases hst
      | running t' _ => rfl
      | done t' h' =>
        cases hst
        rw [ht] at h'
        cases h'
    refine hn.own hG (.afterFunc _ G hrun) hg ?_
    refine hR.shift (cancelled_same s.mem g) rfl rfl rfl rfl (fun _ _ => rfl) (fun _ _ _ _ => rfl) rfl rfl rfl rfl ?_ rfl rfl rfl rfl rfl hR.queue hR.received ?_ ?_ hR.dropped ?_ ?_
    · intro u r y hr
      refine thr_resume ht rfl ?_ u y
      rintro rfl
      cases hr
    · show _ = G.closed + 1
      rw [← hR.closed]
    · show _ = (G.panicked || decide (G.closed > 0))
      rw [← hR.closed, ← hR.panicked]
    · refine ⟨nofun, fun hm => ?_⟩
      change g ∈ s.mem.map.filter _ at hm
      exact absurd rfl (mem_filter_ne.1 hm).2
    · intro b hb
      rw [hs] at hb
      cases hb
      show AftRel g _ a (s.mem.aft a) .done
      rw [ha]
      exact .done t (if_pos rfl)

/-! ### Everything else -/

theorem Pend.of_thr {s s' : WSys} (h : s'.thr = s.thr) {t w : Nat} (hp : Pend s' t w) : Pend s t w := by
  obtain ⟨g, id, lo, hi, start, c, e⟩ := hp
  rw [h] at e
  exact ⟨g, id, lo, hi, start, c, e⟩

/-- Anything else that uses the database. -/
theorem Sim.env {s : WSys} (h : Sim s) {s' : Sys} (hst : Step s.sys s') : Sim { s with sys := s' } := by
  refine ⟨⟨h.inv.mem, h.inv.first, h.inv.lt, h.inv.poll, h.inv.opn, h.inv.call, h.inv.cancel, h.inv.client, h.inv.clean, fun t w hp => h.inv.pend t w (hp.of_thr rfl),
    fun t t' w hp hp' => h.inv.pendInj t t' w (hp.of_thr rfl) (hp'.of_thr rfl)⟩, fun i => ?_⟩
  obtain ⟨n, hn⟩ := h.rel i
  obtain ⟨ns, nn⟩ := n
  have hs := hn.sys
  change ns = s.sys at hs
  have hcr : s.sys.world.db.compactRev ≤ s'.world.db.compactRev := ((h.reachable.sysInv.steps (.tail (.refl _) hst)).2).cr
  refine ⟨⟨s', nn⟩, .step hn.reach (.env ns s' nn (by rw [hs]; exact hst)), rfl, hn.over, hn.poll, ?_⟩
  exact hn.group.same ⟨Iff.rfl, rfl, fun _ _ _ => rfl, Iff.rfl, fun _ _ _ => rfl, rfl, rfl, rfl, fun _ _ _ _ _ => Iff.rfl, fun _ _ _ _ => rfl, hcr⟩ rfl

theorem recv_other (m : WatchMem) {g i : Nat} (q rc : List V) (h : i ≠ g) : (m.setG g fun x => { x with queue := q, received := x.received ++ rc }).grp i = m.grp i := if_neg h

theorem recv_same (m : WatchMem) (g : Nat) (q rc : List V) :
    (m.setG g fun x => { x with queue := q, received := x.received ++ rc }).grp g = { m.grp g with queue := q, received := (m.grp g).received ++ rc } := if_pos rfl

/-- The consumer of a group receives. -/
theorem Sim.recv {s : WSys} (h : Sim s) {g : Nat} {v : V} {q : List V} (hg : g < s.mem.ng) (hq : (s.mem.grp g).queue = v :: q) :
    Sim { s with mem := s.mem.setG g fun x => { x with queue := q, received := x.received ++ [v] } } := by
  have hstop : ∀ i, ((s.mem.setG g fun x => { x with queue := q, received := x.received ++ [v] }).grp i).stop = (s.mem.grp i).stop :=
    fun i => setG_field s.mem g (fun x => { x with queue := q, received := x.received ++ [v] }) (·.stop) (fun _ => rfl) i
  have hm := h.inv.mem.setG g (fun x => { x with queue := q, received := x.received ++ [v] }) (fun _ => rfl) fun _ => rfl
  refine h.side ⟨hm, h.inv.first, h.inv.lt, h.inv.poll, h.inv.opn, h.inv.call, ?_, h.inv.client, h.inv.clean, fun t w hp => h.inv.pend t w (hp.of_thr rfl),
    fun t t' w hp hp' => h.inv.pendInj t t' w (hp.of_thr rfl) (hp'.of_thr rfl)⟩ rfl rfl ⟨fun _ h => h, rfl, rfl, fun _ => rfl⟩ g ?_ ?_
  · intro t a x ht
    obtain ⟨i, h1, h2, h3, h4⟩ := h.inv.cancel t a x ht
    exact ⟨i, h1, (hstop i).trans h2, h3, h4⟩
  · intro i hi
    exact ⟨Iff.rfl, recv_other _ _ _ hi, fun _ _ _ => rfl, Iff.rfl, fun _ _ _ => rfl, rfl, rfl, rfl, fun _ _ _ _ _ => Iff.rfl, fun _ _ _ _ => rfl, Int.le_refl _⟩
  · obtain ⟨n, hn⟩ := h.rel g
    obtain ⟨G, hG, hR⟩ := hn.grel hg
    have hq' := hR.queue
    rw [hq] at hq'
    generalize hGq : G.queue = gq at hq'
    cases hq' with
    | @cons _ u _ us hu hus =>
      refine hn.own hG (.recv _ G u us hGq) hg ?_
      exact hR.shift (recv_same s.mem g q [v]) rfl rfl rfl rfl (fun _ _ => rfl) (fun _ _ _ _ => rfl) rfl rfl rfl rfl (fun _ _ _ _ => Iff.rfl) rfl rfl rfl rfl rfl hus
        (hR.received.append (.cons hu .nil)) hR.closed hR.panicked hR.dropped hR.inMap hR.aft

theorem Sim.fresh {s : WSys} (h : Sim s) : s.thr s.nt = none := by
  cases e : s.thr s.nt with
  | none => rfl
  | some th => exact absurd (h.inv.lt _ _ e) (Nat.lt_irrefl _)

theorem Sim.nt_ne {s : WSys} (h : Sim s) : s.nt ≠ 0 := by
  obtain ⟨x, hx⟩ := h.inv.first
  have := h.inv.lt _ _ hx
  omega

/-- The goroutines when one has started. -/
theorem thr_spawn {s s' : WSys} (h : Sim s) {r : WRole} {x : Tw} (hthr : s'.thr = fun i => if i = s.nt then some ⟨r, x⟩ else s.thr i) {r' : WRole} (hr : r' ≠ r) (u : Nat) (y : Tw) :
    s'.thr u = some ⟨r', y⟩ ↔ s.thr u = some ⟨r', y⟩ := by
  rw [hthr]
  dsimp only
  by_cases hu : u = s.nt
  · subst hu
    rw [if_pos rfl, h.fresh]
    refine ⟨fun e => ?_, nofun⟩
    cases e
    exact absurd rfl hr
  · rw [if_neg hu]

theorem PSame.spawn {s s' : WSys} (h : Sim s) {r : WRole} {x : Tw} (hthr : s'.thr = fun i => if i = s.nt then some ⟨r, x⟩ else s.thr i) (hp : r ≠ .poll)
    (hrev : s'.mem.pollRev = s.mem.pollRev) (hown : s'.mem.owner = s.mem.owner) (hmap : s'.mem.map = s.mem.map) : PSame s s' :=
  ⟨fun y hy => (thr_spawn h hthr (fun e => hp e.symm) 0 y).1 hy, hrev, hown, fun _ => hmap⟩

theorem cancel_not_pend (g' g : Nat) (id : Int) (lo hi : List UInt8) (start : Int) (w : Nat) : cancelT g' ≠ watchLockT g id lo hi start w := nofun

/-- A context ends. -/
theorem Sim.cancel {s : WSys} (h : Sim s) (o : Orders) {a : Nat} (ha : a < s.mem.na) (hs : s.mem.aft a = .armed) :
    Sim ({ s with mem := { s.mem with aft := fun i => if i = a then .running s.nt else s.mem.aft i } }.spawn o (.cancel a) (s.mem.body a)) := by
  obtain ⟨g, hg, hst⟩ := h.inv.mem.afts a ha
  have hbody : s.mem.body a = cancelT g := by
    obtain ⟨a', _, h2, h3⟩ := h.inv.mem.stop g hg
    rw [hst] at h2
    cases h2
    exact h3
  rw [hbody]
  unfold WSys.spawn WSys.resume
  rw [show (cancelT g).run o s.nt none { s.mem with aft := fun i => if i = a then .running s.nt else s.mem.aft i } =
    ({ s.mem with aft := fun i => if i = a then .running s.nt else s.mem.aft i }, cancelT g) from rfl]
  refine h.side (s' := { s with nt := s.nt + 1, mem := { s.mem with aft := fun i => if i = a then .running s.nt else s.mem.aft i }, thr := fun i => if i = s.nt then some ⟨.cancel a, cancelT g⟩ else s.thr i })
    (h.inv.spawn rfl rfl (fun _ _ e => .inl e) (fun _ _ e => h.inv.client _ _ e) (fun _ _ => rfl) (h.inv.mem.running _) rfl (fun _ _ => rfl) ?_ (Nat.le_refl _) (fun _ _ _ => rfl)
      (fun _ _ _ _ _ _ e => absurd e (cancel_not_pend _ _ _ _ _ _ _)) (by nofun) nofun nofun ?_)
    rfl rfl (.spawn h rfl (by nofun) rfl rfl rfl) g ?_ ?_
  · intro b u _ hu
    dsimp only
    rw [if_neg]
    · exact hu
    · rintro rfl
      rw [hs] at hu
      cases hu
  · intro b e
    cases e
    exact ⟨g, hg, hst, if_pos rfl, rfl⟩
  · intro i hi
    refine ⟨Iff.rfl, rfl, fun _ _ _ => rfl, Iff.rfl, ?_, rfl, rfl, rfl, ?_, fun _ _ _ _ => rfl, Int.le_refl _⟩
    · intro hlt b hb
      refine if_neg fun e => ?_
      rw [e] at hb
      exact hi (h.inv.mem.inj i g a hlt hg hb hst)
    · intro hlt u r y hab
      refine thr_spawn h rfl ?_ u y
      rintro rfl
      rcases hab with hab | ⟨b, e, hb⟩
      · cases hab
      · cases e
        exact hi (h.inv.mem.inj i g a hlt hg hb hst)
  · obtain ⟨n, hn⟩ := h.rel g
    obtain ⟨G, hG, hR⟩ := hn.grel hg
    have har : G.after = .armed := (hR.aft a hst).armed_iff.1 hs
    refine hn.own hG (.cancel _ G har) hg ?_
    refine hR.shift (x := s.mem.grp g) rfl rfl rfl rfl rfl (fun _ _ => rfl) (fun _ _ _ _ => rfl) rfl rfl rfl rfl ?_ rfl rfl rfl rfl rfl hR.queue hR.received hR.closed hR.panicked hR.dropped hR.inMap ?_
    · intro u r y hr
      refine thr_spawn h rfl ?_ u y
      rintro rfl
      cases hr
    · intro b hb
      rw [hst] at hb
      cases hb
      show AftRel g _ a (if a = a then AftSt.running s.nt else s.mem.aft a) .running
      rw [if_pos rfl]
      exact .running s.nt (if_pos rfl)

/-- A call of `WatcherGroup`. -/
theorem Sim.openCall {s : WSys} (h : Sim s) (N : Nat) (o : Orders) : Sim (s.spawn o .opn (openGo N)) := by
  rw [open_tree]
  unfold WSys.spawn WSys.resume
  rw [Tw.run, show ∀ k : Tw, (Tw.lockS k).run o s.nt none s.mem = (s.mem, .lockS k) from fun _ => rfl]
  have same : ∀ i, Same i s { s with nt := s.nt + 1, thr := fun i => if i = s.nt then some ⟨.opn, openLockT⟩ else s.thr i } := by
    intro i
    refine ⟨Iff.rfl, rfl, fun _ _ _ => rfl, Iff.rfl, fun _ _ _ => rfl, rfl, rfl, rfl, ?_, fun _ _ _ _ => rfl, Int.le_refl _⟩
    intro _ u r y hab
    refine thr_spawn h rfl ?_ u y
    rintro rfl
    rcases hab with hab | ⟨b, e, hb⟩
    · cases hab
    · cases e
  obtain ⟨n, hn⟩ := h.rel 0
  exact h.side (s' := { s with nt := s.nt + 1, thr := fun i => if i = s.nt then some ⟨.opn, openLockT⟩ else s.thr i })
    (h.inv.spawn rfl rfl (fun _ _ e => .inl e) (fun _ _ e => h.inv.client _ _ e) (fun _ _ => rfl) h.inv.mem rfl (fun _ _ => rfl) (fun _ _ _ e => e) (Nat.le_refl _) (fun _ _ _ => rfl)
      (fun _ _ _ _ _ _ e => nomatch e) (by nofun) (fun _ => rfl) nofun nofun)
    rfl rfl (.spawn h rfl (by nofun) rfl rfl rfl) 0 (fun i _ => same i) (hn.stay' (same 0))

theorem GRel.idle {s : WSys} {g : Nat} (idle : s.idle g) {G : Group} (hR : GRel g s G) : G.call = .idle := by
  cases hc : s.client g with
  | none => exact hR.free hc
  | some t =>
    obtain ⟨r, x, h1, _, h3⟩ := hR.call t hc
    obtain ⟨vs, hv⟩ := idle t _ hc h1
    change x = .ret vs at hv
    subst hv
    exact h3.ret_inv

theorem newW_other (m : WatchMem) (x : WMem) {w : Nat} (h : w < m.nw) : (m.setW m.nw fun _ => x).wat w = m.wat w := if_neg (Nat.ne_of_lt h)
theorem newW_same (m : WatchMem) (x : WMem) : (m.setW m.nw fun _ => x).wat m.nw = x := if_pos rfl

/-- A call of `Watch`. -/
theorem Sim.watchCall {s : WSys} (h : Sim s) (N : Nat) (o : Orders) {g : Nat} {id : Int} {lo hi : List UInt8} {start : Int} (hg : g < s.mem.ng) (idle : s.idle g)
    (fresh : ∀ p ∈ s.used g, p.1 ≠ id) (ne : hi ≠ []) :
    Sim ({ s with client := fun i => if i = g then some s.nt else s.client i,
                  used := fun i => if i = g then s.used i ++ [(id, start, lo, hi)] else s.used i,
                  lossy := fun i j => if i = g ∧ j = id then false else s.lossy i j }.spawn o (.watch g id lo hi start s.sys.world.db.compactRev) (watchGo N g id lo hi start)) := by
  rw [watch_tree]
  unfold WSys.spawn WSys.resume
  rw [Tw.run, show ∀ m, (watchLockT g id lo hi start s.mem.nw).run o s.nt none m = (m, watchLockT g id lo hi start s.mem.nw) from fun _ => rfl]
  suffices H : ∀ s' : WSys, ({ s with
      client := fun i => if i = g then some s.nt else s.client i
      used := fun i => if i = g then s.used i ++ [(id, start, lo, hi)] else s.used i
      lossy := fun i j => if i = g ∧ j = id then false else s.lossy i j
      mem := { s.mem.setW s.mem.nw (fun _ => ⟨id, lo, hi, false, [], none⟩) with nw := s.mem.nw + 1 }
      nt := s.nt + 1
      thr := fun i => if i = s.nt then some ⟨.watch g id lo hi start s.sys.world.db.compactRev, watchLockT g id lo hi start s.mem.nw⟩ else s.thr i } : WSys) = s' → Sim s' from H _ rfl
  intro s' hs'
  have c1 : s'.mem = { s.mem.setW s.mem.nw (fun _ => ⟨id, lo, hi, false, [], none⟩) with nw := s.mem.nw + 1 } := by rw [← hs']
  have c2 : s'.thr = fun i => if i = s.nt then some ⟨.watch g id lo hi start s.sys.world.db.compactRev, watchLockT g id lo hi start s.mem.nw⟩ else s.thr i := by rw [← hs']
  have c3 : s'.client = fun i => if i = g then some s.nt else s.client i := by rw [← hs']
  have c4 : s'.used = fun i => if i = g then s.used i ++ [(id, start, lo, hi)] else s.used i := by rw [← hs']
  have c5 : s'.lossy = fun i j => if i = g ∧ j = id then false else s.lossy i j := by rw [← hs']
  have c6 : s'.nt = s.nt + 1 := by rw [← hs']
  have c7 : s'.sys = s.sys := by rw [← hs']
  have c8 : s'.overtaken = s.overtaken := by rw [← hs']
  have hwat : ∀ w, w < s.mem.nw → s'.mem.wat w = s.mem.wat w := fun w hw => by rw [c1]; exact newW_other s.mem _ hw
  have hnew : s'.mem.wat s.mem.nw = ⟨id, lo, hi, false, [], none⟩ := by rw [c1]; exact newW_same s.mem _
  refine h.side (h.inv.spawn c2 c6 ?_ ?_ ?_ (by rw [c1]; exact h.inv.mem.newW _) (by rw [c1]; rfl) (fun _ _ => by rw [c1]; rfl) (fun b u _ hu => by rw [c1]; exact hu)
      (by rw [c1]; exact Nat.le_succ _) (fun u w hp => by rw [hwat w (h.inv.pend u w hp).1]) ?_ (by nofun) nofun ?_ nofun)
    c7 c8 (.spawn h c2 (by nofun) (by rw [c1]; rfl) (by rw [c1]; rfl) (by rw [c1]; rfl)) g ?_ ?_
  · intro i t hc
    rw [c3]
    dsimp only
    by_cases hi : i = g
    · subst hi
      rw [if_pos rfl]
      exact .inr ⟨rfl, fun y hy => idle t y hc hy⟩
    · rw [if_neg hi]
      exact .inl hc
  · intro i t hc
    rw [c3] at hc
    dsimp only at hc
    by_cases hi : i = g
    · subst hi; exact hg
    · rw [if_neg hi] at hc; exact h.inv.client i t hc
  · intro i hi
    rw [c4]
    exact if_neg (by rintro rfl; exact hi hg)
  · intro g' id' lo' hi' start' w e
    have : w = s.mem.nw := by
      unfold watchLockT at e
      injection e with _ e
      injection e with _ _ e
      exact e.symm
    subst this
    exact ⟨rfl, by rw [c1]; exact Nat.lt_succ_self _, by rw [hnew]⟩
  · intro i hi
    cases hi
    exact ⟨hg, by rw [c3]; exact if_pos rfl⟩
  · intro i hi
    refine ⟨by rw [c1]; exact Iff.rfl, by rw [c1]; rfl, fun hlt p hp => hwat _ (h.inv.mem.refs i hlt p hp).1, by rw [c1]; exact Iff.rfl, fun _ _ _ => by rw [c1]; rfl,
      by rw [c3]; exact if_neg hi, by rw [c4]; exact if_neg hi, ?_, ?_, fun t w _ hp => hwat w (h.inv.pend t w hp).1, by rw [c7]; exact Int.le_refl _⟩
    · rw [c5]
      funext j
      exact if_neg fun e => hi e.1
    · intro _ u r y hab
      refine thr_spawn h c2 ?_ u y
      rintro rfl
      rcases hab with hab | ⟨b, e, _⟩
      · cases hab
        exact hi rfl
      · cases e
  · obtain ⟨n, hn⟩ := h.rel g
    obtain ⟨G, hG, hR⟩ := hn.grel hg
    have hcall := GRel.idle idle hR
    have hnot : ∀ u r y, r.grp = some g → s.thr u = some ⟨r, y⟩ → u ≠ s.nt := fun u r y _ hu e => by
      rw [e, h.fresh] at hu
      cases hu
    refine hn.stay hG (by rw [c1]; exact hg) ⟨by rw [c1]; exact hR.cur, by rw [c1]; exact hR.cap, ?_, ?_, by rw [c1]; exact hR.queue, by rw [c1]; exact hR.received,
      by rw [c1]; exact hR.closed, by rw [c1]; exact hR.panicked, by rw [c1]; exact hR.dropped, by rw [c1]; exact hR.inMap, ?_, fun _ => hcall, ?_, ?_, ?_, ?_⟩
    · rw [show (s'.mem.grp g).watchers = (s.mem.grp g).watchers by rw [c1]; rfl, ← hR.views]
      refine List.map_congr_left fun p hp => ?_
      unfold WatchMem.view
      rw [hwat _ (h.inv.mem.refs g hg p hp).1]
    · intro y hy
      obtain ⟨h1, h2⟩ := hR.marks y hy
      rw [c4, c5]
      dsimp only
      rw [if_pos rfl, if_neg fun e => fresh _ h2 e.2]
      exact ⟨h1, List.mem_append.2 (.inl h2)⟩
    · intro a ha
      rw [show (s'.mem.grp g).stop = (s.mem.grp g).stop by rw [c1]; rfl] at ha
      rw [show s'.mem.aft a = s.mem.aft a by rw [c1]; rfl]
      exact (hR.aft a ha).same fun u z hz => (thr_spawn h c2 (by nofun) u z).2 hz
    · intro t ht
      rw [c3] at ht
      dsimp only at ht
      rw [if_pos rfl] at ht
      cases ht
      refine ⟨_, _, by rw [c2]; exact if_pos rfl, rfl, ?_⟩
      refine .reg id lo hi start _ s.mem.nw hcall hnew (by rw [c7]; exact Int.le_refl _) ?_ (by rw [c5]; exact if_pos ⟨rfl, rfl⟩) ne (by rw [c4]; dsimp only; rw [if_pos rfl]; simp)
      intro hu
      obtain ⟨p, hp, e⟩ := hR.used id hu
      exact fresh p hp e
    · intro u id' lo' hi' start' c vs hu
      rw [c2] at hu
      dsimp only at hu
      by_cases e : u = s.nt
      · rw [if_pos e] at hu
        cases hu
      · rw [if_neg e] at hu
        exact hR.answers u id' lo' hi' start' c vs hu
    · intro id' hu
      obtain ⟨p, hp, e⟩ := hR.used id' hu
      rw [c4]
      dsimp only
      rw [if_pos rfl]
      exact ⟨p, List.mem_append.2 (.inl hp), e⟩
    · rw [c4]
      dsimp only
      rw [if_pos rfl, List.map_append, List.nodup_append]
      refine ⟨hR.once, by simp, ?_⟩
      intro x hx y hy
      obtain ⟨p, hp, rfl⟩ := List.mem_map.1 hx
      rw [show y = id by simpa using hy]
      exact fresh p hp

/-- A call of `Unwatch`. -/
theorem Sim.unwatchCall {s : WSys} (h : Sim s) (N : Nat) (o : Orders) {g : Nat} {id : Int} (hg : g < s.mem.ng) (idle : s.idle g) :
    Sim ({ s with client := fun i => if i = g then some s.nt else s.client i }.spawn o (.unwatch g id) (unwatchGo N g id)) := by
  rw [unwatch_tree]
  unfold WSys.spawn WSys.resume
  rw [show ∀ m k, (Tw.lockW g k).run o s.nt none m = (m, .lockW g k) from fun _ _ => rfl]
  suffices H : ∀ s' : WSys, ({ s with
      client := fun i => if i = g then some s.nt else s.client i
      nt := s.nt + 1
      thr := fun i => if i = s.nt then some ⟨.unwatch g id, unwatchT g id⟩ else s.thr i } : WSys) = s' → Sim s' from H _ rfl
  intro s' hs'
  have c1 : s'.mem = s.mem := by rw [← hs']
  have c2 : s'.thr = fun i => if i = s.nt then some ⟨.unwatch g id, unwatchT g id⟩ else s.thr i := by rw [← hs']
  have c3 : s'.client = fun i => if i = g then some s.nt else s.client i := by rw [← hs']
  have c4 : s'.used = s.used := by rw [← hs']
  have c5 : s'.lossy = s.lossy := by rw [← hs']
  have c6 : s'.nt = s.nt + 1 := by rw [← hs']
  have c7 : s'.sys = s.sys := by rw [← hs']
  have c8 : s'.overtaken = s.overtaken := by rw [← hs']
  have nopend : ∀ g' id' lo' hi' start' w, unwatchT g id ≠ watchLockT g' id' lo' hi' start' w := by
    intro g' id' lo' hi' start' w e
    unfold unwatchT watchLockT at e
    injection e with _ e
    cases e
  refine h.side (h.inv.spawn c2 c6 ?_ ?_ (fun _ _ => by rw [c4]) (by rw [c1]; exact h.inv.mem) (by rw [c1]) (fun _ _ => by rw [c1]) (fun b u _ hu => by rw [c1]; exact hu)
      (by rw [c1]; exact Nat.le_refl _) (fun u w hp => by rw [c1]) (fun _ _ _ _ _ _ e => absurd e (nopend _ _ _ _ _ _)) (by nofun) nofun ?_ nofun)
    c7 c8 (.spawn h c2 (by nofun) (by rw [c1]) (by rw [c1]) (by rw [c1])) g ?_ ?_
  · intro i t hc
    rw [c3]
    dsimp only
    by_cases hi : i = g
    · subst hi
      rw [if_pos rfl]
      exact .inr ⟨rfl, fun y hy => idle t y hc hy⟩
    · rw [if_neg hi]
      exact .inl hc
  · intro i t hc
    rw [c3] at hc
    dsimp only at hc
    by_cases hi : i = g
    · subst hi; exact hg
    · rw [if_neg hi] at hc; exact h.inv.client i t hc
  · intro i hi
    cases hi
    exact ⟨hg, by rw [c3]; exact if_pos rfl⟩
  · intro i hi
    refine ⟨by rw [c1], by rw [c1], fun _ _ _ => by rw [c1], by rw [c1], fun _ _ _ => by rw [c1],
      by rw [c3]; exact if_neg hi, by rw [c4], by rw [c5], ?_, fun _ _ _ _ => by rw [c1], by rw [c7]; exact Int.le_refl _⟩
    intro _ u r y hab
    refine thr_spawn h c2 ?_ u y
    rintro rfl
    rcases hab with hab | ⟨b, e, _⟩
    · cases hab
      exact hi rfl
    · cases e
  · obtain ⟨n, hn⟩ := h.rel g
    obtain ⟨G, hG, hR⟩ := hn.grel hg
    have hcall := GRel.idle idle hR
    refine hn.stay hG (by rw [c1]; exact hg) ⟨by rw [c1]; exact hR.cur, by rw [c1]; exact hR.cap, by rw [c1]; exact hR.views, by rw [c4, c5]; exact hR.marks, by rw [c1]; exact hR.queue,
      by rw [c1]; exact hR.received, by rw [c1]; exact hR.closed, by rw [c1]; exact hR.panicked, by rw [c1]; exact hR.dropped, by rw [c1]; exact hR.inMap, ?_, fun _ => hcall, ?_, ?_,
      by rw [c4]; exact hR.used, by rw [c4]; exact hR.once⟩
    · intro a ha
      rw [c1] at ha ⊢
      exact (hR.aft a ha).same fun u z hz => (thr_spawn h c2 (by nofun) u z).2 hz
    · intro t ht
      rw [c3] at ht
      dsimp only at ht
      rw [if_pos rfl] at ht
      cases ht
      exact ⟨_, _, by rw [c2]; exact if_pos rfl, rfl, .unwatch id hcall⟩
    · intro u id' lo' hi' start' c vs hu
      exact hR.answers u id' lo' hi' start' c vs ((thr_spawn h c2 (by nofun) u _).1 hu)

/-! ### Executions -/

theorem Sim.start {s s' : Sys} {t : List Obs} {rev : Int} (N : Nat) (o : Orders) (h : Reachable s) (r : Run s Backend.start t (.ok rev) s') : Sim (WSys.init N o s' rev) := by
  have e : (pollGo N).run o 0 none (WatchMem.init rev) = (WatchMem.init rev, pollPause rev N true) := by
    rw [poll_tree, run_pollT _ _ _ (by nofun)]
    rfl
  unfold WSys.init
  rw [e]
  have hthr : ∀ t r x, (if t = 0 then some (⟨.poll, pollPause rev N true⟩ : WThread) else none) = some ⟨r, x⟩ → t = 0 ∧ r = .poll ∧ x = pollPause rev N true := by
    intro t r x ht
    by_cases h0 : t = 0
    · rw [if_pos h0] at ht
      cases ht
      exact ⟨h0, rfl, rfl⟩
    · rw [if_neg h0] at ht
      cases ht
  have nolt : ∀ g : Nat, ¬ g < (WatchMem.init rev).ng := fun g => Nat.not_lt_zero g
  refine ⟨⟨⟨?_, ?_, ?_, .nil, nofun, ?_, ?_, ?_⟩, ⟨pollPause rev N true, rfl⟩, ?_, ?_, ?_, ?_, ?_, nofun, fun _ _ => rfl, ?_, ?_⟩, fun i => ?_⟩
  · exact fun g hg => absurd hg (nolt g)
  · exact fun g _ _ hg => absurd hg (nolt g)
  · exact fun a ha => absurd ha (Nat.not_lt_zero a)
  · exact fun g hg => absurd hg (nolt g)
  · exact fun g hg => absurd hg (nolt g)
  · exact fun g hg => absurd hg (nolt g)
  · intro t th ht
    obtain ⟨r, x⟩ := th
    rw [(hthr t r x ht).1]
    exact Nat.one_pos
  · exact fun t x ht => (hthr t _ x ht).1
  · exact fun t x ht => nomatch (hthr t _ x ht).2.1
  · intro t r x g ht hr
    rw [(hthr t r x ht).2.1] at hr
    cases hr
  · exact fun t a x ht => nomatch (hthr t _ x ht).2.1
  · intro t w ⟨g, id, lo, hi, start, c, ht⟩
    exact nomatch (hthr t _ _ ht).2.1
  · intro t t' w ⟨g, id, lo, hi, start, c, ht⟩
    exact nomatch (hthr t _ _ ht).2.1
  · obtain ⟨n', h1, h2, h3, h4, h5⟩ := pause_rel (i := i) (m := WatchMem.init rev) (.start h r) rfl rfl rfl N true
    refine ⟨n', h1, h2, h3, ?_, ?_⟩
    · intro x hx
      rw [(hthr 0 _ x hx).2.2]
      exact h5
    · unfold GroupRel
      rw [if_neg (nolt i)]
      exact h4

theorem Sim.step {N : Nat} {s s' : WSys} (h : Sim s) (st : WStep N s s') : Sim s' := by
  cases st with
  | env s' hst => exact h.env hst
  | lockS o t r k ht free =>
    cases h.who ht with
    | poll x h0 hp => subst h0; exact h.pollLock o ht
    | opn x e => exact h.openLock o ht e free
    | cancel a g hg hs ha => exact h.cancelLock o ht rfl hg hs ha free
    | client i r x hi hr hc =>
      obtain ⟨_, _, _, _, _, hat⟩ := h.at hc ht
      exact hat.lockS_inv.elim
  | lockW o t r g k ht =>
    cases h.who ht with
    | poll x h0 hp => subst h0; exact h.pollPublish o ht
    | opn x e => exact nomatch e
    | client i r x hi hr hc => exact h.clientLock o ht hi hc
  | checkExec t r eff k ok er out ht => exact h.checkExec out ht
  | checkOk o t r a b ok er ht => exact h.checkOk o ht
  | checkErr o t r e ok er ht => exact h.checkErr o ht
  | rowsExec t r eff k ok er out ht =>
    cases h.who ht with
    | poll x h0 hp => subst h0; exact h.pollExec out ht
    | opn x e => exact nomatch e
    | client i r x hi hr hc => exact h.queryExec out ht hi hc
  | rowsOk o t r rs b ok er ht =>
    cases h.who ht with
    | poll x h0 hp => subst h0; exact h.pollOk o ht
    | opn x e => exact nomatch e
    | client i r x hi hr hc => exact h.queryOk o ht hi hc
  | rowsErr o t r e ok er ht =>
    cases h.who ht with
    | poll x h0 hp => subst h0; exact h.pollErr o ht
    | opn x e => exact nomatch e
    | client i r x hi hr hc => exact h.queryErr o ht hi hc
  | pollDone o t r a b c ht => exact h.pollDone o ht
  | pollNotified o t r a b c n ht => exact h.pollNotified o n ht
  | pollTick o t r a b c ht => exact h.pollTick o ht
  | recv g v q hg hq => exact h.recv hg hq
  | cancel o a ha hs => exact h.cancel o ha hs
  | openCall o => exact h.openCall N o
  | watchCall o g id lo hi start hg idle fresh ne => exact h.watchCall N o hg idle fresh ne
  | unwatchCall o g id hg idle => exact h.unwatchCall N o hg idle

theorem WReachable.sim {N : Nat} {s : WSys} (h : WReachable N s) : Sim s := by
  induction h with
  | start o h r => exact .start N o h r
  | step _ st ih => exact ih.step st

end Verif.Go
