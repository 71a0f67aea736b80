import Verif.Lemmas.GoWatchPoll
/-!
# The poller publishes to a group
-/

namespace Verif.Go

open Verif.GoText

/-- `update` on what is seen of a watcher. -/
def viewUpd (src : List Event) (v : Int × List UInt8 × List UInt8 × Bool × List V) : (Int × List UInt8 × List UInt8 × Bool × List V) × List V :=
  bif v.2.2.2.1 then
    bif decide ((0 : Int) < v.2.2.2.2.length) then ((v.1, v.2.1, v.2.2.1, v.2.2.2.1, []), v.2.2.2.2 ++ (appendEvents src v.2.1 v.2.2.1).map encEvent)
    else (v, (appendEvents src v.2.1 v.2.2.1).map encEvent)
  else ((v.1, v.2.1, v.2.2.1, v.2.2.2.1, v.2.2.2.2 ++ (appendEvents src v.2.1 v.2.2.1).map encEvent), [])

theorem mem_viewUpd (m : WatchMem) (src : List Event) (p : Int × Nat) :
    viewUpd src (m.view p) = ((p.1, ((m.wat p.2).upd src).1.lo, ((m.wat p.2).upd src).1.hi, ((m.wat p.2).upd src).1.initialized, ((m.wat p.2).upd src).1.events),
      ((m.wat p.2).upd src).2) := by
  unfold viewUpd WMem.upd WatchMem.view
  dsimp only
  generalize m.wat p.2 = x
  obtain ⟨_, _, _, d, e, _⟩ := x
  dsimp only
  cases d
  · rfl
  · simp only [cond_true]
    cases decide ((0 : Int) < e.length) <;> rfl

theorem model_viewUpd (x : Watcher) (src : List Event) : viewUpd src x.view = ((x.update src).1.view, (x.update src).2.map encEvent) := by
  obtain ⟨a, b, c, d, e, f, g, h⟩ := x
  unfold viewUpd Watcher.update Watcher.view
  dsimp only
  cases d
  · simp
  · simp only [cond_true]
    cases e with
    | nil => simp
    | cons y e =>
      rw [if_neg (by decide), if_pos (by simp), show decide ((0 : Int) < ((y :: e).map encEvent).length) = true by simp]
      simp

/-- The watchers after `publish`. -/
theorem publish_views {m m' : WatchMem} {L : List (Int × Nat)} {M : List Watcher} (src : List Event) (h : L.map m.view = M.map Watcher.view)
    (hw : ∀ p ∈ L, m'.wat p.2 = ((m.wat p.2).upd src).1) : L.map m'.view = (M.map fun x => (x.update src).1).map Watcher.view := by
  have e1 : L.map m'.view = (L.map m.view).map fun v => (viewUpd src v).1 := by
    rw [List.map_map]
    refine List.map_congr_left fun p hp => ?_
    show _ = (viewUpd src (m.view p)).1
    rw [mem_viewUpd]
    unfold WatchMem.view
    rw [hw p hp]
  rw [e1, h, List.map_map, List.map_map]
  refine List.map_congr_left fun x _ => ?_
  show (viewUpd src x.view).1 = (x.update src).1.view
  rw [model_viewUpd]

/-- The update of `publish`. -/
theorem publish_update {m : WatchMem} {L l : List (Int × Nat)} {M : List Watcher} (rev : Int) (src : List Event) (h : L.map m.view = M.map Watcher.view) (hp : l.Perm L)
    (hn : (L.map (·.1)).Nodup) : UpdRel (groupUpdateV rev (m.outs src l)) (groupUpdate M rev src) := by
  let F : Int × List UInt8 × List UInt8 × Bool × List V → Int × List V := fun v => (v.1, (viewUpd src v).2)
  have e1 : ∀ l : List (Int × Nat), m.outs src l = (((l.map m.view).map F).filter fun u => decide ((0 : Int) < u.2.length)).map fun u => updateV u.1 u.2 := by
    intro l
    unfold WatchMem.outs
    rw [List.map_map]
    have : (l.map fun p => (p.1, ((m.wat p.2).upd src).2)) = l.map (F ∘ m.view) := by
      refine List.map_congr_left fun p _ => ?_
      show _ = (p.1, (viewUpd src (m.view p)).2)
      rw [mem_viewUpd]
    rw [this]
  have e2 : (groupUpdate M rev src).updates.map encWatcherUpdate =
      (((M.map Watcher.view).map F).filter fun u => decide ((0 : Int) < u.2.length)).map fun u => updateV u.1 u.2 := by
    show (((M.map fun w => (w.id, (w.update src).2)).filter fun u => decide (u.2.length > 0)).map encWatcherUpdate) = _
    have : (M.map Watcher.view).map F = (M.map fun w => (w.id, (w.update src).2)).map fun u => (u.1, u.2.map encEvent) := by
      rw [List.map_map, List.map_map]
      refine List.map_congr_left fun x _ => ?_
      show (x.id, (viewUpd src x.view).2) = _
      rw [model_viewUpd]
      rfl
    rw [this]
    generalize (M.map fun w => (w.id, (w.update src).2)) = U
    rw [List.filter_map, List.map_map]
    have : ((fun u : Int × List V => decide ((0 : Int) < u.2.length)) ∘ fun u : Int × List Event => (u.1, u.2.map encEvent)) = fun u => decide (u.2.length > 0) := by
      funext u
      simp
    rw [this]
    rfl
  refine ⟨_, ?_, rfl, ?_⟩
  · rw [e2, ← h, e1 l]
    exact ((((hp.map m.view).map F).filter _).map _)
  · show (((M.map fun w => (w.id, (w.update src).2)).filter _).map (·.1)).Nodup
    refine nodup_map_filter _ ?_ _
    have : (M.map fun w => (w.id, (w.update src).2)).map (·.1) = (M.map Watcher.view).map (·.1) := by
      rw [List.map_map, List.map_map]
      rfl
    rw [this, ← h, List.map_map]
    exact hn

/-! ### The group, in the memory and in the model -/

/-- What a section of `publishEvents` does with its group. -/
inductive PubCase (m m' : WatchMem) (g a : Nat) (rev : Int) (src : List Event) (l : List (Int × Nat)) : Prop where
  | closed (h : (m.grp g).closed > 0) (hg : m'.grp g = { m.grp g with cur := rev, panicked := true }) (hm : m'.map = m.map) (ha : m'.aft = m.aft)
  | sent (h : ¬ (m.grp g).closed > 0) (h' : ((m.grp g).queue.length : Int) < (m.grp g).cap)
      (hg : m'.grp g = { m.grp g with cur := rev, queue := (m.grp g).queue ++ [groupUpdateV rev (m.outs src l)] }) (hm : m'.map = m.map) (ha : m'.aft = m.aft)
  | dropped (h : ¬ (m.grp g).closed > 0) (h' : ¬ ((m.grp g).queue.length : Int) < (m.grp g).cap) (h'' : m.aft a = .armed)
      (hg : m'.grp g = { m.grp g with cur := rev, dropped := true, closed := (m.grp g).closed + 1, panicked := (m.grp g).panicked || decide ((m.grp g).closed > 0) })
      (hm : m'.map = m.map.filter fun x => decide (x ≠ g)) (ha : m'.aft = fun i => if i = a then .stopped else m.aft i)
  | late (h : ¬ (m.grp g).closed > 0) (h' : ¬ ((m.grp g).queue.length : Int) < (m.grp g).cap) (h'' : m.aft a ≠ .armed)
      (hg : m'.grp g = { m.grp g with cur := rev, dropped := true }) (hm : m'.map = m.map) (ha : m'.aft = m.aft)

theorem pubDrop_case (m : WatchMem) (g a : Nat) (rev : Int) (src : List Event) (l : List (Int × Nat)) : PubCase m (m.pubDrop g a rev src l) g a rev src l := by
  unfold WatchMem.pubDrop WatchMem.pub
  by_cases h1 : (m.grp g).closed > 0
  · rw [if_pos h1]
    dsimp only
    rw [if_pos rfl]
    refine .closed h1 ?_ rfl rfl
    rw [setG_same, updAll_grp, setG_same]
  · rw [if_neg h1]
    by_cases h2 : ((m.grp g).queue.length : Int) < (m.grp g).cap
    · rw [if_pos h2]
      dsimp only
      rw [if_pos rfl]
      refine .sent h1 h2 ?_ rfl rfl
      rw [setG_same, updAll_grp, setG_same]
    · rw [if_neg h2]
      dsimp only
      rw [if_neg (by decide)]
      by_cases h3 : m.aft a = .armed
      · rw [if_pos h3]
        refine .dropped h1 h2 h3 ?_ rfl rfl
        unfold WatchMem.drop
        rw [setG_same]
        dsimp only
        rw [setG_same, updAll_grp, setG_same]
      · rw [if_neg h3]
        refine .late h1 h2 h3 ?_ rfl rfl
        rw [setG_same, updAll_grp, setG_same]

theorem AftRel.armed_iff {i : Nat} {thr : Nat → Option WThread} {a : Nat} {x : AftSt} {y : AfterFunc} (h : AftRel i thr a x y) : x = .armed ↔ y = .armed := by
  cases h <;> simp

/-- A group after the poller has published to it. -/
theorem GRel.publish {g a : Nat} {s s' : WSys} {G : Group} (h : GRel g s G) (inv : TInv s) (hg : g < s.mem.ng) (hs : (s.mem.grp g).stop = some a)
    {rev : Int} {src : List Event} {l : List (Int × Nat)} (hl : l.Perm (s.mem.grp g).watchers)
    {x x' : Tw} (ht : s.thr 0 = some ⟨.poll, x⟩) (hthr : s'.thr = fun u => if u = 0 then some ⟨.poll, x'⟩ else s.thr u)
    (hclient : s'.client = s.client) (hus : s'.used = s.used) (hlos : s'.lossy = s.lossy) (hsys : s'.sys = s.sys)
    (hgrp : s'.mem.grp = (s.mem.pubDrop g a rev src l).grp) (hwat : s'.mem.wat = (s.mem.pubDrop g a rev src l).wat)
    (hmap : s'.mem.map = (s.mem.pubDrop g a rev src l).map) (haft : s'.mem.aft = (s.mem.pubDrop g a rev src l).aft) : GRel g s' (G.publishOrDrop rev src) := by
  have hlg : ∀ p ∈ l, (s.mem.wat p.2).grp = some g := fun p hp => (inv.mem.refs g hg p (hl.mem_iff.1 hp)).2
  have ps := pubDrop_same s.mem g a rev src l hlg
  have hviews : (s.mem.grp g).watchers.map s'.mem.view = (G.watchers.map fun x => (x.update src).1).map Watcher.view := by
    refine publish_views src h.views fun p hp => ?_
    rw [hwat, pubDrop_wat, pub_wat, if_pos (List.mem_map.2 ⟨p, hl.mem_iff.2 hp, rfl⟩)]
  have hupd := publish_update rev src h.views hl (inv.mem.idsNodup g hg)
  have hold : ∀ u r y, r ≠ WRole.poll → (s'.thr u = some ⟨r, y⟩ ↔ s.thr u = some ⟨r, y⟩) := fun u r y hr => thr_resume ht hthr hr u y
  have hmarks : ∀ y ∈ G.watchers.map fun x => (x.update src).1, y.lossy = s'.lossy g y.id ∧ (y.id, y.start, y.lo, y.hi) ∈ s'.used g := by
    intro y hy
    obtain ⟨z, hz, rfl⟩ := List.mem_map.1 hy
    obtain ⟨h1, h2⟩ := h.marks z hz
    rw [hlos, hus]
    have e : (z.update src).1.lossy = z.lossy ∧ (z.update src).1.id = z.id ∧ (z.update src).1.start = z.start := by
      unfold Watcher.update
      split
      · exact ⟨rfl, rfl, rfl⟩
      · split <;> exact ⟨rfl, rfl, rfl⟩
    have e' := z.update_same src
    rw [e.1, e.2.1, e.2.2, e'.1, e'.2.1]
    exact ⟨h1, h2⟩
  -- what does not depend on the case
  have build : ∀ (G' : Group) (x : GMem), s'.mem.grp g = x → x.cur = G'.currentRevision → x.cap = (s.mem.grp g).cap → x.watchers = (s.mem.grp g).watchers →
      G'.watchers = (G.watchers.map fun x => (x.update src).1) → Each UpdRel x.queue G'.queue → x.received = (s.mem.grp g).received → G'.received = G.received →
      x.closed = G'.closed → x.panicked = G'.panicked → x.dropped = G'.dropped → (G'.inMap = true ↔ g ∈ s'.mem.map) → x.stop = some a →
      AftRel g s'.thr a (s'.mem.aft a) G'.after → G'.call = G.call → G'.answers = G.answers → G'.used = G.used → GRel g s' G' := by
    intro G' x e1 e2 e3 e4 e5 e6 e7 e7' e8 e9 e10 e11 e12 e13 e14 e15 e16
    refine ⟨by rw [e1]; exact e2, by rw [e1, e3]; exact h.cap, by rw [e1, e4, e5]; exact hviews, by rw [e5]; exact hmarks, by rw [e1]; exact e6,
      by rw [e1, e7, e7']; exact h.received, by rw [e1]; exact e8, by rw [e1]; exact e9, by rw [e1]; exact e10, e11, ?_, ?_, ?_, ?_, ?_, ?_⟩
    · intro b hb
      rw [e1, e12] at hb
      cases hb
      exact e13
    · rw [hclient, e14]; exact h.free
    · intro t hc
      rw [hclient] at hc
      obtain ⟨r, y, h1, h2, h3⟩ := h.call t hc
      refine ⟨r, y, (hold t r y (by rintro rfl; cases h2)).2 h1, h2, ?_⟩
      have hwm : ∀ q, q ∈ (s.mem.grp g).watchers → q ∈ (s'.mem.grp g).watchers := fun q hq => by rw [e1, e4]; exact hq
      cases h3 with
      | ret r vs idle => exact .ret _ _ (e14.trans idle)
      | unwatch id idle => exact .unwatch id (e14.trans idle)
      | reg id lo hi start c w idle hw hc fresh hl ne hu =>
        refine .reg id lo hi start c w (e14.trans idle) ?_ (by rw [hsys]; exact hc) (by rw [e16]; exact fresh) (by rw [hlos]; exact hl) ne (by rw [hus]; exact hu)
        rw [hwat, ps.wat w (by rw [hw]; nofun)]
        exact hw
      | check b p w c call hw hc hp => exact .check b p w c (e14.trans call) (hwm _ hw) hc hp
      | query b p w c call hw hc hp => exact .query b p w c (e14.trans call) (hwm _ hw) hc hp
      | rows b rs w c call hw hc => exact .rows b rs w c (e14.trans call) (hwm _ hw) hc
      | fail b e w c call hw hc => exact .fail b e w c (e14.trans call) (hwm _ hw) hc
    · intro t id lo hi start c vs htr
      obtain ⟨b, ans, h1, h2⟩ := h.answers t id lo hi start c vs ((hold t _ _ (by nofun)).1 htr)
      exact ⟨b, ans, by rw [e15]; exact h1, h2⟩
    · rw [e16, hus]; exact h.used
    · rw [hus]; exact h.once
  have haf := h.aft a hs
  have haf' : AftRel g s'.thr a (s.mem.aft a) G.after := haf.same fun t z hz => (hold t _ _ (by nofun)).2 hz
  have hq : (s.mem.grp g).queue.length = G.queue.length := h.queue.length
  have hin : G.inMap = true ↔ g ∈ s.mem.map := h.inMap
  unfold Group.publishOrDrop Group.publish
  cases pubDrop_case s.mem g a rev src l with
  | closed h1 e1 e2 e3 =>
    rw [← hgrp] at e1
    rw [if_pos (by rw [← h.closed]; exact h1)]
    refine build _ _ e1 rfl rfl rfl rfl h.queue rfl rfl h.closed rfl h.dropped (by rw [hmap, e2]; exact hin) hs (by rw [haft, e3]; exact haf') rfl rfl rfl
  | sent h1 h2 e1 e2 e3 =>
    rw [← hgrp] at e1
    rw [if_neg (by rw [← h.closed]; exact h1), if_pos (by rw [h.cap] at h2; rw [← hq]; unfold updateCapacity; omega)]
    refine build _ _ e1 rfl rfl rfl rfl (h.queue.append (.cons hupd .nil)) rfl rfl h.closed h.panicked h.dropped (by rw [hmap, e2]; exact hin) hs
      (by rw [haft, e3]; exact haf') rfl rfl rfl
  | dropped h1 h2 h3 e1 e2 e3 =>
    rw [← hgrp] at e1
    rw [if_neg (by rw [← h.closed]; exact h1), if_neg (by rw [h.cap] at h2; rw [← hq]; unfold updateCapacity; omega)]
    dsimp only
    rw [if_pos (haf.armed_iff.1 h3)]
    refine build _ _ e1 rfl rfl rfl rfl h.queue rfl rfl (by show _ = G.closed + 1; rw [← h.closed])
      (by show _ = (G.panicked || decide (G.closed > 0)); rw [← h.closed, ← h.panicked]) rfl ?_ hs ?_ rfl rfl rfl
    · rw [hmap, e2, mem_filter_ne]
      exact ⟨nofun, fun h => absurd rfl h.2⟩
    · rw [haft, e3]
      dsimp only
      rw [if_pos rfl]
      exact .stopped
  | late h1 h2 h3 e1 e2 e3 =>
    rw [← hgrp] at e1
    rw [if_neg (by rw [← h.closed]; exact h1), if_neg (by rw [h.cap] at h2; rw [← hq]; unfold updateCapacity; omega)]
    dsimp only
    rw [if_neg fun e => h3 (haf.armed_iff.2 e)]
    refine build _ _ e1 rfl rfl rfl rfl h.queue rfl rfl h.closed h.panicked rfl (by rw [hmap, e2]; exact hin) hs (by rw [haft, e3]; exact haf') rfl rfl rfl

/-- `publishEvents` gets the mutex of a group. -/
theorem Sim.pollPublish {s : WSys} (h : Sim s) (o : Orders) {g : Nat} {k : Tw} (ht : s.thr 0 = some ⟨.poll, .lockW g k⟩) :
    Sim (s.resume o 0 .poll (some g) s.mem k) := by
  obtain ⟨n0, hn0⟩ := h.rel 0
  obtain ⟨_, _, _, _, _, held, _, sub0, _⟩ := (hn0.poll _ ht).lockW_inv
  have hmap : g ∈ s.mem.map := sub0 g (by simp)
  have hg : g < s.mem.ng := h.inv.mem.sub g hmap
  obtain ⟨a, ha, hs, _⟩ := h.inv.mem.stop g hg
  have hl := o.watchers_perm (s.mem.grp g).watchers
  have key : ∀ es j b rest, Tw.lockW g k = pubAt es s.mem.pollRev g rest (pollT j b) → k.run o 0 (some g) s.mem =
      ((s.mem.pubDrop g a s.mem.pollRev es (o.watchers (s.mem.grp g).watchers)).pubEnd rest, pubPause es s.mem.pollRev j b rest) := by
    intro es j b rest e
    obtain ⟨k', e1, e2⟩ := run_pubAt (o := o) (t := 0) g a s.mem.pollRev es j b rest s.mem held rfl hs (fun p hp => (h.inv.mem.refs g hg p hp).2) (h.inv.mem.refsNodup g hg)
    have ek : k = k' := by rw [e1] at e; injection e
    subst ek
    exact e2
  unfold WSys.resume
  generalize o.watchers (s.mem.grp g).watchers = l at hl key
  generalize hR : k.run o 0 (some g) s.mem = R at key
  have hlg : ∀ p ∈ l, (s.mem.wat p.2).grp = some g := fun p hp => (h.inv.mem.refs g hg p (hl.mem_iff.1 hp)).2
  have fields : ∀ i, ∃ n, WRel i s n ∧ ∃ j b es rest, R.1 = (s.mem.pubDrop g a s.mem.pollRev es l).pubEnd rest ∧ R.2 = pubPause es s.mem.pollRev j b rest ∧
      (g :: rest).Nodup ∧ (∀ x ∈ g :: rest, x ∈ s.mem.map) ∧
      (if i ∈ g :: rest then ∃ rows, es = scanAll scanEvent rows ∧ s.mem.pollRev = nextPollRevision n.node.pollRevision es ∧ n.node.poll = .querying (.ret (.ok rows))
       else n.node.pollRevision = s.mem.pollRev ∧ n.node.poll = .idle) := by
    intro i
    obtain ⟨n, hn⟩ := h.rel i
    obtain ⟨j, b, es, rest, e, _, nodup, sub, c⟩ := (hn.poll _ ht).lockW_inv
    have := key es j b rest e
    exact ⟨n, hn, j, b, es, rest, by rw [this], by rw [this], nodup, sub, c⟩
  have facts : ∀ es rest, R.1 = (s.mem.pubDrop g a s.mem.pollRev es l).pubEnd rest →
      PubSame g a s.mem (s.mem.pubDrop g a s.mem.pollRev es l) ∧ R.1.grp = (s.mem.pubDrop g a s.mem.pollRev es l).grp ∧ R.1.wat = (s.mem.pubDrop g a s.mem.pollRev es l).wat ∧
      R.1.map = (s.mem.pubDrop g a s.mem.pollRev es l).map ∧ R.1.aft = (s.mem.pubDrop g a s.mem.pollRev es l).aft ∧ R.1.ng = s.mem.ng ∧ R.1.nw = s.mem.nw ∧ R.1.pollRev = s.mem.pollRev := by
    intro es rest e
    have ps := pubDrop_same s.mem g a s.mem.pollRev es l hlg
    obtain ⟨p1, p2, p3, p4, p5, p6, p7, p8⟩ := pubEnd_fields (s.mem.pubDrop g a s.mem.pollRev es l) rest
    rw [← e] at p1 p2 p3 p4 p5 p6 p7 p8
    exact ⟨ps, p1, p2, p3, p4, p5.trans ps.skel.ng, p7.trans ps.nw, p8.trans ps.pollRev⟩
  have stop_ne : ∀ i b, i ≠ g → (s.mem.grp i).stop = some b → i < s.mem.ng → b ≠ a := fun i b hi hb hlt e => hi (h.inv.mem.inj i g b hlt hg hb (e ▸ hs))
  obtain ⟨_, _, _, _, es0, rest0, e0, e0', _⟩ := fields 0
  obtain ⟨ps, p1, p2, p3, p4, p5, p6, p7⟩ := facts es0 rest0 e0
  refine h.pollStep (x' := R.2) ht rfl rfl rfl rfl (by dsimp only; rw [e0]; exact (ps.minv h.inv.mem).pubEnd rest0) p5 (fun i => by dsimp only; rw [p1]; exact ps.skel.stop i)
    ?_ (Nat.le_of_eq p6.symm) (fun w => by dsimp only; rw [p2]; exact ps.wgrp w) (by rw [e0']; exact pubPause_not_pend _ _ _ _ _) fun i => ?_
  · intro b u _ hb
    dsimp only
    rw [p4]
    by_cases hba : b = a
    · subst hba
      cases pubDrop_case s.mem g b s.mem.pollRev es0 l with
      | closed _ _ _ e => rw [e]; exact hb
      | sent _ _ _ _ e => rw [e]; exact hb
      | dropped _ _ h3 => rw [hb] at h3; cases h3
      | late _ _ _ _ _ e => rw [e]; exact hb
    · rw [ps.aft b hba]; exact hb
  · obtain ⟨n, hn, j, b, es, rest, e1, e2, nodup, sub, c⟩ := fields i
    clear ps p1 p2 p3 p4 p5 p6 p7 e0 e0'
    obtain ⟨ps, p1, p2, p3, p4, p5, p6, p7⟩ := facts es rest e1
    have hrest : ∀ x ∈ rest, x ∈ R.1.map := by
      intro x hx
      rw [p3]
      refine (ps.mem_map ?_).2 (sub x (by simp [hx]))
      rintro rfl
      exact (List.nodup_cons.1 nodup).1 hx
    have hnr := (List.nodup_cons.1 nodup).2
    -- the poller, when the model has published
    have next : i ∉ rest → ∀ n' : NSys, NReachable n' → n'.node.pollRevision = s.mem.pollRev → n'.node.poll = .idle →
        ∃ n2, NReachable n2 ∧ n2.sys = n'.sys ∧ n2.node.overtaken = n'.node.overtaken ∧ n2.node.groups = n'.node.groups ∧ PollRel i R.1 n2.node R.2 := by
      intro hir n' h1 h2 h3
      cases rest with
      | nil =>
        obtain ⟨n2, q1, q2, q3, q4, q5⟩ := pause_rel (i := i) (m := R.1) h1 (by rw [e1]; rfl) (by rw [p7]; exact h2) h3 j b
        refine ⟨n2, q1, q2, q3, q4, ?_⟩
        rw [p7] at q5
        rw [e2]
        exact q5
      | cons g2 rest =>
        refine ⟨n', h1, rfl, rfl, rfl, ?_⟩
        have : R.2 = pubAt es R.1.pollRev g2 rest (pollT j b) := by rw [p7]; exact e2
        rw [this]
        exact .past j b es g2 rest (by rw [e1]; exact ps.owner.trans held) hnr hrest hir (by rw [p7]; exact h2) h3
    by_cases hig : i = g
    · subst hig
      rw [if_pos (by simp)] at c
      obtain ⟨rows, rfl, hrev, q⟩ := c
      obtain ⟨G, hG, hR'⟩ := hn.grel hg
      obtain ⟨ns, nn⟩ := n
      have st := NStep.pollPublish ns nn rows q
      change s.mem.pollRev = nextPollRevision nn.pollRevision _ at hrev
      have hgr : (nn.publishEvents (scanAll scanEvent rows)).groups = [G.publishOrDrop s.mem.pollRev (scanAll scanEvent rows)] := by
        show (nn.groups.map fun g => if g.inMap then g.publishOrDrop (nextPollRevision nn.pollRevision (scanAll scanEvent rows)) (scanAll scanEvent rows) else g) = _
        rw [show nn.groups = [G] from hG, ← hrev]
        show [if G.inMap = true then _ else G] = _
        rw [if_pos (hR'.inMap.2 hmap)]
      obtain ⟨n2, q1, q2, q3, q4, q5⟩ := next (List.nodup_cons.1 nodup).1 _ (.step hn.reach st) hrev.symm rfl
      refine ⟨n2, q1, q2.trans hn.sys, q3.trans hn.over, q5, ?_⟩
      unfold GroupRel
      rw [if_pos (by dsimp only; rw [p5]; exact hg)]
      refine ⟨_, q4.trans hgr, ?_⟩
      refine hR'.publish (x' := R.2) h.inv hg hs hl ht ?_ ?_ ?_ ?_ ?_ p1 p2 p3 p4
      · rfl
      · rfl
      · rfl
      · rfl
      · rfl
    · have hsame : ∀ n2 : Node, n2.groups = n.node.groups → GroupRel i { s with mem := R.1, thr := fun u => if u = 0 then some ⟨.poll, R.2⟩ else s.thr u } n2 := by
        intro n2 hn2
        by_cases hlt : i < s.mem.ng
        · refine hn.group.same ?_ hn2
          refine same_poll (x' := R.2) ht ?_ ?_ ?_ ?_ ?_ i ?_ ?_ ?_ ?_ ?_ ?_
          · rfl
          · rfl
          · rfl
          · rfl
          · exact Int.le_refl _
          · dsimp only; rw [p5]
          · dsimp only; rw [p1]; exact ps.other i hig
          · intro _ p hp
            dsimp only
            rw [p2]
            refine ps.wat _ ?_
            rw [(h.inv.mem.refs i hlt p hp).2]
            intro e
            cases e
            exact hig rfl
          · dsimp only; rw [p3]; exact ps.mem_map hig
          · intro b hb; dsimp only; rw [p4]; exact ps.aft b (stop_ne i b hig hb hlt)
          · intro t w _ hp; dsimp only; rw [p2]; exact ps.wat w (by rw [(h.inv.pend t w hp).2]; nofun)
        · have := hn.group
          unfold GroupRel at this ⊢
          rw [if_neg hlt] at this
          rw [if_neg (by dsimp only; rw [p5]; exact hlt)]
          exact hn2.trans this
      by_cases hir : i ∈ rest
      · rw [if_pos (by simp [hir])] at c
        obtain ⟨rows, rfl, hrev, q⟩ := c
        refine ⟨n, hn.reach, hn.sys, hn.over, ?_, hsame _ rfl⟩
        dsimp only
        cases rest with
        | nil => cases hir
        | cons g2 rest =>
          have : R.2 = pubAt (scanAll scanEvent rows) R.1.pollRev g2 rest (pollT j b) := by rw [p7]; exact e2
          rw [this]
          exact .pend j b rows g2 rest (by rw [e1]; exact ps.owner.trans held) hnr hrest hir (by rw [p7]; exact hrev) q
      · rw [if_neg (by simp [hir, hig])] at c
        obtain ⟨n2, q1, q2, q3, q4, q5⟩ := next hir n hn.reach c.1 c.2
        exact ⟨n2, q1, q2.trans hn.sys, q3.trans hn.over, q5, hsame _ q4⟩

end Verif.Go
