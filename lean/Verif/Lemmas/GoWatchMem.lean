import Verif.Lemmas.GoWatchRel
/-!
# What the sections of the goroutines of `watcher.go` leave as it was
-/

namespace Verif.Go

open Verif.GoText

/-! ### The memory stays in order -/

/-- The parts that `MInv` is about. -/
structure Skel (m m' : WatchMem) : Prop where
  ng : m'.ng = m.ng
  na : m'.na = m.na
  nw : m.nw ≤ m'.nw
  body : ∀ a, a < m.na → m'.body a = m.body a
  stop : ∀ g, (m'.grp g).stop = (m.grp g).stop

theorem MInv.skel {m m' : WatchMem} (h : MInv m) (k : Skel m m') (hm : m'.map.Nodup) (hs : ∀ g ∈ m'.map, g ∈ m.map)
    (hr : ∀ g, g < m.ng → ∀ p ∈ (m'.grp g).watchers, p.2 < m'.nw ∧ (m'.wat p.2).grp = some g)
    (hrn : ∀ g, g < m.ng → ((m'.grp g).watchers.map (·.2)).Nodup) (hin : ∀ g, g < m.ng → ((m'.grp g).watchers.map (·.1)).Nodup) : MInv m' := by
  refine ⟨?_, ?_, ?_, hm, ?_, ?_, ?_, ?_⟩
  · intro g hg
    rw [k.ng] at hg
    obtain ⟨a, h1, h2, h3⟩ := h.stop g hg
    exact ⟨a, by rw [k.na]; exact h1, by rw [k.stop]; exact h2, by rw [k.body a h1]; exact h3⟩
  · intro g g' a hg hg' h1 h2
    rw [k.ng] at hg hg'
    rw [k.stop] at h1 h2
    exact h.inj g g' a hg hg' h1 h2
  · intro a ha
    rw [k.na] at ha
    obtain ⟨g, h1, h2⟩ := h.afts a ha
    exact ⟨g, by rw [k.ng]; exact h1, by rw [k.stop]; exact h2⟩
  · intro g hg
    rw [k.ng]
    exact h.sub g (hs g hg)
  · intro g hg
    rw [k.ng] at hg
    exact hr g hg
  · intro g hg
    rw [k.ng] at hg
    exact hrn g hg
  · intro g hg
    rw [k.ng] at hg
    exact hin g hg

theorem setG_field {α : Type} (m : WatchMem) (g : Nat) (f : GMem → GMem) (q : GMem → α) (h : ∀ x, q (f x) = q x) (i : Nat) :
    q ((m.setG g f).grp i) = q (m.grp i) := by
  show q (if i = g then f (m.grp i) else m.grp i) = _
  split
  · exact h _
  · rfl

theorem setW_field {α : Type} (m : WatchMem) (g : Nat) (f : WMem → WMem) (q : WMem → α) (h : ∀ x, q (f x) = q x) (i : Nat) :
    q ((m.setW g f).wat i) = q (m.wat i) := by
  show q (if i = g then f (m.wat i) else m.wat i) = _
  split
  · exact h _
  · rfl

/-- `close(w.updates)`. -/
def closeG (x : GMem) : GMem := { x with closed := x.closed + 1, panicked := x.panicked || decide (x.closed > 0) }

/-- Watchers and groups as before. -/
theorem MInv.easy {m m' : WatchMem} (h : MInv m) (k : Skel m m') (hm : m'.map.Nodup) (hs : ∀ g ∈ m'.map, g ∈ m.map)
    (hw : ∀ g, (m'.grp g).watchers = (m.grp g).watchers) (hg : ∀ w, w < m.nw → (m'.wat w).grp = (m.wat w).grp) : MInv m' := by
  refine h.skel k hm hs ?_ ?_ ?_
  · intro g hlt p hp
    rw [hw] at hp
    obtain ⟨h1, h2⟩ := h.refs g hlt p hp
    exact ⟨Nat.lt_of_lt_of_le h1 k.nw, by rw [hg _ h1]; exact h2⟩
  · intro g hlt
    rw [hw]
    exact h.refsNodup g hlt
  · intro g hlt
    rw [hw]
    exact h.idsNodup g hlt

/-- A section of `publish`: what stays. -/
structure PubSame (g a : Nat) (m m' : WatchMem) : Prop where
  skel : Skel m m'
  map : m'.map = m.map ∨ m'.map = m.map.filter (fun x => decide (x ≠ g))
  watchers : ∀ i, (m'.grp i).watchers = (m.grp i).watchers
  wgrp : ∀ w, (m'.wat w).grp = (m.wat w).grp
  other : ∀ i, i ≠ g → m'.grp i = m.grp i
  wat : ∀ w, (m.wat w).grp ≠ some g → m'.wat w = m.wat w
  aft : ∀ b, b ≠ a → m'.aft b = m.aft b
  pollRev : m'.pollRev = m.pollRev
  owner : m'.owner = m.owner
  nw : m'.nw = m.nw

theorem pub_grp_field {α : Type} (m : WatchMem) (g : Nat) (rev : Int) (src : List Event) (l : List (Int × Nat)) (q : GMem → α)
    (h1 : ∀ x n, q { x with cur := n } = q x) (h2 : ∀ x b, q { x with panicked := b } = q x) (h3 : ∀ x b, q { x with dropped := b } = q x)
    (h4 : ∀ x b, q { x with queue := b } = q x) (i : Nat) : q ((m.pub g rev src l).1.grp i) = q (m.grp i) := by
  have e : ∀ f : GMem → GMem, (∀ x, q (f x) = q x) → q ((((m.setG g fun x => { x with cur := rev }).updAll src (l.map (·.2))).setG g f).grp i) = q (m.grp i) := by
    intro f hf
    rw [setG_field _ g f q hf i, updAll_grp]
    exact setG_field _ g _ q (fun x => h1 x rev) i
  unfold WatchMem.pub
  split
  · exact e _ fun x => h2 x _
  · split
    · exact e _ fun x => h4 x _
    · exact e _ fun x => h3 x _

theorem pub_wat (m : WatchMem) (g : Nat) (rev : Int) (src : List Event) (l : List (Int × Nat)) (i : Nat) :
    (m.pub g rev src l).1.wat i = if i ∈ l.map (·.2) then ((m.wat i).upd src).1 else m.wat i := by
  rw [(pub_same m g rev src l).2.2.2.2.2.2.2.2.2.1]

theorem pubDrop_wat (m : WatchMem) (g a : Nat) (rev : Int) (src : List Event) (l : List (Int × Nat)) :
    (m.pubDrop g a rev src l).wat = (m.pub g rev src l).1.wat := by
  unfold WatchMem.pubDrop
  split
  · rfl
  · split <;> rfl

theorem pubDrop_same (m : WatchMem) (g a : Nat) (rev : Int) (src : List Event) (l : List (Int × Nat)) (hl : ∀ p ∈ l, (m.wat p.2).grp = some g) :
    PubSame g a m (m.pubDrop g a rev src l) := by
  obtain ⟨h1, h2, h3, h4, h5, h6, h7, h8, h9, h10, h11⟩ := pub_same m g rev src l
  have hwg : ∀ w, ((m.pub g rev src l).1.wat w).grp = (m.wat w).grp := by
    intro w
    rw [pub_wat]
    split
    · exact upd_grp _ _
    · rfl
  have hwo : ∀ w, (m.wat w).grp ≠ some g → (m.pub g rev src l).1.wat w = m.wat w := by
    intro w hw
    rw [pub_wat, if_neg]
    intro hm
    obtain ⟨p, hp, rfl⟩ := List.mem_map.1 hm
    exact hw (hl p hp)
  have hst : ∀ i, ((m.pub g rev src l).1.grp i).stop = (m.grp i).stop :=
    pub_grp_field m g rev src l (·.stop) (fun _ _ => rfl) (fun _ _ => rfl) (fun _ _ => rfl) (fun _ _ => rfl)
  have hws : ∀ i, ((m.pub g rev src l).1.grp i).watchers = (m.grp i).watchers :=
    pub_grp_field m g rev src l (·.watchers) (fun _ _ => rfl) (fun _ _ => rfl) (fun _ _ => rfl) (fun _ _ => rfl)
  have base : PubSame g a m (m.pub g rev src l).1 :=
    ⟨⟨h6, h8, Nat.le_of_eq h7.symm, fun _ _ => by rw [h5], hst⟩, .inl h3, hws, hwg, h11, hwo, fun b _ => by rw [h4], h2, h1, h7⟩
  unfold WatchMem.pubDrop
  split
  · exact base
  · split
    · refine ⟨⟨h6, h8, Nat.le_of_eq h7.symm, fun _ _ => by show (m.pub g rev src l).1.body _ = _; rw [h5], fun i => ?_⟩, .inr (by show ((m.pub g rev src l).1.map.filter _) = _; rw [h3]), fun i => ?_, hwg, fun i hi => ?_, hwo, fun b hb => ?_, h2, h1, h7⟩
      · exact (setG_field _ g closeG (·.stop) (fun _ => rfl) i).trans (hst i)
      · exact (setG_field _ g closeG (·.watchers) (fun _ => rfl) i).trans (hws i)
      · exact (setG_other _ _ hi).trans (h11 i hi)
      · show (if b = a then AftSt.stopped else (m.pub g rev src l).1.aft b) = _
        rw [if_neg hb, h4]
    · exact base

theorem mem_filter_ne {l : List Nat} {g x : Nat} : x ∈ l.filter (fun y => decide (y ≠ g)) ↔ x ∈ l ∧ x ≠ g := by
  rw [List.mem_filter, decide_eq_true_eq]

theorem PubSame.mem_map {g a : Nat} {m m' : WatchMem} (k : PubSame g a m m') {i : Nat} (hi : i ≠ g) : i ∈ m'.map ↔ i ∈ m.map := by
  rcases k.map with h | h
  · rw [h]
  · rw [h, mem_filter_ne]
    exact ⟨fun h => h.1, fun h => ⟨h, hi⟩⟩

theorem PubSame.sub {g a : Nat} {m m' : WatchMem} (k : PubSame g a m m') {i : Nat} (hi : i ∈ m'.map) : i ∈ m.map := by
  rcases k.map with h | h
  · rw [h] at hi; exact hi
  · rw [h, mem_filter_ne] at hi; exact hi.1

theorem PubSame.minv {g a : Nat} {m m' : WatchMem} (k : PubSame g a m m') (h : MInv m) : MInv m' := by
  refine h.easy k.skel ?_ (fun i hi => k.sub hi) k.watchers fun w _ => k.wgrp w
  rcases k.map with e | e
  · rw [e]; exact h.nodup
  · rw [e]; exact h.nodup.filter _

theorem MInv.owner {m : WatchMem} (h : MInv m) (o : Option Nat) : MInv { m with owner := o } :=
  ⟨h.stop, h.inj, h.afts, h.nodup, h.sub, h.refs, h.refsNodup, h.idsNodup⟩

theorem MInv.pollRev {m : WatchMem} (h : MInv m) (o : Int) : MInv { m with pollRev := o } :=
  ⟨h.stop, h.inj, h.afts, h.nodup, h.sub, h.refs, h.refsNodup, h.idsNodup⟩

theorem MInv.pubEnd {m : WatchMem} (h : MInv m) (rest : List Nat) : MInv (m.pubEnd rest) := by
  cases rest with
  | nil => exact h.owner none
  | cons _ _ => exact h

theorem MInv.running {m : WatchMem} (h : MInv m) (f : Nat → AftSt) : MInv { m with aft := f } :=
  ⟨h.stop, h.inj, h.afts, h.nodup, h.sub, h.refs, h.refsNodup, h.idsNodup⟩

theorem MInv.setG {m : WatchMem} (h : MInv m) (g : Nat) (f : GMem → GMem) (h1 : ∀ x, (f x).stop = x.stop) (h2 : ∀ x, (f x).watchers = x.watchers) :
    MInv (m.setG g f) :=
  h.easy ⟨rfl, rfl, Nat.le_refl _, fun _ _ => rfl, setG_field m g f (·.stop) h1⟩ h.nodup (fun _ h => h) (setG_field m g f (·.watchers) h2) fun _ _ => rfl

theorem MInv.setW {m : WatchMem} (h : MInv m) (w : Nat) (f : WMem → WMem) (h1 : ∀ x, (f x).grp = x.grp) : MInv (m.setW w f) :=
  h.easy ⟨rfl, rfl, Nat.le_refl _, fun _ _ => rfl, fun _ => rfl⟩ h.nodup (fun _ h => h) (fun _ => rfl) fun w' _ => setW_field m w f (·.grp) h1 w'

theorem MInv.cancelled {m : WatchMem} (h : MInv m) (g : Nat) : MInv (m.cancelled g) := by
  refine h.easy ⟨rfl, rfl, Nat.le_refl _, fun _ _ => rfl, ?_⟩ (h.nodup.filter _) (fun i hi => (mem_filter_ne.1 hi).1) ?_ fun _ _ => rfl
  · exact fun i => setG_field _ g closeG (·.stop) (fun _ => rfl) i
  · exact fun i => setG_field _ g closeG (·.watchers) (fun _ => rfl) i

theorem MInv.newW {m : WatchMem} (h : MInv m) (x : WMem) : MInv { m.setW m.nw (fun _ => x) with nw := m.nw + 1 } := by
  refine h.easy ⟨rfl, rfl, Nat.le_succ _, fun _ _ => rfl, fun _ => rfl⟩ h.nodup (fun _ h => h) (fun _ => rfl) fun w hw => ?_
  show ((m.setW m.nw (fun _ => x)).wat w).grp = _
  rw [setW_other _ _ (Nat.ne_of_lt hw)]

theorem MInv.opened {m : WatchMem} (h : MInv m) : MInv m.opened := by
  have hne : ∀ g, g < m.ng → g ≠ m.ng := fun g hg => Nat.ne_of_lt hg
  have hg : ∀ g, g < m.ng → m.opened.grp g = m.grp g := fun g hg => if_neg (hne g hg)
  have hn : m.opened.grp m.ng = ⟨m.pollRev, [], 100, [], some m.na, 0, false, false, []⟩ := if_pos rfl
  have hc : ∀ g, g < m.opened.ng → g < m.ng ∨ g = m.ng := fun g hg => Nat.lt_or_eq_of_le (Nat.le_of_lt_succ hg)
  have hold : ∀ g, g < m.ng → (m.grp g).stop ≠ some m.na := by
    intro g hg e
    obtain ⟨a, h1, h2, _⟩ := h.stop g hg
    rw [h2] at e
    cases e
    exact Nat.lt_irrefl _ h1
  refine ⟨?_, ?_, ?_, ?_, ?_, ?_, ?_, ?_⟩
  · intro g hlt
    rcases hc g hlt with hlt | rfl
    · obtain ⟨a, h1, h2, h3⟩ := h.stop g hlt
      refine ⟨a, Nat.lt_succ_of_lt h1, by rw [hg g hlt]; exact h2, ?_⟩
      show (if a = m.na then _ else m.body a) = _
      rw [if_neg (Nat.ne_of_lt h1), h3]
    · exact ⟨m.na, Nat.lt_succ_self _, by rw [hn], if_pos rfl⟩
  · intro g g' a h1 h2 e1 e2
    rcases hc g h1 with h1 | rfl <;> rcases hc g' h2 with h2 | rfl
    · rw [hg g h1] at e1
      rw [hg g' h2] at e2
      exact h.inj g g' a h1 h2 e1 e2
    · rw [hg g h1] at e1
      rw [hn] at e2
      cases e2
      exact absurd e1 (hold g h1)
    · rw [hg g' h2] at e2
      rw [hn] at e1
      cases e1
      exact absurd e2 (hold g' h2)
    · rfl
  · intro a ha
    rcases Nat.lt_or_eq_of_le (Nat.le_of_lt_succ ha) with ha | rfl
    · obtain ⟨g, h1, h2⟩ := h.afts a ha
      exact ⟨g, Nat.lt_succ_of_lt h1, by rw [hg g h1]; exact h2⟩
    · exact ⟨m.ng, Nat.lt_succ_self _, by rw [hn]⟩
  · show (m.map.filter _ ++ [m.ng]).Nodup
    rw [List.nodup_append]
    refine ⟨h.nodup.filter _, by simp, ?_⟩
    intro a ha b hb
    rw [List.mem_singleton.1 hb]
    exact (mem_filter_ne.1 ha).2
  · intro g hm
    rcases List.mem_append.1 hm with hm | hm
    · exact Nat.lt_succ_of_lt (h.sub g (mem_filter_ne.1 hm).1)
    · rw [List.mem_singleton.1 hm]; exact Nat.lt_succ_self _
  · intro g hlt p hp
    rcases hc g hlt with hlt | rfl
    · rw [hg g hlt] at hp
      exact h.refs g hlt p hp
    · rw [hn] at hp; cases hp
  · intro g hlt
    rcases hc g hlt with hlt | rfl
    · rw [hg g hlt]; exact h.refsNodup g hlt
    · rw [hn]; exact .nil
  · intro g hlt
    rcases hc g hlt with hlt | rfl
    · rw [hg g hlt]; exact h.idsNodup g hlt
    · rw [hn]; exact .nil

theorem nodup_map_filter {α β : Type} (f : α → β) {l : List α} (h : (l.map f).Nodup) (q : α → Bool) : ((l.filter q).map f).Nodup :=
  List.Sublist.nodup (List.filter_sublist.map f) h

theorem MInv.unwatch {m : WatchMem} (h : MInv m) (g : Nat) (id : Int) : MInv (m.unwatch g id) := by
  have hw : ∀ i, ((m.unwatch g id).grp i).watchers = (m.grp i).watchers ∨ ((m.unwatch g id).grp i).watchers = (m.grp i).watchers.filter fun p => decide (p.1 ≠ id) := by
    intro i
    by_cases hi : i = g
    · subst hi; right; exact congrArg GMem.watchers (setG_same _ _ _)
    · left; exact congrArg GMem.watchers (setG_other _ _ hi)
  refine h.skel ⟨rfl, rfl, Nat.le_refl _, fun _ _ => rfl, setG_field _ g _ (·.stop) fun _ => rfl⟩ h.nodup (fun _ h => h) ?_ ?_ ?_
  · intro i hi p hp
    refine h.refs i hi p ?_
    rcases hw i with e | e
    · rw [e] at hp; exact hp
    · rw [e] at hp; exact (List.mem_filter.1 hp).1
  · intro i hi
    rcases hw i with e | e
    · rw [e]; exact h.refsNodup i hi
    · rw [e]; exact nodup_map_filter _ (h.refsNodup i hi) _
  · intro i hi
    rcases hw i with e | e
    · rw [e]; exact h.idsNodup i hi
    · rw [e]; exact nodup_map_filter _ (h.idsNodup i hi) _

theorem register_wat_other (m : WatchMem) (g : Nat) (id : Int) (w : Nat) (b : Bool) {i : Nat} (h : i ≠ w) : (m.register g id w b).wat i = m.wat i := by
  unfold WatchMem.register
  rw [setW_other _ _ h]
  rfl

theorem register_grp_other (m : WatchMem) (g : Nat) (id : Int) (w : Nat) (b : Bool) {i : Nat} (h : i ≠ g) : (m.register g id w b).grp i = m.grp i := by
  unfold WatchMem.register
  rw [setW_grp, setG_other _ _ h]

theorem register_grp_same (m : WatchMem) (g : Nat) (id : Int) (w : Nat) (b : Bool) :
    (m.register g id w b).grp g = { m.grp g with watchers := (m.grp g).watchers.filter (fun p => decide (p.1 ≠ id)) ++ [(id, w)] } := by
  unfold WatchMem.register
  rw [setW_grp, setG_same]

theorem MInv.register {m : WatchMem} (h : MInv m) (g : Nat) (id : Int) (w : Nat) (b : Bool) (hw : w < m.nw) (hn : (m.wat w).grp = none) :
    MInv (m.register g id w b) := by
  have hne : ∀ i, i < m.ng → ∀ p ∈ (m.grp i).watchers, p.2 ≠ w := by
    intro i hi p hp e
    obtain ⟨_, h2⟩ := h.refs i hi p hp
    rw [e, hn] at h2
    cases h2
  refine h.skel ⟨rfl, rfl, Nat.le_refl _, fun _ _ => rfl, ?_⟩ h.nodup (fun _ h => h) ?_ ?_ ?_
  · intro i
    by_cases hi : i = g
    · subst hi; rw [register_grp_same]
    · rw [register_grp_other _ _ _ _ _ hi]
  · intro i hi p hp
    have old : p ∈ (m.grp i).watchers → p.2 < m.nw ∧ ((m.register g id w b).wat p.2).grp = some i := by
      intro hp
      rw [register_wat_other _ _ _ _ _ (hne i hi p hp)]
      exact h.refs i hi p hp
    by_cases hg : i = g
    · subst hg
      rw [register_grp_same] at hp
      rcases List.mem_append.1 hp with hp | hp
      · exact old (List.mem_filter.1 hp).1
      · rw [List.mem_singleton.1 hp]
        refine ⟨hw, ?_⟩
        show ((m.register i id w b).wat w).grp = _
        unfold WatchMem.register
        rw [setW_same]
    · rw [register_grp_other _ _ _ _ _ hg] at hp
      exact old hp
  · intro i hi
    by_cases hg : i = g
    · subst hg
      rw [register_grp_same]
      show ((_ ++ [(id, w)]).map (·.2)).Nodup
      rw [List.map_append, List.nodup_append]
      refine ⟨nodup_map_filter _ (h.refsNodup i hi) _, by simp, ?_⟩
      intro a ha c hc
      obtain ⟨p, hp, rfl⟩ := List.mem_map.1 ha
      rw [List.mem_singleton.1 hc]
      exact hne i hi p (List.mem_filter.1 hp).1
    · rw [register_grp_other _ _ _ _ _ hg]; exact h.refsNodup i hi
  · intro i hi
    by_cases hg : i = g
    · subst hg
      rw [register_grp_same]
      show ((_ ++ [(id, w)]).map (·.1)).Nodup
      rw [List.map_append, List.nodup_append]
      refine ⟨nodup_map_filter _ (h.idsNodup i hi) _, by simp, ?_⟩
      intro a ha c hc
      obtain ⟨p, hp, rfl⟩ := List.mem_map.1 ha
      rw [List.mem_singleton.1 hc]
      simpa using (List.mem_filter.1 hp).2
    · rw [register_grp_other _ _ _ _ _ hg]; exact h.idsNodup i hi

end Verif.Go
