import Verif.Lemmas.GoWatchMem
/-!
# Steps of goroutines that have nothing to do with a group
-/

namespace Verif.Go

open Verif.GoText

/-! ### Other groups -/

/-- Has a goroutine with this role to do with group `i`? -/
def About (i : Nat) (m : WatchMem) (r : WRole) : Prop := r.grp = some i ∨ ∃ a, r = .cancel a ∧ (m.grp i).stop = some a

/-- Nothing that has to do with group `i` has changed. -/
structure Same (i : Nat) (s s' : WSys) : Prop where
  lt : i < s'.mem.ng ↔ i < s.mem.ng
  grp : s'.mem.grp i = s.mem.grp i
  wat : i < s.mem.ng → ∀ p ∈ (s.mem.grp i).watchers, s'.mem.wat p.2 = s.mem.wat p.2
  map : i ∈ s'.mem.map ↔ i ∈ s.mem.map
  aft : i < s.mem.ng → ∀ a, (s.mem.grp i).stop = some a → s'.mem.aft a = s.mem.aft a
  client : s'.client i = s.client i
  used : s'.used i = s.used i
  lossy : s'.lossy i = s.lossy i
  thr : i < s.mem.ng → ∀ t r x, About i s.mem r → (s'.thr t = some ⟨r, x⟩ ↔ s.thr t = some ⟨r, x⟩)
  pend : ∀ t w, s.client i = some t → Pend s t w → s'.mem.wat w = s.mem.wat w
  cr : s.sys.world.db.compactRev ≤ s'.sys.world.db.compactRev

theorem ClientAt.same {i : Nat} {s s' : WSys} {g : Group} {t : Nat} {r : WRole} {x : Tw} (k : Same i s s') (ht : s.client i = some t)
    (hx : s.thr t = some ⟨r, x⟩) (h : ClientAt s i g r x) : ClientAt s' i g r x := by
  cases h with
  | ret r vs idle => exact .ret _ _ idle
  | unwatch id idle => exact .unwatch id idle
  | reg id lo hi start c w idle hw hc fresh hl ne hu =>
    exact .reg id lo hi start c w idle ((k.pend t w ht ⟨_, _, _, _, _, _, hx⟩).trans hw) (Int.le_trans hc k.cr) fresh (by rw [k.lossy]; exact hl) ne
      (by rw [k.used]; exact hu)
  | check a p w c call hw hc hp => exact .check a p w c call (by rw [k.grp]; exact hw) hc hp
  | query a p w c call hw hc hp => exact .query a p w c call (by rw [k.grp]; exact hw) hc hp
  | rows a rs w c call hw hc => exact .rows a rs w c call (by rw [k.grp]; exact hw) hc
  | fail a e w c call hw hc => exact .fail a e w c call (by rw [k.grp]; exact hw) hc

theorem AftRel.same {i : Nat} {thr thr' : Nat → Option WThread} {a : Nat} {x : AftSt} {y : AfterFunc} (h : AftRel i thr a x y)
    (k : ∀ t z, thr t = some ⟨.cancel a, z⟩ → thr' t = some ⟨.cancel a, z⟩) : AftRel i thr' a x y := by
  cases h with
  | armed => exact .armed
  | stopped => exact .stopped
  | running t h => exact .running t (k t _ h)
  | done t h => exact .done t (k t _ h)

theorem GRel.same {i : Nat} {s s' : WSys} {g : Group} (h : GRel i s g) (k : Same i s s') (hi : i < s.mem.ng) : GRel i s' g := by
  have hg := k.grp
  refine ⟨by rw [hg]; exact h.cur, by rw [hg]; exact h.cap, ?_, ?_, by rw [hg]; exact h.queue, by rw [hg]; exact h.received, by rw [hg]; exact h.closed,
    by rw [hg]; exact h.panicked, by rw [hg]; exact h.dropped, h.inMap.trans k.map.symm, ?_, by rw [k.client]; exact h.free, ?_, ?_, ?_, ?_⟩
  · rw [hg, ← h.views]
    refine List.map_congr_left fun p hp => ?_
    unfold WatchMem.view
    rw [k.wat hi p hp]
  · intro x hx
    rw [k.lossy, k.used]
    exact h.marks x hx
  · intro a ha
    rw [hg] at ha
    rw [k.aft hi a ha]
    exact (h.aft a ha).same fun t z hz => (k.thr hi t _ z (.inr ⟨a, rfl, ha⟩)).2 hz
  · intro t ht
    rw [k.client] at ht
    obtain ⟨r, x, h1, h2, h3⟩ := h.call t ht
    exact ⟨r, x, (k.thr hi t r x (.inl h2)).2 h1, h2, h3.same k ht h1⟩
  · intro t id lo hi' start c vs ht
    exact h.answers t id lo hi' start c vs ((k.thr hi t _ _ (.inl rfl)).1 ht)
  · rw [k.used]; exact h.used
  · rw [k.used]; exact h.once

theorem GroupRel.same {i : Nat} {s s' : WSys} {n n' : Node} (h : GroupRel i s n) (k : Same i s s') (hn : n'.groups = n.groups) : GroupRel i s' n' := by
  unfold GroupRel at *
  rw [hn]
  by_cases hi : i < s.mem.ng
  · rw [if_pos hi] at h
    rw [if_pos (k.lt.2 hi)]
    obtain ⟨g, h1, h2⟩ := h
    exact ⟨g, h1, h2.same k hi⟩
  · rw [if_neg hi] at h
    rw [if_neg (fun h' => hi (k.lt.1 h'))]
    exact h

/-- The goroutines, when one of them has gone on. -/
theorem thr_resume {s : WSys} {thr' : Nat → Option WThread} {t : Nat} {r : WRole} {x x' : Tw} (ht : s.thr t = some ⟨r, x⟩)
    (e : thr' = fun i => if i = t then some ⟨r, x'⟩ else s.thr i) {r' : WRole} (hr : r' ≠ r) (u : Nat) (y : Tw) :
    thr' u = some ⟨r', y⟩ ↔ s.thr u = some ⟨r', y⟩ := by
  subst e
  by_cases hu : u = t
  · subst hu
    dsimp only
    rw [if_pos rfl, ht]
    refine ⟨fun h => ?_, fun h => ?_⟩ <;> cases h <;> exact absurd rfl hr
  · dsimp only
    rw [if_neg hu]

theorem PollRel.frame {i : Nat} {m m' : WatchMem} {n n' : Node} {x : Tw} (h : PollRel i m n x) (hr : m'.pollRev = m.pollRev) (ho : m'.owner = m.owner)
    (hm : m.owner = some 0 → m'.map = m.map) (h1 : n'.pollRevision = n.pollRevision) (h2 : n'.poll = n.poll) : PollRel i m' n' x := by
  cases h with
  | out free rev => exact .out (ho.trans free) (by rw [h1, hr, rev])
  | ret free rev => exact .ret (ho.trans free) (by rw [h1, hr, rev])
  | sel k free rev idle => exact .sel k (ho.trans free) (by rw [h1, hr, rev]) (h2.trans idle)
  | qry b k p free rev q hp => exact .qry b k p (ho.trans free) (by rw [h1, hr, rev]) (h2.trans q) hp
  | lock k b rows free rev q => exact .lock k b rows (ho.trans free) (by rw [h1, hr, rev]) (h2.trans q)
  | pend k b rows g rest held nodup sub mem rev q =>
    rw [← hr]
    exact .pend k b rows g rest (ho.trans held) nodup (by rw [hm held]; exact sub) mem (by rw [h1, hr]; exact rev) (h2.trans q)
  | past k b es g rest held nodup sub mem rev idle =>
    rw [← hr]
    exact .past k b es g rest (ho.trans held) nodup (by rw [hm held]; exact sub) mem (by rw [h1, hr, rev]) (h2.trans idle)

theorem PollRel.rev {i : Nat} {m : WatchMem} {n : Node} {x : Tw} (h : PollRel i m n x) (free : m.owner = none) : n.pollRevision = m.pollRev := by
  cases h with
  | out _ rev => exact rev
  | ret _ rev => exact rev
  | sel k _ rev idle => exact rev
  | qry b k p _ rev q hp => exact rev
  | lock k b rows _ rev q => exact rev
  | pend k b rows g rest held => rw [free] at held; cases held
  | past k b es g rest held => rw [free] at held; cases held

theorem PollRel.owner {i : Nat} {m : WatchMem} {n : Node} {x : Tw} (h : PollRel i m n x) : m.owner = none ∨ m.owner = some 0 := by
  cases h with
  | out free _ => exact .inl free
  | ret free _ => exact .inl free
  | sel k free => exact .inl free
  | qry b k p free => exact .inl free
  | lock k b rows free => exact .inl free
  | pend k b rows g rest held => exact .inr held
  | past k b es g rest held => exact .inr held

/-! ### The goroutines stay in order -/

theorem not_pend_ret {g id lo hi start w} {vs : List V} : (Tw.ret vs) ≠ watchLockT g id lo hi start w := nofun

theorem TInv.step {s s' : WSys} (h : TInv s) {t : Nat} {r : WRole} {x x' : Tw} (ht : s.thr t = some ⟨r, x⟩)
    (hthr : s'.thr = fun i => if i = t then some ⟨r, x'⟩ else s.thr i) (hnt : s'.nt = s.nt) (hcl : s'.client = s.client) (hus : s'.used = s.used)
    (hm : MInv s'.mem) (hng : s.mem.ng ≤ s'.mem.ng) (hst : ∀ g, g < s.mem.ng → (s'.mem.grp g).stop = (s.mem.grp g).stop)
    (haf : ∀ b u, b < s.mem.na → s.mem.aft b = .running u → s'.mem.aft b = .running u) (hnw : s.mem.nw ≤ s'.mem.nw)
    (hw : ∀ u w, Pend s u w → u ≠ t → (s'.mem.wat w).grp = (s.mem.wat w).grp)
    (hx : ∀ g id lo hi start w, x' ≠ watchLockT g id lo hi start w)
    (ho : r = .opn → ∃ vs, x' = .ret vs) (hcall : ∀ g, r.grp = some g → s.client g = some t ∨ ∃ vs, x' = .ret vs) (hcan : ∀ a, r = .cancel a → x' = .ret []) : TInv s' := by
  have hcase : ∀ u r' y, s'.thr u = some ⟨r', y⟩ → (u = t ∧ r' = r ∧ y = x') ∨ (u ≠ t ∧ s.thr u = some ⟨r', y⟩) := by
    intro u r' y hu
    rw [hthr] at hu
    dsimp only at hu
    by_cases e : u = t
    · rw [if_pos e] at hu
      cases hu
      exact .inl ⟨e, rfl, rfl⟩
    · rw [if_neg e] at hu
      exact .inr ⟨e, hu⟩
  have hpend : ∀ u w, Pend s' u w → u ≠ t ∧ Pend s u w := by
    intro u w ⟨g, id, lo, hi, start, c, hu⟩
    rcases hcase u _ _ hu with ⟨_, _, e⟩ | ⟨e, hu⟩
    · exact absurd e.symm (hx g id lo hi start w)
    · exact ⟨e, g, id, lo, hi, start, c, hu⟩
  refine ⟨hm, ?_, ?_, ?_, ?_, ?_, ?_, ?_, ?_, ?_, ?_⟩
  · obtain ⟨y, hy⟩ := h.first
    by_cases e : (0 : Nat) = t
    · subst e
      rw [hy] at ht
      cases ht
      exact ⟨x', by rw [hthr]; exact if_pos rfl⟩
    · exact ⟨y, by rw [hthr]; exact (if_neg e).trans hy⟩
  · intro u th hu
    rw [hnt]
    obtain ⟨r', y⟩ := th
    rcases hcase u r' y hu with ⟨rfl, _, _⟩ | ⟨_, hu⟩
    · exact h.lt _ _ ht
    · exact h.lt _ _ hu
  · intro u y hu
    rcases hcase u _ y hu with ⟨rfl, rfl, _⟩ | ⟨_, hu⟩
    · exact h.poll _ _ ht
    · exact h.poll _ _ hu
  · intro u y hu
    rcases hcase u _ y hu with ⟨_, e, rfl⟩ | ⟨_, hu⟩
    · exact .inr (ho e.symm)
    · exact h.opn _ _ hu
  · intro u r' y g hu hr
    rcases hcase u _ y hu with ⟨rfl, rfl, rfl⟩ | ⟨_, hu⟩
    · exact ⟨Nat.lt_of_lt_of_le (h.call _ _ _ g ht hr).1 hng, by rw [hcl]; exact hcall g hr⟩
    · obtain ⟨h1, h2⟩ := h.call _ _ _ g hu hr
      exact ⟨Nat.lt_of_lt_of_le h1 hng, by rw [hcl]; exact h2⟩
  · intro u a y hu
    have old : ∀ z, s.thr u = some ⟨.cancel a, z⟩ → ∃ g, g < s'.mem.ng ∧ (s'.mem.grp g).stop = some a ∧ s'.mem.aft a = .running u ∧ (z = cancelT g ∨ z = .ret []) := by
      intro z hz
      obtain ⟨g, h1, h2, h3, h4⟩ := h.cancel u a z hz
      have ha : a < s.mem.na := by
        obtain ⟨a', e1, e2, _⟩ := h.mem.stop g h1
        rw [h2] at e2
        cases e2
        exact e1
      exact ⟨g, Nat.lt_of_lt_of_le h1 hng, by rw [hst g h1]; exact h2, haf a u ha h3, h4⟩
    rcases hcase u _ y hu with ⟨rfl, e, rfl⟩ | ⟨_, hu⟩
    · subst e
      obtain ⟨g, h1, h2, h3, _⟩ := old x ht
      exact ⟨g, h1, h2, h3, .inr (hcan a rfl)⟩
    · exact old y hu
  · intro g u hu
    rw [hcl] at hu
    exact Nat.lt_of_lt_of_le (h.client g u hu) hng
  · intro g hg
    rw [hus]
    exact h.clean g fun h' => hg (Nat.lt_of_lt_of_le h' hng)
  · intro u w hp
    obtain ⟨e, hp⟩ := hpend u w hp
    obtain ⟨h1, h2⟩ := h.pend u w hp
    exact ⟨Nat.lt_of_lt_of_le h1 hnw, by rw [hw u w hp e]; exact h2⟩
  · intro u u' w hp hp'
    exact h.pendInj u u' w (hpend u w hp).2 (hpend u' w hp').2

/-- A goroutine starts. -/
theorem TInv.spawn {s s' : WSys} (h : TInv s) {r : WRole} {x : Tw} (hthr : s'.thr = fun i => if i = s.nt then some ⟨r, x⟩ else s.thr i) (hnt : s'.nt = s.nt + 1)
    (hcl : ∀ g t, s.client g = some t → s'.client g = some t ∨ (s'.client g = some s.nt ∧ ∀ y, s.thr t = some y → ∃ vs, y.tree = .ret vs))
    (hcl' : ∀ g t, s'.client g = some t → g < s.mem.ng) (hus : ∀ g, ¬ g < s.mem.ng → s'.used g = s.used g)
    (hm : MInv s'.mem) (hng : s'.mem.ng = s.mem.ng) (hst : ∀ g, g < s.mem.ng → (s'.mem.grp g).stop = (s.mem.grp g).stop)
    (haf : ∀ b u, b < s.mem.na → s.mem.aft b = .running u → s'.mem.aft b = .running u) (hnw : s.mem.nw ≤ s'.mem.nw)
    (hw : ∀ u w, Pend s u w → (s'.mem.wat w).grp = (s.mem.wat w).grp)
    (hx : ∀ g id lo hi start w, x = watchLockT g id lo hi start w → w = s.mem.nw ∧ w < s'.mem.nw ∧ (s'.mem.wat w).grp = none)
    (hp : r ≠ .poll) (ho : r = .opn → x = openLockT) (hcall : ∀ g, r.grp = some g → g < s.mem.ng ∧ s'.client g = some s.nt)
    (hcan : ∀ a, r = .cancel a → ∃ g, g < s.mem.ng ∧ (s.mem.grp g).stop = some a ∧ s'.mem.aft a = .running s.nt ∧ x = cancelT g) : TInv s' := by
  have hfresh : s.thr s.nt = none := by
    cases e : s.thr s.nt with
    | none => rfl
    | some th => exact absurd (h.lt _ _ e) (Nat.lt_irrefl _)
  have hcase : ∀ u r' y, s'.thr u = some ⟨r', y⟩ → (u = s.nt ∧ r' = r ∧ y = x) ∨ (u ≠ s.nt ∧ s.thr u = some ⟨r', y⟩) := by
    intro u r' y hu
    rw [hthr] at hu
    dsimp only at hu
    by_cases e : u = s.nt
    · rw [if_pos e] at hu
      cases hu
      exact .inl ⟨e, rfl, rfl⟩
    · rw [if_neg e] at hu
      exact .inr ⟨e, hu⟩
  have hpend : ∀ u w, Pend s' u w → (u = s.nt ∧ w = s.mem.nw ∧ w < s'.mem.nw ∧ (s'.mem.wat w).grp = none) ∨ (u ≠ s.nt ∧ Pend s u w) := by
    intro u w ⟨g, id, lo, hi, start, c, hu⟩
    rcases hcase u _ _ hu with ⟨e0, _, e⟩ | ⟨e, hu⟩
    · exact .inl ⟨e0, hx g id lo hi start w e.symm⟩
    · exact .inr ⟨e, g, id, lo, hi, start, c, hu⟩
  refine ⟨hm, ?_, ?_, ?_, ?_, ?_, ?_, ?_, ?_, ?_, ?_⟩
  · obtain ⟨y, hy⟩ := h.first
    refine ⟨y, ?_⟩
    rw [hthr]
    exact (if_neg (Nat.ne_of_lt (h.lt _ _ hy))).trans hy
  · intro u th hu
    rw [hnt]
    obtain ⟨r', y⟩ := th
    rcases hcase u r' y hu with ⟨rfl, _, _⟩ | ⟨_, hu⟩
    · exact Nat.lt_succ_self _
    · exact Nat.lt_succ_of_lt (h.lt _ _ hu)
  · intro u y hu
    rcases hcase u _ y hu with ⟨_, e, _⟩ | ⟨_, hu⟩
    · exact absurd e.symm hp
    · exact h.poll _ _ hu
  · intro u y hu
    rcases hcase u _ y hu with ⟨_, e, rfl⟩ | ⟨_, hu⟩
    · exact .inl (ho e.symm)
    · exact h.opn _ _ hu
  · intro u r' y g hu hr
    rw [hng]
    rcases hcase u _ y hu with ⟨rfl, rfl, rfl⟩ | ⟨_, hu⟩
    · exact ⟨(hcall g hr).1, .inl (hcall g hr).2⟩
    · obtain ⟨h1, h2⟩ := h.call _ _ _ g hu hr
      refine ⟨h1, ?_⟩
      rcases h2 with h2 | h2
      · rcases hcl g u h2 with h3 | ⟨_, h3⟩
        · exact .inl h3
        · exact .inr (h3 _ hu)
      · exact .inr h2
  · intro u a y hu
    rw [hng]
    rcases hcase u _ y hu with ⟨rfl, e, rfl⟩ | ⟨_, hu⟩
    · obtain ⟨g, h1, h2, h3, h4⟩ := hcan a e.symm
      exact ⟨g, h1, by rw [hst g h1]; exact h2, h3, .inl h4⟩
    · obtain ⟨g, h1, h2, h3, h4⟩ := h.cancel u a y hu
      have ha : a < s.mem.na := by
        obtain ⟨a', e1, e2, _⟩ := h.mem.stop g h1
        rw [h2] at e2
        cases e2
        exact e1
      exact ⟨g, h1, by rw [hst g h1]; exact h2, haf a u ha h3, h4⟩
  · intro g u hu
    rw [hng]
    exact hcl' g u hu
  · intro g hg
    rw [hng] at hg
    rw [hus g hg]
    exact h.clean g hg
  · intro u w hp
    rcases hpend u w hp with ⟨_, _, e1, e2⟩ | ⟨_, hp⟩
    · exact ⟨e1, e2⟩
    · obtain ⟨h1, h2⟩ := h.pend u w hp
      exact ⟨Nat.lt_of_lt_of_le h1 hnw, by rw [hw u w hp]; exact h2⟩
  · intro u u' w hp hp'
    rcases hpend u w hp with ⟨e, e', _⟩ | ⟨_, hp⟩ <;> rcases hpend u' w hp' with ⟨e2, e2', _⟩ | ⟨_, hp'⟩
    · rw [e, e2]
    · exact absurd (h.pend u' w hp').1 (by rw [e']; exact Nat.lt_irrefl _)
    · exact absurd (h.pend u w hp).1 (by rw [e2']; exact Nat.lt_irrefl _)
    · exact h.pendInj u u' w hp hp'

end Verif.Go
