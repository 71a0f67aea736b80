import Verif.Props.Ttl
import Verif.Lemmas.Live
import Mathlib.Data.Nat.Pairing
/-!
# Every leased version expires (C86)

Infinite executions of a node with its TTL loop. Time is not modelled, so "after the TTL" is "eventually"; that a
deletion is not issued before its delay has passed is C55.
-/

namespace Verif

/-- An infinite execution from a reachable state. -/
structure TExecution (τ : Nat → TSys) : Prop where
  start : TReachable (τ 0)
  step : ∀ n, TStep (τ n) (τ (n + 1))

/-- Between these two worlds the delete statement for a timer's version was executed. -/
def Deletes (x : Timer) (w w' : World) : Prop := w' = w.exec (fun db => (deleteSQL db x.key x.rev).1) .ok

/-- Nobody stalls for ever: polls keep completing, the loop keeps receiving what is in its channel, and a timer that
was started eventually expires and its deletion, retried on errors, is eventually executed. -/
structure TFair (τ : Nat → TSys) : Prop where
  polls : ∀ n, ∃ m, n ≤ m ∧ PollCompletes (τ m).base (τ (m + 1)).base
  receives : ∀ n start i g, (τ n).ttl.phase = .serve start i → (τ n).base.node.groupAt i = some g → g.queue ≠ [] →
    ∃ m g', n ≤ m ∧ (τ m).base.node.groupAt i = some g' ∧ g.received.length < g'.received.length
  fires : ∀ n x, x ∈ (τ n).ttl.timers → ∃ m, x ∈ (τ m).ttl.timers ∧
    Deletes x (τ m).base.sys.world (τ (m + 1)).base.sys.world

/-- The loop is being served by the poller: its channel is open and has not overflowed, and the poller has not been
overtaken by compaction. -/
structure TServed (a : TSys) : Prop where
  overtaken : a.base.node.overtaken = false
  group : ∀ start i, a.ttl.phase = .serve start i → ∃ g, a.base.node.groupAt i = some g ∧ g.inMap = true ∧
    g.dropped = false

/-! ## One step -/

theorem TExecution.reach {τ : Nat → TSys} (e : TExecution τ) (n : Nat) : TReachable (τ n) := by
  induction n with
  | zero => exact e.start
  | succ n ih => exact ih.step (e.step n)

/-- A step of the loop is a step of its node, or leaves the node alone. -/
theorem TStep.kinds {a b : TSys} (h : TReachable a) (st : TStep a b) : a.base = b.base ∨ NStep a.base b.base := by
  have inv := h.inv
  have i := inv.base.ninv.sys.inv
  cases st with
  | env a b t hst quiet => exact .inr hst
  | currentExec s n t eff k o c =>
    have hp := inv.phase
    unfold PhaseOk at hp
    simp only [c] at hp
    obtain ⟨⟨he, _⟩, _⟩ := hp
    subst he
    have e := i.exec_id o
    simp only at e
    left
    simp only [e]
  | currentDone => exact .inl rfl
  | listExec s n t start eff k o c =>
    have hp := inv.phase
    unfold PhaseOk at hp
    simp only [c] at hp
    obtain ⟨e, _⟩ := hp.1.exec (C' := fun _ _ => True) i o (fun _ _ => trivial)
    left
    simp only at e
    simp only [e]
  | listDone => exact .inl rfl
  | openGroup s n t start c => exact .inr (.openGroup s n)
  | watch s n t start pre post g g' c hn idle hg =>
    have hp := inv.phase
    unfold PhaseOk at hp
    simp only [c] at hp
    obtain ⟨_, _, g₀, h3, h4, _⟩ := hp
    rw [n.groupAt_mid hn] at h3
    cases h3
    refine .inr (.group s n s.world pre post g g' hn ?_)
    rw [hg]
    exact .watch _ g 1 ttlLo ttlHi start idle (by rw [h4]; simp) (by simp [ttlHi])
  | recv s n t start pre post g u q jit hj c hn idle hq =>
    exact .inr (.group s n s.world pre post g _ hn (.recv _ g u q hq))
  | fire s n t x hx =>
    exact .inr (.env _ _ n (.spawn s (.expire x.key x.rev) ((inv.timers x hx).key inv.base.reachable.markerPlain)))

theorem TExecution.node {τ : Nat → TSys} (e : TExecution τ) : NRun fun n => (τ n).base :=
  ⟨e.start.inv.base, fun n => (e.step n).kinds (e.reach n)⟩

/-- Once the loop follows its watch, it does so for ever, its answered watch stays registered, and its timers are
kept. -/
theorem TStep.serve {a b : TSys} (h : TReachable a) (st : TStep a b) {start : Int} {i : Nat}
    (hp : a.ttl.phase = .serve start i) :
    b.ttl.phase = .serve start i ∧ b.ttl.truncated = a.ttl.truncated ∧ (∀ x ∈ a.ttl.timers, x ∈ b.ttl.timers) ∧
    ∀ g, a.base.node.groupAt i = some g → ∀ x ∈ g.watchers, x.initialized = true →
      ∃ g', b.base.node.groupAt i = some g' ∧ ∃ x' ∈ g'.watchers, x'.id = x.id := by
  cases st with
  | env a b t hst quiet =>
    refine ⟨hp, rfl, fun _ h => h, fun g hg x hx hi => ?_⟩
    simp only at hp
    obtain ⟨g', hg', _, _, hw⟩ := quiet i g (by rw [hp]; rfl) hg
    exact ⟨g', hg', hw x hx hi⟩
  | currentExec s n t eff k o c => rw [c] at hp; cases hp
  | currentDone a t r c => rw [c] at hp; cases hp
  | listExec s n t start eff k o c => rw [c] at hp; cases hp
  | listDone a t start r c => rw [c] at hp; cases hp
  | openGroup s n t start c => rw [c] at hp; cases hp
  | watch s n t start pre post g g' c hn idle hg => rw [c] at hp; cases hp
  | recv s n t start' pre post g u q jit hj c hn idle hq =>
    have hpp := hp
    simp only at hpp
    rw [c] at hpp
    cases hpp
    refine ⟨c, rfl, fun x hx => List.mem_append.2 (Or.inl hx), fun g₁ hg₁ x hx _ => ?_⟩
    rw [n.groupAt_mid hn] at hg₁
    cases hg₁
    exact ⟨_, Node.groupAt_mid rfl, x, hx, rfl⟩
  | fire s n t x hx =>
    exact ⟨hp, rfl, fun _ h => h, fun g hg x hx _ => ⟨g, hg, x, hx, rfl⟩⟩

/-- The state of an answered watch of the loop, some time later. -/
theorem TExecution.serve {τ : Nat → TSys} (e : TExecution τ) {n m : Nat} (h : n ≤ m) {start : Int} {i : Nat}
    (hp : (τ n).ttl.phase = .serve start i) {g : Group} (hg : (τ n).base.node.groupAt i = some g) {x : Watcher}
    (hx : x ∈ g.watchers) (hi : x.initialized = true) :
    (τ m).ttl.phase = .serve start i ∧ (τ m).ttl.truncated = (τ n).ttl.truncated ∧
    (∀ t ∈ (τ n).ttl.timers, t ∈ (τ m).ttl.timers) ∧
    ∃ g', (τ m).base.node.groupAt i = some g' ∧ ∃ x' ∈ g'.watchers, x'.id = x.id ∧ x'.lo = x.lo ∧ x'.hi = x.hi ∧
      x'.start = x.start ∧ x'.base = x.base ∧ x'.lossy = x.lossy ∧ x'.initialized = true := by
  induction m with
  | zero =>
    have : n = 0 := by omega
    subst this
    exact ⟨hp, rfl, fun _ h => h, g, hg, x, hx, rfl, rfl, rfl, rfl, rfl, rfl, hi⟩
  | succ m ih =>
    by_cases hnm : n = m + 1
    · subst hnm
      exact ⟨hp, rfl, fun _ h => h, g, hg, x, hx, rfl, rfl, rfl, rfl, rfl, rfl, hi⟩
    · obtain ⟨h1, h2, h3, g₁, hg₁, x₁, hx₁, a0, a1, a2, a3, a4, a5, a6⟩ := ih (by omega)
      obtain ⟨k1, k2, k3, k4⟩ := (e.step m).serve (e.reach m) h1
      obtain ⟨g₂, hg₂, x₂, hx₂, hid⟩ := k4 g₁ hg₁ x₁ hx₁ a6
      have inv := (e.reach m).inv.base.ninv
      have gi := inv.groups g₁ (List.mem_of_getElem? hg₁)
      have mv : GroupMove (τ m).base.sys.world (τ (m + 1)).base.sys.world g₁ g₂ := by
        rcases e.node.step m with h' | h'
        · rw [← h', hg₁] at hg₂
          cases hg₂
          exact .same
        · obtain ⟨g₃, hg₃, mv⟩ := h'.move inv hg₁
          rw [hg₂] at hg₃
          cases hg₃
          exact mv
      obtain ⟨b1, b2, b3, b4, b5, b6⟩ := mv.keeps gi hx₁ a6 hx₂ hid
      exact ⟨k1, k2.trans h2, fun t ht => k3 t (h3 t ht), g₂, hg₂, x₂, hx₂, hid.trans a0, b1.trans a1, b2.trans a2,
        b3.trans a3, b4.trans a4, b5.trans a5, b6⟩

/-- Everything put into the channel of the loop is eventually received. -/
theorem TFair.arrives {τ : Nat → TSys} (e : TExecution τ) (f : TFair τ) {start : Int} {i : Nat} (k : Nat) :
    ∀ {n : Nat} {g : Group}, (∀ m, n ≤ m → (τ m).ttl.phase = .serve start i) →
    (τ n).base.node.groupAt i = some g → ∀ K, K ≤ (g.received ++ g.queue).length → K ≤ g.received.length + k →
    ∃ m g', n ≤ m ∧ (τ m).base.node.groupAt i = some g' ∧ K ≤ g'.received.length := by
  induction k with
  | zero => intro n g _ hg K _ h; exact ⟨n, g, Nat.le_refl _, hg, by simpa using h⟩
  | succ k ih =>
    intro n g hph hg K hK h
    by_cases hdone : K ≤ g.received.length
    · exact ⟨n, g, Nat.le_refl _, hg, hdone⟩
    have hq : g.queue ≠ [] := by
      intro e
      rw [e, List.append_nil] at hK
      omega
    obtain ⟨m, g', hm, hg', hlt⟩ := f.receives n start i g (hph n (Nat.le_refl _)) hg hq
    obtain ⟨⟨t, ht⟩, _⟩ := e.node.channel hm hg hg'
    have hlen := congrArg List.length ht
    simp only [List.length_append] at hlen hK
    obtain ⟨m', g'', hm', hg'', hfin⟩ := ih (fun j hj => hph j (by omega)) hg' K
      (by simp only [List.length_append]; omega) (by omega)
    exact ⟨m', g'', by omega, hg'', hfin⟩

/-- The delete statement for a version leaves no such version behind. -/
theorem Deletes.gone {x : Timer} {w w' : World} (i : Inv w) (hk : x.key ≠ compactRevKey) (h : Deletes x w w') :
    ∀ kv, w'.hist.now x.key = some kv → kv.modRev ≠ x.rev := by
  unfold Deletes at h
  rcases i.deleteSQL_spec hk x.rev with ⟨kv, _, _, r, _, hc, he⟩ | ⟨hno, he⟩
  · rw [i.exec_insert (r := r) (by simp only [he]) rfl, hc] at h
    intro kv' hn
    rw [h] at hn
    simp only [now_snoc, if_true] at hn
    unfold Commit.applyTo at hn
    cases hn
  · rw [i.exec_of_eq (by simp only [he])] at h
    rw [h]
    exact hno

/-! ## C86 -/

/-- In every fair execution: once the TTL loop of a node follows its watch (listing complete, watch answered with a
complete backlog) and goes on being served, every version with a positive lease, of a key in `[0x00, 0xff)`, is
eventually gone for good: deleted, or replaced by a newer version before. -/
theorem C86_leased_versions_expire {τ : Nat → TSys} (e : TExecution τ) (f : TFair τ) {n : Nat} {start : Int} {i : Nat}
    (hp : (τ n).ttl.phase = .serve start i) (hstart : 0 < start) (htr : (τ n).ttl.truncated = false)
    {g : Group} (hg : (τ n).base.node.groupAt i = some g) {x : Watcher} (hx : x ∈ g.watchers)
    (hinit : x.initialized = true) (hlossy : x.lossy = false) (hs : ∀ m, n ≤ m → TServed (τ m))
    {k : Bytes} {kv : KV} (hn : (τ n).base.sys.world.hist.now k = some kv) (hl : kv.lease > 0)
    (hk : inRange [0] [255] k = true) :
    ∃ m, n ≤ m ∧ ∀ m', m ≤ m' → (τ m').base.sys.world.hist.now k ≠ some kv := by
  have wfn := (e.reach n).inv.base.ninv.sys.inv.wf
  have hat := hn
  rw [← at_ge_top wfn (Int.le_refl _)] at hat
  obtain ⟨hkey, _, _, ⟨c, hc, c1, c2, c3⟩, hlast⟩ := at_some_inv wfn hat
  -- a timer is started for the version
  have timer : ∃ m t, t ∈ (τ m).ttl.timers ∧ t.key = k ∧ t.rev = kv.modRev := by
    by_cases hle : kv.modRev ≤ start
    · obtain ⟨t, ht, t1, t2, _⟩ := C39_listed (e.reach n) (Or.inr ⟨i, Or.inr hp⟩) htr hn (by omega) hle
      exact ⟨n, t, ht, t1, t2⟩
    · obtain ⟨m₁, h₁, hp₁⟩ := e.node.catches_up f.polls hc
      obtain ⟨m₂, h₂, p₂⟩ := f.polls m₁
      obtain ⟨hph, _, _, g', hg', x', hx', a0, a1, a2, a3, a4, a5, a6⟩ :=
        e.serve (show n ≤ m₂ + 1 by omega) hp hg hx hinit
      obtain ⟨ho, hgrp⟩ := hs (m₂ + 1) (by omega)
      obtain ⟨g₀, hg₀, hin, hd⟩ := hgrp start i hph
      rw [hg'] at hg₀
      cases hg₀
      have inv := (e.reach (m₂ + 1)).inv
      have ninv := inv.base.ninv
      have gi := ninv.groups g' (List.mem_of_getElem? hg')
      have hpk := inv.phase
      unfold PhaseOk at hpk
      simp only [hph] at hpk
      obtain ⟨_, _, g₀, hg₀, tg⟩ := hpk
      rw [hg'] at hg₀
      cases hg₀
      have hid : x'.id = 1 := by
        have := gi.used x' hx'
        rw [tg.used] at this
        simpa using this
      obtain ⟨r1, r2, r3⟩ := tg.range x' hx'
      -- nothing is pending after the publish
      have hev : x'.events = [] := by
        obtain ⟨s, nd, rows, _, _, hb⟩ := p₂.publish (e.node.step m₂)
        have hm : g' ∈ (τ (m₂ + 1)).base.node.groups := List.mem_of_getElem? hg'
        simp only at hb
        rw [hb] at hm
        exact C28_publish_flushes (n := nd) (rows := (rows, none)) hm hin hx' a6
      obtain ⟨rest, s1, s2, s3⟩ := (gi.ok x' hx').full ho (a5.trans hlossy) (Or.inl hd)
      have := s3 hd
      subst this
      rw [hev, List.append_nil] at s1 s2
      have hcur : c.rev ≤ g'.currentRevision := by
        rw [gi.curMap hin]
        have := e.node.poll_mono (show m₁ ≤ m₂ + 1 by omega)
        omega
      have hext := e.node.ext (show n ≤ m₂ + 1 by omega)
      have hc₂ := hext.mem hc
      obtain ⟨ev, hev₁, hrev⟩ := s2 c hc₂ (by unfold Watcher.range; rw [r1, r2, c2]; exact hk) (by
        unfold Watcher.from
        rw [if_pos ⟨a6, by omega⟩, r3, c1]
        omega) hcur
      obtain ⟨c', hc', hdes⟩ := (s1.mem ev hev₁).2.2.2
      have wf := ninv.sys.inv.wf
      have : c' = c := Wf_rev_inj wf hc' hc₂ (by rw [← hdes.1, hrev])
      subst this
      have hkv : ev.kv = kv := by
        have hdel : ev.isDelete = false := by
          cases hdd : ev.isDelete with
          | false => rfl
          | true => rw [hdes.2.2.1.1 hdd] at c3; cases c3
        have h4 := hdes.2.2.2.1 hdel
        have h5 : (τ (m₂ + 1)).base.sys.world.hist.at c'.rev c'.key = some kv := by
          have := hext.at (le_top wfn hc) c'.key
          rw [this, c2, c1, ← hat]
          symm
          apply at_eq_of_no_between (now_le_top wfn hn)
          intro d hd1 hd2 hd3
          exact hlast d hd1 hd2 hd3
        rw [h5] at h4
        exact (Option.some.inj h4).symm
      -- it is received
      obtain ⟨m₃, g₃, h₃, hg₃, hl₃⟩ := f.arrives e (start := start) (i := i) (g'.received ++ g'.queue).length
        (fun j hj => (e.serve (show n ≤ j by omega) hp hg hx hinit).1) hg' _ (Nat.le_refl _) (by omega)
      obtain ⟨t, ht⟩ := e.node.received h₃ hg' hg₃ hl₃
      have hph₃ := (e.serve (show n ≤ m₃ by omega) hp hg hx hinit).1
      have hpk₃ := (e.reach m₃).inv.phase
      unfold PhaseOk at hpk₃
      simp only [hph₃] at hpk₃
      obtain ⟨_, _, g₀, hg₀, tg₃⟩ := hpk₃
      rw [hg₃] at hg₀
      cases hg₀
      rw [hid] at hev₁
      unfold Group.sent at hev₁
      have hmem : ev ∈ sentTo g₃.received 1 := by
        rw [ht, sentTo_append]
        exact List.mem_append.2 (Or.inl hev₁)
      obtain ⟨tm, htm, t1, t2, _⟩ := tg₃.seen ev hmem (by rw [hkv]; exact hl)
      rw [hkv] at t1 t2
      exact ⟨m₃, tm, htm, t1.trans hkey, t2⟩
  obtain ⟨m, t, ht, t1, t2⟩ := timer
  obtain ⟨m', ht', hdel⟩ := f.fires m t ht
  have inv' := (e.reach m').inv
  have hkey' := (inv'.timers t ht').key inv'.base.reachable.markerPlain
  have hgone := hdel.gone inv'.base.ninv.sys.inv hkey'
  rw [t1] at hgone
  have hle : kv.modRev ≤ (τ m').base.sys.world.hist.top := by
    obtain ⟨_, ⟨c, hc, h1, _⟩, _⟩ := inv'.timers t ht'
    rw [← t2, ← h1]; exact le_top inv'.base.ninv.sys.inv.wf hc
  refine ⟨max n (m' + 1), Nat.le_max_left _ _, fun j hj hnow => ?_⟩
  have hx' := e.node.ext (show m' ≤ m' + 1 by omega)
  have hx := e.node.ext (show m' + 1 ≤ j by omega)
  have htop := hx'.top
  have := hx.now_back (e.reach (m' + 1)).inv.base.ninv.sys.inv hnow (by omega)
  exact hgone kv this t2.symm

/-! ## Fair executions exist -/

/-- A quiet moment of a loop that is being served. -/
structure TReady (start : Int) (i : Nat) (a : TSys) : Prop where
  reach : TReachable a
  phase : a.ttl.phase = .serve start i
  poll : a.base.node.poll = .idle
  overtaken : a.base.node.overtaken = false
  ahead : a.base.sys.world.db.compactRev ≤ a.base.node.pollRevision
  group : ∃ g, a.base.node.groupAt i = some g ∧ g.inMap = true ∧ g.dropped = false ∧ g.queue = [] ∧ g.call = .idle

/-- One round: poll, publish, receive, then the timer at position `d`, if there is one, fires and deletes. -/
structure TRound (start : Int) (i d : Nat) (a : TSys) (t : Nat → TSys) : Prop where
  begin : t 0 = a
  step : ∀ r, r < 7 → TStep (t r) (t (r + 1))
  phase : ∀ r, r < 7 → (t r).ttl.phase = .serve start i
  poll : PollCompletes (t 2).base (t 3).base
  grow : ∃ g g', a.base.node.groupAt i = some g ∧ (t 7).base.node.groupAt i = some g' ∧
    g.received.length < g'.received.length
  timers : ∃ l, (t 7).ttl.timers = a.ttl.timers ++ l
  kept : ∀ r, r < 7 → ∀ x ∈ (t r).ttl.timers, x ∈ (t 7).ttl.timers
  fire : ∀ x, a.ttl.timers[d]? = some x → x ∈ (t 5).ttl.timers ∧
    Deletes x (t 5).base.sys.world (t 6).base.sys.world
  ready : TReady start i (t 7)
  served : ∀ r, r < 7 → TServed (t r)

theorem expire_unfold (k : Bytes) (r : Int) : ∃ c, (Call.expire k r).prog = .stmt (fun db => (deleteSQL db k r).1) c :=
  ⟨_, rfl⟩

theorem Deletes.compactRev {x : Timer} {w w' : World} (i : Inv w) (hk : x.key ≠ compactRevKey) (h : Deletes x w w') :
    w'.db.compactRev = w.db.compactRev := by
  unfold Deletes at h
  rcases i.deleteSQL_spec hk x.rev with ⟨kv, _, _, r, g, hc, he⟩ | ⟨hno, he⟩
  · rw [i.exec_insert (r := r) (by simp only [he]) rfl] at h
    rw [h]
    exact (i.insert_inv g).2.1
  · rw [i.exec_of_eq (by simp only [he])] at h
    rw [h]

/-- The statement of the timer at position `d`, or of a read if there is none. -/
theorem timer_program {a : TSys} (h : TReachable a) (d : Nat) : ∃ p eff k, p = Prog.stmt eff k ∧
    TStep a ⟨⟨{ a.base.sys with pool := p :: a.base.sys.pool }, a.base.node⟩, a.ttl⟩ ∧
    (a.base.sys.world.exec eff .ok).db.compactRev = a.base.sys.world.db.compactRev ∧
    ∀ x, a.ttl.timers[d]? = some x → Deletes x a.base.sys.world (a.base.sys.world.exec eff .ok) := by
  obtain ⟨⟨s, n⟩, t⟩ := a
  have inv := h.inv
  have i := inv.base.ninv.sys.inv
  cases hd : t.timers[d]? with
  | none =>
    obtain ⟨k, hk, _⟩ := after_unfold 0 1
    refine ⟨(Call.poll 0 1).prog, id, _, rfl, .env _ _ _ (.env _ _ _ (.spawn s (.poll 0 1) ?_))
      (fun i g _ hg => ⟨g, hg, rfl, rfl, fun x hx _ => ⟨x, hx, rfl⟩⟩), ?_, fun x hx => ?_⟩
    · trivial
    · simp only [i.exec_id]
    · cases hx
  | some x =>
    have hx : x ∈ t.timers := List.mem_of_getElem? hd
    obtain ⟨c, hc⟩ := expire_unfold x.key x.rev
    refine ⟨_, _, c, hc, .fire s n t x hx, ?_, fun y hy => ?_⟩
    · exact Deletes.compactRev (x := x) i ((inv.timers x hx).key inv.base.reachable.markerPlain) rfl
    · cases hy
      rfl

theorem TReady.round {start : Int} {i : Nat} {a : TSys} (h : TReady start i a) (d : Nat) :
    ∃ t, TRound start i d a t := by
  obtain ⟨⟨s, n⟩, st⟩ := a
  obtain ⟨hr, hph, hp, ho, hah, g, hg, hin, hd, hq, hcall⟩ := h
  simp only at hph hp ho hah hg
  have inv := hr.inv.base.ninv
  have iw := inv.sys.inv
  have gi := inv.groups g (List.mem_of_getElem? hg)
  have hclosed : g.closed = 0 := by rw [gi.life.closed, if_pos hin]
  obtain ⟨k, hk, hok, _⟩ := after_unfold n.pollRevision pollBatchSize
  let rows := afterSQL s.world.db n.pollRevision pollBatchSize
  let es := scanAll scanEvent (rows, none)
  let n₁ : Node := { n with poll := .querying (Driver.after n.pollRevision pollBatchSize) }
  let n₂ : Node := { n with poll := .querying (.ret (.ok (rows, none))) }
  let n₃ : Node := { n.publishEvents es with poll := .idle }
  let rev := nextPollRevision n.pollRevision es
  let u := groupUpdate g.watchers rev es
  let g₃ : Group := { g with currentRevision := rev, watchers := g.watchers.map fun (w : Watcher) => (w.update es).1,
                             queue := [u] }
  let g₄ : Group := { g₃ with queue := [], received := g.received ++ [u] }
  have hg₃ : n₃.groupAt i = some g₃ := by
    have e : g.publishOrDrop rev es = g₃ := by
      unfold Group.publishOrDrop Group.publish
      simp only [hclosed, hq, List.length_nil, show ¬ (0 : Nat) > 0 by omega, show 0 < updateCapacity by decide,
        if_true, if_false, List.nil_append]
      change ({ g with currentRevision := rev, watchers := _, queue := [u], closed := 0 } : Group) = g₃
      rw [← hclosed]
    change (n.groups.map _)[i]? = _
    rw [List.getElem?_map, show n.groups[i]? = some g from hg]
    simp only [Option.map_some, hin, if_true]
    exact congrArg some e
  obtain ⟨hsplit, hlen⟩ := split_at_index hg₃
  generalize n₃.groups.take i = pre at hsplit hlen
  generalize n₃.groups.drop (i + 1) = post at hsplit
  let n₄ : Node := { n₃ with groups := pre ++ g₄ :: post }
  let st₄ : TtlLoop := { st with timers := st.timers ++ eventTimers (fun _ => 0) u }
  have hg₄ : n₄.groupAt i = some g₄ := by rw [← hlen]; exact Node.groupAt_mid rfl
  have s0 : TStep ⟨⟨s, n⟩, st⟩ ⟨⟨s, n₁⟩, st⟩ :=
    .env _ _ _ (.pollStart s n hp) (fun i g _ hg => ⟨g, hg, rfl, rfl, fun x hx _ => ⟨x, hx, rfl⟩⟩)
  have s1 : TStep ⟨⟨s, n₁⟩, st⟩ ⟨⟨s, n₂⟩, st⟩ := by
    have h2 := NStep.pollExec s n₁ id k .ok (by change PollState.querying _ = _; rw [hk])
    have hs : ({ s with world := s.world.exec id .ok } : Sys) = s := by rw [iw.exec_id]
    rw [hs, hok] at h2
    have hov : (n₁.overtaken || decide (n₁.pollRevision < s.world.db.compactRev)) = n.overtaken := by
      change (n.overtaken || decide (n.pollRevision < s.world.db.compactRev)) = n.overtaken
      rw [decide_eq_false (by omega), Bool.or_false]
    rw [hov] at h2
    exact .env _ _ _ h2 (fun i g _ hg => ⟨g, hg, rfl, rfl, fun x hx _ => ⟨x, hx, rfl⟩⟩)
  have s2 : TStep ⟨⟨s, n₂⟩, st⟩ ⟨⟨s, n₃⟩, st⟩ := by
    refine .env _ _ _ (.pollPublish s n₂ (rows, none) rfl) (fun j g' hj hg' => ?_)
    rw [hph] at hj
    cases hj
    have : g' = g := by
      change n.groupAt i = some g' at hg'
      rw [hg] at hg'
      exact (Option.some.inj hg').symm
    subst this
    exact ⟨g₃, hg₃, rfl, rfl, fun x hx _ => ⟨_, List.mem_map_of_mem hx, Watcher.update_id x es⟩⟩
  have s3 : TStep ⟨⟨s, n₃⟩, st⟩ ⟨⟨s, n₄⟩, st₄⟩ :=
    .recv s n₃ st start pre post g₃ u [] (fun _ => 0) (fun _ => by omega) (by rw [hph, hlen]) hsplit hcall rfl
  have hr₄ : TReachable ⟨⟨s, n₄⟩, st₄⟩ := (((hr.step s0).step s1).step s2).step s3
  obtain ⟨p, eff, c, hpc, s4, hcr, hfire⟩ := timer_program hr₄ d
  subst hpc
  simp only at hcr hfire s4
  let s₅ : Sys := { s with pool := .stmt eff c :: s.pool }
  let s₆ : Sys := ⟨s.world.exec eff .ok, c .ok s.world.db :: s.pool⟩
  let s₇ : Sys := ⟨s.world.exec eff .ok, s.pool⟩
  have quiet : ∀ (j : Nat) (g : Group), st₄.phase.index? = some j → n₄.groupAt j = some g →
      ∃ g', n₄.groupAt j = some g' ∧ g'.received = g.received ∧ g'.used = g.used ∧
        ∀ x ∈ g.watchers, x.initialized = true → ∃ x' ∈ g'.watchers, x'.id = x.id :=
    fun j g _ hg => ⟨g, hg, rfl, rfl, fun x hx _ => ⟨x, hx, rfl⟩⟩
  have s5 : TStep ⟨⟨s₅, n₄⟩, st₄⟩ ⟨⟨s₆, n₄⟩, st₄⟩ :=
    .env _ _ _ (.env _ _ _ (.exec s.world [] s.pool eff c .ok)) quiet
  have s6 : TStep ⟨⟨s₆, n₄⟩, st₄⟩ ⟨⟨s₇, n₄⟩, st₄⟩ :=
    .env _ _ _ (.env _ _ _ (.stop _ [] s.pool _)) quiet
  have hrev := (iw.poll_events n.pollRevision pollBatchSize none).1
  refine ⟨fun r => match r with
    | 0 => ⟨⟨s, n⟩, st⟩ | 1 => ⟨⟨s, n₁⟩, st⟩ | 2 => ⟨⟨s, n₂⟩, st⟩ | 3 => ⟨⟨s, n₃⟩, st⟩ | 4 => ⟨⟨s, n₄⟩, st₄⟩
    | 5 => ⟨⟨s₅, n₄⟩, st₄⟩ | 6 => ⟨⟨s₆, n₄⟩, st₄⟩ | _ => ⟨⟨s₇, n₄⟩, st₄⟩, rfl, ?_, ?_, ⟨rows, rfl, rfl⟩,
    ⟨g, g₄, hg, hg₄, ?_⟩, ⟨_, rfl⟩, ?_, ?_, ?_, ?_⟩
  · intro r hr
    match r, hr with
    | 0, _ => exact s0
    | 1, _ => exact s1
    | 2, _ => exact s2
    | 3, _ => exact s3
    | 4, _ => exact s4
    | 5, _ => exact s5
    | 6, _ => exact s6
  · intro r hr
    match r, hr with
    | 0, _ => exact hph
    | 1, _ => exact hph
    | 2, _ => exact hph
    | 3, _ => exact hph
    | 4, _ => exact hph
    | 5, _ => exact hph
    | 6, _ => exact hph
  · change g.received.length < (g.received ++ [u]).length
    simp
  · intro r hr x hx
    have up : x ∈ st.timers → x ∈ st₄.timers := fun h => List.mem_append.2 (Or.inl h)
    match r, hr with
    | 0, _ => exact up hx
    | 1, _ => exact up hx
    | 2, _ => exact up hx
    | 3, _ => exact up hx
    | 4, _ => exact hx
    | 5, _ => exact hx
    | 6, _ => exact hx
  · intro x hx
    simp only at hx
    have hx₄ : st₄.timers[d]? = some x := by
      change (st.timers ++ _)[d]? = some x
      rw [List.getElem?_append_left (List.getElem?_eq_some_iff.1 hx).1]
      exact hx
    exact ⟨List.mem_of_getElem? hx₄, hfire x hx₄⟩
  · refine ⟨((hr₄.step s4).step s5).step s6, hph, rfl, ho, ?_, g₄, hg₄, hin, hd, rfl, hcall⟩
    change (s.world.exec eff .ok).db.compactRev ≤ nextPollRevision _ _
    rw [hcr]
    exact Int.le_trans hah hrev
  · have mk : ∀ {n' : Node} {s' : Sys} {t' : TtlLoop} {g' : Group}, n'.overtaken = false → t'.phase = .serve start i →
        n'.groupAt i = some g' → g'.inMap = true → g'.dropped = false → TServed ⟨⟨s', n'⟩, t'⟩ := by
      intro n' s' t' g' h1 h2 h3 h4 h5
      refine ⟨h1, fun start' i' h => ?_⟩
      simp only at h
      rw [h2] at h
      cases h
      exact ⟨g', h3, h4, h5⟩
    intro r hr
    match r, hr with
    | 0, _ => exact mk ho hph hg hin hd
    | 1, _ => exact mk (n' := n₁) ho hph hg hin hd
    | 2, _ => exact mk (n' := n₂) ho hph hg hin hd
    | 3, _ => exact mk (n' := n₃) ho hph hg₃ hin hd
    | 4, _ => exact mk (n' := n₄) ho hph hg₄ hin hd
    | 5, _ => exact mk (n' := n₄) ho hph hg₄ hin hd
    | 6, _ => exact mk (n' := n₄) ho hph hg₄ hin hd

/-- From every quiet moment there is a fair infinite execution that goes on serving the loop: the hypotheses of
`C86_leased_versions_expire` can be met from there. -/
theorem C86_fair_executions_exist {start : Int} {i : Nat} {a : TSys} (h : TReady start i a) :
    ∃ τ, τ 0 = a ∧ TExecution τ ∧ TFair τ ∧ ∀ n, TServed (τ n) := by
  let S := { a : TSys // TReady start i a }
  let F : Nat → S → Nat → TSys := fun k x => Classical.choose (x.2.round (Nat.unpair k).1)
  have hF : ∀ k (x : S), TRound start i (Nat.unpair k).1 x.1 (F k x) := fun k x => Classical.choose_spec (x.2.round _)
  let it : Nat → S := fun k => k.rec ⟨a, h⟩ fun j x => ⟨F j x 7, (hF j x).ready⟩
  have hit : ∀ k, (it (k + 1)).1 = F k (it k) 7 := fun k => rfl
  let τ : Nat → TSys := fun n => F (n / 7) (it (n / 7)) (n % 7)
  have hτ : ∀ k r, r < 7 → τ (7 * k + r) = F k (it k) r := by
    intro k r hr
    change F ((7 * k + r) / 7) (it ((7 * k + r) / 7)) ((7 * k + r) % 7) = _
    rw [show (7 * k + r) / 7 = k by omega, show (7 * k + r) % 7 = r by omega]
  have hτ0 : ∀ k, τ (7 * k) = (it k).1 := by
    intro k
    have := hτ k 0 (by omega)
    rw [Nat.add_zero] at this
    rw [this, (hF k (it k)).begin]
  have hτ7 : ∀ k, τ (7 * k + 7) = F k (it k) 7 := by
    intro k
    rw [show 7 * k + 7 = 7 * (k + 1) by omega, hτ0, hit]
  have hnext : ∀ k r, r < 7 → τ (7 * k + r + 1) = F k (it k) (r + 1) := by
    intro k r hr
    by_cases h6 : r = 6
    · subst h6; exact hτ7 k
    · exact hτ k (r + 1) (by omega)
  have ex : TExecution τ := by
    refine ⟨?_, fun n => ?_⟩
    · have := hτ0 0
      rw [Nat.mul_zero] at this
      rw [this]
      exact h.reach
    · have e : n = 7 * (n / 7) + n % 7 := by omega
      have hr : n % 7 < 7 := by omega
      rw [e, hnext _ _ hr, hτ _ _ hr]
      exact (hF _ _).step _ hr
  have phase : ∀ n, (τ n).ttl.phase = .serve start i := by
    intro n
    have e : n = 7 * (n / 7) + n % 7 := by omega
    have hr : n % 7 < 7 := by omega
    rw [e, hτ _ _ hr]
    exact (hF _ _).phase _ hr
  -- timers keep their position
  have pos : ∀ {k k' d : Nat} {x : Timer}, k ≤ k' → (it k).1.ttl.timers[d]? = some x →
      (it k').1.ttl.timers[d]? = some x := by
    intro k k' d x hle hx
    induction k' with
    | zero =>
      have : k = 0 := by omega
      subst this
      exact hx
    | succ k' ih =>
      by_cases e : k = k' + 1
      · subst e; exact hx
      · have hp := ih (by omega)
        obtain ⟨l, hl⟩ := (hF k' (it k')).timers
        rw [hit, hl, List.getElem?_append_left (List.getElem?_eq_some_iff.1 hp).1]
        exact hp
  refine ⟨τ, ?_, ex, ⟨?_, ?_, ?_⟩, ?_⟩
  · have := hτ0 0
    rw [Nat.mul_zero] at this
    rw [this]
    rfl
  · intro n
    refine ⟨7 * n + 2, by omega, ?_⟩
    rw [hnext n 2 (by omega), hτ n 2 (by omega)]
    exact (hF _ _).poll
  · intro n start' i' g hph hg _
    rw [phase n] at hph
    cases hph
    have e : n = 7 * (n / 7) + n % 7 := by omega
    have hr : n % 7 < 7 := by omega
    obtain ⟨g₁, g₂, h1, h2, h3⟩ := (hF (n / 7 + 1) (it (n / 7 + 1))).grow
    rw [← hτ0 (n / 7 + 1)] at h1
    rw [← hτ7 (n / 7 + 1)] at h2
    have := (ex.node.channel (show n ≤ 7 * (n / 7 + 1) by omega) hg h1).2
    exact ⟨7 * (n / 7 + 1) + 7, g₂, by omega, h2, by omega⟩
  · intro n x hx
    have e : n = 7 * (n / 7) + n % 7 := by omega
    have hr : n % 7 < 7 := by omega
    rw [e, hτ _ _ hr] at hx
    have hx' := (hF _ _).kept _ hr x hx
    rw [← hit] at hx'
    obtain ⟨d, hd⟩ := List.mem_iff_getElem?.1 hx'
    have hle : n / 7 + 1 ≤ Nat.pair d (n / 7 + 1) := Nat.right_le_pair _ _
    have hd' := pos hle hd
    have := (hF (Nat.pair d (n / 7 + 1)) (it (Nat.pair d (n / 7 + 1)))).fire x (by
      rw [Nat.unpair_pair]
      exact hd')
    refine ⟨7 * Nat.pair d (n / 7 + 1) + 5, ?_⟩
    rw [hnext _ 5 (by omega), hτ _ 5 (by omega)]
    exact this
  · intro n
    have e : n = 7 * (n / 7) + n % 7 := by omega
    have hr : n % 7 < 7 := by omega
    rw [e, hτ _ _ hr]
    exact (hF _ _).served _ hr

/-- A concrete case: `/b` has lease 30 (listed at the start), `/d` has lease 5 (seen by the watch), `/e` is written
with lease 9 and not yet polled. There are fair executions from there that go on serving the loop, and in them all
three versions are eventually gone for good. -/
theorem C86_concrete : ∃ (a : TSys) (kb kd ke : KV), TReady 7 0 a ∧
    a.base.sys.world.hist.now Demo.kb = some kb ∧ kb.lease = 30 ∧
    a.base.sys.world.hist.now [0x2f, 0x64] = some kd ∧ kd.lease = 5 ∧
    a.base.sys.world.hist.now [0x2f, 0x65] = some ke ∧ ke.lease = 9 ∧ (∀ t ∈ a.ttl.timers, t.rev ≠ ke.modRev) ∧
    ∃ τ, τ 0 = a ∧ TExecution τ ∧ TFair τ ∧ ∃ m, ∀ m', m ≤ m' →
      (τ m').base.sys.world.hist.now Demo.kb ≠ some kb ∧ (τ m').base.sys.world.hist.now [0x2f, 0x64] ≠ some kd ∧
      (τ m').base.sys.world.hist.now [0x2f, 0x65] ≠ some ke := by
  obtain ⟨w, n, t, h, hP⟩ := (TScenario.mk ttlDemo.node
      (ttlDemo.acts ++ [.calls [(.txn true (createTxn [0x2f, 0x65] [9] 9), oks 1)]])).check
    (fun w n t => (match n.poll with | .idle => true | _ => false) && !n.overtaken && !t.truncated &&
      decide (w.db.compactRev ≤ n.pollRevision) &&
      (match t.phase with | .serve s i => decide (s = 7) && decide (i = 0) | _ => false) &&
      match n.groups[0]?, w.hist.now Demo.kb, w.hist.now [0x2f, 0x64], w.hist.now [0x2f, 0x65] with
      | some g, some kb, some kd, some ke => g.inMap && !g.dropped && decide (g.queue = []) &&
          (match g.call with | .idle => true | _ => false) && !g.watchers.isEmpty &&
          (g.watchers.all fun x => x.initialized && !x.lossy) &&
          decide (kb.lease = 30) && decide (kd.lease = 5) && decide (ke.lease = 9) &&
          (t.timers.all fun t => decide (t.rev ≠ ke.modRev))
      | _, _, _, _ => false) (by decide +kernel)
  simp only [Bool.and_eq_true, decide_eq_true_eq, Bool.not_eq_true'] at hP
  obtain ⟨⟨⟨⟨⟨p1, p2⟩, p3⟩, p4⟩, p5⟩, hP⟩ := hP
  split at hP
  · rename_i g kb kd ke hg hkb hkd hke
    simp only [Bool.and_eq_true, decide_eq_true_eq, Bool.not_eq_true', List.all_eq_true] at hP
    obtain ⟨⟨⟨⟨⟨⟨⟨⟨⟨q1, q2⟩, q3⟩, q4⟩, q5⟩, q6⟩, q7⟩, q8⟩, q9⟩, q10⟩ := hP
    have hidle : n.poll = .idle := by
      revert p1
      cases n.poll with
      | idle => intro _; rfl
      | querying p => intro h; cases h
      | dead => intro h; cases h
    have hcall : g.call = .idle := by
      revert q4
      cases g.call <;> intro h <;> first | rfl | cases h
    have hph : t.phase = .serve 7 0 := by
      revert p5
      cases t.phase <;> intro h <;> first | cases h | (simp only [Bool.and_eq_true, decide_eq_true_eq] at h; rw [h.1, h.2])
    have hready : TReady 7 0 ⟨⟨⟨w, []⟩, n⟩, t⟩ := ⟨h, hph, hidle, p2, p4, g, hg, q1, q2, q3, hcall⟩
    refine ⟨_, kb, kd, ke, hready, hkb, q7, hkd, q8, hke, q9, q10, ?_⟩
    obtain ⟨τ, hτ, he, hf, hs⟩ := C86_fair_executions_exist hready
    refine ⟨τ, hτ, he, hf, ?_⟩
    obtain ⟨x, hx⟩ : ∃ x, x ∈ g.watchers := by
      cases hw : g.watchers with
      | nil => rw [hw] at q5; cases q5
      | cons x l => exact ⟨x, by simp⟩
    have go : ∀ {k : Bytes} {kv : KV}, w.hist.now k = some kv → kv.lease > 0 → inRange [0] [255] k = true →
        ∃ m, 0 ≤ m ∧ ∀ m', m ≤ m' → (τ m').base.sys.world.hist.now k ≠ some kv := by
      intro k kv hk hl hr
      exact C86_leased_versions_expire (n := 0) (start := 7) (i := 0) (g := g) (x := x) he hf (by rw [hτ]; exact hph)
        (by omega) (by rw [hτ]; exact p3) (by rw [hτ]; exact hg) hx (q6 x hx).1 (q6 x hx).2 (fun m _ => hs m)
        (by rw [hτ]; exact hk) hl hr
    obtain ⟨m₁, _, h₁⟩ := go hkb (by omega) (by decide)
    obtain ⟨m₂, _, h₂⟩ := go hkd (by omega) (by decide)
    obtain ⟨m₃, _, h₃⟩ := go hke (by omega) (by decide)
    exact ⟨m₁ + m₂ + m₃, fun m' hm => ⟨h₁ m' (by omega), h₂ m' (by omega), h₃ m' (by omega)⟩⟩
  · cases hP

end Verif
