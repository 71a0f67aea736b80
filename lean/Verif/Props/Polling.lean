import Verif.Props.Watches
import Verif.Lemmas.StreamInv
import Verif.Props.Reads
/-!
# Properties of the poller and of what watches deliver: C31–C34, C37
-/

namespace Verif

/-! ## C31 Watch events describe the change faithfully -/

/-- Every event in a list describes a commit. -/
def AllDescribe (w : World) (es : List Event) : Prop := ∀ e ∈ es, ∃ c ∈ w.hist, Describes w.hist c e

/-- All events ever put into the channel of a group. -/
def Group.allSent (g : Group) : List Event := (g.received ++ g.queue).flatMap fun u => u.updates.flatMap (·.2)

theorem AllDescribe.ext {w w' : World} {es : List Event} (h : AllDescribe w es) (i : Inv w) (hx : Ext w w') :
    AllDescribe w' es := fun e he => by
  obtain ⟨c, hc, hd⟩ := h e he
  exact ⟨c, hx.mem hc, hd.ext hx hc i.wf⟩

theorem NInv.sent {a b : NSys} (h : NInv a) (st : NStep a b)
    (ih : ∀ g ∈ a.node.groups, AllDescribe a.sys.world g.allSent) :
    ∀ g ∈ b.node.groups, AllDescribe b.sys.world g.allSent := by
  obtain ⟨hb, hx⟩ := h.step st
  have hext : ∀ g ∈ a.node.groups, AllDescribe b.sys.world g.allSent :=
    fun g hg => (ih g hg).ext h.sys.inv hx
  cases st with
  | env => exact hext
  | pollStart => exact hext
  | pollExec => exact hext
  | pollError => exact hext
  | openGroup s n =>
    intro g hg
    rcases List.mem_append.1 hg with hg | hg
    · exact hext g hg
    · simp only [List.mem_singleton] at hg
      subst hg
      intro e he
      simp [Group.allSent, Group.new] at he
  | group s n w' pre post g g' c hst =>
    intro x hxm
    simp only [List.mem_append, List.mem_cons] at hxm
    rcases hxm with hxm | rfl | hxm
    · exact hext x (by change x ∈ n.groups; rw [c]; simp [hxm])
    · have := hext g (by change g ∈ n.groups; rw [c]; simp)
      unfold Group.allSent at this ⊢
      rw [hst.sent_eq]
      exact this
    · exact hext x (by change x ∈ n.groups; rw [c]; simp [hxm])
  | pollPublish s n rows c =>
    have hpub := hb.pub
    intro g hg
    obtain ⟨g₀, hg₀, rfl⟩ := List.mem_map.1 hg
    change AllDescribe s.world _
    have hold := hext g₀ hg₀
    change AllDescribe s.world _ at hold
    by_cases hin : g₀.inMap = true
    · rw [if_pos hin]
      obtain ⟨hr, hq⟩ := publishOrDrop_sent g₀ (nextPollRevision n.pollRevision (scanAll scanEvent rows))
        (scanAll scanEvent rows)
      intro e he
      unfold Group.allSent at he
      rw [hr] at he
      rcases hq with hq | hq <;> rw [hq] at he
      · exact hold e he
      · rw [← List.append_assoc, List.flatMap_append] at he
        rcases List.mem_append.1 he with he | he
        · exact hold e he
        · simp only [List.flatMap_cons, List.flatMap_nil, List.append_nil, List.mem_flatMap] at he
          obtain ⟨u, hu, heu⟩ := he
          obtain ⟨x, hxw, rfl⟩ := List.mem_map.1 (List.mem_filter.1 hu).1
          have hw := (h.groups g₀ hg₀).ok x hxw
          have hmem : e ∈ x.events ∨ e ∈ scanAll scanEvent rows := by
            cases hi : x.initialized
            · rw [Watcher.update_uninit hi] at heu; simp at heu
            · rw [Watcher.update_init hi] at heu
              rcases List.mem_append.1 heu with h | h
              · exact Or.inl h
              · exact Or.inr (List.mem_filter.1 h).1
          rcases hmem with hm | hm
          · exact (hw.sound.mem e (List.mem_append.2 (Or.inr hm))).2.2.2
          · exact (hpub.mem e (List.mem_append.2 (Or.inr hm))).2.2.2
    · rw [if_neg hin]; exact hold

theorem NReachable.sent {s : NSys} (h : NReachable s) : ∀ g ∈ s.node.groups, AllDescribe s.sys.world g.allSent := by
  induction h with
  | start => intro g hg; simp [Node.init] at hg
  | step hr st ih => exact hr.ninv.sent st ih

/-- Every event ever put into any channel, and every event pending for a watcher, describes one commit of the
history: right kind, key, mod revision; a put carries value, lease and create revision of the version it made;
`prevKv` is absent exactly for creations and otherwise the version replaced, except for its lease. This holds
whatever has been compacted since. -/
theorem C31_faithful_partial {s : NSys} (h : NReachable s) {g : Group} (hg : g ∈ s.node.groups) :
    (∀ u ∈ g.received ++ g.queue, ∀ p ∈ u.updates, ∀ e ∈ p.2,
      ∃ c ∈ s.sys.world.hist, Describes s.sys.world.hist c e) ∧
    ∀ x ∈ g.watchers, ∀ e ∈ x.events, ∃ c ∈ s.sys.world.hist, Describes s.sys.world.hist c e := by
  refine ⟨fun u hu p hp e he => h.sent g hg e ?_, fun x hx e he => ?_⟩
  · exact List.mem_flatMap.2 ⟨u, hu, List.mem_flatMap.2 ⟨p, hp, he⟩⟩
  · exact (((h.ninv.groups g hg).ok x hx).sound.mem e (List.mem_append.2 (Or.inr he))).2.2.2

/-- The lease inside `prevKv` is wrong when an update changes the lease: it is the new one
(`/repo/pkg/backend/internal/backend/utils.go:60-74`). Here `/b`, put at revision 4 with lease 30, is updated at
revision 6 to lease 77; the event says that the version of revision 4 had lease 77. -/
theorem C31_prev_lease_counterexample : ∃ s, NReachable s ∧ ∃ g ∈ s.node.groups, ∃ u ∈ g.received, ∃ p ∈ u.updates,
    ∃ e ∈ p.2, ∃ q, e.prevKv = some q ∧ q.modRev = 4 ∧ q.lease = 77 ∧
    (s.sys.world.hist.at 4 e.kv.key).map (·.lease) = some 30 := by
  obtain ⟨w, n, h, hP⟩ := (NScenario.mk Demo.setup 4
    [.pollStart, .pollExec .ok, .pollDone, .openGroup, .watch 0 1 [0x2f] [0x30] 0,
     .calls [(.txn true (updateTxn Demo.kb 4 [5] 77), oks 2)], .pollStart, .pollExec .ok, .pollDone,
     .recv 0]).check
    (fun w n => n.groups.any fun g => g.received.any fun u => u.updates.any fun p =>
        p.2.any fun e => match e.prevKv with
          | some q => decide (q.modRev = 4) && decide (q.lease = 77) &&
              decide ((w.hist.at 4 e.kv.key).map (·.lease) = some 30)
          | none => false) (by decide +kernel)
  simp only [List.any_eq_true] at hP
  obtain ⟨g, hg, u, hu, p, hp, e, he, hm⟩ := hP
  cases hq : e.prevKv with
  | none => rw [hq] at hm; cases hm
  | some q =>
    rw [hq] at hm
    simp only [Bool.and_eq_true, decide_eq_true_eq] at hm
    exact ⟨_, h, g, hg, u, hu, p, hp, e, he, q, hq, hm.1.1, hm.1.2, hm.2⟩

/-! ## C32 List then watch reconstructs the store -/

/-- A client's copy of the store after a listing. -/
def ofListing (out : List KV) (k : Bytes) : Option KV := out.find? fun kv => kv.key == k

theorem ofListing_eq {h : History} (wf : h.Wf) {r : Int} {lo hi : Bytes} {out : List KV} (hl : IsListing h r lo hi out)
    {k : Bytes} (hk : inRange lo hi k = true) : ofListing out k = h.at r k := by
  unfold ofListing
  cases he : h.at r k with
  | none =>
    rw [List.find?_eq_none]
    intro kv hkv hkey
    have hkey' : kv.key = k := by simpa using hkey
    have := ((hl.2 kv).1 hkv).2
    rw [hkey', he] at this
    cases this
  | some kv =>
    have hkey := at_key wf he
    have hmem : kv ∈ out := (hl.2 kv).2 ⟨by rw [hkey]; exact hk, by rw [hkey]; exact he⟩
    cases hf : out.find? (fun kv => kv.key == k) with
    | none =>
      have := List.find?_eq_none.1 hf kv hmem
      simp [hkey] at this
    | some kv' =>
      have hk' : kv'.key = k := by simpa using List.find?_some hf
      have := ((hl.2 kv').1 (List.mem_of_find?_eq_some hf)).2
      rw [hk', he] at this
      exact this.symm

theorem applyEvents_append (es es' : List Event) (st : Bytes → Option KV) :
    applyEvents (es ++ es') st = applyEvents es' (applyEvents es st) := by
  simp [applyEvents, List.foldl_append]

theorem applyEvents_other {es : List Event} {st : Bytes → Option KV} {k : Bytes}
    (h : ∀ e ∈ es, e.kv.key ≠ k) : applyEvents es st k = st k := by
  induction es generalizing st with
  | nil => rfl
  | cons e es ih =>
    change applyEvents es _ k = st k
    rw [ih (fun e he => h e (by simp [he]))]
    have hne := h e (by simp)
    simp [Ne.symm hne]

theorem last_on_key (es : List Event) (k : Bytes) : (∀ e ∈ es, e.kv.key ≠ k) ∨
    ∃ a e b, es = a ++ e :: b ∧ e.kv.key = k ∧ ∀ x ∈ b, x.kv.key ≠ k := by
  induction es with
  | nil => left; simp
  | cons e es ih =>
    rcases ih with h | ⟨a, x, b, rfl, h1, h2⟩
    · by_cases hk : e.kv.key = k
      · exact Or.inr ⟨[], e, es, rfl, hk, h⟩
      · left
        intro x hx
        rcases List.mem_cons.1 hx with rfl | hx
        · exact hk
        · exact h x hx
    · exact Or.inr ⟨e :: a, x, b, rfl, h1, h2⟩

/-- Applying the events of the commits in `(a, b]` takes the state at `a` to the state at `b`. -/
theorem applyEvents_stretch {h : History} (wf : h.Wf) {P : Bytes → Bool} {a b : Int} {es : List Event} (hab : a ≤ b)
    (he : EventsOf h (h.stretch P a b) es) {st : Bytes → Option KV} {k : Bytes} (hk : P k = true)
    (hst : st k = h.at a k) : applyEvents es st k = h.at b k := by
  have hmem : ∀ c, c ∈ h.stretch P a b ↔ c ∈ h ∧ P c.key = true ∧ a < c.rev ∧ c.rev ≤ b := by
    intro c
    simp [History.stretch, List.mem_filter]
  have hcov : ∀ c ∈ h, c.key = k → a < c.rev → c.rev ≤ b → ∃ e ∈ es, e.kv.modRev = c.rev ∧ e.kv.key = k := by
    intro c hc hck h1 h2
    have : c.rev ∈ es.map (·.kv.modRev) := by
      rw [he.1]
      exact List.mem_map_of_mem ((hmem c).2 ⟨hc, by rw [hck]; exact hk, h1, h2⟩)
    obtain ⟨e, hes, her⟩ := List.mem_map.1 this
    obtain ⟨c', hc', hd⟩ := he.2 e hes
    have : c' = c := Wf_rev_inj wf ((hmem c').1 hc').1 hc (by rw [← hd.1, her])
    subst this
    exact ⟨e, hes, her, by rw [hd.2.1]; exact hck⟩
  rcases last_on_key es k with hn | ⟨es₁, e, es₂, rfl, hek, hn⟩
  · rw [applyEvents_other hn, hst]
    refine (at_eq_of_no_between hab ?_).symm
    intro c hc hck hcb
    by_cases hca : c.rev ≤ a
    · exact hca
    · obtain ⟨e, hes, _, hk'⟩ := hcov c hc hck (by omega) hcb
      exact absurd hk' (hn e hes)
  · obtain ⟨c, hc, hd⟩ := he.2 e (by simp)
    obtain ⟨c1, c2, c3, c4⟩ := (hmem c).1 hc
    have hck : c.key = k := by rw [← hd.2.1]; exact hek
    have hsorted : (es₁ ++ e :: es₂).Pairwise fun x y => x.kv.modRev < y.kv.modRev := by
      rw [← List.pairwise_map (f := fun (e : Event) => e.kv.modRev) (R := fun (x y : Int) => x < y), he.1,
        List.pairwise_map]
      exact wf.sorted.filter _
    have hb : h.at b k = h.at c.rev k := by
      refine at_eq_of_no_between c4 ?_
      intro c' hc' hck' hcb'
      by_cases hle : c'.rev ≤ c.rev
      · exact hle
      · obtain ⟨e', hes', her', hek'⟩ := hcov c' hc' hck' (by omega) hcb'
        exfalso
        rw [List.pairwise_append, List.pairwise_cons] at hsorted
        rcases List.mem_append.1 hes' with h1 | h1
        · have := hsorted.2.2 e' h1 e (by simp)
          have := hd.1
          omega
        · rcases List.mem_cons.1 h1 with rfl | h1
          · have := hd.1
            omega
          · exact hn e' h1 hek'
    rw [applyEvents_append, hb]
    change applyEvents es₂ _ k = _
    rw [applyEvents_other hn]
    simp only [hek, beq_self_eq_true, if_true]
    cases hdel : e.isDelete with
    | false =>
      have := hd.2.2.2.1 hdel
      rw [hck] at this
      rw [this]; simp
    | true =>
      have hw := hd.2.2.1.1 hdel
      rw [at_of_last wf c1 hck (Int.le_refl _) (fun c' _ _ h => h)]
      unfold Commit.applyTo
      rw [hw]; simp

/-- The events with revision up to `r`. -/
def upTo (r : Int) (es : List Event) : List Event := es.filter fun e => decide (e.kv.modRev ≤ r)

/-- A client lists the range at revision `R` and watches it from `R + 1`: at every revision `r` from `R` up to
the revision its stream has reached, the listing plus the events up to `r` give exactly the store as of `r` on the
range. Hypotheses on the watch as in `C28_exactly_once`. -/
theorem C32_list_then_watch {s : NSys} (h : NReachable s) {g : Group} (hg : g ∈ s.node.groups) {x : Watcher}
    (hx : x ∈ g.watchers) (hi : x.initialized = true) (hd : g.dropped = false) (ho : s.node.overtaken = false)
    (hl : x.lossy = false) {R : Int} (hR : 0 ≤ R) (hstart : x.start = R + 1) {out : List KV}
    (hout : IsListing s.sys.world.hist R x.lo x.hi out) {r : Int} (h1 : R ≤ r) (h2 : r ≤ g.currentRevision)
    {k : Bytes} (hk : inRange x.lo x.hi k = true) :
    applyEvents (upTo r (fromRev (R + 1) (g.delivered x))) (ofListing out) k = s.sys.world.hist.at r k := by
  have i := h.ninv
  have wf := i.sys.inv.wf
  obtain ⟨rest, r1, r2, r3⟩ := ((i.groups g hg).ok x hx).full ho hl (Or.inl hd)
  have := r3 hd
  subst this
  have hf : x.from ≤ R := by
    unfold Watcher.from
    rw [if_pos ⟨hi, by omega⟩]
    omega
  have s1 : Sound s.sys.world.hist x.range R r (upTo r (fromRev (R + 1) (g.delivered x))) := by
    have := r1.fromRev (r := R + 1)
    refine ⟨this.asc.filter _, fun e he => ?_⟩
    obtain ⟨e1, e2⟩ := List.mem_filter.1 he
    obtain ⟨x1, x2, _, x4⟩ := this.mem e e1
    exact ⟨x1, by omega, by simpa using e2, x4⟩
  have s2 : Covers s.sys.world.hist x.range R r (upTo r (fromRev (R + 1) (g.delivered x))) := by
    intro c hc hp hc1 hc2
    obtain ⟨e, he, her⟩ := r2.fromRev (r := R + 1) (by omega) c hc hp (by omega) (by omega)
    exact ⟨e, List.mem_filter.2 ⟨he, by simp; omega⟩, her⟩
  exact applyEvents_stretch wf h1 (s1.eventsOf wf s2) hk (ofListing_eq wf hout hk)

/-- The same with the listing obtained by an actual read at revision `R` (unlimited, cursor intact, not overtaken by
compaction) at some earlier time. -/
theorem C32_range_call_then_watch {s₀ s₁ : Sys} {v1 : Bool} {t : List Obs} {resp : RangeResp} {lo hi : Bytes} {R : Int}
    (hr₀ : Reachable s₀) (hrun : Run s₀ (Bridge.range v1 { key := lo, rangeEnd := hi, revision := R }) t (.ok resp) s₁)
    (hnt : NoTrunc t) (hR : 0 < R) (hle : R ≤ s₀.world.hist.top) (hcr : s₁.world.db.compactRev ≤ R)
    {s : NSys} (h : NReachable s) (hlater : s.sys.world.hist.Extends s₁.world.hist)
    {g : Group} (hg : g ∈ s.node.groups) {x : Watcher}
    (hx : x ∈ g.watchers) (hlo : x.lo = lo) (hhi : x.hi = hi) (hne : hi ≠ []) (hi' : x.initialized = true)
    (hd : g.dropped = false) (ho : s.node.overtaken = false) (hl : x.lossy = false) (hstart : x.start = R + 1)
    {r : Int} (h1 : R ≤ r) (h2 : r ≤ g.currentRevision) {k : Bytes} (hk : inRange lo hi k = true) :
    applyEvents (upTo r (fromRev (R + 1) (g.delivered x))) (ofListing resp.kvs) k = s.sys.world.hist.at r k := by
  subst hlo hhi
  have ha := C05_read_at_revision hr₀ hrun hnt (by simp only; omega) hle hcr (by simp) (by simp)
  simp only at ha
  have wf := h.ninv.sys.inv.wf
  have hat : ∀ k, s.sys.world.hist.at R k = s₁.world.hist.at R k := by
    intro k
    obtain ⟨t', ht⟩ := hlater
    rw [ht] at wf ⊢
    refine at_ext wf ?_ k
    have := (range_facts hr₀ hrun).2.1.total.top
    omega
  refine C32_list_then_watch h hg hx hi' hd ho hl (by omega) hstart ⟨ha.1, fun kv => ?_⟩ h1 h2 hk
  rw [ha.2 kv, hat]
  unfold Wanted inRange
  rw [if_neg hne]
  simp

/-- The run of `watchDemo` meets the hypotheses with `R = 3`: the listing at 3 has `/a` and the health record, the
watch from 4 brings `/b` (deleted again at 8) and `/c`. -/
example : ∃ s, NReachable s ∧ ∃ g ∈ s.node.groups, ∃ x ∈ g.watchers, x.initialized = true ∧ g.dropped = false ∧
    s.node.overtaken = false ∧ x.lossy = false ∧ x.start = 3 + 1 ∧ 9 ≤ g.currentRevision ∧
    (s.sys.world.hist.at 3 Demo.kb, (s.sys.world.hist.at 7 Demo.kb).isSome, s.sys.world.hist.at 9 Demo.kb) =
      (none, true, none) := by
  obtain ⟨w, n, h, hP⟩ := watchDemo.check (fun w n => n.groups.any fun g => g.watchers.any fun x =>
    x.initialized && !g.dropped && !n.overtaken && !x.lossy && decide (x.start = 3 + 1) &&
    decide (9 ≤ g.currentRevision) &&
    decide ((w.hist.at 3 Demo.kb, (w.hist.at 7 Demo.kb).isSome, w.hist.at 9 Demo.kb) = (none, true, none)))
    (by decide +kernel)
  simp only [List.any_eq_true, Bool.and_eq_true, decide_eq_true_eq, Bool.not_eq_true'] at hP
  obtain ⟨g, hg, x, hx, ⟨⟨⟨⟨⟨h1, h2⟩, h3⟩, h4⟩, h5⟩, h6⟩, h7⟩ := hP
  exact ⟨_, h, g, hg, x, hx, h1, h2, h3, h4, h5, h6, h7⟩

/-! ## C33 The poller never skips or repeats a committed write -/

/-- Everything published so far is exactly one event per commit in `(startRevision, pollRevision]`, in order,
as long as no poll query was executed after compaction had passed the poll revision. -/
theorem C33_published_exactly_once {s : NSys} (h : NReachable s) (ho : s.node.overtaken = false) :
    EventsOf s.sys.world.hist
      (s.sys.world.hist.stretch (fun _ => true) s.node.startRevision s.node.pollRevision) s.node.published :=
  h.ninv.pub.eventsOf h.ninv.sys.inv.wf (h.ninv.pubFull ho)

/-- Even when it does fall behind compaction: never out of order, never twice, never something that was not
committed. -/
theorem C33_never_repeats {s : NSys} (h : NReachable s) :
    s.node.published.Pairwise (fun a b => a.kv.modRev < b.kv.modRev) ∧
    ∀ e ∈ s.node.published, ∃ c ∈ s.sys.world.hist, Describes s.sys.world.hist c e :=
  ⟨h.ninv.pub.asc, fun e he => (h.ninv.pub.mem e he).2.2.2⟩

/-- One poll without fault: query, then publish. -/
def pollRound (w : World) (n : Node) : Node :=
  { n.publishEvents (scanAll scanEvent (afterSQL w.db n.pollRevision pollBatchSize, none)) with
    poll := .idle, overtaken := n.overtaken || decide (n.pollRevision < w.db.compactRev) }

theorem after_unfold (a l : Int) : ∃ k, Driver.after a l = .stmt id k ∧
    (∀ db, k .ok db = .ret (.ok (afterSQL db a l, none))) ∧
    ∀ e db, e.retry = false → k (.fail e) db = .ret (.error (.db e)) := by
  refine ⟨_, rfl, fun db => rfl, fun e db he => ?_⟩
  simp [he]

/-- A round is three steps of the model. -/
theorem pollRound_steps {s : Sys} {n : Node} (i : Inv s.world) (hn : n.poll = .idle) :
    NSteps ⟨s, n⟩ ⟨s, pollRound s.world n⟩ := by
  obtain ⟨k, hk, hok, _⟩ := after_unfold n.pollRevision pollBatchSize
  have h1 := NSteps.one (.pollStart s n hn)
  have h2 := NStep.pollExec s { n with poll := .querying (Driver.after n.pollRevision pollBatchSize) } id k .ok
    (by rw [hk])
  have hs : ({ s with world := s.world.exec id .ok } : Sys) = s := by rw [i.exec_id]
  rw [hs] at h2
  simp only [hok] at h2
  exact .tail (.tail h1 h2) (.pollPublish s _ (afterSQL s.world.db n.pollRevision pollBatchSize, none) rfl)

/-- The last commit is always stored, however much has been compacted. -/
theorem Inv.top_stored {w : World} (i : Inv w) (h : 0 < w.hist.top) : ∃ r ∈ w.db.rows, r.id = w.hist.top := by
  have hne : w.hist ≠ [] := by
    intro e; rw [e] at h; simp [History.top] at h
  obtain ⟨c, hc⟩ : ∃ c, w.hist.getLast? = some c := ⟨_, List.getLast?_eq_some_getLast hne⟩
  have hm := List.mem_of_getLast? hc
  have ht : w.hist.top = c.rev := by simp [History.top, hc]
  obtain ⟨r, hr, hid⟩ := i.keep c hm (Or.inl (by have := i.bound; have := i.nonneg; omega))
  exact ⟨r, hr, by omega⟩

/-- A fault-free round makes progress: as long as something committed has not been published, the poll revision
grows. -/
theorem pollRound_progress {w : World} {n : Node} (i : Inv w) (h0 : 0 ≤ n.pollRevision)
    (hlt : n.pollRevision < w.hist.top) : n.pollRevision < (pollRound w n).pollRevision := by
  obtain ⟨r, hr, hid⟩ := i.top_stored (by omega)
  obtain ⟨h1, _, h3, _⟩ := i.poll_events n.pollRevision pollBatchSize none
  change n.pollRevision < nextPollRevision _ _
  have hne : scanAll scanEvent (afterSQL w.db n.pollRevision pollBatchSize, none) ≠ [] := by
    unfold scanAll afterSQL limitBy
    rw [idLe_sorted_filter i]
    have hmem : r ∈ w.db.rows.filter fun r => decide (r.id > n.pollRevision) :=
      List.mem_filter.2 ⟨hr, by simp; omega⟩
    simp only [if_pos (show pollBatchSize > 0 by decide)]
    intro e
    have e' := List.map_eq_nil_iff.1 e
    rcases List.take_eq_nil_iff.1 e' with h | h
    · revert h; decide
    · rw [h] at hmem; simp at hmem
  obtain ⟨e, he⟩ := List.exists_mem_of_ne_nil _ hne
  have := h3.mem e he
  omega

/-- `k` rounds. -/
def pollRounds (w : World) : Nat → Node → Node
  | 0, n => n
  | k + 1, n => pollRounds w k (pollRound w n)

theorem pollRounds_steps {s : Sys} (i : Inv s.world) (k : Nat) {n : Node} (hn : n.poll = .idle) :
    NSteps ⟨s, n⟩ ⟨s, pollRounds s.world k n⟩ := by
  induction k generalizing n with
  | zero => exact .refl _
  | succ k ih => exact (pollRound_steps i hn).trans (ih rfl)

theorem pollRounds_top {s : Sys} (k : Nat) {n : Node} (hn : n.poll = .idle) (h : NInv ⟨s, n⟩)
    (hk : s.world.hist.top ≤ n.pollRevision + k) : (pollRounds s.world k n).pollRevision = s.world.hist.top := by
  induction k generalizing n with
  | zero =>
    have := h.le
    change n.pollRevision ≤ s.world.hist.top at this
    change n.pollRevision = _
    omega
  | succ k ih =>
    have h' : NInv ⟨s, pollRound s.world n⟩ := by
      have := pollRound_steps h.sys.inv hn
      clear ih
      generalize hb : (⟨s, pollRound s.world n⟩ : NSys) = b at this
      clear hb
      induction this with
      | refl => exact h
      | tail _ st ih => exact (ih.step st).1
    refine ih rfl h' ?_
    have h1 := h.nonneg
    have h2 := h.start
    change 0 ≤ n.startRevision at h1
    change n.startRevision ≤ n.pollRevision at h2
    have h3 := h.le
    change n.pollRevision ≤ s.world.hist.top at h3
    by_cases hlt : n.pollRevision < s.world.hist.top
    · have := pollRound_progress (n := n) h.sys.inv (by omega) hlt
      change _ < (pollRound s.world n).pollRevision at this
      omega
    · have : n.pollRevision ≤ (pollRound s.world n).pollRevision := by
        exact (h.sys.inv.poll_events n.pollRevision pollBatchSize none).1
      omega

/-- Polling catches up: from any reachable state between two polls, when no further commits happen, after at most
`top - pollRevision` fault-free polls every commit so far has been published (`pollRevision` is the current
revision), whatever the batch boundaries. -/
theorem C33_catches_up {s : NSys} (h : NReachable s) (hn : s.node.poll = .idle) (k : Nat)
    (hk : s.sys.world.hist.top ≤ s.node.pollRevision + k) :
    NSteps s ⟨s.sys, pollRounds s.sys.world k s.node⟩ ∧
    (pollRounds s.sys.world k s.node).pollRevision = s.sys.world.hist.top :=
  ⟨pollRounds_steps h.ninv.sys.inv k hn, pollRounds_top k hn h.ninv hk⟩

/-- The run of `watchDemo` meets the hypotheses: not overtaken, idle, 9 events published from revision 0 on. -/
example : ∃ s, NReachable s ∧ s.node.overtaken = false ∧ s.node.poll = .idle ∧ s.node.startRevision = 0 ∧
    s.node.pollRevision = 9 ∧ s.node.published.map (·.kv.modRev) = [1, 2, 3, 4, 5, 6, 7, 8, 9] := by
  obtain ⟨w, n, h, hP⟩ := watchDemo.check (fun _ n => !n.overtaken &&
    (match n.poll with | .idle => true | _ => false) && decide (n.startRevision = 0) && decide (n.pollRevision = 9) &&
    decide (n.published.map (·.kv.modRev) = [1, 2, 3, 4, 5, 6, 7, 8, 9])) (by decide +kernel)
  simp only [Bool.and_eq_true, decide_eq_true_eq, Bool.not_eq_true'] at hP
  obtain ⟨⟨⟨⟨h1, h2⟩, h3⟩, h4⟩, h5⟩ := hP
  refine ⟨_, h, h1, ?_, h3, h4, h5⟩
  cases hp : n.poll <;> rw [hp] at h2 <;> simp_all

/-- When a compaction overtakes the poller (more than 100 commits between two polls and a compaction), commits are
skipped: here `/a` is created at revision 3 and deleted at revision 4 and a stream that watched before gets
neither; the poll revision has passed them. -/
theorem C33_overtaken_counterexample : ∃ s, NReachable s ∧ s.node.startRevision < 3 ∧ 4 < s.node.pollRevision ∧
    (∃ c ∈ s.sys.world.hist, c.rev = 3 ∧ c.key = Demo.ka) ∧ (∃ c ∈ s.sys.world.hist, c.rev = 4 ∧ c.key = Demo.ka) ∧
    (∀ e ∈ s.node.published, e.kv.key ≠ Demo.ka) := by
  obtain ⟨w, n, h, hP⟩ := (NScenario.mk [(.start, oks 6)] 4
    [.pollStart, .pollExec .ok, .pollDone, .openGroup, .watch 0 1 [0x2f] [0x30] 0,
     .calls ([ (.txn true (createTxn Demo.ka [1] 0), oks 1), (.txn true (deleteTxn Demo.ka 3), oks 1) ]
        ++ ((List.range 102).map fun i => (.txn true (createTxn [0x30, UInt8.ofNat i] [0] 0), oks 1))
        ++ [(.doCompact fun _ => some true, oks 20)]),
     .pollStart, .pollExec .ok, .pollDone]).check
    (fun w n => decide (n.startRevision < 3) && decide (4 < n.pollRevision) &&
      (w.hist.any fun c => decide (c.rev = 3) && decide (c.key = Demo.ka)) &&
      (w.hist.any fun c => decide (c.rev = 4) && decide (c.key = Demo.ka)) &&
      n.published.all fun e => decide (e.kv.key ≠ Demo.ka)) (by decide +kernel)
  simp only [List.any_eq_true, List.all_eq_true, Bool.and_eq_true, decide_eq_true_eq] at hP
  obtain ⟨⟨⟨⟨h1, h2⟩, h3⟩, h4⟩, h5⟩ := hP
  exact ⟨_, h, h1, h2, h3, h4, h5⟩

/-! ## C34 A slow or cancelled watch stream is closed exactly once -/

/-- In every reachable state, for every group: the channel has been closed at most once, and exactly if the group is
no longer served; no send on a closed channel and no second close has happened (`panicked`); the channel never holds
more than its capacity; and a group that missed an update is closed, or is about to be by the goroutine of its
cancelled context. -/
theorem C34_closed_once {s : NSys} (h : NReachable s) {g : Group} (hg : g ∈ s.node.groups) :
    g.closed ≤ 1 ∧ (g.closed = 1 ↔ g.inMap = false) ∧ g.panicked = false ∧ g.queue.length ≤ 100 ∧
    (g.dropped = true → g.closed = 1 ∨ g.after = .running) := by
  have l := (h.ninv.groups g hg).life
  refine ⟨?_, ?_, l.fine, l.cap, ?_⟩
  · rw [l.closed]; split <;> omega
  · rw [l.closed]; cases g.inMap <;> simp
  · intro hd
    have hna := l.drop hd
    by_cases hr : g.after = .running
    · exact Or.inr hr
    · left
      rw [l.closed]
      have : ¬ g.inMap = true := fun hm => by
        rcases l.map.1 hm with h | h
        · exact hna h
        · exact hr h
      rw [if_neg this]

/-- Once the channel of a group is closed, nothing is ever sent on it again: through any further steps of the system
what was sent on it stays the same, and it stays closed. -/
theorem C34_nothing_after_close {s s' : NSys} (h : NReachable s) (st : NSteps s s') {i : Nat} {g : Group}
    (hg : s.node.groupAt i = some g) (hc : g.closed = 1) :
    ∃ g', s'.node.groupAt i = some g' ∧ g'.closed = 1 ∧ g'.received ++ g'.queue = g.received ++ g.queue := by
  induction st with
  | refl => exact ⟨g, hg, hc, rfl⟩
  | @tail t u hst st ih =>
    obtain ⟨g₁, hg₁, hc₁, he₁⟩ := ih
    have inv := (h.steps hst).ninv
    have l := (inv.groups g₁ (List.mem_of_getElem? hg₁)).life
    have hin : g₁.inMap = false := by
      have := l.closed
      cases hm : g₁.inMap with
      | false => rfl
      | true => rw [hm] at this; simp at this; omega
    cases st with
    | env => exact ⟨g₁, hg₁, hc₁, he₁⟩
    | pollStart => exact ⟨g₁, hg₁, hc₁, he₁⟩
    | pollExec => exact ⟨g₁, hg₁, hc₁, he₁⟩
    | pollError => exact ⟨g₁, hg₁, hc₁, he₁⟩
    | openGroup s n =>
      refine ⟨g₁, ?_, hc₁, he₁⟩
      unfold Node.groupAt at hg₁ ⊢
      obtain ⟨hlt, _⟩ := List.getElem?_eq_some_iff.1 hg₁
      simp only
      rw [List.getElem?_append_left hlt]
      exact hg₁
    | pollPublish s n rows c =>
      refine ⟨g₁, ?_, hc₁, he₁⟩
      unfold Node.groupAt at hg₁ ⊢
      change (n.groups.map _)[i]? = _
      rw [List.getElem?_map]
      simp only at hg₁
      rw [hg₁]
      simp [hin]
    | group s n w' pre post x x' c hgs =>
      unfold Node.groupAt at hg₁ ⊢
      simp only at hg₁ ⊢
      rw [c] at hg₁
      by_cases hi : i = pre.length
      · subst hi
        simp only [List.getElem?_append_right (Nat.le_refl _), Nat.sub_self, List.getElem?_cons_zero,
          Option.some.injEq] at hg₁ ⊢
        subst hg₁
        refine ⟨x', rfl, ?_, by rw [hgs.sent_eq]; exact he₁⟩
        cases hgs with
        | watch => unfold Group.watch; simp only; split <;> exact hc₁
        | checked => unfold Group.checked; split
                     · exact hc₁
                     · split <;> exact hc₁
        | queried => unfold Group.queried; split <;> exact hc₁
        | afterFunc hr =>
          exfalso
          have := l.map.2 (Or.inr hr)
          rw [hin] at this; cases this
        | _ => exact hc₁
      · refine ⟨g₁, ?_, hc₁, he₁⟩
        by_cases hlt : i < pre.length
        · rw [List.getElem?_append_left hlt] at hg₁ ⊢
          exact hg₁
        · rw [List.getElem?_append_right (by omega)] at hg₁ ⊢
          obtain ⟨m, hm⟩ : ∃ m, i - pre.length = m + 1 := ⟨i - pre.length - 1, by omega⟩
          rw [hm] at hg₁ ⊢
          simpa using hg₁

/-- An overflowing group is closed by the very publish that did not fit, unless its context has already been
cancelled, in which case the started goroutine closes it. -/
theorem C34_overflow_closes {g : Group} {rev : Int} {es : List Event} (hc : g.closed = 0)
    (hfull : g.queue.length = 100) :
    (g.publishOrDrop rev es).dropped = true ∧ (g.publishOrDrop rev es).queue = g.queue ∧
    (g.after = .armed → (g.publishOrDrop rev es).closed = 1 ∧ (g.publishOrDrop rev es).inMap = false) ∧
    (g.after ≠ .armed → (g.publishOrDrop rev es).closed = 0) := by
  unfold Group.publishOrDrop Group.publish
  simp only
  rw [if_neg (by omega), if_neg (by rw [hfull]; decide)]
  simp only
  by_cases ha : g.after = .armed
  · simp [ha, Group.close, hc]
  · simp [ha, hc]

/-- The goroutine of a cancelled context closes the channel. -/
theorem C34_cancel_closes {w : World} {g : Group} (hc : g.closed = 0) (hr : g.after = .running) :
    ∃ g', GroupStep w g w g' ∧ g'.closed = 1 ∧ g'.inMap = false :=
  ⟨_, .afterFunc w g hr, by simp [Group.close, hc], rfl⟩

/-- Witness: a stream that never reads while 101 polls publish is closed by the overflow; a second stream whose
context was cancelled right before the overflowing publish is closed by its goroutine. -/
example : ∃ s, NReachable s ∧ (s.node.groups.map fun g => (g.dropped, g.closed, g.panicked, g.queue.length)) =
    [(true, 1, false, 100), (true, 1, false, 100)] := by
  obtain ⟨w, n, h, hP⟩ := (NScenario.mk Demo.setup 4
    ([.openGroup, .openGroup] ++ (List.replicate 100 [NAct.pollStart, .pollExec .ok, .pollDone]).flatten
      ++ [.cancel 1, .pollStart, .pollExec .ok, .pollDone, .afterFunc 1])).check
    (fun _ n => decide ((n.groups.map fun g => (g.dropped, g.closed, g.panicked, g.queue.length)) =
      [(true, 1, false, 100), (true, 1, false, 100)])) (by decide +kernel)
  exact ⟨_, h, by simpa using hP⟩

/-! ## C37 The event poller survives failures -/

/-- After a failed query that is neither a timeout nor a cancellation the poller goes on: nothing is lost or changed,
and fault-free polls then publish everything committed so far. -/
theorem C37_survives_partial {s : NSys} (h : NReachable s) {e : ApiErr}
    (hp : s.node.poll = .querying (.ret (.error e))) (h1 : e ≠ .db .deadline) (h2 : e ≠ .db .canceled) :
    let n' := { s.node with poll := .idle }
    NSteps s ⟨s.sys, n'⟩ ∧ ∀ k : Nat, s.sys.world.hist.top ≤ s.node.pollRevision + k →
      NSteps s ⟨s.sys, pollRounds s.sys.world k n'⟩ ∧
      (pollRounds s.sys.world k n').pollRevision = s.sys.world.hist.top := by
  intro n'
  have hst : NSteps s ⟨s.sys, n'⟩ := by
    have := NStep.pollError s.sys s.node e hp
    have he : pollAfterError e = .idle := by
      unfold pollAfterError
      split
      · exact absurd rfl h1
      · exact absurd rfl h2
      · rfl
    rw [he] at this
    exact .one this
  refine ⟨hst, fun k hk => ?_⟩
  obtain ⟨a, b⟩ := C33_catches_up (h.steps hst) rfl k hk
  exact ⟨hst.trans a, b⟩

/-- A dead poller never publishes anything again. -/
theorem dead_forever {s s' : NSys} (st : NSteps s s') (hd : s.node.poll = .dead) :
    s'.node.poll = .dead ∧ s'.node.published = s.node.published ∧ s'.node.pollRevision = s.node.pollRevision := by
  induction st with
  | refl => exact ⟨hd, rfl, rfl⟩
  | @tail t u hst st ih =>
    obtain ⟨i1, i2, i3⟩ := ih
    cases st with
    | env => exact ⟨i1, i2, i3⟩
    | pollStart s n c => simp only at i1; rw [i1] at c; cases c
    | pollExec s n eff k o c => simp only at i1; rw [i1] at c; cases c
    | pollPublish s n rows c => simp only at i1; rw [i1] at c; cases c
    | pollError s n e c => simp only at i1; rw [i1] at c; cases c
    | openGroup => exact ⟨i1, i2, i3⟩
    | group => exact ⟨i1, i2, i3⟩

/-- One query that exceeds the watch query timeout ends the poller for ever although the node keeps running
(`/repo/pkg/backend/internal/backend/watcher.go:203-207`): `/b` is deleted afterwards at revision 8, and however the
system goes on the event is never published. -/
theorem C37_timeout_counterexample : ∃ s, NReachable s ∧ (∃ c ∈ s.sys.world.hist, c.rev = 8 ∧ c.key = Demo.kb) ∧
    (∃ g ∈ s.node.groups, g.inMap = true ∧ ∃ x ∈ g.watchers, x.initialized = true ∧
      inRange x.lo x.hi Demo.kb = true) ∧
    ∀ s', NSteps s s' → ∀ e ∈ s'.node.published, e.kv.modRev ≠ 8 := by
  obtain ⟨w, n, h, hP⟩ := (NScenario.mk Demo.setup 4
    [.pollStart, .pollExec .ok, .pollDone, .openGroup, .watch 0 1 [0x2f] [0x30] 0,
     .pollStart, .pollExec (.fail .deadline), .pollDone, .calls [(.txn true (deleteTxn Demo.kb 4), oks 1)]]).check
    (fun w n => (w.hist.any fun c => decide (c.rev = 8) && decide (c.key = Demo.kb)) &&
      (n.groups.any fun g => g.inMap && g.watchers.any fun x => x.initialized && inRange x.lo x.hi Demo.kb) &&
      (match n.poll with | .dead => true | _ => false) &&
      n.published.all fun e => decide (e.kv.modRev ≠ 8)) (by decide +kernel)
  simp only [List.any_eq_true, List.all_eq_true, Bool.and_eq_true, decide_eq_true_eq] at hP
  obtain ⟨⟨⟨h1, h2⟩, h3⟩, h4⟩ := hP
  refine ⟨_, h, h1, h2, fun s' st e he => ?_⟩
  have hd : n.poll = .dead := by cases hp : n.poll <;> rw [hp] at h3 <;> simp_all
  have := dead_forever st hd
  rw [this.2.1] at he
  exact h4 e he

/-- Witness for `C37_survives_partial`: a query that fails with an error other than a timeout. -/
example : ∃ s, NReachable s ∧ s.node.poll = .querying (.ret (.error (.db .other))) := by
  have : ∃ w n, NReachable ⟨⟨w, []⟩, n⟩ ∧ (match n.poll with | .querying (.ret (.error (.db .other))) => true | _ => false) = true :=
    (NScenario.mk Demo.setup 4 [.pollStart, .pollExec (.fail .busy), .pollExec (.fail .other)]).check
    (fun _ n => match n.poll with | .querying (.ret (.error (.db .other))) => true | _ => false) (by decide +kernel)
  obtain ⟨w, n, h, hP⟩ := this
  refine ⟨_, h, ?_⟩
  change n.poll = _
  split at hP
  · assumption
  · cases hP

end Verif
