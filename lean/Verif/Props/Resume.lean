import Verif.Props.Polling
/-!
# C77: a client that lists once and then watches, reconnecting any number of times, always holds a true copy
-/

namespace Verif

/-- What a list-and-watch client holds: a revision and its copy of the store. -/
structure Cache where
  rev : Int
  st : Bytes → Option KV

/-- The client's revision after some events: that of the last one. -/
def lastRev (r : Int) (es : List Event) : Int := (es.getLast?.map (·.kv.modRev)).getD r

/-- The client applies what it has received on a watch; events it already knows are ignored. -/
def Cache.feed (c : Cache) (es : List Event) : Cache :=
  { rev := lastRev c.rev (fromRev (c.rev + 1) es), st := applyEvents (fromRev (c.rev + 1) es) c.st }

/-- `Cached lo hi h c`: when the history of the store is `h`, a client that listed `[lo, hi)` once and then watched it,
through any nodes and with any number of interruptions, may hold `c`.
* `list`: it has read the range (latest revision, no limit); the cursor did not break and no compaction overtook the read.
* `watch`: some time later it has watched the range from the revision after its own on some node, its watch was accepted,
  and it has received some of the updates; the connection may break after any event. The node has not been overtaken by
  compaction, and the initial query of the watch not reached by it (the failures of C30 and C33). -/
inductive Cached (lo hi : Bytes) : History → Cache → Prop where
  | list {s s' : Sys} {v1 : Bool} {t : List Obs} {resp : RangeResp} (hs : Reachable s)
      (hr : Run s (Bridge.range v1 { key := lo, rangeEnd := hi }) t (.ok resp) s') (hnt : NoTrunc t)
      (hc : s'.world.db.compactRev ≤ resp.header) : Cached lo hi s'.world.hist ⟨resp.header, ofListing resp.kvs⟩
  | watch {h : History} {c : Cache} (prev : Cached lo hi h c) {s : NSys} (hs : NReachable s)
      (later : s.sys.world.hist.Extends h) {g : Group} (hg : g ∈ s.node.groups) {x : Watcher} (hx : x ∈ g.watchers)
      (hlo : x.lo = lo) (hhi : x.hi = hi) (start : x.start = c.rev + 1) (answered : x.initialized = true)
      (kept : g.dropped = false ∨ g.after = .stopped) (ho : s.node.overtaken = false) (hl : x.lossy = false)
      {es : List Event} (got : es <+: sentTo g.received x.id) : Cached lo hi s.sys.world.hist (c.feed es)

/-- An initial part of a strictly ascending list is what lies at or below its last element. -/
theorem prefix_eq_upTo {es l : List Event} (hp : es <+: l) (hs : l.Pairwise fun a b => a.kv.modRev < b.kv.modRev) {r : Int}
    (hr : ∀ e ∈ l, r < e.kv.modRev) : es = upTo (lastRev r es) l := by
  obtain ⟨t, rfl⟩ := hp
  rw [List.pairwise_append] at hs
  obtain ⟨s1, _, s3⟩ := hs
  unfold upTo
  rw [List.filter_append]
  have h1 : es.filter (fun e => decide (e.kv.modRev ≤ lastRev r es)) = es := by
    rw [List.filter_eq_self]
    intro e he
    simp only [decide_eq_true_eq]
    rcases List.eq_nil_or_concat es with rfl | ⟨es', d, rfl⟩
    · cases he
    · simp only [List.concat_eq_append] at *
      unfold lastRev
      simp only [List.getLast?_append, List.getLast?_singleton, Option.some_or, Option.map_some, Option.getD_some]
      rcases List.mem_append.1 he with h | h
      · have := (List.pairwise_append.1 s1).2.2 e h d (by simp)
        omega
      · rw [List.mem_singleton.1 h]; omega
  have h2 : t.filter (fun e => decide (e.kv.modRev ≤ lastRev r es)) = [] := by
    rw [List.filter_eq_nil_iff]
    intro e he
    simp only [decide_eq_true_eq]
    unfold lastRev
    cases hg : es.getLast? with
    | none =>
      have := hr e (by simp [he])
      simp; omega
    | some d =>
      have := s3 d (List.mem_of_getLast? hg) e he
      simp; omega
  rw [h1, h2, List.append_nil]

theorem lastRev_ge {r : Int} {es : List Event} (h : ∀ e ∈ es, r < e.kv.modRev) : r ≤ lastRev r es := by
  unfold lastRev
  cases hg : es.getLast? with
  | none => simp
  | some d => have := h d (List.mem_of_getLast? hg); simp; omega

theorem lastRev_le {r b : Int} {es : List Event} (h : ∀ e ∈ es, e.kv.modRev ≤ b) (hr : r ≤ b) : lastRev r es ≤ b := by
  unfold lastRev
  cases hg : es.getLast? with
  | none => simpa using hr
  | some d => have := h d (List.mem_of_getLast? hg); simpa using this

theorem fromRev_prefix {r : Int} {a b : List Event} (h : a <+: b) : fromRev r a <+: fromRev r b := by
  obtain ⟨t, rfl⟩ := h
  exact ⟨fromRev r t, by simp [fromRev]⟩

/-- What the client holds is exactly the part of the store in its range as of the revision it believes to be at, after
any number of interruptions on any nodes; that revision exists. -/
theorem C77_resumed_copy_is_exact {lo hi : Bytes} (hne : hi ≠ []) {h : History} {c : Cache} (hc : Cached lo hi h c) :
    0 ≤ c.rev ∧ c.rev ≤ h.top ∧ ∀ k, inRange lo hi k = true → c.st k = h.at c.rev k := by
  induction hc with
  | @list s s' v1 t resp hs hr hnt hcr =>
    obtain ⟨⟨h1, h2⟩, ha, _⟩ := C22_unlimited_list_is_snapshot hs hr hnt hcr
    have wf : s'.world.hist.Wf := (range_facts hs hr).2.1.total.inv.wf
    have h0 : (0:Int) ≤ s.world.hist.top := top_nonneg hs.inv.wf
    refine ⟨by simp only; omega, h2, fun k hk => ?_⟩
    refine ofListing_eq wf ⟨ha.1, fun kv => ?_⟩ hk
    rw [ha.2 kv]
    unfold Wanted inRange
    rw [if_neg hne]
    simp
  | @watch h c prev s hs later g hg x hx hlo hhi start answered kept ho hl es got ih =>
    obtain ⟨ih0, ih1, ih2⟩ := ih
    subst hlo hhi
    have i := hs.ninv
    have wf := i.sys.inv.wf
    obtain ⟨rest, r1, r2, _⟩ := ((i.groups g hg).ok x hx).full ho hl kept
    have hf : x.from ≤ c.rev := by
      unfold Watcher.from
      rw [if_pos ⟨answered, by omega⟩]
      omega
    have hcur : g.currentRevision ≤ s.sys.world.hist.top := Int.le_trans (i.groups g hg).cur i.le
    have htop : h.top ≤ s.sys.world.hist.top := by
      obtain ⟨t', ht⟩ := later
      rw [ht] at wf ⊢
      exact top_append_le wf
    have hat : ∀ k, s.sys.world.hist.at c.rev k = h.at c.rev k := by
      intro k
      obtain ⟨t', ht⟩ := later
      rw [ht] at wf ⊢
      exact at_ext wf ih1 k
    -- everything newer than the client
    have f1 := r1.fromRev (r := c.rev + 1)
    have f2 := r2.fromRev (r := c.rev + 1) (by omega)
    have hpre : fromRev (c.rev + 1) es <+: fromRev (c.rev + 1) (g.sent x.id ++ rest) := by
      refine fromRev_prefix (got.trans ?_)
      unfold Group.sent
      rw [sentTo_append, List.append_assoc]
      exact List.prefix_append _ _
    have hgt : ∀ e ∈ fromRev (c.rev + 1) (g.sent x.id ++ rest), c.rev < e.kv.modRev := by
      intro e he
      have := (f1.mem e he).2.1
      omega
    have hsub : ∀ e ∈ fromRev (c.rev + 1) es, e ∈ fromRev (c.rev + 1) (g.sent x.id ++ rest) := fun e he => hpre.subset he
    have hge := lastRev_ge (r := c.rev) fun e he => hgt e (hsub e he)
    have hle : lastRev c.rev (fromRev (c.rev + 1) es) ≤ s.sys.world.hist.top :=
      lastRev_le (fun e he => by have := (f1.mem e (hsub e he)).2.2.1; omega) (by omega)
    refine ⟨by simp only [Cache.feed]; omega, hle, fun k hk => ?_⟩
    simp only [Cache.feed]
    generalize hm : lastRev c.rev (fromRev (c.rev + 1) es) = m at *
    have heq := prefix_eq_upTo hpre f1.asc hgt
    rw [hm] at heq
    rw [heq]
    have s1 : Sound s.sys.world.hist x.range c.rev m (upTo m (fromRev (c.rev + 1) (g.sent x.id ++ rest))) := by
      refine ⟨f1.asc.filter _, fun e he => ?_⟩
      obtain ⟨e1, e2⟩ := List.mem_filter.1 he
      obtain ⟨x1, x2, _, x4⟩ := f1.mem e e1
      exact ⟨x1, by omega, by simpa using e2, x4⟩
    have s2 : Covers s.sys.world.hist x.range c.rev m (upTo m (fromRev (c.rev + 1) (g.sent x.id ++ rest))) := by
      intro d hd hp h1 h2
      have hmc : m ≤ max c.rev g.currentRevision := by
        rw [← hm]
        exact lastRev_le (fun e he => by have := (f1.mem e (hsub e he)).2.2.1; omega) (by omega)
      obtain ⟨e, he, her⟩ := f2 d hd hp (by omega) (by omega)
      exact ⟨e, List.mem_filter.2 ⟨he, by simp; omega⟩, her⟩
    exact applyEvents_stretch wf hge (s1.eventsOf wf s2) hk (by rw [ih2 k hk, hat])

/-- The client never goes back: feeding it never lowers its revision. -/
theorem C77_never_goes_back (c : Cache) (es : List Event) : c.rev ≤ (c.feed es).rev := by
  refine lastRev_ge fun e he => ?_
  have := (List.mem_filter.1 he).2
  simp at this
  omega

/-- The first node: the client watches `/` from revision 8 and gets the delete of `/b`. -/
def resumeDemo1 : NScenario :=
  { setup := Demo.setup, start := 4
    acts := [.pollStart, .pollExec .ok, .pollDone, .openGroup, .watch 0 1 [0x2f] [0x30] 8, .exec 0 .ok, .done 0, .exec 0 .ok,
      .done 0, .calls [(.txn true (deleteTxn Demo.kb 4), oks 1)], .pollStart, .pollExec .ok, .pollDone, .recv 0] }

/-- The second node, after the connection to the first one broke: the client resumes at 9 and gets the creation of `/c`,
which was committed while it was not connected. -/
def resumeDemo2 : NScenario :=
  { setup := Demo.setup ++ [(.txn true (deleteTxn Demo.kb 4), oks 1), (.txn true (createTxn Demo.kc [9] 0), oks 1)], start := 4
    acts := [.pollStart, .pollExec .ok, .pollDone, .openGroup, .watch 0 1 [0x2f] [0x30] 9, .exec 0 .ok, .done 0, .exec 0 .ok,
      .done 0, .pollStart, .pollExec .ok, .pollDone, .recv 0] }

/-- One segment of a concrete run. -/
def segOk (start : Int) (hist added : History) (revs : List Int) (w : World) (n : Node) : Bool :=
  decide (w.hist = hist ++ added) && !n.overtaken && n.groups.any fun g => !g.dropped && g.watchers.any fun x =>
    decide (x.lo = [0x2f]) && decide (x.hi = [0x30]) && decide (x.start = start) && x.initialized && !x.lossy &&
    decide ((sentTo g.received x.id).map (·.kv.modRev) = revs)

theorem segOk_cached {start : Int} {h h' : History} {revs : List Int} {w : World} {n : Node} {c : Cache}
    (hs : NReachable ⟨⟨w, []⟩, n⟩) (hc : Cached [0x2f] [0x30] h c) (hst : c.rev + 1 = start)
    (hok : segOk start h h' revs w n = true) : ∃ es : List Event, es.map (·.kv.modRev) = revs ∧
      Cached [0x2f] [0x30] (h ++ h') (c.feed es) := by
  unfold segOk at hok
  simp only [List.any_eq_true, Bool.and_eq_true, decide_eq_true_eq, Bool.not_eq_true'] at hok
  obtain ⟨⟨h1, h2⟩, g, hg, h3, x, hx, ⟨⟨⟨⟨⟨h4, h5⟩, h6⟩, h7⟩, h8⟩, h9⟩⟩ := hok
  rw [← h1]
  exact ⟨_, h9, .watch hc hs ⟨h', h1⟩ hg hx h4 h5 (by omega) h7 (Or.inl h3) h2 h8 (List.prefix_refl _)⟩

theorem feed_rev (c : Cache) (es : List Event) :
    (c.feed es).rev = (((es.map (·.kv.modRev)).filter fun r => decide (c.rev + 1 ≤ r)).getLast?).getD c.rev := by
  unfold Cache.feed lastRev fromRev
  simp only
  rw [List.filter_map, List.getLast?_map]
  rfl

/-- A client that lists at revision 7 on one node, gets revision 8 from a second one, loses the connection and gets
revision 9 from a third one. -/
example : ∃ h c, Cached [0x2f] [0x30] h c ∧ c.rev = 9 := by
  obtain ⟨s, s', t, a, h1, h2, h3, h4⟩ := (Scenario.mk Demo.setup [.me .ok, .me .ok]
    (Bridge.range true { key := [0x2f], rangeEnd := [0x30] })).check
    (fun t a w => faultless t && decide (w.hist = Demo.world.hist) && match a with
      | .ok r => decide (r.header = 7) && decide (w.db.compactRev ≤ 7) && decide (r.kvs.length = 3)
      | .error _ => false) (by decide +kernel) (by decide +kernel)
  simp only [Bool.and_eq_true, decide_eq_true_eq] at h4
  obtain ⟨⟨h5, h6⟩, h7⟩ := h4
  split at h7
  · rename_i resp
    simp only [Bool.and_eq_true, decide_eq_true_eq] at h7
    have c1 := Cached.list (lo := [0x2f]) (hi := [0x30]) (v1 := true) h1 h2 (faultless_noTrunc h5) (by rw [h7.1.1]; exact h7.1.2)
    rw [h6] at c1
    obtain ⟨w1, n1, hn1, hp1⟩ := resumeDemo1.check (segOk 8 Demo.world.hist [⟨8, Demo.kb, none⟩] [8]) (by decide +kernel)
    obtain ⟨es1, he1, c2⟩ := segOk_cached hn1 c1 (by simp only; omega) hp1
    have hr1 : ((Cache.mk resp.header (ofListing resp.kvs)).feed es1).rev = 8 := by
      rw [feed_rev, he1, h7.1.1]; rfl
    obtain ⟨w2, n2, hn2, hp2⟩ := resumeDemo2.check
      (segOk 9 (Demo.world.hist ++ [⟨8, Demo.kb, none⟩]) [⟨9, Demo.kc, some ([9], 0)⟩] [9]) (by decide +kernel)
    obtain ⟨es2, he2, c3⟩ := segOk_cached hn2 c2 (by omega) hp2
    exact ⟨_, _, c3, by rw [feed_rev, he2, hr1]; rfl⟩
  · cases h7

end Verif
