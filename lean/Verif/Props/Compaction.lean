import Verif.Props.Reads
import Verif.Lemmas.CompactRun
import Verif.Lemmas.Stmts
/-!
# Properties of compaction: C13–C19
-/

namespace Verif

/-! ## C13 Compaction is invisible at and above the compact revision -/

/-- A read at revision `r`, a complete or incomplete compaction run with any leader answers and any faults,
any other activity, and the same read again: same keys, same `more`, same `count`, as long as `r` is not below
the compact revision at the end. -/
theorem C13_same_answer {s s₁ s₂ s₃ s' : Sys} {v1 v1' : Bool} {req : RangeReq} {t t' u : List Obs}
    {resp resp' : RangeResp} {leader : Nat → Option Bool} {res : Except ApiErr Unit} (hs : Reachable s)
    (h0 : req.revision ≠ 0) (hle : req.revision ≤ s.world.hist.top)
    (hr : Run s (Bridge.range v1 req) t (.ok resp) s₁)
    (hcomp : Run s₁ (Backend.doCompact leader) u res s₂) (hmid : Steps s₂ s₃)
    (hr' : Run s₃ (Bridge.range v1' req) t' (.ok resp') s') (hnt : NoTrunc t) (hnt' : NoTrunc t')
    (hc : s'.world.db.compactRev ≤ req.revision) :
    resp'.kvs = resp.kvs ∧ resp'.more = resp.more ∧ resp'.count = resp.count := by
  obtain ⟨hp, f, i₁⟩ := range_facts hs hr
  obtain ⟨_, fc, i₂⟩ := run_facts hcomp i₁ (wp_safe (wp_doCompact i₁.inv leader))
  obtain ⟨i₃, hx⟩ := i₂.steps hmid
  obtain ⟨hp', f', i'⟩ := run_facts hr' i₃ (safe_range i₃.inv v1' req)
  have x1 := f.total.top
  have hx1 := fc.total.trans hx
  have x2 := hx1.top
  have x3 := hx1.trans f'.total
  obtain ⟨_, _, _, q, _, hq, _, _, _, hfull⟩ := range_spec f hp
  have hqr : q = req.revision := (hq h0 hle).1
  rw [hqr] at hfull
  obtain ⟨full, ha, a1, a2, a3⟩ := hfull hnt (by have := x3.cr; omega)
  obtain ⟨_, _, _, q', _, hq', _, _, _, hfull'⟩ := range_spec f' hp'
  have hqr' : q' = req.revision := (hq' h0 (by omega)).1
  rw [hqr'] at hfull'
  obtain ⟨full', ha', b1, b2, b3⟩ := hfull' hnt' hc
  have hsame : Answers s'.world.hist req.revision req.key req.rangeEnd full := by
    refine ⟨ha.1, fun kv => ?_⟩
    rw [ha.2 kv, x3.at (by omega)]
  have := Answers.unique hsame ha'
  subst this
  by_cases hre : req.rangeEnd = []
  · obtain ⟨c1, c2, c3⟩ := a1 hre
    obtain ⟨d1, d2, d3⟩ := b1 hre
    exact ⟨d1.trans c1.symm, d2.trans c2.symm, d3.trans c3.symm⟩
  · cases hco : req.countOnly with
    | true =>
      obtain ⟨c1, c2, c3⟩ := a2 hre hco
      obtain ⟨d1, d2, d3⟩ := b2 hre hco
      exact ⟨d1.trans c1.symm, d2.trans c2.symm, d3.trans c3.symm⟩
    | false =>
      obtain ⟨c1, c2, c3⟩ := a3 hre hco
      obtain ⟨d1, d2, d3⟩ := b3 hre hco
      refine ⟨d1.trans c1.symm, Bool.eq_iff_iff.2 (d2.trans c2.symm), ?_⟩
      exact (d3 (Or.inr (Or.inl (by omega)))).trans (c3 (Or.inr (Or.inl hle))).symm

/-- A compaction run itself commits no write, except that on a database without compaction marker it creates
the marker. -/
theorem C13_compaction_commits_nothing {s s' : Sys} {leader : Nat → Option Bool} {t : List Obs}
    {res : Except ApiErr Unit} (hs : Reachable s) (hr : Run s (Backend.doCompact leader) t res s') :
    ∀ ob ∈ t, ob.post.hist = ob.pre.hist ∨ (ob.pre.hist.now compactRevKey = none ∧
      ob.post.hist = ob.pre.hist ++ [⟨ob.pre.hist.top + 1, compactRevKey, some ([], 0)⟩]) := by
  obtain ⟨hp, f, _⟩ := run_facts hr hs.sysInv (wp_safe (wp_doCompact hs.inv leader))
  intro ob hob
  obtain ⟨eff, hk, e⟩ := path_allStmts hp (all_doCompact leader) ob hob
  rw [e]
  exact compactKind_commits (f.pre ob hob).inv hk ob.out

/-- A history with compaction work: after `raceSetup`, `/a` has versions 3 and 4 and there are 106 revisions,
so the run compacts up to revision 6. Reading at 6 gives the same before and after. -/
example :
    let w := runCalls raceSetup World.init
    let w' := runCalls [(.doCompact fun _ => some true, oks 20)] w
    w.db.compactRev = 0 ∧ w'.db.compactRev = 6 ∧ w.db.rows.length = 106 ∧ w'.db.rows.length = 105 ∧
    (runSched [.me .ok, .me .ok] (Bridge.range true { key := Demo.ka, revision := 6 }) w).map (·.2.1)
      = (runSched [.me .ok, .me .ok] (Bridge.range true { key := Demo.ka, revision := 6 }) w').map (·.2.1) := by
  decide +kernel

/-! ## C14 Compaction never resurrects a deleted key -/

/-- If key `k` does not exist at revision `d`, then whatever happens afterwards (compactions at any point, with
any bounds and faults, even during the read), a key-value for `k` returned by a read at a revision `≥ d` was
created after `d`: its create revision is the revision of a put on `k` committed after `d`. -/
theorem C14_no_resurrection {s s₁ s' : Sys} {v1 : Bool} {req : RangeReq} {t : List Obs} {resp : RangeResp}
    {d : Int} {k : Bytes} (hs : Reachable s) (hd : d ≤ s.world.hist.top) (hdel : s.world.hist.at d k = none)
    (hmid : Steps s s₁) (hr : Run s₁ (Bridge.range v1 req) t (.ok resp) s')
    (hrev : req.revision = 0 ∨ (d ≤ req.revision ∧ req.revision ≤ s₁.world.hist.top)) :
    ∀ kv ∈ resp.kvs, kv.key = k → d < kv.createRev ∧
      ∃ c ∈ s'.world.hist, c.key = k ∧ c.rev = kv.createRev ∧ c.write ≠ none := by
  obtain ⟨i₁, hx⟩ := hs.sysInv.steps hmid
  obtain ⟨hp, f, i'⟩ := run_facts hr i₁ (safe_range i₁.inv v1 req)
  obtain ⟨_, q, hq0, hq1, _, hall⟩ := range_sound f hp
  intro kv hkv hkey
  obtain ⟨_, hat⟩ := hall kv hkv
  have hxx := hx.trans f.total
  have hdq : d ≤ q := by
    have := hx.top
    rcases hrev with h | ⟨h, h'⟩
    · have := hq0 h; omega
    · by_cases h0 : req.revision = 0
      · have := hq0 h0; omega
      · have := hq1 h0 h'; omega
  rw [hkey] at hat
  have hat0 : s'.world.hist.at d k = none := by rw [hxx.at hd]; exact hdel
  obtain ⟨c, hc, hck, hcr, hcw, hlo, _⟩ := createRev_commit i'.inv.wf hat
  refine ⟨?_, c, hc, hck, hcr, hcw⟩
  -- were the creation at or before `d`, the key would exist at `d`
  apply Classical.byContradiction
  intro hn
  exact hlo d (by omega) hdq hat0

/-- Witness: `/c` was deleted at revision 7 of the demo history and re-created at revision 8. -/
example :
    let w := runCalls [(.txn true (createTxn Demo.kc [7] 0), oks 1)] Demo.world
    Demo.world.hist.at 7 Demo.kc = none ∧
    ((runSched [.me .ok, .me .ok] (Bridge.range true { key := Demo.kc }) w).map
      fun x => x.2.1.map (fun r => r.kvs.map (·.createRev))) = some (.ok [8]) := by decide +kernel

/-! ## C15 Compaction is safe under any interleaving and stale bounds -/

/-- At every instant of every execution, with any number of compaction runs in flight on any nodes, both list
queries executed on the stored table give exactly the state at every revision from the compact revision on. -/
theorem C15_nothing_lost {s : Sys} (hs : Reachable s) {r : Int} (hr : s.world.db.compactRev ≤ r) (lo hi : Bytes) :
    IsListing s.world.hist r lo hi ((listSQL s.world.db lo hi r 0).map scanKeyValue) ∧
    IsListing s.world.hist r lo hi ((listSqlV1_0 s.world.db lo hi r 0).map scanKeyValue) := by
  have h := hs.inv.listing hr lo hi
  have e2 : listSqlV1_0 s.world.db lo hi r 0 = maxkvV1 s.world.db lo hi r := by
    have := selList_eq hs.inv.unique true lo hi r 0
    simpa [limitBy] using this
  have e1 : listSQL s.world.db lo hi r 0 = maxkvV1 s.world.db lo hi r := by
    rw [C12_list_queries_agree hs]; exact e2
  rw [e1, e2]
  exact ⟨h, h⟩

/-- The compaction transaction itself, with bounds read at any earlier time (`start` was the compact revision
then, `stop` was 100 behind the current revision then): at every revision from the new compact revision on the
table still answers exactly as before. -/
theorem C15_stale_bounds {s s' : Sys} (hs : Reachable s) (hmid : Steps s s') (hm : s.world.db.markers ≠ [])
    {stop : Int} (hstop : stop ≤ s.world.hist.top - 100) {r : Int} (lo hi : Bytes)
    (hr : max s'.world.db.compactRev stop ≤ r) :
    let db' := tryCompactTx s'.world.db s.world.db.compactRev stop
    db'.compactRev = max s'.world.db.compactRev stop ∧
    (listSQL db' lo hi r 0).map scanKeyValue = (listSQL s'.world.db lo hi r 0).map scanKeyValue := by
  intro db'
  obtain ⟨i', hx⟩ := hs.sysInv.steps hmid
  have hcr := tryCompact_compactRev (start := s.world.db.compactRev) (stop := stop) i'.inv (hx.mrk hm)
  have hinv := i'.inv.tryCompact (start := s.world.db.compactRev) (stop := stop) (hx.mrk hm) hx.cr
    (by have := hx.top; omega)
  refine ⟨hcr, ?_⟩
  have e : ∀ {w : World}, Inv w → listSQL w.db lo hi r 0 = maxkvV1 w.db lo hi r := by
    intro w i
    have := selList_eq i.unique false lo hi r 0
    simpa [limitBy] using this
  have h1 := hinv.listing (rev := r) (by simp only; omega) lo hi
  have h2 := i'.inv.listing (rev := r) (by omega) lo hi
  have e1 := e hinv
  have e2 := e i'.inv
  rw [e2]
  change (listSQL (tryCompactTx s'.world.db s.world.db.compactRev stop) lo hi r 0).map scanKeyValue = _
  rw [e1]
  exact IsListing.unique h1 h2

/-- Two nodes compact at the same time: the first has read its bounds when the second runs completely. -/
example : ∃ s s' t, Reachable s ∧ Run s (Backend.doCompact fun _ => none) t (.ok ()) s' ∧
    s'.world.db.compactRev = 16 := by
  obtain ⟨s, s', t, a, h1, h2, _, h4⟩ := Scenario.check
    ⟨raceSetup, [.me .ok, .me .ok, .me .ok,
      .env ((List.range 10).map fun i => (.txn true (createTxn [0x31, UInt8.ofNat i] [0] 0), oks 1)),
      .me .ok, .env [(.doCompact fun _ => some true, oks 20)], .me .ok],
      Backend.doCompact fun _ => none⟩
    (fun _ a w => decide (a = .ok ()) && decide (w.db.compactRev = 16))
    (by decide +kernel) (by decide +kernel)
  rw [Bool.and_eq_true, decide_eq_true_eq, decide_eq_true_eq] at h4
  exact ⟨s, s', t, h1, by rw [← h4.1]; exact h2, h4.2⟩

/-! ## C16 Compact revision only advances and keeps the last 100 revisions -/

theorem C16_only_advances {s s' : Sys} (hs : Reachable s) (h : Steps s s') :
    s.world.db.compactRev ≤ s'.world.db.compactRev := ((hs.sysInv.steps h).2).cr

theorem C16_at_least_100_behind {s : Sys} (hs : Reachable s) :
    0 ≤ s.world.db.compactRev ∧
    (s.world.db.compactRev = 0 ∨ s.world.db.compactRev + 100 ≤ s.world.hist.top) :=
  ⟨hs.inv.nonneg, hs.inv.bound⟩

/-- A read at one of the last 100 revisions (as of the end of the call) is never refused as compacted, and
when its result set is delivered completely it is exact. -/
theorem C16_last_100_readable {s s' : Sys} {v1 : Bool} {req : RangeReq} {t : List Obs}
    {a : Except ApiErr RangeResp} (hs : Reachable s) (hr : Run s (Bridge.range v1 req) t a s')
    (h1 : 0 < req.revision) (h2 : req.revision ≤ s.world.hist.top)
    (h3 : s'.world.hist.top ≤ req.revision + 100) :
    a ≠ .error .compacted ∧
    ∀ resp, a = .ok resp → NoTrunc t → req.rangeEnd ≠ [] → req.countOnly = false → req.limit ≤ 0 →
      Answers s'.world.hist req.revision req.key req.rangeEnd resp.kvs := by
  obtain ⟨hp, f, i'⟩ := range_facts hs hr
  have hb := i'.inv.bound
  constructor
  · intro e
    subst e
    rcases range_error f hp with ⟨d, e⟩ | ⟨e, _⟩ | ⟨_, _, ob, hob, _, hlt⟩ | ⟨_, h0, _⟩
    · cases e
    · cases e
    · have := ((f.step ob hob).trans (f.post ob hob)).cr
      omega
    · omega
  · intro resp e hnt hre hco hlim
    subst e
    obtain ⟨_, _, _, q, _, hq, _, _, _, hfull⟩ := range_spec f hp
    have hqr : q = req.revision := (hq (by omega) h2).1
    rw [hqr] at hfull
    obtain ⟨full, ha, _, _, a3⟩ := hfull hnt (by omega)
    obtain ⟨c1, _, _⟩ := a3 hre hco
    rw [c1]
    unfold takeIf
    rw [if_neg (by omega)]
    exact ha

/-- Witness: 106 revisions, compacted to 6, revision 6 still readable. -/
example :
    let w' := runCalls [(.doCompact fun _ => some true, oks 20)] (runCalls raceSetup World.init)
    w'.hist.top = 106 ∧ w'.db.compactRev = 6 ∧
    ((runSched [.me .ok, .me .ok] (Bridge.range true { key := [0x2f], rangeEnd := [0x30], revision := 6 }) w').map
      fun x => x.2.1.map (fun r => r.kvs.map (·.modRev))) = some (.ok [4, 1]) := by decide +kernel

/-! ## C17 Compaction reclaims everything it may -/

/-- After a compaction run that was not skipped by the leader check and reported no error, the compact
revision is at least 100 behind what the current revision was when the run started. -/
theorem C17_target_reached {s s' : Sys} {leader : Nat → Option Bool} {t : List Obs} (hs : Reachable s)
    (hl : ∀ n, leader n ≠ some false) (hr : Run s (Backend.doCompact leader) t (.ok ()) s') :
    s.world.hist.top - 100 ≤ s'.world.db.compactRev ∧
    (s'.world.hist.top = s.world.hist.top → s.world.db.compactRev ≤ s.world.hist.top - 100 →
      s'.world.db.compactRev = s.world.hist.top - 100 ∨ s'.world.db.compactRev = 0) := by
  have h := run_wp hr hs.sysInv (Ext.refl hs.inv) (wp_doCompact_done hs.inv hl)
    (fun a w w' h hx => ⟨h.1.trans hx, fun e => by have := h.2 e; have := hx.cr; omega⟩)
  have h1 := h.2 rfl
  refine ⟨h1, fun e _ => ?_⟩
  rcases h.1.inv.bound with hb | hb
  · exact Or.inr hb
  · left; omega

/-- A follower does not compact: in a run that is skipped by the leader check, no statement changes the compact
revision, whatever other nodes do in between. -/
theorem C17_follower_does_not_compact {s s' : Sys} {t : List Obs} {res : Except ApiErr Unit} (hs : Reachable s)
    (hr : Run s (Backend.doCompact fun _ => some false) t res s') :
    ∀ ob ∈ t, ob.post.db.compactRev = ob.pre.db.compactRev := by
  obtain ⟨hp, f, _⟩ := run_facts hr hs.sysInv (wp_safe (wp_doCompact hs.inv _))
  intro ob hob
  obtain ⟨eff, hk, e⟩ := path_allStmts hp all_doCompact_follower ob hob
  refine Int.le_antisymm ?_ (f.step ob hob).cr
  have i := (f.pre ob hob).inv
  rw [e]
  cases ho : ob.out.applied with
  | false => simp [World.exec, ho]
  | true =>
    have e' : (ob.pre.exec eff ob.out).db = eff ob.pre.db := by simp [World.exec, ho]
    rw [e']
    cases hk with
    | query => exact Int.le_refl _
    | create =>
      rcases i.createSQL_spec compactRevKey 0 [] with ⟨h, r, hg, hn, _, e⟩ | ⟨_, e⟩
      · have hm : ob.pre.db.markers = [] := by
          unfold DB.markers
          rw [List.filter_eq_nil_iff]
          intro r hr hn
          obtain ⟨c, hc, ec⟩ := (i.rowOk r hr).1
          exact i.marker_now h c hc (by rw [ec]; simpa [commitOf] using hn)
        have e2 : (ob.pre.db.insert r).markers = [{ r with id := ob.pre.db.nextId }] := by
          unfold DB.markers DB.insert at *
          rw [List.filter_append, hm]
          simp [hn]
        simp only [e]
        rw [compactRev_single e2, compactRev_nil hm]
        exact Int.le_of_eq (hg.mark hn).2.1
      · simp only [e]; exact Int.le_refl _
    | deleteRev rev =>
      have hsub : (deleteRevSQL ob.pre.db rev).1.markers = ob.pre.db.markers.filter fun r => !(r.id == rev) := by
        unfold DB.markers deleteRevSQL
        simp [List.filter_filter, Bool.and_comm]
      rcases i.markers_cases with h | ⟨m, h⟩
      · rw [h] at hsub
        exact Int.le_of_eq ((compactRev_nil hsub).trans (compactRev_nil h).symm)
      · rw [h] at hsub
        by_cases hid : m.id = rev
        · simp [hid] at hsub
          rw [compactRev_nil hsub]
          exact i.nonneg
        · simp [hid] at hsub
          exact Int.le_of_eq ((compactRev_single hsub).trans (compactRev_single h).symm)

/-- Witness: the store of `raceSetup` has work for the compactor (the leader compacts it to revision 6), and a follower
leaves it alone. -/
example :
    let w := runCalls raceSetup World.init
    w.db.compactRev = 0 ∧
    (runCalls [(.doCompact fun _ => some false, oks 20)] w).db.compactRev = 0 ∧
    (runCalls [(.doCompact fun _ => some true, oks 20)] w).db.compactRev = 6 := by decide +kernel

/-- At every instant the table holds, at or below the compact revision, exactly one row for each key alive at
the compact revision (the version current then) and nothing else. -/
theorem C17_only_live_rows {s : Sys} (hs : Reachable s) :
    (∀ row ∈ s.world.db.rows, row.id ≤ s.world.db.compactRev →
      row.deleted = false ∧ s.world.hist.at s.world.db.compactRev row.name = some (scanKeyValue row)) ∧
    (∀ k kv, s.world.hist.at s.world.db.compactRev k = some kv →
      ∃ row ∈ s.world.db.rows, row.id ≤ s.world.db.compactRev ∧ row.name = k ∧ scanKeyValue row = kv) ∧
    (∀ a ∈ s.world.db.rows, ∀ b ∈ s.world.db.rows, a.id ≤ s.world.db.compactRev →
      b.id ≤ s.world.db.compactRev → a.name = b.name → a = b) := by
  have i := hs.inv
  have key : ∀ row ∈ s.world.db.rows, row.id ≤ s.world.db.compactRev →
      row.deleted = false ∧ s.world.hist.at s.world.db.compactRev row.name = some (scanKeyValue row) := by
    intro row hrow hle
    rcases i.only row hrow with h | ⟨kv, hkv, e⟩
    · omega
    · obtain ⟨r, hr, h1, h2, h3, h4, h5⟩ := i.at_row (Int.le_refl _) hkv
      have hid : r.id = row.id := by rw [← e, ← h1]; rfl
      have := unique_id i.unique hr hrow hid
      subst this
      exact ⟨h4, by rw [hkv, h1]⟩
  refine ⟨key, ?_, ?_⟩
  · intro k kv hkv
    obtain ⟨r, hr, h1, h2, h3, _⟩ := i.at_row (Int.le_refl _) hkv
    exact ⟨r, hr, h3, h2, h1⟩
  · intro a ha b hb hla hlb hn
    have h1 := (key a ha hla).2
    have h2 := (key b hb hlb).2
    rw [hn, h2] at h1
    exact unique_id i.unique ha hb (congrArg KV.modRev (Option.some.inj h1)).symm

/-! ## C18 Rows written by the old create bug do not harm compaction -/

/-- Compaction never looks at the previous-revision column of rows of newly created keys: on any table
whatsoever, replacing that column by arbitrary numbers `g` before compaction or after it is the same. -/
theorem C18_prev_of_created_ignored (db : DB) (g : Row → Int) (start stop : Int) :
    let f := fun r : Row => if r.created && !(r.name == compactRevKey) then { r with prevRevision := g r } else r
    tryCompactTx { db with rows := db.rows.map f } start stop
      = { tryCompactTx db start stop with rows := (tryCompactTx db start stop).rows.map f } := by
  intro f
  have fid : ∀ r, (f r).id = r.id := by intro r; simp only [f]; split <;> rfl
  have fname : ∀ r, (f r).name = r.name := by intro r; simp only [f]; split <;> rfl
  have fdel : ∀ r, (f r).deleted = r.deleted := by intro r; simp only [f]; split <;> rfl
  have fcre : ∀ r, (f r).created = r.created := by intro r; simp only [f]; split <;> rfl
  have e1 : compactSupersededSQL { db with rows := db.rows.map f } start stop
      = { compactSupersededSQL db start stop with rows := (compactSupersededSQL db start stop).rows.map f } := by
    unfold compactSupersededSQL
    simp only [DB.mk.injEq, and_true]
    have hids : ((db.rows.map f).filter fun r =>
        !(r.name == compactRevKey) && !r.created && !(r.prevRevision == 0)
          && decide (start < r.id) && decide (r.id ≤ stop)).map (·.prevRevision)
        = (db.rows.filter fun r =>
        !(r.name == compactRevKey) && !r.created && !(r.prevRevision == 0)
          && decide (start < r.id) && decide (r.id ≤ stop)).map (·.prevRevision) := by
      rw [List.filter_map, List.map_map]
      have hf : ∀ r : Row, r.created = false → f r = r := by
        intro r h; simp only [f, h, Bool.false_and]; rfl
      have hp : ∀ r : Row, ((fun r : Row => !(r.name == compactRevKey) && !r.created && !(r.prevRevision == 0)
          && decide (start < r.id) && decide (r.id ≤ stop)) ∘ f) r
          = (!(r.name == compactRevKey) && !r.created && !(r.prevRevision == 0)
          && decide (start < r.id) && decide (r.id ≤ stop)) := by
        intro r
        cases hc : r.created with
        | false => simp only [Function.comp, hf r hc, hc]
        | true => simp only [Function.comp, fcre r, hc, Bool.not_true, Bool.and_false, Bool.false_and]
      rw [List.filter_congr (fun r _ => hp r)]
      apply List.map_congr_left
      intro r hr
      rw [List.mem_filter] at hr
      cases hc : r.created with
      | false => simp only [Function.comp, hf r hc]
      | true => rw [hc] at hr; simp at hr
    rw [hids, List.filter_map]
    congr 1
    apply List.filter_congr
    intro r _
    simp only [Function.comp, fid]
  unfold tryCompactTx
  rw [e1]
  generalize compactSupersededSQL db start stop = d
  unfold updateCompactSQL compactTombstonesSQL
  simp only [DB.mk.injEq, and_true]
  rw [List.filter_map, List.map_map, List.map_map]
  have : (d.rows.filter ((fun r => !(r.deleted && decide (start < r.id) && decide (r.id ≤ stop))) ∘ f))
      = d.rows.filter fun r => !(r.deleted && decide (start < r.id) && decide (r.id ≤ stop)) := by
    apply List.filter_congr
    intro r _
    simp only [Function.comp, fid, fdel]
  rw [this]
  apply List.map_congr_left
  intro r _
  simp only [Function.comp, fname]
  by_cases hn : r.name = compactRevKey
  · have : f r = r := by simp [f, hn]
    rw [this]
    simp [hn, f]
  · simp only [beq_eq_false_iff_ne.2 hn, Bool.false_eq_true, ↓reduceIte]

/-- With such rows in the table (a peer running the old code creates `key` with an arbitrary previous
revision) every read guarantee still holds, because `Reachable` includes them: here spelled out for a store in
which the old peer acts between any two moments. -/
theorem C18_old_peers_harmless {s s₁ s₂ : Sys} {key value : Bytes} {lease prev : Int} {t : List Obs}
    {res : Except ApiErr ExecResult} (hs : Reachable s) (hk : key ≠ compactRevKey)
    (hr : Run s (execute fun db => legacyCreateSQL db key lease value prev) t res s₁) (hmid : Steps s₁ s₂)
    {r : Int} (hrev : s₂.world.db.compactRev ≤ r) (lo hi : Bytes) :
    IsListing s₂.world.hist r lo hi ((listSqlV1_0 s₂.world.db lo hi r 0).map scanKeyValue) ∧
    (∀ c ∈ s.world.hist, c ∈ s₂.world.hist) := by
  have hsafe : Safe (execute fun db => legacyCreateSQL db key lease value prev) s.world := by
    apply wp_executeLoop _ hs.inv
    · intro w' hw' o; exact hw'.inv.ext_legacyCreate hk lease value prev o
    · intro _ _ _ _; trivial
    · intro _ _ _; trivial
  obtain ⟨_, f, i₁⟩ := run_facts hr hs.sysInv hsafe
  obtain ⟨i₂, hx⟩ := i₁.steps hmid
  have h := i₂.inv.listing hrev lo hi
  have e2 : listSqlV1_0 s₂.world.db lo hi r 0 = maxkvV1 s₂.world.db lo hi r := by
    have := selList_eq i₂.inv.unique true lo hi r 0
    simpa [limitBy] using this
  rw [e2]
  exact ⟨h, fun c hc => (f.total.trans hx).mem hc⟩

/-- Witness: an old peer creates `/c` with previous revision 3, which is the row of `/a`; 102 more keys are
created and compaction runs past both rows: `/a` survives. -/
example :
    let cs : List (Call × List Outcome) :=
      [(.start, oks 6), (.txn true (createTxn Demo.ka [1] 0), oks 1), (.legacyCreate Demo.kc [5] 0 3, oks 1)]
      ++ (List.range 102).map fun i => (.txn true (createTxn [0x30, UInt8.ofNat i] [0] 0), oks 1)
    let w := runCalls [(.doCompact fun _ => some true, oks 20)] (runCalls cs World.init)
    w.db.compactRev = 6 ∧ (w.db.rows.filter fun r => r.name == Demo.kc).map (·.prevRevision) = [3] ∧
    ((runSched [.me .ok, .me .ok] (Bridge.range true { key := Demo.ka }) w).map
      fun x => x.2.1.map (fun r => r.kvs.map (·.modRev))) = some (.ok [3]) := by decide +kernel

end Verif
