import Verif.Props.Writes
/-!
# Properties of range requests (C05 – C12, C22, C23, C54, C62 – C64)

Two hypotheses recur.
* `NoTrunc t`: every result set of this call is delivered completely by the database. Without it the code
  returns a prefix as if it were the whole answer (`C64_broken_cursor_counterexample`).
* `s'.world.db.compactRev ≤ r`: revision `r` is still not compacted when the call returns. If compaction
  overtakes the call, the code may omit keys (`C64_compaction_race_counterexample`).
-/

namespace Verif

/-! ## C05 A read at revision `r` returns exactly the store as of `r` -/

/-- Unlimited read at an assigned, uncompacted revision. -/
theorem C05_read_at_revision {s s' : Sys} {v1 : Bool} {req : RangeReq} {t : List Obs} {resp : RangeResp}
    (hs : Reachable s) (hr : Run s (Bridge.range v1 req) t (.ok resp) s') (hnt : NoTrunc t)
    (h0 : req.revision ≠ 0) (hle : req.revision ≤ s.world.hist.top)
    (hc : s'.world.db.compactRev ≤ req.revision)
    (hlim : req.limit ≤ 0) (hco : req.rangeEnd ≠ [] → req.countOnly = false) :
    Answers s'.world.hist req.revision req.key req.rangeEnd resp.kvs := by
  obtain ⟨hp, f, _⟩ := range_facts hs hr
  obtain ⟨_, _, _, q, _, hq, _, _, _, hfull⟩ := range_spec f hp
  obtain ⟨rfl, _⟩ := hq h0 hle
  obtain ⟨full, ha, h1, _, h3⟩ := hfull hnt hc
  by_cases hre : req.rangeEnd = []
  · rw [(h1 hre).1]; exact ha
  · have := (h3 hre (hco hre)).1
    unfold takeIf at this
    rw [if_neg (by omega)] at this
    rw [this]; exact ha

/-- The state at `r` does not depend on when it is looked at: it was already fixed when the call started. -/
theorem C05_state_at_revision_is_fixed {s s' : Sys} (hs : Reachable s) (hst : Steps s s') {r : Int}
    (hle : r ≤ s.world.hist.top) (k : Bytes) : s'.world.hist.at r k = s.world.hist.at r k :=
  (hs.sysInv.steps hst).2.at hle k

/-- Witness: reading `/`..`0` at revision 4 and at revision 6 in the demo system, while another client
writes. -/
example :
    let rd (r : Int) : RangeReq := { key := [0x2f], rangeEnd := [0x30], revision := r }
    ((runSched [.me .ok, .env [(.txn true (deleteTxn Demo.kb 4), oks 1)], .me .ok]
      (Bridge.range true (rd 4)) Demo.world).map fun x => x.2.1.map (·.kvs)) = some (.ok
        [ { key := Demo.ka, value := [1], lease := 0, createRev := 3, modRev := 3 },
          { key := Demo.kb, value := [2], lease := 30, createRev := 4, modRev := 4 },
          { key := healthKey, value := healthValue, lease := 0, createRev := 1, modRev := 1 } ]) ∧
    ((runSched [.me .ok, .me .ok] (Bridge.range false (rd 6)) Demo.world).map
      fun x => x.2.1.map (fun r => (r.kvs.map (·.key), r.header, r.count))) = some (.ok
        ([Demo.ka, Demo.kb, Demo.kc, healthKey], 7, 4)) := by decide +kernel

/-! ## C06 Revision 0 and future revisions read the latest state -/

/-- Revision 0: the answer is the state as of a revision that was current at some instant of the call, and
for an unlimited read that revision is the one in the header. -/
theorem C06_latest {s s' : Sys} {v1 : Bool} {req : RangeReq} {t : List Obs} {resp : RangeResp}
    (hs : Reachable s) (hr : Run s (Bridge.range v1 req) t (.ok resp) s') (hnt : NoTrunc t)
    (h0 : req.revision = 0) (hlim : req.limit ≤ 0) (hco : req.rangeEnd ≠ [] → req.countOnly = false)
    (hc : s'.world.db.compactRev ≤ resp.header) :
    s.world.hist.top ≤ resp.header ∧ resp.header ≤ s'.world.hist.top ∧
    Answers s'.world.hist resp.header req.key req.rangeEnd resp.kvs := by
  obtain ⟨hp, f, _⟩ := range_facts hs hr
  obtain ⟨_, htop, htop', q, _, _, _, hqle, hq, hfull⟩ := range_spec f hp
  refine ⟨htop, htop', ?_⟩
  have hmore : resp.more = false → q = resp.header := by
    intro hm
    rw [hq hm]; unfold effRev; rw [if_pos (Or.inl h0)]
  cases hm : resp.more with
  | false =>
    have hqe := hmore hm
    obtain ⟨full, ha, h1, _, h3⟩ := hfull hnt (by rw [hqe]; exact hc)
    rw [hqe] at ha
    by_cases hre : req.rangeEnd = []
    · rw [(h1 hre).1]; exact ha
    · have := (h3 hre (hco hre)).1
      unfold takeIf at this
      rw [if_neg (by omega)] at this
      rw [this]; exact ha
  | true =>
    -- impossible: an unlimited read never sets `more`
    exfalso
    rcases bridge_range_cases v1 req with ⟨_, e⟩ | ⟨_, e⟩
    · rw [e] at hp
      unfold Limited.range at hp
      split at hp
      · obtain ⟨_, _, ⟨_, _⟩, _, _, h2⟩ := path_andThen_ok hp
        obtain ⟨_, e2⟩ := path_ret h2
        cases e2; cases hm
      · unfold Limited.list at hp
        split at hp
        · obtain ⟨_, _, ⟨_, _⟩, _, _, h2⟩ := path_andThen_ok hp
          obtain ⟨_, e2⟩ := path_ret h2
          cases e2; cases hm
        · obtain ⟨_, _, ⟨_, _⟩, _, _, h2⟩ := path_andThen_ok hp
          rw [if_neg (by omega : ¬ req.limit > 0)] at h2
          simp only at h2
          rw [if_neg (by omega)] at h2
          obtain ⟨_, e2⟩ := path_ret h2
          cases e2; cases hm
    · rw [e] at hp
      obtain ⟨_, hp⟩ := path_ret hp
      cases hp

/-- A revision 0 read is certainly exact if fewer than 100 writes commit during the call. -/
theorem C06_latest_quiet {s s' : Sys} {v1 : Bool} {req : RangeReq} {t : List Obs} {resp : RangeResp}
    (hs : Reachable s) (hr : Run s (Bridge.range v1 req) t (.ok resp) s') (hnt : NoTrunc t)
    (h0 : req.revision = 0) (hlim : req.limit ≤ 0) (hco : req.rangeEnd ≠ [] → req.countOnly = false)
    (hq : s'.world.hist.top < s.world.hist.top + 100) :
    Answers s'.world.hist resp.header req.key req.rangeEnd resp.kvs := by
  obtain ⟨hp, f, i'⟩ := range_facts hs hr
  have htop := (range_spec f hp).2.1
  refine (C06_latest hs hr hnt h0 hlim hco ?_).2.2
  have := top_nonneg hs.inv.wf
  rcases i'.inv.bound with h | h
  · omega
  · omega

/-- Revisions beyond the current one behave like revision 0. -/
theorem C06_future {s s' : Sys} {v1 : Bool} {req : RangeReq} {t : List Obs} {resp : RangeResp}
    (hs : Reachable s) (hr : Run s (Bridge.range v1 req) t (.ok resp) s') (hnt : NoTrunc t)
    (h0 : s'.world.hist.top < req.revision) (hlim : req.limit ≤ 0)
    (hco : req.rangeEnd ≠ [] → req.countOnly = false) (hm : resp.more = false)
    (hc : s'.world.db.compactRev ≤ resp.header) :
    s.world.hist.top ≤ resp.header ∧ resp.header ≤ s'.world.hist.top ∧
    Answers s'.world.hist resp.header req.key req.rangeEnd resp.kvs := by
  obtain ⟨hp, f, _⟩ := range_facts hs hr
  obtain ⟨_, htop, htop', q, _, _, _, hqle, hq, hfull⟩ := range_spec f hp
  refine ⟨htop, htop', ?_⟩
  have hqe : q = resp.header := by
    rw [hq hm]; unfold effRev; rw [if_pos (Or.inr (by omega))]
  obtain ⟨full, ha, h1, _, h3⟩ := hfull hnt (by rw [hqe]; exact hc)
  rw [hqe] at ha
  by_cases hre : req.rangeEnd = []
  · rw [(h1 hre).1]; exact ha
  · have := (h3 hre (hco hre)).1
    unfold takeIf at this
    rw [if_neg (by omega)] at this
    rw [this]; exact ha

/-- Witness: revision 0 and revision 1000 in the demo system. -/
example :
    let rd (r : Int) : RangeReq := { key := [0x2f], rangeEnd := [0x30], revision := r }
    ((runSched [.me .ok, .me .ok] (Bridge.range true (rd 0)) Demo.world).map
      fun x => x.2.1.map (fun r => (r.kvs.map (·.modRev), r.header, r.more))) = some (.ok ([5, 4, 1], 7, false)) ∧
    ((runSched [.me .ok, .me .ok] (Bridge.range true (rd 1000)) Demo.world).map
      fun x => x.2.1.map (fun r => (r.kvs.map (·.modRev), r.header, r.more))) = some (.ok ([5, 4, 1], 7, false)) := by
  decide +kernel

/-! ## C07 Compacted revisions are refused -/

/-- A read at a revision that is compacted when the call starts never succeeds. -/
theorem C07_compacted_never_served {s s' : Sys} {v1 : Bool} {req : RangeReq} {t : List Obs}
    {a : Except ApiErr RangeResp} (hs : Reachable s) (hr : Run s (Bridge.range v1 req) t a s')
    (h0 : req.revision ≠ 0) (hc : req.revision < s.world.db.compactRev) :
    ∃ e, a = .error e ∧ (e = .compacted ∨ e = .unsupported ∨ ∃ d, e = .db d) := by
  obtain ⟨hp, f, _⟩ := range_facts hs hr
  cases a with
  | ok resp =>
    exfalso
    have hle := hs.inv.compact_le_top
    obtain ⟨_, _, _, q, _, hq, _⟩ := range_spec f hp
    obtain ⟨rfl, h⟩ := hq h0 (by omega)
    omega
  | error e =>
    refine ⟨e, rfl, ?_⟩
    rcases range_error f hp with h | h | h | h
    · exact Or.inr (Or.inr h)
    · exact Or.inr (Or.inl h.1)
    · exact Or.inl h.1
    · exact Or.inl h.1

/-- The "compacted" error is never given without reason: the requested revision really is compacted when the
call returns. (Exception: a limited read of the latest state during which at least 100 writes commit.) -/
theorem C07_compacted_only_if_compacted {s s' : Sys} {v1 : Bool} {req : RangeReq} {t : List Obs}
    (hs : Reachable s) (hr : Run s (Bridge.range v1 req) t (.error .compacted) s') :
    (req.revision ≠ 0 ∧ req.revision < s'.world.db.compactRev) ∨
    (req.revision = 0 ∧ 0 < req.limit ∧ s.world.hist.top + 100 < s'.world.hist.top) := by
  obtain ⟨hp, f, i'⟩ := range_facts hs hr
  rcases range_error f hp with ⟨d, h⟩ | ⟨h, _⟩ | ⟨_, h0, ob, hob, _, h2⟩ | ⟨_, h0, hl, q, h1, ob, hob, h2⟩
  · cases h
  · cases h
  · have := ((f.step ob hob).trans (f.post ob hob)).cr
    exact Or.inl ⟨h0, by omega⟩
  · have h3 := ((f.step ob hob).trans (f.post ob hob)).cr
    have := top_nonneg hs.inv.wf
    refine Or.inr ⟨h0, hl, ?_⟩
    rcases i'.inv.bound with h | h
    · omega
    · omega

/-! ## C08 Limits, More and Count are exact -/

/-- For ranges: the answer is a prefix of the full answer, `more` tells exactly whether something was cut
off, and `count` is the size of the full answer. `q` is the revision the answer is for. -/
theorem C08_limit_more_count {s s' : Sys} {v1 : Bool} {req : RangeReq} {t : List Obs} {resp : RangeResp}
    (hs : Reachable s) (hr : Run s (Bridge.range v1 req) t (.ok resp) s') (hnt : NoTrunc t)
    (hre : req.rangeEnd ≠ []) (hco : req.countOnly = false)
    (h0 : req.revision ≤ s.world.hist.top) :
    ∃ q, (req.revision ≠ 0 → q = req.revision) ∧
      (req.revision = 0 → s.world.hist.top ≤ q ∧ q ≤ resp.header) ∧
      (s'.world.db.compactRev ≤ q → ∃ full, Answers s'.world.hist q req.key req.rangeEnd full ∧
        resp.kvs = (if req.limit > 0 then full.take req.limit.toNat else full) ∧
        (resp.more = true ↔ resp.kvs.length < full.length) ∧ resp.count = full.length) := by
  obtain ⟨hp, f, _⟩ := range_facts hs hr
  obtain ⟨_, _, _, q, hz, hq, _, hle, _, hfull⟩ := range_spec f hp
  refine ⟨q, fun h => (hq h h0).1, fun h => ⟨hz h, hle⟩, ?_⟩
  intro hc
  obtain ⟨full, ha, _, _, h3⟩ := hfull hnt hc
  obtain ⟨e1, e2, e3⟩ := h3 hre hco
  refine ⟨full, ha, e1, ?_, e3 (by omega)⟩
  rw [e2, e1]
  unfold takeIf
  split
  · rw [List.length_take]; omega
  · constructor
    · omega
    · intro h; exact absurd h (Nat.lt_irrefl _)

/-- Witness: two of four keys. -/
example : ((runSched [.me .ok, .me .ok, .me .ok, .me .ok]
    (Bridge.range true { key := [0x2f], rangeEnd := [0x30], limit := 2, revision := 6 }) Demo.world).map
      fun x => x.2.1.map (fun r => (r.kvs.map (·.modRev), r.header, r.more, r.count)))
    = some (.ok ([5, 4], 7, true, 4)) := by decide +kernel

/-- The unrestricted claim is false for single-key reads: the key is returned, but `count` is 0
(`/repo/pkg/limited/get.go:11-34` never sets it; etcd answers 1). -/
theorem C08_single_key_count_counterexample :
    ∃ s s' t resp, Reachable s ∧ Run s (Bridge.range true { key := Demo.ka }) t (.ok resp) s' ∧
      resp.kvs.length = 1 ∧ resp.count = 0 := by
  refine ⟨Demo.sys, _, _, _, Demo.reachable, runSched_run (is := [.me .ok, .me .ok]) rfl, ?_, ?_⟩ <;> rfl

/-- For single-key reads everything but `count` is right. -/
theorem C08_single_key_partial {s s' : Sys} {v1 : Bool} {req : RangeReq} {t : List Obs} {resp : RangeResp}
    (hs : Reachable s) (hr : Run s (Bridge.range v1 req) t (.ok resp) s') (hnt : NoTrunc t)
    (hre : req.rangeEnd = []) :
    ∃ q, (req.revision ≠ 0 → req.revision ≤ s.world.hist.top → q = req.revision) ∧
      (req.revision = 0 → s.world.hist.top ≤ q ∧ q ≤ resp.header) ∧
      (s'.world.db.compactRev ≤ q → Answers s'.world.hist q req.key [] resp.kvs ∧ resp.more = false) := by
  obtain ⟨hp, f, _⟩ := range_facts hs hr
  obtain ⟨_, _, _, q, hz, hq, _, hle, _, hfull⟩ := range_spec f hp
  refine ⟨q, fun h h' => (hq h h').1, fun h => ⟨hz h, hle⟩, ?_⟩
  intro hc
  obtain ⟨full, ha, h1, _, _⟩ := hfull hnt hc
  obtain ⟨e1, e2, _⟩ := h1 hre
  rw [e1, ← hre]
  exact ⟨ha, e2⟩

/-! ## C09 Pagination reassembles the full listing -/

/-- Reading the range `[lo, hi)` page by page at revision `r`: each page has its own positive limit, each page
after the first starts right after the last key seen, and anything may happen between two pages. The third
argument collects the keys. -/
inductive PagedRead (v1 : Bool) (hi : Bytes) (r : Int) : Sys → Bytes → List KV → Sys → Prop where
  | last {s s' : Sys} {lo : Bytes} {n : Int} {t : List Obs} {resp : RangeResp} (hn : 0 < n)
      (hr : Run s (Bridge.range v1 { key := lo, rangeEnd := hi, limit := n, revision := r }) t (.ok resp) s')
      (hnt : NoTrunc t) (hm : resp.more = false) : PagedRead v1 hi r s lo resp.kvs s'
  | next {s s₁ s₂ s' : Sys} {lo : Bytes} {n : Int} {t : List Obs} {resp : RangeResp} {l : KV}
      {rest : List KV} (hn : 0 < n)
      (hr : Run s (Bridge.range v1 { key := lo, rangeEnd := hi, limit := n, revision := r }) t (.ok resp) s₁)
      (hnt : NoTrunc t) (hm : resp.more = true) (hl : resp.kvs.getLast? = some l) (hst : Steps s₁ s₂)
      (hrest : PagedRead v1 hi r s₂ (l.key ++ [0]) rest s') :
      PagedRead v1 hi r s lo (resp.kvs ++ rest) s'

theorem answers_drop {h : History} {r : Int} {lo hi : Bytes} {full : List KV} (hhi : hi ≠ [])
    (ha : Answers h r lo hi full) {n : Nat} {l : KV} (hl : (full.take n).getLast? = some l) :
    Answers h r (l.key ++ [0]) hi (full.drop n) := by
  obtain ⟨h1, h2⟩ := ha
  have hsplit : full = full.take n ++ full.drop n := (List.take_append_drop n full).symm
  have hlm : l ∈ full.take n := List.mem_of_getLast? hl
  have hp := h1
  rw [hsplit, List.pairwise_append] at hp
  obtain ⟨hp1, hp2, hp3⟩ := hp
  refine ⟨hp2, ?_⟩
  intro kv
  have hw : ∀ lo k, Wanted lo hi k ↔ ble lo k = true ∧ blt k hi = true := by
    intro lo k; unfold Wanted; rw [if_neg hhi]
  rw [hw, ble_snoc_zero_iff]
  constructor
  · intro hkv
    have := (h2 kv).1 ((List.drop_sublist n full).subset hkv)
    rw [hw] at this
    exact ⟨⟨hp3 l hlm kv hkv, this.1.2⟩, this.2⟩
  · rintro ⟨⟨hgt, hlt⟩, hat⟩
    have hlw := (h2 l).1 ((List.take_sublist n full).subset hlm)
    rw [hw] at hlw
    have hmem : kv ∈ full := by
      rw [h2, hw]
      exact ⟨⟨ble_trans hlw.1.1 (ble_of_blt hgt), hlt⟩, hat⟩
    rw [hsplit, List.mem_append] at hmem
    rcases hmem with hmem | hmem
    · exfalso
      -- a key of the page cannot be beyond the last key of the page
      rcases List.eq_nil_or_concat (full.take n) with e | ⟨xs, x, e⟩
      · rw [e] at hlm; simp at hlm
      · rw [List.concat_eq_append] at e
        rw [e, List.getLast?_concat, Option.some.injEq] at hl
        subst hl
        rw [e] at hmem hp1
        rcases List.mem_append.1 hmem with hm | hm
        · have := (List.pairwise_append.1 hp1).2.2 kv hm x (by simp)
          rw [blt_asymm this] at hgt; cases hgt
        · rw [List.mem_singleton] at hm
          subst hm
          rw [blt_irrefl] at hgt; cases hgt
    · exact hmem

theorem PagedRead.answers {v1 : Bool} {hi : Bytes} {r : Int} {s s' : Sys} {lo : Bytes} {out : List KV}
    (hi₀ : SysInv s) (hhi : hi ≠ []) (h0 : r ≠ 0) (hle : r ≤ s.world.hist.top)
    (hp : PagedRead v1 hi r s lo out s') (hc : s'.world.db.compactRev ≤ r) :
    Answers s'.world.hist r lo hi out ∧ Ext s.world s'.world := by
  have main : SysInv s → Answers s'.world.hist r lo hi out ∧ Ext s.world s'.world := by
    clear hi₀
    induction hp with
    | @last s s' lo n t resp hn hr hnt hm =>
      intro i
      obtain ⟨hpth, f, _⟩ := run_facts hr i (safe_range i.inv v1 _)
      obtain ⟨_, _, _, q, _, hq, _, _, _, hfull⟩ := range_spec f hpth
      have hqr : q = r := (hq h0 hle).1
      rw [hqr] at hfull
      obtain ⟨full, ha, _, _, h3⟩ := hfull hnt hc
      obtain ⟨e1, e2, _⟩ := h3 hhi rfl
      have hshort : ¬ n < full.length := fun h => by
        have := e2.2 ⟨hn, h⟩; rw [hm] at this; cases this
      have hk : resp.kvs = full := by
        rw [e1]; unfold takeIf; rw [if_pos hn]; exact List.take_of_length_le (by show full.length ≤ n.toNat; omega)
      rw [hk]
      exact ⟨ha, f.total⟩
    | @next s s₁ s₂ s' lo n t resp l rest hn hr hnt hm hl hst hrest ih =>
      intro i
      obtain ⟨hpth, f, i₁⟩ := run_facts hr i (safe_range i.inv v1 _)
      obtain ⟨i₂, hx⟩ := i₁.steps hst
      have h1 := f.total.top
      have h2 := hx.top
      obtain ⟨hrestA, hx'⟩ := ih (by omega) hc i₂
      obtain ⟨_, _, _, q, _, hq, _, _, _, hfull⟩ := range_spec f hpth
      have hqr : q = r := (hq h0 hle).1
      rw [hqr] at hfull
      have hx2 := hx.trans hx'
      obtain ⟨full, ha, _, _, h3⟩ := hfull hnt (by have := hx2.cr; omega)
      obtain ⟨e1, e2, _⟩ := h3 hhi rfl
      have hk : resp.kvs = full.take n.toNat := by
        rw [e1]; unfold takeIf; rw [if_pos hn]
      have ha' : Answers s'.world.hist r lo hi full := by
        refine ⟨ha.1, fun kv => ?_⟩
        have := ha.2 kv
        simp only at this
        rw [this, hx2.at (by omega)]
      rw [hk] at hl
      have hd := Answers.unique hrestA (answers_drop hhi ha' hl)
      rw [hd, hk, List.take_append_drop]
      exact ⟨ha', f.total.trans hx2⟩
  exact main hi₀

theorem C09_pagination {v1 : Bool} {hi : Bytes} {r : Int} {s s' : Sys} {lo : Bytes} {out : List KV}
    (hs : Reachable s) (hhi : hi ≠ []) (h0 : r ≠ 0) (hle : r ≤ s.world.hist.top)
    (hp : PagedRead v1 hi r s lo out s') (hc : s'.world.db.compactRev ≤ r) :
    Answers s'.world.hist r lo hi out := (hp.answers hs.sysInv hhi h0 hle hc).1

/-- Witness: reading the demo store at revision 6 in two pages of two keys. -/
example : ∃ out s', PagedRead true [0x30] 6 Demo.sys [0x2f] out s' ∧ out.map (·.modRev) = [5, 4, 6, 1] := by
  refine ⟨_, _, .next (n := 2) (by decide)
    (runSched_run (is := [.me .ok, .me .ok, .me .ok, .me .ok]) rfl) ?_ rfl rfl (Steps.refl _)
    (.last (n := 2) (by decide) (runSched_run (is := [.me .ok, .me .ok]) rfl) ?_ rfl), rfl⟩
  · intro ob hob n
    simp only [List.mem_cons, List.not_mem_nil, or_false] at hob
    rcases hob with rfl | rfl | rfl | rfl <;> simp
  · intro ob hob n
    simp only [List.mem_cons, List.not_mem_nil, or_false] at hob
    rcases hob with rfl | rfl <;> simp

/-! ## C10 Count agrees with List -/

/-- A count-only range and an unlimited read of the same range at the same revision agree, whenever they run. -/
theorem C10_count_agrees {s s₁ s₂ s' : Sys} {v1 v1' : Bool} {key re : Bytes} {r : Int} {t t' : List Obs}
    {resp resp' : RangeResp} (hs : Reachable s) (hre : re ≠ []) (h0 : r ≠ 0) (hle : r ≤ s.world.hist.top)
    (hr : Run s (Bridge.range v1 { key := key, rangeEnd := re, revision := r, countOnly := true })
      t (.ok resp) s₁) (hmid : Steps s₁ s₂)
    (hr' : Run s₂ (Bridge.range v1' { key := key, rangeEnd := re, revision := r }) t' (.ok resp') s')
    (hnt : NoTrunc t) (hnt' : NoTrunc t') (hc : s'.world.db.compactRev ≤ r) :
    resp.count = resp'.kvs.length ∧ resp.kvs = [] := by
  obtain ⟨hp, f, i₁⟩ := range_facts hs hr
  obtain ⟨i₂, hx⟩ := i₁.steps hmid
  obtain ⟨hp', f', i'⟩ := run_facts hr' i₂ (safe_range i₂.inv v1' _)
  have x1 := f.total.top
  have x2 := hx.top
  have x3 := hx.trans f'.total
  obtain ⟨_, _, _, q, _, hq, _, _, _, hfull⟩ := range_spec f hp
  have hqr : q = r := (hq h0 hle).1
  rw [hqr] at hfull
  obtain ⟨full, ha, _, h2, _⟩ := hfull hnt (by have := x3.cr; omega)
  obtain ⟨_, _, _, q', _, hq', _, _, _, hfull'⟩ := range_spec f' hp'
  have hqr' : q' = r := (hq' h0 (show r ≤ _ by omega)).1
  rw [hqr'] at hfull'
  obtain ⟨full', ha', _, _, h3'⟩ := hfull' hnt' hc
  obtain ⟨e1, _, e3⟩ := h2 hre rfl
  obtain ⟨e4, _, _⟩ := h3' hre rfl
  have hsame : Answers s'.world.hist r key re full := by
    refine ⟨ha.1, fun kv => ?_⟩
    have := ha.2 kv
    simp only at this
    rw [this, x3.at (by omega)]
  have := Answers.unique hsame ha'
  subst this
  refine ⟨?_, e1⟩
  rw [e3, e4]
  simp [takeIf]

/-- Witness. -/
example : ((runSched [.me .ok, .me .ok]
    (Bridge.range false { key := [0x2f], rangeEnd := [0x30], revision := 6, countOnly := true })
      Demo.world).map fun x => x.2.1.map (fun r => (r.kvs, r.count))) = some (.ok ([], 4)) := by
  decide +kernel

/-! ## C11 A single-key read never sees a neighbour -/

/-- Whatever happens during the call, a read without range end returns nothing or exactly one key-value, and
that is a version of the requested key. -/
theorem C11_single_key {s s' : Sys} {v1 : Bool} {req : RangeReq} {t : List Obs} {resp : RangeResp}
    (hs : Reachable s) (hr : Run s (Bridge.range v1 req) t (.ok resp) s') (hre : req.rangeEnd = []) :
    resp.kvs.length ≤ 1 ∧ ∀ kv ∈ resp.kvs, kv.key = req.key := by
  obtain ⟨hp, f, _⟩ := range_facts hs hr
  obtain ⟨hsrt, q, _, _, _, hall⟩ := range_sound f hp
  have hkey : ∀ kv ∈ resp.kvs, kv.key = req.key := by
    intro kv hkv
    have := (hall kv hkv).1
    unfold Wanted at this
    rw [if_pos hre] at this
    exact this
  refine ⟨?_, hkey⟩
  cases hk : resp.kvs with
  | nil => simp
  | cons a as =>
    cases as with
    | nil => simp
    | cons b bs =>
      rw [hk, List.pairwise_cons] at hsrt
      have := hsrt.1 b (by simp)
      rw [hkey a (by simp [hk]), hkey b (by simp [hk]), blt_irrefl] at this
      cases this

/-- Witness: `/a` and `/a\0` are different keys. -/
example :
    let w := runCalls [(.txn true (createTxn (Demo.ka ++ [0]) [8] 0), oks 1)] Demo.world
    ((runSched [.me .ok, .me .ok] (Bridge.range true { key := Demo.ka }) w).map
      fun x => x.2.1.map (fun r => r.kvs.map (·.value))) = some (.ok [[3]]) ∧
    ((runSched [.me .ok, .me .ok] (Bridge.range true { key := Demo.ka ++ [0] }) w).map
      fun x => x.2.1.map (fun r => r.kvs.map (·.value))) = some (.ok [[8]]) := by decide +kernel

/-! ## C12 Old-schema and new-schema queries are equivalent -/

/-- On every reachable database both list queries return the same rows in the same order, for every range,
revision and limit. -/
theorem C12_list_queries_agree {s : Sys} (hs : Reachable s) (lo hi : Bytes) (rev limit : Int) :
    listSQL s.world.db lo hi rev limit = listSqlV1_0 s.world.db lo hi rev limit :=
  listSQL_eq_V1 hs.inv.unique lo hi rev limit

theorem C12_count_queries_agree {s : Sys} (hs : Reachable s) (lo hi : Bytes) (rev : Int) :
    countRevisionSQL s.world.db lo hi rev = countRevisionSQLV1_0 s.world.db lo hi rev :=
  countSQL_eq_V1 hs.inv.unique lo hi rev

/-- Even on arbitrary tables, as long as ids are unique (primary key). -/
theorem C12_any_table (db : DB) (hpk : db.rows.Pairwise fun a b => a.id ≠ b.id) (lo hi : Bytes)
    (rev limit : Int) : listSQL db lo hi rev limit = listSqlV1_0 db lo hi rev limit ∧
      countRevisionSQL db lo hi rev = countRevisionSQLV1_0 db lo hi rev :=
  ⟨listSQL_eq_V1 hpk lo hi rev limit, countSQL_eq_V1 hpk lo hi rev⟩

example : (listSQL Demo.world.db [0x2f] [0x30] 6 3).map (·.id) = [5, 4, 6] ∧
    (listSqlV1_0 Demo.world.db [0x2f] [0x30] 6 3).map (·.id) = [5, 4, 6] := by decide +kernel

/-! ## C22, C23 Snapshots -/

/-- C22: the answer of an unlimited range read of the latest state is exactly the state at the revision in
its header, which was current at some instant of the call. -/
theorem C22_unlimited_list_is_snapshot {s s' : Sys} {v1 : Bool} {key re : Bytes} {t : List Obs}
    {resp : RangeResp} (hs : Reachable s)
    (hr : Run s (Bridge.range v1 { key := key, rangeEnd := re }) t (.ok resp) s') (hnt : NoTrunc t)
    (hc : s'.world.db.compactRev ≤ resp.header) :
    (s.world.hist.top ≤ resp.header ∧ resp.header ≤ s'.world.hist.top) ∧
    Answers s'.world.hist resp.header key re resp.kvs ∧ resp.more = false ∧
    (re ≠ [] → resp.count = resp.kvs.length) := by
  obtain ⟨a, b, c⟩ := C06_latest (req := { key := key, rangeEnd := re }) hs hr hnt rfl (Int.le_refl _)
    (fun _ => rfl) hc
  refine ⟨⟨a, b⟩, c, ?_⟩
  obtain ⟨hp, f, _⟩ := range_facts hs hr
  obtain ⟨_, _, _, q, _, _, _, hqle, hq, hfull⟩ := range_spec f hp
  rcases bridge_range_cases v1 ({ key := key, rangeEnd := re } : RangeReq) with ⟨_, e⟩ | ⟨_, e⟩
  · rw [e] at hp
    unfold Limited.range at hp
    split at hp
    · rename_i hre
      have hre : re = [] := by simpa using hre
      obtain ⟨_, _, ⟨_, _⟩, _, _, h2⟩ := path_andThen_ok hp
      obtain ⟨_, e2⟩ := path_ret h2
      cases e2
      exact ⟨rfl, fun h => absurd hre h⟩
    · unfold Limited.list at hp
      obtain ⟨_, _, ⟨_, _⟩, _, _, h2⟩ := path_andThen_ok hp
      have h2' := (path_ret h2).2
      cases h2'
      exact ⟨rfl, fun _ => rfl⟩
  · rw [e] at hp
    obtain ⟨_, hp⟩ := path_ret hp
    cases hp

/-- C23 is false: a limited list takes its header (and only its header) from a second query. If a key is
written in between, the header revision is newer than the data (`/repo/pkg/limited/list.go:44-63`). Here the
header says 8, but `/b` as of revision 8 is deleted, while the answer still contains it. -/
theorem C23_limited_list_header_counterexample :
    ∃ s s' t resp, Reachable s ∧
      Run s (Bridge.range true { key := [0x2f], rangeEnd := [0x30], limit := 2 }) t (.ok resp) s' ∧
      NoTrunc t ∧ NoLost t ∧ resp.header = 8 ∧
      ∃ kv ∈ resp.kvs, s'.world.hist.at resp.header kv.key = none := by
  refine ⟨Demo.sys, _, _, _, Demo.reachable, runSched_run (is := [.me .ok, .me .ok,
    .env [(.txn true (deleteTxn Demo.kb 4), oks 1)], .me .ok, .me .ok]) rfl, ?_, ?_, rfl, ?_⟩
  · intro ob hob n
    simp only [List.mem_cons, List.not_mem_nil, or_false] at hob
    rcases hob with rfl | rfl | rfl | rfl <;> simp
  · intro ob hob n
    simp only [List.mem_cons, List.not_mem_nil, or_false] at hob
    rcases hob with rfl | rfl | rfl | rfl <;> simp
  · refine ⟨⟨Demo.kb, [2], 30, 4, 4⟩, by decide +kernel, by decide +kernel⟩

/-- What does hold: the answer of a limited list, including `count`, is exactly the state as of one revision
`q` that was current at some instant of the call and is at most the header; if nothing is committed during the
call, it is the header. -/
theorem C23_limited_list_partial {s s' : Sys} {v1 : Bool} {key re : Bytes} {n : Int} {t : List Obs}
    {resp : RangeResp} (hs : Reachable s) (hre : re ≠ [])
    (hr : Run s (Bridge.range v1 { key := key, rangeEnd := re, limit := n }) t (.ok resp) s')
    (hnt : NoTrunc t) :
    ∃ q, s.world.hist.top ≤ q ∧ q ≤ resp.header ∧ resp.header ≤ s'.world.hist.top ∧
      (s'.world.hist.top = s.world.hist.top → q = resp.header) ∧
      (s'.world.db.compactRev ≤ q → ∃ full, Answers s'.world.hist q key re full ∧
        resp.kvs = (if n > 0 then full.take n.toNat else full) ∧ resp.count = full.length) := by
  obtain ⟨q, _, h2, h3⟩ := C08_limit_more_count (req := { key := key, rangeEnd := re, limit := n }) hs hr hnt
    hre rfl (top_nonneg hs.inv.wf)
  obtain ⟨h4, h5⟩ := h2 rfl
  have h6 := (C01_read_header_is_current hs hr).2
  refine ⟨q, h4, h5, h6, by omega, ?_⟩
  intro hc
  obtain ⟨full, a, b, _, d⟩ := h3 hc
  exact ⟨full, a, b, d⟩

/-! ## C54 Unsupported range options are refused -/

/-- A request with any unimplemented option is refused without touching the database. -/
theorem C54_unsupported_refused {s s' : Sys} {v1 : Bool} {req : RangeReq} {t : List Obs}
    {a : Except ApiErr RangeResp} (hr : Run s (Bridge.range v1 req) t a s')
    (hun : req.keysOnly = true ∨ req.serializable = true ∨ req.sortOrder ≠ 0 ∨ req.sortTarget ≠ 0 ∨
      req.minModRevision ≠ 0 ∨ req.maxModRevision ≠ 0 ∨ req.minCreateRevision ≠ 0 ∨
      req.maxCreateRevision ≠ 0) : a = .error .unsupported ∧ t = [] := by
  have hnp : ¬ req.plain := by
    unfold RangeReq.plain
    rintro ⟨h1, h2, h3, h4, h5, h6, h7, h8⟩
    simp_all
  have e : Bridge.range v1 req = .ret (.error .unsupported) := by
    rcases bridge_range_cases v1 req with ⟨h, _⟩ | ⟨_, e⟩
    · exact absurd h hnp
    · exact e
  rw [e] at hr
  generalize hg : (Prog.ret (Except.error ApiErr.unsupported) : Prog (Except ApiErr RangeResp)) = p at hr
  induction hr with
  | ret s a => cases hg; exact ⟨rfl, rfl⟩
  | env _ _ ih => exact ih hg
  | step o _ _ => cases hg

example : Run Demo.sys (Bridge.range true { key := Demo.ka, keysOnly := true }) [] (.error .unsupported) Demo.sys :=
  Run.ret _ _

/-! ## C62 What a read returns is never wrong, even when it races with compaction -/

/-- No hypothesis on compaction, faults or cursors: every key-value in the answer of a successful read is in
the requested range and is the state of its key at the revision read, in ascending order. Only omissions are
possible. -/
theorem C62_returned_is_right {s s' : Sys} {v1 : Bool} {req : RangeReq} {t : List Obs} {resp : RangeResp}
    (hs : Reachable s) (hr : Run s (Bridge.range v1 req) t (.ok resp) s') :
    resp.kvs.Pairwise (fun a b => blt a.key b.key = true) ∧
    ∃ q, (req.revision = 0 → s.world.hist.top ≤ q) ∧
      (req.revision ≠ 0 → req.revision ≤ s.world.hist.top → q = req.revision) ∧ q ≤ resp.header ∧
      ∀ kv ∈ resp.kvs, Wanted req.key req.rangeEnd kv.key ∧ s'.world.hist.at q kv.key = some kv := by
  obtain ⟨hp, f, _⟩ := range_facts hs hr
  exact range_sound f hp

/-- Reads change nothing. -/
theorem C62_reads_change_nothing {s s' : Sys} {v1 : Bool} {req : RangeReq} {t : List Obs} {resp : RangeResp}
    (hs : Reachable s) (hr : Run s (Bridge.range v1 req) t (.ok resp) s') : ChangesNothing t := by
  obtain ⟨hp, f, _⟩ := range_facts hs hr
  exact (range_spec f hp).1

/-! ## C63 Pagination that starts with a latest read -/

/-- The API server pages through a list by reading the first page at revision 0 and all others at the revision
in the header of the first page. Because of C23 the pages then need not belong to one snapshot: here the
reader gets `/b` from the first page, although `/b` does not exist at the revision 8 of the second page, and
the assembled list is not the state at any revision. -/
theorem C63_pagination_from_latest_counterexample :
    ∃ s s₁ s' t resp out l, Reachable s ∧
      Run s (Bridge.range true { key := [0x2f], rangeEnd := [0x30], limit := 2 }) t (.ok resp) s₁ ∧
      NoTrunc t ∧ NoLost t ∧ resp.more = true ∧ resp.kvs.getLast? = some l ∧
      PagedRead true [0x30] resp.header s₁ (l.key ++ [0]) out s' ∧
      ¬ Answers s'.world.hist resp.header [0x2f] [0x30] (resp.kvs ++ out) := by
  refine ⟨Demo.sys, _, _, _, _, _, _, Demo.reachable, runSched_run (is := [.me .ok, .me .ok,
    .env [(.txn true (deleteTxn Demo.kb 4), oks 1)], .me .ok, .me .ok]) rfl, ?_, ?_, rfl, rfl,
    .last (n := 5) (by decide) (runSched_run (is := [.me .ok, .me .ok]) rfl) ?_ rfl, ?_⟩
  · intro ob hob n
    simp only [List.mem_cons, List.not_mem_nil, or_false] at hob
    rcases hob with rfl | rfl | rfl | rfl <;> simp
  · intro ob hob n
    simp only [List.mem_cons, List.not_mem_nil, or_false] at hob
    rcases hob with rfl | rfl | rfl | rfl <;> simp
  · intro ob hob n
    simp only [List.mem_cons, List.not_mem_nil, or_false] at hob
    rcases hob with rfl | rfl <;> simp
  · intro ha
    have h1 := (ha.2 ⟨Demo.kb, [2], 30, 4, 4⟩).1 (by decide +kernel)
    exact absurd h1.2 (by decide +kernel)

/-- What does hold: if nothing commits while the first page is read, the pages together are exactly the state at the
revision in the header of the first page. Writes between the pages and during the later ones are allowed. -/
theorem C63_pagination_from_latest_partial {v1 : Bool} {lo hi : Bytes} {n : Int} {s s₁ s₂ s' : Sys} {t : List Obs}
    {resp : RangeResp} {l : KV} {rest : List KV} (hs : Reachable s) (hhi : hi ≠ []) (hn : 0 < n)
    (hr : Run s (Bridge.range v1 { key := lo, rangeEnd := hi, limit := n }) t (.ok resp) s₁) (hnt : NoTrunc t)
    (hquiet : s₁.world.hist = s.world.hist) (h0 : 0 < s.world.hist.top)
    (hl : resp.kvs.getLast? = some l) (hst : Steps s₁ s₂)
    (hp : PagedRead v1 hi resp.header s₂ (l.key ++ [0]) rest s')
    (hc : s'.world.db.compactRev ≤ resp.header) :
    Answers s'.world.hist resp.header lo hi (resp.kvs ++ rest) := by
  obtain ⟨hpth, f, i₁⟩ := range_facts hs hr
  obtain ⟨_, h1, h2, q, hz, _, _, hqle, _, hfull⟩ := range_spec f hpth
  have hz := hz rfl
  rw [hquiet] at h2
  have hqe : q = resp.header := by omega
  obtain ⟨i₂, hx⟩ := i₁.steps hst
  have htop2 : resp.header ≤ s₂.world.hist.top := by
    have := hx.top; rw [hquiet] at this; omega
  obtain ⟨hrest, hx'⟩ := hp.answers i₂ hhi (by omega) htop2 hc
  have hx2 := hx.trans hx'
  obtain ⟨full, ha, _, _, h3⟩ := hfull hnt (by have := hx2.cr; omega)
  rw [hqe] at ha
  have hk : resp.kvs = full.take n.toNat := by
    rw [(h3 hhi rfl).1]; unfold takeIf; rw [if_pos hn]
  have ha' : Answers s'.world.hist resp.header lo hi full := by
    refine ⟨ha.1, fun kv => ?_⟩
    have := ha.2 kv
    simp only at this
    rw [this, hx2.at (by rw [hquiet]; omega)]
  rw [hk] at hl
  have hd := Answers.unique hrest (answers_drop hhi ha' hl)
  rw [hd, hk, List.take_append_drop]
  exact ha'

/-- Witness: the demo store in two pages, the second after `/b` was deleted; `/b` is in the second page. -/
example : ∃ s₁ s₂ s' t resp l rest, Run Demo.sys (Bridge.range true { key := [0x2f], rangeEnd := [0x30], limit := 1 })
      t (.ok resp) s₁ ∧ NoTrunc t ∧ s₁.world.hist = Demo.sys.world.hist ∧ resp.kvs.getLast? = some l ∧ Steps s₁ s₂ ∧
      s₂.world.hist.top = 8 ∧ PagedRead true [0x30] resp.header s₂ (l.key ++ [0]) rest s' ∧
      (resp.kvs ++ rest).map (·.key) = [Demo.ka, Demo.kb, healthKey] := by
  refine ⟨_, _, _, _, _, _, _, runSched_run (is := [.me .ok, .me .ok, .me .ok, .me .ok]) rfl, ?_, ?_, rfl,
    runCalls_steps [(.txn true (deleteTxn Demo.kb 4), oks 1)] (by decide +kernel) _ _, by decide +kernel,
    .last (n := 5) (by decide) (runSched_run (is := [.me .ok, .me .ok]) rfl) ?_ rfl, by decide +kernel⟩
  · intro ob hob n
    simp only [List.mem_cons, List.not_mem_nil, or_false] at hob
    rcases hob with rfl | rfl | rfl | rfl <;> simp
  · decide +kernel
  · intro ob hob n
    simp only [List.mem_cons, List.not_mem_nil, or_false] at hob
    rcases hob with rfl | rfl <;> simp

/-! ## C64 A read fails rather than silently dropping keys — false -/

/-- A cursor that breaks after the first row: the read reports success with one of four keys, `more = false`
and `count = 1` (`/repo/pkg/backend/internal/backend/utils.go:11-24` does not look at `rows.Err()`). -/
theorem C64_broken_cursor_counterexample :
    ∃ s s' t resp, Reachable s ∧
      Run s (Bridge.range true { key := [0x2f], rangeEnd := [0x30], revision := 6 }) t (.ok resp) s' ∧
      resp.kvs.length = 1 ∧ resp.more = false ∧ resp.count = 1 ∧
      s'.world.hist.at 6 Demo.kb ≠ none ∧ ∀ kv ∈ resp.kvs, kv.key ≠ Demo.kb := by
  refine ⟨Demo.sys, _, _, _, Demo.reachable, runSched_run (is := [.me .ok, .me (.trunc 1)]) rfl, ?_⟩
  decide +kernel

/-- A history with 106 revisions: node start, `/a` created at 3 and updated at 4, then 102 other keys. -/
def raceSetup : List (Call × List Outcome) :=
  [ (.start, oks 6), (.txn true (createTxn Demo.ka [1] 0), oks 1), (.txn true (updateTxn Demo.ka 3 [2] 0), oks 1) ]
  ++ (List.range 102).map fun i => (.txn true (createTxn [0x30, UInt8.ofNat i] [0] 0), oks 1)

/-- Compaction between the two queries of a read: the read of `/a` at revision 3, which is not compacted when
the call starts, reports success but `/a` is missing. (`/repo/pkg/backend/internal/backend/backend.go:228-264`
checks the compact revision only before the list query.) -/
theorem C64_compaction_race_counterexample :
    ∃ s s' t resp, Reachable s ∧ s.world.db.compactRev ≤ 3 ∧
      Run s (Bridge.range true { key := Demo.ka, revision := 3 }) t (.ok resp) s' ∧ NoTrunc t ∧ NoLost t ∧
      s.world.hist.at 3 Demo.ka ≠ none ∧ resp.kvs = [] := by
  obtain ⟨s, s', t, a, h1, h2, h3, h4⟩ := Scenario.check
    ⟨raceSetup, [.me .ok, .env [(.doCompact fun _ => some true, oks 20)], .me .ok],
      Bridge.range true { key := Demo.ka, revision := 3 }⟩
    (fun t a _ => faultless t && decide (a.map (·.kvs) = .ok []))
    (by decide +kernel) (by decide +kernel)
  rw [Bool.and_eq_true, decide_eq_true_eq] at h4
  obtain ⟨h4, h5⟩ := h4
  cases a with
  | error e => cases h5
  | ok resp =>
    refine ⟨s, s', t, resp, h1, ?_, h2, faultless_noTrunc h4, faultless_noLost h4, ?_, ?_⟩
    · rw [h3]; decide +kernel
    · rw [h3]; decide +kernel
    · injection h5

/-- What does hold: if every result set is delivered completely and the revision is still not compacted when the call
returns, nothing is omitted, except behind the last key returned when `more` is set. -/
theorem C64_complete_partial {s s' : Sys} {v1 : Bool} {req : RangeReq} {t : List Obs} {resp : RangeResp}
    (hs : Reachable s) (hr : Run s (Bridge.range v1 req) t (.ok resp) s') (hnt : NoTrunc t)
    (h0 : req.revision ≠ 0) (hle : req.revision ≤ s.world.hist.top) (hc : s'.world.db.compactRev ≤ req.revision)
    (hco : req.rangeEnd ≠ [] → req.countOnly = false) {kv : KV} (hw : Wanted req.key req.rangeEnd kv.key)
    (hat : s.world.hist.at req.revision kv.key = some kv) :
    kv ∈ resp.kvs ∨ resp.more = true ∧ ∀ kv' ∈ resp.kvs, blt kv'.key kv.key = true := by
  obtain ⟨hp, f, _⟩ := range_facts hs hr
  obtain ⟨_, _, _, q, _, hq, _, _, _, hfull⟩ := range_spec f hp
  obtain ⟨rfl, _⟩ := hq h0 hle
  obtain ⟨full, ha, h1, _, h3⟩ := hfull hnt hc
  have hm : kv ∈ full := (ha.2 kv).2 ⟨hw, by rw [f.total.at hle]; exact hat⟩
  by_cases hre : req.rangeEnd = []
  · rw [(h1 hre).1]; exact Or.inl hm
  · obtain ⟨e1, e2, _⟩ := h3 hre (hco hre)
    rw [e1]
    unfold takeIf
    split
    · rename_i hlim
      have hsplit : full = full.take req.limit.toNat ++ full.drop req.limit.toNat := (List.take_append_drop _ full).symm
      have hord := ha.1
      rw [hsplit, List.pairwise_append] at hord
      rw [hsplit] at hm
      rcases List.mem_append.1 hm with h | h
      · exact Or.inl h
      · right
        refine ⟨e2.2 ⟨hlim, ?_⟩, fun kv' hkv' => hord.2.2 kv' hkv' kv h⟩
        have := List.length_pos_of_mem h
        rw [List.length_drop] at this
        omega
    · exact Or.inl hm

/-- Witness: a limited read at revision 6 that returns two of four keys and says so. -/
example : ∃ s' t resp, Run Demo.sys (Bridge.range true { key := [0x2f], rangeEnd := [0x30], limit := 2, revision := 6 })
    t (.ok resp) s' ∧ NoTrunc t ∧ s'.world.db.compactRev ≤ 6 ∧ resp.kvs.length = 2 ∧ resp.more = true ∧
    (s'.world.hist.at 6 healthKey).isSome = true := by
  refine ⟨_, _, _, runSched_run (is := [.me .ok, .me .ok, .me .ok, .me .ok]) rfl, ?_, ?_⟩
  · intro ob hob n
    simp only [List.mem_cons, List.not_mem_nil, or_false] at hob
    rcases hob with rfl | rfl | rfl | rfl <;> simp
  · decide +kernel

/-- The same history shows C07 at work: once compacted, revision 3 is refused. -/
example : (runSched [.me .ok] (Bridge.range true { key := Demo.ka, revision := 3 })
    (runCalls [(.doCompact fun _ => some true, oks 20)] (runCalls raceSetup World.init))).map (·.2.1)
    = some (.error .compacted) := by decide +kernel

end Verif
