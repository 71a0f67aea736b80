import Verif.Lemmas.SqlStmts
import Verif.Props.Demo
/-!
# C73 The SQL texts mean what the store relies on, whatever the query plan

`runText` parses a statement text of `/repo/pkg/backend/sqlite/driver.go` (copied verbatim in `Model/SqlText.lean`)
and evaluates it in the SQL fragment of `Model/SqlLang.lean`.  The evaluation is parametrised by a *plan*, which
says in which order rows are visited at every table scan, join, grouping and unordered result: an arbitrary
reordering of the rows (`IsPlan`).  `phys E db` is the stored table: `E` says for every row whether an empty value is
stored as NULL or as an empty blob.  The theorems say that for every plan and every storage the result is the same
function of the rows.  `db.UniqueIds` is `INTEGER PRIMARY KEY` (`schema.go:58`); every reachable store has it
(`C73_reachable`).
-/

namespace Verif

open SqlLang

/-- Parse and execute one statement text: new tables, number of affected rows, result rows. -/
def runText (text : String) (t : Tables) (plan : List Nat → List Frame → List Frame) (args : List Val) :
    Option (Tables × Nat × List (List Val)) :=
  (parse text.toList).map fun st => exec st t plan args

/-- The text and arguments of `Driver.List` (`driver.go:722-736`). -/
def listCall (v1 : Bool) (lo hi : Bytes) (rev limit : Int) : String × List Val :=
  let text := if v1 then SqlText.listSqlV1_0 else SqlText.listSQL
  if limit > 0 then (text ++ SqlText.limitSuffix, [.blob lo, .blob hi, .int rev, .int limit])
  else (text, [.blob lo, .blob hi, .int rev])

/-- The text and arguments of `Driver.After` (`driver.go:780-787`). -/
def afterCall (rev limit : Int) : String × List Val :=
  if limit > 0 then (SqlText.afterSQL ++ SqlText.limitSuffix, [.int rev, .int limit])
  else (SqlText.afterSQL, [.int rev])

/-- Specification: `r` is the latest version not above `rev` of a key in `[lo, hi)`, and it is not a tombstone. -/
def LiveAt (db : DB) (lo hi : Bytes) (rev : Int) (r : Row) : Prop :=
  r ∈ db.rows ∧ ble lo r.name = true ∧ blt r.name hi = true ∧ r.id ≤ rev ∧ r.deleted = false ∧
    ∀ q ∈ db.rows, q.name = r.name → q.id ≤ rev → q.id ≤ r.id

theorem liveAt_iff {db : DB} {lo hi : Bytes} {rev : Int} {r : Row} :
    IsLatestLive db lo hi rev r ↔ LiveAt db lo hi rev r := by
  simp only [IsLatestLive, LiveAt, mem_rangeRows, inRange, Bool.and_eq_true]
  constructor
  · rintro ⟨⟨h1, h2, h3⟩, h4, h5⟩
    exact ⟨h1, h2.1, h2.2, h3, h4, fun q hq hn hle => h5 q ⟨hq, hn ▸ h2, hle⟩ hn⟩
  · rintro ⟨h1, h2, h2', h3, h4, h5⟩
    exact ⟨⟨h1, ⟨h2, h2'⟩, h3⟩, h4, fun q hq hn => h5 q hq.1 hn hq.2.2⟩

/-- Every reachable store satisfies the one hypothesis of this file. -/
theorem C73_reachable {s : Sys} (h : Reachable s) : s.world.db.UniqueIds := h.sysInv.inv.unique

variable {plan : List Nat → List Frame → List Frame} {E : Enc} {db : DB}

theorem idLe_strict {rs : List Row} (u : rs.Pairwise fun a b => a.id ≠ b.id) :
    (orderBy idLe rs).Pairwise fun a b => a.id < b.id := by
  have h1 := orderBy_sorted (le := idLe) idLe_total idLe_trans rs
  have h2 : (orderBy idLe rs).Pairwise fun a b => a.id ≠ b.id := unique_perm (orderBy_perm _ _) u
  refine (h1.and h2).imp fun h => ?_
  have := h.1
  simp only [idLe, decide_eq_true_eq] at this
  have := h.2
  omega

/-! ## Reads -/

/-- The range read, with both statement texts: exactly the live keys of the range at the revision, once each, in
key order, cut at the limit. -/
theorem C73_list (hp : IsPlan plan) (u : db.UniqueIds) (v1 : Bool) (lo hi : Bytes) (rev limit : Int) :
    ∃ live : List Row,
      (∀ r, r ∈ live ↔ LiveAt db lo hi rev r) ∧
      (live.Pairwise fun a b => blt a.name b.name = true) ∧
      runText (listCall v1 lo hi rev limit).1 (phys E db) plan (listCall v1 lo hi rev limit).2 =
        some (phys E db, 0, (if limit > 0 then live.take limit.toNat else live).map (listVals E)) := by
  refine ⟨maxkvV1 db lo hi rev, fun r => (mem_maxkvV1 u).trans liveAt_iff, maxkvV1_sorted _ _ _ _, ?_⟩
  have e : ∀ n, limitBy n (maxkvV1 db lo hi rev) =
      (if n > 0 then (maxkvV1 db lo hi rev).take n.toNat else maxkvV1 db lo hi rev) := fun _ => rfl
  rw [← e]
  by_cases hl : limit > 0
  · cases v1
    · simp only [listCall, hl, if_true, Bool.false_eq_true, if_false, runText, SqlAst.parse_listSQL_limit, Option.map_some]
      rw [eval_list_limit hp u lo hi rev limit hl, listSQL_eq_V1 u, listSqlV1_0_eq u]
    · simp only [listCall, hl, if_true, runText, SqlAst.parse_listSqlV1_0_limit, Option.map_some]
      rw [eval_listV1_limit hp u lo hi rev limit hl, listSqlV1_0_eq u]
  · have h0 : limitBy limit (maxkvV1 db lo hi rev) = limitBy 0 (maxkvV1 db lo hi rev) := by simp [limitBy, hl]
    cases v1
    · simp only [listCall, hl, Bool.false_eq_true, if_false, runText, SqlAst.parse_listSQL, Option.map_some]
      rw [eval_list hp u lo hi rev, listSQL_eq_V1 u, listSqlV1_0_eq u, h0]
    · simp only [listCall, hl, if_true, if_false, runText, SqlAst.parse_listSqlV1_0, Option.map_some]
      rw [eval_listV1 hp u lo hi rev, listSqlV1_0_eq u, h0]

/-- The count, with both statement texts: the number of live keys in the range. -/
theorem C73_count (hp : IsPlan plan) (u : db.UniqueIds) (v1 : Bool) (lo hi : Bytes) (rev : Int) :
    ∃ live : List Row, live.Nodup ∧ (∀ r, r ∈ live ↔ LiveAt db lo hi rev r) ∧
      runText (if v1 then SqlText.countRevisionSQLV1_0 else SqlText.countRevisionSQL) (phys E db) plan
        [.blob lo, .blob hi, .int rev] = some (phys E db, 0, [[.int live.length]]) := by
  refine ⟨maxkvV1 db lo hi rev, ?_, fun r => (mem_maxkvV1 u).trans liveAt_iff, ?_⟩
  · refine (maxkvV1_sorted db lo hi rev).imp fun h e => ?_
    rw [e, blt_irrefl] at h; cases h
  · cases v1
    · simp only [Bool.false_eq_true, if_false, runText, SqlAst.parse_countRevisionSQL, Option.map_some]
      rw [eval_count hp u, countSQL_eq_V1 u, countV1_eq]
    · simp only [if_true, runText, SqlAst.parse_countRevisionSQLV1_0, Option.map_some]
      rw [eval_countV1 hp u, countV1_eq]

/-- The event poll: every row above the revision once, by increasing revision, cut at the limit. -/
theorem C73_after (hp : IsPlan plan) (u : db.UniqueIds) (rev limit : Int) :
    ∃ events : List Row,
      (∀ r, r ∈ events ↔ r ∈ db.rows ∧ rev < r.id) ∧
      (events.Pairwise fun a b => a.id < b.id) ∧
      runText (afterCall rev limit).1 (phys E db) plan (afterCall rev limit).2 =
        some (phys E db, 0, (if limit > 0 then events.take limit.toNat else events).map (rowVals E)) := by
  refine ⟨orderBy idLe (db.rows.filter fun r => decide (r.id > rev)), ?_, ?_, ?_⟩
  · intro r; simp [mem_orderBy]
  · exact idLe_strict (UniqueIds.filter u _)
  · by_cases hl : limit > 0
    · simp only [afterCall, hl, if_true, runText, SqlAst.parse_afterSQL_limit, Option.map_some]
      rw [eval_after_limit hp u rev limit hl]
      simp [afterSQL, limitBy, hl]
    · simp only [afterCall, hl, if_false, runText, SqlAst.parse_afterSQL, Option.map_some]
      rw [eval_after hp u rev]
      simp [afterSQL, limitBy]

/-- The catch-up read of a watch: every row of the range in the revision interval once, by increasing revision. -/
theorem C73_afterPrefix (hp : IsPlan plan) (u : db.UniqueIds) (lo hi : Bytes) (start stop : Int) :
    ∃ events : List Row,
      (∀ r, r ∈ events ↔ r ∈ db.rows ∧ ble lo r.name = true ∧ blt r.name hi = true ∧ start < r.id ∧ r.id ≤ stop) ∧
      (events.Pairwise fun a b => a.id < b.id) ∧
      runText SqlText.afterSQLPrefix (phys E db) plan [.blob lo, .blob hi, .int start, .int stop] =
        some (phys E db, 0, events.map (rowVals E)) := by
  refine ⟨afterSQLPrefix db lo hi start stop, ?_, idLe_strict (UniqueIds.filter u _), ?_⟩
  · intro r; simp [afterSQLPrefix, mem_orderBy, inRange, and_assoc]
  · simp only [runText, SqlAst.parse_afterSQLPrefix, Option.map_some]
    rw [eval_afterPrefix hp u]

/-- The read of leased keys: every live key with a lease exactly once, in some order. -/
theorem C73_ttl (hp : IsPlan plan) (u : db.UniqueIds) (rev : Int) :
    ∃ leased : List Row, leased.Nodup ∧
      (∀ r, r ∈ leased ↔ r ∈ db.rows ∧ r.id ≤ rev ∧ r.deleted = false ∧ r.lease ≠ 0 ∧
        ∀ q ∈ db.rows, q.name = r.name → q.id ≤ rev → q.id ≤ r.id) ∧
      runText SqlText.ttlSQL (phys E db) plan [.int rev] = some (phys E db, 0, leased.map ttlVals) := by
  obtain ⟨l, hl, e⟩ := eval_ttl (E := E) hp u rev
  have ur : (db.rows.filter fun r => decide (r.id ≤ rev)).Pairwise fun a b => a.id ≠ b.id := UniqueIds.filter u _
  refine ⟨l, ?_, ?_, ?_⟩
  · rw [hl.nodup_iff, ttlSQL, joinIds_eq_filter db (nodup_groupMaxIds ur)]
    exact List.Pairwise.filter _ (List.Pairwise.filter _ (nodup_of_unique u))
  · intro r
    rw [hl.mem_iff, ttlSQL, joinIds_eq_filter db (nodup_groupMaxIds ur)]
    simp only [List.mem_filter, Bool.and_eq_true, Bool.not_eq_true', decide_eq_true_eq,
      mem_groupMaxIds]
    constructor
    · rintro ⟨⟨h1, m, hm, hmi, hmax⟩, h3, h4⟩
      have := unique_id u hm.1 h1 hmi
      subst this
      exact ⟨h1, hm.2, h3, h4, fun q hq hn hle => hmax q ⟨hq, hle⟩ hn⟩
    · rintro ⟨h1, h2, h3, h4, h5⟩
      exact ⟨⟨h1, r, ⟨h1, h2⟩, rfl, fun q hq hn => h5 q hq.1 hn hq.2⟩, h3, h4⟩
  · simp only [runText, SqlAst.parse_ttlSQL, Option.map_some]
    rw [e]

/-- The current revision: the largest id in the table, NULL if it is empty. -/
theorem C73_currentRevision (hp : IsPlan plan) :
    ∃ v : Val,
      runText SqlText.revSQL (phys E db) plan [] = some (phys E db, 0, [[v]]) ∧
      (db.rows = [] → v = .null) ∧
      (db.rows ≠ [] → ∃ r ∈ db.rows, v = .int r.id ∧ ∀ q ∈ db.rows, q.id ≤ r.id) := by
  refine ⟨optInt (revSQL db), ?_, ?_, ?_⟩
  · simp only [runText, SqlAst.parse_revSQL, Option.map_some]; rw [eval_rev hp]
  · intro h; simp [revSQL, maxId, h, maxRow, optInt]
  · intro h
    obtain ⟨a, ha⟩ := List.exists_mem_of_ne_nil _ h
    obtain ⟨m, hm⟩ := maxRow_exists ha
    obtain ⟨h1, h2⟩ := maxRow_some hm
    exact ⟨m, h1, by simp [revSQL, maxId, hm, optInt], h2⟩

/-- The compacted and the current revision, read by one statement. -/
theorem C73_interval (hp : IsPlan plan) :
    runText SqlText.revisionIntervalSQL (phys E db) plan [] =
      some (phys E db, 0, [[optInt (revisionIntervalSQL db).1, optInt (revisionIntervalSQL db).2]]) := by
  simp only [runText, SqlAst.parse_revisionIntervalSQL, Option.map_some]
  rw [eval_interval hp]

/-! ## Writes -/

/-- The create statement: if the latest version of the key is live nothing happens; otherwise exactly one row is
appended, above every row there ever was. -/
theorem C73_create (hp : IsPlan plan) (u : db.UniqueIds) (key : Bytes) (lease : Int) (value : Bytes) (v : Val)
    (hv : v = .blob value ∨ (value = [] ∧ v = .null)) :
    ∃ E', Wrote E E' db (createSQL db key lease value).1 ∧
      runText SqlText.createSQL (phys E db) plan [.blob key, .int lease, v, .blob key] =
        some (phys E' (createSQL db key lease value).1, (createSQL db key lease value).2.rowsAffected, []) := by
  obtain ⟨E', h, e⟩ := eval_create (E := E) hp u key lease value v hv
  exact ⟨E', h, by simp only [runText, SqlAst.parse_createSQL, Option.map_some]; rw [e]⟩

/-- The update statement. -/
theorem C73_update (hp : IsPlan plan) (u : db.UniqueIds) (key : Bytes) (lease : Int) (value : Bytes) (rev : Int)
    (v : Val) (hv : v = .blob value ∨ (value = [] ∧ v = .null)) :
    ∃ E', Wrote E E' db (updateSQL db key lease value rev).1 ∧
      runText SqlText.updateSQL (phys E db) plan [.blob key, .int lease, v, .blob key, .int rev] =
        some (phys E' (updateSQL db key lease value rev).1, (updateSQL db key lease value rev).2.rowsAffected, []) := by
  obtain ⟨E', h, e⟩ := eval_update (E := E) hp u key lease value rev v hv
  exact ⟨E', h, by simp only [runText, SqlAst.parse_updateSQL, Option.map_some]; rw [e]⟩

/-- The delete statement. -/
theorem C73_delete (hp : IsPlan plan) (u : db.UniqueIds) (key : Bytes) (rev : Int) :
    ∃ E', Wrote E E' db (deleteSQL db key rev).1 ∧
      runText SqlText.deleteSQL (phys E db) plan [.blob key, .int rev] =
        some (phys E' (deleteSQL db key rev).1, (deleteSQL db key rev).2.rowsAffected, []) := by
  obtain ⟨E', h, e⟩ := eval_delete (E := E) hp u key rev
  exact ⟨E', h, by simp only [runText, SqlAst.parse_deleteSQL, Option.map_some]; rw [e]⟩

/-- Specification: `m` is the latest version of `key`. -/
def IsLatest (db : DB) (key : Bytes) (m : Row) : Prop :=
  m ∈ db.rows ∧ m.name = key ∧ ∀ q ∈ db.rows, q.name = key → q.id ≤ m.id

theorem maxRow_latest (u : db.UniqueIds) {key : Bytes} {m : Row} :
    maxRow (db.rows.filter fun r => r.name == key) = some m ↔ IsLatest db key m := by
  rw [maxRow_eq_some (UniqueIds.filter u _)]
  simp only [List.mem_filter, beq_iff_eq, IsLatest, and_imp, and_assoc]

/-- What the write texts do, in terms of the stored rows alone.  `id` is the id of the appended row; it is above
every id in the table. -/
theorem C73_write_effects (hp : IsPlan plan) (u : db.UniqueIds) (key : Bytes) (lease rev : Int)
    (value : Bytes) :
    ∃ id : Int, (∀ r ∈ db.rows, r.id < id) ∧ db.seq < id ∧
    -- create, key live: refused
    ((∃ m, IsLatest db key m ∧ m.deleted = false) →
      runText SqlText.createSQL (phys E db) plan [.blob key, .int lease, .blob value, .blob key] =
        some (phys E db, 0, [])) ∧
    -- create, key absent or deleted
    ((∀ m, IsLatest db key m → m.deleted = true) →
      ∃ prev : Int, ((∀ r ∈ db.rows, r.name ≠ key) → prev = 0) ∧ (∀ m, IsLatest db key m → prev = m.id) ∧
      runText SqlText.createSQL (phys E db) plan [.blob key, .int lease, .blob value, .blob key] =
        some ({ rows := db.rows.map (rowVals E) ++ [[.int id, .text key, .int 1, .int 0, .int 0, .int prev, .int lease, .blob value, .null]], seq := id }, 1, [])) ∧
    -- update and delete, the key is live at exactly this revision
    (∀ m, IsLatest db key m → m.deleted = false → m.id = rev →
      runText SqlText.updateSQL (phys E db) plan [.blob key, .int lease, .blob value, .blob key, .int rev] =
        some ({ rows := db.rows.map (rowVals E) ++ [[.int id, .text key, .int 0, .int 0, .int (if m.created then m.id else m.createRevision), .int m.id, .int lease, .blob value, E.val m]], seq := id }, 1, []) ∧
      runText SqlText.deleteSQL (phys E db) plan [.blob key, .int rev] =
        some ({ rows := db.rows.map (rowVals E) ++ [[.int id, .text key, .int 0, .int 1, .int (if m.created then m.id else m.createRevision), .int m.id, .int m.lease, .null, E.val m]], seq := id }, 1, [])) ∧
    -- update and delete otherwise: refused
    ((¬ ∃ m, IsLatest db key m ∧ m.deleted = false ∧ m.id = rev) →
      runText SqlText.updateSQL (phys E db) plan [.blob key, .int lease, .blob value, .blob key, .int rev] =
        some (phys E db, 0, []) ∧
      runText SqlText.deleteSQL (phys E db) plan [.blob key, .int rev] = some (phys E db, 0, [])) := by
  refine ⟨db.nextId, ?_, ?_, ?_, ?_, ?_, ?_⟩
  · intro r hr
    obtain ⟨m, hm⟩ := maxRow_exists hr
    have h1 := (maxRow_some hm).2 r hr
    simp only [DB.nextId, maxId, hm, Option.map_some, Option.getD_some]
    omega
  · simp only [DB.nextId]; omega
  · rintro ⟨m, hm, hd⟩
    simp only [runText, SqlAst.parse_createSQL, Option.map_some]
    rw [eval_createSel hp u, (maxRow_latest u).2 hm]
    simp [hd]
  · intro h
    refine ⟨((maxRow (db.rows.filter fun q => q.name == key)).map (·.id)).getD 0, ?_, ?_, ?_⟩
    · intro hn
      rw [maxRow_none.2 (by simpa [List.filter_eq_nil_iff] using hn)]; rfl
    · intro m hm; rw [(maxRow_latest u).2 hm]; rfl
    · simp only [runText, SqlAst.parse_createSQL, Option.map_some]
      rw [eval_createSel hp u]
      simp only []
      rw [if_pos, insertRow_vals]
      cases hm : maxRow (db.rows.filter fun q => q.name == key) with
      | none => rfl
      | some m => exact h m ((maxRow_latest u).1 hm)
  · rintro m hm hd rfl
    have hc : casRows db key m.id = [m] := by
      have hmem : m ∈ casRows db key m.id := by
        simp [casRows, maxId, (maxRow_latest u).2 hm, hd, hm.1]
      rcases casRows_cases u key m.id with h | ⟨r, _, h⟩ <;> rw [h] at hmem ⊢
      · cases hmem
      · rw [List.mem_singleton.1 hmem]
    constructor
    · simp only [runText, SqlAst.parse_updateSQL, Option.map_some, exec, SqlAst.updateSQL]
      rw [eval_cas hp u [.blob key, .int lease, .blob value, .blob key, .int m.id] 3 4 key m.id rfl rfl
        SqlAst.updateItems rfl, hc]
      simp only [List.map_cons, List.map_nil, List.foldl_cons, List.foldl_nil, List.length_cons, List.length_nil]
      simp only [SqlAst.updateItems, evalItems, eval_crev, evalE, Tables.ctx]
      rw [← insertRow_vals]
      simp [createRevisionOf]
    · simp only [runText, SqlAst.parse_deleteSQL, Option.map_some, exec, SqlAst.deleteSQL]
      rw [eval_cas hp u [.blob key, .int m.id] 0 1 key m.id rfl rfl SqlAst.deleteItems rfl, hc]
      simp only [List.map_cons, List.map_nil, List.foldl_cons, List.foldl_nil, List.length_cons, List.length_nil]
      simp only [SqlAst.deleteItems, evalItems, eval_crev, evalE, Tables.ctx]
      rw [← insertRow_vals]
      simp [createRevisionOf, hm.2.1]
  · intro h
    have hc : casRows db key rev = [] := by
      rcases casRows_cases u key rev with h' | ⟨r, hr, h'⟩
      · exact h'
      · have hmem : r ∈ casRows db key rev := by rw [h']; simp
        simp only [casRows, List.mem_filter, Bool.and_eq_true, beq_iff_eq, Bool.not_eq_true'] at hmem
        obtain ⟨_, ⟨h1, h2⟩, h3⟩ := hmem
        refine absurd ⟨r, ?_, h2, h3⟩ h
        obtain ⟨⟨x, hx, hxi⟩, hmax⟩ := maxId_eq_some.1 h1.symm
        simp only [List.mem_filter, beq_iff_eq] at hx hmax
        have := unique_id u hx.1 hr hxi
        subst this
        exact ⟨hr, hx.2, fun q hq hn => by rw [hxi]; exact hmax q ⟨hq, hn⟩⟩
    constructor
    · simp only [runText, SqlAst.parse_updateSQL, Option.map_some, exec, SqlAst.updateSQL]
      rw [eval_cas hp u [.blob key, .int lease, .blob value, .blob key, .int rev] 3 4 key rev rfl rfl
        SqlAst.updateItems rfl, hc]
      rfl
    · simp only [runText, SqlAst.parse_deleteSQL, Option.map_some, exec, SqlAst.deleteSQL]
      rw [eval_cas hp u [.blob key, .int rev] 0 1 key rev rfl rfl SqlAst.deleteItems rfl, hc]
      rfl

/-- The removal of one revision. -/
theorem C73_deleteRev (rev : Int) :
    runText SqlText.deleteRevSQL (phys E db) plan [.int rev] =
      some (phys E (deleteRevSQL db rev).1, (deleteRevSQL db rev).2.rowsAffected, []) := by
  simp only [runText, SqlAst.parse_deleteRevSQL, Option.map_some]; rw [eval_deleteRev]

/-- The three statements of a compaction transaction, with their own plans. -/
def compactTexts (t : Tables) (p₁ p₂ p₃ : List Nat → List Frame → List Frame) (start stop : Int) : Option Tables :=
  (runText SqlText.compactSuperseded t p₁ [.int start, .int stop]).bind fun x₁ =>
  (runText SqlText.compactTombstones x₁.1 p₂ [.int start, .int stop]).bind fun x₂ =>
  (runText SqlText.updateCompactSQL x₂.1 p₃ [.int stop]).map (·.1)

/-- A compaction transaction: the three texts together are the compaction function of the model, and no surviving
row's stored value changes. -/
theorem C73_compact {p₁ p₂ p₃ : List Nat → List Frame → List Frame} (hp : IsPlan p₁) (u : db.UniqueIds)
    (start stop : Int) :
    ∃ E', (∀ r ∈ (tryCompactTx db start stop).rows, ∃ q ∈ db.rows, q.id = r.id ∧ E'.val r = E.val q ∧ E'.old r = E.old q) ∧
      compactTexts (phys E db) p₁ p₂ p₃ start stop = some (phys E' (tryCompactTx db start stop)) := by
  have u1 : (compactSupersededSQL db start stop).UniqueIds := UniqueIds.filter u _
  have u2 : (compactTombstonesSQL (compactSupersededSQL db start stop) start stop).UniqueIds := UniqueIds.filter u1 _
  obtain ⟨E', h, e⟩ := eval_updateCompact (E := E) (p := p₃) u2 stop
  refine ⟨E', ?_, ?_⟩
  · intro r hr
    obtain ⟨q, hq, hx⟩ := h r hr
    exact ⟨q, (List.mem_filter.1 (List.mem_filter.1 hq).1).1, hx⟩
  · simp only [compactTexts, runText, SqlAst.parse_compactSuperseded, SqlAst.parse_compactTombstones,
      SqlAst.parse_updateCompactSQL, Option.map_some, Option.bind_some]
    rw [eval_superseded hp, eval_tombstones, e]
    rfl

/-! ## Independence of plan and storage -/

/-- Specification: two stored tables hold the same rows: equal in every column, except that an empty value may be
NULL in one and an empty blob in the other. -/
def SameValue (a b : Val) : Prop := a = b ∨ (a = .null ∨ a = .blob []) ∧ (b = .null ∨ b = .blob [])

theorem sameValue_of_valid {E₁ E₂ : Enc} (h₁ : E₁.Valid db) (h₂ : E₂.Valid db) {r : Row} (hr : r ∈ db.rows) :
    SameValue (E₁.val r) (E₂.val r) := by
  rcases h₁.val r hr with a | ⟨a, b⟩ <;> rcases h₂.val r hr with c | ⟨c, d⟩
  · exact Or.inl (a.trans c.symm)
  · rw [c] at a; exact Or.inr ⟨Or.inr a, Or.inl d⟩
  · rw [a] at c; exact Or.inr ⟨Or.inl b, Or.inr c⟩
  · exact Or.inl (b.trans d.symm)

/-- Range reads do not depend on the plan, on which of the two statement texts is used, or on how empty values are
stored: the same keys, revisions and leases in the same order, and the same values. -/
theorem C73_list_plan_independent {p₁ p₂ : List Nat → List Frame → List Frame} (h₁ : IsPlan p₁) (h₂ : IsPlan p₂)
    {E₁ E₂ : Enc} (v₁ : E₁.Valid db) (v₂ : E₂.Valid db) (u : db.UniqueIds) (b₁ b₂ : Bool) (lo hi : Bytes)
    (rev limit : Int) :
    ∃ rows : List Row, (∀ r ∈ rows, SameValue (E₁.val r) (E₂.val r)) ∧
      runText (listCall b₁ lo hi rev limit).1 (phys E₁ db) p₁ (listCall b₁ lo hi rev limit).2 =
        some (phys E₁ db, 0, rows.map (listVals E₁)) ∧
      runText (listCall b₂ lo hi rev limit).1 (phys E₂ db) p₂ (listCall b₂ lo hi rev limit).2 =
        some (phys E₂ db, 0, rows.map (listVals E₂)) := by
  obtain ⟨l₁, m₁, s₁, e₁⟩ := C73_list (E := E₁) h₁ u b₁ lo hi rev limit
  obtain ⟨l₂, m₂, s₂, e₂⟩ := C73_list (E := E₂) h₂ u b₂ lo hi rev limit
  have : l₁ = l₂ := pairwise_ext (lt := fun a b : Row => blt a.name b.name = true) (fun a b h h' => by
    rw [blt_asymm h] at h'; cases h') s₁ s₂ fun x => (m₁ x).trans (m₂ x).symm
  subst this
  refine ⟨if limit > 0 then l₁.take limit.toNat else l₁, ?_, e₁, e₂⟩
  intro r hr
  have hr' : r ∈ l₁ := by
    by_cases hl : limit > 0
    · rw [if_pos hl] at hr; exact List.mem_of_mem_take hr
    · rw [if_neg hl] at hr; exact hr
  exact sameValue_of_valid v₁ v₂ ((m₁ r).1 hr').1

/-- Writes do not depend on the plan: same number of affected rows and the same table. -/
theorem C73_write_plan_independent {p₁ p₂ : List Nat → List Frame → List Frame} (h₁ : IsPlan p₁) (h₂ : IsPlan p₂)
    (u : db.UniqueIds) (valid : E.Valid db) (key : Bytes) (lease rev : Int) (value : Bytes) :
    ∀ call ∈ [(SqlText.createSQL, [.blob key, .int lease, .blob value, .blob key]),
        (SqlText.updateSQL, [.blob key, .int lease, .blob value, .blob key, .int rev]),
        (SqlText.deleteSQL, [.blob key, .int rev])],
      ∃ (db' : DB) (E₁ E₂ : Enc) (n : Nat), E₁.Valid db' ∧ E₂.Valid db' ∧
        runText call.1 (phys E db) p₁ call.2 = some (phys E₁ db', n, []) ∧
        runText call.1 (phys E db) p₂ call.2 = some (phys E₂ db', n, []) := by
  intro call hc
  simp only [List.mem_cons, List.not_mem_nil, or_false] at hc
  rcases hc with rfl | rfl | rfl
  · obtain ⟨E₁, w₁, e₁⟩ := C73_create (E := E) h₁ u key lease value (.blob value) (Or.inl rfl)
    obtain ⟨E₂, w₂, e₂⟩ := C73_create (E := E) h₂ u key lease value (.blob value) (Or.inl rfl)
    exact ⟨_, E₁, E₂, _, w₁.valid valid, w₂.valid valid, e₁, e₂⟩
  · obtain ⟨E₁, w₁, e₁⟩ := C73_update (E := E) h₁ u key lease value rev (.blob value) (Or.inl rfl)
    obtain ⟨E₂, w₂, e₂⟩ := C73_update (E := E) h₂ u key lease value rev (.blob value) (Or.inl rfl)
    exact ⟨_, E₁, E₂, _, w₁.valid valid, w₂.valid valid, e₁, e₂⟩
  · obtain ⟨E₁, w₁, e₁⟩ := C73_delete (E := E) h₁ u key rev
    obtain ⟨E₂, w₂, e₂⟩ := C73_delete (E := E) h₂ u key rev
    exact ⟨_, E₁, E₂, _, w₁.valid valid, w₂.valid valid, e₁, e₂⟩

/-! ## Witnesses -/

/-- A plan that visits rows backwards everywhere. -/
def backwards : List Nat → List Frame → List Frame := fun _ l => l.reverse

theorem isPlan_backwards : IsPlan backwards := fun _ l => List.reverse_perm l

theorem isPlan_forwards : IsPlan fun _ l => l := fun _ l => List.Perm.refl l

/-- Storage with NULL for every empty value. -/
def nullEnc : Enc :=
  { val := fun r => if r.value = [] then .null else .blob r.value,
    old := fun r => if r.oldValue = [] then .null else .blob r.oldValue }

theorem nullEnc_valid : nullEnc.Valid db := by
  constructor <;> intro r _ <;> simp only [nullEnc] <;> split <;> simp_all

/-- The parsed texts run: reading `/`..`0` of the demo store with every scan backwards, at most two keys. -/
example :
    (runText (listCall true [0x2f] [0x30] 100 2).1 (phys nullEnc Demo.world.db) backwards
        (listCall true [0x2f] [0x30] 100 2).2).map (fun x => x.2.2.map fun r => r.getD 1 .null) =
      some [.text Demo.ka, .text Demo.kb] := by
  have e : listCall true [0x2f] [0x30] 100 2 =
    (SqlText.listSqlV1_0 ++ SqlText.limitSuffix, [.blob [0x2f], .blob [0x30], .int 100, .int 2]) := rfl
  rw [e]
  simp only [runText, SqlAst.parse_listSqlV1_0_limit, Option.map_some]
  decide +kernel

/-- The create text on the demo store: one row is appended for a new key, none for a live one. -/
example :
    ((runText SqlText.createSQL (phys nullEnc Demo.world.db) backwards [.blob [1], .int 0, .null, .blob [1]]).map
        fun x => x.2.1) = some 1 ∧
    ((runText SqlText.createSQL (phys nullEnc Demo.world.db) backwards
        [.blob Demo.ka, .int 0, .null, .blob Demo.ka]).map fun x => x.2.1) = some 0 := by
  simp only [runText, SqlAst.parse_createSQL, Option.map_some]
  decide +kernel

/-- The hypothesis `UniqueIds` holds of the demo store. -/
example : Demo.world.db.UniqueIds := C73_reachable Demo.reachable

end Verif
