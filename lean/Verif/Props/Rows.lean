import Verif.Lemmas.Reach
import Verif.Props.Demo
/-!
# Properties of the stored rows: C58 (key histories never fork), C61 (duplicate compaction markers)
-/

namespace Verif

/-! ## C58 Key histories never fork -/

/-- The unique index `(prev_revision, name)` of the old schema
(`/repo/pkg/backend/sqlite/schema.go:89-91`) is respected by the table. -/
def PrevUnique (db : DB) : Prop :=
  ∀ a ∈ db.rows, ∀ b ∈ db.rows, a.name = b.name → a.prevRevision = b.prevRevision → a = b

/-- As long as no old peer writes, no two stored rows of one key have the same predecessor, in every reachable
state; so no statement the system ever executes violates the unique index. -/
theorem C58_no_fork {s : Sys} (h : ReachableBy Call.modern s) : PrevUnique s.world.db := by
  have hc : Chain s.world.db := h.invariant (l := false) (J := fun w => Chain w.db) (fun c hc _ => hc)
    (by intro r hr; simp [World.init, DB.empty] at hr)
    (fun w eff o i hJ hk => chain_step i hJ hk o)
  have i := h.reachable.inv
  intro a ha b hb hn hp
  apply unique_id i.unique ha hb
  by_cases hm : a.name = compactRevKey
  · -- there is only one marker
    obtain ⟨c, hc, ec⟩ := (i.rowOk a ha).1
    obtain ⟨d, hd, ed⟩ := (i.rowOk b hb).1
    have e1 : c.key = compactRevKey := by rw [ec]; exact hm
    have e2 : d.key = compactRevKey := by rw [ed]; exact hn.symm.trans hm
    have := (i.marker c hc e1).2 d hd e2
    rw [ec, ed] at this
    exact (congrArg Commit.rev this).symm
  · obtain ⟨h1, h2⟩ := hc a ha hm
    obtain ⟨h3, h4⟩ := hc b hb (by rw [← hn]; exact hm)
    have h5 := h2 b hb hn.symm
    have h6 := h4 a ha hn
    omega

/-- With old peers writing too, rows that are not creations still never fork. -/
theorem C58_updates_never_fork {s : Sys} (h : Reachable s) :
    ∀ a ∈ s.world.db.rows, ∀ b ∈ s.world.db.rows, a.name = b.name → a.created = false → b.created = false →
      a.prevRevision = b.prevRevision → a = b := by
  have i := h.inv
  intro a ha b hb hn ca cb hp
  apply unique_id i.unique ha hb
  have key : ∀ {x y : Row}, x ∈ s.world.db.rows → y ∈ s.world.db.rows → x.name = y.name → y.created = false →
      x.created = false → x.prevRevision = y.prevRevision → ¬ x.id < y.id := by
    intro x y hx hy hn cy cx hp hlt
    obtain ⟨⟨c, hc, ec⟩, hx2⟩ := i.rowOk x hx
    obtain ⟨_, hy2⟩ := i.rowOk y hy
    simp only [cx, cy, Bool.false_eq_true, ↓reduceIte] at hx2 hy2
    obtain ⟨p, hp1, _, hp3, _⟩ := hx2
    obtain ⟨q, hq1, _, hq3, _⟩ := hy2
    have h1 := (at_some_inv i.wf hp1).2.1
    have h2 := (at_some_inv i.wf hq1).2.2.2.2 c hc (by rw [ec]; exact hn) (by rw [ec]; change x.id ≤ _; omega)
    rw [ec] at h2
    change x.id ≤ _ at h2
    omega
  have h1 := key ha hb hn cb ca hp
  have h2 := key hb ha hn.symm ca cb hp.symm
  omega

/-- Witness: a reachable system with three versions of two keys. -/
example : ∃ s, ReachableBy Call.modern s ∧ s.world = Demo.world := by
  refine ⟨Demo.sys, ?_, rfl⟩
  have run : ∀ (p : Prog Unit) (os : List Outcome) (w : World) (pool : List (Prog Unit)),
      ReachableBy Call.modern ⟨w, p :: pool⟩ → ReachableBy Call.modern ⟨runCall p os w, pool⟩ := by
    intro p
    induction p with
    | ret a => intro os w pool h; exact .stop w [] pool _ h
    | stmt eff k ih =>
      intro os w pool h
      cases os with
      | nil => exact .stop w [] pool _ h
      | cons o os => exact ih o w.db os _ pool (.exec w [] pool eff k o h)
  have runs : ∀ (cs : List (Call × List Outcome)) (w : World), (∀ c ∈ cs, c.1.allowed ∧ c.1.modern) →
      ReachableBy Call.modern ⟨w, []⟩ → ReachableBy Call.modern ⟨runCalls cs w, []⟩ := by
    intro cs
    induction cs with
    | nil => intro w _ h; exact h
    | cons c cs ih =>
      intro w hc h
      exact ih _ (fun x hx => hc x (by simp [hx]))
        (run _ _ _ _ (.spawn c.1 (hc c (by simp)).1 (hc c (by simp)).2 h))
  apply runs Demo.setup World.init _ .init
  intro c hc
  refine ⟨?_, ?_⟩
  · have : Demo.setup.all (fun c => decide c.1.allowed) = true := by decide +kernel
    simpa using List.all_eq_true.1 this c hc
  · simp only [Demo.setup, List.mem_cons, List.not_mem_nil, or_false] at hc
    rcases hc with rfl | rfl | rfl | rfl | rfl | rfl <;> trivial

/-! ## C61 Duplicate compaction markers -/

/-- Uninterrupted, fault-free execution of a program. -/
def runOk {α : Type} : Prog α → DB → DB × α
  | .ret a, db => (db, a)
  | .stmt eff k, db => runOk (k .ok db) (eff db)

theorem runOk_bind {α β : Type} (p : Prog α) (f : α → Prog β) (db : DB) :
    runOk (p.bind f) db = runOk (f (runOk p db).2) (runOk p db).1 := by
  induction p generalizing db with
  | ret a => rfl
  | stmt eff k ih => exact ih .ok db (eff db)

theorem runOk_andThen {ε α β : Type} {p : Prog (Except ε α)} {f : α → Prog (Except ε β)} {db db' : DB} {a : α}
    (h : runOk p db = (db', .ok a)) : runOk (p.andThen f) db = runOk (f a) db' := by
  unfold Prog.andThen
  rw [runOk_bind, h]

theorem runOk_query {β : Type} (sel : DB → β) (db : DB) : runOk (query sel) db = (db, .ok (sel db, none)) := rfl

theorem runOk_deleteRevision (rev : Int) (db : DB) :
    runOk (Driver.deleteRevision rev) db = ((deleteRevSQL db rev).1, .ok ()) := rfl

theorem runOk_deleteMarkers (keep : Int) (es : List Event) (db : DB) :
    runOk (deleteMarkers keep es) db =
      ({ db with rows := db.rows.filter fun r => decide (∀ e ∈ es, e.kv.modRev = r.id → r.id = keep) }, .ok ()) := by
  induction es generalizing db with
  | nil =>
    simp only [deleteMarkers, runOk, List.not_mem_nil, false_implies, implies_true, decide_true]
    rw [List.filter_eq_self.2 (by simp)]
  | cons e es ih =>
    unfold deleteMarkers
    split
    · rename_i hk
      rw [ih]
      congr 2
      apply List.filter_congr
      intro r _
      rw [decide_eq_decide]
      simp only [List.mem_cons, forall_eq_or_imp]
      constructor
      · intro h; exact ⟨fun hr => by omega, h⟩
      · intro h; exact h.2
    · rename_i hk
      rw [runOk_andThen (runOk_deleteRevision _ _), ih]
      congr 2
      simp only [deleteRevSQL, List.filter_filter]
      apply List.filter_congr
      intro r _
      rw [Bool.eq_iff_iff]
      simp only [List.mem_cons, forall_eq_or_imp, Bool.and_eq_true, decide_eq_true_eq, Bool.not_eq_true',
        beq_eq_false_iff_ne, ne_eq]
      constructor
      · rintro ⟨h1, h2⟩
        exact ⟨fun hr => absurd hr.symm h2, h1⟩
      · rintro ⟨h1, h2⟩
        refine ⟨h2, fun hr => hk ?_⟩
        rw [← hr] at h1 ⊢
        exact h1 rfl

theorem maxMarker_spec (es : List Event) (a : Int × Int) :
    (maxMarker es a = a ∨ ∃ e ∈ es, ∃ p, e.prevKv = some p ∧ maxMarker es a = (p.modRev, e.kv.modRev)) ∧
    a.1 ≤ (maxMarker es a).1 ∧ ∀ e ∈ es, ∀ p, e.prevKv = some p → p.modRev ≤ (maxMarker es a).1 := by
  induction es generalizing a with
  | nil => exact ⟨Or.inl rfl, Int.le_refl _, by simp⟩
  | cons e es ih =>
    obtain ⟨r, i⟩ := a
    unfold maxMarker
    have step : ∀ b : Int × Int, (b = (r, i) ∨ ∃ p, e.prevKv = some p ∧ b = (p.modRev, e.kv.modRev)) → r ≤ b.1 →
        (∀ p, e.prevKv = some p → p.modRev ≤ b.1) →
        (maxMarker es b = (r, i) ∨ ∃ e' ∈ e :: es, ∃ p, e'.prevKv = some p ∧ maxMarker es b = (p.modRev, e'.kv.modRev)) ∧
        r ≤ (maxMarker es b).1 ∧ ∀ e' ∈ e :: es, ∀ p, e'.prevKv = some p → p.modRev ≤ (maxMarker es b).1 := by
      intro b hb hr hp
      obtain ⟨h1, h2, h3⟩ := ih b
      refine ⟨?_, by omega, ?_⟩
      · rcases h1 with h1 | ⟨e', he', p, hp', h1⟩
        · rw [h1]
          rcases hb with hb | ⟨p, hp', hb⟩
          · exact Or.inl hb
          · exact Or.inr ⟨e, by simp, p, hp', hb⟩
        · exact Or.inr ⟨e', by simp [he'], p, hp', h1⟩
      · intro e' he' p hp'
        rcases List.mem_cons.1 he' with rfl | he'
        · have := hp p hp'; omega
        · exact h3 e' he' p hp'
    cases hp : e.prevKv with
    | none => exact step _ (Or.inl rfl) (Int.le_refl _) (fun p h => by rw [hp] at h; cases h)
    | some p =>
      simp only
      split
      · exact step _ (Or.inr ⟨p, hp, rfl⟩) (by simp only; omega) (fun q h => by rw [hp] at h; cases h; exact Int.le_refl _)
      · exact step _ (Or.inl rfl) (Int.le_refl _) (fun q h => by rw [hp] at h; cases h; simp only; omega)

/-- The marker rows of a table. -/
def DB.markerRows (db : DB) : List Row := db.rows.filter fun r => r.name == compactRevKey

theorem maxPrev_spec {rs : List Row} {m : Int} :
    maxPrev rs = some m ↔ (∃ r ∈ rs, r.prevRevision = m) ∧ ∀ r ∈ rs, r.prevRevision ≤ m := by
  induction rs generalizing m with
  | nil => simp [maxPrev]
  | cons r rs ih =>
    unfold maxPrev
    cases h : maxPrev rs with
    | none =>
      have : rs = [] := by
        cases rs with
        | nil => rfl
        | cons a l =>
          unfold maxPrev at h
          split at h <;> cases h
      subst this
      simp only [Option.some.injEq, List.mem_singleton, exists_eq_left, forall_eq]
      constructor
      · intro h; exact ⟨h, by omega⟩
      · intro h; exact h.1
    | some k =>
      obtain ⟨⟨x, hx, ex⟩, hmax⟩ := ih.1 h
      simp only [Option.some.injEq]
      constructor
      · intro e
        split at e
        · subst e
          refine ⟨⟨r, by simp, rfl⟩, ?_⟩
          intro y hy
          rcases List.mem_cons.1 hy with rfl | hy
          · exact Int.le_refl _
          · have := hmax y hy; omega
        · subst e
          refine ⟨⟨x, by simp [hx], ex⟩, ?_⟩
          intro y hy
          rcases List.mem_cons.1 hy with rfl | hy
          · omega
          · exact hmax y hy
      · rintro ⟨⟨y, hy, ey⟩, hall⟩
        have h1 := hall r (by simp)
        have h2 := hall x (by simp [hx])
        rcases List.mem_cons.1 hy with rfl | hy
        · split <;> omega
        · have := hmax y hy; split <;> omega

/-- Partial: if the highest compact revision is recorded in a marker row that is an update (not flagged as
created), start-up keeps exactly one marker, it records that revision, and nothing else in the table changes.
(Missing: markers flagged as created are never considered, see the counterexamples.) -/
theorem C61_repair_partial {db : DB} (hid : db.rows.Pairwise fun a b => a.id ≠ b.id) (hpos : ∀ r ∈ db.rows, 0 < r.id)
    (hdup : 2 ≤ db.markerRows.length)
    (hbest : ∃ m ∈ db.markerRows, m.created = false ∧ 0 < m.prevRevision ∧
      ∀ r ∈ db.markerRows, r.prevRevision ≤ m.prevRevision) :
    ∃ db' m, runOk Backend.compactStart db = (db', .ok ()) ∧ db'.markerRows = [m] ∧
      m ∈ db.markerRows ∧ db'.compactRev = db.compactRev ∧
      (db'.rows.filter fun r => !(r.name == compactRevKey)) = (db.rows.filter fun r => !(r.name == compactRevKey)) := by
  obtain ⟨best, hb, hbc, hb0, hbmax⟩ := hbest
  obtain ⟨hbr, hbn⟩ := List.mem_filter.1 hb
  obtain ⟨top, htop⟩ := maxRow_exists hbr
  have hcur : runOk Driver.currentRevision db = (db, .ok top.id) := by
    unfold Driver.currentRevision
    rw [runOk_andThen (runOk_query _ _)]
    simp only [oneRow, Prog.bind, revSQL, maxId, htop, Option.map_some]
    rfl
  -- what the query sees: all markers
  have hsel : ∀ r, r ∈ afterSQLPrefix db compactRevKey (rangeEndOf compactRevKey (compactRevKey ++ [0])) 0 top.id ↔
      r ∈ db.markerRows := by
    intro r
    unfold afterSQLPrefix DB.markerRows
    rw [mem_orderBy, List.mem_filter, List.mem_filter]
    have e : rangeEndOf compactRevKey (compactRevKey ++ [0]) = compactRevKey ++ [0] := rfl
    rw [e]
    constructor
    · rintro ⟨h1, h2⟩
      simp only [Bool.and_eq_true] at h2
      exact ⟨h1, by simpa using inRange_single.1 h2.1.1⟩
    · rintro ⟨h1, h2⟩
      refine ⟨h1, ?_⟩
      simp only [Bool.and_eq_true, decide_eq_true_eq]
      exact ⟨⟨inRange_single.2 (by simpa using h2), hpos r h1⟩, (maxRow_some htop).2 r h1⟩
  generalize hrows : afterSQLPrefix db compactRevKey (rangeEndOf compactRevKey (compactRevKey ++ [0])) 0 top.id = rows
    at hsel
  have hlen : 2 ≤ rows.length := by
    have : rows.Perm db.markerRows := by
      rw [← hrows]
      unfold afterSQLPrefix DB.markerRows
      refine (orderBy_perm _ _).trans ?_
      rw [List.filter_congr]
      intro r hr
      rw [Bool.eq_iff_iff]
      have := hsel r
      rw [← hrows] at this
      unfold afterSQLPrefix DB.markerRows at this
      rw [mem_orderBy, List.mem_filter, List.mem_filter] at this
      constructor
      · intro h; exact (this.1 ⟨hr, h⟩).2
      · intro h; exact (this.2 ⟨hr, h⟩).2
    rw [this.length_eq]; exact hdup
  have hrun : runOk Backend.compactStart db
      = runOk (deleteMarkers (maxMarker (rows.map scanEvent) (0, 0)).2 (rows.map scanEvent)) db := by
    unfold Backend.compactStart
    rw [runOk_andThen hcur]
    unfold Driver.afterPrefix
    rw [runOk_andThen (runOk_query _ _), hrows]
    simp only [scanAll]
    match rows, hlen with
    | a :: b :: l, _ => rfl
  rw [runOk_deleteMarkers] at hrun
  -- the marker that is kept
  obtain ⟨h1, _, h3⟩ := maxMarker_spec (rows.map scanEvent) (0, 0)
  have hbe : scanEvent best ∈ rows.map scanEvent := List.mem_map.2 ⟨best, (hsel best).2 hb, rfl⟩
  have hbp : (scanEvent best).prevKv = some ⟨best.name, best.oldValue, best.lease,
      (if best.created then best.id else best.createRevision), best.prevRevision⟩ := by
    simp [scanEvent, hbc]
  have hge := h3 _ hbe _ hbp
  simp only at hge
  obtain ⟨m, hm, hmk, hmp⟩ : ∃ m ∈ db.markerRows, (maxMarker (rows.map scanEvent) (0, 0)).2 = m.id ∧
      m.prevRevision = best.prevRevision := by
    rcases h1 with h1 | ⟨e, he, p, hp, h1⟩
    · rw [h1] at hge; simp only at hge; omega
    · obtain ⟨x, hx, rfl⟩ := List.mem_map.1 he
      refine ⟨x, (hsel x).1 hx, by rw [h1]; rfl, ?_⟩
      have hxm := hbmax x ((hsel x).1 hx)
      unfold scanEvent at hp
      simp only at hp
      split at hp
      · cases hp
      · cases hp
        rw [h1] at hge
        simp only at hge
        omega
  rw [hmk] at hrun
  obtain ⟨hmr, hmn⟩ := List.mem_filter.1 hm
  have hkeep : ∀ r ∈ db.rows, (∀ e ∈ rows.map scanEvent, e.kv.modRev = r.id → r.id = m.id) ↔
      (r.name ≠ compactRevKey ∨ r = m) := by
    intro r hr
    constructor
    · intro h
      by_cases hn : r.name = compactRevKey
      · right
        exact unique_id hid hr hmr (h (scanEvent r)
          (List.mem_map.2 ⟨r, (hsel r).2 (List.mem_filter.2 ⟨hr, by simpa using hn⟩), rfl⟩) rfl)
      · exact Or.inl hn
    · intro h e he hre
      obtain ⟨x, hx, rfl⟩ := List.mem_map.1 he
      obtain ⟨hxr, hxn⟩ := List.mem_filter.1 ((hsel x).1 hx)
      have : x = r := unique_id hid hxr hr hre
      subst this
      rcases h with h | h
      · exact absurd (by simpa using hxn) h
      · rw [h]
  have hmarkers : DB.markerRows ⟨db.rows.filter (fun r =>
      decide (∀ e ∈ rows.map scanEvent, e.kv.modRev = r.id → r.id = m.id)), db.seq⟩ = [m] := by
    unfold DB.markerRows
    simp only [List.filter_filter]
    rw [← filter_id_singleton hid hmr]
    apply List.filter_congr
    intro r hr
    rw [Bool.eq_iff_iff]
    simp only [Bool.and_eq_true, decide_eq_true_eq, hkeep r hr, beq_iff_eq]
    constructor
    · rintro ⟨h1, h2 | h2⟩
      · exact absurd h1 h2
      · rw [h2]
    · intro h
      have := unique_id hid hr hmr h
      subst this
      exact ⟨by simpa using hmn, Or.inr rfl⟩
  refine ⟨_, m, hrun, hmarkers, hm, ?_, ?_⟩
  · unfold DB.compactRev revisionIntervalSQL
    have e1 := hmarkers
    unfold DB.markerRows at e1
    simp only [e1]
    have e2 : maxPrev (db.rows.filter fun r => r.name == compactRevKey) = some m.prevRevision :=
      maxPrev_spec.2 ⟨⟨m, hm, rfl⟩, fun r hr => by have := hbmax r hr; omega⟩
    rw [e2]; rfl
  · simp only [List.filter_filter]
    apply List.filter_congr
    intro r hr
    rw [Bool.eq_iff_iff]
    simp only [Bool.and_eq_true, decide_eq_true_eq, hkeep r hr, Bool.not_eq_true', beq_eq_false_iff_ne, ne_eq]
    constructor
    · intro h; exact h.1
    · intro h; exact ⟨h, Or.inl h⟩

/-- A marker row. -/
def markerRow (id : Int) (created : Bool) (prev : Int) : Row :=
  { id := id, name := compactRevKey, created := created, deleted := false, createRevision := 0,
    prevRevision := prev, lease := 0, value := [], oldValue := [] }

/-- Witness of the partial theorem: two markers, the update records revision 900. -/
example : runOk Backend.compactStart { rows := [markerRow 2 true 0, markerRow 1500 false 900], seq := 1500 } =
    ({ rows := [markerRow 1500 false 900], seq := 1500 }, .ok ()) := by decide +kernel

/-- The full property fails: markers as this version writes them are flagged created; if all are, start-up
deletes every one of them and the compact revision drops to 0. -/
theorem C61_all_created_counterexample : ∃ db, 2 ≤ db.markerRows.length ∧ db.compactRev = 900 ∧
    ∃ db', runOk Backend.compactStart db = (db', .ok ()) ∧ db'.markerRows = [] ∧ db'.compactRev = 0 :=
  ⟨{ rows := [markerRow 2 true 700, markerRow 1500 true 900], seq := 1500 }, by decide +kernel, by decide +kernel,
    { rows := [], seq := 1500 }, by decide +kernel, by decide +kernel, by decide +kernel⟩

/-- The full property fails: a marker flagged created with the highest revision is dropped in favour of an
older update row, and the compact revision goes back from 900 to 100. -/
theorem C61_goes_back_counterexample : ∃ db db', 2 ≤ db.markerRows.length ∧ db.compactRev = 900 ∧
    runOk Backend.compactStart db = (db', .ok ()) ∧ db'.compactRev = 100 :=
  ⟨{ rows := [markerRow 2 true 900, markerRow 150 false 100], seq := 1500 },
    { rows := [markerRow 150 false 100], seq := 1500 }, by decide +kernel, by decide +kernel, by decide +kernel,
    by decide +kernel⟩

end Verif
