import Verif.Model.Schema
/-!
# Properties of schema versions and schema setup: C45, C46
-/

namespace Verif

/-! ## C45 Schema version packing round-trips -/

theorem minor_pack (M m : BitVec 16) : versionMinor (packVersion M m) = m := by
  apply BitVec.eq_of_getLsbD_eq
  intro i hi
  simp [versionMinor, packVersion, BitVec.getLsbD_signExtend, hi]
  intro h; omega

theorem major_pack (M m : BitVec 16) (h : m.msb = false) : versionMajor (packVersion M m) = M := by
  apply BitVec.eq_of_getLsbD_eq
  intro i hi
  simp [versionMajor, packVersion, BitVec.getLsbD_signExtend, BitVec.getLsbD_sshiftRight, hi, h]
  rw [if_pos (by omega)]
  have h1 : ¬ 32 ≤ i := by omega
  have h2 : i < 32 := by omega
  have h3 : 16 + i < 32 := by omega
  simp [h1, h2, h3]

theorem pack_toInt (M m : BitVec 16) (h : m.msb = false) : (packVersion M m).toInt = M.toInt * 65536 + m.toInt := by
  unfold packVersion
  have : (M.signExtend 32 <<< 16) &&& m.signExtend 32 = 0#32 := by
    apply BitVec.eq_of_getLsbD_eq
    intro i hi
    simp [BitVec.getLsbD_signExtend, h]
    intros
    omega
  rw [← BitVec.add_eq_or_of_and_eq_zero _ _ this]
  have hM : (M.signExtend 32 <<< 16).toInt = M.toInt * 65536 := by
    rw [BitVec.shiftLeft_eq_mul_twoPow, BitVec.toInt_mul, BitVec.toInt_signExtend_of_le (by omega),
      show (BitVec.twoPow 32 16).toInt = 65536 by decide]
    have h1 := @BitVec.le_toInt 16 M
    have h2 := @BitVec.toInt_lt 16 M
    apply Int.bmod_eq_of_le <;> omega
  have hm : (m.signExtend 32).toInt = m.toInt := BitVec.toInt_signExtend_of_le (by omega)
  have h1 := @BitVec.le_toInt 16 M
  have h2 := @BitVec.toInt_lt 16 M
  have h3 := @BitVec.le_toInt 16 m
  have h4 := @BitVec.toInt_lt 16 m
  have h5 : 0 ≤ m.toInt := by
    rw [BitVec.toInt_eq_msb_cond, h]; simp
  rw [BitVec.toInt_add, hM, hm]
  apply Int.bmod_eq_of_le <;> omega

theorem msb_of_nonneg {m : BitVec 16} (h : 0 ≤ m.toInt) : m.msb = false := by
  cases hm : m.msb with
  | false => rfl
  | true =>
    rw [BitVec.toInt_eq_msb_cond, hm] at h
    have := m.isLt
    simp at h
    omega

/-- For every signed 16-bit major and every minor that is not negative: packing and unpacking returns the pair. (The
minor comes back whatever it is.). -/
theorem C45_roundtrip (major minor : BitVec 16) :
    versionMinor (packVersion major minor) = minor ∧
    (0 ≤ minor.toInt → versionMajor (packVersion major minor) = major) :=
  ⟨minor_pack major minor, fun h => major_pack major minor (msb_of_nonneg h)⟩

/-- Packed versions compare like the pairs, major first, for all majors and all non-negative minors. -/
theorem C45_order (M₁ m₁ M₂ m₂ : BitVec 16) (h₁ : 0 ≤ m₁.toInt) (h₂ : 0 ≤ m₂.toInt) :
    (packVersion M₁ m₁).toInt < (packVersion M₂ m₂).toInt ↔
      M₁.toInt < M₂.toInt ∨ (M₁.toInt = M₂.toInt ∧ m₁.toInt < m₂.toInt) := by
  rw [pack_toInt _ _ (msb_of_nonneg h₁), pack_toInt _ _ (msb_of_nonneg h₂)]
  have h3 := @BitVec.toInt_lt 16 m₁
  have h4 := @BitVec.toInt_lt 16 m₂
  omega

/-- A negative minor destroys the major: version (1, -1) reads back as (-1, -1). -/
theorem C45_negative_minor_excluded : versionMajor (packVersion 1 (-1)) = -1 ∧ (1 : BitVec 16) ≠ -1 := by decide

/-- Versions 1.0 and 0.1. -/
example : packVersion 1 0 = 65536 ∧ packVersion 0 1 = 1 ∧ 0 ≤ (1 : BitVec 16).toInt := by decide

/-! ## C46 Schema setup is safe and idempotent -/

/-- Specification: the database after a complete migration. -/
def migrated (d : SchemaDB) : SchemaDB :=
  { version := 65536
    kine := some (d.kine.getD DB.empty)
    indexes := (d.indexes.filter fun i => i ≠ .name ∧ i ≠ .prevRevision) ++
      (if KineIndex.nameDel ∈ d.indexes then [] else [.nameDel]) }

theorem filter_indexes (l : List KineIndex) :
    (l.filter (· ≠ .name)).filter (· ≠ .prevRevision) = l.filter fun i => i ≠ .name ∧ i ≠ .prevRevision := by
  rw [List.filter_filter]
  congr 1
  funext i
  cases i <;> decide

theorem runSchema_append {f : Nat → Option DbErr} {n : Nat} {a b : List SchemaStmt} {d d' : SchemaDB}
    (h : runSchema f n (a ++ b) d = .ok d') :
    ∃ d1, runSchema f n a d = .ok d1 ∧ runSchema f (n + a.length) b d1 = .ok d' := by
  induction a generalizing n d with
  | nil => exact ⟨d, rfl, h⟩
  | cons s ss ih =>
    rw [List.cons_append] at h
    unfold runSchema at h
    split at h
    · cases h
    · rename_i hf
      cases hr : s.run d with
      | error e => rw [hr] at h; cases h
      | ok d1 =>
        rw [hr] at h
        obtain ⟨d2, h1, h2⟩ := ih h
        refine ⟨d2, by unfold runSchema; rw [hf, hr]; exact h1, ?_⟩
        rw [List.length_cons, show n + (ss.length + 1) = n + 1 + ss.length by omega]
        exact h2

theorem runSchema_cons {f : Nat → Option DbErr} {n : Nat} {s : SchemaStmt} {ss : List SchemaStmt} {d d' : SchemaDB}
    (h : runSchema f n (s :: ss) d = .ok d') : ∃ d1, s.run d = .ok d1 ∧ runSchema f (n + 1) ss d1 = .ok d' := by
  unfold runSchema at h
  split at h
  · cases h
  · cases hr : s.run d with
    | error e => rw [hr] at h; cases h
    | ok d1 => rw [hr] at h; exact ⟨d1, rfl, h⟩

theorem createIndex_run {i : KineIndex} {d d' : SchemaDB} (h : (SchemaStmt.createIndex i).run d = .ok d') :
    ∃ t, d.kine = some t ∧ d'.kine = some t ∧ d'.version = d.version ∧
      d'.indexes = if i ∈ d.indexes then d.indexes else d.indexes ++ [i] := by
  unfold SchemaStmt.run at h
  simp only at h
  cases hk : d.kine with
  | none => rw [hk] at h; cases h
  | some t =>
    rw [hk] at h
    simp only at h
    split at h
    · rename_i hi
      cases h
      exact ⟨t, rfl, hk, rfl, by rw [if_pos hi]⟩
    · rename_i hi
      split at h
      · cases h
        exact ⟨t, rfl, rfl, rfl, by rw [if_neg hi]⟩
      · cases h

/-- A completed migration is the specified one. -/
theorem migration_ok {f : Nat → Option DbErr} {d d' : SchemaDB} (h : runSchema f 0 (migration d) d = .ok d') :
    d' = migrated d := by
  unfold migration at h
  obtain ⟨dB, hAB, hV⟩ := runSchema_append h
  obtain ⟨dA, hA, hB⟩ := runSchema_append hAB
  -- first migration
  have hA' : ∃ t, dA.kine = some t ∧ t = d.kine.getD DB.empty ∧ dA.version = d.version ∧
      (dA.indexes.filter fun i => i ≠ .name ∧ i ≠ .prevRevision) =
        d.indexes.filter fun i => i ≠ .name ∧ i ≠ .prevRevision := by
    unfold schemaV0_1 at hA
    obtain ⟨d1, h1, hA⟩ := runSchema_append hA
    obtain ⟨d0, h0, h1⟩ := runSchema_cons h1
    cases h0
    obtain ⟨d2, h2, hA⟩ := runSchema_cons hA
    obtain ⟨d3, h3, hA⟩ := runSchema_cons hA
    cases hA
    obtain ⟨t2, e2, e2', v2, i2⟩ := createIndex_run h2
    obtain ⟨t3, e3, e3', v3, i3⟩ := createIndex_run h3
    rw [e2'] at e3
    cases e3
    have hx : ∀ (j : KineIndex) (l : List KineIndex), (j = .name ∨ j = .prevRevision) →
        ((if j ∈ l then l else l ++ [j]).filter fun i => i ≠ .name ∧ i ≠ .prevRevision) =
          l.filter fun i => i ≠ .name ∧ i ≠ .prevRevision := by
      intro j l hj
      split
      · rfl
      · rw [List.filter_append]
        rcases hj with rfl | rfl <;> simp
    by_cases hk : d.kine.isNone
    · rw [if_pos hk] at h1
      obtain ⟨d1', h1', h1⟩ := runSchema_cons h1
      cases h1
      have hk' : d.kine = none := by simpa using hk
      unfold SchemaStmt.run at h1'
      simp only [hk'] at h1'
      cases h1'
      simp only [Option.some.injEq] at e2
      refine ⟨t2, e3', by rw [hk', ← e2]; rfl, by rw [v3, v2], ?_⟩
      rw [i3, hx _ _ (Or.inr rfl), i2, hx _ _ (Or.inl rfl)]
    · rw [if_neg hk] at h1
      obtain ⟨d1a, h1a, h1⟩ := runSchema_cons h1
      obtain ⟨d1b, h1b, h1⟩ := runSchema_cons h1
      cases h1
      cases h1a
      cases h1b
      refine ⟨t2, e3', ?_, by rw [v3, v2], ?_⟩
      · simp only at e2
        rw [e2]; rfl
      · rw [i3, hx _ _ (Or.inr rfl), i2, hx _ _ (Or.inl rfl)]
        simp only [List.filter_filter]
        congr 1
        funext i
        cases i <;> decide
  obtain ⟨t, hk, ht, hv, hi⟩ := hA'
  -- second migration
  unfold schemaV1_0 at hB
  obtain ⟨d1, h1, hB⟩ := runSchema_cons hB
  obtain ⟨d2, h2, hB⟩ := runSchema_cons hB
  obtain ⟨d3, h3, hB⟩ := runSchema_cons hB
  cases hB
  cases h1
  cases h2
  obtain ⟨t3, e3, e3', v3, i3⟩ := createIndex_run h3
  obtain ⟨d4, h4, hV⟩ := runSchema_cons hV
  cases hV
  cases h4
  simp only at e3 i3 v3
  rw [hk] at e3
  cases e3
  rw [filter_indexes, hi] at i3
  unfold migrated
  rw [← ht, e3', i3]
  have hmem : (KineIndex.nameDel ∈ d.indexes.filter fun i => i ≠ .name ∧ i ≠ .prevRevision) ↔
      KineIndex.nameDel ∈ d.indexes := by simp [List.mem_filter]
  simp only [hmem]
  split <;> simp [currentVersion, packVersion]

/-- Whatever is read optimistically and whatever fails, `setup` leaves the database as it is or migrates it completely;
it migrates only a database of version 0.0. -/
theorem C46_all_or_nothing (seen : BitVec 32) (f : SetupFaults) (d : SchemaDB) :
    (setup seen f d).1 = d ∨ (d.version = 0 ∧ (setup seen f d).1 = migrated d) := by
  unfold setup
  cases f.conn with
  | some e => exact Or.inl rfl
  | none =>
  cases f.read with
  | some e => exact Or.inl rfl
  | none =>
  simp only
  split
  · exact Or.inl rfl
  split
  · exact Or.inl rfl
  cases f.begin with
  | some e => exact Or.inl rfl
  | none =>
  cases f.read2 with
  | some e => exact Or.inl rfl
  | none =>
  simp only
  split
  · exact Or.inl rfl
  split
  · exact Or.inl rfl
  by_cases hv : d.version = packVersion 0 0
  · rw [if_pos hv]
    cases hr : runSchema f.stmts 0 (migration d) d with
    | error e => exact Or.inl rfl
    | ok d' =>
      have := migration_ok hr
      cases f.commit with
      | ok => exact Or.inr ⟨by rw [hv]; decide, this⟩
      | fail e => exact Or.inl rfl
      | lost e => exact Or.inr ⟨by rw [hv]; decide, this⟩
  · rw [if_neg hv]
    cases f.commit with
    | ok => exact Or.inl rfl
    | fail e => exact Or.inl rfl
    | lost e => exact Or.inl rfl

/-- Setup never loses, adds or changes a row. -/
theorem C46_rows_kept (seen : BitVec 32) (f : SetupFaults) (d : SchemaDB) :
    ((setup seen f d).1.kine.getD DB.empty) = d.kine.getD DB.empty := by
  rcases C46_all_or_nothing seen f d with h | ⟨_, h⟩
  · rw [h]
  · rw [h]; rfl

/-- A reported failure leaves the database as it was, unless just the answer to the commit was lost; then the migration
is complete. -/
theorem C46_failure_changes_nothing (seen : BitVec 32) (f : SetupFaults) (d : SchemaDB) (e : SetupErr)
    (h : (setup seen f d).2 = .error e) :
    (setup seen f d).1 = d ∨ ((setup seen f d).1 = migrated d ∧ ∃ e', f.commit = .lost e') := by
  unfold setup at h ⊢
  cases hc : f.conn with
  | some e => exact Or.inl rfl
  | none =>
  cases hr : f.read with
  | some e => exact Or.inl rfl
  | none =>
  simp only [hc, hr] at h ⊢
  split
  · exact Or.inl rfl
  split
  · exact Or.inl rfl
  rename_i h1 h2
  rw [if_neg h1, if_neg h2] at h
  cases hb : f.begin with
  | some e => exact Or.inl rfl
  | none =>
  cases hr2 : f.read2 with
  | some e => exact Or.inl rfl
  | none =>
  simp only [hb, hr2] at h ⊢
  split
  · exact Or.inl rfl
  split
  · exact Or.inl rfl
  rename_i h3 h4
  rw [if_neg h3, if_neg h4] at h
  by_cases hv : d.version = packVersion 0 0
  · rw [if_pos hv] at h ⊢
    cases hrun : runSchema f.stmts 0 (migration d) d with
    | error e => exact Or.inl rfl
    | ok d' =>
      rw [hrun] at h
      have := migration_ok hrun
      cases hcm : f.commit with
      | ok => rw [hcm] at h; cases h
      | fail e => exact Or.inl rfl
      | lost e => exact Or.inr ⟨this, e, rfl⟩
  · rw [if_neg hv] at h ⊢
    cases hcm : f.commit with
    | ok => rw [hcm] at h; cases h
    | fail e => exact Or.inl rfl
    | lost e => exact Or.inl rfl

/-- A fresh or unversioned database for which setup reports success is at the current version, with exactly the indexes
of that version besides any others, and with all its rows. -/
theorem C46_success (f : SetupFaults) (d : SchemaDB) (hd : d.version = 0) (v : BitVec 32)
    (h : (setup d.version f d).2 = .ok v) : (setup d.version f d).1 = migrated d := by
  unfold setup at h ⊢
  have c1 : versionCompatible d.version currentVersion = true := by rw [hd]; decide
  have c2 : currentVersion.sle d.version = false := by rw [hd]; decide
  have c3 : d.version = packVersion 0 0 := by rw [hd]; decide
  cases hc : f.conn with
  | some e => rw [hc] at h; cases h
  | none =>
  cases hr : f.read with
  | some e => rw [hc, hr] at h; cases h
  | none =>
  cases hb : f.begin with
  | some e => simp [hc, hr, hb, c1, c2] at h
  | none =>
  cases hr2 : f.read2 with
  | some e => simp [hc, hr, hb, hr2, c1, c2] at h
  | none =>
  rw [hc, hr, hb, hr2] at h
  simp only [c1, c2, Bool.not_true, if_false, Bool.false_eq_true, if_pos c3] at h ⊢
  cases hrun : runSchema f.stmts 0 (migration d) d with
  | error e => rw [hrun] at h; cases h
  | ok d' =>
    rw [hrun] at h
    have := migration_ok hrun
    cases hcm : f.commit with
    | ok => exact this
    | fail e => rw [hcm] at h; cases h
    | lost e => rw [hcm] at h; cases h

/-- A database of another major version is left untouched, and its version is what setup reports. -/
theorem C46_incompatible_untouched (f : SetupFaults) (d : SchemaDB) (h0 : d.version ≠ 0)
    (hm : versionMajor d.version ≠ 1) :
    (setup d.version f d).1 = d ∧ ∀ v, (setup d.version f d).2 = .ok v → v = d.version := by
  have hc : versionCompatible d.version currentVersion = false := by
    unfold versionCompatible
    have : ¬ (versionMajor d.version = 0 ∧ versionMinor d.version = 0) := by
      rintro ⟨h1, h2⟩
      apply h0
      apply BitVec.eq_of_getLsbD_eq
      intro i hi
      by_cases h16 : i < 16
      · have := congrArg (fun x : BitVec 16 => x.getLsbD i) h2
        simpa [versionMinor, h16] using this
      · have := congrArg (fun x : BitVec 16 => x.getLsbD (i - 16)) h1
        simp only [versionMajor, BitVec.truncate_eq_setWidth, BitVec.getLsbD_setWidth,
          BitVec.getLsbD_sshiftRight] at this
        have e1 : i - 16 < 16 := by omega
        have e2 : ¬ 32 ≤ i - 16 := by omega
        have e3 : 16 + (i - 16) < 32 := by omega
        have e4 : 16 + (i - 16) = i := by omega
        simpa [e1, e2, e3, e4, hi] using this
    rw [if_neg this]
    have : versionMajor currentVersion = 1 := by decide
    rw [this]
    exact decide_eq_false hm
  unfold setup
  cases hcn : f.conn with
  | some e => exact ⟨rfl, nofun⟩
  | none =>
  cases hr : f.read with
  | some e => exact ⟨rfl, nofun⟩
  | none =>
    simp only [hc, Bool.not_false, if_true]
    exact ⟨trivial, fun v h => by cases h; rfl⟩

/-- Setup of a database that is already at the current version changes nothing; so a second setup changes nothing. -/
theorem C46_idempotent (seen seen' : BitVec 32) (f f' : SetupFaults) (d : SchemaDB) :
    let d1 := (setup seen f d).1
    d1 ≠ d → (setup seen' f' d1).1 = d1 := by
  intro d1 hne
  rcases C46_all_or_nothing seen f d with h | ⟨_, h⟩
  · exact absurd h hne
  · rcases C46_all_or_nothing seen' f' d1 with h' | ⟨h', _⟩
    · exact h'
    · have : d1.version = 65536 := by show ((setup seen f d).1).version = _; rw [h]; rfl
      rw [this] at h'
      exact absurd h' (by decide)

/-- Any number of nodes, with any failures and crashes, running setup concurrently (each one may have read any version
before its transaction): the database is either as it was, or migrated once. -/
theorem C46_concurrent (runs : List (BitVec 32 × SetupFaults)) (d : SchemaDB) :
    let d' := runs.foldl (fun d r => (setup r.1 r.2 d).1) d
    d' = d ∨ (d.version = 0 ∧ d' = migrated d) := by
  intro d'
  have key : ∀ (runs : List (BitVec 32 × SetupFaults)) (x : SchemaDB), (x = d ∨ (d.version = 0 ∧ x = migrated d)) →
      (runs.foldl (fun d r => (setup r.1 r.2 d).1) x = d ∨
        (d.version = 0 ∧ runs.foldl (fun d r => (setup r.1 r.2 d).1) x = migrated d)) := by
    intro runs
    induction runs with
    | nil => exact fun x h => h
    | cons r rs ih =>
      intro x hx
      rw [List.foldl_cons]
      apply ih
      rcases hx with rfl | ⟨h0, rfl⟩
      · exact C46_all_or_nothing r.1 r.2 x
      · rcases C46_all_or_nothing r.1 r.2 (migrated d) with h | ⟨h, _⟩
        · exact Or.inr ⟨h0, h⟩
        · exact absurd (show (65536 : BitVec 32) = 0 from h) (by decide)
  exact key runs d (Or.inl rfl)

/-- Without failures the setup of a fresh database, or of an unversioned one whose rows have distinct ids and in which no
two rows of a key have the same predecessor (C58), succeeds. -/
theorem C46_no_failure (d : SchemaDB) (hd : d.version = 0) (hk : d.kine = none → d.indexes = [])
    (hrows : ∀ t, d.kine = some t → (t.rows.map fun r => (r.prevRevision, r.name)).Nodup ∧ (t.rows.map (·.id)).Nodup) :
    (setup d.version ⟨none, none, none, none, fun _ => none, .ok⟩ d) = (migrated d, .ok 0) := by
  have hrun : ∃ d', runSchema (fun _ => none) 0 (migration d) d = .ok d' := by
    have hn : ∀ (l : List Row), (l.map (·.id)).Nodup → (l.map fun r => (r.name, r.id, r.deleted)).Nodup := by
      intro l hl
      rw [List.nodup_iff_pairwise_ne, List.pairwise_map] at hl ⊢
      refine hl.imp ?_
      intro a b hab he
      simp only [Prod.mk.injEq] at he
      exact hab he.2.1
    cases hkd : d.kine with
    | none =>
      have hi := hk hkd
      simp [migration, schemaV0_1, schemaV1_0, runSchema, SchemaStmt.run, hkd, hi, KineIndex.accepts, DB.empty]
    | some t =>
      obtain ⟨h1, h2⟩ := hrows t hkd
      have h3 := hn _ h2
      by_cases hnd : KineIndex.nameDel ∈ d.indexes
      · simp [migration, schemaV0_1, schemaV1_0, runSchema, SchemaStmt.run, hkd, KineIndex.accepts, h1, hnd,
          List.mem_filter]
      · simp [migration, schemaV0_1, schemaV1_0, runSchema, SchemaStmt.run, hkd, KineIndex.accepts, h1, h3, hnd,
          List.mem_filter]
  obtain ⟨d', hrun⟩ := hrun
  have := migration_ok hrun
  have c1 : versionCompatible d.version currentVersion = true := by rw [hd]; decide
  have c2 : currentVersion.sle d.version = false := by rw [hd]; decide
  have c3 : d.version = packVersion 0 0 := by rw [hd]; decide
  unfold setup
  simp only [c1, c2, Bool.not_true, if_false, Bool.false_eq_true, if_pos c3, hrun, this]
  rw [hd]

/-- `NewDriver` makes at most as many attempts as it is allowed to (300 in the code), and whatever other nodes and
failures do, a successful return means that the last attempt was successful. -/
theorem C46_bounded_attempts (seen : Nat → BitVec 32) (f : Nat → SetupFaults) (between : Nat → SchemaDB → SchemaDB)
    (ctxDone : Nat → Bool) (n i : Nat) (d : SchemaDB) :
    let out := newDriver seen f between ctxDone n i d
    out.2.2 ≤ i + n ∧
    (∀ v, out.2.1 = .ok v → ∃ k d', i ≤ k ∧ k + 1 = out.2.2 ∧ setup (seen k) (f k) (between k d') = (out.1, .ok v)) := by
  induction n generalizing i d with
  | zero => exact ⟨Nat.le_refl _, nofun⟩
  | succ n ih =>
    intro out
    have hout : out = newDriver seen f between ctxDone (n + 1) i d := rfl
    unfold newDriver at hout
    cases hs : setup (seen i) (f i) (between i d) with
    | mk d' r =>
      rw [hs] at hout
      cases r with
      | ok v =>
        simp only at hout
        rw [hout]
        exact ⟨by simp only; omega, fun v' h => ⟨i, d, by omega, rfl, by cases h; exact hs⟩⟩
      | error e =>
        cases e with
        | incompatible => simp only at hout; rw [hout]; exact ⟨by simp only; omega, nofun⟩
        | db e =>
          simp only at hout
          split at hout
          · rw [hout]; exact ⟨by simp only; omega, nofun⟩
          · split at hout
            · rw [hout]; exact ⟨by simp only; omega, nofun⟩
            · rw [hout]
              obtain ⟨h1, h2⟩ := ih (i + 1) d'
              refine ⟨by omega, fun v h => ?_⟩
              obtain ⟨k, d'', hk, h3, h4⟩ := h2 v h
              exact ⟨k, d'', by omega, h3, h4⟩

/-- `NewDriver` tries again exactly after a failure of the database: if the first `k` attempts of at most `n` fail so, with the
context not done, and the next one succeeds or finds an incompatible version, there were `k + 1` attempts and that is the answer; if
all `n` fail so, there were `n` attempts and the answer is the last error; a done context ends it. `dbs i` is the database that
attempt `i` leaves. -/
theorem C46_attempts (seen : Nat → BitVec 32) (f : Nat → SetupFaults) (between : Nat → SchemaDB → SchemaDB)
    (ctxDone : Nat → Bool) (n : Nat) (d : SchemaDB) (dbs : Nat → SchemaDB) (errs : Nat → DbErr) (k : Nat) (hk : k < n)
    (h0 : dbs 0 = d)
    (hfail : ∀ j < k, ctxDone j = false ∧
      setup (seen j) (f j) (between j (dbs j)) = (dbs (j + 1), .error (.db (errs j)))) :
    (∀ v d', setup (seen k) (f k) (between k (dbs k)) = (d', .ok v) →
      newDriver seen f between ctxDone n 0 d = (d', .ok v, k + 1)) ∧
    (∀ d', setup (seen k) (f k) (between k (dbs k)) = (d', .error .incompatible) →
      newDriver seen f between ctxDone n 0 d = (d', .error .incompatible, k + 1)) ∧
    (∀ d' e, setup (seen k) (f k) (between k (dbs k)) = (d', .error (.db e)) → ctxDone k = true →
      newDriver seen f between ctxDone n 0 d = (d', .error (.db .canceled), k + 1)) ∧
    (∀ d' e, setup (seen k) (f k) (between k (dbs k)) = (d', .error (.db e)) → ctxDone k = false → k + 1 = n →
      newDriver seen f between ctxDone n 0 d = (d', .error (.db e), n)) := by
  have step : ∀ j, j ≤ k → newDriver seen f between ctxDone n 0 d = newDriver seen f between ctxDone (n - j) j (dbs j) := by
    intro j
    induction j with
    | zero => intro _; rw [h0]; rfl
    | succ j ih =>
      intro hj
      rw [ih (by omega)]
      obtain ⟨m, hm⟩ : ∃ m, n - j = (m + 1) + 1 := ⟨n - j - 2, by omega⟩
      have hm' : n - (j + 1) = m + 1 := by omega
      obtain ⟨hc, hs⟩ := hfail j (by omega)
      rw [hm, hm', newDriver, hs]
      simp only [hc]
      rfl
  rw [step k (Nat.le_refl k)]
  obtain ⟨m, hm⟩ : ∃ m, n - k = m + 1 := ⟨n - k - 1, by omega⟩
  rw [hm, newDriver]
  refine ⟨fun v d' h => by rw [h], fun d' h => by rw [h], fun d' e h hc => by rw [h]; simp [hc], ?_⟩
  intro d' e h hc hn
  have : m = 0 := by omega
  subst this
  rw [h]
  simp [hc, hn]

/-- An unversioned database with two rows and the old indexes is migrated; if the sixth statement fails it is left as it
is; a database of version 0.1 is left as it is. -/
def oldDb (v : BitVec 32) : SchemaDB :=
  { version := v
    kine := some ⟨[⟨1, [97], true, false, 0, 0, 0, [1], []⟩, ⟨2, [97], false, false, 1, 1, 0, [2], [1]⟩], 2⟩
    indexes := [.name, .prevRevision] }

example : setup 0 ⟨none, none, none, none, fun _ => none, .ok⟩ (oldDb 0) =
    ({ oldDb 0 with version := 65536, indexes := [.nameDel] }, .ok 0) := rfl
example : (oldDb 0).version = 0 ∧ ∀ t, (oldDb 0).kine = some t →
    (t.rows.map fun r => (r.prevRevision, r.name)).Nodup ∧ (t.rows.map (·.id)).Nodup :=
  ⟨rfl, fun t h => by cases h; decide⟩
example : setup 0 ⟨none, none, none, none, fun n => if n = 5 then some .busy else none, .ok⟩ (oldDb 0) =
    (oldDb 0, .error (.db .busy)) := rfl
example : (oldDb 1).version ≠ 0 ∧ versionMajor (oldDb 1).version ≠ 1 := by decide

end Verif
