import Verif.Lemmas.Inv
/-!
# Every statement preserves the invariant
-/

namespace Verif

/-! ## Queries and statements without effect -/

theorem Inv.no_new {w : World} (i : Inv w) :
    (w.db.rows.filter fun r => decide (w.db.seq < r.id)) = [] := by
  rw [List.filter_eq_nil_iff]
  intro r hr
  have := i.row_le_top hr
  rw [i.seq]; simp; omega

theorem Inv.exec_of_eq {w : World} (i : Inv w) {eff : DB → DB} (h : eff w.db = w.db) (o : Outcome) :
    w.exec eff o = w := by
  unfold World.exec
  simp only [h, i.no_new]
  split <;> simp

theorem Inv.exec_id {w : World} (i : Inv w) (o : Outcome) : w.exec id o = w := i.exec_of_eq rfl o

/-! ## Inserting one row -/

/-- The row that will be stored. -/
def World.newRow (w : World) (r : Row) : Row := { r with id := w.hist.top + 1 }

theorem Inv.insert_eq {w : World} (i : Inv w) (r : Row) :
    w.db.insert r = { rows := w.db.rows ++ [w.newRow r], seq := w.hist.top + 1 } := by
  unfold DB.insert World.newRow
  rw [i.nextId_eq]

theorem Inv.exec_insert {w : World} (i : Inv w) {eff : DB → DB} {r : Row} (h : eff w.db = w.db.insert r)
    {o : Outcome} (ho : o.applied = true) :
    w.exec eff o = { db := w.db.insert r, hist := w.hist ++ [commitOf (w.newRow r)] } := by
  have hn := i.no_new
  unfold World.exec
  simp only [ho, ↓reduceIte, h, World.mk.injEq, List.append_cancel_left_eq, true_and]
  rw [i.insert_eq]
  simp only [List.filter_append, hn, List.nil_append]
  have : decide (w.db.seq < (w.newRow r).id) = true := by
    rw [i.seq, decide_eq_true_eq]
    change w.hist.top < w.hist.top + 1
    omega
  simp only [List.filter_cons, this]
  simp

/-- Conditions under which inserting a row keeps table and history consistent. -/
structure GoodRow (w : World) (r : Row) : Prop where
  enc : if r.created then r.deleted = false ∧ w.hist.now r.name = none
    else ∃ p, w.hist.now r.name = some p ∧ r.createRevision = p.createRev ∧
      r.prevRevision = p.modRev ∧ r.oldValue = p.value ∧
      (r.deleted = true → r.lease = p.lease ∧ r.value = [])
  mark : r.name = compactRevKey → r.deleted = false ∧ r.prevRevision = 0 ∧
    ∀ c ∈ w.hist, c.key ≠ compactRevKey

theorem RowOk_ext {h t : History} (w : History.Wf (h ++ t)) {r : Row} (ok : RowOk h r)
    (hle : r.id ≤ h.top) : RowOk (h ++ t) r := by
  obtain ⟨⟨c, hc, e⟩, h2⟩ := ok
  refine ⟨⟨c, by simp [hc], e⟩, ?_⟩
  rw [at_ext w (by omega)]
  exact h2

theorem Inv.insert_inv {w : World} (i : Inv w) {r : Row} (g : GoodRow w r) :
    Inv { db := w.db.insert r, hist := w.hist ++ [commitOf (w.newRow r)] } ∧
    (w.db.insert r).compactRev = w.db.compactRev ∧
    (w.db.markers ≠ [] → (w.db.insert r).markers ≠ []) ∧
    (r.name = compactRevKey → (w.db.insert r).markers ≠ []) := by
  have hwf : History.Wf (w.hist ++ [commitOf (w.newRow r)]) := by
    apply Wf_snoc i.wf
    change w.hist.top < w.hist.top + 1
    omega
  have htop : History.top (w.hist ++ [commitOf (w.newRow r)]) = w.hist.top + 1 := by
    rw [top_snoc]; rfl
  have hmk : (w.db.insert r).markers
      = w.db.markers ++ (if r.name = compactRevKey then [w.newRow r] else []) := by
    rw [i.insert_eq]
    unfold DB.markers
    rw [List.filter_append]
    congr 1
    by_cases e : r.name = compactRevKey
    · have : ((w.newRow r).name == compactRevKey) = true := by
        simp [World.newRow, e]
      simp [this, e]
    · have : ((w.newRow r).name == compactRevKey) = false := by
        simp [World.newRow, e]
      simp [this, e]
  have hcr : (w.db.insert r).compactRev = w.db.compactRev := by
    by_cases e : r.name = compactRevKey
    · obtain ⟨_, hp, hno⟩ := g.mark e
      have hnil : w.db.markers = [] := by
        unfold DB.markers
        rw [List.filter_eq_nil_iff]
        intro q hq he
        exact hno _ (i.row_commit hq) (by rw [beq_iff_eq] at he; exact he)
      rw [hnil, if_pos e, List.nil_append] at hmk
      rw [compactRev_single hmk, compactRev_nil hnil]
      exact hp
    · rw [if_neg e, List.append_nil] at hmk
      rcases i.markers_cases with h | ⟨m, h⟩
      · rw [compactRev_nil h, compactRev_nil (hmk.trans h)]
      · rw [compactRev_single h, compactRev_single (hmk.trans h)]
  have hat : ∀ k, History.at (w.hist ++ [commitOf (w.newRow r)]) w.db.compactRev k
      = w.hist.at w.db.compactRev k := fun k => at_ext hwf i.compact_le_top k
  refine ⟨?_, hcr, ?_, ?_⟩
  · constructor
    · exact hwf
    · simp only [i.insert_eq]
      rw [List.pairwise_append]
      refine ⟨i.sorted, by simp, ?_⟩
      intro a ha b hb
      rw [List.mem_singleton] at hb; subst hb
      have := i.row_le_top ha
      change a.id < w.hist.top + 1
      omega
    · simp only [i.insert_eq, htop]
    · simp only [i.insert_eq]
      intro q hq
      rcases List.mem_append.1 hq with h | h
      · exact RowOk_ext hwf (i.rowOk q h) (i.row_le_top h)
      · rw [List.mem_singleton] at h; subst h
        refine ⟨⟨_, by simp, rfl⟩, ?_⟩
        have e1 : (w.newRow r).id - 1 = w.hist.top := by
          change w.hist.top + 1 - 1 = _; omega
        rw [e1, at_ext hwf (Int.le_refl _), at_ge_top i.wf (Int.le_refl _)]
        exact g.enc
    · simp only [hcr]
      intro c hc hn
      rw [i.insert_eq]
      rcases List.mem_append.1 hc with h | h
      · have : Needed w.hist w.db.compactRev c.key c.rev := by
          unfold Needed at *
          rwa [hat] at hn
        obtain ⟨q, hq, e⟩ := i.keep c h this
        exact ⟨q, by simp [hq], e⟩
      · rw [List.mem_singleton] at h; subst h
        exact ⟨w.newRow r, by simp, rfl⟩
    · simp only [hcr]
      intro q hq
      rw [i.insert_eq] at hq
      unfold Needed
      rcases List.mem_append.1 hq with h | h
      · rw [hat]; exact i.only q h
      · rw [List.mem_singleton] at h; subst h
        left
        have := i.compact_le_top
        change w.db.compactRev < w.hist.top + 1
        omega
    · intro c hc hk
      rcases List.mem_append.1 hc with h | h
      · refine ⟨(i.marker c h hk).1, ?_⟩
        intro c' hc' hk'
        rcases List.mem_append.1 hc' with h' | h'
        · exact (i.marker c h hk).2 c' h' hk'
        · rw [List.mem_singleton] at h'; subst h'
          exact absurd hk ((g.mark hk').2.2 c h)
      · rw [List.mem_singleton] at h; subst h
        refine ⟨?_, ?_⟩
        · have := (g.mark hk).1
          simp [commitOf, World.newRow, this]
        · intro c' hc' hk'
          rcases List.mem_append.1 hc' with h' | h'
          · exact absurd hk' ((g.mark hk).2.2 c' h')
          · rw [List.mem_singleton] at h'; exact h'
    · simp only [hcr]; exact i.nonneg
    · simp only [hcr, htop]
      rcases i.bound with h | h
      · exact Or.inl h
      · right; omega
  · intro h; rw [hmk]; simp [h]
  · intro h; rw [hmk]; simp [h]

/-! ## The rows selected by update and delete -/

theorem Inv.casRows_spec {w : World} (i : Inv w) (key : Bytes) (rev : Int) :
    match w.hist.now key with
    | some kv =>
      if kv.modRev = rev then
        ∃ m, casRows w.db key rev = [m] ∧ scanKeyValue m = kv ∧ m.name = key
      else casRows w.db key rev = []
    | none => casRows w.db key rev = [] := by
  have hl := i.latest key
  cases hm : maxRow (w.db.rows.filter fun r => r.name == key) with
  | none =>
    rw [hm] at hl
    rw [hl]
    simp only [casRows]
    rw [List.filter_eq_nil_iff]
    intro r hr
    have : maxId (w.db.rows.filter fun q => q.name == key) = none := by
      unfold maxId; rw [hm]; rfl
    simp [this]
  | some m =>
    obtain ⟨h1, h2⟩ := maxRow_some hm
    simp only [List.mem_filter, beq_iff_eq] at h1
    have hmi : maxId (w.db.rows.filter fun q => q.name == key) = some m.id := by
      unfold maxId; rw [hm]; rfl
    have hnil : (m.deleted = true ∨ m.id ≠ rev) → casRows w.db key rev = [] := by
      intro h
      unfold casRows
      rw [List.filter_eq_nil_iff]
      intro r hr hc
      rw [hmi] at hc
      simp only [Bool.and_eq_true, beq_iff_eq, Option.some.injEq, Bool.not_eq_true'] at hc
      have := unique_id i.unique hr h1.1 hc.1.1
      subst this
      rcases h with h | h
      · rw [h] at hc; simp at hc
      · exact h hc.2
    rw [hm] at hl
    cases hd : m.deleted with
    | true =>
      rw [hl]; simp only [hd, ↓reduceIte]
      exact hnil (Or.inl hd)
    | false =>
      rw [hl]
      simp only [hd, Bool.false_eq_true, ↓reduceIte]
      by_cases he : m.id = rev
      · have : (scanKeyValue m).modRev = rev := he
        rw [if_pos this]
        refine ⟨m, ?_, rfl, h1.2⟩
        unfold casRows
        rw [← filter_id_singleton i.unique h1.1]
        apply List.filter_congr
        intro r hr
        rw [hmi]
        by_cases hri : r.id = m.id
        · have := unique_id i.unique hr h1.1 hri
          subst this
          simp [hd, he]
        · simp [beq_eq_false_iff_ne.2 hri]
      · have : ¬ (scanKeyValue m).modRev = rev := he
        rw [if_neg this]
        exact hnil (Or.inr he)

/-! ## The three writes -/

/-- The world after committing `c` with stored row `r`. -/
def World.commit (w : World) (r : Row) : World :=
  { db := w.db.insert r, hist := w.hist ++ [commitOf (w.newRow r)] }

theorem insertSelect_nil (db : DB) :
    db.insertSelect [] = (db, { rowsAffected := 0, lastInsertId := db.seq }) := rfl

theorem Inv.insertSelect_one {w : World} (i : Inv w) (r : Row) :
    w.db.insertSelect [r] = (w.db.insert r, { rowsAffected := 1, lastInsertId := w.hist.top + 1 }) := by
  simp only [DB.insertSelect, DB.insertAll, List.length_cons, List.length_nil, i.insert_eq]

theorem Inv.marker_now {w : World} (i : Inv w) (h : w.hist.now compactRevKey = none) :
    ∀ c ∈ w.hist, c.key ≠ compactRevKey := by
  intro c hc hk
  have hm := i.marker c hc hk
  rw [← at_ge_top i.wf (Int.le_refl _)] at h
  exact hm.1 (at_none_last i.wf h hc hk (le_top i.wf hc) fun c' hc' hk' _ => by
    rw [hm.2 c' hc' hk']; omega)

/-- `createSQL` (and its legacy variant): what it does. -/
theorem Inv.createSQL_spec {w : World} (i : Inv w) (key : Bytes) (lease : Int) (value : Bytes) :
    (w.hist.now key = none ∧ ∃ r, GoodRow w r ∧ r.name = key ∧
      commitOf (w.newRow r) = ⟨w.hist.top + 1, key, some (value, lease)⟩ ∧
      createSQL w.db key lease value = (w.db.insert r, ⟨1, w.hist.top + 1⟩)) ∨
    (w.hist.now key ≠ none ∧ createSQL w.db key lease value = (w.db, ⟨0, w.db.seq⟩)) := by
  have hl := i.latest key
  unfold createSQL
  cases hm : maxRow (w.db.rows.filter fun r => r.name == key) with
  | none =>
    rw [hm] at hl
    left
    refine ⟨hl, _, ⟨?_, ?_⟩, ?_, ?_, i.insertSelect_one _⟩
    · simp [hl]
    · intro h
      simp only at h
      refine ⟨rfl, rfl, ?_⟩
      apply i.marker_now
      rw [← h]; exact hl
    · rfl
    · rfl
  | some m =>
    rw [hm] at hl
    cases hd : m.deleted with
    | true =>
      simp only [hd, ↓reduceIte] at hl ⊢
      left
      refine ⟨hl, _, ⟨?_, ?_⟩, ?_, ?_, i.insertSelect_one _⟩
      · simp [hl]
      · intro h
        simp only at h
        exfalso
        have hno := i.marker_now (by rw [← h]; exact hl)
        obtain ⟨h1, _⟩ := maxRow_some hm
        simp only [List.mem_filter, beq_iff_eq] at h1
        exact hno _ (i.row_commit h1.1) (h1.2.trans h)
      · rfl
      · rfl
    | false =>
      simp only [hd, Bool.false_eq_true, ↓reduceIte] at hl ⊢
      right
      exact ⟨by rw [hl]; simp, rfl⟩

theorem Inv.legacyCreateSQL_spec {w : World} (i : Inv w) {key : Bytes} (hk : key ≠ compactRevKey)
    (lease : Int) (value : Bytes) (prev : Int) :
    (w.hist.now key = none ∧ ∃ r, GoodRow w r ∧
      commitOf (w.newRow r) = ⟨w.hist.top + 1, key, some (value, lease)⟩ ∧
      legacyCreateSQL w.db key lease value prev = (w.db.insert r, ⟨1, w.hist.top + 1⟩)) ∨
    (w.hist.now key ≠ none ∧ legacyCreateSQL w.db key lease value prev = (w.db, ⟨0, w.db.seq⟩)) := by
  rcases i.createSQL_spec key lease value with ⟨h, r, _, _, _, e⟩ | ⟨h, e⟩
  · left
    refine ⟨h, {
      id := 0, name := key, created := true, deleted := false, createRevision := 0,
      prevRevision := prev, lease := lease, value := value, oldValue := [] }, ⟨?_, ?_⟩, ?_, ?_⟩
    rotate_left 3
    · simp only [legacyCreateSQL, e]
      exact i.insertSelect_one _
    · simp [h]
    · intro h'; exact absurd h' hk
    · rfl
  · right
    refine ⟨h, ?_⟩
    simp only [legacyCreateSQL, e]
    rfl

/-- `updateSQL`: what it does. -/
theorem Inv.updateSQL_spec {w : World} (i : Inv w) {key : Bytes} (hk : key ≠ compactRevKey) (lease : Int)
    (value : Bytes) (rev : Int) :
    (∃ kv, w.hist.now key = some kv ∧ kv.modRev = rev ∧ ∃ r, GoodRow w r ∧
      commitOf (w.newRow r) = ⟨w.hist.top + 1, key, some (value, lease)⟩ ∧
      updateSQL w.db key lease value rev = (w.db.insert r, ⟨1, w.hist.top + 1⟩)) ∨
    ((∀ kv, w.hist.now key = some kv → kv.modRev ≠ rev) ∧
      updateSQL w.db key lease value rev = (w.db, ⟨0, w.db.seq⟩)) := by
  have hc := i.casRows_spec key rev
  unfold updateSQL
  cases hn : w.hist.now key with
  | none =>
    rw [hn] at hc
    right
    refine ⟨by simp, ?_⟩
    rw [hc]; rfl
  | some kv =>
    rw [hn] at hc
    simp only at hc
    split at hc
    · rename_i hrev
      obtain ⟨m, hm, hs, hname⟩ := hc
      left
      refine ⟨kv, rfl, hrev, {
        id := 0, name := key, created := false, deleted := false,
        createRevision := createRevisionOf m, prevRevision := m.id,
        lease := lease, value := value, oldValue := m.value }, ⟨?_, ?_⟩, ?_, ?_⟩
      rotate_left 3
      · rw [hm]
        exact i.insertSelect_one _
      · simp only [Bool.false_eq_true, ↓reduceIte, false_implies, and_true]
        refine ⟨kv, hn, ?_⟩
        rw [← hs]
        exact ⟨rfl, rfl, rfl⟩
      · intro h; exact absurd h hk
      · rfl
    · rename_i hrev
      right
      refine ⟨?_, by rw [hc]; rfl⟩
      intro kv' h; cases h; exact hrev

/-- `deleteSQL`: what it does. -/
theorem Inv.deleteSQL_spec {w : World} (i : Inv w) {key : Bytes} (hk : key ≠ compactRevKey) (rev : Int) :
    (∃ kv, w.hist.now key = some kv ∧ kv.modRev = rev ∧ ∃ r, GoodRow w r ∧
      commitOf (w.newRow r) = ⟨w.hist.top + 1, key, none⟩ ∧
      deleteSQL w.db key rev = (w.db.insert r, ⟨1, w.hist.top + 1⟩)) ∨
    ((∀ kv, w.hist.now key = some kv → kv.modRev ≠ rev) ∧
      deleteSQL w.db key rev = (w.db, ⟨0, w.db.seq⟩)) := by
  have hc := i.casRows_spec key rev
  unfold deleteSQL
  cases hn : w.hist.now key with
  | none =>
    rw [hn] at hc
    right
    refine ⟨by simp, ?_⟩
    rw [hc]; rfl
  | some kv =>
    rw [hn] at hc
    simp only at hc
    split at hc
    · rename_i hrev
      obtain ⟨m, hm, hs, hname⟩ := hc
      left
      refine ⟨kv, rfl, hrev, {
        id := 0, name := m.name, created := false, deleted := true,
        createRevision := createRevisionOf m, prevRevision := m.id,
        lease := m.lease, value := [], oldValue := m.value }, ⟨?_, ?_⟩, ?_, ?_⟩
      rotate_left 3
      · rw [hm]
        exact i.insertSelect_one _
      · simp only [Bool.false_eq_true, ↓reduceIte, forall_const]
        refine ⟨kv, by rw [hname]; exact hn, ?_⟩
        rw [← hs]
        exact ⟨rfl, rfl, rfl, rfl, trivial⟩
      · intro h; exact absurd (hname.symm.trans h) hk
      · subst hname; rfl
    · rename_i hrev
      right
      refine ⟨?_, by rw [hc]; rfl⟩
      intro kv' h; cases h; exact hrev

end Verif
