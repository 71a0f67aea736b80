import Verif.Model.System
import Verif.Lemmas.Sql
import Verif.Lemmas.History
/-!
# The invariant relating the table to the history
-/

namespace Verif

/-- A stored row encodes its commit: the previous version of its key, as of the revision before, is what the
row's bookkeeping columns say. -/
def RowOk (h : History) (r : Row) : Prop :=
  (∃ c ∈ h, c = commitOf r) ∧
  (if r.created then r.deleted = false ∧ h.at (r.id - 1) r.name = none
   else ∃ p, h.at (r.id - 1) r.name = some p ∧ r.createRevision = p.createRev ∧
     r.prevRevision = p.modRev ∧ r.oldValue = p.value ∧
     (r.deleted = true → r.lease = p.lease ∧ r.value = []))

/-- Revisions at or below `cr` matter only if they are still the current version at `cr`. -/
def Needed (h : History) (cr : Int) (k : Bytes) (rev : Int) : Prop :=
  cr < rev ∨ ∃ kv, h.at cr k = some kv ∧ kv.modRev = rev

/-- Table and history agree. -/
structure Inv (w : World) : Prop where
  wf : w.hist.Wf
  sorted : w.db.rows.Pairwise fun a b => a.id < b.id
  seq : w.db.seq = w.hist.top
  rowOk : ∀ r ∈ w.db.rows, RowOk w.hist r
  keep : ∀ c ∈ w.hist, Needed w.hist w.db.compactRev c.key c.rev → ∃ r ∈ w.db.rows, r.id = c.rev
  only : ∀ r ∈ w.db.rows, Needed w.hist w.db.compactRev r.name r.id
  marker : ∀ c ∈ w.hist, c.key = compactRevKey → c.write ≠ none ∧
    ∀ c' ∈ w.hist, c'.key = compactRevKey → c' = c
  nonneg : 0 ≤ w.db.compactRev
  bound : w.db.compactRev = 0 ∨ w.db.compactRev + 100 ≤ w.hist.top

theorem Inv.unique {w : World} (i : Inv w) : w.db.UniqueIds :=
  List.Pairwise.imp (fun h => by omega) i.sorted

theorem Inv.init : Inv World.init where
  wf := History.Wf.nil
  sorted := List.Pairwise.nil
  seq := rfl
  rowOk := by simp [World.init, DB.empty]
  keep := by simp [World.init]
  only := by simp [World.init, DB.empty]
  marker := by simp [World.init]
  nonneg := by decide
  bound := by left; decide

theorem Inv.row_commit {w : World} (i : Inv w) {r : Row} (hr : r ∈ w.db.rows) :
    commitOf r ∈ w.hist := by
  obtain ⟨⟨c, hc, rfl⟩, _⟩ := i.rowOk r hr
  exact hc

theorem Inv.row_pos {w : World} (i : Inv w) {r : Row} (hr : r ∈ w.db.rows) : 0 < r.id :=
  i.wf.pos _ (i.row_commit hr)

theorem Inv.row_le_top {w : World} (i : Inv w) {r : Row} (hr : r ∈ w.db.rows) :
    r.id ≤ w.hist.top := le_top i.wf (i.row_commit hr)

theorem Inv.compact_lt_top {w : World} (i : Inv w) (hne : w.hist ≠ []) :
    w.db.compactRev < w.hist.top := by
  rcases i.bound with h | h
  · obtain ⟨c, hc, e⟩ := top_mem hne
    have := i.wf.pos c hc; omega
  · omega

theorem Inv.compact_le_top {w : World} (i : Inv w) : w.db.compactRev ≤ w.hist.top := by
  rcases i.bound with h | h
  · have := top_nonneg i.wf; omega
  · omega

theorem Inv.maxId_eq {w : World} (i : Inv w) :
    maxId w.db.rows = if w.hist = [] then none else some w.hist.top := by
  by_cases hne : w.hist = []
  · rw [if_pos hne, maxId_none]
    cases h : w.db.rows with
    | nil => rfl
    | cons r rs =>
      have := i.row_commit (r := r) (by simp [h])
      rw [hne] at this; simp at this
  · rw [if_neg hne, maxId_eq_some]
    refine ⟨?_, fun r hr => i.row_le_top hr⟩
    obtain ⟨c, hc, e⟩ := top_mem hne
    obtain ⟨r, hr, e'⟩ := i.keep c hc (Or.inl (by have := i.compact_lt_top hne; omega))
    exact ⟨r, hr, by omega⟩

theorem Inv.currentRev_eq {w : World} (i : Inv w) : w.db.currentRev = w.hist.top := by
  unfold DB.currentRev revisionIntervalSQL
  simp only [i.maxId_eq]
  split
  · rename_i h; rw [h]; rfl
  · rfl

theorem Inv.nextId_eq {w : World} (i : Inv w) : w.db.nextId = w.hist.top + 1 := by
  unfold DB.nextId
  rw [i.maxId_eq, i.seq]
  have := top_nonneg i.wf
  split
  · simp only [Option.getD_none]; omega
  · simp only [Option.getD_some]; omega

/-- Reading a live latest row gives the state of the key. -/
theorem Inv.row_at {w : World} (i : Inv w) {rev : Int} {r : Row}
    (hr : r ∈ w.db.rows) (hle : r.id ≤ rev) (hd : r.deleted = false)
    (hl : ∀ q ∈ w.db.rows, q.name = r.name → q.id ≤ rev → q.id ≤ r.id) :
    w.hist.at rev r.name = some (scanKeyValue r) := by
  have hc := i.row_commit hr
  have hlast : ∀ c' ∈ w.hist, c'.key = r.name → c'.rev ≤ rev → c'.rev ≤ r.id := by
    intro c' hc' hk' hr'
    rcases exists_last (h := w.hist) rev r.name with hn | ⟨L, hL, hLk, hLr, hLl⟩
    · exact absurd hr' (hn c' hc' hk')
    · have h1 := hLl c' hc' hk' hr'
      by_cases hlt : w.db.compactRev < L.rev
      · obtain ⟨q, hq, e⟩ := i.keep L hL (Or.inl hlt)
        have hqc := i.row_commit hq
        have : commitOf q = L := Wf_rev_inj i.wf hqc hL e
        have hqn : q.name = r.name := by rw [← hLk, ← this]; rfl
        have := hl q hq hqn (by omega)
        omega
      · have h2 := hLl _ hc rfl hle
        change r.id ≤ L.rev at h2
        rcases i.only r hr with h3 | ⟨kv, hkv, e⟩
        · omega
        · have := (at_some_inv i.wf hkv).2.2.2.2 L hL hLk (by omega)
          omega
  have e := at_of_last i.wf (k := r.name) hc rfl hle hlast
  rw [e]
  have hw : (commitOf r).write = some (r.value, r.lease) := by simp [commitOf, hd]
  have ho := (i.rowOk r hr).2
  change (commitOf r).applyTo (w.hist.at (r.id - 1) r.name) = _
  unfold Commit.applyTo
  rw [hw]
  split at ho
  · rename_i hcr
    rw [ho.2]
    simp [scanKeyValue, createRevisionOf, hcr, commitOf]
  · rename_i hcr
    obtain ⟨p, hp, h1, _⟩ := ho
    rw [hp]
    simp [scanKeyValue, createRevisionOf, hcr, commitOf, h1]

/-- Every live key has its row. -/
theorem Inv.at_row {w : World} (i : Inv w) {rev : Int} (hrev : w.db.compactRev ≤ rev) {k : Bytes}
    {kv : KV} (e : w.hist.at rev k = some kv) :
    ∃ r ∈ w.db.rows, scanKeyValue r = kv ∧ r.name = k ∧ r.id ≤ rev ∧ r.deleted = false ∧
      ∀ q ∈ w.db.rows, q.name = k → q.id ≤ rev → q.id ≤ r.id := by
  obtain ⟨hk, hm, hpos, ⟨c, hc, hcr, hck, hcw⟩, hl⟩ := at_some_inv i.wf e
  have hneed : Needed w.hist w.db.compactRev c.key c.rev := by
    by_cases hlt : w.db.compactRev < c.rev
    · exact Or.inl hlt
    · right
      refine ⟨kv, ?_, hcr.symm⟩
      rw [hck, ← e]
      symm
      apply at_eq_of_no_between hrev
      intro c' hc' hk' hr'
      have := hl c' hc' hk' hr'
      omega
  obtain ⟨r, hr, hid⟩ := i.keep c hc hneed
  have hrc := i.row_commit hr
  have hcc : commitOf r = c := Wf_rev_inj i.wf hrc hc hid
  have hn : r.name = k := by rw [← hck, ← hcc]; rfl
  have hd : r.deleted = false := by
    cases hdd : r.deleted with
    | false => rfl
    | true =>
      rw [← hcc] at hcw
      simp [commitOf, hdd] at hcw
  have hlat : ∀ q ∈ w.db.rows, q.name = k → q.id ≤ rev → q.id ≤ r.id := by
    intro q hq hqn hqr
    have := hl _ (i.row_commit hq) hqn hqr
    change q.id ≤ _ at this
    omega
  have e2 := i.row_at (rev := rev) hr (by omega) hd (by rw [hn]; exact hlat)
  rw [hn, e] at e2
  exact ⟨r, hr, (Option.some.inj e2).symm, hn, by omega, hd, hlat⟩

/-- The latest row of a key decides its current state. -/
theorem Inv.latest {w : World} (i : Inv w) (k : Bytes) :
    w.hist.now k = match maxRow (w.db.rows.filter fun r => r.name == k) with
      | none => none
      | some m => if m.deleted then none else some (scanKeyValue m) := by
  have hu := UniqueIds.filter i.unique fun r => r.name == k
  rw [← at_ge_top i.wf (Int.le_refl _)]
  cases hm : maxRow (w.db.rows.filter fun r => r.name == k) with
  | none =>
    rw [maxRow_none, List.filter_eq_nil_iff] at hm
    cases e : w.hist.at w.hist.top k with
    | none => rfl
    | some kv =>
      obtain ⟨r, hr, _, hn, _⟩ := i.at_row i.compact_le_top e
      exact absurd (by simpa using hn) (hm r hr)
  | some m =>
    obtain ⟨h1, h2⟩ := maxRow_some hm
    simp only [List.mem_filter, beq_iff_eq, and_imp] at h1 h2
    cases hd : m.deleted with
    | false =>
      simp only [hd, Bool.false_eq_true, ↓reduceIte]
      rw [← h1.2]
      exact i.row_at h1.1 (i.row_le_top h1.1) hd
        fun q hq hn _ => h2 q hq (by rw [hn, h1.2])
    | true =>
      simp only [hd, ↓reduceIte]
      cases e : w.hist.at w.hist.top k with
      | none => rfl
      | some kv =>
        obtain ⟨r, hr, _, hn, _, hdr, hlat⟩ := i.at_row i.compact_le_top e
        have a := hlat m h1.1 h1.2 (i.row_le_top h1.1)
        have b := h2 r hr hn
        have := unique_id i.unique hr h1.1 (by omega)
        subst this; rw [hd] at hdr; cases hdr

/-! ## Compact revision -/

theorem maxPrev_none {rs : List Row} : maxPrev rs = none ↔ rs = [] := by
  cases rs with
  | nil => simp [maxPrev]
  | cons r rs =>
    simp only [maxPrev, reduceCtorEq, iff_false]
    split <;> simp

/-- The marker rows. -/
def DB.markers (db : DB) : List Row := db.rows.filter fun r => r.name == compactRevKey

theorem Inv.markers_cases {w : World} (i : Inv w) :
    w.db.markers = [] ∨ ∃ m, w.db.markers = [m] := by
  have hu : w.db.markers.Pairwise fun a b => a.id ≠ b.id := UniqueIds.filter i.unique _
  have hsame : ∀ a ∈ w.db.markers, ∀ b ∈ w.db.markers, a.id = b.id := by
    intro a ha b hb
    simp only [DB.markers, List.mem_filter, beq_iff_eq] at ha hb
    have := (i.marker _ (i.row_commit ha.1) ha.2).2 _ (i.row_commit hb.1) hb.2
    have : (commitOf b).rev = (commitOf a).rev := by rw [this]
    exact this.symm
  cases h : w.db.markers with
  | nil => left; rfl
  | cons a as =>
    right
    refine ⟨a, ?_⟩
    cases as with
    | nil => rfl
    | cons b bs =>
      rw [h, List.pairwise_cons] at hu
      exact absurd (hsame a (by simp [h]) b (by simp [h])) (hu.1 b (by simp))

theorem compactRev_nil {db : DB} (h : db.markers = []) : db.compactRev = 0 := by
  unfold DB.compactRev revisionIntervalSQL
  unfold DB.markers at h
  simp only [h, maxPrev, Option.getD_none]

theorem compactRev_single {db : DB} {m : Row} (h : db.markers = [m]) :
    db.compactRev = m.prevRevision := by
  unfold DB.compactRev revisionIntervalSQL
  unfold DB.markers at h
  simp only [h, maxPrev, Option.getD_some]

end Verif
