import Verif.Lemmas.Steps
/-!
# The compaction transaction preserves the invariant
-/

namespace Verif

/-- The first commit on `k` after `a`, up to `b`. -/
theorem exists_next {h : History} {a b : Int} {k : Bytes} {c : Commit} (hc : c ∈ h) (hk : c.key = k)
    (ha : a < c.rev) (hb : c.rev ≤ b) :
    ∃ n ∈ h, n.key = k ∧ a < n.rev ∧ n.rev ≤ b ∧
      ∀ c' ∈ h, c'.key = k → a < c'.rev → n.rev ≤ c'.rev := by
  induction h generalizing c with
  | nil => simp at hc
  | cons x xs ih =>
    by_cases hx : x.key = k ∧ a < x.rev ∧ x.rev ≤ b
    · by_cases hr : ∃ c' ∈ xs, c'.key = k ∧ a < c'.rev ∧ c'.rev ≤ b
      · obtain ⟨c', h1, h2, h3, h4⟩ := hr
        obtain ⟨n, hn, hnk, hna, hnb, hmin⟩ := ih h1 h2 h3 h4
        by_cases hxn : x.rev ≤ n.rev
        · refine ⟨x, by simp, hx.1, hx.2.1, hx.2.2, ?_⟩
          intro d hd hdk hda
          rcases List.mem_cons.1 hd with rfl | hd
          · omega
          · have := hmin d hd hdk hda; omega
        · refine ⟨n, by simp [hn], hnk, hna, hnb, ?_⟩
          intro d hd hdk hda
          rcases List.mem_cons.1 hd with rfl | hd
          · omega
          · exact hmin d hd hdk hda
      · refine ⟨x, by simp, hx.1, hx.2.1, hx.2.2, ?_⟩
        intro d hd hdk hda
        rcases List.mem_cons.1 hd with rfl | hd
        · omega
        · by_cases hdb : d.rev ≤ b
          · exact absurd ⟨d, hd, hdk, hda, hdb⟩ hr
          · omega
    · rcases List.mem_cons.1 hc with rfl | hc'
      · exact absurd ⟨hk, ha, hb⟩ hx
      · obtain ⟨n, hn, hnk, hna, hnb, hmin⟩ := ih hc' hk ha hb
        refine ⟨n, by simp [hn], hnk, hna, hnb, ?_⟩
        intro d hd hdk hda
        rcases List.mem_cons.1 hd with rfl | hd
        · by_cases hdb : d.rev ≤ b
          · exact absurd ⟨hdk, hda, hdb⟩ hx
          · omega
        · exact hmin d hd hdk hda

/-- A row removed by the first statement of `tryCompact`. -/
def Superseded (db : DB) (start stop : Int) (r : Row) : Prop :=
  ∃ q ∈ db.rows, q.name ≠ compactRevKey ∧ q.created = false ∧ q.prevRevision ≠ 0 ∧ start < q.id ∧
    q.id ≤ stop ∧ q.prevRevision = r.id

/-- The marker update. -/
def markRow (stop : Int) (r : Row) : Row :=
  if r.name == compactRevKey then { r with prevRevision := max r.prevRevision stop } else r

theorem markRow_id (stop : Int) (r : Row) : (markRow stop r).id = r.id := by
  unfold markRow; split <;> rfl
theorem markRow_name (stop : Int) (r : Row) : (markRow stop r).name = r.name := by
  unfold markRow; split <;> rfl
theorem markRow_commit (stop : Int) (r : Row) : commitOf (markRow stop r) = commitOf r := by
  unfold markRow; split <;> rfl

/-- Rows kept by `tryCompact`. -/
theorem mem_tryCompact {db : DB} {start stop : Int} {x : Row} :
    x ∈ (tryCompactTx db start stop).rows ↔
      ∃ r ∈ db.rows, ¬ Superseded db start stop r ∧
        ¬ (r.deleted = true ∧ start < r.id ∧ r.id ≤ stop) ∧ x = markRow stop r := by
  unfold tryCompactTx updateCompactSQL compactTombstonesSQL compactSupersededSQL
  simp only [List.mem_map, List.mem_filter]
  constructor
  · rintro ⟨r, ⟨⟨hr, h1⟩, h2⟩, e⟩
    refine ⟨r, hr, ?_, ?_, e.symm⟩
    · rintro ⟨q, hq, a, b, c, d, f, g⟩
      simp only [Bool.not_eq_true', List.contains_eq_mem, decide_eq_false_iff_not, List.mem_map,
        List.mem_filter, not_exists, not_and] at h1
      refine h1 q ⟨hq, ?_⟩ g
      simp [a, b, c, d, f]
    · rintro ⟨a, b, c⟩
      simp [a, b, c] at h2
  · rintro ⟨r, hr, h1, h2, e⟩
    refine ⟨r, ⟨⟨hr, ?_⟩, ?_⟩, e.symm⟩
    · simp only [Bool.not_eq_true', List.contains_eq_mem, decide_eq_false_iff_not, List.mem_map,
        List.mem_filter, not_exists, not_and]
      rintro q ⟨hq, hc⟩ g
      apply h1
      simp only [Bool.and_eq_true, Bool.not_eq_true', beq_eq_false_iff_ne,
        decide_eq_true_eq] at hc
      exact ⟨q, hq, hc.1.1.1.1, hc.1.1.1.2, hc.1.1.2, hc.1.2, hc.2, g⟩
    · cases hd : r.deleted with
      | false => simp
      | true =>
        by_cases a : start < r.id
        · by_cases b : r.id ≤ stop
          · exact absurd ⟨hd, a, b⟩ h2
          · simp [b]
        · simp [a]

/-- A superseded row is followed by another version of its key at or below `stop`. -/
theorem Inv.superseded {w : World} (i : Inv w) {start stop : Int} {r : Row} (hr : r ∈ w.db.rows)
    (hs : Superseded w.db start stop r) :
    r.name ≠ compactRevKey ∧ ∃ c ∈ w.hist, c.key = r.name ∧ r.id < c.rev ∧ c.rev ≤ stop := by
  obtain ⟨q, hq, a, b, c, d, e, f⟩ := hs
  have ho := (i.rowOk q hq).2
  rw [if_neg (by rw [b]; simp)] at ho
  obtain ⟨p, hp, _, hprev, _⟩ := ho
  obtain ⟨hpk, hple, hpos, ⟨c0, hc0, hc0r, hc0k, _⟩, _⟩ := at_some_inv i.wf hp
  have : commitOf r = c0 := Wf_rev_inj i.wf (i.row_commit hr) hc0 (by
    change r.id = _; omega)
  have hn : r.name = q.name := by rw [← hc0k, ← this]; rfl
  refine ⟨by rw [hn]; exact a, commitOf q, i.row_commit hq, hn.symm, ?_, e⟩
  change r.id < q.id
  omega

theorem Inv.marker_row {w : World} (i : Inv w) {m : Row} (hm : m ∈ w.db.rows)
    (hn : m.name = compactRevKey) : m.deleted = false ∧ m.created = true := by
  have hmk := i.marker _ (i.row_commit hm) hn
  constructor
  · cases hd : m.deleted with
    | false => rfl
    | true => exact absurd (by simp [commitOf, hd]) hmk.1
  · cases hc : m.created with
    | true => rfl
    | false =>
      have ho := (i.rowOk m hm).2
      rw [if_neg (by rw [hc]; simp)] at ho
      obtain ⟨p, hp, _⟩ := ho
      obtain ⟨_, hple, _, ⟨c, hc, hcr, hck, _⟩, _⟩ := at_some_inv i.wf hp
      have := hmk.2 c hc (hck.trans hn)
      rw [this] at hcr
      change m.id = _ at hcr
      omega

theorem Inv.tryCompact_markers {w : World} (i : Inv w) {start stop : Int} {m : Row}
    (hm : w.db.markers = [m]) :
    (tryCompactTx w.db start stop).markers = [markRow stop m] := by
  have hmem : m ∈ w.db.rows ∧ m.name = compactRevKey := by
    have : m ∈ w.db.markers := by rw [hm]; simp
    simpa [DB.markers] using this
  have hkeep : m ∈ (compactTombstonesSQL (compactSupersededSQL w.db start stop) start stop).rows := by
    have hx : markRow stop m ∈ (tryCompactTx w.db start stop).rows := by
      rw [mem_tryCompact]
      refine ⟨m, hmem.1, ?_, ?_, rfl⟩
      · intro h; exact (i.superseded hmem.1 h).1 hmem.2
      · rintro ⟨h, _⟩; rw [(i.marker_row hmem.1 hmem.2).1] at h; cases h
    obtain ⟨r, hr, h1, h2, e⟩ := mem_tryCompact.1 hx
    have hrm : r = m := unique_id i.unique hr hmem.1 (by
      have := congrArg Row.id e
      rw [markRow_id, markRow_id] at this; exact this.symm)
    unfold tryCompactTx updateCompactSQL at hx
    simp only [List.mem_map] at hx
    obtain ⟨r', hr', e'⟩ := hx
    have : r' = m := by
      have hr'' : r' ∈ w.db.rows := by
        unfold compactTombstonesSQL compactSupersededSQL at hr'
        exact (List.mem_filter.1 (List.mem_filter.1 hr').1).1
      refine unique_id i.unique hr'' hmem.1 ?_
      have := congrArg Row.id e'
      rw [markRow_id] at this
      rw [← this]; split <;> rfl
    rw [← this]; exact hr'
  have hf : ∀ rows : List Row, ((rows.map (markRow stop)).filter fun r => r.name == compactRevKey)
      = (rows.filter fun r => r.name == compactRevKey).map (markRow stop) := by
    intro rows
    rw [List.filter_map]
    congr 1
    apply List.filter_congr
    intro r _
    simp [markRow_name]
  have : (tryCompactTx w.db start stop).markers =
      (((compactTombstonesSQL (compactSupersededSQL w.db start stop) start stop).rows).filter
        fun r => r.name == compactRevKey).map (markRow stop) := by
    rw [← hf]; rfl
  rw [this]
  have hsub : ((compactTombstonesSQL (compactSupersededSQL w.db start stop) start stop).rows).Sublist
      w.db.rows := by
    unfold compactTombstonesSQL compactSupersededSQL
    exact List.Sublist.trans List.filter_sublist List.filter_sublist
  have hs2 : (((compactTombstonesSQL (compactSupersededSQL w.db start stop) start stop).rows).filter
        fun r => r.name == compactRevKey).Sublist [m] := by
    rw [← hm]; exact List.Sublist.filter _ hsub
  have hin : m ∈ (((compactTombstonesSQL (compactSupersededSQL w.db start stop) start stop).rows).filter
        fun r => r.name == compactRevKey) := by
    rw [List.mem_filter]; exact ⟨hkeep, by simpa using hmem.2⟩
  have h : (((compactTombstonesSQL (compactSupersededSQL w.db start stop) start stop).rows).filter
        fun r => r.name == compactRevKey) = [m] := by
    cases hl : (((compactTombstonesSQL (compactSupersededSQL w.db start stop) start stop).rows).filter
        fun r => r.name == compactRevKey) with
    | nil => rw [hl] at hin; simp at hin
    | cons a as =>
      rw [hl] at hs2 hin
      have hlen := hs2.length_le
      have : as = [] := by
        cases as with
        | nil => rfl
        | cons _ _ => simp at hlen
      subst this
      rw [List.mem_singleton] at hin
      rw [hin]
  rw [h]; rfl

theorem tryCompact_compactRev {w : World} (i : Inv w) {start stop : Int} (hm : w.db.markers ≠ []) :
    (tryCompactTx w.db start stop).compactRev = max w.db.compactRev stop := by
  rcases i.markers_cases with h | ⟨m, h⟩
  · exact absurd h hm
  · have hmem : m ∈ w.db.markers := by rw [h]; simp
    have hn : m.name = compactRevKey := by
      simp only [DB.markers, List.mem_filter, beq_iff_eq] at hmem; exact hmem.2
    rw [compactRev_single h, compactRev_single (i.tryCompact_markers h)]
    simp [markRow, hn]

theorem tryCompact_seq (db : DB) (start stop : Int) : (tryCompactTx db start stop).seq = db.seq := rfl

theorem Inv.exec_tryCompact {w : World} (i : Inv w) (start stop : Int) {o : Outcome}
    (ho : o.applied = true) :
    w.exec (fun db => tryCompactTx db start stop) o
      = { db := tryCompactTx w.db start stop, hist := w.hist } := by
  have h : ((tryCompactTx w.db start stop).rows.filter fun r => decide (w.db.seq < r.id)) = [] := by
    rw [List.filter_eq_nil_iff]
    intro x hx
    obtain ⟨r, hr, _, _, rfl⟩ := mem_tryCompact.1 hx
    have := i.row_le_top hr
    rw [markRow_id, i.seq]; simp; omega
  simp [World.exec, ho, h]

theorem Needed_mono {h : History} {a b : Int} (hab : a ≤ b) {k : Bytes} {rev : Int} (wf : h.Wf)
    (hn : Needed h b k rev) : Needed h a k rev := by
  rcases hn with h' | ⟨kv, hkv, e⟩
  · left; omega
  · by_cases hlt : a < rev
    · exact Or.inl hlt
    · right
      refine ⟨kv, ?_, e⟩
      rw [← hkv]
      symm
      apply at_eq_of_no_between hab
      intro c hc hk hb
      have := (at_some_inv wf hkv).2.2.2.2 c hc hk hb
      omega

/-- The compaction transaction with bounds read earlier keeps table and history consistent. -/
theorem Inv.tryCompact {w : World} (i : Inv w) {start stop : Int} (hm : w.db.markers ≠ [])
    (hstart : start ≤ w.db.compactRev) (hstop : stop + 100 ≤ w.hist.top) :
    Inv { db := tryCompactTx w.db start stop, hist := w.hist } := by
  have hcr := tryCompact_compactRev (start := start) (stop := stop) i hm
  constructor
  · exact i.wf
  · unfold tryCompactTx updateCompactSQL compactTombstonesSQL compactSupersededSQL
    simp only
    rw [List.pairwise_map]
    refine List.Pairwise.imp ?_ (List.Pairwise.filter _ (List.Pairwise.filter _ i.sorted))
    intro a b hab
    split <;> split <;> exact hab
  · exact i.seq
  · intro x hx
    obtain ⟨r, hr, _, _, rfl⟩ := mem_tryCompact.1 hx
    have h1 := i.rowOk r hr
    by_cases hn : r.name = compactRevKey
    · have hcr' := (i.marker_row hr hn).2
      have e : markRow stop r = { r with prevRevision := max r.prevRevision stop } := by
        simp [markRow, hn]
      unfold RowOk at *
      rw [if_pos hcr'] at h1
      rw [e]
      rw [if_pos (show ({ r with prevRevision := max r.prevRevision stop } : Row).created = true from hcr')]
      exact h1
    · unfold markRow
      simp [hn]
      exact h1
  · intro c hc hneed
    simp only [hcr] at hneed
    have hne := Needed_mono (a := w.db.compactRev) (by omega) i.wf hneed
    obtain ⟨r, hr, e⟩ := i.keep c hc hne
    have hrc : commitOf r = c := Wf_rev_inj i.wf (i.row_commit hr) hc e
    have hrn : c.key = r.name := by rw [← hrc]; rfl
    refine ⟨markRow stop r, mem_tryCompact.2 ⟨r, hr, ?_, ?_, rfl⟩, by rw [markRow_id]; exact e⟩
    · intro hs
      obtain ⟨_, c', hc', hk', hlt, hle⟩ := i.superseded hr hs
      rcases hneed with h | ⟨kv, hkv, ekv⟩
      · omega
      · have := (at_some_inv i.wf hkv).2.2.2.2 c' hc' (by rw [hk', hrn]) (by omega)
        omega
    · rintro ⟨hd, _, hle⟩
      rcases hneed with h | ⟨kv, hkv, ekv⟩
      · omega
      · obtain ⟨_, _, _, ⟨c0, hc0, e0, _, hw⟩, _⟩ := at_some_inv i.wf hkv
        have : c0 = c := Wf_rev_inj i.wf hc0 hc (by omega)
        rw [this, ← hrc] at hw
        simp [commitOf, hd] at hw
  · intro x hx
    obtain ⟨r, hr, hns, hnt, rfl⟩ := mem_tryCompact.1 hx
    simp only [hcr, markRow_id, markRow_name]
    have hold := i.only r hr
    by_cases hcase : stop ≤ w.db.compactRev
    · have : max w.db.compactRev stop = w.db.compactRev := by omega
      rw [this]; exact hold
    · have hmax : max w.db.compactRev stop = stop := by omega
      rw [hmax]
      by_cases hlt : stop < r.id
      · exact Or.inl hlt
      · right
        have hrc := i.row_commit hr
        -- a deleted row would have been removed
        have hdel : r.deleted = false := by
          cases hd : r.deleted with
          | false => rfl
          | true =>
            exfalso
            apply hnt
            refine ⟨hd, ?_, by omega⟩
            rcases hold with h | ⟨kv, hkv, ekv⟩
            · omega
            · obtain ⟨_, _, _, ⟨c0, hc0, e0, _, hw⟩, _⟩ := at_some_inv i.wf hkv
              have : c0 = commitOf r := Wf_rev_inj i.wf hc0 hrc (by change _ = r.id; omega)
              rw [this] at hw
              simp [commitOf, hd] at hw
        -- no later version up to `stop`
        have hlast : ∀ c' ∈ w.hist, c'.key = r.name → c'.rev ≤ stop → c'.rev ≤ r.id := by
          intro c' hc' hk' hle'
          apply Classical.byContradiction
          intro hgt
          obtain ⟨n, hn, hnk, hna, hnb, hmin⟩ :=
            exists_next (a := r.id) hc' hk' (by omega) hle'
          have hncr : w.db.compactRev < n.rev := by
            rcases hold with h | ⟨kv, hkv, ekv⟩
            · omega
            · apply Classical.byContradiction
              intro hx
              have := (at_some_inv i.wf hkv).2.2.2.2 n hn hnk (by omega)
              omega
          obtain ⟨q, hq, eq⟩ := i.keep n hn (Or.inl hncr)
          have hqc : commitOf q = n := Wf_rev_inj i.wf (i.row_commit hq) hn eq
          have hqn : q.name = r.name := by rw [← hnk, ← hqc]; rfl
          -- the last commit before `q` on the key is that of `r`
          have hprev : ∀ c'' ∈ w.hist, c''.key = r.name → c''.rev ≤ q.id - 1 →
              c''.rev ≤ (commitOf r).rev := by
            intro c'' hc'' hk'' hle''
            apply Classical.byContradiction
            intro hx
            have := hmin c'' hc'' hk'' (by change ¬ c''.rev ≤ r.id at hx; omega)
            omega
          have hatq := at_of_last i.wf (r := q.id - 1) (k := r.name) hrc rfl (by
            change r.id ≤ q.id - 1; omega) hprev
          have hw : (commitOf r).write = some (r.value, r.lease) := by simp [commitOf, hdel]
          have ho := (i.rowOk q hq).2
          rw [hqn, hatq] at ho
          unfold Commit.applyTo at ho
          rw [hw] at ho
          cases hqcr : q.created with
          | true => rw [hqcr] at ho; simp at ho
          | false =>
            rw [if_neg (by rw [hqcr]; simp)] at ho
            obtain ⟨p, hp, _, hpr, _⟩ := ho
            have hpm : p.modRev = r.id := by cases hp; rfl
            apply hns
            refine ⟨q, hq, ?_, hqcr, ?_, by omega, by omega, by omega⟩
            · intro hmk
              have := (i.marker _ hrc (hqn.symm.trans hmk)).2 _ (i.row_commit hq) hmk
              have : (commitOf q).rev = (commitOf r).rev := by rw [this]
              change q.id = r.id at this
              omega
            · have := i.row_pos hr; omega
        have e := at_of_last i.wf (r := stop) (k := r.name) hrc rfl (by change r.id ≤ stop; omega) hlast
        have hw : (commitOf r).write = some (r.value, r.lease) := by simp [commitOf, hdel]
        unfold Commit.applyTo at e
        rw [hw] at e
        exact ⟨_, e, rfl⟩
  · exact i.marker
  · simp only [hcr]; have := i.nonneg; omega
  · simp only [hcr]
    rcases i.bound with h | h
    · by_cases hs : stop ≤ 0
      · left; omega
      · right; omega
    · right; omega

theorem Inv.tryCompact_marker {w : World} (i : Inv w) {start stop : Int} (hm : w.db.markers ≠ []) :
    (tryCompactTx w.db start stop).markers ≠ [] := by
  rcases i.markers_cases with h | ⟨m, h⟩
  · exact absurd h hm
  · rw [i.tryCompact_markers h]; simp

end Verif
