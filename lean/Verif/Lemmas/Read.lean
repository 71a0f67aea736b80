import Verif.Lemmas.Run
import Verif.Spec.Trace
/-!
# Reads
-/

namespace Verif

/-- The list query selects exactly the state at the revision. -/
theorem Inv.listing {w : World} (i : Inv w) {rev : Int} (h : w.db.compactRev ≤ rev) (lo hi : Bytes) :
    IsListing w.hist rev lo hi ((maxkvV1 w.db lo hi rev).map scanKeyValue) := by
  constructor
  · rw [List.pairwise_map]
    exact maxkvV1_sorted w.db lo hi rev
  · intro kv
    rw [List.mem_map]
    constructor
    · rintro ⟨r, hr, rfl⟩
      rw [mem_maxkvV1 i.unique] at hr
      obtain ⟨h1, h2, h3⟩ := hr
      rw [mem_rangeRows] at h1
      refine ⟨h1.2.1, i.row_at h1.1 h1.2.2 h2 ?_⟩
      intro q hq hn hle
      exact h3 q (mem_rangeRows.2 ⟨hq, by rw [hn]; exact h1.2.1, hle⟩) hn
    · rintro ⟨h1, h2⟩
      obtain ⟨r, hr, e, hn, hle, hd, hl⟩ := i.at_row h h2
      refine ⟨r, ?_, e⟩
      rw [mem_maxkvV1 i.unique]
      refine ⟨mem_rangeRows.2 ⟨hr, by rw [hn]; exact h1, hle⟩, hd, ?_⟩
      intro q hq hqn
      rw [mem_rangeRows] at hq
      exact hl q hq.1 (by rw [hqn, hn]) hq.2.2

theorem IsListing.congr {h h' : History} {r : Int} {lo hi : Bytes} {out : List KV}
    (e : ∀ k, h'.at r k = h.at r k) (hl : IsListing h r lo hi out) : IsListing h' r lo hi out :=
  ⟨hl.1, fun kv => by rw [e]; exact hl.2 kv⟩

theorem limitBy_map {α β : Type} (f : α → β) (n : Int) (l : List α) :
    (limitBy n l).map f = takeIf n (l.map f) := by
  unfold limitBy takeIf
  split
  · rw [List.map_take]
  · rfl

/-! ## Inverting the read paths -/

theorem path_query_ok {β : Type} {sel : DB → β} {t : List Obs} {r : β × Option Nat}
    (h : Path (query sel) t (.ok r)) : QueryOk sel maxRetries t r := path_queryLoop_ok h

theorem path_oneRow {α : Type} {r : α × Option Nat} {t : List Obs} {x : Except ApiErr α}
    (h : Path (oneRow r) t x) : t = [] ∧ (x = .ok r.1 ∨ x = .error (.db .other)) := by
  unfold oneRow at h
  split at h
  · obtain ⟨rfl, rfl⟩ := path_ret h; exact ⟨rfl, Or.inr rfl⟩
  · obtain ⟨rfl, rfl⟩ := path_ret h; exact ⟨rfl, Or.inl rfl⟩

theorem path_getCompactRevision_ok {t : List Obs} {r : Int × Int}
    (h : Path Driver.getCompactRevision t (.ok r)) :
    ∃ u ob, t = u ++ [ob] ∧ (∀ x ∈ t, x.isQuery) ∧
      r = (ob.pre.db.compactRev, ob.pre.db.currentRev) := by
  obtain ⟨t₁, t₂, p, rfl, h1, h2⟩ := path_andThen_ok h
  obtain ⟨x, hx, h3⟩ := path_map h2
  obtain ⟨rfl, hr⟩ := path_oneRow h3
  obtain ⟨u, ob, e, hq, _, _, hs, _⟩ := path_query_ok h1
  simp only [List.append_nil]
  refine ⟨u, ob, e, hq, ?_⟩
  rcases hr with rfl | rfl
  · simp only [Except.map, Except.ok.injEq] at hx
    rw [hx, hs]; rfl
  · cases hx

/-- The database errors a read may pass on, or `compacted`. -/
theorem path_getCompactRevision_error {t : List Obs} {e : ApiErr}
    (h : Path Driver.getCompactRevision t (.error e)) : ∃ d, e = .db d := by
  rcases path_andThen h with ⟨t₁, t₂, p, rfl, h1, h2⟩ | ⟨e', he, h1⟩
  · obtain ⟨x, hx, h3⟩ := path_map h2
    obtain ⟨rfl, hr⟩ := path_oneRow h3
    rcases hr with rfl | rfl
    · cases hx
    · simp only [Except.map, Except.error.injEq] at hx
      exact ⟨_, hx⟩
  · obtain ⟨_, _, h3⟩ := path_queryLoop h1
    cases he
    exact h3 _ rfl

/-- Which rows the driver's list query selects, with either schema. -/
theorem selList_eq {db : DB} (u : db.UniqueIds) (v1 : Bool) (lo hi : Bytes) (rev limit : Int) :
    (if v1 then listSqlV1_0 db lo hi rev limit else listSQL db lo hi rev limit)
      = limitBy limit (maxkvV1 db lo hi rev) := by
  split
  · exact listSqlV1_0_eq u lo hi rev limit
  · rw [listSQL_eq_V1 u, listSqlV1_0_eq u]

theorem selCount_eq {db : DB} (u : db.UniqueIds) (v1 : Bool) (lo hi : Bytes) (rev : Int) :
    (if v1 then countRevisionSQLV1_0 db lo hi rev else countRevisionSQL db lo hi rev)
      = (maxkvV1 db lo hi rev).length := by
  split
  · exact countV1_eq lo hi rev
  · rw [countSQL_eq_V1 u, countV1_eq]

theorem isQuery_nothing {ob : Obs} (i : Inv ob.pre) (h : ob.isQuery) : ob.post = ob.pre := by
  rw [Obs.isQuery] at h
  rw [h, i.exec_id]

theorem Facts.inv {w w' : World} {t : List Obs} (f : Facts w t w') {ob : Obs} (h : ob ∈ t) :
    Inv ob.pre := (f.pre ob h).inv

theorem Facts.append_left {w w' : World} {t u : List Obs} (f : Facts w (t ++ u) w') : Facts w t w' :=
  ⟨fun ob h => f.pre ob (by simp [h]), fun ob h => f.step ob (by simp [h]),
    fun ob h => f.post ob (by simp [h]), (List.pairwise_append.1 f.chain).1, f.total⟩

theorem Facts.append_right {w w' : World} {t u : List Obs} (f : Facts w (t ++ u) w') : Facts w u w' :=
  ⟨fun ob h => f.pre ob (by simp [h]), fun ob h => f.step ob (by simp [h]),
    fun ob h => f.post ob (by simp [h]), (List.pairwise_append.1 f.chain).2.1, f.total⟩

/-- Statements of a first part come before those of a second part. -/
theorem Facts.between {w w' : World} {t u : List Obs} (f : Facts w (t ++ u) w') {a b : Obs} (ha : a ∈ t)
    (hb : b ∈ u) : Ext a.pre b.pre :=
  (f.step a (by simp [ha])).trans ((List.pairwise_append.1 f.chain).2.2 a ha b hb)

/-- A broken cursor delivers a prefix. -/
def cutList {α : Type} (cut : Option Nat) (l : List α) : List α :=
  match cut with
  | none => l
  | some n => l.take n

theorem scanAll_eq {α β : Type} (f : α → β) (l : List α) (cut : Option Nat) :
    scanAll f (l, cut) = cutList cut (l.map f) := by
  cases cut with
  | none => rfl
  | some n => simp only [scanAll, cutList, List.map_take]

/-- Successful `List`: what was read where. -/
theorem path_list {w w' : World} {t : List Obs} {v1 : Bool} {key re : Bytes} {limit r hdr : Int}
    {kvs : List KV} (f : Facts w t w') (h : Path (Backend.list v1 key re limit r) t (.ok (hdr, kvs))) :
    ∃ ob₁ ∈ t, ∃ ob₂ ∈ t, ∃ cut, hdr = ob₁.pre.hist.top ∧ Ext ob₁.pre ob₂.pre ∧
      (r = 0 ∨ r > hdr ∨ ob₁.pre.db.compactRev ≤ r) ∧ (NoTrunc t → cut = none) ∧
      kvs = cutList cut (takeIf limit
        ((maxkvV1 ob₂.pre.db key (rangeEndOf key re) (effRev r hdr)).map scanKeyValue)) ∧
      ChangesNothing t := by
  obtain ⟨t₁, t₂, ⟨cr, cur⟩, rfl, h1, h2⟩ := path_andThen_ok h
  obtain ⟨u, ob₁, e1, hq1, hr⟩ := path_getCompactRevision_ok h1
  have hob₁ : ob₁ ∈ t₁ := by simp [e1]
  have i₁ := f.inv (ob := ob₁) (by simp [hob₁])
  rw [i₁.currentRev_eq] at hr
  simp only [Prod.mk.injEq] at hr
  obtain ⟨rfl, rfl⟩ := hr
  have hn1 : ChangesNothing t₁ := fun x hx => isQuery_nothing (f.inv (by simp [hx])) (hq1 x hx)
  have hgo : ∀ q, Path ((Driver.list v1 key re limit q).andThen fun rows =>
      .ret (.ok (ob₁.pre.hist.top, scanAll scanKeyValue rows))) t₂ (.ok (hdr, kvs)) →
      ∃ ob₂ ∈ t₂, ∃ cut, hdr = ob₁.pre.hist.top ∧ (NoTrunc (t₁ ++ t₂) → cut = none) ∧
        kvs = cutList cut (takeIf limit
          ((maxkvV1 ob₂.pre.db key (rangeEndOf key re) q).map scanKeyValue)) ∧
        ChangesNothing t₂ := by
    intro q hp
    obtain ⟨t₃, t₄, rows, rfl, h3, h4⟩ := path_andThen_ok hp
    obtain ⟨e4, e5⟩ := path_ret h4
    subst e4
    simp only [Except.ok.injEq, Prod.mk.injEq] at e5
    obtain ⟨rfl, rfl⟩ := e5
    obtain ⟨u', ob₂, e2, hq2, _, _, hs, ho⟩ := path_query_ok h3
    have hob₂ : ob₂ ∈ t₃ := by simp [e2]
    have i₂ := f.inv (ob := ob₂) (by simp [hob₂])
    refine ⟨ob₂, by simp [hob₂], rows.2, rfl, ?_, ?_, ?_⟩
    · intro hnt
      rcases ho with ⟨_, hn⟩ | ⟨m, hm, _⟩
      · exact hn
      · exact absurd hm (hnt ob₂ (by simp [hob₂]) m)
    · have hs := hs.trans (selList_eq i₂.unique v1 _ _ _ _)
      rw [← limitBy_map, ← scanAll_eq, ← hs]
    · intro x hx
      simp only [List.append_nil] at hx
      exact isQuery_nothing (f.inv (by simp [hx])) (hq2 x hx)
  simp only at h2
  have hfin : ∀ q, q = effRev r ob₁.pre.hist.top →
      (r = 0 ∨ r > ob₁.pre.hist.top ∨ ob₁.pre.db.compactRev ≤ r) →
      Path ((Driver.list v1 key re limit q).andThen fun rows =>
      .ret (.ok (ob₁.pre.hist.top, scanAll scanKeyValue rows))) t₂ (.ok (hdr, kvs)) →
      ∃ ob₁ ∈ t₁ ++ t₂, ∃ ob₂ ∈ t₁ ++ t₂, ∃ cut, hdr = ob₁.pre.hist.top ∧ Ext ob₁.pre ob₂.pre ∧
      (r = 0 ∨ r > hdr ∨ ob₁.pre.db.compactRev ≤ r) ∧ (NoTrunc (t₁ ++ t₂) → cut = none) ∧
      kvs = cutList cut (takeIf limit
        ((maxkvV1 ob₂.pre.db key (rangeEndOf key re) (effRev r hdr)).map scanKeyValue)) ∧
      ChangesNothing (t₁ ++ t₂) := by
    intro q hq hr hp
    obtain ⟨ob₂, hob₂, cut, rfl, a, b, c⟩ := hgo q hp
    refine ⟨ob₁, by simp [hob₁], ob₂, by simp [hob₂], cut, rfl, f.between hob₁ hob₂, hr, a, ?_, ?_⟩
    · rw [← hq]; exact b
    · intro x hx
      rcases List.mem_append.1 hx with hx | hx
      · exact hn1 x hx
      · exact c x hx
  split at h2
  · rename_i hc
    exact hfin _ (by simp [effRev, hc]) (by rcases hc with h | h; exact Or.inl h; exact Or.inr (Or.inl h)) h2
  · rename_i hc
    split at h2
    · obtain ⟨_, h2⟩ := path_ret h2; cases h2
    · rename_i hc2
      exact hfin _ (by simp [effRev, hc]) (Or.inr (Or.inr (by omega))) h2

theorem effRev_le (r cur : Int) : effRev r cur ≤ cur := by
  unfold effRev; split <;> omega

/-- Successful `List`: exact, unless compaction overtook it or a cursor broke. -/
theorem list_exact {w w' : World} {t : List Obs} {v1 : Bool} {key re : Bytes} {limit r hdr : Int}
    {kvs : List KV} (f : Facts w t w') (h : Path (Backend.list v1 key re limit r) t (.ok (hdr, kvs)))
    (hnt : NoTrunc t) (hc : w'.db.compactRev ≤ effRev r hdr) :
    ∃ full, IsListing w'.hist (effRev r hdr) key (rangeEndOf key re) full ∧ kvs = takeIf limit full := by
  obtain ⟨ob₁, h₁, ob₂, h₂, cut, e, hx, _, hcut, hk, _⟩ := path_list f h
  have hp := (f.step ob₂ h₂).trans (f.post ob₂ h₂)
  refine ⟨_, ?_, by rw [hcut hnt] at hk; exact hk⟩
  apply IsListing.congr _ ((f.inv h₂).listing (by have := hp.cr; omega) _ _)
  intro k
  apply hp.at
  have := effRev_le r hdr
  have := hx.top
  omega

/-- The header of a successful `List` is the current revision at some instant of the call. -/
theorem list_header {w w' : World} {t : List Obs} {v1 : Bool} {key re : Bytes} {limit r hdr : Int}
    {kvs : List KV} (f : Facts w t w') (h : Path (Backend.list v1 key re limit r) t (.ok (hdr, kvs))) :
    w.hist.top ≤ hdr ∧ hdr ≤ w'.hist.top ∧ ChangesNothing t ∧ (r = 0 ∨ r > hdr ∨ w.db.compactRev ≤ r) := by
  obtain ⟨ob₁, h₁, ob₂, h₂, cut, e, hx, hr, _, _, hn⟩ := path_list f h
  have a := (f.pre ob₁ h₁).top
  have b := ((f.step ob₁ h₁).trans (f.post ob₁ h₁)).top
  have c := (f.pre ob₁ h₁).cr
  refine ⟨by omega, by omega, hn, ?_⟩
  rcases hr with h | h | h
  · exact Or.inl h
  · exact Or.inr (Or.inl h)
  · exact Or.inr (Or.inr (by omega))

/-- Successful `Count`. -/
theorem path_count {w w' : World} {t : List Obs} {v1 : Bool} {key re : Bytes} {r hdr n : Int}
    (f : Facts w t w') (h : Path (Backend.count v1 key re r) t (.ok (hdr, n))) :
    ∃ ob₁ ∈ t, ∃ ob₂ ∈ t, hdr = ob₁.pre.hist.top ∧ Ext ob₁.pre ob₂.pre ∧
      (r = 0 ∨ r > hdr ∨ ob₁.pre.db.compactRev ≤ r) ∧
      n = ((maxkvV1 ob₂.pre.db key (rangeEndOf key re) (effRev r hdr)).length : Int) ∧
      ChangesNothing t := by
  obtain ⟨t₁, t₂, ⟨cr, cur⟩, rfl, h1, h2⟩ := path_andThen_ok h
  obtain ⟨u, ob₁, e1, hq1, hr⟩ := path_getCompactRevision_ok h1
  have hob₁ : ob₁ ∈ t₁ := by simp [e1]
  have i₁ := f.inv (ob := ob₁) (by simp [hob₁])
  rw [i₁.currentRev_eq] at hr
  simp only [Prod.mk.injEq] at hr
  obtain ⟨rfl, rfl⟩ := hr
  have hn1 : ChangesNothing t₁ := fun x hx => isQuery_nothing (f.inv (by simp [hx])) (hq1 x hx)
  have hfin : ∀ q, q = effRev r ob₁.pre.hist.top →
      (r = 0 ∨ r > ob₁.pre.hist.top ∨ ob₁.pre.db.compactRev ≤ r) →
      Path ((Driver.count v1 key re q).andThen fun n =>
      .ret (.ok (ob₁.pre.hist.top, n))) t₂ (.ok (hdr, n)) →
      ∃ ob₁ ∈ t₁ ++ t₂, ∃ ob₂ ∈ t₁ ++ t₂, hdr = ob₁.pre.hist.top ∧ Ext ob₁.pre ob₂.pre ∧
      (r = 0 ∨ r > hdr ∨ ob₁.pre.db.compactRev ≤ r) ∧
      n = ((maxkvV1 ob₂.pre.db key (rangeEndOf key re) (effRev r hdr)).length : Int) ∧
      ChangesNothing (t₁ ++ t₂) := by
    intro q hq hr hp
    obtain ⟨t₃, t₄, m, rfl, h3, h4⟩ := path_andThen_ok hp
    obtain ⟨e4, e5⟩ := path_ret h4
    subst e4
    simp only [Except.ok.injEq, Prod.mk.injEq] at e5
    obtain ⟨rfl, rfl⟩ := e5
    obtain ⟨t₅, t₆, rows, rfl, h5, h6⟩ := path_andThen_ok h3
    obtain ⟨x, hx, h7⟩ := path_map h6
    obtain ⟨rfl, hrow⟩ := path_oneRow h7
    obtain ⟨u', ob₂, e2, hq2, _, _, hs, ho⟩ := path_query_ok h5
    have hob₂ : ob₂ ∈ t₅ := by simp [e2]
    have i₂ := f.inv (ob := ob₂) (by simp [hob₂])
    refine ⟨ob₁, by simp [hob₁], ob₂, by simp [hob₂], rfl, f.between hob₁ (by simp [hob₂]), hr, ?_, ?_⟩
    · rcases hrow with rfl | rfl
      · simp only [Except.map, Except.ok.injEq] at hx
        have hs := hs.trans (selCount_eq i₂.unique v1 _ _ _)
        rw [hx, hs, hq]; rfl
      · cases hx
    · intro x hx
      simp only [List.append_nil] at hx
      rcases List.mem_append.1 hx with hx | hx
      · exact hn1 x hx
      · exact isQuery_nothing (f.inv (by simp [hx])) (hq2 x hx)
  simp only at h2
  split at h2
  · rename_i hc
    exact hfin _ (by simp [effRev, hc]) (by rcases hc with h | h; exact Or.inl h; exact Or.inr (Or.inl h)) h2
  · rename_i hc
    split at h2
    · obtain ⟨_, h2⟩ := path_ret h2; cases h2
    · rename_i hc2
      exact hfin _ (by simp [effRev, hc]) (Or.inr (Or.inr (by omega))) h2

theorem count_exact {w w' : World} {t : List Obs} {v1 : Bool} {key re : Bytes} {r hdr n : Int}
    (f : Facts w t w') (h : Path (Backend.count v1 key re r) t (.ok (hdr, n)))
    (hc : w'.db.compactRev ≤ effRev r hdr) :
    ∃ full, IsListing w'.hist (effRev r hdr) key (rangeEndOf key re) full ∧ n = full.length := by
  obtain ⟨ob₁, h₁, ob₂, h₂, e, hx, _, hk, _⟩ := path_count f h
  have hp := (f.step ob₂ h₂).trans (f.post ob₂ h₂)
  refine ⟨(maxkvV1 ob₂.pre.db key (rangeEndOf key re) (effRev r hdr)).map scanKeyValue, ?_,
    by rw [hk, List.length_map]⟩
  apply IsListing.congr _ ((f.inv h₂).listing (by have := hp.cr; omega) _ _)
  intro k
  apply hp.at
  have := effRev_le r hdr
  have := hx.top
  omega

theorem count_header {w w' : World} {t : List Obs} {v1 : Bool} {key re : Bytes} {r hdr n : Int}
    (f : Facts w t w') (h : Path (Backend.count v1 key re r) t (.ok (hdr, n))) :
    w.hist.top ≤ hdr ∧ hdr ≤ w'.hist.top ∧ ChangesNothing t ∧ (r = 0 ∨ r > hdr ∨ w.db.compactRev ≤ r) := by
  obtain ⟨ob₁, h₁, ob₂, h₂, e, hx, hr, _, hn⟩ := path_count f h
  have a := (f.pre ob₁ h₁).top
  have b := ((f.step ob₁ h₁).trans (f.post ob₁ h₁)).top
  have c := (f.pre ob₁ h₁).cr
  refine ⟨by omega, by omega, hn, ?_⟩
  rcases hr with h | h | h
  · exact Or.inl h
  · exact Or.inr (Or.inl h)
  · exact Or.inr (Or.inr (by omega))

end Verif
