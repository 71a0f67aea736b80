import Verif.Model.Sql
import Verif.Lemmas.Bytes
import Verif.Lemmas.List
/-!
# Lemmas about the SQL building blocks
-/

namespace Verif

/-- `id` is a primary key. -/
def DB.UniqueIds (db : DB) : Prop := db.rows.Pairwise fun a b => a.id ≠ b.id

theorem maxRow_none {rs : List Row} : maxRow rs = none ↔ rs = [] := by
  cases rs with
  | nil => simp [maxRow]
  | cons r rs =>
    simp only [maxRow, reduceCtorEq, iff_false]
    split
    · simp
    · split <;> simp

theorem maxRow_some {rs : List Row} {m : Row} (h : maxRow rs = some m) :
    m ∈ rs ∧ ∀ r ∈ rs, r.id ≤ m.id := by
  induction rs generalizing m with
  | nil => simp [maxRow] at h
  | cons r rs ih =>
    simp only [maxRow] at h
    split at h
    · rename_i hn
      cases h
      rw [maxRow_none] at hn; subst hn; simp
    · rename_i m' hm'
      obtain ⟨h1, h2⟩ := ih hm'
      split at h <;> cases h
      · refine ⟨by simp, ?_⟩
        intro x hx
        rcases List.mem_cons.1 hx with rfl | hx
        · omega
        · have := h2 x hx; omega
      · refine ⟨by simp [h1], ?_⟩
        intro x hx
        rcases List.mem_cons.1 hx with rfl | hx
        · omega
        · exact h2 x hx

theorem maxRow_exists {rs : List Row} {r : Row} (h : r ∈ rs) : ∃ m, maxRow rs = some m := by
  cases e : maxRow rs with
  | none => rw [maxRow_none] at e; subst e; simp at h
  | some m => exact ⟨m, rfl⟩

theorem unique_id {rs : List Row} (u : rs.Pairwise fun a b => a.id ≠ b.id) {a b : Row}
    (ha : a ∈ rs) (hb : b ∈ rs) (e : a.id = b.id) : a = b := by
  induction rs with
  | nil => simp at ha
  | cons x xs ih =>
    rw [List.pairwise_cons] at u
    rcases List.mem_cons.1 ha with rfl | ha' <;> rcases List.mem_cons.1 hb with rfl | hb'
    · rfl
    · exact absurd e (u.1 b hb')
    · exact absurd e.symm (u.1 a ha')
    · exact ih u.2 ha' hb'

/-- With unique ids the row attaining the maximum is characterised by its members. -/
theorem maxRow_eq_some {rs : List Row} (u : rs.Pairwise fun a b => a.id ≠ b.id) {m : Row} :
    maxRow rs = some m ↔ m ∈ rs ∧ ∀ r ∈ rs, r.id ≤ m.id := by
  constructor
  · exact maxRow_some
  · rintro ⟨h1, h2⟩
    obtain ⟨m', hm'⟩ := maxRow_exists h1
    obtain ⟨h3, h4⟩ := maxRow_some hm'
    have := h2 m' h3
    have := h4 m h1
    rw [hm', unique_id u h3 h1 (by omega)]

theorem maxId_eq_some {rs : List Row} {i : Int} :
    maxId rs = some i ↔ (∃ m ∈ rs, m.id = i) ∧ ∀ r ∈ rs, r.id ≤ i := by
  unfold maxId
  constructor
  · intro h
    rw [Option.map_eq_some_iff] at h
    obtain ⟨m, hm, rfl⟩ := h
    obtain ⟨h1, h2⟩ := maxRow_some hm
    exact ⟨⟨m, h1, rfl⟩, h2⟩
  · rintro ⟨⟨m, h1, rfl⟩, h2⟩
    obtain ⟨m', hm'⟩ := maxRow_exists h1
    obtain ⟨h3, h4⟩ := maxRow_some hm'
    rw [hm']
    have := h2 m' h3
    have := h4 m h1
    simp; omega

theorem maxId_none {rs : List Row} : maxId rs = none ↔ rs = [] := by
  unfold maxId; rw [Option.map_eq_none_iff, maxRow_none]

theorem mem_groupNames {rs : List Row} {n : Bytes} : n ∈ groupNames rs ↔ ∃ r ∈ rs, r.name = n := by
  induction rs with
  | nil => simp [groupNames]
  | cons r rs ih =>
    simp only [groupNames]
    split
    · rename_i hc
      rw [List.contains_iff_mem] at hc
      rw [ih]
      constructor
      · rintro ⟨x, hx, rfl⟩; exact ⟨x, by simp [hx], rfl⟩
      · rintro ⟨x, hx, rfl⟩
        rcases List.mem_cons.1 hx with rfl | hx
        · exact ih.1 hc
        · exact ⟨x, hx, rfl⟩
    · rw [List.mem_cons, ih]
      constructor
      · rintro (rfl | ⟨x, hx, rfl⟩)
        · exact ⟨r, by simp, rfl⟩
        · exact ⟨x, by simp [hx], rfl⟩
      · rintro ⟨x, hx, rfl⟩
        rcases List.mem_cons.1 hx with rfl | hx
        · exact Or.inl rfl
        · exact Or.inr ⟨x, hx, rfl⟩

theorem nodup_groupNames (rs : List Row) : (groupNames rs).Nodup := by
  induction rs with
  | nil => simp [groupNames]
  | cons r rs ih =>
    simp only [groupNames]
    split
    · exact ih
    · rename_i hc
      rw [List.contains_iff_mem] at hc
      exact List.nodup_cons.2 ⟨hc, ih⟩

theorem insertBy_perm {α : Type} (le : α → α → Bool) (x : α) (l : List α) :
    (insertBy le x l).Perm (x :: l) := by
  induction l with
  | nil => simp [insertBy]
  | cons y ys ih =>
    simp only [insertBy]
    split
    · exact List.Perm.refl _
    · exact (List.Perm.cons y ih).trans (List.Perm.swap x y ys)

theorem orderBy_perm {α : Type} (le : α → α → Bool) (l : List α) : (orderBy le l).Perm l := by
  induction l with
  | nil => simp [orderBy]
  | cons x xs ih =>
    simp only [orderBy]
    exact (insertBy_perm le x _).trans (List.Perm.cons x ih)

theorem mem_orderBy {α : Type} {le : α → α → Bool} {l : List α} {x : α} :
    x ∈ orderBy le l ↔ x ∈ l := (orderBy_perm le l).mem_iff

theorem insertBy_sorted {α : Type} {le : α → α → Bool} (tot : ∀ a b, le a b = false → le b a = true)
    (tr : ∀ a b c, le a b = true → le b c = true → le a c = true) (x : α) {l : List α}
    (h : l.Pairwise fun a b => le a b = true) :
    (insertBy le x l).Pairwise fun a b => le a b = true := by
  induction l with
  | nil => simp [insertBy]
  | cons y ys ih =>
    rw [List.pairwise_cons] at h
    simp only [insertBy]
    split
    · rename_i hxy
      rw [List.pairwise_cons, List.pairwise_cons]
      refine ⟨?_, h⟩
      intro a ha
      rcases List.mem_cons.1 ha with rfl | ha
      · exact hxy
      · exact tr _ _ _ hxy (h.1 a ha)
    · rename_i hxy
      rw [List.pairwise_cons]
      refine ⟨?_, ih h.2⟩
      intro a ha
      rcases List.mem_cons.1 ((insertBy_perm le x ys).mem_iff.1 ha) with rfl | ha
      · exact tot _ _ (by simpa using hxy)
      · exact h.1 a ha

theorem orderBy_sorted {α : Type} {le : α → α → Bool} (tot : ∀ a b, le a b = false → le b a = true)
    (tr : ∀ a b c, le a b = true → le b c = true → le a c = true) (l : List α) :
    (orderBy le l).Pairwise fun a b => le a b = true := by
  induction l with
  | nil => simp [orderBy]
  | cons x xs ih => exact insertBy_sorted tot tr x ih

theorem orderBy_nodup {α : Type} {le : α → α → Bool} {l : List α} (h : l.Nodup) :
    (orderBy le l).Nodup := (orderBy_perm le l).nodup_iff.2 h

/-- Sorting an already sorted list changes nothing. -/
theorem insertBy_of_le {α : Type} {le : α → α → Bool} {x : α} {l : List α}
    (h : ∀ a ∈ l, le x a = true) : insertBy le x l = x :: l := by
  cases l with
  | nil => rfl
  | cons y ys => simp [insertBy, h y (by simp)]

theorem orderBy_of_sorted {α : Type} {le : α → α → Bool} {l : List α}
    (h : l.Pairwise fun a b => le a b = true) : orderBy le l = l := by
  induction l with
  | nil => rfl
  | cons x xs ih =>
    rw [List.pairwise_cons] at h
    simp only [orderBy, ih h.2]
    exact insertBy_of_le h.1

theorem filter_id_singleton {rs : List Row} (u : rs.Pairwise fun a b => a.id ≠ b.id) {m : Row}
    (h : m ∈ rs) : (rs.filter fun r => r.id == m.id) = [m] := by
  induction rs with
  | nil => simp at h
  | cons x xs ih =>
    rw [List.pairwise_cons] at u
    rcases List.mem_cons.1 h with rfl | hm
    · have : (xs.filter fun r => r.id == m.id) = [] := by
        rw [List.filter_eq_nil_iff]
        intro a ha; have := u.1 a ha
        simp only [beq_iff_eq]
        intro e; exact this e.symm
      rw [List.filter_cons]
      simp [this]
    · have : (x.id == m.id) = false := beq_eq_false_iff_ne.2 (u.1 m hm)
      rw [List.filter_cons]
      simp only [this, Bool.false_eq_true, ↓reduceIte]
      exact ih u.2 hm

theorem UniqueIds.filter {rs : List Row} (u : rs.Pairwise fun a b => a.id ≠ b.id) (p : Row → Bool) :
    (rs.filter p).Pairwise fun a b => a.id ≠ b.id := List.Pairwise.filter p u

theorem mem_rangeRows {db : DB} {lo hi : Bytes} {rev : Int} {r : Row} :
    r ∈ rangeRows db lo hi rev ↔ r ∈ db.rows ∧ inRange lo hi r.name = true ∧ r.id ≤ rev := by
  simp [rangeRows, List.mem_filter]

/-- The rows a list query is after: live latest versions. -/
def IsLatestLive (db : DB) (lo hi : Bytes) (rev : Int) (r : Row) : Prop :=
  r ∈ rangeRows db lo hi rev ∧ r.deleted = false ∧
    ∀ q ∈ rangeRows db lo hi rev, q.name = r.name → q.id ≤ r.id

theorem mem_maxkvV1 {db : DB} (u : db.UniqueIds) {lo hi : Bytes} {rev : Int} {r : Row} :
    r ∈ maxkvV1 db lo hi rev ↔ IsLatestLive db lo hi rev r := by
  have ur : (rangeRows db lo hi rev).Pairwise fun a b => a.id ≠ b.id := UniqueIds.filter u _
  unfold maxkvV1 IsLatestLive
  simp only [List.mem_filter, List.mem_filterMap, mem_orderBy, mem_groupNames, Bool.not_eq_true']
  constructor
  · rintro ⟨⟨n, ⟨x, hx, rfl⟩, hm⟩, hd⟩
    obtain ⟨h1, h2⟩ := maxRow_some hm
    simp only [List.mem_filter, beq_iff_eq] at h1 h2
    refine ⟨h1.1, hd, fun q hq hn => h2 q ⟨hq, ?_⟩⟩
    rw [hn, h1.2]
  · rintro ⟨h1, h2, h3⟩
    refine ⟨⟨r.name, ⟨r, h1, rfl⟩, ?_⟩, h2⟩
    rw [maxRow_eq_some (UniqueIds.filter ur _)]
    simp only [List.mem_filter, beq_iff_eq, and_true, and_imp]
    exact ⟨h1, fun q hq hn => h3 q hq hn⟩

theorem maxkvV1_sorted (db : DB) (lo hi : Bytes) (rev : Int) :
    (maxkvV1 db lo hi rev).Pairwise fun a b => blt a.name b.name = true := by
  unfold maxkvV1
  apply List.Pairwise.filter
  rw [List.pairwise_filterMap]
  have h1 : (orderBy ble (groupNames (rangeRows db lo hi rev))).Pairwise
      fun a b => ble a b = true :=
    orderBy_sorted (le := ble) (fun a b h => by
      rcases ble_total a b with h' | h'
      · rw [h] at h'; cases h'
      · exact h') (fun a b c => ble_trans) _
  have h2 : (orderBy ble (groupNames (rangeRows db lo hi rev))).Nodup :=
    orderBy_nodup (nodup_groupNames _)
  refine List.Pairwise.imp ?_ (h1.and h2)
  rintro a b ⟨hab, hne⟩ x hx y hy
  have ex := (maxRow_some hx).1
  have ey := (maxRow_some hy).1
  simp only [List.mem_filter, beq_iff_eq] at ex ey
  rw [ex.2, ey.2]
  rcases ble_iff.1 hab with h | h
  · exact absurd h hne
  · exact h

theorem flatMap_singleton {α : Type} {l : List α} {f : α → List α} (h : ∀ a ∈ l, f a = [a]) :
    l.flatMap f = l := by
  induction l with
  | nil => rfl
  | cons x xs ih =>
    rw [List.flatMap_cons, h x (by simp), ih fun a ha => h a (by simp [ha])]
    rfl

theorem listSqlV1_0_eq {db : DB} (u : db.UniqueIds) (lo hi : Bytes) (rev limit : Int) :
    listSqlV1_0 db lo hi rev limit = limitBy limit (maxkvV1 db lo hi rev) := by
  unfold listSqlV1_0
  congr 1
  apply flatMap_singleton
  intro a ha
  apply filter_id_singleton u
  have := (mem_maxkvV1 u).1 ha
  exact (mem_rangeRows.1 this.1).1

theorem joinIds_eq_filter (db : DB) {ids : List Int} (hn : ids.Nodup) :
    joinIds db ids = db.rows.filter fun r => decide (r.id ∈ ids) := by
  unfold joinIds
  induction db.rows with
  | nil => rfl
  | cons x xs ih =>
    rw [List.flatMap_cons, ih, List.filter_cons]
    have key : ((ids.filter fun i => i == x.id).map fun _ => x) = if x.id ∈ ids then [x] else [] := by
      clear ih
      induction ids with
      | nil => rfl
      | cons i is ih2 =>
        rw [List.nodup_cons] at hn
        rw [List.filter_cons]
        have ih2 := ih2 hn.2
        by_cases e : i = x.id
        · subst e
          rw [if_neg hn.1] at ih2
          simp [ih2]
        · have e' : ¬ x.id = i := fun h => e h.symm
          simp only [beq_eq_false_iff_ne.2 e, Bool.false_eq_true, ↓reduceIte, ih2, List.mem_cons, e',
            false_or]
    rw [key]
    by_cases h : x.id ∈ ids <;> simp [h]

theorem mem_groupMaxIds {rs : List Row} {i : Int} :
    i ∈ groupMaxIds rs ↔ ∃ r ∈ rs, r.id = i ∧ ∀ q ∈ rs, q.name = r.name → q.id ≤ i := by
  unfold groupMaxIds
  simp only [List.mem_filterMap, mem_groupNames, maxId_eq_some, List.mem_filter, beq_iff_eq]
  constructor
  · rintro ⟨n, _, ⟨m, ⟨hm, rfl⟩, rfl⟩, h2⟩
    exact ⟨m, hm, rfl, fun q hq hn => h2 q ⟨hq, hn⟩⟩
  · rintro ⟨r, hr, rfl, h2⟩
    exact ⟨r.name, ⟨r, hr, rfl⟩, ⟨r, ⟨hr, rfl⟩, rfl⟩, fun q hq => h2 q hq.1 hq.2⟩

theorem nodup_groupMaxIds {rs : List Row} (u : rs.Pairwise fun a b => a.id ≠ b.id) :
    (groupMaxIds rs).Nodup := by
  unfold groupMaxIds
  unfold List.Nodup
  rw [List.pairwise_filterMap]
  refine List.Pairwise.imp ?_ (nodup_groupNames rs)
  rintro a b hab x hx y hy rfl
  rw [maxId_eq_some] at hx hy
  obtain ⟨⟨m, hm, rfl⟩, _⟩ := hx
  obtain ⟨⟨m', hm', e⟩, _⟩ := hy
  simp only [List.mem_filter, beq_iff_eq] at hm hm'
  have := unique_id u hm'.1 hm.1 e
  subst this
  exact hab (hm.2.symm.trans hm'.2)

theorem rowLe_total (a b : Row) (h : rowLe a b = false) : rowLe b a = true := by
  unfold rowLe at *
  by_cases e : a.name = b.name
  · have e' : b.name = a.name := e.symm
    simp [e] at *; omega
  · have e' : ¬ b.name = a.name := fun h => e h.symm
    simp only [beq_eq_false_iff_ne.2 e, beq_eq_false_iff_ne.2 e', Bool.false_eq_true, ↓reduceIte] at *
    rcases ble_total a.name b.name with h' | h'
    · rw [h] at h'; cases h'
    · exact h'

theorem rowLe_trans (a b c : Row) (h₁ : rowLe a b = true) (h₂ : rowLe b c = true) :
    rowLe a c = true := by
  have hb : ∀ {x y : Row}, rowLe x y = true → ble x.name y.name = true := by
    intro x y h
    unfold rowLe at h
    split at h
    · rename_i e; rw [beq_iff_eq] at e; rw [e]; exact ble_refl _
    · exact h
  by_cases e : a.name = c.name
  · have h3 := hb h₂
    have h4 := hb h₁
    rw [← e] at h3
    have e2 := ble_antisymm h4 h3
    unfold rowLe at *
    simp only [← e, ← e2, BEq.rfl, ↓reduceIte, decide_eq_true_eq] at *
    omega
  · unfold rowLe
    simp only [beq_eq_false_iff_ne.2 e, Bool.false_eq_true, ↓reduceIte]
    exact ble_trans (hb h₁) (hb h₂)

theorem mem_joinLive {db : DB} (u : db.UniqueIds) {lo hi : Bytes} {rev : Int} {r : Row} :
    r ∈ ((joinIds db (groupMaxIds (rangeRows db lo hi rev))).filter fun kv => !kv.deleted) ↔
      IsLatestLive db lo hi rev r := by
  have ur : (rangeRows db lo hi rev).Pairwise fun a b => a.id ≠ b.id := UniqueIds.filter u _
  rw [joinIds_eq_filter db (nodup_groupMaxIds ur)]
  simp only [List.mem_filter, decide_eq_true_eq, Bool.not_eq_true', mem_groupMaxIds]
  constructor
  · rintro ⟨⟨hr, x, hx, e, h2⟩, hd⟩
    have : x = r := unique_id u (mem_rangeRows.1 hx).1 hr e
    subst this
    exact ⟨hx, hd, h2⟩
  · rintro ⟨h1, h2, h3⟩
    exact ⟨⟨(mem_rangeRows.1 h1).1, r, h1, rfl, h3⟩, h2⟩

theorem nodup_of_unique {rs : List Row} (u : rs.Pairwise fun a b => a.id ≠ b.id) : rs.Nodup :=
  List.Pairwise.imp (fun h e => h (by rw [e])) u

/-- The two list queries return the same rows in the same order. -/
theorem listSQL_eq_V1 {db : DB} (u : db.UniqueIds) (lo hi : Bytes) (rev limit : Int) :
    listSQL db lo hi rev limit = listSqlV1_0 db lo hi rev limit := by
  rw [listSqlV1_0_eq u]
  unfold listSQL
  congr 1
  have ur : (rangeRows db lo hi rev).Pairwise fun a b => a.id ≠ b.id := UniqueIds.filter u _
  apply pairwise_ext (lt := fun a b : Row => blt a.name b.name = true) (fun a b h h' => by
    rw [blt_asymm h] at h'; cases h') _ (maxkvV1_sorted _ _ _ _)
  · intro x; rw [mem_orderBy, mem_joinLive u, mem_maxkvV1 u]
  · have hs := orderBy_sorted rowLe_total rowLe_trans
      ((joinIds db (groupMaxIds (rangeRows db lo hi rev))).filter fun kv => !kv.deleted)
    have hn : (orderBy rowLe ((joinIds db (groupMaxIds (rangeRows db lo hi rev))).filter
        fun kv => !kv.deleted)).Nodup := by
      apply orderBy_nodup
      rw [joinIds_eq_filter db (nodup_groupMaxIds ur)]
      exact List.Pairwise.filter _ (List.Pairwise.filter _ (nodup_of_unique u))
    refine List.Pairwise.imp_of_mem ?_ (hs.and hn)
    rintro a b ha hb ⟨hab, hne⟩
    rw [mem_orderBy, mem_joinLive u] at ha hb
    unfold rowLe at hab
    split at hab
    · rename_i e
      rw [beq_iff_eq] at e
      have x1 := ha.2.2 b hb.1 e.symm
      have x2 := hb.2.2 a ha.1 e
      exact absurd (unique_id u (mem_rangeRows.1 ha.1).1 (mem_rangeRows.1 hb.1).1 (by omega)) hne
    · rename_i e
      rcases ble_iff.1 hab with h | h
      · rw [h] at e; simp at e
      · exact h

theorem countV1_eq {db : DB} (lo hi : Bytes) (rev : Int) :
    countRevisionSQLV1_0 db lo hi rev = (maxkvV1 db lo hi rev).length := by
  unfold countRevisionSQLV1_0 maxkvV1
  apply List.Perm.length_eq
  apply List.Perm.filter
  apply List.Perm.filterMap
  exact (orderBy_perm _ _).symm

/-- The two count queries agree. -/
theorem countSQL_eq_V1 {db : DB} (u : db.UniqueIds) (lo hi : Bytes) (rev : Int) :
    countRevisionSQL db lo hi rev = countRevisionSQLV1_0 db lo hi rev := by
  rw [countV1_eq]
  have h := listSQL_eq_V1 u lo hi rev 0
  rw [listSqlV1_0_eq u] at h
  simp only [listSQL, limitBy, Int.lt_irrefl, ↓reduceIte, gt_iff_lt] at h
  rw [← h]
  unfold countRevisionSQL
  exact (List.Perm.length_eq (orderBy_perm _ _)).symm

end Verif
