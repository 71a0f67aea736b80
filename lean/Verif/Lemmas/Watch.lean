import Verif.Model.Watch
import Verif.Lemmas.Run
import Verif.Lemmas.List
/-!
# Events, stretches of the history, and the invariant of the watch machinery
-/

namespace Verif

/-! ## Sound and complete lists of events -/

/-- Strictly ascending events of commits on keys satisfying `P` with revisions in `(a, b]`. -/
structure Sound (h : History) (P : Bytes → Bool) (a b : Int) (es : List Event) : Prop where
  asc : es.Pairwise fun x y => x.kv.modRev < y.kv.modRev
  mem : ∀ e ∈ es, P e.kv.key = true ∧ a < e.kv.modRev ∧ e.kv.modRev ≤ b ∧ ∃ c ∈ h, Describes h c e

/-- No commit on keys satisfying `P` with revision in `(a, b]` is missing. -/
def Covers (h : History) (P : Bytes → Bool) (a b : Int) (es : List Event) : Prop :=
  ∀ c ∈ h, P c.key = true → a < c.rev → c.rev ≤ b → ∃ e ∈ es, e.kv.modRev = c.rev

theorem Sound.nil {h : History} {P : Bytes → Bool} {a b : Int} : Sound h P a b [] :=
  ⟨List.Pairwise.nil, by simp⟩

theorem Covers.nil {h : History} {P : Bytes → Bool} {a b : Int} (hab : b ≤ a) : Covers h P a b [] :=
  fun c _ _ h1 h2 => by omega

theorem Sound.append {h : History} {P : Bytes → Bool} {a b c : Int} {es es' : List Event}
    (h₁ : Sound h P a b es) (h₂ : Sound h P b c es') (hab : a ≤ b) (hbc : b ≤ c) :
    Sound h P a c (es ++ es') := by
  refine ⟨List.pairwise_append.2 ⟨h₁.asc, h₂.asc, ?_⟩, ?_⟩
  · intro x hx y hy
    have := (h₁.mem x hx).2.2.1
    have := (h₂.mem y hy).2.1
    omega
  · intro e he
    rcases List.mem_append.1 he with he | he
    · obtain ⟨x1, x2, x3, x4⟩ := h₁.mem e he
      exact ⟨x1, x2, by omega, x4⟩
    · obtain ⟨x1, x2, x3, x4⟩ := h₂.mem e he
      exact ⟨x1, by omega, x3, x4⟩

theorem Covers.append {h : History} {P : Bytes → Bool} {a b c : Int} {es es' : List Event}
    (h₁ : Covers h P a b es) (h₂ : Covers h P b c es') : Covers h P a c (es ++ es') := by
  intro x hx hp h1 h2
  by_cases hb : x.rev ≤ b
  · obtain ⟨e, he, hr⟩ := h₁ x hx hp h1 hb
    exact ⟨e, List.mem_append.2 (Or.inl he), hr⟩
  · obtain ⟨e, he, hr⟩ := h₂ x hx hp (by omega) h2
    exact ⟨e, List.mem_append.2 (Or.inr he), hr⟩

theorem Sound.left {h : History} {P : Bytes → Bool} {a b : Int} {es es' : List Event}
    (h₁ : Sound h P a b (es ++ es')) : Sound h P a b es :=
  ⟨(List.pairwise_append.1 h₁.asc).1, fun e he => h₁.mem e (List.mem_append.2 (Or.inl he))⟩

theorem Sound.mono {h : History} {P : Bytes → Bool} {a b a' b' : Int} {es : List Event}
    (h₁ : Sound h P a b es) (ha : a' ≤ a) (hb : b ≤ b') : Sound h P a' b' es :=
  ⟨h₁.asc, fun e he => by
    obtain ⟨x1, x2, x3, x4⟩ := h₁.mem e he
    exact ⟨x1, by omega, by omega, x4⟩⟩

theorem Sound.empty {h : History} {P : Bytes → Bool} {a b : Int} {es : List Event} (h₁ : Sound h P a b es)
    (hab : b ≤ a) : es = [] := by
  cases es with
  | nil => rfl
  | cons e es =>
    obtain ⟨_, x2, x3, _⟩ := h₁.mem e (by simp)
    omega

theorem Describes.ext {w w' : World} (hx : Ext w w') {c : Commit} {e : Event}
    (hc : c ∈ w.hist) (wf : w.hist.Wf) (hd : Describes w.hist c e) : Describes w'.hist c e := by
  have hle := le_top wf hc
  unfold Describes
  rw [hx.at hle, hx.at (by omega)]
  exact hd

theorem Sound.ext {w w' : World} (hx : Ext w w') (wf : w.hist.Wf) {P : Bytes → Bool} {a b : Int}
    {es : List Event} (h : Sound w.hist P a b es) : Sound w'.hist P a b es :=
  ⟨h.asc, fun e he => by
    obtain ⟨x1, x2, x3, c, hc, hd⟩ := h.mem e he
    exact ⟨x1, x2, x3, c, hx.mem hc, hd.ext hx hc wf⟩⟩

theorem Covers.ext {w w' : World} (hx : Ext w w') {P : Bytes → Bool} {a b : Int} {es : List Event}
    (hb : b ≤ w.hist.top) (h : Covers w.hist P a b es) : Covers w'.hist P a b es :=
  fun c hc hp h1 h2 => h c (hx.mem_of_le hc (by omega)) hp h1 h2

theorem appendEvents_sound {h : History} {a b : Int} {es : List Event} {lo hi : Bytes}
    (hs : Sound h (fun _ => true) a b es) : Sound h (inRange lo hi) a b (appendEvents es lo hi) := by
  refine ⟨hs.asc.filter _, fun e he => ?_⟩
  obtain ⟨h1, h2⟩ := List.mem_filter.1 he
  obtain ⟨_, x2, x3, x4⟩ := hs.mem e h1
  exact ⟨h2, x2, x3, x4⟩

theorem appendEvents_covers {h : History} (wf : h.Wf) {a b : Int} {es : List Event} {lo hi : Bytes}
    (hs : Sound h (fun _ => true) a b es) (hc : Covers h (fun _ => true) a b es) :
    Covers h (inRange lo hi) a b (appendEvents es lo hi) := by
  intro c hc' hp h1 h2
  obtain ⟨e, he, hr⟩ := hc c hc' rfl h1 h2
  refine ⟨e, List.mem_filter.2 ⟨he, ?_⟩, hr⟩
  obtain ⟨_, _, _, c', hc'', hd⟩ := hs.mem e he
  have : c' = c := Wf_rev_inj wf hc'' hc' (by rw [← hd.1, hr])
  subst this
  rw [hd.2.1]
  exact hp

/-- Sound and complete together: exactly the events of the stretch, in order. -/
theorem Sound.eventsOf {h : History} (wf : h.Wf) {P : Bytes → Bool} {a b : Int} {es : List Event}
    (hs : Sound h P a b es) (hc : Covers h P a b es) : EventsOf h (h.stretch P a b) es := by
  have hmem : ∀ c, c ∈ h.stretch P a b ↔ c ∈ h ∧ P c.key = true ∧ a < c.rev ∧ c.rev ≤ b := by
    intro c
    simp [History.stretch, List.mem_filter]
  have hd : ∀ e ∈ es, ∃ c ∈ h.stretch P a b, Describes h c e := by
    intro e he
    obtain ⟨x1, x2, x3, c, hc', hd⟩ := hs.mem e he
    refine ⟨c, (hmem c).2 ⟨hc', ?_, ?_, ?_⟩, hd⟩
    · rw [← hd.2.1]; exact x1
    · rw [← hd.1]; exact x2
    · rw [← hd.1]; exact x3
  refine ⟨?_, hd⟩
  apply pairwise_ext (lt := fun (x y : Int) => x < y) (fun _ _ _ _ => by omega)
  · exact List.pairwise_map.2 hs.asc
  · exact List.pairwise_map.2 (wf.sorted.filter _)
  · intro x
    simp only [List.mem_map]
    constructor
    · rintro ⟨e, he, rfl⟩
      obtain ⟨c, hc', hd'⟩ := hd e he
      exact ⟨c, hc', hd'.1.symm⟩
    · rintro ⟨c, hc', rfl⟩
      obtain ⟨y1, y2, y3, y4⟩ := (hmem c).1 hc'
      exact hc c y1 y2 y3 y4

/-! ## Events read from the table -/

/-- What the code makes of a stored row describes the row's commit. -/
theorem Inv.describes {w : World} (i : Inv w) {r : Row} (hr : r ∈ w.db.rows) :
    Describes w.hist (commitOf r) (scanEvent r) := by
  have hc := i.row_commit hr
  obtain ⟨_, ho⟩ := i.rowOk r hr
  have hat : w.hist.at r.id r.name = (commitOf r).applyTo (w.hist.at (r.id - 1) r.name) :=
    at_of_last i.wf (k := r.name) hc rfl (Int.le_refl _) (fun c' _ _ h => h)
  refine ⟨rfl, rfl, ?_, ?_, ?_, ?_, ?_⟩
  · simp only [scanEvent, commitOf]
    cases r.deleted <;> simp
  · intro hd
    have hd' : r.deleted = false := hd
    change w.hist.at r.id r.name = _
    rw [hat]
    have hw : (commitOf r).write = some (r.value, r.lease) := by simp [commitOf, hd']
    unfold Commit.applyTo
    rw [hw]
    split at ho
    · rename_i hcr
      rw [ho.2]
      simp [scanEvent, hcr, commitOf]
    · rename_i hcr
      obtain ⟨p, hp, h1, _⟩ := ho
      rw [hp]
      simp [scanEvent, hcr, commitOf, h1]
  · intro hd
    have hd' : r.deleted = true := hd
    split at ho
    · rw [ho.1] at hd'; cases hd'
    · obtain ⟨p, _, _, _, _, h4⟩ := ho
      exact (h4 hd').2
  · change (scanEvent r).prevKv = none ↔ w.hist.at (r.id - 1) r.name = none
    split at ho
    · rename_i hcr
      simp [scanEvent, hcr, ho.2]
    · rename_i hcr
      obtain ⟨p, hp, _⟩ := ho
      simp [scanEvent, hcr, hp]
  · intro q hq
    change ∃ p, w.hist.at (r.id - 1) r.name = some p ∧ _
    split at ho
    · rename_i hcr
      simp [scanEvent, hcr] at hq
    · rename_i hcr
      obtain ⟨p, hp, h1, h2, h3, _⟩ := ho
      refine ⟨p, hp, ?_⟩
      simp only [scanEvent, if_neg hcr, Option.some.injEq] at hq
      have hk := at_key i.wf hp
      rw [← hq, h1, h2, h3, ← hk]

theorem idLe_sorted_filter {w : World} (i : Inv w) (p : Row → Bool) :
    orderBy idLe (w.db.rows.filter p) = w.db.rows.filter p := by
  apply orderBy_of_sorted
  refine (i.sorted.filter p).imp ?_
  intro a b h
  simp only [idLe, decide_eq_true_eq]
  omega

/-- Events of a sublist of the stored rows. -/
theorem Inv.sound_rows {w : World} (i : Inv w) {P : Bytes → Bool} {a b : Int} {rs : List Row}
    (hsub : rs.Sublist w.db.rows) (hm : ∀ r ∈ rs, P r.name = true ∧ a < r.id ∧ r.id ≤ b) :
    Sound w.hist P a b (rs.map scanEvent) := by
  refine ⟨List.pairwise_map.2 (i.sorted.sublist hsub), ?_⟩
  intro e he
  obtain ⟨r, hr, rfl⟩ := List.mem_map.1 he
  obtain ⟨h1, h2, h3⟩ := hm r hr
  have hr' := hsub.subset hr
  exact ⟨h1, h2, h3, _, i.row_commit hr', i.describes hr'⟩

/-- The rows a scan returns. -/
theorem scanAll_take {α β : Type} (f : α → β) (rs : List α) (tr : Option Nat) :
    ∃ m, scanAll f (rs, tr) = (rs.take m).map f ∧ (tr = none → rs.take m = rs) := by
  cases tr with
  | none => exact ⟨rs.length, by simp [scanAll], by simp⟩
  | some n => exact ⟨n, rfl, by simp⟩

/-- The result of a poll query is sound; it is complete up to the new poll revision when compaction has not
passed the old one. -/
theorem Inv.poll_events {w : World} (i : Inv w) (a limit : Int) (tr : Option Nat) :
    let es := scanAll scanEvent (afterSQL w.db a limit, tr)
    a ≤ nextPollRevision a es ∧ (nextPollRevision a es = a ∨ nextPollRevision a es ≤ w.hist.top) ∧
    Sound w.hist (fun _ => true) a (nextPollRevision a es) es ∧
    (w.db.compactRev ≤ a → Covers w.hist (fun _ => true) a (nextPollRevision a es) es) := by
  intro es
  -- the events are those of a prefix of the rows beyond `a`
  have hpre : ∃ m, es = ((w.db.rows.filter fun r => decide (r.id > a)).take m).map scanEvent := by
    obtain ⟨m, hm, _⟩ := scanAll_take scanEvent (afterSQL w.db a limit) tr
    refine ⟨if limit > 0 then min m limit.toNat else m, ?_⟩
    change scanAll scanEvent (afterSQL w.db a limit, tr) = _
    rw [hm]
    unfold afterSQL limitBy
    rw [idLe_sorted_filter i]
    split
    · rw [List.take_take]
    · rfl
  obtain ⟨m, hm⟩ := hpre
  generalize hR : (w.db.rows.filter fun r => decide (r.id > a)) = R at hm
  have hRs : R.Pairwise fun x y => x.id < y.id := by rw [← hR]; exact i.sorted.filter _
  have hRsub : R.Sublist w.db.rows := by rw [← hR]; exact List.filter_sublist
  have hRa : ∀ r ∈ R, a < r.id := by
    intro r hr
    rw [← hR] at hr
    simpa using (List.mem_filter.1 hr).2
  have hsplit := List.take_append_drop m R
  -- the new poll revision bounds the prefix
  have hnext : (R.take m = [] ∧ nextPollRevision a es = a) ∨
      (∃ l ∈ R.take m, nextPollRevision a es = l.id ∧ ∀ r ∈ R.take m, r.id ≤ l.id) := by
    cases hl : (R.take m).getLast? with
    | none =>
      left
      have h0 := List.getLast?_eq_none_iff.1 hl
      refine ⟨h0, ?_⟩
      rw [hm, h0]; rfl
    | some l =>
      right
      have hlm := List.mem_of_getLast? hl
      refine ⟨l, hlm, ?_, ?_⟩
      · unfold nextPollRevision
        rw [hm, List.getLast?_map, hl]
        rfl
      · intro r hr
        obtain ⟨ys, e⟩ := List.getLast?_eq_some_iff.1 hl
        have hp : (R.take m).Pairwise fun x y => x.id < y.id := hRs.sublist (List.take_sublist m R)
        rw [e] at hr hp
        rcases List.mem_append.1 hr with h | h
        · have := (List.pairwise_append.1 hp).2.2 r h l (by simp)
          omega
        · simp only [List.mem_singleton] at h
          rw [h]; exact Int.le_refl _
  have hle : a ≤ nextPollRevision a es := by
    rcases hnext with ⟨_, e⟩ | ⟨l, hl, e, _⟩
    · omega
    · have := hRa l (List.mem_of_mem_take hl)
      omega
  refine ⟨hle, ?_, ?_, ?_⟩
  · rcases hnext with ⟨_, e⟩ | ⟨l, hl, e, _⟩
    · exact Or.inl e
    · right
      rw [e]
      exact i.row_le_top (hRsub.subset (List.mem_of_mem_take hl))
  · rw [hm]
    apply i.sound_rows ((List.take_sublist m R).trans hRsub)
    intro r hr
    refine ⟨rfl, hRa r (List.mem_of_mem_take hr), ?_⟩
    rw [← hm]
    rcases hnext with ⟨e, _⟩ | ⟨l, hl, e, hb⟩
    · rw [e] at hr; simp at hr
    · rw [e]; exact hb r hr
  · intro hcr c hc _ h1 h2
    obtain ⟨r, hr, hrid⟩ := i.keep c hc (Or.inl (by omega))
    have hrR : r ∈ R := by rw [← hR]; exact List.mem_filter.2 ⟨hr, by simp; omega⟩
    refine ⟨scanEvent r, ?_, hrid⟩
    rw [hm]
    refine List.mem_map_of_mem ?_
    rw [← hsplit] at hrR
    rcases List.mem_append.1 hrR with h | h
    · exact h
    · exfalso
      rcases hnext with ⟨_, e⟩ | ⟨l, hl, e, _⟩
      · omega
      · rw [← hsplit] at hRs
        have := (List.pairwise_append.1 hRs).2.2 l hl r h
        omega

/-- The result of the initial query of a watch. -/
theorem Inv.initial_events {w : World} (i : Inv w) (lo hi : Bytes) (hhi : hi ≠ []) (a b : Int)
    (tr : Option Nat) :
    let es := scanAll scanEvent (afterSQLPrefix w.db lo (rangeEndOf lo hi) a b, tr)
    Sound w.hist (inRange lo hi) a b es ∧
    (w.db.compactRev ≤ a → tr = none → Covers w.hist (inRange lo hi) a b es) := by
  intro es
  have hr : rangeEndOf lo hi = hi := by
    unfold rangeEndOf
    rw [if_neg (by simpa using hhi)]
  obtain ⟨m, hm, hfull⟩ := scanAll_take scanEvent (afterSQLPrefix w.db lo (rangeEndOf lo hi) a b) tr
  have hes : es = _ := hm
  have hsel : afterSQLPrefix w.db lo (rangeEndOf lo hi) a b =
      w.db.rows.filter fun r => inRange lo hi r.name && decide (a < r.id) && decide (r.id ≤ b) := by
    unfold afterSQLPrefix
    rw [idLe_sorted_filter i, hr]
  constructor
  · rw [hes, hsel]
    apply i.sound_rows ((List.take_sublist _ _).trans List.filter_sublist)
    intro r hr'
    have := (List.mem_filter.1 (List.mem_of_mem_take hr')).2
    simp only [Bool.and_eq_true, decide_eq_true_eq] at this
    exact ⟨this.1.1, this.1.2, this.2⟩
  · intro hcr htr c hc hp h1 h2
    obtain ⟨r, hr', hrid⟩ := i.keep c hc (Or.inl (by omega))
    have hcom : commitOf r = c := Wf_rev_inj i.wf (i.row_commit hr') hc hrid
    refine ⟨scanEvent r, ?_, hrid⟩
    rw [hes, hfull htr, hsel]
    refine List.mem_map_of_mem (List.mem_filter.2 ⟨hr', ?_⟩)
    have hn : r.name = c.key := by rw [← hcom]; rfl
    simp only [Bool.and_eq_true, decide_eq_true_eq]
    rw [hn]
    exact ⟨⟨hp, by omega⟩, by omega⟩

end Verif
