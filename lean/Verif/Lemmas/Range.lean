import Verif.Lemmas.Write
/-!
# Range requests
-/

namespace Verif

theorem wanted_iff (key re k : Bytes) : inRange key (rangeEndOf key re) k = true ↔ Wanted key re k := by
  unfold rangeEndOf Wanted
  by_cases h : re = []
  · simp only [h, List.length_nil, ↓reduceIte]
    exact inRange_single
  · have : ¬ re.length = 0 := by simpa using h
    simp only [h, this, ↓reduceIte, inRange, Bool.and_eq_true]

theorem answers_iff {h : History} {r : Int} {key re : Bytes} {out : List KV} :
    IsListing h r key (rangeEndOf key re) out ↔ Answers h r key re out := by
  unfold IsListing Answers
  simp only [wanted_iff]

/-- The full answer is unique. -/
theorem Answers.unique {h : History} {r : Int} {key re : Bytes} {a b : List KV}
    (ha : Answers h r key re a) (hb : Answers h r key re b) : a = b :=
  IsListing.unique (answers_iff.2 ha) (answers_iff.2 hb)

/-- A single-key request has at most one answer. -/
theorem answers_single {h : History} {r : Int} {key : Bytes} {out : List KV}
    (ha : Answers h r key [] out) : takeIf 1 out = out := by
  obtain ⟨h1, h2⟩ := ha
  cases out with
  | nil => rfl
  | cons a as =>
    cases as with
    | nil => rfl
    | cons b bs =>
      have ka : a.key = key := ((h2 a).1 (by simp)).1
      have kb : b.key = key := ((h2 b).1 (by simp)).1
      rw [List.pairwise_cons] at h1
      have := h1.1 b (by simp)
      rw [ka, kb, blt_irrefl] at this
      cases this

theorem takeIf_length {α : Type} (n : Int) (l : List α) : (takeIf n l).length ≤ l.length := by
  unfold takeIf
  split
  · rw [List.length_take]; omega
  · exact Nat.le_refl _

/-- The options of a range request the server does not implement. -/
def RangeReq.plain (req : RangeReq) : Prop :=
  req.keysOnly = false ∧ req.maxCreateRevision = 0 ∧ req.sortOrder = 0 ∧ req.sortTarget = 0 ∧
  req.serializable = false ∧ req.minModRevision = 0 ∧ req.minCreateRevision = 0 ∧ req.maxModRevision = 0

theorem bridge_range_cases (v1 : Bool) (req : RangeReq) :
    (req.plain ∧ Bridge.range v1 req = Limited.range v1 req) ∨
    (¬ req.plain ∧ Bridge.range v1 req = .ret (.error .unsupported)) := by
  unfold Bridge.range RangeReq.plain
  repeat' split
  all_goals simp_all

/-- Everything about a successful range request. -/
theorem range_spec {w w' : World} {t : List Obs} {v1 : Bool} {req : RangeReq} {resp : RangeResp}
    (f : Facts w t w') (h : Path (Bridge.range v1 req) t (.ok resp)) :
    ChangesNothing t ∧ w.hist.top ≤ resp.header ∧ resp.header ≤ w'.hist.top ∧
    ∃ q, (req.revision = 0 → w.hist.top ≤ q) ∧
      (req.revision ≠ 0 → req.revision ≤ w.hist.top → q = req.revision ∧ w.db.compactRev ≤ q) ∧
      (req.revision ≠ 0 → w'.hist.top < req.revision → w.hist.top ≤ q) ∧
      q ≤ resp.header ∧ (resp.more = false → q = effRev req.revision resp.header) ∧
      (NoTrunc t → w'.db.compactRev ≤ q → ∃ full, Answers w'.hist q req.key req.rangeEnd full ∧
        (req.rangeEnd = [] → resp.kvs = full ∧ resp.more = false ∧ resp.count = 0) ∧
        (req.rangeEnd ≠ [] → req.countOnly = true →
          resp.kvs = [] ∧ resp.more = false ∧ resp.count = full.length) ∧
        (req.rangeEnd ≠ [] → req.countOnly = false → resp.kvs = takeIf req.limit full ∧
          (resp.more = true ↔ 0 < req.limit ∧ req.limit < full.length) ∧
          (req.revision = 0 ∨ req.revision ≤ w.hist.top ∨
            resp.more = false → resp.count = full.length))) := by
  rcases bridge_range_cases v1 req with ⟨_, e⟩ | ⟨_, e⟩
  case' inr => rw [e] at h; obtain ⟨_, h⟩ := path_ret h; cases h
  rw [e] at h
  unfold Limited.range at h
  have heff : ∀ hdr, w.hist.top ≤ hdr → hdr ≤ w'.hist.top →
      (req.revision = 0 ∨ req.revision > hdr ∨ w.db.compactRev ≤ req.revision) →
      (req.revision = 0 → w.hist.top ≤ effRev req.revision hdr) ∧
      (req.revision ≠ 0 → req.revision ≤ w.hist.top → effRev req.revision hdr = req.revision ∧
        w.db.compactRev ≤ effRev req.revision hdr) ∧
      (req.revision ≠ 0 → w'.hist.top < req.revision → w.hist.top ≤ effRev req.revision hdr) := by
    intro hdr h1 h1' h2
    unfold effRev
    refine ⟨?_, ?_, ?_⟩
    · intro h3; simp only [h3, true_or, ↓reduceIte]; exact h1
    · intro h3 h4
      rw [if_neg (by omega)]
      exact ⟨rfl, by omega⟩
    · intro h3 h4
      rw [if_pos (by omega)]
      exact h1
  split at h
  · -- single key
    rename_i hre
    have hre : req.rangeEnd = [] := by simpa using hre
    obtain ⟨t₁, t₂, ⟨hdr, kvs⟩, rfl, h1, h2⟩ := path_andThen_ok h
    obtain ⟨rfl, h3⟩ := path_ret h2
    simp only [Except.ok.injEq] at h3
    subst h3
    rw [List.append_nil] at *
    obtain ⟨a, b, c, d⟩ := list_header f h1
    obtain ⟨e1, e2, e3⟩ := heff hdr a b d
    refine ⟨c, a, b, effRev req.revision hdr, e1, e2, e3, effRev_le _ _, fun _ => rfl, ?_⟩
    intro hnt hcr
    obtain ⟨full, h4, h5⟩ := list_exact f h1 hnt hcr
    rw [answers_iff] at h4
    refine ⟨full, by rw [hre]; exact h4, ?_, fun hn => absurd hre hn, fun hn => absurd hre hn⟩
    intro _
    exact ⟨by rw [h5]; exact answers_single h4, rfl, rfl⟩
  · rename_i hre
    have hre : req.rangeEnd ≠ [] := by simpa using hre
    unfold Limited.list at h
    split at h
    · -- count only
      rename_i hco
      obtain ⟨t₁, t₂, ⟨hdr, n⟩, rfl, h1, h2⟩ := path_andThen_ok h
      obtain ⟨rfl, h3⟩ := path_ret h2
      simp only [Except.ok.injEq] at h3
      subst h3
      rw [List.append_nil] at *
      obtain ⟨a, b, c, d⟩ := count_header f h1
      obtain ⟨e1, e2, e3⟩ := heff hdr a b d
      refine ⟨c, a, b, effRev req.revision hdr, e1, e2, e3, effRev_le _ _, fun _ => rfl, ?_⟩
      intro hnt hcr
      obtain ⟨full, h4, h5⟩ := count_exact f h1 hcr
      rw [answers_iff] at h4
      refine ⟨full, h4, fun hn => absurd hn hre, ?_, fun _ hn => absurd hn (by rw [hco]; decide)⟩
      intro _ _
      exact ⟨rfl, rfl, h5⟩
    · rename_i hco
      have hco : req.countOnly = false := by simpa using hco
      obtain ⟨t₁, t₂, ⟨hdr, kvs⟩, rfl, h1, h2⟩ := path_andThen_ok h
      have f1 := f.append_left
      have f2 := f.append_right
      obtain ⟨a, b, c, d⟩ := list_header f1 h1
      obtain ⟨e1, e2, e3⟩ := heff hdr a b d
      by_cases hcond : 0 < req.limit ∧ (kvs.length : Int) > req.limit
      · -- more
        have hlim := hcond.1
        rw [if_pos hlim] at h1
        have h2 : Path ((Backend.count v1 req.key req.rangeEnd
            (if req.revision = 0 then hdr else req.revision)).andThen fun (rev', count) =>
            .ret (.ok { header := rev', kvs := kvs.take (req.limit + 1 - 1).toNat, more := true,
                        count := count })) t₂ (.ok resp) := by
          have : (if req.limit > 0 then req.limit + 1 else req.limit) = req.limit + 1 := if_pos hlim
          simp only [this] at h2
          rw [if_pos ⟨by omega, hcond.2⟩] at h2
          exact h2
        obtain ⟨t₃, t₄, ⟨hdr', n⟩, rfl, h3, h4⟩ := path_andThen_ok h2
        obtain ⟨e4, e5⟩ := path_ret h4
        subst e4
        simp only [Except.ok.injEq] at e5
        subst e5
        rw [List.append_nil] at *
        obtain ⟨a', b', c', d'⟩ := count_header f2 h3
        -- the second call comes later
        have hle : hdr ≤ hdr' := by
          obtain ⟨ob₁, m₁, _, _, _, e, _⟩ := path_list f1 h1
          obtain ⟨ob₂, m₂, _, _, e', _⟩ := path_count f2 h3
          have := (f.between m₁ m₂).top
          omega
        refine ⟨?_, by omega, b', effRev req.revision hdr, e1, e2, e3, ?_, fun hn => (by cases hn), ?_⟩
        · intro x hx
          rcases List.mem_append.1 hx with hx | hx
          · exact c x hx
          · exact c' x hx
        · have := effRev_le req.revision hdr; simp only; omega
        · intro hnt hcr
          obtain ⟨full, h4, h5⟩ := list_exact f1 h1 (fun x hx => hnt x (by simp [hx])) hcr
          rw [answers_iff] at h4
          have hl : (takeIf (req.limit + 1) full) = full.take (req.limit + 1).toNat := by
            unfold takeIf; rw [if_pos (by omega)]
          have hfl : req.limit < full.length := by
            have := hcond.2
            rw [h5, hl, List.length_take] at this
            omega
          refine ⟨full, h4, fun hn => absurd hn hre, fun _ hn => absurd hn (by rw [hco]; decide), ?_⟩
          intro _ _
          refine ⟨?_, ?_, ?_⟩
          · simp only
            rw [h5, hl, List.take_take]
            unfold takeIf
            rw [if_pos hlim]
            congr 1
            omega
          · simp only [true_iff]; exact ⟨hlim, hfl⟩
          · intro hr
            have hq : effRev (if req.revision = 0 then hdr else req.revision) hdr'
                = effRev req.revision hdr := by
              have hh : req.revision = 0 → hdr ≠ 0 := by
                intro h0 hz
                rw [h0, hz] at h4
                have hp : full = [] := by
                  cases hfull : full with
                  | nil => rfl
                  | cons x xs =>
                    have hx := (h4.2 x).1 (by rw [hfull]; simp)
                    have h6 := at_some_inv f.total.inv.wf hx.2
                    have h7 := h6.2.1
                    have h8 := h6.2.2.1
                    simp only [effRev, true_or, ↓reduceIte] at h7
                    omega
                rw [hp] at hfl
                simp at hfl; omega
              have htop0 := top_nonneg f1.total.inv.wf
              unfold effRev
              by_cases h0 : req.revision = 0
              · have := hh h0
                simp only [h0, ↓reduceIte, true_or]
                rw [if_neg (by omega)]
              · simp only [h0, ↓reduceIte, false_or]
                rcases hr with hr | hr | hr
                · exact absurd hr h0
                · rw [if_neg (by omega), if_neg (by omega)]
                · cases hr
            obtain ⟨full', h6, h7⟩ := count_exact f2 h3 (by rw [hq]; exact hcr)
            rw [hq, answers_iff] at h6
            rw [Answers.unique h4 h6]
            exact h7
      · have h2 : Path (α := Except ApiErr RangeResp)
            (.ret (.ok { header := hdr, kvs := kvs, count := kvs.length })) t₂ (.ok resp) := by
          simp only at h2
          rw [if_neg (by split <;> omega)] at h2
          exact h2
        obtain ⟨rfl, h4⟩ := path_ret h2
        simp only [Except.ok.injEq] at h4
        subst h4
        rw [List.append_nil] at *
        refine ⟨c, a, b, effRev req.revision hdr, e1, e2, e3, effRev_le _ _, fun _ => rfl, ?_⟩
        intro hnt hcr
        obtain ⟨full, h4, h5⟩ := list_exact f h1 hnt hcr
        rw [answers_iff] at h4
        refine ⟨full, h4, fun hn => absurd hn hre, fun _ hn => absurd hn (by rw [hco]; decide), ?_⟩
        intro _ _
        simp only
        by_cases hlim : 0 < req.limit
        · rw [if_pos hlim] at h5
          have hl : (takeIf (req.limit + 1) full) = full.take (req.limit + 1).toNat := by
            unfold takeIf; rw [if_pos (by omega)]
          rw [hl] at h5
          have hshort : (full.length : Int) ≤ req.limit := by
            apply Classical.byContradiction
            intro hlt
            apply hcond
            refine ⟨hlim, ?_⟩
            rw [h5, List.length_take]; omega
          have hk : kvs = full := by rw [h5]; exact List.take_of_length_le (by omega)
          refine ⟨?_, ?_, fun _ => by rw [hk]⟩
          · unfold takeIf
            rw [if_pos hlim, hk]; exact (List.take_of_length_le (by omega)).symm
          · simp only [Bool.false_eq_true, false_iff]; omega
        · rw [if_neg hlim] at h5
          have hk : kvs = full := by rw [h5]; unfold takeIf; rw [if_neg hlim]
          refine ⟨by rw [h5], ?_, fun _ => by rw [hk]⟩
          simp only [Bool.false_eq_true, false_iff]; omega

/-! ## Errors of range requests -/

theorem path_driver_count_error {t : List Obs} {v1 : Bool} {key re : Bytes} {q : Int} {e : ApiErr}
    (h : Path (Driver.count v1 key re q) t (.error e)) : ∃ d, e = .db d := by
  rcases path_andThen h with ⟨t₁, t₂, p, rfl, h1, h2⟩ | ⟨e', he, h1⟩
  · obtain ⟨x, hx, h3⟩ := path_map h2
    obtain ⟨rfl, hr⟩ := path_oneRow h3
    rcases hr with rfl | rfl
    · cases hx
    · simp only [Except.map, Except.error.injEq] at hx
      exact ⟨_, hx⟩
  · obtain ⟨_, _, h3⟩ := path_queryLoop h1
    cases he
    exact h3 _ rfl

/-- `List` fails with a database error or, justly, with `compacted`. -/
theorem path_list_error {w w' : World} {t : List Obs} {v1 : Bool} {key re : Bytes} {limit r : Int}
    {e : ApiErr} (f : Facts w t w') (h : Path (Backend.list v1 key re limit r) t (.error e)) :
    (∃ d, e = .db d) ∨ (e = .compacted ∧ ∃ ob ∈ t, r ≠ 0 ∧ r ≤ ob.pre.hist.top ∧
      r < ob.pre.db.compactRev) := by
  rcases path_andThen h with ⟨t₁, t₂, ⟨cr, cur⟩, rfl, h1, h2⟩ | ⟨e', he, h1⟩
  · obtain ⟨u, ob₁, e1, hq1, hr⟩ := path_getCompactRevision_ok h1
    have hob₁ : ob₁ ∈ t₁ := by simp [e1]
    have i₁ := f.inv (ob := ob₁) (by simp [hob₁])
    rw [i₁.currentRev_eq] at hr
    simp only [Prod.mk.injEq] at hr
    obtain ⟨rfl, rfl⟩ := hr
    have hgo : ∀ q, Path ((Driver.list v1 key re limit q).andThen fun rows =>
      .ret (.ok (ob₁.pre.hist.top, scanAll scanKeyValue rows))) t₂ (.error e) → ∃ d, e = .db d := by
      intro q hp
      rcases path_andThen hp with ⟨_, _, _, _, _, h4⟩ | ⟨e', he, h3⟩
      · obtain ⟨_, h5⟩ := path_ret h4; cases h5
      · cases he
        exact (path_queryLoop h3).2.2 _ rfl
    simp only at h2
    split at h2
    · exact Or.inl (hgo _ h2)
    · rename_i hc
      split at h2
      · rename_i hc2
        obtain ⟨_, h2⟩ := path_ret h2
        simp only [Except.error.injEq] at h2
        exact Or.inr ⟨h2, ob₁, by simp [hob₁], by omega, by omega, hc2⟩
      · exact Or.inl (hgo _ h2)
  · cases he
    exact Or.inl (path_getCompactRevision_error h1)

/-- `Count` fails with a database error or, justly, with `compacted`. -/
theorem path_count_error {w w' : World} {t : List Obs} {v1 : Bool} {key re : Bytes} {r : Int}
    {e : ApiErr} (f : Facts w t w') (h : Path (Backend.count v1 key re r) t (.error e)) :
    (∃ d, e = .db d) ∨ (e = .compacted ∧ ∃ ob ∈ t, r ≠ 0 ∧ r ≤ ob.pre.hist.top ∧
      r < ob.pre.db.compactRev) := by
  rcases path_andThen h with ⟨t₁, t₂, ⟨cr, cur⟩, rfl, h1, h2⟩ | ⟨e', he, h1⟩
  · obtain ⟨u, ob₁, e1, hq1, hr⟩ := path_getCompactRevision_ok h1
    have hob₁ : ob₁ ∈ t₁ := by simp [e1]
    have i₁ := f.inv (ob := ob₁) (by simp [hob₁])
    rw [i₁.currentRev_eq] at hr
    simp only [Prod.mk.injEq] at hr
    obtain ⟨rfl, rfl⟩ := hr
    have hgo : ∀ q, Path ((Driver.count v1 key re q).andThen fun n =>
      .ret (.ok (ob₁.pre.hist.top, n))) t₂ (.error e) → ∃ d, e = .db d := by
      intro q hp
      rcases path_andThen hp with ⟨_, _, _, _, _, h4⟩ | ⟨e', he, h3⟩
      · obtain ⟨_, h5⟩ := path_ret h4; cases h5
      · cases he
        exact path_driver_count_error h3
    simp only at h2
    split at h2
    · exact Or.inl (hgo _ h2)
    · rename_i hc
      split at h2
      · rename_i hc2
        obtain ⟨_, h2⟩ := path_ret h2
        simp only [Except.error.injEq] at h2
        exact Or.inr ⟨h2, ob₁, by simp [hob₁], by omega, by omega, hc2⟩
      · exact Or.inl (hgo _ h2)
  · cases he
    exact Or.inl (path_getCompactRevision_error h1)

/-- A range request fails with a database error, is refused as unsupported, or justly with `compacted`. -/
theorem range_error {w w' : World} {t : List Obs} {v1 : Bool} {req : RangeReq} {e : ApiErr}
    (f : Facts w t w') (h : Path (Bridge.range v1 req) t (.error e)) :
    (∃ d, e = .db d) ∨ (e = .unsupported ∧ ¬ req.plain) ∨
    (e = .compacted ∧ req.revision ≠ 0 ∧ ∃ ob ∈ t, req.revision ≤ ob.pre.hist.top ∧
      req.revision < ob.pre.db.compactRev) ∨
    (e = .compacted ∧ req.revision = 0 ∧ 0 < req.limit ∧ ∃ q, w.hist.top ≤ q ∧ ∃ ob ∈ t,
      q < ob.pre.db.compactRev) := by
  rcases bridge_range_cases v1 req with ⟨_, e'⟩ | ⟨hp, e'⟩
  · rw [e'] at h
    have hl : ∀ {t limit}, Facts w t w' → Path (Backend.list v1 req.key req.rangeEnd limit req.revision) t (.error e) →
        (∃ d, e = .db d) ∨ (e = .compacted ∧ req.revision ≠ 0 ∧ ∃ ob ∈ t,
          req.revision ≤ ob.pre.hist.top ∧ req.revision < ob.pre.db.compactRev) := by
      intro t limit f h
      rcases path_list_error f h with h | ⟨h1, ob, h2, h3, h4, h5⟩
      · exact Or.inl h
      · exact Or.inr ⟨h1, h3, ob, h2, h4, h5⟩
    unfold Limited.range at h
    split at h
    · rename_i hre
      have hre : req.rangeEnd = [] := by simpa using hre
      rcases path_andThen h with ⟨_, _, ⟨_, _⟩, _, _, h2⟩ | ⟨_, he, h1⟩
      · obtain ⟨_, h2⟩ := path_ret h2; cases h2
      · cases he
        rw [← hre] at h1
        rcases hl f h1 with h | h
        · exact Or.inl h
        · exact Or.inr (Or.inr (Or.inl h))
    · unfold Limited.list at h
      split at h
      · rcases path_andThen h with ⟨_, _, ⟨_, _⟩, _, _, h2⟩ | ⟨_, he, h1⟩
        · obtain ⟨_, h2⟩ := path_ret h2; cases h2
        · cases he
          rcases path_count_error f h1 with h | ⟨h1, ob, h2, h3, h4, h5⟩
          · exact Or.inl h
          · exact Or.inr (Or.inr (Or.inl ⟨h1, h3, ob, h2, h4, h5⟩))
      · rcases path_andThen h with ⟨t₁, t₂, ⟨hdr, kvs⟩, rfl, h1, h2⟩ | ⟨_, he, h1⟩
        · simp only at h2
          by_cases hcond : (if req.limit > 0 then req.limit + 1 else req.limit) > 0 ∧
              (kvs.length : Int) > req.limit
          · rw [if_pos hcond] at h2
            rcases path_andThen h2 with ⟨_, _, ⟨_, _⟩, _, _, h2⟩ | ⟨_, he, h3⟩
            · obtain ⟨_, h2⟩ := path_ret h2; cases h2
            · cases he
              rcases path_count_error f.append_right h3 with h | ⟨h4, ob, h5, h6, h7, h8⟩
              · exact Or.inl h
              · by_cases h0 : req.revision = 0
                · rw [if_pos h0] at h6 h7 h8
                  refine Or.inr (Or.inr (Or.inr ⟨h4, h0, ?_, hdr, (list_header f.append_left h1).1, ob,
                    by simp [h5], h8⟩))
                  have := hcond.1
                  split at this <;> omega
                · rw [if_neg h0] at h6 h7 h8
                  exact Or.inr (Or.inr (Or.inl ⟨h4, h0, ob, by simp [h5], h7, h8⟩))
          · rw [if_neg hcond] at h2
            obtain ⟨_, h2⟩ := path_ret h2; cases h2
        · cases he
          rcases hl f h1 with h | h
          · exact Or.inl h
          · exact Or.inr (Or.inr (Or.inl h))
  · rw [e'] at h
    obtain ⟨_, h'⟩ := path_ret h
    simp only [Except.error.injEq] at h'
    exact Or.inr (Or.inl ⟨h', hp⟩)

end Verif

namespace Verif

/-- Whatever happens (races with compaction, broken cursors): the keys a successful `List` does return are
in the range and carry the state at the revision, in order. -/
theorem list_sound {w w' : World} {t : List Obs} {v1 : Bool} {key re : Bytes} {limit r hdr : Int}
    {kvs : List KV} (f : Facts w t w') (h : Path (Backend.list v1 key re limit r) t (.ok (hdr, kvs))) :
    kvs.Pairwise (fun a b => blt a.key b.key = true) ∧
    ∀ kv ∈ kvs, Wanted key re kv.key ∧ w'.hist.at (effRev r hdr) kv.key = some kv := by
  obtain ⟨ob₁, h₁, ob₂, h₂, cut, e, hx, _, _, hk, _⟩ := path_list f h
  have hsub : kvs.Sublist ((maxkvV1 ob₂.pre.db key (rangeEndOf key re) (effRev r hdr)).map scanKeyValue) := by
    rw [hk]
    have h1 : ∀ (l : List KV), (takeIf limit l).Sublist l := by
      intro l; unfold takeIf; split
      · exact List.take_sublist _ _
      · exact List.Sublist.refl _
    have h2 : ∀ (l : List KV), (cutList cut l).Sublist l := by
      intro l; unfold cutList; split
      · exact List.Sublist.refl _
      · exact List.take_sublist _ _
    exact (h2 _).trans (h1 _)
  constructor
  · refine List.Pairwise.sublist hsub ?_
    rw [List.pairwise_map]
    exact maxkvV1_sorted _ _ _ _
  · intro kv hkv
    have hm := hsub.subset hkv
    rw [List.mem_map] at hm
    obtain ⟨row, hrow, rfl⟩ := hm
    have i := f.inv h₂
    rw [mem_maxkvV1 i.unique] at hrow
    obtain ⟨a1, a2, a3⟩ := hrow
    rw [mem_rangeRows] at a1
    refine ⟨(wanted_iff _ _ _).1 a1.2.1, ?_⟩
    have hp := (f.step ob₂ h₂).trans (f.post ob₂ h₂)
    have ha := i.row_at a1.1 a1.2.2 a2 fun q hq hn hle =>
      a3 q (mem_rangeRows.2 ⟨hq, by rw [hn]; exact a1.2.1, hle⟩) hn
    rw [← ha]
    apply hp.at
    have := effRev_le r hdr
    have := hx.top
    omega

/-- The same for a range request: what is returned is never wrong, whatever happens. -/
theorem range_sound {w w' : World} {t : List Obs} {v1 : Bool} {req : RangeReq} {resp : RangeResp}
    (f : Facts w t w') (h : Path (Bridge.range v1 req) t (.ok resp)) :
    resp.kvs.Pairwise (fun a b => blt a.key b.key = true) ∧
    ∃ q, (req.revision = 0 → w.hist.top ≤ q) ∧
      (req.revision ≠ 0 → req.revision ≤ w.hist.top → q = req.revision) ∧ q ≤ resp.header ∧
      ∀ kv ∈ resp.kvs, Wanted req.key req.rangeEnd kv.key ∧ w'.hist.at q kv.key = some kv := by
  rcases bridge_range_cases v1 req with ⟨_, e⟩ | ⟨_, e⟩
  case' inr => rw [e] at h; obtain ⟨_, h⟩ := path_ret h; cases h
  rw [e] at h
  have heff : ∀ hdr, w.hist.top ≤ hdr → (req.revision = 0 → w.hist.top ≤ effRev req.revision hdr) ∧
      (req.revision ≠ 0 → req.revision ≤ w.hist.top → effRev req.revision hdr = req.revision) := by
    intro hdr h1
    unfold effRev
    refine ⟨fun h3 => ?_, fun h3 h4 => ?_⟩
    · rw [if_pos (Or.inl h3)]; exact h1
    · rw [if_neg (by omega)]
  unfold Limited.range at h
  split at h
  · rename_i hre
    have hre : req.rangeEnd = [] := by simpa using hre
    obtain ⟨t₁, t₂, ⟨hdr, kvs⟩, rfl, h1, h2⟩ := path_andThen_ok h
    obtain ⟨e1, e2⟩ := path_ret h2
    subst e1
    cases e2
    rw [List.append_nil] at *
    obtain ⟨a, b⟩ := list_sound f h1
    obtain ⟨c, d⟩ := heff hdr (list_header f h1).1
    exact ⟨a, _, c, d, effRev_le _ _, by rw [hre]; exact b⟩
  · unfold Limited.list at h
    split at h
    · obtain ⟨t₁, t₂, ⟨hdr, n⟩, rfl, h1, h2⟩ := path_andThen_ok h
      obtain ⟨e1, e2⟩ := path_ret h2
      subst e1
      cases e2
      rw [List.append_nil] at *
      obtain ⟨c, d⟩ := heff hdr (count_header f h1).1
      exact ⟨List.Pairwise.nil, _, c, d, effRev_le _ _, by simp⟩
    · obtain ⟨t₁, t₂, ⟨hdr, kvs⟩, rfl, h1, h2⟩ := path_andThen_ok h
      obtain ⟨a, b⟩ := list_sound f.append_left h1
      obtain ⟨c, d⟩ := heff hdr (list_header f.append_left h1).1
      generalize (if req.limit > 0 then req.limit + 1 else req.limit) = lim at h2
      simp only at h2
      split at h2
      · obtain ⟨t₃, t₄, ⟨hdr', n⟩, rfl, h3, h4⟩ := path_andThen_ok h2
        obtain ⟨e1, e2⟩ := path_ret h4
        subst e1
        cases e2
        refine ⟨List.Pairwise.sublist (List.take_sublist _ _) a, _, c, d, ?_,
          fun kv hkv => b kv ((List.take_sublist _ _).subset hkv)⟩
        obtain ⟨ob₁, m₁, _, _, _, e, _⟩ := path_list f.append_left h1
        rw [List.append_nil] at f
        obtain ⟨ob₂, m₂, _, _, e', _⟩ := path_count f.append_right h3
        have := (f.between m₁ m₂).top
        have := effRev_le req.revision hdr
        simp only
        omega
      · obtain ⟨e1, e2⟩ := path_ret h2
        subst e1
        cases e2
        exact ⟨a, _, c, d, effRev_le _ _, b⟩

end Verif
