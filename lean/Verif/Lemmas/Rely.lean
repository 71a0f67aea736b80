import Verif.Lemmas.Compact
/-!
# Rely/guarantee: every program in the system preserves the invariant under interference
-/

namespace Verif

/-- What any number of steps of the system may do to the world. -/
structure Ext (w w' : World) : Prop where
  inv : Inv w'
  hist : ∃ t, w'.hist = w.hist ++ t
  cr : w.db.compactRev ≤ w'.db.compactRev
  mrk : w.db.markers ≠ [] → w'.db.markers ≠ []

theorem Ext.refl {w : World} (i : Inv w) : Ext w w :=
  ⟨i, ⟨[], by simp⟩, Int.le_refl _, id⟩

theorem Ext.trans {a b c : World} (h₁ : Ext a b) (h₂ : Ext b c) : Ext a c := by
  refine ⟨h₂.inv, ?_, Int.le_trans h₁.cr h₂.cr, fun h => h₂.mrk (h₁.mrk h)⟩
  obtain ⟨t, ht⟩ := h₁.hist
  obtain ⟨u, hu⟩ := h₂.hist
  exact ⟨t ++ u, by rw [hu, ht, List.append_assoc]⟩

theorem Ext.top {w w' : World} (h : Ext w w') : w.hist.top ≤ w'.hist.top := by
  obtain ⟨t, ht⟩ := h.hist
  have := h.inv.wf
  rw [ht] at this ⊢
  exact top_append_le this

theorem Ext.at {w w' : World} (h : Ext w w') {r : Int} (hr : r ≤ w.hist.top) (k : Bytes) :
    w'.hist.at r k = w.hist.at r k := by
  obtain ⟨t, ht⟩ := h.hist
  have := h.inv.wf
  rw [ht] at this ⊢
  exact at_ext this hr k

theorem Ext.mem {w w' : World} (h : Ext w w') {c : Commit} (hc : c ∈ w.hist) : c ∈ w'.hist := by
  obtain ⟨t, ht⟩ := h.hist
  rw [ht]; simp [hc]

theorem Ext.mem_of_le {w w' : World} (h : Ext w w') {c : Commit} (hc : c ∈ w'.hist)
    (hle : c.rev ≤ w.hist.top) : c ∈ w.hist := by
  obtain ⟨t, ht⟩ := h.hist
  have hw := h.inv.wf
  rw [ht] at hc hw
  rcases List.mem_append.1 hc with h' | h'
  · exact h'
  · have := ext_gt hw h'; omega

/-- Weakest precondition with interference: every statement of `p`, executed on any world the environment
may have produced meanwhile, keeps the guarantee `Ext`, and at the end `Q` holds. -/
def WP {α : Type} (Q : α → World → Prop) : Prog α → World → Prop
  | .ret a, w => Q a w
  | .stmt eff k, w => ∀ w', Ext w w' → ∀ o, Ext w' (w'.exec eff o) ∧
      WP Q (k o w'.db) (w'.exec eff o)

/-- The program keeps the guarantee. -/
def Safe {α : Type} (p : Prog α) (w : World) : Prop := WP (fun _ _ => True) p w

theorem wp_mono {α : Type} {Q Q' : α → World → Prop} (h : ∀ a w, Q a w → Q' a w) {p : Prog α}
    {w : World} (hp : WP Q p w) : WP Q' p w := by
  induction p generalizing w with
  | ret a => exact h a w hp
  | stmt eff k ih =>
    intro w' hw' o
    obtain ⟨h1, h2⟩ := hp w' hw' o
    exact ⟨h1, ih o w'.db h2⟩

theorem wp_safe {α : Type} {Q : α → World → Prop} {p : Prog α} {w : World} (hp : WP Q p w) :
    Safe p w := wp_mono (fun _ _ _ => trivial) hp

theorem safe_ext {α : Type} {p : Prog α} {w w' : World} (h : Ext w w') (hp : Safe p w) : Safe p w' := by
  cases p with
  | ret a => trivial
  | stmt eff k => exact fun w'' hw'' o => hp w'' (h.trans hw'') o

theorem wp_bind {α β : Type} {Q : β → World → Prop} {p : Prog α} {f : α → Prog β} {w : World}
    (h : WP (fun a w => WP Q (f a) w) p w) : WP Q (p.bind f) w := by
  induction p generalizing w with
  | ret a => exact h
  | stmt eff k ih =>
    intro w' hw' o
    obtain ⟨h1, h2⟩ := h w' hw' o
    exact ⟨h1, ih o w'.db h2⟩

theorem wp_andThen {ε α β : Type} {Q : Except ε β → World → Prop} {p : Prog (Except ε α)}
    {f : α → Prog (Except ε β)} {w : World}
    (h : WP (fun a w => match a with
      | .ok a => WP Q (f a) w
      | .error e => Q (.error e) w) p w) : WP Q (p.andThen f) w := by
  apply wp_bind
  refine wp_mono ?_ h
  intro a w h
  cases a with
  | ok a => exact h
  | error e => exact h

theorem wp_map {α β : Type} {Q : β → World → Prop} {p : Prog α} {f : α → β} {w : World}
    (h : WP (fun a w => Q (f a) w) p w) : WP Q (p.map f) w := wp_bind h

theorem safe_map {α β : Type} {p : Prog α} {f : α → β} {w : World} (h : Safe p w) :
    Safe (p.map f) w := wp_map h

theorem wp_queryLoop {β : Type} {sel : DB → β} {Q : Except ApiErr (β × Option Nat) → World → Prop}
    (n : Nat) {w : World} (i : Inv w)
    (hok : ∀ w' cut, Ext w w' → Q (.ok (sel w'.db, cut)) w')
    (herr : ∀ w' e, Ext w w' → Q (.error e) w') : WP Q (queryLoop sel n) w := by
  induction n generalizing w with
  | zero => exact herr w _ (Ext.refl i)
  | succ n ih =>
    intro w' hw' o
    have he : w'.exec id o = w' := hw'.inv.exec_id o
    rw [he]
    refine ⟨Ext.refl hw'.inv, ?_⟩
    have hrec : WP Q (queryLoop sel n) w' :=
      ih hw'.inv (fun w'' cut h => hok w'' cut (hw'.trans h)) (fun w'' e h => herr w'' e (hw'.trans h))
    cases o with
    | ok => exact hok w' none hw'
    | trunc m => exact hok w' (some m) hw'
    | fail e =>
      simp only
      split
      · exact hrec
      · exact herr w' _ hw'
    | lost e =>
      simp only
      split
      · exact hrec
      · exact herr w' _ hw'

theorem wp_executeLoop {st : DB → DB × ExecResult} {Q : Except ApiErr ExecResult → World → Prop}
    (n : Nat) {w : World} (i : Inv w)
    (hg : ∀ w', Ext w w' → ∀ o, Ext w' (w'.exec (fun db => (st db).1) o))
    (hok : ∀ w' o, Ext w w' → o.applied = true →
      Q (.ok (st w'.db).2) (w'.exec (fun db => (st db).1) o))
    (herr : ∀ w' e, Ext w w' → Q (.error e) w') : WP Q (executeLoop st n) w := by
  induction n generalizing w with
  | zero => exact herr w _ (Ext.refl i)
  | succ n ih =>
    intro w' hw' o
    have hgo := hg w' hw' o
    have hall := hw'.trans hgo
    refine ⟨hgo, ?_⟩
    have hrec : WP Q (executeLoop st n) (w'.exec (fun db => (st db).1) o) :=
      ih hall.inv (fun w'' h => hg w'' (hall.trans h)) (fun w'' o h => hok w'' o (hall.trans h))
        (fun w'' e h => herr w'' e (hall.trans h))
    cases o with
    | ok => exact hok w' _ hw' rfl
    | trunc m => exact hok w' _ hw' rfl
    | fail e =>
      simp only
      split
      · exact hrec
      · exact herr _ _ hall
    | lost e =>
      simp only
      split
      · exact hrec
      · exact herr _ _ hall

/-! ## Guarantees of the single statements -/

theorem not_applied_exec {w : World} {eff : DB → DB} {o : Outcome} (h : o.applied = false) :
    w.exec eff o = w := by simp [World.exec, h]

theorem Inv.ext_insert {w : World} (i : Inv w) {eff : DB → DB} {r : Row} (g : GoodRow w r)
    (h : eff w.db = w.db.insert r) (o : Outcome) : Ext w (w.exec eff o) := by
  cases ho : o.applied with
  | false => rw [not_applied_exec ho]; exact Ext.refl i
  | true =>
    rw [i.exec_insert h ho]
    obtain ⟨h1, h2, h3, _⟩ := i.insert_inv g
    exact ⟨h1, ⟨_, rfl⟩, by simp only [h2]; omega, h3⟩

theorem Inv.ext_create {w : World} (i : Inv w) (key : Bytes) (lease : Int) (value : Bytes)
    (o : Outcome) : Ext w (w.exec (fun db => (createSQL db key lease value).1) o) := by
  rcases i.createSQL_spec key lease value with ⟨_, r, g, _, _, e⟩ | ⟨_, e⟩
  · exact i.ext_insert g (by simp only [e]) o
  · rw [i.exec_of_eq (by simp only [e])]; exact Ext.refl i

theorem Inv.ext_legacyCreate {w : World} (i : Inv w) {key : Bytes} (hk : key ≠ compactRevKey)
    (lease : Int) (value : Bytes) (prev : Int) (o : Outcome) :
    Ext w (w.exec (fun db => (legacyCreateSQL db key lease value prev).1) o) := by
  rcases i.legacyCreateSQL_spec hk lease value prev with ⟨_, r, g, _, e⟩ | ⟨_, e⟩
  · exact i.ext_insert g (by simp only [e]) o
  · rw [i.exec_of_eq (by simp only [e])]; exact Ext.refl i

theorem Inv.ext_update {w : World} (i : Inv w) {key : Bytes} (hk : key ≠ compactRevKey)
    (lease : Int) (value : Bytes) (rev : Int) (o : Outcome) :
    Ext w (w.exec (fun db => (updateSQL db key lease value rev).1) o) := by
  rcases i.updateSQL_spec hk lease value rev with ⟨_, _, _, r, g, _, e⟩ | ⟨_, e⟩
  · exact i.ext_insert g (by simp only [e]) o
  · rw [i.exec_of_eq (by simp only [e])]; exact Ext.refl i

theorem Inv.ext_delete {w : World} (i : Inv w) {key : Bytes} (hk : key ≠ compactRevKey)
    (rev : Int) (o : Outcome) :
    Ext w (w.exec (fun db => (deleteSQL db key rev).1) o) := by
  rcases i.deleteSQL_spec hk rev with ⟨_, _, _, r, g, _, e⟩ | ⟨_, e⟩
  · exact i.ext_insert g (by simp only [e]) o
  · rw [i.exec_of_eq (by simp only [e])]; exact Ext.refl i

theorem Inv.ext_tryCompact {w : World} (i : Inv w) {start stop : Int} (hm : w.db.markers ≠ [])
    (hstart : start ≤ w.db.compactRev) (hstop : stop + 100 ≤ w.hist.top) (o : Outcome) :
    Ext w (w.exec (fun db => tryCompactTx db start stop) o) := by
  cases ho : o.applied with
  | false => rw [not_applied_exec ho]; exact Ext.refl i
  | true =>
    rw [i.exec_tryCompact start stop ho]
    refine ⟨i.tryCompact hm hstart hstop, ⟨[], by simp⟩, ?_, fun _ => i.tryCompact_marker hm⟩
    simp only [tryCompact_compactRev i hm]
    omega

theorem Inv.marker_of_now {w : World} (i : Inv w) (h : w.hist.now compactRevKey ≠ none) :
    w.db.markers ≠ [] := by
  intro hn
  apply h
  rw [i.latest]
  unfold DB.markers at hn
  rw [hn]; rfl

/-! ## The driver and backend methods -/

theorem wp_oneRow {α : Type} {Q : Except ApiErr α → World → Prop} {r : α × Option Nat} {w : World}
    (hok : Q (.ok r.1) w) (herr : ∀ e, Q (.error e) w) : WP Q (oneRow r) w := by
  unfold oneRow
  split
  · exact herr _
  · exact hok

theorem wp_getCompactRevision {Q : Except ApiErr (Int × Int) → World → Prop} {w : World} (i : Inv w)
    (hok : ∀ w', Ext w w' → Q (.ok (w'.db.compactRev, w'.hist.top)) w')
    (herr : ∀ w' e, Ext w w' → Q (.error e) w') : WP Q Driver.getCompactRevision w := by
  apply wp_andThen
  apply wp_queryLoop _ i
  · intro w' cut hw'
    apply wp_map
    apply wp_oneRow
    · have h1 := hok w' hw'
      have h2 := hw'.inv.currentRev_eq
      unfold DB.currentRev at h2
      unfold DB.compactRev at h1
      rw [← h2] at h1
      exact h1
    · intro e; exact herr w' _ hw'
  · intro w' e hw'; exact herr w' _ hw'

theorem wp_create {Q : Except ApiErr (Int × Bool) → World → Prop} {w : World} (i : Inv w)
    (key value : Bytes) (lease : Int)
    (hok : ∀ w' r, Ext w w' → w'.hist.now key ≠ none → Q (.ok r) w')
    (herr : ∀ w' e, Ext w w' → Q (.error e) w') : WP Q (Backend.create key value lease) w := by
  apply wp_andThen
  apply wp_executeLoop _ i
  · intro w' hw' o; exact hw'.inv.ext_create key lease value o
  · intro w' o hw' ho
    have he := hw'.inv.ext_create key lease value o
    apply hok _ _ (hw'.trans he)
    have i' := hw'.inv
    rcases i'.createSQL_spec key lease value with ⟨hn, r, g, hrn, hc, e⟩ | ⟨hn, e⟩
    · rw [i'.exec_insert (r := r) (by simp only [e]) ho, hc, now_snoc]
      simp [Commit.applyTo]
    · rw [i'.exec_of_eq (by simp only [e])]; exact hn
  · exact herr

theorem safe_update {w : World} (i : Inv w) {key : Bytes} (hk : key ≠ compactRevKey) (value : Bytes)
    (rev lease : Int) : Safe (Backend.update key value rev lease) w := by
  apply wp_andThen
  apply wp_executeLoop _ i
  · intro w' hw' o; exact hw'.inv.ext_update hk lease value rev o
  · intro _ _ _ _; trivial
  · intro _ _ _; trivial

theorem wp_update {w : World} (i : Inv w) {key : Bytes} (hk : key ≠ compactRevKey) (value : Bytes)
    (rev lease : Int) :
    WP (fun _ w' => Inv w') (Backend.update key value rev lease) w := by
  apply wp_andThen
  apply wp_executeLoop _ i
  · intro w' hw' o; exact hw'.inv.ext_update hk lease value rev o
  · intro w' o hw' _; exact (hw'.inv.ext_update hk lease value rev o).inv
  · intro _ _ h; exact h.inv

theorem wp_delete {w : World} (i : Inv w) {key : Bytes} (hk : key ≠ compactRevKey) (rev : Int) :
    WP (fun _ w' => Inv w') (Backend.delete key rev) w := by
  apply wp_andThen
  apply wp_executeLoop _ i
  · intro w' hw' o; exact hw'.inv.ext_delete hk rev o
  · intro w' o hw' _; exact (hw'.inv.ext_delete hk rev o).inv
  · intro _ _ h; exact h.inv

theorem wp_create_inv {w : World} (i : Inv w) (key value : Bytes) (lease : Int) :
    WP (fun _ w' => Inv w') (Backend.create key value lease) w :=
  wp_create i key value lease (fun _ _ h _ => h.inv) (fun _ _ h => h.inv)

theorem wp_list {w : World} (i : Inv w) (v1 : Bool) (key rangeEnd : Bytes) (limit revision : Int) :
    WP (fun _ w' => Inv w') (Backend.list v1 key rangeEnd limit revision) w := by
  apply wp_andThen
  apply wp_getCompactRevision i
  · intro w' hw'
    have hgo : ∀ cur rev : Int, WP (fun _ w' => Inv w')
        ((Driver.list v1 key rangeEnd limit rev).andThen fun rows =>
          .ret (.ok (cur, scanAll scanKeyValue rows))) w' := by
      intro cur rev
      apply wp_andThen
      apply wp_queryLoop _ hw'.inv
      · intro w'' cut h; exact h.inv
      · intro w'' e h; exact h.inv
    simp only
    split
    · exact hgo _ _
    · split
      · exact hw'.inv
      · exact hgo _ _
  · intro w' e hw'; exact hw'.inv

theorem wp_count {w : World} (i : Inv w) (v1 : Bool) (key rangeEnd : Bytes) (revision : Int) :
    WP (fun _ w' => Inv w') (Backend.count v1 key rangeEnd revision) w := by
  apply wp_andThen
  apply wp_getCompactRevision i
  · intro w' hw'
    have hgo : ∀ cur rev : Int, WP (fun _ w' => Inv w')
        ((Driver.count v1 key rangeEnd rev).andThen fun n => .ret (.ok (cur, n))) w' := by
      intro cur rev
      apply wp_andThen
      apply wp_andThen
      apply wp_queryLoop _ hw'.inv
      · intro w'' cut h
        apply wp_map
        apply wp_oneRow
        · exact h.inv
        · intro e; exact h.inv
      · intro w'' e h; exact h.inv
    simp only
    split
    · exact hgo _ _
    · split
      · exact hw'.inv
      · exact hgo _ _
  · intro w' e hw'; exact hw'.inv

theorem wp_limited_list {w : World} (i : Inv w) (v1 : Bool) (r : RangeReq) :
    Safe (Limited.list v1 r) w := by
  unfold Limited.list
  split
  · apply wp_andThen
    refine wp_mono ?_ (wp_count i v1 _ _ _)
    intro a w _
    cases a <;> trivial
  · apply wp_andThen
    refine wp_mono ?_ (wp_list i v1 _ _ _ _)
    intro a w i'
    cases a with
    | error e => trivial
    | ok a =>
      simp only
      generalize (if r.limit > 0 then r.limit + 1 else r.limit) = limit
      split
      · apply wp_andThen
        refine wp_mono ?_ (wp_count i' v1 _ _ _)
        intro a w _
        cases a <;> trivial
      · trivial

theorem safe_range {w : World} (i : Inv w) (v1 : Bool) (r : RangeReq) : Safe (Bridge.range v1 r) w := by
  unfold Bridge.range
  repeat' split
  any_goals trivial
  unfold Limited.range
  split
  · apply wp_andThen
    refine wp_mono ?_ (wp_list i v1 _ _ _ _)
    intro a w _
    cases a <;> trivial
  · exact wp_limited_list i v1 r

theorem safe_elseRange {w : World} (i : Inv w) (v1 : Bool) (key : Bytes) (rev : Int) :
    Safe (Limited.elseRange v1 key rev) w := by
  apply wp_andThen
  refine wp_mono ?_ (wp_list i v1 _ _ _ _)
  intro a w _
  cases a <;> trivial

theorem safe_limited_update {w : World} (i : Inv w) (v1 : Bool) (rev : Int) {key : Bytes}
    (hk : key ≠ compactRevKey) (value : Bytes) (lease : Int) :
    Safe (Limited.update v1 rev key value lease) w := by
  unfold Limited.update
  apply wp_andThen
  have : WP (fun _ w' => Inv w') (if rev = 0 then Backend.create key value lease
      else Backend.update key value rev lease) w := by
    split
    · exact wp_create_inv i _ _ _
    · exact wp_update i hk _ _ _
  refine wp_mono ?_ this
  intro a w i'
  cases a with
  | error e => trivial
  | ok a =>
    simp only
    split
    · trivial
    · exact safe_elseRange i' _ _ _

theorem safe_limited_delete {w : World} (i : Inv w) (v1 : Bool) (rev : Int) {key : Bytes}
    (hk : key ≠ compactRevKey) : Safe (Limited.delete v1 key rev) w := by
  unfold Limited.delete
  apply wp_andThen
  refine wp_mono ?_ (wp_delete i hk rev)
  intro a w i'
  cases a with
  | error e => trivial
  | ok a =>
    simp only
    split
    · trivial
    · exact safe_elseRange i' _ _ _

theorem safe_limited_create {w : World} (i : Inv w) (put : PutReq) : Safe (Limited.create put) w := by
  unfold Limited.create
  repeat' split
  any_goals trivial
  apply wp_andThen
  refine wp_mono ?_ (wp_create_inv i _ _ _)
  intro a w i'
  cases a with
  | error e => trivial
  | ok a => simp only; split <;> trivial

theorem safe_txn {w : World} (i : Inv w) (v1 : Bool) (t : TxnReq)
    (hk : t.writtenKey ≠ some compactRevKey) : Safe (Limited.txn v1 t) w := by
  unfold Limited.txn
  unfold TxnReq.writtenKey at hk
  cases hc : isCreate t with
  | some put => exact safe_limited_create i put
  | none =>
    simp only [hc] at hk ⊢
    cases hd : isDelete t with
    | some p =>
      obtain ⟨rev, key⟩ := p
      simp only [hd] at hk ⊢
      exact safe_limited_delete i v1 rev (by intro h; exact hk (by rw [h]))
    | none =>
      simp only [hd] at hk ⊢
      cases hu : isUpdate t with
      | some u =>
        obtain ⟨rev, key, value, lease⟩ := u
        simp only [hu] at hk ⊢
        exact safe_limited_update i v1 rev (by intro h; exact hk (by rw [h]; rfl)) value lease
      | none =>
        simp only
        split <;> trivial

/-! ## Compaction -/

theorem Inv.markerRows {w : World} (i : Inv w) (start stop : Int) :
    afterSQLPrefix w.db compactRevKey (compactRevKey ++ [0]) start stop = [] ∨
    (∃ m, afterSQLPrefix w.db compactRevKey (compactRevKey ++ [0]) start stop = [m]
      ∧ w.db.markers ≠ []) := by
  have hsub : (w.db.rows.filter fun r => inRange compactRevKey (compactRevKey ++ [0]) r.name
      && decide (start < r.id) && decide (r.id ≤ stop)).Sublist w.db.markers := by
    unfold DB.markers
    have : (w.db.rows.filter fun r => inRange compactRevKey (compactRevKey ++ [0]) r.name
      && decide (start < r.id) && decide (r.id ≤ stop)) =
      ((w.db.rows.filter fun r => r.name == compactRevKey).filter fun r =>
        decide (start < r.id) && decide (r.id ≤ stop)) := by
      rw [List.filter_filter]
      apply List.filter_congr
      intro r _
      by_cases h : r.name = compactRevKey
      · rw [inRange_single.2 h]; simp [h]
      · have : inRange compactRevKey (compactRevKey ++ [0]) r.name = false := by
          cases hh : inRange compactRevKey (compactRevKey ++ [0]) r.name with
          | false => rfl
          | true => exact absurd (inRange_single.1 hh) h
        rw [this]; simp [h]
    rw [this]
    exact List.filter_sublist
  unfold afterSQLPrefix
  rcases i.markers_cases with h | ⟨m, h⟩
  · left
    rw [h] at hsub
    rw [List.sublist_nil.1 hsub]; rfl
  · rw [h] at hsub
    have hl := hsub.length_le
    generalize (w.db.rows.filter fun r => inRange compactRevKey (compactRevKey ++ [0]) r.name
      && decide (start < r.id) && decide (r.id ≤ stop)) = l at hsub hl
    match l, hl with
    | [], _ => left; rfl
    | [x], _ => right; exact ⟨x, rfl, by rw [h]; simp⟩
    | _ :: _ :: _, hl => simp at hl

theorem wp_compactStart {w : World} (i : Inv w) :
    WP (fun r w' => Inv w' ∧ (r = .ok () → w'.db.markers ≠ [])) Backend.compactStart w := by
  unfold Backend.compactStart
  apply wp_andThen
  unfold Driver.currentRevision
  apply wp_andThen
  apply wp_queryLoop _ i
  · intro w1 cut h1
    apply wp_bind
    apply wp_oneRow
    · simp only
      cases revSQL w1.db with
      | none => exact ⟨h1.inv, by simp⟩
      | some cur =>
        simp only [WP]
        apply wp_andThen
        apply wp_queryLoop _ h1.inv
        · intro w2 cut2 h2
          simp only
          have hre : rangeEndOf compactRevKey (compactRevKey ++ [0]) = compactRevKey ++ [0] := by
            simp [rangeEndOf]
          have hcreate : WP (fun r w' => Inv w' ∧ (r = .ok () → w'.db.markers ≠ []))
              ((Backend.create compactRevKey [] 0).andThen fun _ => .ret (.ok ())) w2 := by
            apply wp_andThen
            apply wp_create h2.inv
            · intro w3 r h3 hn
              exact ⟨h3.inv, fun _ => h3.inv.marker_of_now hn⟩
            · intro w3 e h3
              exact ⟨h3.inv, by simp⟩
          rw [hre]
          rcases h2.inv.markerRows 0 cur with hr | ⟨m, hr, hm⟩
          · rw [hr]
            have : scanAll scanEvent (([] : List Row), cut2) = [] := by
              unfold scanAll; cases cut2 <;> simp
            rw [this]
            exact hcreate
          · rw [hr]
            have : scanAll scanEvent ([m], cut2) = [] ∨ scanAll scanEvent ([m], cut2) = [scanEvent m] := by
              unfold scanAll
              match cut2 with
              | none => right; rfl
              | some 0 => left; rfl
              | some (n + 1) => right; simp
            rcases this with h | h
            · rw [h]; exact hcreate
            · rw [h]; exact ⟨h2.inv, fun _ => hm⟩
        · intro w2 e h2; exact ⟨h2.inv, by simp⟩
    · intro e; exact ⟨h1.inv, by simp⟩
  · intro w1 e h1; exact ⟨h1.inv, by simp⟩

theorem wp_compactLoop {w : World} (i : Inv w) {start stop : Int} (n : Nat) (hm : w.db.markers ≠ [])
    (hstart : start ≤ w.db.compactRev) (hstop : stop + 100 ≤ w.hist.top) :
    WP (fun _ w' => Ext w w') (compactLoop start stop n) w := by
  have key : ∀ n w1, Ext w w1 → WP (fun _ w' => Ext w w') (compactLoop start stop n) w1 := by
    intro n
    induction n with
    | zero => intro w1 h1; exact h1
    | succ n ih =>
      intro w1 h1 w' hw' o
      have hw := h1.trans hw'
      have hg := hw.inv.ext_tryCompact (hw.mrk hm) (Int.le_trans hstart hw.cr)
        (Int.le_trans hstop hw.top) o
      refine ⟨hg, ?_⟩
      have hall := hw.trans hg
      cases o with
      | ok => exact hall
      | trunc m => exact hall
      | fail e =>
        simp only
        split
        · exact ih _ hall
        · exact hall
      | lost e =>
        simp only
        split
        · exact ih _ hall
        · exact hall
  exact key n w (Ext.refl i)

theorem wp_driver_compact {w : World} (i : Inv w) (leader : Option Bool) {revision : Int}
    (hm : w.db.markers ≠ []) (hrev : revision + 100 ≤ w.hist.top) :
    WP (fun _ w' => Ext w w') (Driver.compact leader revision) w := by
  have main : WP (fun _ w' => Ext w w') (Driver.compactSqlite revision) w := by
    apply wp_andThen
    apply wp_getCompactRevision i
    · intro w1 h1
      simp only
      split
      · exact h1
      · have hstop : (if revision > w1.hist.top then w1.hist.top else revision) + 100 ≤ w1.hist.top := by
          have := h1.top
          split <;> omega
        exact wp_mono (fun _ _ h => h1.trans h)
          (wp_compactLoop h1.inv _ (h1.mrk hm) (Int.le_refl _) hstop)
    · intro w1 e h1; exact h1
  unfold Driver.compact
  split
  · exact Ext.refl i
  · exact main

theorem wp_compactBatches {w : World} (i : Inv w) (leader : Nat → Option Bool) {target : Int}
    (hm : w.db.markers ≠ []) (hrev : target + 100 ≤ w.hist.top) (fuel n : Nat) (start : Int) :
    WP (fun _ w' => Ext w w') (compactBatches leader target fuel n start) w := by
  induction fuel generalizing w n start with
  | zero => exact Ext.refl i
  | succ fuel ih =>
    unfold compactBatches
    split
    · apply wp_andThen
      have hb : (if start + compactBatchSize > target then target else start + compactBatchSize) + 100
          ≤ w.hist.top := by split <;> omega
      refine wp_mono ?_ (wp_driver_compact i (leader n) hm hb)
      intro a w1 h1
      cases a with
      | error e => exact h1
      | ok _ =>
        exact wp_mono (fun _ _ h => h1.trans h)
          (ih h1.inv (h1.mrk hm) (Int.le_trans hrev h1.top) _ _)
    · exact Ext.refl i

theorem wp_doCompact {w : World} (i : Inv w) (leader : Nat → Option Bool) :
    WP (fun _ w' => Inv w') (Backend.doCompact leader) w := by
  apply wp_andThen
  refine wp_mono ?_ (wp_compactStart i)
  intro a w1 h1
  cases a with
  | error e => exact h1.1
  | ok u =>
    have hm := h1.2 rfl
    simp only
    apply wp_andThen
    apply wp_getCompactRevision h1.1
    · intro w2 h2
      refine wp_mono (fun _ _ h => h.inv)
        (wp_compactBatches h2.inv leader (h2.mrk hm) ?_ _ _ _)
      unfold supersededCount; omega
    · intro w2 e h2; exact h2.inv

theorem wp_start {w : World} (i : Inv w) : WP (fun _ w' => Inv w') Backend.start w := by
  apply wp_andThen
  refine wp_mono ?_ (wp_create_inv i _ _ _)
  intro a w1 i1
  cases a with
  | error e => exact i1
  | ok _ =>
    simp only
    apply wp_andThen
    refine wp_mono ?_ (wp_compactStart i1)
    intro a w2 h2
    cases a with
    | error e => exact h2.1
    | ok _ =>
      simp only
      apply wp_andThen
      apply wp_getCompactRevision h2.1
      · intro w3 h3; exact h3.inv
      · intro w3 e h3; exact h3.inv

/-- Every call keeps the guarantee. -/
theorem safe_call {w : World} (i : Inv w) (c : Call) (ok : c.allowed) : Safe c.prog w := by
  cases c with
  | range v1 r => exact safe_map (safe_range i v1 r)
  | txn v1 t => exact safe_map (safe_txn i v1 t ok)
  | expire key rev => exact safe_map (wp_safe (wp_delete i ok rev))
  | doCompact leader => exact safe_map (wp_safe (wp_doCompact i leader))
  | start => exact safe_map (wp_safe (wp_start i))
  | poll rev limit =>
    apply safe_map
    apply wp_queryLoop _ i
    · intro _ _ _; trivial
    · intro _ _ _; trivial
  | legacyCreate key value lease prev =>
    apply safe_map
    apply wp_executeLoop _ i
    · intro w' hw' o; exact hw'.inv.ext_legacyCreate ok lease value prev o
    · intro _ _ _ _; trivial
    · intro _ _ _; trivial

end Verif
