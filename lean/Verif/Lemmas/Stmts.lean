import Verif.Lemmas.Run
/-!
# Which statements a program may execute; interrupted programs
-/

namespace Verif

/-- Every statement the program may ever execute has an effect satisfying `E`. -/
def AllStmts {α : Type} (E : (DB → DB) → Prop) : Prog α → Prop
  | .ret _ => True
  | .stmt eff k => E eff ∧ ∀ o db, AllStmts E (k o db)

variable {E : (DB → DB) → Prop}

theorem all_bind {α β : Type} {p : Prog α} {f : α → Prog β} (hp : AllStmts E p)
    (hf : ∀ a, AllStmts E (f a)) : AllStmts E (p.bind f) := by
  induction p with
  | ret a => exact hf a
  | stmt eff k ih => exact ⟨hp.1, fun o db => ih o db (hp.2 o db)⟩

theorem all_map {α β : Type} {p : Prog α} {f : α → β} (hp : AllStmts E p) : AllStmts E (p.map f) :=
  all_bind hp fun _ => trivial

theorem all_andThen {ε α β : Type} {p : Prog (Except ε α)} {f : α → Prog (Except ε β)} (hp : AllStmts E p)
    (hf : ∀ a, AllStmts E (f a)) : AllStmts E (p.andThen f) := by
  apply all_bind hp
  intro a
  cases a with
  | ok a => exact hf a
  | error e => trivial

theorem all_queryLoop {β : Type} {sel : DB → β} (h : E id) (n : Nat) : AllStmts E (queryLoop sel n) := by
  induction n with
  | zero => trivial
  | succ n ih =>
    refine ⟨h, fun o db => ?_⟩
    cases o with
    | ok => trivial
    | trunc m => trivial
    | fail e => simp only; split; exact ih; trivial
    | lost e => simp only; split; exact ih; trivial

theorem all_executeLoop {st : DB → DB × ExecResult} (h : E fun db => (st db).1) (n : Nat) :
    AllStmts E (executeLoop st n) := by
  induction n with
  | zero => trivial
  | succ n ih =>
    refine ⟨h, fun o db => ?_⟩
    cases o with
    | ok => trivial
    | trunc m => trivial
    | fail e => simp only; split; exact ih; trivial
    | lost e => simp only; split; exact ih; trivial

theorem all_compactLoop {a b : Int} (h : E fun db => tryCompactTx db a b) (n : Nat) :
    AllStmts E (compactLoop a b n) := by
  induction n with
  | zero => trivial
  | succ n ih =>
    refine ⟨h, fun o db => ?_⟩
    cases o with
    | ok => trivial
    | trunc m => trivial
    | fail e => simp only; split; exact ih; trivial
    | lost e => simp only; split; exact ih; trivial

theorem all_oneRow {α : Type} (r : α × Option Nat) : AllStmts E (oneRow r) := by
  unfold oneRow; split <;> trivial

/-- The statements of the program set; `legacy` tells whether the old create statement may occur. -/
inductive StmtKind (legacy : Bool) : (DB → DB) → Prop where
  | query : StmtKind legacy id
  | create (key : Bytes) (lease : Int) (value : Bytes) (hk : key = compactRevKey → lease = 0) :
      StmtKind legacy fun db => (createSQL db key lease value).1
  | update (key : Bytes) (hk : key ≠ compactRevKey) (lease : Int) (value : Bytes) (rev : Int) :
      StmtKind legacy fun db => (updateSQL db key lease value rev).1
  | delete (key : Bytes) (hk : key ≠ compactRevKey) (rev : Int) :
      StmtKind legacy fun db => (deleteSQL db key rev).1
  | deleteRev (rev : Int) : StmtKind legacy fun db => (deleteRevSQL db rev).1
  | compact (start stop : Int) : StmtKind legacy fun db => tryCompactTx db start stop
  | legacyCreate (key : Bytes) (hk : key ≠ compactRevKey) (lease : Int) (value : Bytes) (prev : Int)
      (h : legacy = true) : StmtKind legacy fun db => (legacyCreateSQL db key lease value prev).1

/-- The statements of a compaction run. -/
inductive CompactKind : (DB → DB) → Prop where
  | query : CompactKind id
  | create : CompactKind fun db => (createSQL db compactRevKey 0 []).1
  | deleteRev (rev : Int) : CompactKind fun db => (deleteRevSQL db rev).1
  | compact (start stop : Int) : CompactKind fun db => tryCompactTx db start stop

/-- The statements of compaction start. -/
inductive MarkerKind : (DB → DB) → Prop where
  | query : MarkerKind id
  | create : MarkerKind fun db => (createSQL db compactRevKey 0 []).1
  | deleteRev (rev : Int) : MarkerKind fun db => (deleteRevSQL db rev).1

theorem MarkerKind.compactKind {e : DB → DB} (h : MarkerKind e) : CompactKind e := by
  cases h
  · exact .query
  · exact .create
  · exact .deleteRev _

theorem all_mono {α : Type} {E E' : (DB → DB) → Prop} (h : ∀ e, E e → E' e) {p : Prog α}
    (hp : AllStmts E p) : AllStmts E' p := by
  induction p with
  | ret a => trivial
  | stmt eff k ih => exact ⟨h _ hp.1, fun o db => ih o db (hp.2 o db)⟩

theorem CompactKind.kind {l : Bool} {e : DB → DB} (h : CompactKind e) : StmtKind l e := by
  cases h
  · exact .query
  · exact .create _ _ _ (fun _ => rfl)
  · exact .deleteRev _
  · exact .compact _ _

theorem all_getCompactRevision (h : E id) : AllStmts E Driver.getCompactRevision :=
  all_andThen (all_queryLoop h _) fun _ => all_map (all_oneRow _)

theorem all_list (h : E id) (v1 : Bool) (key re : Bytes) (limit rev : Int) :
    AllStmts E (Backend.list v1 key re limit rev) := by
  apply all_andThen (all_getCompactRevision h)
  intro a
  have hgo : ∀ r : Int, AllStmts E ((Driver.list v1 key re limit r).andThen fun rows =>
      .ret (.ok (a.2, scanAll scanKeyValue rows))) :=
    fun r => all_andThen (all_queryLoop h _) fun _ => trivial
  simp only
  split
  · exact hgo _
  · split
    · trivial
    · exact hgo _

theorem all_count (h : E id) (v1 : Bool) (key re : Bytes) (rev : Int) :
    AllStmts E (Backend.count v1 key re rev) := by
  apply all_andThen (all_getCompactRevision h)
  intro a
  have hgo : ∀ r : Int, AllStmts E ((Driver.count v1 key re r).andThen fun n => .ret (.ok (a.2, n))) :=
    fun r => all_andThen (all_andThen (all_queryLoop h _) fun _ => all_map (all_oneRow _)) fun _ => trivial
  simp only
  split
  · exact hgo _
  · split
    · trivial
    · exact hgo _

theorem all_range (h : E id) (v1 : Bool) (r : RangeReq) : AllStmts E (Bridge.range v1 r) := by
  unfold Bridge.range
  repeat' split
  any_goals trivial
  unfold Limited.range
  split
  · exact all_andThen (all_list h _ _ _ _ _) fun _ => trivial
  · unfold Limited.list
    split
    · exact all_andThen (all_count h _ _ _ _) fun _ => trivial
    · apply all_andThen (all_list h _ _ _ _ _)
      intro a
      simp only
      generalize (if r.limit > 0 then r.limit + 1 else r.limit) = lim
      split
      · exact all_andThen (all_count h _ _ _ _) fun _ => trivial
      · trivial

theorem all_write {st : DB → DB × ExecResult} (h : E fun db => (st db).1) :
    AllStmts E ((execute st).andThen fun r => .ret (.ok (writeResult r))) :=
  all_andThen (all_executeLoop h _) fun _ => trivial

theorem all_elseRange (h : E id) (v1 : Bool) (key : Bytes) (rev : Int) :
    AllStmts E (Limited.elseRange v1 key rev) :=
  all_andThen (all_list h _ _ _ _ _) fun _ => trivial

theorem all_txn {l : Bool} (v1 : Bool) (t : TxnReq) (hk : t.writtenKey ≠ some compactRevKey) :
    AllStmts (StmtKind l) (Limited.txn v1 t) := by
  unfold Limited.txn
  unfold TxnReq.writtenKey at hk
  cases hc : isCreate t with
  | some put =>
    simp only
    unfold Limited.create
    repeat' split
    any_goals trivial
    refine all_andThen (all_write (.create _ _ _ (fun h => absurd (by simp only [hc, h]) hk))) ?_
    intro a; simp only; split <;> trivial
  | none =>
    simp only [hc] at hk ⊢
    cases hd : isDelete t with
    | some p =>
      simp only [hd] at hk ⊢
      refine all_andThen (all_write (.delete _ (fun h => hk (by rw [h])) _)) ?_
      intro a; simp only; split
      · trivial
      · exact all_elseRange .query _ _ _
    | none =>
      simp only [hd] at hk ⊢
      cases hu : isUpdate t with
      | some u =>
        obtain ⟨rev, key, value, lease⟩ := u
        simp only [hu] at hk ⊢
        have hk' : key ≠ compactRevKey := fun h => hk (by rw [← h]; rfl)
        unfold Limited.update
        apply all_andThen
        · split
          · exact all_write (.create _ _ _ (fun h => absurd h hk'))
          · exact all_write (.update _ hk' _ _ _)
        · intro a; simp only; split
          · trivial
          · exact all_elseRange .query _ _ _
      | none =>
        simp only
        split <;> trivial

theorem all_deleteMarkers (keep : Int) (es : List Event) :
    AllStmts MarkerKind (deleteMarkers keep es) := by
  induction es with
  | nil => trivial
  | cons e es ih =>
    unfold deleteMarkers
    split
    · exact ih
    · exact all_andThen (all_andThen (all_executeLoop (.deleteRev _) _) fun _ => trivial) fun _ => ih

theorem all_compactStart_marker : AllStmts MarkerKind Backend.compactStart := by
  unfold Backend.compactStart
  apply all_andThen
  · unfold Driver.currentRevision
    apply all_andThen (all_queryLoop .query _)
    intro a
    apply all_bind (all_oneRow _)
    intro b
    cases b with
    | error e => trivial
    | ok o => cases o <;> trivial
  · intro cur
    apply all_andThen (all_queryLoop .query _)
    intro rows
    simp only
    split
    · exact all_andThen (all_write .create) fun _ => trivial
    · trivial
    · exact all_deleteMarkers _ _

theorem all_compactStart : AllStmts CompactKind Backend.compactStart :=
  all_mono (fun _ h => h.compactKind) all_compactStart_marker

theorem all_compactSqlite (rev : Int) : AllStmts CompactKind (Driver.compactSqlite rev) := by
  apply all_andThen (all_getCompactRevision .query)
  intro a
  simp only
  split
  · trivial
  · exact all_compactLoop (.compact _ _) _

theorem all_compactBatches (leader : Nat → Option Bool) (target : Int) (fuel n : Nat) (start : Int) :
    AllStmts CompactKind (compactBatches leader target fuel n start) := by
  induction fuel generalizing n start with
  | zero => trivial
  | succ fuel ih =>
    unfold compactBatches
    split
    · refine all_andThen ?_ fun _ => ih _ _
      unfold Driver.compact
      split
      · trivial
      · exact all_compactSqlite _
    · trivial

theorem all_doCompact (leader : Nat → Option Bool) : AllStmts CompactKind (Backend.doCompact leader) :=
  all_andThen all_compactStart fun _ =>
    all_andThen (all_getCompactRevision .query) fun _ => all_compactBatches _ _ _ _ _

/-- On a follower the batches do nothing. -/
theorem all_doCompact_follower : AllStmts MarkerKind (Backend.doCompact fun _ => some false) := by
  refine all_andThen all_compactStart_marker fun _ => all_andThen (all_getCompactRevision .query) fun a => ?_
  have : ∀ (target : Int) (fuel n : Nat) (start : Int),
      AllStmts MarkerKind (compactBatches (fun _ => some false) target fuel n start) := by
    intro target fuel
    induction fuel with
    | zero => intros; trivial
    | succ fuel ih =>
      intro n start
      unfold compactBatches
      split
      · exact all_andThen trivial fun _ => ih _ _
      · trivial
  exact this _ _ _ _

theorem all_start {l : Bool} : AllStmts (StmtKind l) Backend.start :=
  all_andThen (all_write (.create _ _ _ (fun h => absurd h (by decide)))) fun _ =>
    all_andThen (all_mono (fun _ h => h.kind) all_compactStart) fun _ =>
      all_andThen (all_getCompactRevision .query) fun _ => trivial

/-- Not a create of an old peer. -/
def Call.modern : Call → Prop
  | .legacyCreate .. => False
  | _ => True

theorem all_call {l : Bool} (c : Call) (ok : c.allowed) (hm : l = false → c.modern) :
    AllStmts (StmtKind l) c.prog := by
  cases c with
  | range v1 r => exact all_map (all_range .query v1 r)
  | txn v1 t => exact all_map (all_txn v1 t ok)
  | expire key rev => exact all_map (all_write (.delete key ok rev))
  | doCompact leader => exact all_map (all_mono (fun _ h => h.kind) (all_doCompact leader))
  | start => exact all_map all_start
  | poll rev limit => exact all_map (all_queryLoop .query _)
  | legacyCreate key value lease prev =>
    cases l with
    | true => exact all_map (all_executeLoop (.legacyCreate key ok lease value prev rfl) _)
    | false => exact absurd (hm rfl) (by simp [Call.modern])

theorem path_allStmts {α : Type} {p : Prog α} {t : List Obs} {a : α} (h : Path p t a) (hp : AllStmts E p) :
    ∀ ob ∈ t, ∃ eff, E eff ∧ ob.post = ob.pre.exec eff ob.out := by
  induction h with
  | ret a => simp
  | step w o _ ih =>
    intro ob hob
    rcases List.mem_cons.1 hob with rfl | hob
    · exact ⟨_, hp.1, rfl⟩
    · exact ih (hp.2 _ _) ob hob

theorem hist_of_old_rows {w : World} (i : Inv w) {eff : DB → DB} (o : Outcome)
    (h : ∀ r ∈ (eff w.db).rows, ∃ q ∈ w.db.rows, r.id = q.id) : (w.exec eff o).hist = w.hist := by
  unfold World.exec
  split
  · have : ((eff w.db).rows.filter fun r => decide (w.db.seq < r.id)) = [] := by
      rw [List.filter_eq_nil_iff]
      intro r hr
      obtain ⟨q, hq, e⟩ := h r hr
      have := i.row_le_top hq
      rw [i.seq]; simp; omega
    simp [this]
  · rfl

/-- One statement commits nothing or exactly one whole write. -/
theorem kind_commits {l : Bool} {w : World} (i : Inv w) {eff : DB → DB} (h : StmtKind l eff) (o : Outcome) :
    (w.exec eff o).hist = w.hist ∨ ∃ c, (w.exec eff o).hist = w.hist ++ [c] ∧ c.rev = w.hist.top + 1 := by
  have ins : ∀ {r : Row}, eff w.db = w.db.insert r →
      (w.exec eff o).hist = w.hist ∨ ∃ c, (w.exec eff o).hist = w.hist ++ [c] ∧ c.rev = w.hist.top + 1 := by
    intro r e
    cases ho : o.applied with
    | false => left; rw [not_applied_exec ho]
    | true => right; exact ⟨commitOf (w.newRow r), by rw [i.exec_insert e ho], rfl⟩
  cases h with
  | query => left; rw [i.exec_id]
  | create key lease value _ =>
    rcases i.createSQL_spec key lease value with ⟨_, r, _, _, _, e⟩ | ⟨_, e⟩
    · exact ins (r := r) (by simp only [e])
    · left; rw [i.exec_of_eq (by simp only [e])]
  | update key hk lease value rev =>
    rcases i.updateSQL_spec hk lease value rev with ⟨_, _, _, r, _, _, e⟩ | ⟨_, e⟩
    · exact ins (r := r) (by simp only [e])
    · left; rw [i.exec_of_eq (by simp only [e])]
  | delete key hk rev =>
    rcases i.deleteSQL_spec hk rev with ⟨_, _, _, r, _, _, e⟩ | ⟨_, e⟩
    · exact ins (r := r) (by simp only [e])
    · left; rw [i.exec_of_eq (by simp only [e])]
  | deleteRev rev =>
    left
    apply hist_of_old_rows i
    intro r hr
    exact ⟨r, (List.mem_filter.1 hr).1, rfl⟩
  | compact a b =>
    left
    apply hist_of_old_rows i
    intro r hr
    obtain ⟨q, hq, _, _, rfl⟩ := mem_tryCompact.1 hr
    exact ⟨q, hq, markRow_id _ _⟩
  | legacyCreate key hk lease value prev _ =>
    rcases i.legacyCreateSQL_spec hk lease value prev with ⟨_, r, _, _, e⟩ | ⟨_, e⟩
    · exact ins (r := r) (by simp only [e])
    · left; rw [i.exec_of_eq (by simp only [e])]

/-- The compaction marker is never deleted and never written with a lease. -/
def MarkerPlain (h : History) : Prop := ∀ c ∈ h, c.key = compactRevKey → ∃ v, c.write = some (v, 0)

theorem markerPlain_step {l : Bool} {w : World} (i : Inv w) (hm : MarkerPlain w.hist) {eff : DB → DB}
    (h : StmtKind l eff) (o : Outcome) : MarkerPlain (w.exec eff o).hist := by
  have ins : ∀ {r : Row} {c : Commit}, commitOf (w.newRow r) = c →
      (c.key = compactRevKey → ∃ v, c.write = some (v, 0)) → eff w.db = w.db.insert r →
      MarkerPlain (w.exec eff o).hist := by
    intro r c hc hp e
    cases ho : o.applied with
    | false => rw [not_applied_exec ho]; exact hm
    | true =>
      rw [i.exec_insert e ho, hc]
      intro x hx
      rcases List.mem_append.1 hx with hx | hx
      · exact hm x hx
      · rw [List.mem_singleton.1 hx]; exact hp
  have same : (w.exec eff o).hist = w.hist → MarkerPlain (w.exec eff o).hist := fun e => by rw [e]; exact hm
  cases h with
  | query => exact same (by rw [i.exec_id])
  | create key lease value hk =>
    rcases i.createSQL_spec key lease value with ⟨_, r, _, _, hc, e⟩ | ⟨_, e⟩
    · refine ins (r := r) hc ?_ (by simp only [e])
      intro h
      exact ⟨value, by rw [hk h]⟩
    · exact same (by rw [i.exec_of_eq (by simp only [e])])
  | update key hk lease value rev =>
    rcases i.updateSQL_spec hk lease value rev with ⟨_, _, _, r, _, hc, e⟩ | ⟨_, e⟩
    · exact ins (r := r) hc (fun h => absurd h hk) (by simp only [e])
    · exact same (by rw [i.exec_of_eq (by simp only [e])])
  | delete key hk rev =>
    rcases i.deleteSQL_spec hk rev with ⟨_, _, _, r, _, hc, e⟩ | ⟨_, e⟩
    · exact ins (r := r) hc (fun h => absurd h hk) (by simp only [e])
    · exact same (by rw [i.exec_of_eq (by simp only [e])])
  | deleteRev rev =>
    apply same
    apply hist_of_old_rows i
    intro r hr
    exact ⟨r, (List.mem_filter.1 hr).1, rfl⟩
  | compact a b =>
    apply same
    apply hist_of_old_rows i
    intro r hr
    obtain ⟨q, hq, _, _, rfl⟩ := mem_tryCompact.1 hr
    exact ⟨q, hq, markRow_id _ _⟩
  | legacyCreate key hk lease value prev _ =>
    rcases i.legacyCreateSQL_spec hk lease value prev with ⟨_, r, _, hc, e⟩ | ⟨_, e⟩
    · exact ins (r := r) hc (fun h => absurd h hk) (by simp only [e])
    · exact same (by rw [i.exec_of_eq (by simp only [e])])

theorem compactKind_commits {w : World} (i : Inv w) {eff : DB → DB} (h : CompactKind eff) (o : Outcome) :
    (w.exec eff o).hist = w.hist ∨ (w.hist.now compactRevKey = none ∧
      (w.exec eff o).hist = w.hist ++ [⟨w.hist.top + 1, compactRevKey, some ([], 0)⟩]) := by
  cases h with
  | query => left; rw [i.exec_id]
  | create =>
    rcases i.createSQL_spec compactRevKey 0 [] with ⟨hn, r, _, _, hc, e⟩ | ⟨_, e⟩
    · cases ho : o.applied with
      | false => left; rw [not_applied_exec ho]
      | true =>
        right
        refine ⟨hn, ?_⟩
        rw [i.exec_insert (r := r) (by simp only [e]) ho, hc]
    · left; rw [i.exec_of_eq (by simp only [e])]
  | deleteRev rev =>
    left
    apply hist_of_old_rows i
    intro r hr
    exact ⟨r, (List.mem_filter.1 hr).1, rfl⟩
  | compact a b =>
    left
    apply hist_of_old_rows i
    intro r hr
    obtain ⟨q, hq, _, _, rfl⟩ := mem_tryCompact.1 hr
    exact ⟨q, hq, markRow_id _ _⟩

/-! ## Interrupted calls -/

/-- `Dies s p t s'`: started in `s`, the program `p` executes the statements `t` and is then interrupted for
ever (crash of its node, cancelled request), at any point. -/
inductive Dies {α : Type} : Sys → Prog α → List Obs → Sys → Prop where
  | die (s : Sys) (p : Prog α) : Dies s p [] s
  | env {s s' s'' : Sys} {p : Prog α} {t : List Obs} : Step s s' → Dies s' p t s'' → Dies s p t s''
  | step {s s'' : Sys} {eff : DB → DB} {k : Outcome → DB → Prog α} {t : List Obs} (o : Outcome) :
      Dies { s with world := s.world.exec eff o } (k o s.world.db) t s'' →
      Dies s (.stmt eff k) (⟨s.world, o, s.world.exec eff o⟩ :: t) s''

theorem Run.dies {α : Type} {s s' : Sys} {p : Prog α} {t : List Obs} {a : α} (r : Run s p t a s') :
    Dies s p t s' := by
  induction r with
  | ret s a => exact .die s _
  | env st _ ih => exact .env st ih
  | step o _ ih => exact .step o ih

/-- A prefix of a path. -/
inductive Prefix {α : Type} : Prog α → List Obs → Prop where
  | nil (p : Prog α) : Prefix p []
  | step {eff : DB → DB} {k : Outcome → DB → Prog α} {t : List Obs} (w : World) (o : Outcome) :
      Prefix (k o w.db) t → Prefix (.stmt eff k) (⟨w, o, w.exec eff o⟩ :: t)

theorem dies_facts {α : Type} {s s' : Sys} {p : Prog α} {t : List Obs} (r : Dies s p t s')
    (h : SysInv s) (hp : Safe p s.world) :
    Prefix p t ∧ Facts s.world t s'.world ∧ SysInv s' := by
  induction r with
  | die s p => exact ⟨.nil p, Facts.nil h.inv, h⟩
  | env st _ ih =>
    obtain ⟨h1, h2⟩ := h.step st
    obtain ⟨a1, a2, a3⟩ := ih h1 (safe_ext h2 hp)
    exact ⟨a1, ⟨fun ob hob => h2.trans (a2.pre ob hob), a2.step, a2.post, a2.chain,
      h2.trans a2.total⟩, a3⟩
  | @step s s'' eff k t o _ ih =>
    obtain ⟨h1, h2⟩ := hp s.world (Ext.refl h.inv) o
    have hsys : SysInv { s with world := s.world.exec eff o } :=
      ⟨h1.inv, fun p hp => safe_ext h1 (h.safe p hp)⟩
    obtain ⟨a1, a2, a3⟩ := ih hsys h2
    refine ⟨.step _ o a1, ⟨?_, ?_, ?_, ?_, h1.trans a2.total⟩, a3⟩
    · intro ob hob
      rcases List.mem_cons.1 hob with rfl | hob
      · exact Ext.refl h.inv
      · exact h1.trans (a2.pre ob hob)
    · intro ob hob
      rcases List.mem_cons.1 hob with rfl | hob
      · exact h1
      · exact a2.step ob hob
    · intro ob hob
      rcases List.mem_cons.1 hob with rfl | hob
      · exact a2.total
      · exact a2.post ob hob
    · exact List.pairwise_cons.2 ⟨fun ob hob => a2.pre ob hob, a2.chain⟩

theorem prefix_allStmts {α : Type} {p : Prog α} {t : List Obs} (h : Prefix p t) (hp : AllStmts E p) :
    ∀ ob ∈ t, ∃ eff, E eff ∧ ob.post = ob.pre.exec eff ob.out := by
  induction h with
  | nil p => simp
  | step w o _ ih =>
    intro ob hob
    rcases List.mem_cons.1 hob with rfl | hob
    · exact ⟨_, hp.1, rfl⟩
    · exact ih (hp.2 _ _) ob hob

/-- An environment step is possible with one more program in flight. -/
theorem Step.insert {s s' : Sys} (st : Step s s') {a b : List (Prog Unit)} (e : s.pool = a ++ b) (p : Prog Unit) :
    ∃ a' b', s'.pool = a' ++ b' ∧ Step ⟨s.world, a ++ p :: b⟩ ⟨s'.world, a' ++ p :: b'⟩ := by
  cases st with
  | spawn _ c ok =>
    refine ⟨c.prog :: a, b, by simp [e], ?_⟩
    exact Step.spawn ⟨s.world, a ++ p :: b⟩ c ok
  | exec w pre post eff k o =>
    simp only at e
    rcases List.append_eq_append_iff.1 e with ⟨c, h1, h2⟩ | ⟨c, h1, h2⟩
    · -- a = pre ++ c
      cases c with
      | nil =>
        simp only [List.nil_append] at h2
        refine ⟨pre, k o w.db :: post, rfl, ?_⟩
        have := Step.exec w (pre ++ [p]) post eff k o
        simp only [List.append_nil] at h1
        rw [h1, ← h2]
        simpa using this
      | cons x xs =>
        simp only [List.cons_append, List.cons.injEq] at h2
        obtain ⟨rfl, h2⟩ := h2
        refine ⟨pre ++ k o w.db :: xs, b, by simp [h2], ?_⟩
        have := Step.exec w pre (xs ++ p :: b) eff k o
        rw [h1]
        simpa using this
    · -- pre = a ++ c
      refine ⟨a, c ++ k o w.db :: post, by simp [h1], ?_⟩
      have := Step.exec w (a ++ p :: c) post eff k o
      rw [h2]
      simpa using this
  | stop w pre post q =>
    simp only at e
    rcases List.append_eq_append_iff.1 e with ⟨c, h1, h2⟩ | ⟨c, h1, h2⟩
    · cases c with
      | nil =>
        simp only [List.nil_append] at h2
        refine ⟨pre, post, rfl, ?_⟩
        have := Step.stop w (pre ++ [p]) post q
        simp only [List.append_nil] at h1
        rw [h1, ← h2]
        simpa using this
      | cons x xs =>
        simp only [List.cons_append, List.cons.injEq] at h2
        obtain ⟨rfl, h2⟩ := h2
        refine ⟨pre ++ xs, b, by simp [h2], ?_⟩
        have := Step.stop w pre (xs ++ p :: b) q
        rw [h1]
        simpa using this
    · refine ⟨a, c ++ post, by simp [h1], ?_⟩
      have := Step.stop w (a ++ p :: c) post q
      rw [h2]
      simpa using this

/-- An interrupted call is a possible activity of the system. -/
theorem Dies.steps {s s' : Sys} {p : Prog Unit} {t : List Obs} (r : Dies s p t s') :
    ∀ {a b : List (Prog Unit)}, s.pool = a ++ b → Steps ⟨s.world, a ++ p :: b⟩ s' := by
  induction r with
  | die s p =>
    intro a b e
    have := (Steps.refl _).tail (Step.stop s.world a b p)
    rw [← e] at this
    exact this
  | @env s s' s'' p t st _ ih =>
    intro a b e
    obtain ⟨a', b', e', st'⟩ := st.insert e p
    exact Steps.trans ((Steps.refl _).tail st') (ih e')
  | @step s s'' eff k t o _ ih =>
    intro a b e
    exact Steps.trans ((Steps.refl _).tail (Step.exec s.world a b eff k o)) (ih e)

/-- After an interrupted call the system is still a reachable one: nothing special has to be known about
crashes. -/
theorem Dies.reachable {s s' : Sys} {c : Call} {t : List Obs} (hs : Reachable s) (hc : c.allowed)
    (r : Dies s c.prog t s') : Reachable s' := by
  have h1 : Steps s ⟨s.world, c.prog :: s.pool⟩ := (Steps.refl _).tail (Step.spawn s c hc)
  exact (Steps.trans hs h1).trans (r.steps (a := []) (b := s.pool) rfl)

theorem dies_map {α β : Type} {f : α → β} {s s' : Sys} {p : Prog α} {t : List Obs} (r : Dies s p t s') :
    Dies s (p.map f) t s' := by
  induction r with
  | die s p => exact .die s _
  | env st _ ih => exact .env st ih
  | step o _ ih => exact .step o ih

end Verif
