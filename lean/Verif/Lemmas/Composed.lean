import Verif.Model.Composed
import Verif.Props.Batched
/-!
# Simulation of the batched system by the unbatched one
-/

namespace Verif

theorem CRun.trans {a b c : Conc} {l l' : List CEv} (h : CRun a l b) (h' : CRun b l' c) : CRun a (l ++ l') c := by
  induction h with
  | done _ => exact h'
  | env s _ ih => exact .env s (ih h')
  | call v1 op ok _ ih => exact .call v1 op ok (ih h')
  | stmt i o eff k hk _ ih => exact .stmt i o eff k hk (ih h')
  | ret i a hk _ ih => exact .ret i a hk (ih h')
  | die i _ ih => exact .die i (ih h')

theorem liftStmt_inj {st st' : BStmt DB} (h : liftStmt st = liftStmt st') : st = st' := by
  funext db
  have := congrFun h ⟨db, []⟩
  simp only [liftStmt, World.exec, Outcome.applied, Prod.mk.injEq, if_true] at this
  exact Prod.ext (congrArg World.db this.1) this.2

/-- A batch on the shared store is a sequence of single statements, each with one of the outcomes of the model. -/
theorem seqRun_lift (sts : List (BStmt DB)) (w : World) :
    seqRun (sts.map liftStmt) w =
      ((runStmts (sts.map fun st => (st, Outcome.ok)) w).1, (seqRun (sts.map liftStmt) w).2) ∧
    (seqRun (sts.map liftStmt) w).2.map .ok = (runStmts (sts.map fun st => (st, Outcome.ok)) w).2 := by
  induction sts generalizing w with
  | nil => exact ⟨rfl, rfl⟩
  | cons st sts ih =>
    obtain ⟨h1, h2⟩ := ih (w.exec (fun db => (st db).1) .ok)
    have h1' := congrArg Prod.fst h1
    simp only at h1'
    simp only [List.map_cons, seqRun, runStmts, liftStmt]
    refine ⟨by rw [← h1'], ?_⟩
    rw [← h2]
    rfl

theorem runStmts_lost (sts : List (BStmt DB)) (e : DbErr) (w : World) :
    (runStmts (sts.map fun st => (st, Outcome.lost e)) w).1 = (runStmts (sts.map fun st => (st, Outcome.ok)) w).1 := by
  induction sts generalizing w with
  | nil => rfl
  | cons st sts ih =>
    simp only [List.map_cons, runStmts]
    exact ih _

/-- The cursor of the statement does not break. -/
def Outcome.Whole (o : Outcome) : Prop := ∀ n, o ≠ .trunc n

/-- Nothing of this is seen by clients, and the outcomes of the statements satisfy `P`. -/
def Silent (P : Outcome → Prop) (l : List CEv) : Prop :=
  l.filter CEv.visible = [] ∧ ∀ i ob, CEv.stmt i ob ∈ l → P ob.out

theorem Silent.nil {P : Outcome → Prop} : Silent P [] := ⟨rfl, nofun⟩

theorem Silent.stmt {P : Outcome → Prop} {i : Nat} {ob : Obs} (h : P ob.out) : Silent P [.stmt i ob] :=
  ⟨rfl, fun i' ob' hm => by (rw [List.mem_singleton] at hm; cases hm; exact h)⟩

theorem Silent.append {P : Outcome → Prop} {l l' : List CEv} (h : Silent P l) (h' : Silent P l') : Silent P (l ++ l') :=
  ⟨by rw [List.filter_append, h.1, h'.1]; rfl, fun i ob hm => by
    rcases List.mem_append.1 hm with hm | hm
    · exact h.2 i ob hm
    · exact h'.2 i ob hm⟩

theorem execQueue_world (begin : Option DbErr) (commit : CommitOut) (sts : List (BStmt DB)) (fates : List JobFate)
    (hl : fates.length = sts.length) (w : World) : ∃ os : List Outcome, os.length = sts.length ∧ (∀ o ∈ os, o.Whole) ∧
      runStmts (sts.zip os) w = execQueue begin commit ((sts.map liftStmt).zip fates) w := by
  have hz : ∀ o : Outcome, sts.zip (sts.map fun _ => o) = sts.map fun st => (st, o) := by
    intro o
    clear hl
    induction sts with
    | nil => rfl
    | cons j js ih => simp only [List.map_cons, List.zip_cons_cons, ih]
  have hfst : ((sts.map liftStmt).zip fates).map (·.1) = sts.map liftStmt := by
    apply List.map_fst_zip
    simp [hl]
  obtain ⟨hlen, h⟩ := C41_all_or_nothing begin commit ((sts.map liftStmt).zip fates) w
  have hsame := execQueue_same_error begin commit ((sts.map liftStmt).zip fates) w
  simp only [hfst] at h
  obtain ⟨q1, q2⟩ := seqRun_lift sts w
  have q1' := congrArg Prod.fst q1
  simp only at q1'
  have hmap : ∀ e : DbErr, (((sts.map liftStmt).zip fates).map fun _ => (.error e : Except DbErr ExecResult)) =
      sts.map fun _ => .error e := by
    intro e
    rw [List.map_const', List.map_const']
    simp [hl]
  rcases h with ⟨h1, h2⟩ | ⟨h1, h2⟩ | ⟨h1, _, h2⟩
  · refine ⟨sts.map fun _ => .ok, by simp, by simp [Outcome.Whole], ?_⟩
    rw [hz]
    exact Prod.ext (by rw [h1, q1']) (by rw [h2, q2])
  · obtain ⟨e, he⟩ := hsame h2
    refine ⟨sts.map fun _ => .fail e, by simp, by simp [Outcome.Whole], ?_⟩
    rw [hz]
    exact Prod.ext (by rw [h1, runStmts_fail]) (by rw [he, runStmts_error _ _ e (Or.inl rfl), hmap])
  · obtain ⟨e, he⟩ := hsame h2
    refine ⟨sts.map fun _ => .lost e, by simp, by simp [Outcome.Whole], ?_⟩
    rw [hz]
    exact Prod.ext (by rw [h1, runStmts_lost, q1']) (by rw [he, runStmts_error _ _ e (Or.inr rfl), hmap])

/-- What matters about a batcher: the jobs executed so far with their results, and the accepted ones that are not. -/
structure JView where
  execs : List (Nat × Except DbErr ExecResult)
  pend : List (BJob World)

def BSys.view (b : BSys World) : JView := ⟨b.executions, b.inflight ++ b.queue⟩

/-- Whose job it is. -/
inductive Owner where
  | client (i : Nat)
  | bg (i : Nat)
deriving DecidableEq

/-- A write as a statement of the unbatched system. -/
def stmtForm {α : Type} (st : BStmt DB) (k : Except DbErr ExecResult → Prog α) : Prog α :=
  .stmt (fun db => (st db).1) fun o db => k (stmtAnswer st o db)

/-- The program of a goroutine in the unbatched system: a waiting caller is before its statement until the job has been
executed, and behind it from then on. -/
def AbsE {α : Type} (V : JView) : MEntry α → Prog α → Prop
  | .run p, p' => p' = p
  | .wait id st k, p' => (∃ r, (id, r) ∈ V.execs ∧ p' = k r) ∨ (id ∉ V.execs.map (·.1) ∧ p' = stmtForm st k)

structure Sim (m : MSys) (V : Nat → JView) (c : Conc) (g : Nat → Prog Unit) (own : Nat → Nat → Owner) : Prop where
  world : c.world = m.world
  next : c.next = m.next
  bg : c.bg = (List.range m.nextBg).reverse.map g
  calls : ∀ i n e, m.calls i = some (n, e) → i < m.next ∧ ∃ p, c.active i = some p ∧ AbsE (V n) e p
  bgs : ∀ i n e, m.bgs i = some (n, e) → i < m.nextBg ∧ AbsE (V n) e (g i)
  pendc : ∀ n j, j ∈ (V n).pend → ∀ i, own n j.id = .client i → i < m.next ∧ ∃ st k, j.stmt = liftStmt st ∧
    c.active i = some (stmtForm st k) ∧ ∀ n' e, m.calls i = some (n', e) → n' = n ∧ e = .wait j.id st k
  pendb : ∀ n j, j ∈ (V n).pend → ∀ i, own n j.id = .bg i → i < m.nextBg ∧ ∃ st k, j.stmt = liftStmt st ∧
    g i = stmtForm st k ∧ ∀ n' e, m.bgs i = some (n', e) → n' = n ∧ e = .wait j.id st k
  inj : ∀ n j n' j', j ∈ (V n).pend → j' ∈ (V n').pend → own n j.id = own n' j'.id → n = n' ∧ j.id = j'.id
  waitc : ∀ i n id st k j, m.calls i = some (n, .wait id st k) → j ∈ (V n).pend → j.id = id → own n id = .client i
  waitb : ∀ i n id st k j, m.bgs i = some (n, .wait id st k) → j ∈ (V n).pend → j.id = id → own n id = .bg i
  ids : ∀ n, ((V n).execs.map (·.1) ++ (V n).pend.map (·.id)).Nodup

theorem map_upd_split {β : Type} {l : List Nat} (hn : l.Nodup) {i : Nat} (hi : i ∈ l) (g : Nat → β) (x : β) :
    ∃ pre post, l.map g = pre ++ g i :: post ∧ l.map (upd g i x) = pre ++ x :: post := by
  obtain ⟨a, b, rfl⟩ := List.append_of_mem hi
  have h1 : ∀ y ∈ a, y ≠ i := by
    intro y hy he
    subst he
    exact (List.nodup_append.1 hn).2.2 y hy y (by simp) rfl
  have h2 : ∀ y ∈ b, y ≠ i := by
    intro y hy he
    subst he
    exact (List.nodup_cons.1 (List.nodup_append.1 hn).2.1).1 hy
  refine ⟨a.map g, b.map g, by simp, ?_⟩
  simp only [List.map_append, List.map_cons]
  congr 1
  · apply List.map_congr_left
    intro y hy
    simp [upd, h1 y hy]
  · congr 1
    · simp [upd]
    · apply List.map_congr_left
      intro y hy
      simp [upd, h2 y hy]

theorem range_rev_nodup (n : Nat) : (List.range n).reverse.Nodup := by
  unfold List.Nodup
  rw [List.pairwise_reverse]
  exact List.Pairwise.imp Ne.symm List.nodup_range

theorem AbsE.exec1 {α : Type} {V : JView} {j : BJob World} {rest : List (BJob World)} {r : Except DbErr ExecResult}
    {e : MEntry α} {p : Prog α} (h : AbsE V e p) (hne : ∀ st k, e ≠ .wait j.id st k) :
    AbsE ⟨V.execs ++ [(j.id, r)], rest⟩ e p := by
  cases e with
  | run q => exact h
  | wait id st k =>
    rcases h with ⟨r', hr, rfl⟩ | ⟨hn, rfl⟩
    · exact Or.inl ⟨r', List.mem_append_left _ hr, rfl⟩
    · refine Or.inr ⟨?_, rfl⟩
      simp only [List.map_append, List.map_cons, List.map_nil, List.mem_append, List.mem_singleton, not_or]
      refine ⟨hn, fun he => ?_⟩
      subst he
      exact hne st k rfl

/-- The unbatched system executes the oldest pending job of a node. -/
theorem Sim.exec1 {m : MSys} {V : Nat → JView} {c : Conc} {g : Nat → Prog Unit} {own : Nat → Nat → Owner}
    (h : Sim m V c g own) {n : Nat} {j : BJob World} {rest : List (BJob World)} (hV : (V n).pend = j :: rest)
    {st : BStmt DB} (hst : j.stmt = liftStmt st) (o : Outcome)
    {P : Outcome → Prop} (hP : P o) :
    ∃ c' g' l, CRun c l c' ∧ Silent P l ∧
      Sim { m with world := m.world.exec (fun db => (st db).1) o }
        (upd V n ⟨(V n).execs ++ [(j.id, stmtAnswer st o m.world.db)], rest⟩) c' g' own := by
  have hj : j ∈ (V n).pend := by rw [hV]; simp
  have hsub : ∀ n' i, i ∈ (upd V n ⟨(V n).execs ++ [(j.id, stmtAnswer st o m.world.db)], rest⟩ n').pend → i ∈ (V n').pend := by
    intro n' i hi
    unfold upd at hi
    split at hi
    · rename_i he
      subst he
      rw [hV]
      exact List.mem_cons_of_mem _ hi
    · exact hi
  have hids := h.ids n
  rw [hV, List.map_cons] at hids
  -- another pending job belongs to somebody else
  have hother : ∀ n' i, i ∈ (upd V n ⟨(V n).execs ++ [(j.id, stmtAnswer st o m.world.db)], rest⟩ n').pend →
      own n' i.id ≠ own n j.id := by
    intro n' i hi he
    obtain ⟨rfl, h2⟩ := h.inj n' i n j (hsub n' i hi) hj he
    rw [upd, if_pos rfl] at hi
    have := (List.nodup_cons.1 (List.nodup_append.1 hids).2.1).1
    exact this (h2 ▸ List.mem_map_of_mem hi)
  have hnodup : ∀ n', ((upd V n ⟨(V n).execs ++ [(j.id, stmtAnswer st o m.world.db)], rest⟩ n').execs.map (·.1) ++
      (upd V n ⟨(V n).execs ++ [(j.id, stmtAnswer st o m.world.db)], rest⟩ n').pend.map (·.id)).Nodup := by
    intro n'
    unfold upd
    split
    · simpa using hids
    · exact h.ids n'
  have hinj : ∀ n₁ j₁ n₂ j₂, j₁ ∈ (upd V n ⟨(V n).execs ++ [(j.id, stmtAnswer st o m.world.db)], rest⟩ n₁).pend →
      j₂ ∈ (upd V n ⟨(V n).execs ++ [(j.id, stmtAnswer st o m.world.db)], rest⟩ n₂).pend →
      own n₁ j₁.id = own n₂ j₂.id → n₁ = n₂ ∧ j₁.id = j₂.id :=
    fun n₁ j₁ n₂ j₂ h1 h2 => h.inj n₁ j₁ n₂ j₂ (hsub _ _ h1) (hsub _ _ h2)
  -- goroutines that do not wait for this job
  have habs : ∀ {α : Type} (n' : Nat) (e : MEntry α) (p : Prog α), AbsE (V n') e p →
      (n' = n → ∀ st k, e ≠ .wait j.id st k) →
      AbsE (upd V n ⟨(V n).execs ++ [(j.id, stmtAnswer st o m.world.db)], rest⟩ n') e p := by
    intro α n' e p ha hne
    unfold upd
    split
    · rename_i he
      subst he
      exact ha.exec1 (hne rfl)
    · exact ha
  cases ho : own n j.id with
  | client i =>
    obtain ⟨hlt, st', k, hs, hact, hent⟩ := h.pendc n j hj i ho
    obtain rfl := liftStmt_inj (hst.symm.trans hs)
    refine ⟨{ c with world := c.world.exec (fun db => (st db).1) o, active := c.set i (some (k (stmtAnswer st o c.world.db))) }, g, _,
      CRun.stmt i o _ _ hact (.done _), .stmt hP, ?_⟩
    refine { world := by rw [h.world], next := h.next, bg := h.bg, calls := ?_, bgs := ?_, pendc := ?_, pendb := ?_,
             inj := hinj, waitc := fun i' n' id st' k' i hi hp => h.waitc i' n' id st' k' i hi (hsub _ _ hp),
             waitb := fun i' n' id st' k' i hi hp => h.waitb i' n' id st' k' i hi (hsub _ _ hp), ids := hnodup }
    · intro i' n' e he
      obtain ⟨hl, p, hp, ha⟩ := h.calls i' n' e he
      refine ⟨hl, ?_⟩
      by_cases hi : i' = i
      · subst hi
        obtain ⟨rfl, rfl⟩ := hent n' e he
        refine ⟨_, if_pos rfl, Or.inl ⟨stmtAnswer st o m.world.db, ?_, by rw [h.world]⟩⟩
        simp [upd]
      · refine ⟨p, (if_neg hi).trans hp, habs n' e p ha ?_⟩
        rintro rfl st' k' rfl
        have := h.waitc i' n' j.id st' k' j he hj rfl
        rw [ho] at this
        exact hi (Owner.client.inj this).symm
    · intro i' n' e he
      obtain ⟨hl, ha⟩ := h.bgs i' n' e he
      refine ⟨hl, habs n' e _ ha ?_⟩
      rintro rfl st' k' rfl
      have := h.waitb i' n' j.id st' k' j he hj rfl
      rw [ho] at this
      cases this
    · intro n' i' hi i'' hown
      obtain ⟨hl, st', k', h1, h2, h3⟩ := h.pendc n' i' (hsub _ _ hi) i'' hown
      refine ⟨hl, st', k', h1, ?_, h3⟩
      have hne : i'' ≠ i := by
        rintro rfl
        exact hother n' i' hi (hown.trans ho.symm)
      exact (if_neg hne).trans h2
    · intro n' i' hi i'' hown
      exact h.pendb n' i' (hsub _ _ hi) i'' hown
  | bg i =>
    obtain ⟨hlt, st', k, hs, hact, hent⟩ := h.pendb n j hj i ho
    obtain rfl := liftStmt_inj (hst.symm.trans hs)
    obtain ⟨pre, post, hm1, hm2⟩ := map_upd_split (range_rev_nodup m.nextBg) (i := i)
      (by rw [List.mem_reverse, List.mem_range]; exact hlt) g (k (stmtAnswer st o c.world.db))
    refine ⟨{ c with world := c.world.exec (fun db => (st db).1) o, bg := pre ++ k (stmtAnswer st o c.world.db) :: post },
      upd g i (k (stmtAnswer st o c.world.db)), [], ?_, .nil, ?_⟩
    · refine .env ?_ (.done _)
      have := Step.exec c.world pre post (fun db => (st db).1) (fun o db => k (stmtAnswer st o db)) o
      rw [hact] at hm1
      rw [h.bg, hm1]
      exact this
    refine { world := by rw [h.world], next := h.next, bg := hm2.symm, calls := ?_, bgs := ?_, pendc := ?_, pendb := ?_,
             inj := hinj, waitc := fun i' n' id st' k' i hi hp => h.waitc i' n' id st' k' i hi (hsub _ _ hp),
             waitb := fun i' n' id st' k' i hi hp => h.waitb i' n' id st' k' i hi (hsub _ _ hp), ids := hnodup }
    · intro i' n' e he
      obtain ⟨hl, p, hp, ha⟩ := h.calls i' n' e he
      refine ⟨hl, p, hp, habs n' e _ ha ?_⟩
      rintro rfl st' k' rfl
      have := h.waitc i' n' j.id st' k' j he hj rfl
      rw [ho] at this
      cases this
    · intro i' n' e he
      obtain ⟨hl, ha⟩ := h.bgs i' n' e he
      refine ⟨hl, ?_⟩
      by_cases hi : i' = i
      · subst hi
        obtain ⟨rfl, rfl⟩ := hent n' e he
        refine Or.inl ⟨stmtAnswer st o m.world.db, ?_, by rw [h.world, upd, if_pos rfl]⟩
        simp [upd]
      · rw [show upd g i (k (stmtAnswer st o c.world.db)) i' = g i' from if_neg hi]
        refine habs n' e _ ha ?_
        rintro rfl st' k' rfl
        have := h.waitb i' n' j.id st' k' j he hj rfl
        rw [ho] at this
        exact hi (Owner.bg.inj this).symm
    · intro n' i' hi i'' hown
      exact h.pendc n' i' (hsub _ _ hi) i'' hown
    · intro n' i' hi i'' hown
      obtain ⟨hl, st', k', h1, h2, h3⟩ := h.pendb n' i' (hsub _ _ hi) i'' hown
      refine ⟨hl, st', k', h1, ?_, h3⟩
      have hne : i'' ≠ i := by
        rintro rfl
        exact hother n' i' hi (hown.trans ho.symm)
      exact (if_neg hne).trans h2

theorem upd_upd {β : Type} (f : Nat → β) (i : Nat) (x y : β) : upd (upd f i x) i y = upd f i y := by
  funext j
  unfold upd
  split <;> rfl

theorem upd_self {β : Type} (f : Nat → β) (i : Nat) : upd f i (f i) = f := by
  funext j
  unfold upd
  split
  · rename_i h; rw [h]
  · rfl

/-- The unbatched system executes a whole queue. -/
theorem Sim.execMany {n : Nat} (q : List (BJob World)) (sts : List (BStmt DB)) (hst : q.map (·.stmt) = sts.map liftStmt)
    (os : List Outcome) (hos : os.length = sts.length) {P : Outcome → Prop} (hP : ∀ o ∈ os, P o) (rest : List (BJob World)) :
    ∀ {m : MSys} {V : Nat → JView} {c : Conc} {g : Nat → Prog Unit} {own : Nat → Nat → Owner}
      (_ : Sim m V c g own) (_ : (V n).pend = q ++ rest),
    ∃ c' g' l, CRun c l c' ∧ Silent P l ∧
      Sim { m with world := (runStmts (sts.zip os) m.world).1 }
        (upd V n ⟨(V n).execs ++ (q.map (·.id)).zip (runStmts (sts.zip os) m.world).2, rest⟩) c' g' own := by
  induction q generalizing sts os with
  | nil =>
    intro m V c g own h hV
    cases sts with
    | cons _ _ => cases hst
    | nil =>
      refine ⟨c, g, [], .done c, .nil, ?_⟩
      simp only [List.zip_nil_left, runStmts, List.map_nil, List.append_nil]
      have : upd V n ⟨(V n).execs, rest⟩ = V := by
        rw [show (⟨(V n).execs, rest⟩ : JView) = V n by rw [show rest = (V n).pend by rw [hV]; rfl]]
        exact upd_self V n
      rw [this]
      exact h
  | cons j q ih =>
    intro m V c g own h hV
    cases sts with
    | nil => cases hst
    | cons st sts =>
      cases os with
      | nil => cases hos
      | cons o os =>
        simp only [List.map_cons, List.cons.injEq] at hst
        obtain ⟨c1, g1, l1, r1, v1, s1⟩ := h.exec1 (by rw [hV]; rfl) hst.1 o (hP o (by simp))
        obtain ⟨c2, g2, l2, r2, v2, s2⟩ := ih sts hst.2 os (by simpa using hos) (fun o ho => hP o (by simp [ho])) s1 (by simp [upd])
        refine ⟨c2, g2, l1 ++ l2, r1.trans r2, v1.append v2, ?_⟩
        rw [upd_upd] at s2
        simpa [upd, runStmts] using s2

/-! ## Steps of goroutines -/

/-- Nobody's pending job belongs to client call `i`. -/
theorem Sim.free_call {m : MSys} {V : Nat → JView} {c : Conc} {g : Nat → Prog Unit} {own : Nat → Nat → Owner}
    (h : Sim m V c g own) {i n : Nat} {e : MEntry (Except ApiErr ClientResp)} (he : m.calls i = some (n, e))
    (hw : ∀ id st k, e = .wait id st k → ∀ j ∈ (V n).pend, j.id ≠ id) :
    ∀ n' j, j ∈ (V n').pend → own n' j.id ≠ .client i := by
  intro n' j hj ho
  obtain ⟨_, st, k, _, _, h3⟩ := h.pendc n' j hj i ho
  obtain ⟨rfl, rfl⟩ := h3 n e he
  exact hw _ _ _ rfl j hj rfl

theorem Sim.free_bg {m : MSys} {V : Nat → JView} {c : Conc} {g : Nat → Prog Unit} {own : Nat → Nat → Owner}
    (h : Sim m V c g own) {i n : Nat} {e : MEntry Unit} (he : m.bgs i = some (n, e))
    (hw : ∀ id st k, e = .wait id st k → ∀ j ∈ (V n).pend, j.id ≠ id) :
    ∀ n' j, j ∈ (V n').pend → own n' j.id ≠ .bg i := by
  intro n' j hj ho
  obtain ⟨_, st, k, _, _, h3⟩ := h.pendb n' j hj i ho
  obtain ⟨rfl, rfl⟩ := h3 n e he
  exact hw _ _ _ rfl j hj rfl

/-- A client call without pending job goes on. -/
theorem Sim.setCall {m : MSys} {V : Nat → JView} {c : Conc} {g : Nat → Prog Unit} {own : Nat → Nat → Owner}
    (h : Sim m V c g own) {i n : Nat} {e e' : MEntry (Except ApiErr ClientResp)} (he : m.calls i = some (n, e))
    (hf : ∀ n' j, j ∈ (V n').pend → own n' j.id ≠ .client i)
    (hw : ∀ id st k, e' = .wait id st k → ∀ j ∈ (V n).pend, j.id ≠ id) (w : World) {p : Prog (Except ApiErr ClientResp)}
    (ha : AbsE (V n) e' p) (N : Nat → BSys World) :
    Sim { m with world := w, nodes := N, calls := upd m.calls i (some (n, e')) } V
      { c with world := w, active := c.set i (some p) } g own := by
  refine { world := rfl, next := h.next, bg := h.bg, calls := ?_, bgs := h.bgs, pendc := ?_, pendb := h.pendb,
           inj := h.inj, waitc := ?_, waitb := h.waitb, ids := h.ids }
  · intro i' n' e'' he'
    by_cases hi : i' = i
    · subst hi
      simp only [upd, if_pos] at he'
      cases he'
      exact ⟨(h.calls _ _ _ he).1, p, if_pos rfl, ha⟩
    · simp only [upd, if_neg hi] at he'
      obtain ⟨h1, p', h2, h3⟩ := h.calls _ _ _ he'
      exact ⟨h1, p', (if_neg hi).trans h2, h3⟩
  · intro n' j hj i' ho
    have hi : i' ≠ i := by
      rintro rfl
      exact hf n' j hj ho
    obtain ⟨h1, st, k, h2, h3, h4⟩ := h.pendc n' j hj i' ho
    refine ⟨h1, st, k, h2, (if_neg hi).trans h3, fun n'' e'' he'' => ?_⟩
    simp only [upd, if_neg hi] at he''
    exact h4 _ _ he''
  · intro i' n' id st k j he' hj hid
    by_cases hi : i' = i
    · subst hi
      simp only [upd, if_pos] at he'
      cases he'
      exact absurd hid (hw _ _ _ rfl j hj)
    · simp only [upd, if_neg hi] at he'
      exact h.waitc _ _ _ _ _ _ he' hj hid

theorem Sim.setBg {m : MSys} {V : Nat → JView} {c : Conc} {g : Nat → Prog Unit} {own : Nat → Nat → Owner}
    (h : Sim m V c g own) {i n : Nat} {e e' : MEntry Unit} (he : m.bgs i = some (n, e))
    (hf : ∀ n' j, j ∈ (V n').pend → own n' j.id ≠ .bg i)
    (hw : ∀ id st k, e' = .wait id st k → ∀ j ∈ (V n).pend, j.id ≠ id) (w : World) {p : Prog Unit}
    (ha : AbsE (V n) e' p) (N : Nat → BSys World) :
    Sim { m with world := w, nodes := N, bgs := upd m.bgs i (some (n, e')) } V
      { c with world := w, bg := (List.range m.nextBg).reverse.map (upd g i p) } (upd g i p) own := by
  refine { world := rfl, next := h.next, bg := rfl, calls := h.calls, bgs := ?_, pendc := h.pendc, pendb := ?_,
           inj := h.inj, waitc := h.waitc, waitb := ?_, ids := h.ids }
  · intro i' n' e'' he'
    by_cases hi : i' = i
    · subst hi
      simp only [upd, if_pos] at he' ⊢
      cases he'
      exact ⟨(h.bgs _ _ _ he).1, ha⟩
    · simp only [upd, if_neg hi] at he' ⊢
      exact h.bgs _ _ _ he'
  · intro n' j hj i' ho
    have hi : i' ≠ i := by
      rintro rfl
      exact hf n' j hj ho
    obtain ⟨h1, st, k, h2, h3, h4⟩ := h.pendb n' j hj i' ho
    refine ⟨h1, st, k, h2, (if_neg hi).trans h3, fun n'' e'' he'' => ?_⟩
    simp only [upd, if_neg hi] at he''
    exact h4 _ _ he''
  · intro i' n' id st k j he' hj hid
    by_cases hi : i' = i
    · subst hi
      simp only [upd, if_pos] at he'
      cases he'
      exact absurd hid (hw _ _ _ rfl j hj)
    · simp only [upd, if_neg hi] at he'
      exact h.waitb _ _ _ _ _ _ he' hj hid

/-- A statement of a background goroutine of the unbatched system. -/
theorem Sim.stmtBg {m : MSys} {V : Nat → JView} {c : Conc} {g : Nat → Prog Unit} {own : Nat → Nat → Owner}
    (h : Sim m V c g own) {i : Nat} (hi : i < m.nextBg) {eff : DB → DB} {k : Outcome → DB → Prog Unit}
    (hg : g i = .stmt eff k) (o : Outcome) :
    CRun c [] { c with world := c.world.exec eff o,
                       bg := (List.range m.nextBg).reverse.map (upd g i (k o c.world.db)) } := by
  obtain ⟨pre, post, hm1, hm2⟩ := map_upd_split (range_rev_nodup m.nextBg) (i := i)
    (by rw [List.mem_reverse, List.mem_range]; exact hi) g (k o c.world.db)
  rw [hm2]
  refine .env ?_ (.done _)
  have := Step.exec c.world pre post eff k o
  rw [hg] at hm1
  rw [h.bg, hm1]
  exact this

/-- The new owner of a job. -/
def newOwner (own : Nat → Nat → Owner) (n id : Nat) (x : Owner) : Nat → Nat → Owner :=
  fun n' id' => if n' = n ∧ id' = id then x else own n' id'

theorem newOwner_of_ne {own : Nat → Nat → Owner} {n id n' id' : Nat} {x : Owner} (h : n' = n → id' ≠ id) :
    newOwner own n id x n' id' = own n' id' := by
  unfold newOwner
  split
  · rename_i hx
    exact absurd hx.2 (h hx.1)
  · rfl

theorem AbsE.pend {α : Type} {V : JView} {e : MEntry α} {p : Prog α} (h : AbsE V e p) (l : List (BJob World)) :
    AbsE ⟨V.execs, l⟩ e p := by
  cases e <;> exact h

/-- A client call submits a job. -/
theorem Sim.submitCall {m : MSys} {V : Nat → JView} {c : Conc} {g : Nat → Prog Unit} {own : Nat → Nat → Owner}
    (h : Sim m V c g own) {i n : Nat} {st : BStmt DB} {k : Except DbErr ExecResult → Prog (Except ApiErr ClientResp)}
    (he : m.calls i = some (n, .run (stmtForm st k))) (j : BJob World) (hst : j.stmt = liftStmt st)
    (hx : j.id ∉ (V n).execs.map (·.1)) (hp : ∀ x ∈ (V n).pend, x.id ≠ j.id)
    (hwc : ∀ i st k, m.calls i ≠ some (n, .wait j.id st k)) (hwb : ∀ i st k, m.bgs i ≠ some (n, .wait j.id st k))
    (N : Nat → BSys World) :
    Sim { m with nodes := N, calls := upd m.calls i (some (n, .wait j.id st k)) }
      (upd V n ⟨(V n).execs, (V n).pend ++ [j]⟩) c g (newOwner own n j.id (.client i)) := by
  have hf := h.free_call he nofun
  obtain ⟨hilt, p, hact, hab⟩ := h.calls i n _ he
  -- the pending jobs: old ones or the new one
  have hcase : ∀ n' x, x ∈ (upd V n ⟨(V n).execs, (V n).pend ++ [j]⟩ n').pend →
      (x ∈ (V n').pend ∧ newOwner own n j.id (.client i) n' x.id = own n' x.id) ∨ (n' = n ∧ x = j) := by
    intro n' x hx
    by_cases hn : n' = n
    · subst hn
      simp only [upd, if_pos, List.mem_append, List.mem_singleton] at hx
      rcases hx with hx | hx
      · exact Or.inl ⟨hx, newOwner_of_ne fun _ => hp x hx⟩
      · exact Or.inr ⟨rfl, hx⟩
    · simp only [upd, if_neg hn] at hx
      exact Or.inl ⟨hx, newOwner_of_ne fun h => absurd h hn⟩
  have hnew : newOwner own n j.id (.client i) n j.id = .client i := if_pos ⟨rfl, rfl⟩
  have habs : ∀ {α : Type} n' (e : MEntry α) p, AbsE (V n') e p → AbsE (upd V n ⟨(V n).execs, (V n).pend ++ [j]⟩ n') e p := by
    intro α n' e p ha
    unfold upd
    split
    · rename_i hn; subst hn; exact ha.pend _
    · exact ha
  refine { world := h.world, next := h.next, bg := h.bg, calls := ?_, bgs := ?_, pendc := ?_, pendb := ?_,
           inj := ?_, waitc := ?_, waitb := ?_, ids := ?_ }
  · intro i' n' e'' he'
    by_cases hi : i' = i
    · subst hi
      simp only [upd, if_pos] at he'
      cases he'
      refine ⟨hilt, p, hact, ?_⟩
      cases hab
      exact Or.inr ⟨by simpa [upd] using hx, rfl⟩
    · simp only [upd, if_neg hi] at he'
      obtain ⟨h1, p', h2, h3⟩ := h.calls _ _ _ he'
      exact ⟨h1, p', h2, habs _ _ _ h3⟩
  · intro i' n' e'' he'
    obtain ⟨h1, h2⟩ := h.bgs _ _ _ he'
    exact ⟨h1, habs _ _ _ h2⟩
  · intro n' x hx' i' ho
    rcases hcase n' x hx' with ⟨hx, heq⟩ | ⟨rfl, rfl⟩
    · rw [heq] at ho
      have hi : i' ≠ i := by
        rintro rfl
        exact hf n' x hx ho
      obtain ⟨h1, st', k', h2, h3, h4⟩ := h.pendc n' x hx i' ho
      refine ⟨h1, st', k', h2, h3, fun n'' e'' he'' => ?_⟩
      simp only [upd, if_neg hi] at he''
      exact h4 _ _ he''
    · rw [hnew] at ho
      cases ho
      refine ⟨hilt, st, k, hst, ?_, fun n'' e'' he'' => ?_⟩
      · cases hab
        exact hact
      · simp only [upd, if_pos] at he''
        cases he''
        exact ⟨rfl, rfl⟩
  · intro n' x hx' i' ho
    rcases hcase n' x hx' with ⟨hx, heq⟩ | ⟨rfl, rfl⟩
    · rw [heq] at ho
      exact h.pendb n' x hx i' ho
    · rw [hnew] at ho
      cases ho
  · intro n₁ x₁ n₂ x₂ h1 h2 ho
    rcases hcase _ _ h1 with ⟨g1, e1⟩ | ⟨rfl, rfl⟩
    · rcases hcase _ _ h2 with ⟨g2, e2⟩ | ⟨rfl, rfl⟩
      · rw [e1, e2] at ho
        exact h.inj _ _ _ _ g1 g2 ho
      · rw [e1, hnew] at ho
        exact absurd ho (hf _ _ g1)
    · rcases hcase _ _ h2 with ⟨h2, e2⟩ | ⟨rfl, rfl⟩
      · rw [e2, hnew] at ho
        exact absurd ho.symm (hf _ _ h2)
      · exact ⟨rfl, rfl⟩
  · intro i' n' id st' k' x he' hx' hid
    by_cases hi : i' = i
    · subst hi
      simp only [upd, if_pos] at he'
      cases he'
      exact hnew
    · simp only [upd, if_neg hi] at he'
      rcases hcase _ _ hx' with ⟨hx, e1⟩ | ⟨rfl, rfl⟩
      · rw [← hid, e1, hid]
        exact h.waitc _ _ _ _ _ _ he' hx hid
      · subst hid
        exact absurd he' (hwc _ _ _)
  · intro i' n' id st' k' x he' hx' hid
    rcases hcase _ _ hx' with ⟨hx, e1⟩ | ⟨rfl, rfl⟩
    · rw [← hid, e1, hid]
      exact h.waitb _ _ _ _ _ _ he' hx hid
    · subst hid
      exact absurd he' (hwb _ _ _)
  · intro n'
    by_cases hn : n' = n
    · subst hn
      simp only [upd, if_pos, List.map_append, List.map_cons, List.map_nil, ← List.append_assoc]
      rw [List.nodup_append]
      refine ⟨h.ids n', by simp, ?_⟩
      intro a ha b hb hab
      rw [List.mem_singleton] at hb
      subst hb hab
      rcases List.mem_append.1 ha with ha | ha
      · exact hx ha
      · obtain ⟨x, hx1, hx2⟩ := List.mem_map.1 ha
        exact hp x hx1 hx2
    · simp only [upd, if_neg hn]
      exact h.ids n'

/-- A background goroutine submits a job. -/
theorem Sim.submitBg {m : MSys} {V : Nat → JView} {c : Conc} {g : Nat → Prog Unit} {own : Nat → Nat → Owner}
    (h : Sim m V c g own) {i n : Nat} {st : BStmt DB} {k : Except DbErr ExecResult → Prog Unit}
    (he : m.bgs i = some (n, .run (stmtForm st k))) (j : BJob World) (hst : j.stmt = liftStmt st)
    (hx : j.id ∉ (V n).execs.map (·.1)) (hp : ∀ x ∈ (V n).pend, x.id ≠ j.id)
    (hwc : ∀ i st k, m.calls i ≠ some (n, .wait j.id st k)) (hwb : ∀ i st k, m.bgs i ≠ some (n, .wait j.id st k))
    (N : Nat → BSys World) :
    Sim { m with nodes := N, bgs := upd m.bgs i (some (n, .wait j.id st k)) }
      (upd V n ⟨(V n).execs, (V n).pend ++ [j]⟩) c g (newOwner own n j.id (.bg i)) := by
  have hf := h.free_bg he nofun
  obtain ⟨hilt, hab⟩ := h.bgs i n _ he
  -- the pending jobs: old ones or the new one
  have hcase : ∀ n' x, x ∈ (upd V n ⟨(V n).execs, (V n).pend ++ [j]⟩ n').pend →
      (x ∈ (V n').pend ∧ newOwner own n j.id (.bg i) n' x.id = own n' x.id) ∨ (n' = n ∧ x = j) := by
    intro n' x hx
    by_cases hn : n' = n
    · subst hn
      simp only [upd, if_pos, List.mem_append, List.mem_singleton] at hx
      rcases hx with hx | hx
      · exact Or.inl ⟨hx, newOwner_of_ne fun _ => hp x hx⟩
      · exact Or.inr ⟨rfl, hx⟩
    · simp only [upd, if_neg hn] at hx
      exact Or.inl ⟨hx, newOwner_of_ne fun h => absurd h hn⟩
  have hnew : newOwner own n j.id (.bg i) n j.id = .bg i := if_pos ⟨rfl, rfl⟩
  have habs : ∀ {α : Type} n' (e : MEntry α) p, AbsE (V n') e p → AbsE (upd V n ⟨(V n).execs, (V n).pend ++ [j]⟩ n') e p := by
    intro α n' e p ha
    unfold upd
    split
    · rename_i hn; subst hn; exact ha.pend _
    · exact ha
  refine { world := h.world, next := h.next, bg := h.bg, calls := ?_, bgs := ?_, pendc := ?_, pendb := ?_,
           inj := ?_, waitc := ?_, waitb := ?_, ids := ?_ }
  · intro i' n' e'' he'
    obtain ⟨h1, p', h2, h3⟩ := h.calls _ _ _ he'
    exact ⟨h1, p', h2, habs _ _ _ h3⟩
  · intro i' n' e'' he'
    by_cases hi : i' = i
    · subst hi
      simp only [upd, if_pos] at he'
      cases he'
      refine ⟨hilt, Or.inr ⟨by simpa [upd] using hx, hab⟩⟩
    · simp only [upd, if_neg hi] at he'
      obtain ⟨h1, h3⟩ := h.bgs _ _ _ he'
      exact ⟨h1, habs _ _ _ h3⟩
  · intro n' x hx' i' ho
    rcases hcase n' x hx' with ⟨hx, heq⟩ | ⟨rfl, rfl⟩
    · rw [heq] at ho
      exact h.pendc n' x hx i' ho
    · rw [hnew] at ho
      cases ho
  · intro n' x hx' i' ho
    rcases hcase n' x hx' with ⟨hx, heq⟩ | ⟨rfl, rfl⟩
    · rw [heq] at ho
      have hi : i' ≠ i := by
        rintro rfl
        exact hf n' x hx ho
      obtain ⟨h1, st', k', h2, h3, h4⟩ := h.pendb n' x hx i' ho
      refine ⟨h1, st', k', h2, h3, fun n'' e'' he'' => ?_⟩
      simp only [upd, if_neg hi] at he''
      exact h4 _ _ he''
    · rw [hnew] at ho
      cases ho
      refine ⟨hilt, st, k, hst, ?_, fun n'' e'' he'' => ?_⟩
      · exact hab
      · simp only [upd, if_pos] at he''
        cases he''
        exact ⟨rfl, rfl⟩
  · intro n₁ x₁ n₂ x₂ h1 h2 ho
    rcases hcase _ _ h1 with ⟨g1, e1⟩ | ⟨rfl, rfl⟩
    · rcases hcase _ _ h2 with ⟨g2, e2⟩ | ⟨rfl, rfl⟩
      · rw [e1, e2] at ho
        exact h.inj _ _ _ _ g1 g2 ho
      · rw [e1, hnew] at ho
        exact absurd ho (hf _ _ g1)
    · rcases hcase _ _ h2 with ⟨h2, e2⟩ | ⟨rfl, rfl⟩
      · rw [e2, hnew] at ho
        exact absurd ho.symm (hf _ _ h2)
      · exact ⟨rfl, rfl⟩
  · intro i' n' id st' k' x he' hx' hid
    rcases hcase _ _ hx' with ⟨hx, e1⟩ | ⟨rfl, rfl⟩
    · rw [← hid, e1, hid]
      exact h.waitc _ _ _ _ _ _ he' hx hid
    · subst hid
      exact absurd he' (hwc _ _ _)
  · intro i' n' id st' k' x he' hx' hid
    by_cases hi : i' = i
    · subst hi
      simp only [upd, if_pos] at he'
      cases he'
      exact hnew
    · simp only [upd, if_neg hi] at he'
      rcases hcase _ _ hx' with ⟨hx, e1⟩ | ⟨rfl, rfl⟩
      · rw [← hid, e1, hid]
        exact h.waitb _ _ _ _ _ _ he' hx hid
      · subst hid
        exact absurd he' (hwb _ _ _)
  · intro n'
    by_cases hn : n' = n
    · subst hn
      simp only [upd, if_pos, List.map_append, List.map_cons, List.map_nil, ← List.append_assoc]
      rw [List.nodup_append]
      refine ⟨h.ids n', by simp, ?_⟩
      intro a ha b hb hab
      rw [List.mem_singleton] at hb
      subst hb hab
      rcases List.mem_append.1 ha with ha | ha
      · exact hx ha
      · obtain ⟨x, hx1, hx2⟩ := List.mem_map.1 ha
        exact hp x hx1 hx2
    · simp only [upd, if_neg hn]
      exact h.ids n'

/-! ## The simulation -/

/-- Invariant of the batched system itself. -/
structure MOk (m : MSys) : Prop where
  reach : ∀ n, BReachable (m.nodes n)
  waitc : ∀ i n id st k, m.calls i = some (n, .wait id st k) → id < (m.nodes n).nextJob
  waitb : ∀ i n id st k, m.bgs i = some (n, .wait id st k) → id < (m.nodes n).nextJob

def MSys.view (m : MSys) : Nat → JView := fun n => (m.nodes n).view

theorem MSys.node_reach {m : MSys} (h : MOk m) (n : Nat) : BReachable (m.node n) :=
  .step (h.reach n) (.env _ _)

theorem view_upd (m : MSys) (n : Nat) (b : BSys World) (N : Nat → BSys World) (hN : N = upd m.nodes n b) :
    (fun n' => (N n').view) = upd m.view n b.view := by
  subst hN
  funext n'
  unfold upd MSys.view
  split <;> rfl

theorem view_same {m : MSys} {n : Nat} {b : BSys World} (h : b.view = (m.nodes n).view) :
    upd m.view n b.view = m.view := by
  rw [h]
  exact upd_self m.view n

theorem view_ids {b : BSys World} (h : BReachable b) :
    (b.view.execs.map (·.1) ++ b.view.pend.map (·.id)).Pairwise (· < ·) ∧
    ∀ x ∈ b.view.execs.map (·.1) ++ b.view.pend.map (·.id), x < b.nextJob := by
  have hi := h.inv
  have he : b.view.execs.map (·.1) ++ b.view.pend.map (·.id) = b.jobs.map (·.id) := by
    simp only [BSys.view, hi.executions_ids, BSys.jobs, List.map_append, List.append_assoc]
  rw [he]
  refine ⟨hi.sorted, fun x hx => ?_⟩
  obtain ⟨j, hj, rfl⟩ := List.mem_map.1 hx
  exact hi.bound j hj

theorem take_view {b : BSys World} (h : b.inflight = []) : b.take.view = b.view := by
  unfold BSys.take
  split
  · simp [BSys.view, BSys.executions, BSys.inflight]
    unfold BSys.inflight at h
    simp [h]
  · rename_i hq
    have : b.queue = [] := by simpa using hq
    simp only [BSys.view, BSys.executions, BSys.inflight, this, List.append_nil]
    unfold BSys.inflight at h
    simp [h]

theorem submit_view (b : BSys World) (h : BReachable b) (st : BStmt World) :
    (b.submit st).nextJob = b.nextJob + 1 ∧
    ((b.submit st).view = b.view ∨
     ∃ r, (b.submit st).view = ⟨b.view.execs, b.view.pend ++ [⟨b.nextJob, st, r⟩]⟩) := by
  unfold BSys.submit
  split
  · exact ⟨rfl, Or.inl rfl⟩
  · simp only
    split
    · rename_i hs
      obtain ⟨hw, hq⟩ := h.inv.idle hs
      refine ⟨rfl, Or.inr ⟨if b.status = .running then b.runId + 1 else b.runId, ?_⟩⟩
      simp only [BSys.view, BSys.executions, BSys.inflight, hw, hq]
      rfl
    · refine ⟨rfl, Or.inr ⟨if b.status = .running then b.runId + 1 else b.runId, ?_⟩⟩
      simp only [BSys.view, BSys.executions, BSys.inflight, List.append_assoc]

theorem MOk.setNode {m : MSys} (h : MOk m) {n : Nat} {b : BSys World} (hb : BReachable b)
    (hle : (m.nodes n).nextJob ≤ b.nextJob) (w : World) (u : Nat → Bool) :
    MOk { m with world := w, nodes := upd m.nodes n b, up := u } := by
  have hn : ∀ n', (m.nodes n').nextJob ≤ (upd m.nodes n b n').nextJob := by
    intro n'
    unfold upd
    split
    · rename_i he; subst he; exact hle
    · exact Nat.le_refl _
  refine ⟨fun n' => ?_, fun i n' id st k he => ?_, fun i n' id st k he => ?_⟩
  · show BReachable (upd m.nodes n b n')
    unfold upd
    split
    · exact hb
    · exact h.reach n'
  · exact Nat.lt_of_lt_of_le (h.waitc i n' id st k he) (hn n')
  · exact Nat.lt_of_lt_of_le (h.waitb i n' id st k he) (hn n')

theorem MOk.setCall {m : MSys} (h : MOk m) {i n : Nat} {e : MEntry (Except ApiErr ClientResp)}
    (he : ∀ id st k, e = .wait id st k → id < (m.nodes n).nextJob) (x : Nat) :
    MOk { m with calls := upd m.calls i (some (n, e)), next := x } := by
  refine ⟨h.reach, fun i' n' id st k he' => ?_, h.waitb⟩
  by_cases hi : i' = i
  · subst hi
    simp only [upd, if_pos] at he'
    cases he'
    exact he _ _ _ rfl
  · simp only [upd, if_neg hi] at he'
    exact h.waitc _ _ _ _ _ he'

theorem MOk.setBg {m : MSys} (h : MOk m) {i n : Nat} {e : MEntry Unit}
    (he : ∀ id st k, e = .wait id st k → id < (m.nodes n).nextJob) (x : Nat) :
    MOk { m with bgs := upd m.bgs i (some (n, e)), nextBg := x } := by
  refine ⟨h.reach, h.waitc, fun i' n' id st k he' => ?_⟩
  by_cases hi : i' = i
  · subst hi
    simp only [upd, if_pos] at he'
    cases he'
    exact he _ _ _ rfl
  · simp only [upd, if_neg hi] at he'
    exact h.waitb _ _ _ _ _ he'

/-- Executing a queue of the batcher. -/
theorem exec_view {b : BSys World} {q : List (BJob World)} (hw : b.worker = .executing q) (begin : Option DbErr)
    (commit : CommitOut) (fates : List JobFate) :
    b.view.pend = q ++ b.queue ∧
    (b.exec q begin commit fates).view =
      ⟨b.view.execs ++ (q.map (·.id)).zip (execQueue begin commit ((q.map (·.stmt)).zip fates) b.store).2, b.queue⟩ := by
  refine ⟨by simp [BSys.view, BSys.inflight, hw], ?_⟩
  simp [BSys.view, BSys.inflight, BSys.exec, BSys.executions]

theorem Sim.nodes {m : MSys} {V : Nat → JView} {c : Conc} {g : Nat → Prog Unit} {own : Nat → Nat → Owner}
    (h : Sim m V c g own) (N : Nat → BSys World) (u : Nat → Bool) : Sim { m with nodes := N, up := u } V c g own :=
  { world := h.world, next := h.next, bg := h.bg, calls := h.calls, bgs := h.bgs, pendc := h.pendc, pendb := h.pendb,
    inj := h.inj, waitc := h.waitc, waitb := h.waitb, ids := h.ids }

/-- A whole queue, seen from outside. -/
theorem Sim.runQueue {m : MSys} (ok : MOk m) {c : Conc} {g : Nat → Prog Unit} {own : Nat → Nat → Owner}
    (h : Sim m m.view c g own) {n : Nat} {q : List (BJob World)} (hw : (m.nodes n).worker = .executing q)
    (begin : Option DbErr) (commit : CommitOut) (fates : List JobFate) (hf : fates.length = q.length)
    {P : Outcome → Prop} (hP : ∀ o, o.Whole → P o) :
    let b := (m.node n).exec q begin commit fates
    ∃ c' g' l, CRun c l c' ∧ Silent P l ∧ MOk { m with world := b.store, nodes := upd m.nodes n b } ∧
      Sim { m with world := b.store, nodes := upd m.nodes n b }
        (MSys.view { m with world := b.store, nodes := upd m.nodes n b }) c' g' own := by
  intro b
  obtain ⟨hv1, hv2⟩ := exec_view (b := m.node n) (q := q) hw begin commit fates
  have hsts : ∃ sts : List (BStmt DB), q.map (·.stmt) = sts.map liftStmt := by
    have : ∀ j ∈ q, ∃ st, j.stmt = liftStmt st := by
      intro j hj
      have hj' : j ∈ (m.view n).pend := by
        show j ∈ (m.node n).view.pend
        rw [hv1]
        exact List.mem_append_left _ hj
      cases ho : own n j.id with
      | client i => obtain ⟨_, st, _, hs, _⟩ := h.pendc n j hj' i ho; exact ⟨st, hs⟩
      | bg i => obtain ⟨_, st, _, hs, _⟩ := h.pendb n j hj' i ho; exact ⟨st, hs⟩
    clear hv1 hv2 hf hw
    induction q with
    | nil => exact ⟨[], rfl⟩
    | cons j q ih =>
      obtain ⟨st, hs⟩ := this j (by simp)
      obtain ⟨sts, hss⟩ := ih (fun x hx => this x (by simp [hx]))
      exact ⟨st :: sts, by simp [hs, hss]⟩
  obtain ⟨sts, hsts⟩ := hsts
  have hlen : fates.length = sts.length := by
    have := congrArg List.length hsts
    simpa [hf] using this
  obtain ⟨os, ho1, hwh, ho2⟩ := execQueue_world begin commit sts fates hlen m.world
  obtain ⟨c', g', l, r, hv, hs⟩ := Sim.execMany q sts hsts os ho1 (fun o ho => hP o (hwh o ho)) (m.nodes n).queue h hv1
  refine ⟨c', g', l, r, hv, ok.setNode (.step (MSys.node_reach ok n) (.exec _ q begin commit fates hf hw)) (Nat.le_refl _) _ _, ?_⟩
  have hview : MSys.view { m with world := b.store, nodes := upd m.nodes n b } = upd m.view n b.view :=
    view_upd m n b _ rfl
  rw [hview]
  have hb : b.view = _ := hv2
  rw [hb]
  rw [hsts]
  have h2 := hs.nodes (upd m.nodes n b) m.up
  rw [ho2] at h2
  have hstore : b.store = (execQueue begin commit ((sts.map liftStmt).zip fates) m.world).1 := by
    show (execQueue begin commit ((q.map (·.stmt)).zip fates) m.world).1 = _
    rw [hsts]
  rw [hstore]
  exact h2

/-- Steps of a batcher that execute nothing. -/
theorem Sim.quiet {m : MSys} (ok : MOk m) {c : Conc} {g : Nat → Prog Unit} {own : Nat → Nat → Owner}
    (h : Sim m m.view c g own) {n : Nat} {b : BSys World} {a : BActor} (s : BStep a (m.node n) b)
    (hv : b.view = (m.nodes n).view) (hst : b.store = m.world) (hle : (m.nodes n).nextJob ≤ b.nextJob) :
    MOk { m with world := b.store, nodes := upd m.nodes n b } ∧
    Sim { m with world := b.store, nodes := upd m.nodes n b }
      (MSys.view { m with world := b.store, nodes := upd m.nodes n b }) c g own := by
  refine ⟨ok.setNode (.step (MSys.node_reach ok n) s) hle _ _, ?_⟩
  have hview : MSys.view { m with world := b.store, nodes := upd m.nodes n b } = upd m.view n b.view :=
    view_upd m n b _ rfl
  rw [hview, view_same hv, hst]
  exact h.nodes _ _

theorem returned_done {b : BSys World} (h : BReachable b) {id : Nat} {r : Except DbErr ExecResult}
    (hr : (id, BAnswer.done r) ∈ b.returned) : (id, r) ∈ b.view.execs := by
  have := (C42_own_result h hr).1
  have hm : (id, r) ∈ b.executions.filter (fun p => p.1 == id) := by rw [this]; simp
  exact (List.mem_filter.1 hm).1

theorem returned_closed {b : BSys World} (h : BReachable b) {id : Nat} (hr : (id, BAnswer.closed) ∈ b.returned) :
    id ∉ b.view.execs.map (·.1) ∧ ∀ j ∈ b.view.pend, j.id ≠ id := by
  refine ⟨(C43_rejected_never_executed h hr).1, fun j hj => ?_⟩
  rcases h.inv.ret _ hr with ⟨_, _, h2⟩ | ⟨p, hp, y, hy, hid, hv⟩
  · refine h2 j ?_
    unfold BSys.jobs
    rw [List.append_assoc]
    exact List.mem_append_right _ hj
  · cases hv

theorem nodup_fst_unique {β : Type} {l : List (Nat × β)} (h : (l.map (·.1)).Nodup) {i : Nat} {a b : β} (ha : (i, a) ∈ l)
    (hb : (i, b) ∈ l) : a = b := by
  induction l with
  | nil => cases ha
  | cons x l ih =>
    simp only [List.map_cons, List.nodup_cons] at h
    rcases List.mem_cons.1 ha with ha | ha
    · rcases List.mem_cons.1 hb with hb | hb
      · rw [← ha] at hb; cases hb; rfl
      · rw [← ha] at h; exact absurd (List.mem_map.2 ⟨(i, b), hb, rfl⟩) h.1
    · rcases List.mem_cons.1 hb with hb | hb
      · rw [← hb] at h; exact absurd (List.mem_map.2 ⟨(i, a), ha, rfl⟩) h.1
      · exact ih h.2 ha hb

/-- What a caller gets back from `ExecContext` is what the unbatched system gives it, now or earlier. -/
theorem AbsE.resume {α : Type} {b : BSys World} (h : BReachable b) {id : Nat} {st : BStmt DB}
    {k : Except DbErr ExecResult → Prog α} {a : BAnswer} (hr : (id, a) ∈ b.returned) {p : Prog α}
    (hp : AbsE b.view (.wait id st k) p) :
    (p = k a.result ∨ (p = stmtForm st k ∧ a.result = .error .other)) ∧ ∀ j ∈ b.view.pend, j.id ≠ id := by
  have hn := view_ids h
  have hnd : (b.view.execs.map (·.1) ++ b.view.pend.map (·.id)).Nodup := hn.1.imp (fun h => Nat.ne_of_lt h)
  cases a with
  | done r =>
    have hm := returned_done h hr
    refine ⟨Or.inl ?_, fun j hj he => ?_⟩
    · rcases hp with ⟨r', hr', rfl⟩ | ⟨hx, _⟩
      · rw [nodup_fst_unique (List.nodup_append.1 hnd).1 hr' hm]; rfl
      · exact absurd (List.mem_map_of_mem (f := (·.1)) hm) hx
    · exact (List.nodup_append.1 hnd).2.2 _ (List.mem_map_of_mem (f := (·.1)) hm) _ (List.mem_map_of_mem hj) he.symm
  | closed =>
    obtain ⟨h1, h2⟩ := returned_closed h hr
    refine ⟨Or.inr ⟨?_, rfl⟩, h2⟩
    rcases hp with ⟨r', hr', rfl⟩ | ⟨_, hx⟩
    · exact absurd (List.mem_map_of_mem (f := (·.1)) hr') h1
    · exact hx

theorem Conc.set_self (c : Conc) {i : Nat} {p : Option (Prog (Except ApiErr ClientResp))} (h : c.active i = p) :
    c.set i p = c.active := by
  funext j
  unfold Conc.set
  split
  · rename_i he; rw [he, h]
  · rfl

theorem isExec_form {α : Type} {st : BStmt DB} {k : Except DbErr ExecResult → Prog α} {eff : DB → DB}
    {k₀ : Outcome → DB → Prog α} (h : IsExec st k eff k₀) : Prog.stmt eff k₀ = stmtForm st k := by
  obtain ⟨rfl, h2⟩ := h
  unfold stmtForm
  congr 1
  funext o db
  exact h2 o db

theorem exec_fail (w : World) (eff : DB → DB) (e : DbErr) : w.exec eff (.fail e) = w := rfl

theorem Sim.stepClient {P : Outcome → Prop} (hP : ∀ o, o.Whole → P o) {m : MSys} (ok : MOk m) {c : Conc} {g : Nat → Prog Unit} {own : Nat → Nat → Owner}
    (h : Sim m m.view c g own) {i n : Nat} {e e' : MEntry (Except ApiErr ClientResp)} {w : World} {b : BSys World}
    (he : m.calls i = some (n, e)) (s : EStep P m.world (m.node n) e w b e') :
    let m' : MSys := { m with world := w, nodes := upd m.nodes n b, calls := upd m.calls i (some (n, e')) }
    ∃ c' g' own' l, CRun c l c' ∧ Silent P l ∧ MOk m' ∧ Sim m' m'.view c' g' own' := by
  intro m'
  have hnr := MSys.node_reach ok n
  obtain ⟨hilt, p, hact, hab⟩ := h.calls i n e he
  have hvn : (m.node n).view = (m.nodes n).view := rfl
  cases s with
  | direct eff k o ho =>
    cases hab
    have hview : m'.view = m.view := by
      show MSys.view _ = _
      rw [show m'.view = upd m.view n (m.node n).view from view_upd m n _ _ rfl]
      exact view_same rfl
    refine ⟨_, g, own, _, CRun.stmt i o eff k hact (.done _), .stmt ho, ?_, ?_⟩
    · exact (ok.setNode hnr (Nat.le_refl _) _ _).setCall (e := .run _) (fun _ _ _ h => by cases h) m.next
    · rw [hview]
      have := h.setCall (e' := .run (k o m.world.db)) he (h.free_call he nofun) nofun (m.world.exec eff o) rfl (upd m.nodes n (m.node n))
      rw [h.world]
      exact this
  | submit eff k₀ st k hk =>
    rw [isExec_form hk] at he hab
    cases hab
    obtain ⟨hnext, hv⟩ := submit_view (m.node n) hnr (liftStmt st)
    have hids := view_ids hnr
    have hfresh : ∀ x ∈ (m.node n).view.execs.map (·.1) ++ (m.node n).view.pend.map (·.id), x ≠ (m.node n).nextJob :=
      fun x hx => Nat.ne_of_lt (hids.2 x hx)
    have hok : MOk m' :=
      ((ok.setNode (.step hnr (.submit _ (liftStmt st))) (by rw [hnext]; exact Nat.le_succ _) m.world m.up).setCall
        (i := i) (n := n) (e := .wait (m.node n).nextJob st k)
        (fun id st' k' h => by
          cases h
          show _ < (upd m.nodes n ((m.node n).submit (liftStmt st)) n).nextJob
          rw [upd, if_pos rfl, hnext]
          exact Nat.lt_succ_self _) m.next)
    have hvw : m'.view = upd m.view n ((m.node n).submit (liftStmt st)).view := view_upd m n _ _ rfl
    rcases hv with hv | ⟨r, hv⟩
    · refine ⟨c, g, own, [], .done c, .nil, hok, ?_⟩
      rw [hvw, view_same hv]
      have := h.setCall (e' := .wait (m.node n).nextJob st k) (p := stmtForm st k) he (h.free_call he nofun)
        (fun id st' k' hx j hj => by cases hx; exact hfresh _ (List.mem_append_right _ (List.mem_map_of_mem hj)))
        m.world (Or.inr ⟨fun hx => hfresh _ (List.mem_append_left _ hx) rfl, rfl⟩) m'.nodes
      rw [c.set_self hact] at this
      have hc : c = { c with world := m.world } := by rw [← h.world]
      rw [hc]
      exact this
    · refine ⟨c, g, newOwner own n (m.node n).nextJob (.client i), [], .done c, .nil, hok, ?_⟩
      rw [hvw, hv]
      exact h.submitCall he ⟨(m.node n).nextJob, liftStmt st, r⟩ rfl (fun hx => hfresh _ (List.mem_append_left _ hx) rfl)
        (fun x hx => hfresh _ (List.mem_append_right _ (List.mem_map_of_mem hx)))
        (fun i' st' k' hx => Nat.lt_irrefl _ (ok.waitc _ _ _ _ _ hx))
        (fun i' st' k' hx => Nat.lt_irrefl _ (ok.waitb _ _ _ _ _ hx)) m'.nodes
  | resume id st k a hr =>
    have hview : m'.view = m.view := by
      show MSys.view _ = _
      rw [show m'.view = upd m.view n (m.node n).view from view_upd m n _ _ rfl]
      exact view_same rfl
    have hok : MOk m' := (ok.setNode hnr (Nat.le_refl _) _ _).setCall (e := .run _) (fun _ _ _ h => by cases h) m.next
    obtain ⟨hcase, hno⟩ := AbsE.resume hnr hr hab
    have hfree := h.free_call he (fun id' st' k' hx j hj => by cases hx; exact hno j hj)
    have hs := h.setCall (e' := .run (k a.result)) he hfree nofun m.world rfl m'.nodes
    rcases hcase with hg | ⟨hg, ha⟩
    · refine ⟨c, g, own, [], .done c, .nil, hok, ?_⟩
      rw [hview]
      rw [← hg, c.set_self hact] at hs
      have hc : c = { c with world := m.world } := by rw [← h.world]
      rw [hc]
      rw [hg] at hs
      exact hs
    · rw [hg] at hact
      refine ⟨_, g, own, _, CRun.stmt i (.fail .other) _ _ hact (.done _), .stmt (hP _ nofun), hok, ?_⟩
      have hk : k (stmtAnswer st (.fail .other) m.world.db) = k a.result := by rw [ha]; rfl
      rw [hview, exec_fail, h.world, hk]
      exact hs

theorem Sim.stepBg {P : Outcome → Prop} {m : MSys} (ok : MOk m) {c : Conc} {g : Nat → Prog Unit} {own : Nat → Nat → Owner}
    (h : Sim m m.view c g own) {i n : Nat} {e e' : MEntry Unit} {w : World} {b : BSys World}
    (he : m.bgs i = some (n, e)) (s : EStep P m.world (m.node n) e w b e') :
    let m' : MSys := { m with world := w, nodes := upd m.nodes n b, bgs := upd m.bgs i (some (n, e')) }
    ∃ c' g' own' l, CRun c l c' ∧ Silent P l ∧ MOk m' ∧ Sim m' m'.view c' g' own' := by
  intro m'
  have hnr := MSys.node_reach ok n
  obtain ⟨hilt, hab⟩ := h.bgs i n e he
  have hsame : { c with world := m.world, bg := (List.range m.nextBg).reverse.map (upd g i (g i)) } = c := by
    rw [upd_self, ← h.bg, ← h.world]
  cases s with
  | direct eff k o ho =>
    have hview : m'.view = m.view := by
      show MSys.view _ = _
      rw [show m'.view = upd m.view n (m.node n).view from view_upd m n _ _ rfl]
      exact view_same rfl
    refine ⟨_, upd g i (k o c.world.db), own, _, h.stmtBg hilt hab o, .nil, ?_, ?_⟩
    · exact (ok.setNode hnr (Nat.le_refl _) _ _).setBg (e := .run _) (fun _ _ _ h => by cases h) m.nextBg
    · rw [hview]
      have := h.setBg (e' := .run (k o m.world.db)) he (h.free_bg he nofun) nofun (m.world.exec eff o) rfl (upd m.nodes n (m.node n))
      rw [h.world]
      exact this
  | submit eff k₀ st k hk =>
    rw [isExec_form hk] at he hab
    obtain ⟨hnext, hv⟩ := submit_view (m.node n) hnr (liftStmt st)
    have hids := view_ids hnr
    have hfresh : ∀ x ∈ (m.node n).view.execs.map (·.1) ++ (m.node n).view.pend.map (·.id), x ≠ (m.node n).nextJob :=
      fun x hx => Nat.ne_of_lt (hids.2 x hx)
    have hok : MOk m' :=
      ((ok.setNode (.step hnr (.submit _ (liftStmt st))) (by rw [hnext]; exact Nat.le_succ _) m.world m.up).setBg
        (i := i) (n := n) (e := .wait (m.node n).nextJob st k)
        (fun id st' k' h => by
          cases h
          show _ < (upd m.nodes n ((m.node n).submit (liftStmt st)) n).nextJob
          rw [upd, if_pos rfl, hnext]
          exact Nat.lt_succ_self _) m.nextBg)
    have hvw : m'.view = upd m.view n ((m.node n).submit (liftStmt st)).view := view_upd m n _ _ rfl
    rcases hv with hv | ⟨r, hv⟩
    · refine ⟨c, g, own, [], .done c, .nil, hok, ?_⟩
      rw [hvw, view_same hv]
      have := h.setBg (e' := .wait (m.node n).nextJob st k) (p := g i) he (h.free_bg he nofun)
        (fun id st' k' hx j hj => by cases hx; exact hfresh _ (List.mem_append_right _ (List.mem_map_of_mem hj)))
        m.world (Or.inr ⟨fun hx => hfresh _ (List.mem_append_left _ hx) rfl, hab⟩) m'.nodes
      rw [hsame, upd_self] at this
      exact this
    · refine ⟨c, g, newOwner own n (m.node n).nextJob (.bg i), [], .done c, .nil, hok, ?_⟩
      rw [hvw, hv]
      exact h.submitBg he ⟨(m.node n).nextJob, liftStmt st, r⟩ rfl (fun hx => hfresh _ (List.mem_append_left _ hx) rfl)
        (fun x hx => hfresh _ (List.mem_append_right _ (List.mem_map_of_mem hx)))
        (fun i' st' k' hx => Nat.lt_irrefl _ (ok.waitc _ _ _ _ _ hx))
        (fun i' st' k' hx => Nat.lt_irrefl _ (ok.waitb _ _ _ _ _ hx)) m'.nodes
  | resume id st k a hr =>
    have hview : m'.view = m.view := by
      show MSys.view _ = _
      rw [show m'.view = upd m.view n (m.node n).view from view_upd m n _ _ rfl]
      exact view_same rfl
    have hok : MOk m' := (ok.setNode hnr (Nat.le_refl _) _ _).setBg (e := .run _) (fun _ _ _ h => by cases h) m.nextBg
    obtain ⟨hcase, hno⟩ := AbsE.resume hnr hr hab
    have hfree := h.free_bg he (fun id' st' k' hx j hj => by cases hx; exact hno j hj)
    have hs := h.setBg (e' := .run (k a.result)) he hfree nofun m.world rfl m'.nodes
    rcases hcase with hg | ⟨hg, ha⟩
    · refine ⟨c, g, own, [], .done c, .nil, hok, ?_⟩
      rw [hview]
      rw [← hg, hsame, upd_self, hg] at hs
      exact hs
    · refine ⟨_, upd g i (k a.result), own, _, h.stmtBg hilt hg (.fail .other), .nil, hok, ?_⟩
      have hk : k (stmtAnswer st (.fail .other) m.world.db) = k a.result := by rw [ha]; rfl
      rw [hview, exec_fail, h.world, hk]
      exact hs

theorem Sim.newCall {m : MSys} {V : Nat → JView} {c : Conc} {g : Nat → Prog Unit} {own : Nat → Nat → Owner}
    (h : Sim m V c g own) (n : Nat) (p : Prog (Except ApiErr ClientResp)) :
    Sim { m with calls := upd m.calls m.next (some (n, .run p)), next := m.next + 1 } V
      { c with active := c.set c.next (some p), next := c.next + 1 } g own := by
  have hne : ∀ {i}, i < m.next → i ≠ c.next := fun hi => by rw [h.next]; exact Nat.ne_of_lt hi
  refine { world := h.world, next := by rw [h.next], bg := h.bg, calls := ?_, bgs := h.bgs, pendc := ?_,
           pendb := h.pendb, inj := h.inj, waitc := ?_, waitb := h.waitb, ids := h.ids }
  · intro i n' e he
    by_cases hi : i = m.next
    · subst hi
      simp only [upd, if_pos] at he
      cases he
      exact ⟨Nat.lt_succ_self _, p, if_pos h.next.symm, rfl⟩
    · simp only [upd, if_neg hi] at he
      obtain ⟨h1, p', h2, h3⟩ := h.calls _ _ _ he
      exact ⟨Nat.lt_succ_of_lt h1, p', (if_neg (hne h1)).trans h2, h3⟩
  · intro n' j hj i ho
    obtain ⟨h1, st, k, h2, h3, h4⟩ := h.pendc n' j hj i ho
    refine ⟨Nat.lt_succ_of_lt h1, st, k, h2, (if_neg (hne h1)).trans h3, fun n'' e he => ?_⟩
    simp only [upd, if_neg (Nat.ne_of_lt h1)] at he
    exact h4 _ _ he
  · intro i n' id st k j he hj hid
    by_cases hi : i = m.next
    · subst hi
      simp only [upd, if_pos] at he
      cases he
    · simp only [upd, if_neg hi] at he
      exact h.waitc _ _ _ _ _ _ he hj hid

theorem Sim.newBg {m : MSys} {V : Nat → JView} {c : Conc} {g : Nat → Prog Unit} {own : Nat → Nat → Owner}
    (h : Sim m V c g own) (n : Nat) (p : Prog Unit) :
    Sim { m with bgs := upd m.bgs m.nextBg (some (n, .run p)), nextBg := m.nextBg + 1 } V
      { c with bg := p :: c.bg } (upd g m.nextBg p) own := by
  refine { world := h.world, next := h.next, bg := ?_, calls := h.calls, bgs := ?_, pendc := h.pendc,
           pendb := ?_, inj := h.inj, waitc := h.waitc, waitb := ?_, ids := h.ids }
  · show p :: c.bg = (List.range (m.nextBg + 1)).reverse.map (upd g m.nextBg p)
    rw [List.range_succ, List.reverse_append, List.reverse_singleton, List.singleton_append, List.map_cons, h.bg]
    congr 1
    · exact (if_pos rfl).symm
    · apply List.map_congr_left
      intro i hi
      rw [List.mem_reverse, List.mem_range] at hi
      exact (if_neg (Nat.ne_of_lt hi)).symm
  · intro i n' e he
    by_cases hi : i = m.nextBg
    · subst hi
      simp only [upd, if_pos] at he
      cases he
      exact ⟨Nat.lt_succ_self _, if_pos rfl⟩
    · simp only [upd, if_neg hi] at he
      obtain ⟨h1, h3⟩ := h.bgs _ _ _ he
      refine ⟨Nat.lt_succ_of_lt h1, ?_⟩
      rw [show upd g m.nextBg p i = g i from if_neg hi]
      exact h3
  · intro n' j hj i ho
    obtain ⟨h1, st, k, h2, h3, h4⟩ := h.pendb n' j hj i ho
    refine ⟨Nat.lt_succ_of_lt h1, st, k, h2, (if_neg (Nat.ne_of_lt h1)).trans h3, fun n'' e he => ?_⟩
    simp only [upd, if_neg (Nat.ne_of_lt h1)] at he
    exact h4 _ _ he
  · intro i n' id st k j he hj hid
    by_cases hi : i = m.nextBg
    · subst hi
      simp only [upd, if_pos] at he
      cases he
    · simp only [upd, if_neg hi] at he
      exact h.waitb _ _ _ _ _ _ he hj hid

/-- Goroutines vanish. -/
theorem Sim.vanish {m : MSys} {V : Nat → JView} {c : Conc} {g : Nat → Prog Unit} {own : Nat → Nat → Owner}
    (h : Sim m V c g own) (calls : Nat → Option (Nat × MEntry (Except ApiErr ClientResp)))
    (bgs : Nat → Option (Nat × MEntry Unit)) (hc : ∀ i x, calls i = some x → m.calls i = some x)
    (hb : ∀ i x, bgs i = some x → m.bgs i = some x) (u : Nat → Bool) :
    Sim { m with calls := calls, bgs := bgs, up := u } V c g own := by
  refine { world := h.world, next := h.next, bg := h.bg, calls := fun i n e he => h.calls i n e (hc _ _ he),
           bgs := fun i n e he => h.bgs i n e (hb _ _ he), pendc := ?_, pendb := ?_, inj := h.inj,
           waitc := fun i n id st k j he => h.waitc i n id st k j (hc _ _ he),
           waitb := fun i n id st k j he => h.waitb i n id st k j (hb _ _ he), ids := h.ids }
  · intro n j hj i ho
    obtain ⟨h1, st, k, h2, h3, h4⟩ := h.pendc n j hj i ho
    exact ⟨h1, st, k, h2, h3, fun n' e he => h4 _ _ (hc _ _ he)⟩
  · intro n j hj i ho
    obtain ⟨h1, st, k, h2, h3, h4⟩ := h.pendb n j hj i ho
    exact ⟨h1, st, k, h2, h3, fun n' e he => h4 _ _ (hb _ _ he)⟩

theorem MOk.vanish {m : MSys} (h : MOk m) (calls : Nat → Option (Nat × MEntry (Except ApiErr ClientResp)))
    (bgs : Nat → Option (Nat × MEntry Unit)) (hc : ∀ i x, calls i = some x → m.calls i = some x)
    (hb : ∀ i x, bgs i = some x → m.bgs i = some x) (u : Nat → Bool) :
    MOk { m with calls := calls, bgs := bgs, up := u } :=
  ⟨h.reach, fun i n id st k he => h.waitc i n id st k (hc _ _ he), fun i n id st k he => h.waitb i n id st k (hb _ _ he)⟩

/-- Every execution of the batched system is one of the unbatched system, with the same calls and answers. -/
theorem MRun.simulate {P : Outcome → Prop} (hP : ∀ o, o.Whole → P o) {m m' : MSys} {H : List CEv} (r : MRun P m H m') :
    ∀ {c : Conc} {g : Nat → Prog Unit} {own : Nat → Nat → Owner}, MOk m → Sim m m.view c g own →
    ∃ l c' g' own', CRun c l c' ∧ (l.filter CEv.visible = H ∧ ∀ i ob, CEv.stmt i ob ∈ l → P ob.out) ∧ MOk m' ∧ Sim m' m'.view c' g' own' := by
  -- prefix a silent piece
  have glue : ∀ {c c₁ : Conc} {l₁ H : List CEv} {m' : MSys}, CRun c l₁ c₁ → Silent P l₁ →
      (∃ l c' g' own', CRun c₁ l c' ∧ (l.filter CEv.visible = H ∧ ∀ i ob, CEv.stmt i ob ∈ l → P ob.out) ∧ MOk m' ∧ Sim m' m'.view c' g' own') →
      ∃ l c' g' own', CRun c l c' ∧ (l.filter CEv.visible = H ∧ ∀ i ob, CEv.stmt i ob ∈ l → P ob.out) ∧ MOk m' ∧ Sim m' m'.view c' g' own' := by
    intro c c₁ l₁ H m' r1 v1 ⟨l, c', g', own', r2, v2, h2⟩
    exact ⟨l₁ ++ l, c', g', own', r1.trans r2, ⟨by rw [List.filter_append, v1.1, v2.1]; rfl, fun i ob hm => by
      rcases List.mem_append.1 hm with hm | hm
      · exact v1.2 i ob hm
      · exact v2.2 i ob hm⟩, h2⟩
  induction r with
  | done m => exact fun ok h => ⟨[], _, _, _, .done _, ⟨rfl, nofun⟩, ok, h⟩
  | call n hn v1 op okop _ ih =>
    rename_i m m' l hr
    intro c g own ok h
    obtain ⟨l', c', g', own', r', hv, h'⟩ := ih (ok.setCall (e := .run _) (fun _ _ _ h => by cases h) _)
      (h.newCall n (op.prog v1))
    refine ⟨_, c', g', own', .call v1 op okop r', ⟨?_, fun i ob hm => ?_⟩, h'⟩
    · rw [List.filter_cons_of_pos (by rfl), hv.1, h.world, h.next]
    · rcases List.mem_cons.1 hm with hm | hm
      · cases hm
      · exact hv.2 i ob hm
  | spawn n hn call okc _ ih =>
    intro c g own ok h
    obtain ⟨l', c', g', own', r', hv, h'⟩ := ih (ok.setBg (e := .run _) (fun _ _ _ h => by cases h) _)
      (h.newBg n call.prog)
    exact ⟨l', c', g', own', .env (.spawn ⟨c.world, c.bg⟩ call okc) r', hv, h'⟩
  | client i n e e' w b he s _ ih =>
    intro c g own ok h
    obtain ⟨c₁, g₁, own₁, l₁, r1, v1, ok1, h1⟩ := h.stepClient hP ok he s
    exact glue r1 v1 (ih ok1 h1)
  | bg i n e e' w b he s _ ih =>
    intro c g own ok h
    obtain ⟨c₁, g₁, own₁, l₁, r1, v1, ok1, h1⟩ := h.stepBg ok he s
    exact glue r1 v1 (ih ok1 h1)
  | batch n hn a b ha s _ ih =>
    rename_i m m' l hr
    intro c g own ok h
    cases s with
    | submit _ st => rcases ha with h | h <;> cases h
    | env _ st => rcases ha with h | h <;> cases h
    | close _ _ => rcases ha with h | h <;> cases h
    | exec _ q begin commit fates hf hw =>
      obtain ⟨c₁, g₁, l₁, r1, v1, ok1, h1⟩ := h.runQueue ok (n := n) hw begin commit fates hf hP
      exact glue r1 v1 (ih ok1 h1)
    | wake _ pre post j hw =>
      obtain ⟨ok1, h1⟩ := h.quiet ok (n := n) (BStep.wake (m.node n) pre post j hw)
        (by unfold BSys.wake; split <;> rfl) (by unfold BSys.wake; split <;> rfl)
        (by unfold BSys.wake; split <;> exact Nat.le_refl _)
      exact ih ok1 h1
    | checkClose _ hc =>
      obtain ⟨ok1, h1⟩ := h.quiet ok (n := n) (BStep.checkClose (m.node n) hc)
        (by unfold BSys.checkClose; split <;> rfl) (by unfold BSys.checkClose; split <;> rfl)
        (by unfold BSys.checkClose; split <;> exact Nat.le_refl _)
      exact ih ok1 h1
    | start _ hw =>
      obtain ⟨ok1, h1⟩ := h.quiet ok (n := n) (BStep.start (m.node n) hw)
        ((take_view (b := { m.node n with status := .running }) (by simp [BSys.inflight, hw])).trans rfl)
        (by unfold BSys.take; split <;> rfl) (by unfold BSys.take; split <;> exact Nat.le_refl _)
      exact ih ok1 h1
    | next _ q hw =>
      obtain ⟨ok1, h1⟩ := h.quiet ok (n := n) (BStep.next (m.node n) q hw)
        ((take_view (b := (m.node n).broadcast) (by simp [BSys.inflight, BSys.broadcast, hw])).trans rfl)
        (by unfold BSys.take; split <;> rfl) (by unfold BSys.take; split <;> exact Nat.le_refl _)
      exact ih ok1 h1
  | close n hc _ ih =>
    rename_i m m' l hr
    intro c g own ok h
    obtain ⟨ok1, h1⟩ := h.quiet ok (n := n) (BStep.close (m.node n) hc) rfl rfl (Nat.le_refl _)
    exact ih ok1 h1
  | ret i n a he _ ih =>
    rename_i m m' l hr
    intro c g own ok h
    obtain ⟨hilt, p, hact, hab⟩ := h.calls i n _ he
    cases hab
    have hc : ∀ i' x, upd m.calls i none i' = some x → m.calls i' = some x := by
      intro i' x hx
      unfold upd at hx
      split at hx
      · cases hx
      · exact hx
    have h1 := h.vanish (upd m.calls i none) m.bgs hc (fun _ _ h => h) m.up
    have h2 : Sim { m with calls := upd m.calls i none } m.view { c with active := c.set i none } g own := by
      have hfree := h.free_call he nofun
      refine { world := h1.world, next := h1.next, bg := h1.bg, calls := ?_, bgs := h1.bgs, pendc := ?_,
               pendb := h1.pendb, inj := h1.inj, waitc := h1.waitc, waitb := h1.waitb, ids := h1.ids }
      · intro i' n' e he'
        obtain ⟨g1, p', g2, g3⟩ := h1.calls i' n' e he'
        refine ⟨g1, p', (if_neg ?_).trans g2, g3⟩
        rintro rfl
        simp only [upd, if_pos] at he'
        cases he'
      · intro n' j hj i' ho
        obtain ⟨g1, st, k, g2, g3, g4⟩ := h1.pendc n' j hj i' ho
        refine ⟨g1, st, k, g2, (if_neg ?_).trans g3, g4⟩
        rintro rfl
        exact hfree n' j hj ho
    obtain ⟨l', c', g', own', r', hv, h'⟩ := ih (ok.vanish (upd m.calls i none) m.bgs hc (fun _ _ h => h) m.up) h2
    refine ⟨_, c', g', own', .ret i a hact r', ⟨?_, fun i ob hm => ?_⟩, h'⟩
    · rw [List.filter_cons_of_pos (by rfl), hv.1, h.world]
    · rcases List.mem_cons.1 hm with hm | hm
      · cases hm
      · exact hv.2 i ob hm
  | crash n _ ih =>
    rename_i m m' l hr
    intro c g own ok h
    have hc : ∀ i x, (m.calls i).filter (fun x => x.1 != n) = some x → m.calls i = some x := by
      intro i x hx
      exact (Option.filter_eq_some_iff.1 hx).1
    have hb : ∀ i x, (m.bgs i).filter (fun x => x.1 != n) = some x → m.bgs i = some x := by
      intro i x hx
      exact (Option.filter_eq_some_iff.1 hx).1
    exact ih (ok.vanish _ _ hc hb _) (h.vanish _ _ hc hb _)
  | late n hn q begin commit fates hf hw _ ih =>
    intro c g own ok h
    obtain ⟨c₁, g₁, l₁, r1, v1, ok1, h1⟩ := h.runQueue ok (n := n) hw begin commit fates hf hP
    exact glue r1 v1 (ih ok1 h1)

theorem Sim.init : Sim MSys.init MSys.init.view Conc.init (fun _ => .ret ()) (fun _ _ => .client 0) := by
  refine { world := rfl, next := rfl, bg := rfl, calls := nofun, bgs := nofun, pendc := ?_, pendb := ?_, inj := ?_,
           waitc := nofun, waitb := nofun, ids := fun n => List.nodup_nil }
  · exact fun n j hj => nomatch hj
  · exact fun n j hj => nomatch hj
  · exact fun n j n' j' hj => nomatch hj

theorem MOk.init : MOk MSys.init := ⟨fun _ => .init _, nofun, nofun⟩

end Verif
