import Verif.Lemmas.Composed
import Verif.Lemmas.Stmts
import Verif.Lemmas.Conc
/-!
# Which statements go through the batcher; concurrent executions are reachable
-/

namespace Verif

/-- Every statement of the program is a query, a write as `execute` issues them, or, if `tx` is true, the transaction of
a compaction. -/
def RoutedIf (tx : Bool) {α : Type} : Prog α → Prop
  | .ret _ => True
  | .stmt eff k => (eff = id ∨ (∃ st k', IsExec st k' eff k) ∨ tx = true ∧ ∃ a b, eff = fun db => tryCompactTx db a b) ∧
      ∀ o db, RoutedIf tx (k o db)

/-- Every statement of the program is a query, a write as `execute` issues them, or the transaction of a compaction. -/
abbrev Routed {α : Type} (p : Prog α) : Prop := RoutedIf true p

variable {tx : Bool}

theorem routed_bind {α β : Type} {p : Prog α} {f : α → Prog β} (hp : RoutedIf tx p) (hf : ∀ a, RoutedIf tx (f a)) :
    RoutedIf tx (p.bind f) := by
  induction p with
  | ret a => exact hf a
  | stmt eff k ih =>
    refine ⟨?_, fun o db => ih o db (hp.2 o db)⟩
    rcases hp.1 with h | ⟨st, k', rfl, h⟩ | h
    · exact Or.inl h
    · exact Or.inr (Or.inl ⟨st, fun r => (k' r).bind f, rfl, fun o db => by simp only [h]⟩)
    · exact Or.inr (Or.inr h)

theorem routed_map {α β : Type} {p : Prog α} {f : α → β} (hp : RoutedIf tx p) : RoutedIf tx (p.map f) :=
  routed_bind hp fun _ => trivial

theorem routed_andThen {ε α β : Type} {p : Prog (Except ε α)} {f : α → Prog (Except ε β)} (hp : RoutedIf tx p)
    (hf : ∀ a, RoutedIf tx (f a)) : RoutedIf tx (p.andThen f) := by
  apply routed_bind hp
  intro a
  cases a with
  | ok a => exact hf a
  | error e => trivial

theorem routed_queryLoop {β : Type} {sel : DB → β} (n : Nat) : RoutedIf tx (queryLoop sel n) := by
  induction n with
  | zero => trivial
  | succ n ih =>
    refine ⟨Or.inl rfl, fun o db => ?_⟩
    cases o with
    | ok => trivial
    | trunc m => trivial
    | fail e => simp only; split; exact ih; trivial
    | lost e => simp only; split; exact ih; trivial

/-- What `execute` does with the answer of `ExecContext` (`/repo/pkg/backend/sqlite/driver.go:467-474`). -/
def executeNext (st : BStmt DB) (n : Nat) : Except DbErr ExecResult → Prog (Except ApiErr ExecResult)
  | .ok r => .ret (.ok r)
  | .error e => if e.retry then executeLoop st n else .ret (.error (.db e))

theorem executeLoop_form (st : BStmt DB) (n : Nat) : executeLoop st (n + 1) = stmtForm st (executeNext st n) := by
  unfold stmtForm
  rw [executeLoop]
  congr 1
  funext o db
  cases o <;> rfl

theorem isExec_stmtForm {α : Type} (st : BStmt DB) (k : Except DbErr ExecResult → Prog α) :
    IsExec st k (fun db => (st db).1) (fun o db => k (stmtAnswer st o db)) := ⟨rfl, fun _ _ => rfl⟩

theorem routed_executeLoop {st : DB → DB × ExecResult} (n : Nat) : RoutedIf tx (executeLoop st n) := by
  induction n with
  | zero => trivial
  | succ n ih =>
    rw [executeLoop_form]
    refine ⟨Or.inr (Or.inl ⟨st, _, isExec_stmtForm st _⟩), fun o db => ?_⟩
    cases o with
    | ok => trivial
    | trunc m => trivial
    | fail e => simp only [stmtAnswer, executeNext]; split; exact ih; trivial
    | lost e => simp only [stmtAnswer, executeNext]; split; exact ih; trivial

theorem routed_compactLoop {a b : Int} (n : Nat) : Routed (compactLoop a b n) := by
  induction n with
  | zero => trivial
  | succ n ih =>
    refine ⟨Or.inr (Or.inr ⟨rfl, a, b, rfl⟩), fun o db => ?_⟩
    cases o with
    | ok => trivial
    | trunc m => trivial
    | fail e => simp only; split; exact ih; trivial
    | lost e => simp only; split; exact ih; trivial

theorem routed_oneRow {α : Type} (r : α × Option Nat) : RoutedIf tx (oneRow r) := by
  unfold oneRow; split <;> trivial

theorem routed_getCompactRevision : RoutedIf tx Driver.getCompactRevision :=
  routed_andThen (routed_queryLoop _) fun _ => routed_map (routed_oneRow _)

theorem routed_list (v1 : Bool) (key re : Bytes) (limit rev : Int) : RoutedIf tx (Backend.list v1 key re limit rev) := by
  apply routed_andThen routed_getCompactRevision
  intro a
  have hgo : ∀ r : Int, RoutedIf tx ((Driver.list v1 key re limit r).andThen fun rows =>
      .ret (.ok (a.2, scanAll scanKeyValue rows))) :=
    fun r => routed_andThen (routed_queryLoop _) fun _ => trivial
  simp only
  split
  · exact hgo _
  · split
    · trivial
    · exact hgo _

theorem routed_count (v1 : Bool) (key re : Bytes) (rev : Int) : RoutedIf tx (Backend.count v1 key re rev) := by
  apply routed_andThen routed_getCompactRevision
  intro a
  have hgo : ∀ r : Int, RoutedIf tx ((Driver.count v1 key re r).andThen fun n => .ret (.ok (a.2, n))) :=
    fun r => routed_andThen (routed_andThen (routed_queryLoop _) fun _ => routed_map (routed_oneRow _)) fun _ => trivial
  simp only
  split
  · exact hgo _
  · split
    · trivial
    · exact hgo _

theorem routed_range (v1 : Bool) (r : RangeReq) : RoutedIf tx (Bridge.range v1 r) := by
  unfold Bridge.range
  repeat' split
  any_goals trivial
  unfold Limited.range
  split
  · exact routed_andThen (routed_list _ _ _ _ _) fun _ => trivial
  · unfold Limited.list
    split
    · exact routed_andThen (routed_count _ _ _ _) fun _ => trivial
    · apply routed_andThen (routed_list _ _ _ _ _)
      intro a
      simp only
      generalize (if r.limit > 0 then r.limit + 1 else r.limit) = lim
      split
      · exact routed_andThen (routed_count _ _ _ _) fun _ => trivial
      · trivial

theorem routed_write {st : DB → DB × ExecResult} :
    RoutedIf tx ((execute st).andThen fun r => .ret (.ok (writeResult r))) :=
  routed_andThen (routed_executeLoop _) fun _ => trivial

theorem routed_elseRange (v1 : Bool) (key : Bytes) (rev : Int) : RoutedIf tx (Limited.elseRange v1 key rev) :=
  routed_andThen (routed_list _ _ _ _ _) fun _ => trivial

theorem routed_txn (v1 : Bool) (t : TxnReq) : RoutedIf tx (Limited.txn v1 t) := by
  unfold Limited.txn
  split
  · unfold Limited.create
    repeat' split
    any_goals trivial
    exact routed_andThen routed_write fun a => by simp only; split <;> trivial
  · split
    · exact routed_andThen routed_write fun a => by
        simp only; split
        · trivial
        · exact routed_elseRange _ _ _
    · split
      · unfold Limited.update
        apply routed_andThen
        · split
          · exact routed_write
          · exact routed_write
        · intro a; simp only; split
          · trivial
          · exact routed_elseRange _ _ _
      · split <;> trivial

theorem routed_deleteMarkers (keep : Int) (es : List Event) : RoutedIf tx (deleteMarkers keep es) := by
  induction es with
  | nil => trivial
  | cons e es ih =>
    unfold deleteMarkers
    split
    · exact ih
    · exact routed_andThen (routed_andThen (routed_executeLoop _) fun _ => trivial) fun _ => ih

theorem routed_compactStart : RoutedIf tx Backend.compactStart := by
  unfold Backend.compactStart
  apply routed_andThen
  · unfold Driver.currentRevision
    apply routed_andThen (routed_queryLoop _)
    intro a
    apply routed_bind (routed_oneRow _)
    intro b
    cases b with
    | error e => trivial
    | ok o => cases o <;> trivial
  · intro cur
    apply routed_andThen (routed_queryLoop _)
    intro rows
    simp only
    split
    · exact routed_andThen routed_write fun _ => trivial
    · trivial
    · exact routed_deleteMarkers _ _

theorem routed_compactSqlite (rev : Int) : Routed (Driver.compactSqlite rev) := by
  apply routed_andThen routed_getCompactRevision
  intro a
  simp only
  split
  · trivial
  · exact routed_compactLoop _

theorem routed_compactBatches (leader : Nat → Option Bool) (target : Int) (fuel n : Nat) (start : Int) :
    Routed (compactBatches leader target fuel n start) := by
  induction fuel generalizing n start with
  | zero => trivial
  | succ fuel ih =>
    unfold compactBatches
    split
    · refine routed_andThen ?_ fun _ => ih _ _
      unfold Driver.compact
      split
      · trivial
      · exact routed_compactSqlite _
    · trivial

theorem routed_call (c : Call) : Routed c.prog := by
  cases c with
  | range v1 r => exact routed_map (routed_range v1 r)
  | txn v1 t => exact routed_map (routed_txn v1 t)
  | expire key rev => exact routed_map routed_write
  | doCompact leader =>
    exact routed_map (routed_andThen routed_compactStart fun _ =>
      routed_andThen routed_getCompactRevision fun _ => routed_compactBatches _ _ _ _ _)
  | start =>
    exact routed_map (routed_andThen routed_write fun _ => routed_andThen routed_compactStart fun _ =>
      routed_andThen routed_getCompactRevision fun _ => trivial)
  | poll rev limit => exact routed_map (routed_queryLoop _)
  | legacyCreate key value lease prev => exact routed_map (routed_executeLoop _)

/-- All calls but compactions. -/
theorem routed_call_plain (c : Call) (h : ∀ leader, c ≠ .doCompact leader) : RoutedIf false c.prog := by
  cases c with
  | range v1 r => exact routed_map (routed_range v1 r)
  | txn v1 t => exact routed_map (routed_txn v1 t)
  | expire key rev => exact routed_map routed_write
  | doCompact leader => exact absurd rfl (h leader)
  | start =>
    exact routed_map (routed_andThen routed_write fun _ => routed_andThen routed_compactStart fun _ =>
      routed_andThen routed_getCompactRevision fun _ => trivial)
  | poll rev limit => exact routed_map (routed_queryLoop _)
  | legacyCreate key value lease prev => exact routed_map (routed_executeLoop _)

theorem routed_op (v1 : Bool) (op : ClientOp) : RoutedIf tx (op.prog v1) := by
  cases op with
  | read k e => exact routed_map (routed_range v1 _)
  | create k v l => exact routed_map (routed_txn v1 _)
  | update k r v l => exact routed_map (routed_txn v1 _)
  | delete k r => exact routed_map (routed_txn v1 _)

/-! ## Concurrent executions are reachable -/

theorem Prog.map_unit {α β : Type} (p : Prog α) (f : α → β) : (p.map f).map (fun _ => ()) = p.map (fun _ => ()) := by
  induction p with
  | ret a => rfl
  | stmt eff k ih =>
    simp only [Prog.map, Prog.bind] at ih ⊢
    congr 1
    funext o db
    exact ih o db

/-- The call of the program set a client's operation is. -/
def ClientOp.call (v1 : Bool) : ClientOp → Call
  | .read k e => .range v1 { key := k, rangeEnd := e }
  | .create k v l => .txn v1 (createTxn k v l)
  | .update k r v l => .txn v1 (updateTxn k r v l)
  | .delete k r => .txn v1 (deleteTxn k r)

theorem ClientOp.call_prog (v1 : Bool) (op : ClientOp) : (op.call v1).prog = (op.prog v1).map fun _ => () := by
  cases op <;> exact (Prog.map_unit _ _).symm

theorem ClientOp.call_allowed (v1 : Bool) {op : ClientOp} (h : op.allowed) : (op.call v1).allowed := by
  cases op with
  | read k e => trivial
  | create k v l => intro he; exact h (Option.some.inj he)
  | update k r v l => intro he; exact h (Option.some.inj he)
  | delete k r => intro he; exact h.1 (Option.some.inj he)

/-- The system contains all programs of the concurrent one (and possibly some that never run again). -/
def Contains (s : Sys) (c : Conc) : Prop :=
  s.world = c.world ∧ ∃ f : Nat → Prog Unit, s.pool.Perm (c.bg ++ (List.range c.next).map f) ∧
    ∀ i p, c.active i = some p → i < c.next ∧ f i = p.map fun _ => ()

theorem Step.pool_perm {w : World} {bg : List (Prog Unit)} {w' : World} {bg' : List (Prog Unit)}
    (h : Step ⟨w, bg⟩ ⟨w', bg'⟩) {pool rest : List (Prog Unit)} (hp : pool.Perm (bg ++ rest)) :
    ∃ pool', Step ⟨w, pool⟩ ⟨w', pool'⟩ ∧ pool'.Perm (bg' ++ rest) := by
  generalize ha : (⟨w, bg⟩ : Sys) = a at h
  generalize hb : (⟨w', bg'⟩ : Sys) = b at h
  -- an element of the pool
  have split : ∀ (p : Prog Unit) (pre post : List (Prog Unit)), pool.Perm (pre ++ p :: post ++ rest) →
      ∃ a b, pool = a ++ p :: b ∧ (a ++ b).Perm (pre ++ post ++ rest) := by
    intro p pre post h
    have hm : p ∈ pool := h.mem_iff.2 (by simp)
    obtain ⟨a, b, rfl⟩ := List.append_of_mem hm
    refine ⟨a, b, rfl, ?_⟩
    have h1 : (p :: (a ++ b)).Perm (p :: (pre ++ post ++ rest)) := by
      refine List.perm_middle.symm.trans (h.trans ?_)
      rw [List.append_assoc, List.append_assoc]
      exact List.perm_middle
    exact (List.perm_cons p).1 h1
  have back : ∀ (p : Prog Unit) (pre post a b : List (Prog Unit)), (a ++ b).Perm (pre ++ post ++ rest) →
      (a ++ p :: b).Perm (pre ++ p :: post ++ rest) := by
    intro p pre post a b h
    refine List.perm_middle.trans (((List.perm_cons p).2 h).trans ?_)
    rw [List.append_assoc, List.append_assoc]
    exact List.perm_middle.symm
  cases h with
  | spawn s c ok =>
    cases ha; cases hb
    exact ⟨c.prog :: pool, .spawn ⟨w, pool⟩ c ok, (List.perm_cons _).2 hp⟩
  | exec w₀ pre post eff k o =>
    cases ha; cases hb
    obtain ⟨a, b, rfl, h⟩ := split _ pre post hp
    exact ⟨_, .exec w a b eff k o, back _ pre post a b h⟩
  | stop w₀ pre post p =>
    cases ha; cases hb
    obtain ⟨a, b, rfl, h⟩ := split _ pre post hp
    exact ⟨_, .stop w a b p, h⟩

theorem CRun.contained {c c' : Conc} {l : List CEv} (r : CRun c l c') :
    ∀ {s : Sys}, Contains s c → ∃ s', Steps s s' ∧ Contains s' c' := by
  have glue : ∀ {s s' : Sys} {c' : Conc}, Step s s' → (∃ s'', Steps s' s'' ∧ Contains s'' c') →
      ∃ s'', Steps s s'' ∧ Contains s'' c' := by
    intro s s' c' h ⟨s'', h1, h2⟩
    refine ⟨s'', ?_, h2⟩
    clear h2
    induction h1 with
    | refl => exact .tail (.refl s) h
    | tail _ h' ih => exact .tail ih h'
  induction r with
  | done c => exact fun h => ⟨_, .refl _, h⟩
  | env st _ ih =>
    rename_i c c'' w bg l hr
    intro s ⟨h1, f, h2, h3⟩
    obtain ⟨pool', hst, hp⟩ := st.pool_perm h2
    refine glue (s' := ⟨w, pool'⟩) ?_ (ih ⟨rfl, f, hp, h3⟩)
    rw [← h1] at hst
    exact hst
  | call v1 op ok _ ih =>
    rename_i c c'' l hr
    intro s ⟨h1, f, h2, h3⟩
    refine glue (Step.spawn s (op.call v1) (ClientOp.call_allowed v1 ok)) (ih ⟨h1, upd f c.next (op.call v1).prog, ?_, ?_⟩)
    · show ((op.call v1).prog :: s.pool).Perm (c.bg ++ (List.range (c.next + 1)).map (upd f c.next (op.call v1).prog))
      rw [List.range_succ, List.map_append, List.map_cons, List.map_nil]
      have e1 : (List.range c.next).map (upd f c.next (op.call v1).prog) = (List.range c.next).map f := by
        apply List.map_congr_left
        intro i hi
        exact if_neg (Nat.ne_of_lt (List.mem_range.1 hi))
      rw [e1, show upd f c.next (op.call v1).prog c.next = (op.call v1).prog from if_pos rfl, ← List.append_assoc]
      exact ((List.perm_cons _).2 h2).trans (List.perm_append_singleton _ _).symm
    · intro i p hp
      simp only [Conc.set] at hp
      by_cases hi : i = c.next
      · subst hi
        rw [if_pos rfl] at hp
        cases hp
        exact ⟨Nat.lt_succ_self _, (if_pos rfl).trans (ClientOp.call_prog v1 op)⟩
      · rw [if_neg hi] at hp
        exact ⟨Nat.lt_succ_of_lt (h3 i p hp).1, (if_neg hi).trans (h3 i p hp).2⟩
  | stmt i o eff k hk _ ih =>
    rename_i c c'' l hr
    intro s ⟨h1, f, h2, h3⟩
    obtain ⟨hlt, hf⟩ := h3 i _ hk
    obtain ⟨pre, post, m1, m2⟩ := map_upd_split List.nodup_range (List.mem_range.2 hlt) f ((k o c.world.db).map fun _ => ())
    rw [m1, hf] at h2
    have hm : Prog.map (fun _ => ()) (.stmt eff k) ∈ s.pool := h2.mem_iff.2 (by simp)
    obtain ⟨a, b, hab⟩ := List.append_of_mem hm
    have hst : Step s ⟨c.world.exec eff o, a ++ ((k o c.world.db).map fun _ => ()) :: b⟩ := by
      have := Step.exec s.world a b eff (fun o db => (k o db).map fun _ => ()) o
      rw [show s = ⟨s.world, a ++ Prog.map (fun _ => ()) (.stmt eff k) :: b⟩ by rw [← hab]]
      rw [← h1]
      exact this
    refine glue hst (ih ⟨rfl, upd f i ((k o c.world.db).map fun _ => ()), ?_, ?_⟩)
    · show List.Perm _ (c.bg ++ (List.range c.next).map (upd f i ((k o c.world.db).map fun _ => ())))
      rw [m2]
      rw [hab, ← List.append_assoc] at h2
      have h4 : (a ++ b).Perm (c.bg ++ pre ++ post) :=
        (List.perm_cons _).1 (List.perm_middle.symm.trans (h2.trans List.perm_middle))
      rw [← List.append_assoc]
      exact List.perm_middle.trans (((List.perm_cons _).2 h4).trans List.perm_middle.symm)
    · intro i' p hp
      simp only [Conc.set] at hp
      by_cases hi : i' = i
      · subst hi
        rw [if_pos rfl] at hp
        cases hp
        exact ⟨hlt, if_pos rfl⟩
      · rw [if_neg hi] at hp
        exact ⟨(h3 i' p hp).1, (if_neg hi).trans (h3 i' p hp).2⟩
  | ret i a hk _ ih =>
    intro s ⟨h1, f, h2, h3⟩
    refine ih ⟨h1, f, h2, fun i' p hp => ?_⟩
    simp only [Conc.set] at hp
    split at hp
    · cases hp
    · exact h3 i' p hp
  | die i _ ih =>
    intro s ⟨h1, f, h2, h3⟩
    refine ih ⟨h1, f, h2, fun i' p hp => ?_⟩
    simp only [Conc.set] at hp
    split at hp
    · cases hp
    · exact h3 i' p hp

theorem CRun.reachable {c : Conc} {l : List CEv} (r : CRun Conc.init l c) : ∃ s, Reachable s ∧ s.world = c.world := by
  obtain ⟨s, h1, h2, _⟩ := r.contained (s := Sys.init) ⟨rfl, fun _ => .ret (), .refl _, nofun⟩
  exact ⟨s, h1, h2⟩

end Verif
