import Verif.Lemmas.GoBatched
import Verif.Lemmas.BatchedInv
import Verif.Model.GoBatchedSys
/-!
# The text of `execQueue` does what the model says
-/

namespace Verif.Go

open Verif.GoText

variable {S : Type} {stmtOf : List UInt8 → List V → BStmt S} {E : DbEnv}

/-- The result in the fields of a job. -/
def resOf (m : JobMem) : Except DbErr ExecResult :=
  match m.err with
  | some e => .error e
  | none => .ok ⟨m.rows.toNat, m.last⟩

/-- The statement of a job. -/
def stmtAt (stmtOf : List UInt8 → List V → BStmt S) (jobs : Nat → JobMem) (j : Nat) : BStmt S := stmtOf (jobs j).query (jobs j).args

/-- Only the results of some jobs change. -/
def Frame (A : Nat → Prop) (jobs jobs' : Nat → JobMem) : Prop :=
  ∀ i, (jobs' i).ctx = (jobs i).ctx ∧ (jobs' i).query = (jobs i).query ∧ (jobs' i).args = (jobs i).args ∧ (jobs' i).runId = (jobs i).runId ∧
    (¬ A i → jobs' i = jobs i) ∧ (0 ≤ (jobs i).rows → 0 ≤ (jobs' i).rows)

theorem Frame.refl (A : Nat → Prop) (jobs : Nat → JobMem) : Frame A jobs jobs := fun _ => ⟨rfl, rfl, rfl, rfl, fun _ => rfl, fun h => h⟩

theorem Frame.trans {A B C : Nat → Prop} {a b c : Nat → JobMem} (h : Frame A a b) (h' : Frame B b c) (hA : ∀ i, A i → C i) (hB : ∀ i, B i → C i) :
    Frame C a c := fun i =>
  have x := h i
  have y := h' i
  ⟨y.1.trans x.1, y.2.1.trans x.2.1, y.2.2.1.trans x.2.2.1, y.2.2.2.1.trans x.2.2.2.1,
    fun hn => (y.2.2.2.2.1 fun hb => hn (hB i hb)).trans (x.2.2.2.2.1 fun ha => hn (hA i ha)), fun h => y.2.2.2.2.2 (x.2.2.2.2.2 h)⟩

theorem Frame.stmt {A : Nat → Prop} {a b : Nat → JobMem} (h : Frame A a b) (j : Nat) : stmtAt stmtOf b j = stmtAt stmtOf a j := by
  unfold stmtAt
  rw [(h j).2.1, (h j).2.2.1]

theorem frame_setErr (jobs : Nat → JobMem) (j : Nat) (e : Option DbErr) : Frame (· = j) jobs (setJob jobs j fun m => { m with err := e }) := by
  intro i
  unfold setJob
  split <;> simp_all

theorem frame_setRows (jobs : Nat → JobMem) (j : Nat) (n : Nat) : Frame (· = j) jobs (setJob jobs j fun m => { m with rows := (n : Int) }) := by
  intro i
  unfold setJob
  split <;> simp_all

theorem frame_setLast (jobs : Nat → JobMem) (j : Nat) (n : Int) : Frame (· = j) jobs (setJob jobs j fun m => { m with last := n }) := by
  intro i
  unfold setJob
  split <;> simp_all

theorem setJob_same (jobs : Nat → JobMem) (j : Nat) (f : JobMem → JobMem) : setJob jobs j f j = f (jobs j) := if_pos rfl

/-- `exec` of a job in a transaction. -/
theorem execJob_tx (j : Nat) (k : Option DbErr → Th) (st : DbSt S) (w : S) (htx : st.tx = some w) :
    ∃ st' : DbSt S, Frame (· = j) st.jobs st'.jobs ∧ st'.store = st.store ∧
      ((∃ e f, execInTx (stmtAt stmtOf st.jobs j) f w = .error e ∧ (execJobT true j k).runDb stmtOf E st = (k (some e)).runDb stmtOf E st') ∨
       (st'.tx = some (stmtAt stmtOf st.jobs j w).1 ∧ resOf (st'.jobs j) = .ok (stmtAt stmtOf st.jobs j w).2 ∧
        (execJobT true j k).runDb stmtOf E st = (k none).runDb stmtOf E st')) := by
  unfold execJobT
  simp only [Th.runDb]
  cases hc : E.ctxAt st.time (st.jobs j).ctx with
  | some e =>
    have hm := E.mono _ _ _ hc
    refine ⟨?st1, ?_, ?_, Or.inl ⟨e, ⟨some e, none⟩, rfl, ?eq⟩⟩
    case eq =>
      simp only [Th.runDb, hm, jobErrT, setJob_same]
      rfl
    · exact frame_setErr _ _ _
    · rfl
  | none =>
    simp only
    cases ho : E.out (st.time + 1) with
    | ok =>
      simp only [DbSt.exec, htx, if_true, Option.getD_some, Th.runDb, setJob_same, jobRowsT, List.getElem?_append_right (Nat.le_refl _), Nat.sub_self, List.getElem?_cons_zero]
      cases hr : E.rowsErr (st.time + 1 + 1) with
      | some e =>
        refine ⟨?st2, ?_, ?_, Or.inl ⟨e, ⟨none, some e⟩, rfl, ?eq⟩⟩
        case eq =>
          simp only [Th.runDb, jobErrT, setJob_same]
          rfl
        · exact (frame_setErr _ _ _).trans (frame_setErr _ _ _) (fun _ h => h) fun _ h => h
        · rfl
      | none =>
        simp only
        cases hl : E.lastErr (st.time + 1 + 1 + 1) with
        | some e =>
          refine ⟨?st3, ?_, ?_, Or.inl ⟨e, ⟨none, some e⟩, rfl, ?eq⟩⟩
          case eq =>
            simp only [Th.runDb, jobErrT, setJob_same]
            rfl
          · exact ((frame_setErr _ _ _).trans (frame_setRows _ _ _) (C := (· = j)) (fun _ h => h) fun _ h => h).trans (frame_setErr _ _ _) (fun _ h => h) fun _ h => h
          · rfl
        | none =>
          refine ⟨?st4, ?_, ?_, Or.inr ⟨?_, ?_, ?eq⟩⟩
          case eq => rfl
          · exact ((frame_setErr _ _ _).trans (frame_setRows _ _ _) (C := (· = j)) (fun _ h => h) fun _ h => h).trans (frame_setLast _ _ _) (fun _ h => h) fun _ h => h
          · rfl
          · rfl
          · simp [resOf, setJob_same, stmtAt]
    | fail e =>
      refine ⟨?st5, ?_, ?_, Or.inl ⟨e, ⟨none, some e⟩, rfl, ?eq⟩⟩
      case eq =>
        simp only [DbSt.exec, Th.runDb, jobErrT, setJob_same]
        rfl
      · exact frame_setErr _ _ _
      · rfl
    | lost e =>
      refine ⟨?st6, ?_, ?_, Or.inl ⟨e, ⟨none, some e⟩, rfl, ?eq⟩⟩
      case eq =>
        simp only [DbSt.exec, htx, if_true, Th.runDb, jobErrT, setJob_same]
        rfl
      · exact frame_setErr _ _ _
      · rfl

/-- `exec` of a job without a transaction. -/
theorem execJob_single (j : Nat) (k : Option DbErr → Th) (st : DbSt S) :
    ∃ (st' : DbSt S) (f : JobFate) (co : CommitOut) (eo : Option DbErr), Frame (· = j) st.jobs st'.jobs ∧
      st'.store = (execSingle (stmtAt stmtOf st.jobs j) f co st.store).1 ∧ resOf (st'.jobs j) = (execSingle (stmtAt stmtOf st.jobs j) f co st.store).2 ∧
      (execJobT false j k).runDb stmtOf E st = (k eo).runDb stmtOf E st' := by
  unfold execJobT
  simp only [Th.runDb]
  cases hc : E.ctxAt st.time (st.jobs j).ctx with
  | some e =>
    have hm := E.mono _ _ _ hc
    refine ⟨?st7, ⟨some e, none⟩, .ok, some e, ?_, ?_, ?_, ?eq⟩
    case eq =>
      simp only [Th.runDb, hm, jobErrT, setJob_same]
      rfl
    · exact frame_setErr _ _ _
    · rfl
    · simp [resOf, setJob_same, execSingle]
  | none =>
    simp only
    cases ho : E.out (st.time + 1) with
    | ok =>
      simp only [DbSt.exec, Bool.false_eq_true, if_false, Th.runDb, setJob_same, jobRowsT, List.getElem?_append_right (Nat.le_refl _), Nat.sub_self, List.getElem?_cons_zero]
      cases hr : E.rowsErr (st.time + 1 + 1) with
      | some e =>
        refine ⟨?st8, ⟨none, none⟩, .lost e, some e, ?_, ?_, ?_, ?eq⟩
        case eq =>
          simp only [Th.runDb, jobErrT, setJob_same]
          rfl
        · exact (frame_setErr _ _ _).trans (frame_setErr _ _ _) (fun _ h => h) fun _ h => h
        · rfl
        · simp [resOf, setJob_same, execSingle]
      | none =>
        simp only
        cases hl : E.lastErr (st.time + 1 + 1 + 1) with
        | some e =>
          refine ⟨?st9, ⟨none, none⟩, .lost e, some e, ?_, ?_, ?_, ?eq⟩
          case eq =>
            simp only [Th.runDb, jobErrT, setJob_same]
            rfl
          · exact ((frame_setErr _ _ _).trans (frame_setRows _ _ _) (C := (· = j)) (fun _ h => h) fun _ h => h).trans (frame_setErr _ _ _) (fun _ h => h) fun _ h => h
          · rfl
          · simp [resOf, setJob_same, execSingle]
        | none =>
          refine ⟨?st10, ⟨none, none⟩, .ok, none, ?_, ?_, ?_, ?eq⟩
          case eq => rfl
          · exact ((frame_setErr _ _ _).trans (frame_setRows _ _ _) (C := (· = j)) (fun _ h => h) fun _ h => h).trans (frame_setLast _ _ _) (fun _ h => h) fun _ h => h
          · rfl
          · simp [resOf, setJob_same, stmtAt, execSingle]
    | fail e =>
      refine ⟨?st11, ⟨none, none⟩, .fail e, some e, ?_, ?_, ?_, ?eq⟩
      case eq =>
        simp only [DbSt.exec, Th.runDb, jobErrT, setJob_same]
        rfl
      · exact frame_setErr _ _ _
      · rfl
      · simp [resOf, setJob_same, execSingle]
    | lost e =>
      refine ⟨?st12, ⟨none, none⟩, .lost e, some e, ?_, ?_, ?_, ?eq⟩
      case eq =>
        simp only [DbSt.exec, Bool.false_eq_true, if_false, Th.runDb, jobErrT, setJob_same]
        rfl
      · exact frame_setErr _ _ _
      · rfl
      · simp [resOf, setJob_same, execSingle]

/-- The error of the transaction is written to all jobs. -/
theorem failT_run (e : DbErr) (js : List Nat) (st : DbSt S) :
    ∃ jobs', (failT e js).runDb stmtOf E st = some ([], { st with jobs := jobs' }) ∧ Frame (· ∈ js) st.jobs jobs' ∧ ∀ j ∈ js, resOf (jobs' j) = .error e := by
  induction js generalizing st with
  | nil => exact ⟨st.jobs, rfl, Frame.refl _ _, fun j hj => by cases hj⟩
  | cons j js ih =>
    obtain ⟨jobs', h1, h2, h3⟩ := ih { st with jobs := setJob st.jobs j fun m => { m with err := some e } }
    refine ⟨jobs', h1, (frame_setErr _ _ _).trans h2 (fun i hi => by simp [hi]) (fun i hi => by simp [hi]), fun i hi => ?_⟩
    by_cases hm : i ∈ js
    · exact h3 i hm
    · rcases List.mem_cons.1 hi with rfl | hi
      · rw [(h2 i).2.2.2.2.1 hm]
        simp [resOf, setJob_same]
      · exact absurd hi hm

/-- The jobs in the transaction. -/
theorem txT_run (all js : List Nat) (hn : js.Nodup) (st : DbSt S) (w : S) (htx : st.tx = some w) :
    ∃ (fates : List JobFate) (st' : DbSt S), fates.length = js.length ∧ Frame (· ∈ js) st.jobs st'.jobs ∧ st'.store = st.store ∧
      ((∃ e, execAll ((js.map (stmtAt stmtOf st.jobs)).zip fates) w = .error e ∧
          (txT all js).runDb stmtOf E st = (Th.rollback (failT e all)).runDb stmtOf E st') ∨
       (∃ w' rs, execAll ((js.map (stmtAt stmtOf st.jobs)).zip fates) w = .ok (w', rs) ∧ st'.tx = some w' ∧ js.map (fun j => resOf (st'.jobs j)) = rs.map .ok ∧
          (txT all js).runDb stmtOf E st = (txT all []).runDb stmtOf E st')) := by
  induction js generalizing st w with
  | nil => exact ⟨[], st, rfl, Frame.refl _ _, rfl, Or.inr ⟨w, [], rfl, htx, rfl, rfl⟩⟩
  | cons j js ih =>
    obtain ⟨hj, hn⟩ := List.nodup_cons.1 hn
    obtain ⟨st1, hf, hs, h | h⟩ := execJob_tx (stmtOf := stmtOf) (E := E) j (fun | none => txT all js | some e => .rollback (failT e all)) st w htx
    · obtain ⟨e, f, h1, h2⟩ := h
      refine ⟨f :: js.map fun _ => ⟨none, none⟩, st1, by simp, fun i => ⟨(hf i).1, (hf i).2.1, (hf i).2.2.1, (hf i).2.2.2.1, (fun hi => (hf i).2.2.2.2.1 fun h => hi (by simp [h])), (hf i).2.2.2.2.2⟩, hs,
        Or.inl ⟨e, ?_, h2⟩⟩
      simp only [List.map_cons, List.zip_cons_cons, execAll, h1]
    · obtain ⟨h1, h2, h3⟩ := h
      obtain ⟨fates, st2, hl, hf2, hs2, h⟩ := ih hn st1 _ h1
      have hst : js.map (stmtAt stmtOf st1.jobs) = js.map (stmtAt stmtOf st.jobs) := List.map_congr_left fun i _ => hf.stmt i
      rw [hst] at h
      refine ⟨⟨none, none⟩ :: fates, st2, by simp [hl], hf.trans hf2 (fun i hi => by simp [hi]) (fun i hi => by simp [hi]), hs2.trans hs, ?_⟩
      have hj2 : st2.jobs j = st1.jobs j := (hf2 j).2.2.2.2.1 hj
      rcases h with ⟨e, h4, h5⟩ | ⟨w', rs, h4, h5, h6, h7⟩
      · refine Or.inl ⟨e, ?_, h3.trans h5⟩
        simp only [List.map_cons, List.zip_cons_cons, execAll, execInTx, h4]
      · refine Or.inr ⟨w', (stmtAt stmtOf st.jobs j w).2 :: rs, ?_, h5, ?_, h3.trans h7⟩
        · simp only [List.map_cons, List.zip_cons_cons, execAll, execInTx, h4]
        · simp only [List.map_cons, h6, hj2, h2]

/-- The text of `execQueue` on any queue of different jobs does what the model of `execQueue` does, for some outcomes. -/
theorem execQueue_run (N : Nat) (js : List Nat) (hn : js.Nodup) (st : DbSt S) :
    ∃ (begin : Option DbErr) (commit : CommitOut) (fates : List JobFate) (st' : DbSt S), fates.length = js.length ∧
      (queueCall N (js.map jobV)).runDb stmtOf E st = some ([], st') ∧ Frame (· ∈ js) st.jobs st'.jobs ∧
      st'.store = (execQueue begin commit ((js.map (stmtAt stmtOf st.jobs)).zip fates) st.store).1 ∧
      js.map (fun j => resOf (st'.jobs j)) = (execQueue begin commit ((js.map (stmtAt stmtOf st.jobs)).zip fates) st.store).2 := by
  match js, hn with
  | [], _ =>
    refine ⟨none, .ok, [], st, rfl, ?_, Frame.refl _ _, rfl, rfl⟩
    unfold queueCall
    rw [List.map_nil, execQueue_tree_nil]
    rfl
  | [j], _ =>
    obtain ⟨st', f, co, eo, h1, h2, h3, h4⟩ := execJob_single (stmtOf := stmtOf) (E := E) j (fun _ => .ret []) st
    refine ⟨none, co, [f], st', rfl, ?_, fun i => ⟨(h1 i).1, (h1 i).2.1, (h1 i).2.2.1, (h1 i).2.2.2.1, (fun hi => (h1 i).2.2.2.2.1 fun h => hi (by simp [h])), (h1 i).2.2.2.2.2⟩, h2, ?_⟩
    · unfold queueCall
      rw [List.map_cons, List.map_nil, execQueue_tree_one]
      exact h4
    · simp only [List.map_cons, List.map_nil, List.zip_cons_cons, List.zip_nil_right, execQueue, h3]
  | j1 :: j2 :: js, hn =>
    have hq : (queueCall N ((j1 :: j2 :: js).map jobV)).runDb stmtOf E st =
        (Th.beginTx (txT (j1 :: j2 :: js) (j1 :: j2 :: js)) fun e => failT e (j1 :: j2 :: js)).runDb stmtOf E st := by
      unfold queueCall
      rw [List.map_cons, List.map_cons, execQueue_tree_many]
    have hex : ∀ begin commit (fates : List JobFate), fates.length = (j1 :: j2 :: js).length → ∀ s,
        execQueue begin commit (((j1 :: j2 :: js).map (stmtAt stmtOf st.jobs)).zip fates) s =
        match batchTx begin commit (((j1 :: j2 :: js).map (stmtAt stmtOf st.jobs)).zip fates) s with
        | (s', .ok rs) => (s', rs.map .ok)
        | (s', .error e) => (s', (((j1 :: j2 :: js).map (stmtAt stmtOf st.jobs)).zip fates).map fun _ => .error e) := by
      intro begin commit fates hl s
      match fates, hl with
      | f1 :: f2 :: fs, _ => rfl
    have hmap : ∀ (fates : List JobFate), fates.length = (j1 :: j2 :: js).length → ∀ e : DbErr,
        ((((j1 :: j2 :: js).map (stmtAt stmtOf st.jobs)).zip fates).map fun _ => (Except.error e : Except DbErr ExecResult)) = (j1 :: j2 :: js).map fun _ => .error e := by
      intro fates hl e
      rw [List.map_const', List.map_const', List.length_zip, List.length_map, hl, Nat.min_self]
    generalize j1 :: j2 :: js = all at hq hex hmap hn ⊢
    rw [hq]
    simp only [Th.runDb]
    cases hb : E.begin st.time with
    | some e =>
      obtain ⟨jobs', h1, h2, h3⟩ := failT_run (stmtOf := stmtOf) (E := E) e all { st with time := st.time + 1 }
      refine ⟨some e, .ok, all.map fun _ => ⟨none, none⟩, _, by simp, h1, h2, ?_, ?_⟩
      · rw [hex _ _ _ (by simp)]
        rfl
      · rw [hex _ _ _ (by simp)]
        simp only [batchTx]
        rw [hmap _ (by simp)]
        exact List.map_congr_left fun i hi => h3 i hi
    | none =>
      obtain ⟨fates, st1, hl, hf, hs, h⟩ := txT_run (stmtOf := stmtOf) (E := E) all all hn { st with tx := some st.store, time := st.time + 1 } st.store rfl
      simp only at hf hs h
      rcases h with ⟨e, h1, h2⟩ | ⟨w', rs, h1, h2, h3, h4⟩
      · obtain ⟨jobs', h5, h6, h7⟩ := failT_run (stmtOf := stmtOf) (E := E) e all { st1 with tx := none }
        refine ⟨none, .ok, fates, _, hl, h2.trans h5, hf.trans h6 (fun _ h => h) fun _ h => h, ?_, ?_⟩
        · rw [hex _ _ _ hl]
          simp only [batchTx, h1, hs]
        · rw [hex _ _ _ hl]
          simp only [batchTx, h1]
          rw [hmap _ hl]
          exact List.map_congr_left fun i hi => h7 i hi
      · have h5 : (txT all []).runDb stmtOf E st1 = match st1.commit (E.commit st1.time) with
          | (st', none) => some ([], { st' with time := st1.time + 1, tx := none })
          | (st', some e) => (failT e all).runDb stmtOf E { st' with time := st1.time + 1, tx := none } := by
          unfold txT
          simp only [Th.runDb]
          rcases st1.commit (E.commit st1.time) with ⟨st', _ | e⟩ <;> rfl
        have h6 := h4.trans h5
        cases hc : E.commit st1.time with
        | ok =>
          rw [hc] at h6
          refine ⟨none, .ok, fates, _, hl, h6, hf, ?_, ?_⟩
          · rw [hex _ _ _ hl]
            simp only [batchTx, h1, h2, Option.getD_some]
          · rw [hex _ _ _ hl]
            simp only [batchTx, h1]
            exact h3
        | fail e =>
          rw [hc] at h6
          obtain ⟨jobs', h7, h8, h9⟩ := failT_run (stmtOf := stmtOf) (E := E) e all { st1 with time := st1.time + 1, tx := none }
          refine ⟨none, .fail e, fates, _, hl, h6.trans h7, hf.trans h8 (fun _ h => h) fun _ h => h, ?_, ?_⟩
          · rw [hex _ _ _ hl]
            simp only [batchTx, h1, hs]
          · rw [hex _ _ _ hl]
            simp only [batchTx, h1]
            rw [hmap _ hl]
            exact List.map_congr_left fun i hi => h9 i hi
        | lost e =>
          rw [hc] at h6
          obtain ⟨jobs', h7, h8, h9⟩ := failT_run (stmtOf := stmtOf) (E := E) e all { st1 with store := w', time := st1.time + 1, tx := none }
          refine ⟨none, .lost e, fates, { st1 with store := w', time := st1.time + 1, tx := none, jobs := jobs' }, hl, h6.trans ?_, hf.trans h8 (fun _ h => h) fun _ h => h, ?_, ?_⟩
          · simp only [DbSt.commit, h2, Option.getD_some]
            exact h7
          · rw [hex _ _ _ hl]
            simp only [batchTx, h1]
          · rw [hex _ _ _ hl]
            simp only [batchTx, h1]
            rw [hmap _ hl]
            exact List.map_congr_left fun i hi => h9 i hi

end Verif.Go
