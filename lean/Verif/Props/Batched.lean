import Verif.Lemmas.BatchedInv
import Verif.Model.System
/-!
# Properties of the write batcher: C41, C42, C43, C66
-/

namespace Verif

variable {S : Type}

/-! ## C41 Batched writes are all-or-nothing and ordered -/

/-- Specification: the statements executed one after the other. -/
def seqRun : List (BStmt S) → S → S × List ExecResult
  | [], s => (s, [])
  | st :: sts, s => ((seqRun sts (st s).1).1, (st s).2 :: (seqRun sts (st s).1).2)

theorem execAll_ok {js : List (BStmt S × JobFate)} {s s' : S} {rs : List ExecResult}
    (h : execAll js s = .ok (s', rs)) : (s', rs) = seqRun (js.map (·.1)) s := by
  induction js generalizing s s' rs with
  | nil => cases h; rfl
  | cons j js ih =>
    obtain ⟨st, f⟩ := j
    unfold execAll execInTx at h
    split at h
    · cases h
    · rename_i s1 r1 h1
      split at h1
      · cases h1
      · split at h1
        · cases h1
        · have h1' : st s = (s1, r1) := by simpa using h1
          split at h
          · cases h
          · rename_i s2 rs2 h2
            cases h
            have := ih h2
            simp only [List.map_cons, seqRun, h1', ← this]

/-- Whatever fails and wherever (begin, any statement, commit, cancelled jobs): either all writes of a batch take effect
in submission order and each of them gets its own result; or no write takes effect and every one of them gets an error;
or the acknowledgement of the commit was lost: all take effect, and every one of them gets an error. -/
theorem C41_all_or_nothing (begin : Option DbErr) (commit : CommitOut) (js : List (BStmt S × JobFate)) (s : S) :
    let out := execQueue begin commit js s
    let seq := seqRun (js.map (·.1)) s
    out.2.length = js.length ∧
    ((out.1 = seq.1 ∧ out.2 = seq.2.map .ok) ∨
     (out.1 = s ∧ ∀ r ∈ out.2, ∃ e, r = .error e) ∨
     (out.1 = seq.1 ∧ (∃ e, commit = .lost e) ∧ ∀ r ∈ out.2, ∃ e, r = .error e)) := by
  simp only
  unfold execQueue
  split
  · exact ⟨rfl, Or.inl ⟨rfl, rfl⟩⟩
  · rename_i st f
    refine ⟨rfl, ?_⟩
    unfold execSingle
    split
    · exact Or.inr (Or.inl ⟨rfl, by simp⟩)
    · split
      · exact Or.inr (Or.inl ⟨rfl, by simp⟩)
      · split
        · exact Or.inl ⟨rfl, rfl⟩
        · exact Or.inr (Or.inl ⟨rfl, by simp⟩)
        · exact Or.inr (Or.inr ⟨rfl, ⟨_, rfl⟩, by simp⟩)
  · have herr : ∀ e : DbErr, ∀ r ∈ (js.map fun _ => (.error e : Except DbErr ExecResult)), ∃ e, r = .error e := by
      intro e r hr
      obtain ⟨_, _, rfl⟩ := List.mem_map.1 hr
      exact ⟨e, rfl⟩
    unfold batchTx
    cases begin with
    | some e => exact ⟨by simp, Or.inr (Or.inl ⟨rfl, herr e⟩)⟩
    | none =>
      simp only
      cases hx : execAll js s with
      | error e => exact ⟨by simp, Or.inr (Or.inl ⟨rfl, herr e⟩)⟩
      | ok p =>
        obtain ⟨s', rs⟩ := p
        have hs := execAll_ok hx
        have hlen : ∀ (sts : List (BStmt S)) s, (seqRun sts s).2.length = sts.length := by
          intro sts
          induction sts with
          | nil => exact fun _ => rfl
          | cons st sts ih => intro s; simp [seqRun, ih]
        have hl : rs.length = js.length := by
          have := hlen (js.map (·.1)) s
          rw [← hs] at this
          simpa using this
        cases commit with
        | ok => exact ⟨by simpa using hl, Or.inl (by rw [← hs]; exact ⟨rfl, rfl⟩)⟩
        | fail e => exact ⟨by simp, Or.inr (Or.inl ⟨rfl, herr e⟩)⟩
        | lost e => exact ⟨by simp, Or.inr (Or.inr ⟨by rw [← hs], ⟨e, rfl⟩, herr e⟩)⟩

/-- Statements executed one after the other on the shared database, each with its own outcome, as in the rest of the
model (`World.exec`). -/
def runStmts : List (BStmt DB × Outcome) → World → World × List (Except DbErr ExecResult)
  | [], w => (w, [])
  | (st, o) :: js, w =>
    ((runStmts js (w.exec (fun db => (st db).1) o)).1,
      stmtAnswer st o w.db :: (runStmts js (w.exec (fun db => (st db).1) o)).2)

theorem runStmts_applied (sts : List (BStmt DB)) (o : Outcome) (ho : o.applied = true) (w : World) :
    (runStmts (sts.map fun st => (st, o)) w).1.db = (seqRun sts w.db).1 := by
  induction sts generalizing w with
  | nil => rfl
  | cons st sts ih =>
    simp only [List.map_cons, runStmts, seqRun]
    rw [ih]
    simp [World.exec, ho]

theorem runStmts_error (sts : List (BStmt DB)) (o : Outcome) (e : DbErr) (ho : o = .fail e ∨ o = .lost e) (w : World) :
    (runStmts (sts.map fun st => (st, o)) w).2 = sts.map fun _ => .error e := by
  induction sts generalizing w with
  | nil => rfl
  | cons st sts ih =>
    simp only [List.map_cons, runStmts, ih]
    rcases ho with rfl | rfl <;> rfl

theorem runStmts_fail (sts : List (BStmt DB)) (e : DbErr) (w : World) :
    (runStmts (sts.map fun st => (st, Outcome.fail e)) w).1 = w := by
  induction sts generalizing w with
  | nil => rfl
  | cons st sts ih =>
    simp only [List.map_cons, runStmts]
    rw [ih]
    simp [World.exec, Outcome.applied]

theorem runStmts_ok (sts : List (BStmt DB)) (w : World) :
    (runStmts (sts.map fun st => (st, Outcome.ok)) w).2 = (seqRun sts w.db).2.map .ok := by
  induction sts generalizing w with
  | nil => rfl
  | cons st sts ih =>
    simp only [List.map_cons, runStmts, seqRun, ih]
    simp [World.exec, Outcome.applied, stmtAnswer]

/-- All errors of a batch are equal. -/
theorem execQueue_same_error (begin : Option DbErr) (commit : CommitOut) (js : List (BStmt S × JobFate)) (s : S)
    (hall : ∀ r ∈ (execQueue begin commit js s).2, ∃ e, r = .error e) :
    ∃ e, (execQueue begin commit js s).2 = js.map fun _ => .error e := by
  unfold execQueue at hall ⊢
  split at hall
  · exact ⟨.other, rfl⟩
  · rename_i st f
    obtain ⟨e, he⟩ := hall _ (List.mem_singleton.2 rfl)
    exact ⟨e, by simp [he]⟩
  · split at hall
    · rename_i s' rs hb
      have hne : rs = [] := by
        cases rs with
        | nil => rfl
        | cons r rs => obtain ⟨e, he⟩ := hall (.ok r) (by simp); cases he
      unfold batchTx at hb
      cases begin with
      | some e => cases hb
      | none =>
        simp only at hb
        cases hx : execAll js s with
        | error e => rw [hx] at hb; cases hb
        | ok p =>
          have hs := execAll_ok (s' := p.1) (rs := p.2) hx
          have hrs : p.2 = [] := by
            rw [hx] at hb
            cases commit <;> simp only [Prod.mk.injEq, Except.ok.injEq, reduceCtorEq, and_false] at hb
            rw [hb.2, hne]
          have : js = [] := by
            cases js with
            | nil => rfl
            | cons j js =>
              have h2 : p.2 = (seqRun ((j :: js).map (·.1)) s).2 := by rw [← hs]
              rw [hrs] at h2
              simp [seqRun] at h2
          exact ⟨.other, by rw [this, hne]; rfl⟩
    · exact ⟨_, rfl⟩

/-- Batching adds no behaviour to the system: a batch leaves the database as its statements would if each was executed
on its own, one after the other, with one of the outcomes of the model of the system, and its callers get the answers
of these outcomes. So everything proved about the system holds with the batcher in between. -/
theorem C41_refines_single_statements (begin : Option DbErr) (commit : CommitOut) (js : List (BStmt DB × JobFate))
    (w : World) : ∃ os : List Outcome, os.length = js.length ∧
      (runStmts ((js.map (·.1)).zip os) w).1.db = (execQueue begin commit js w.db).1 ∧
      (runStmts ((js.map (·.1)).zip os) w).2 = (execQueue begin commit js w.db).2 := by
  have hz : ∀ o : Outcome, (js.map (·.1)).zip (js.map fun _ => o) = (js.map (·.1)).map fun st => (st, o) := by
    intro o
    induction js with
    | nil => rfl
    | cons j js ih => simp only [List.map_cons, List.zip_cons_cons, ih]
  obtain ⟨hlen, h⟩ := C41_all_or_nothing begin commit js w.db
  have hsame := execQueue_same_error begin commit js w.db
  rcases h with ⟨h1, h2⟩ | ⟨h1, h2⟩ | ⟨h1, _, h2⟩
  · refine ⟨js.map fun _ => .ok, by simp, ?_, ?_⟩
    · rw [hz, runStmts_applied _ _ rfl, h1]
    · rw [hz, runStmts_ok, h2]
  · obtain ⟨e, he⟩ := hsame h2
    refine ⟨js.map fun _ => .fail e, by simp, ?_, ?_⟩
    · rw [hz, runStmts_fail, h1]
    · rw [hz, runStmts_error _ _ e (Or.inl rfl), he, List.map_map]; rfl
  · obtain ⟨e, he⟩ := hsame h2
    refine ⟨js.map fun _ => .lost e, by simp, ?_, ?_⟩
    · rw [hz, runStmts_applied _ _ rfl, h1]
    · rw [hz, runStmts_error _ _ e (Or.inr rfl), he, List.map_map]; rfl

/-- A statement that appends its argument and reports the new length. -/
def appendStmt (n : Nat) : BStmt (List Nat) := fun l => (l ++ [n], ⟨1, l.length + 1⟩)

/-- Two writes in one batch, in order. -/
example : execQueue none .ok [(appendStmt 7, ⟨none, none⟩), (appendStmt 8, ⟨none, none⟩)] [1] =
    ([1, 7, 8], [.ok ⟨1, 2⟩, .ok ⟨1, 3⟩]) := rfl
/-- The second one fails: none takes effect, both get the error. -/
example : execQueue none .ok [(appendStmt 7, ⟨none, none⟩), (appendStmt 8, ⟨none, some .other⟩)] [1] =
    ([1], [.error .other, .error .other]) := rfl

/-! ## C66 A cancelled request does not disturb other requests -/

/-- False: in a batch of several jobs, the cancellation of one client's request makes the writes of all other clients in
the batch fail, with the error of that client's context, although neither their contexts nor the database failed. -/
theorem C66_cancel_fails_others_counterexample :
    ∃ (js : List (BStmt (List Nat) × JobFate)) (s : List Nat), (∃ j ∈ js, j.2 = ⟨none, none⟩) ∧
      (∀ j ∈ js, j.2.fail = none) ∧
      execQueue none .ok js s = (s, js.map fun _ => .error .canceled) :=
  ⟨[(appendStmt 7, ⟨some .canceled, none⟩), (appendStmt 8, ⟨none, none⟩)], [1],
    ⟨(appendStmt 8, ⟨none, none⟩), by simp, rfl⟩, by simp, rfl⟩

/-- What does hold: a job that is not cancelled and whose batch contains no failing or cancelled job is executed, unless
begin or commit fail. -/
theorem C66_undisturbed_partial (js : List (BStmt S × JobFate)) (s : S)
    (h : ∀ j ∈ js, j.2 = ⟨none, none⟩) :
    execQueue none .ok js s = ((seqRun (js.map (·.1)) s).1, (seqRun (js.map (·.1)) s).2.map .ok) := by
  have hall : ∀ (js : List (BStmt S × JobFate)) (s : S), (∀ j ∈ js, j.2 = ⟨none, none⟩) →
      execAll js s = .ok (seqRun (js.map (·.1)) s) := by
    intro js
    induction js with
    | nil => exact fun _ _ => rfl
    | cons j js ih =>
      obtain ⟨st, f⟩ := j
      intro s h
      have hf : f = ⟨none, none⟩ := h (st, f) (by simp)
      subst hf
      simp only [execAll, execInTx, List.map_cons, seqRun]
      rw [ih _ (fun j hj => h j (by simp [hj]))]
  unfold execQueue
  split
  · rfl
  · rename_i st f
    have hf : f = ⟨none, none⟩ := h (st, f) (by simp)
    subst hf
    rfl
  · unfold batchTx
    simp only [hall js s h]

/-- A batch of two such jobs exists. -/
example : ∀ j ∈ [(appendStmt 7, (⟨none, none⟩ : JobFate)), (appendStmt 8, ⟨none, none⟩)], j.2 = ⟨none, none⟩ := by simp

/-! ## C42 Each batched call returns its own result, after its execution -/

/-- The (call, result) pairs of all batches executed so far, in order of execution. -/
def BSys.executions (b : BSys S) : List (Nat × Except DbErr ExecResult) :=
  b.batches.flatMap fun p => (p.1.map (·.id)).zip p.2

theorem zip_ids {q : List (BJob S)} {rs : List (Except DbErr ExecResult)} (h : q.length = rs.length) :
    ((q.map (·.id)).zip rs).map (·.1) = q.map (·.id) := by
  apply List.map_fst_zip
  simp [h]

theorem BInv.executions_ids {b : BSys S} (h : BInv b) : b.executions.map (·.1) = b.executed.map (·.id) := by
  have hl := h.lens
  unfold BSys.executions BSys.executed
  generalize b.batches = l at hl ⊢
  induction l with
  | nil => rfl
  | cons p l ih =>
    simp only [List.flatMap_cons, List.map_append]
    rw [zip_ids (hl p (by simp)), ih (fun q hq => hl q (by simp [hq]))]

theorem BInv.executed_sorted {b : BSys S} (h : BInv b) : (b.executed.map (·.id)).Pairwise (· < ·) := by
  have := h.sorted
  rw [BSys.jobs, List.append_assoc, List.map_append, List.pairwise_append] at this
  exact this.1

/-- A list of pairs with increasing first components contains at most one pair per first component. -/
theorem filter_key_of_sorted {β : Type} {l : List (Nat × β)} (hs : (l.map (·.1)).Pairwise (· < ·)) {x : Nat × β}
    (hx : x ∈ l) : l.filter (fun p => p.1 == x.1) = [x] := by
  induction l with
  | nil => cases hx
  | cons p l ih =>
    simp only [List.map_cons, List.pairwise_cons] at hs
    rcases List.mem_cons.1 hx with rfl | hx
    · rw [List.filter_cons_of_pos (by simp)]
      congr 1
      rw [List.filter_eq_nil_iff]
      intro q hq
      have := hs.1 q.1 (List.mem_map_of_mem hq)
      simp; omega
    · have := hs.1 x.1 (List.mem_map_of_mem hx)
      rw [List.filter_cons_of_neg (by simp; omega)]
      exact ih hs.2 hx

/-- In every schedule of callers, worker and `Close`, whatever fails: a call that has returned with anything but the
"closed" error was executed in exactly one batch (the log of executions contains exactly one entry for it), and what it
returned is what the execution of its own statement in that batch, at its own position, gave. -/
theorem C42_own_result {b : BSys S} (h : BReachable b) {id : Nat} {r : Except DbErr ExecResult}
    (hr : (id, BAnswer.done r) ∈ b.returned) :
    b.executions.filter (fun p => p.1 == id) = [(id, r)] ∧
    ∃ (sts : List (BStmt S)) (k : Nat) (begin : Option DbErr) (commit : CommitOut) (fates : List JobFate) (s : S),
      fates.length = sts.length ∧ sts[k]? = b.submitted[id]? ∧ k < sts.length ∧
      (execQueue begin commit (sts.zip fates) s).2[k]? = some r := by
  have hi := h.inv
  rcases hi.ret _ hr with ⟨h1, _⟩ | ⟨p, hp, y, hy, hid, hv⟩
  · cases h1
  · simp only [BAnswer.done.injEq] at hv hid
    obtain ⟨k, hk, hky⟩ := List.getElem_of_mem hy
    simp only [List.length_zip] at hk
    simp only [List.getElem_zip] at hky
    constructor
    · have hs := hi.executed_sorted
      rw [← hi.executions_ids] at hs
      apply filter_key_of_sorted (x := (id, r)) hs
      refine List.mem_flatMap.2 ⟨p, hp, ?_⟩
      rw [List.mem_iff_getElem]
      refine ⟨k, by simpa using hk, ?_⟩
      simp only [List.getElem_zip, List.getElem_map, hv, ← hid, ← hky]
    · obtain ⟨begin, commit, fates, s, hf, hran⟩ := hi.ran p hp
      refine ⟨p.1.map (·.stmt), k, begin, commit, fates, s, by simpa using hf, ?_, by simp; omega, ?_⟩
      · have hjm : y.1 ∈ b.jobs := by
          have : y.1 ∈ p.1 := (List.of_mem_zip (a := y.1) (b := y.2) hy).1
          exact List.mem_append_left _ (List.mem_append_left _ (List.mem_flatMap.2 ⟨p, hp, this⟩))
        rw [← hid, hi.sub _ hjm, List.getElem?_eq_getElem (by simp; omega)]
        simp [← hky]
      · rw [← hran, hv, List.getElem?_eq_getElem (by omega), ← hky]

/-- No call returns twice, and every call made so far has either returned or is still waiting. -/
theorem C42_one_answer {b : BSys S} (h : BReachable b) :
    (b.returned.map (·.1)).Nodup ∧
    ∀ id, id < b.nextJob ↔ (∃ a, (id, a) ∈ b.returned) ∨ ∃ j ∈ b.asleep ++ b.awake, j.id = id := by
  have hi := h.inv
  have hn := hi.calls.nodup_iff.2 List.nodup_range
  refine ⟨(List.nodup_append.1 hn).2.1, fun id => ?_⟩
  have := hi.calls.mem_iff (a := id)
  rw [List.mem_range, List.mem_append, List.mem_map, List.mem_map] at this
  rw [← this]
  constructor
  · rintro (⟨j, hj, rfl⟩ | ⟨⟨i, a⟩, hx, rfl⟩)
    · exact Or.inr ⟨j, hj, rfl⟩
    · exact Or.inl ⟨a, hx⟩
  · rintro (⟨a, hx⟩ | ⟨j, hj, rfl⟩)
    · exact Or.inr ⟨_, hx, rfl⟩
    · exact Or.inl ⟨j, hj, rfl⟩

/-- Writes are executed in the order of submission, across all batches. -/
theorem C41_submission_order {b : BSys S} (h : BReachable b) : (b.executions.map (·.1)).Pairwise (· < ·) := by
  rw [h.inv.executions_ids]
  exact h.inv.executed_sorted

/-! ## C43 The batched database shuts down cleanly -/

/-- After `Close` has been called, a new call is answered at once with the "closed" error and nothing else happens. -/
theorem C43_rejects_after_close {b : BSys S} (h : BReachable b) (hc : b.close ≠ .notCalled) (st : BStmt S) :
    (b.submit st).returned = b.returned ++ [(b.nextJob, .closed)] ∧ (b.submit st).queue = b.queue ∧
    (b.submit st).worker = b.worker ∧ (b.submit st).store = b.store := by
  have := h.inv.closed.2 hc
  simp [BSys.submit, this]

/-- A call that got the "closed" error is never executed, not even later, and was made after `Close` was called. -/
theorem C43_rejected_never_executed {b : BSys S} (h : BReachable b) {id : Nat} (hr : (id, BAnswer.closed) ∈ b.returned) :
    id ∉ b.executions.map (·.1) ∧ b.close ≠ .notCalled := by
  have hi := h.inv
  rcases hi.ret _ hr with ⟨_, h1, h2⟩ | ⟨p, hp, y, hy, hid, hv⟩
  · refine ⟨?_, hi.closed.1 h1⟩
    rw [hi.executions_ids]
    intro hm
    obtain ⟨j, hj, he⟩ := List.mem_map.1 hm
    exact h2 j (List.mem_append_left _ (List.mem_append_left _ hj)) he
  · cases hv

/-- Once `Close` has returned (then and ever after), there is no worker, no queued job, and every call that was not
rejected has been executed. -/
theorem C43_close_waits {b : BSys S} (h : BReachable b) (hc : b.close = .done) :
    b.worker = .none ∧ b.queue = [] ∧
    ∀ id, id < b.nextJob → (id, BAnswer.closed) ∈ b.returned ∨ id ∈ b.executions.map (·.1) := by
  have hi := h.inv
  obtain ⟨hw, hq⟩ := hi.idle (hi.closeDone hc)
  refine ⟨hw, hq, fun id hid => ?_⟩
  have hjobs : b.jobs = b.executed := by
    simp [BSys.jobs, BSys.inflight, hw, hq]
  rw [hi.executions_ids]
  rcases ((C42_one_answer h).2 id).1 hid with ⟨a, ha⟩ | ⟨j, hj, rfl⟩
  · rcases hi.ret _ ha with ⟨h1, _⟩ | ⟨p, hp, y, hy, he, _⟩
    · simp only at h1
      rw [h1] at ha
      exact Or.inl ha
    · refine Or.inr ?_
      have : y.1 ∈ p.1 := (List.of_mem_zip (a := y.1) (b := y.2) hy).1
      simp only at he
      rw [← he]
      exact List.mem_map_of_mem (List.mem_flatMap.2 ⟨p, hp, this⟩)
  · have := hi.pend j hj
    rw [hjobs] at this
    exact Or.inr (List.mem_map_of_mem this)

/-- A step that needs no new call: the worker, or a goroutine inside of a call or of `Close`. -/
def BInternal (a b : BSys S) : Prop := BStep .worker a b ∨ BStep .waiter a b

/-- How much the worker still has to do. -/
def BSys.work (b : BSys S) : Nat :=
  match b.worker, b.queue with
  | .none, _ => 0
  | .finished _, [] => 1
  | .executing _, [] => 2
  | .started, _ => 3
  | .finished _, _ :: _ => 4
  | .executing _, _ :: _ => 5

/-- How many goroutines have been woken. -/
def BSys.woken (b : BSys S) : Nat := b.awake.length + if b.close = .awake then 1 else 0

theorem take_work (b : BSys S) : b.take.work ≤ 2 := by
  unfold BSys.take
  split <;> simp [BSys.work]

theorem take_work_nil (b : BSys S) (h : b.queue = []) : b.take.work = 0 := by
  simp [BSys.take, BSys.work, h]

theorem internal_decreases {a b : BSys S} (hs : BInternal a b) :
    b.work < a.work ∨ (b.work = a.work ∧ b.woken < a.woken) := by
  rcases hs with hs | hs
  · refine Or.inl ?_
    cases hs with
    | start _ hw =>
      have := take_work { a with status := BatchStatus.running }
      have h3 : a.work = 3 := by unfold BSys.work; rw [hw]
      omega
    | exec _ q begin commit fates hf hw =>
      unfold BSys.work BSys.exec
      rw [hw]
      simp only
      split <;> simp_all
    | next _ q hw =>
      have h2 := take_work a.broadcast
      have h0 := take_work_nil a.broadcast
      have hq : a.broadcast.queue = a.queue := rfl
      rw [hq] at h0
      have : a.work = if a.queue = [] then 1 else 4 := by
        unfold BSys.work
        rw [hw]
        cases a.queue <;> simp
      rw [this]
      split
      · have := h0 (by assumption); omega
      · omega
  · refine Or.inr ?_
    cases hs with
    | wake _ pre post j hw =>
      unfold BSys.wake
      split
      · refine ⟨rfl, ?_⟩
        simp only [BSys.woken, hw, List.length_append, List.length_cons]; omega
      · refine ⟨rfl, ?_⟩
        simp only [BSys.woken, hw, List.length_append, List.length_cons]; omega
    | checkClose _ hc =>
      unfold BSys.checkClose
      split
      · refine ⟨rfl, ?_⟩
        simp [BSys.woken, hc]
      · refine ⟨rfl, ?_⟩
        simp [BSys.woken, hc]

/-- Without new calls the batcher cannot run forever... -/
theorem C43_terminates (f : Nat → BSys S) : ¬ ∀ n, BInternal (f n) (f (n + 1)) := by
  intro h
  have key : ∀ w k n, (f n).work = w → (f n).woken = k → False := by
    intro w
    induction w using Nat.strongRecOn with
    | ind w ihw =>
      intro k
      induction k using Nat.strongRecOn with
      | ind k ihk =>
        intro n hw hk
        rcases internal_decreases (h n) with hlt | ⟨he, hlt⟩
        · exact ihw (f (n+1)).work (by omega) (f (n+1)).woken (n+1) rfl rfl
        · exact ihk (f (n+1)).woken (by omega) (n+1) (by omega) rfl
  exact key _ _ 0 rfl rfl

/-- ... and it stops only when every call has returned, no job is queued, the worker has ended and `Close`, if it was
called, has returned: no wakeup is ever lost. -/
theorem C43_stops_only_when_done {b : BSys S} (h : BReachable b) (hq : ∀ c, ¬ BInternal b c) :
    (∀ id, id < b.nextJob → ∃ a, (id, a) ∈ b.returned) ∧ b.queue = [] ∧ b.worker = .none ∧
    (b.close = .notCalled ∨ b.close = .done) := by
  have hi := h.inv
  have hw : b.worker = .none := by
    cases hb : b.worker with
    | none => rfl
    | started => exact absurd (Or.inl (BStep.start b hb)) (hq _)
    | executing q =>
      exact absurd (Or.inl (BStep.exec b q none .ok (q.map fun _ => ⟨none, none⟩) (by simp) hb)) (hq _)
    | finished q => exact absurd (Or.inl (BStep.next b q hb)) (hq _)
  have hp := hi.phase
  unfold BSys.Phase at hp
  rw [hw] at hp
  have hawake : b.awake = [] := by
    cases hb : b.awake with
    | nil => rfl
    | cons j l => exact absurd (Or.inr (BStep.wake b [] l j (by rw [hb]; rfl))) (hq _)
  have hasleep : b.asleep = [] := by
    cases hb : b.asleep with
    | nil => rfl
    | cons j l =>
      have h1 := hi.asleep j (by rw [hb]; simp)
      have h2 := hi.pend j (by rw [hb]; simp)
      have : b.jobs = b.executed := by simp [BSys.jobs, BSys.inflight, hw, hp.2.1]
      rw [this] at h2
      have := hp.2.2 j h2
      omega
  refine ⟨fun id hid => ?_, hp.2.1, hw, ?_⟩
  · rcases ((C42_one_answer h).2 id).1 hid with ha | ⟨j, hj, _⟩
    · exact ha
    · rw [hasleep, hawake] at hj; cases hj
  · cases hc : b.close with
    | notCalled => exact Or.inl rfl
    | done => exact Or.inr rfl
    | awake => exact absurd (Or.inr (BStep.checkClose b hc)) (hq _)
    | asleep => exact absurd hp.1 (hi.closeAsleep hc)

/-- The number of worker steps until the turn of a pending job is over. -/
def BSys.turns (b : BSys S) (j : BJob S) : Nat :=
  if j.runId < b.runId then 0
  else match b.worker with
    | .none => 0
    | .started => 3
    | .executing _ => if j.runId = b.runId then 2 else 4
    | .finished _ => if j.runId = b.runId then 1 else 3

theorem BInv.runId_le {b : BSys S} (h : BInv b) {j : BJob S} (hj : j ∈ b.jobs) :
    (b.worker = .none → j.runId < b.runId) ∧ (b.worker = .started → j.runId ≤ b.runId) ∧ j.runId ≤ b.runId + 1 ∧
    (∀ q, b.worker = .finished q → j.runId = b.runId + 1 → j ∈ b.queue) ∧
    (∀ q, b.worker = .executing q → j.runId = b.runId → j ∈ q) := by
  have hp := h.phase
  unfold BSys.Phase at hp
  unfold BSys.jobs BSys.inflight at hj
  rcases List.mem_append.1 hj with hj | hj
  · rcases List.mem_append.1 hj with hj | hj
    · split at hp
      · rename_i hw
        have := hp.2.2 j hj
        simp only [hw]
        exact ⟨fun _ => this, nofun, by omega, nofun, nofun⟩
      · rename_i hw
        have := hp.2.2.2 j hj
        simp only [hw]
        exact ⟨nofun, fun _ => by omega, by omega, nofun, nofun⟩
      · rename_i hw
        have := hp.2.2.2.2 j hj
        simp only [hw]
        exact ⟨nofun, nofun, by omega, nofun, fun _ _ h => by omega⟩
      · rename_i hw
        have := hp.2.2 j hj
        simp only [hw]
        exact ⟨nofun, nofun, by omega, fun _ _ h => by omega, nofun⟩
    · split at hj
      · rename_i q hw
        rw [hw] at hp
        have := hp.2.2.1 j hj
        simp only [hw]
        exact ⟨nofun, nofun, by omega, nofun,
          fun q' h _ => by (cases h; exact hj)⟩
      · cases hj
  · split at hp
    · rw [hp.2.1] at hj; cases hj
    · rename_i hw
      have := hp.2.2.1 j hj
      simp only [hw]
      exact ⟨nofun, fun _ => by omega, by omega, nofun, nofun⟩
    · rename_i hw
      have := hp.2.2.2.1 j hj
      simp only [hw]
      exact ⟨nofun, nofun, by omega, nofun, fun _ _ h => by omega⟩
    · rename_i hw
      have := hp.2.1 j hj
      simp only [hw]
      exact ⟨nofun, nofun, by omega, fun _ _ _ => hj, nofun⟩

/-- However many other calls keep arriving, a pending call is answered after at most four steps of the worker: it never
needs more than four; each step of the worker brings it one closer and no other step sets it back; as long as it is not
zero the worker can take a step; and when it is zero, the caller has been woken and returns with its next step. -/
theorem C43_bounded_waiting {a : BSys S} (h : BReachable a) {j : BJob S} (hj : j ∈ a.asleep ++ a.awake) :
    a.turns j ≤ 4 ∧
    (∀ k b, BStep k a b → b.turns j = a.turns j - if k = .worker then 1 else 0) ∧
    (a.turns j ≠ 0 → ∃ b, BStep .worker a b) ∧
    (a.turns j = 0 → j ∈ a.awake ∧ ∀ pre post, a.awake = pre ++ j :: post →
      (a.wake pre post j).returned = a.returned ++ [(j.id, a.answer j)]) := by
  have hi := h.inv
  have hjob := hi.pend j hj
  obtain ⟨h1, h2, h3, h4, h5⟩ := hi.runId_le hjob
  refine ⟨?_, ?_, ?_, ?_⟩
  · unfold BSys.turns
    split
    · omega
    · split <;> (try split) <;> omega
  · intro k b hs
    cases hs with
    | submit _ st =>
      unfold BSys.submit
      split
      · simp [BSys.turns]
      · dsimp only
        by_cases hst : a.status = .notStarted
        · rw [if_pos hst]
          obtain ⟨hw, _⟩ := hi.idle hst
          have := h1 hw
          simp [BSys.turns, this]
        · rw [if_neg hst]
          simp [BSys.turns]
    | wake _ pre post i hw =>
      unfold BSys.wake
      split <;> simp [BSys.turns]
    | env _ s => simp [BSys.turns]
    | close _ hc => simp [BSys.turns]
    | checkClose _ hc => unfold BSys.checkClose; split <;> simp [BSys.turns]
    | start _ hw =>
      have hle := h2 hw
      have hp := hi.phase
      unfold BSys.Phase at hp
      rw [hw] at hp
      have hq : 0 < a.queue.length := List.length_pos_iff.2 hp.2.1
      simp only [BSys.take, BSys.turns, hw, gt_iff_lt, hq, if_true]
      split
      · rfl
      · rw [if_pos (by omega)]
    | exec _ q begin commit fates hf hw =>
      simp only [BSys.exec, BSys.turns, hw, if_true]
      by_cases hlt : j.runId < a.runId
      · rw [if_pos hlt]
        exact if_pos hlt
      · rw [if_neg hlt]
        by_cases he : j.runId = a.runId
        · rw [if_pos he]
          exact (if_neg hlt).trans (if_pos he)
        · rw [if_neg he]
          exact (if_neg hlt).trans (if_neg he)
    | next _ q hw =>
      have hq := h4 q hw
      have h9 := a.broadcast.take_fields.2.2.2.2.2.2.2.2.1
      have hr : a.broadcast.runId = a.runId + 1 := rfl
      simp only [BSys.turns, h9, hr, hw, if_true]
      by_cases hlt : j.runId < a.runId
      · simp [hlt]; omega
      · by_cases he : j.runId = a.runId
        · rw [if_pos (by omega), if_neg hlt, if_pos he]
        · have hm := hq (by omega)
          have hlen : 0 < a.broadcast.queue.length := List.length_pos_of_mem hm
          have hte : a.broadcast.take.worker = .executing a.broadcast.queue := by
            simp [BSys.take, hlen]
          rw [hte, if_neg (by omega), if_neg hlt, if_neg he]
          simp only
          rw [if_pos (by omega)]
  · intro hne
    unfold BSys.turns at hne
    split at hne
    · exact absurd rfl hne
    · cases hb : a.worker with
      | none => rw [hb] at hne; exact absurd rfl hne
      | started => exact ⟨_, BStep.start a hb⟩
      | executing q =>
        exact ⟨_, BStep.exec a q none .ok (q.map fun _ => ⟨none, none⟩) (by simp) hb⟩
      | finished q => exact ⟨_, BStep.next a q hb⟩
  · intro h0
    have hlt : j.runId < a.runId := by
      unfold BSys.turns at h0
      split at h0
      · assumption
      · cases hb : a.worker with
        | none => exact h1 hb
        | started => rw [hb] at h0; simp at h0
        | executing q => rw [hb] at h0; simp only at h0; split at h0 <;> omega
        | finished q => rw [hb] at h0; simp only at h0; split at h0 <;> omega
    refine ⟨?_, fun pre post hw => ?_⟩
    · rcases List.mem_append.1 hj with hj | hj
      · have := hi.asleep j hj; omega
      · exact hj
    · unfold BSys.wake
      rw [if_neg (by omega)]

/-- A run: a call, the worker takes it, two more calls arrive meanwhile, the worker executes the first one alone and the
others together, `Close` is called in between, everybody is answered and `Close` returns. -/
def demoBatch : BSys (List Nat) :=
  let ok : JobFate := ⟨none, none⟩
  let j0 : BJob (List Nat) := ⟨0, appendStmt 7, 0⟩
  let j1 : BJob (List Nat) := ⟨1, appendStmt 8, 1⟩
  let j2 : BJob (List Nat) := ⟨2, appendStmt 9, 1⟩
  let b := (BSys.init [1]).submit (appendStmt 7)
  let b := BSys.take { b with status := .running }
  let b := (b.submit (appendStmt 8)).submit (appendStmt 9)
  let b := b.exec [j0] none .ok [ok]
  let b := { b with closed := true, close := .awake }
  let b := b.checkClose
  let b := b.submit (appendStmt 10)
  let b := b.broadcast.take
  let b := b.exec [j1, j2] none .ok [ok, ok]
  let b := b.broadcast.take
  let b := b.checkClose
  let b := b.wake [] [j1, j2] j0
  let b := b.wake [j1] [] j2
  b.wake [] [] j1

theorem demoBatch_reachable : BReachable demoBatch := by
  refine .step (.step (.step (.step (.step (.step (.step (.step (.step (.step (.step (.step (.step (.step
    (.init [1]) (.submit _ (appendStmt 7))) (.start _ rfl)) (.submit _ (appendStmt 8))) (.submit _ (appendStmt 9)))
    (.exec _ _ none .ok [⟨none, none⟩] rfl rfl)) (.close _ rfl)) (.checkClose _ rfl)) (.submit _ (appendStmt 10)))
    (.next _ _ rfl)) (.exec _ _ none .ok [⟨none, none⟩, ⟨none, none⟩] rfl rfl)) (.next _ _ rfl)) (.checkClose _ rfl))
    (.wake _ [] _ _ rfl)) (.wake _ [_] _ _ rfl) |> fun h => .step h (.wake _ [] _ _ rfl)

/-- In this run every call has returned its own result, the late one was rejected and `Close` has returned. -/
example : demoBatch.store = [1, 7, 8, 9] ∧ demoBatch.close = .done ∧
    demoBatch.returned = [(3, .closed), (0, .done (.ok ⟨1, 2⟩)), (2, .done (.ok ⟨1, 4⟩)), (1, .done (.ok ⟨1, 3⟩))] ∧
    demoBatch.executions = [(0, .ok ⟨1, 2⟩), (1, .ok ⟨1, 3⟩), (2, .ok ⟨1, 4⟩)] :=
  ⟨rfl, rfl, rfl, rfl⟩

/-- A caller waiting for its turn, four worker steps away. -/
example : let b := BSys.take { (BSys.init [1]).submit (appendStmt 7) with status := .running }
    let b := b.submit (appendStmt 8)
    BReachable b ∧ ∃ j ∈ b.asleep ++ b.awake, b.turns j = 4 :=
  ⟨.step (.step (.step (.init [1]) (.submit _ (appendStmt 7))) (.start _ rfl)) (.submit _ (appendStmt 8)),
    ⟨1, appendStmt 8, 1⟩, List.mem_append_left _ (List.mem_cons_of_mem _ (List.mem_singleton.2 rfl)), rfl⟩

end Verif
