import Verif.Model.Batched
/-!
# Invariant of the write batcher
-/

namespace Verif

variable {S : Type}

/-- The jobs of the executed batches, in order of execution. -/
def BSys.executed (b : BSys S) : List (BJob S) := b.batches.flatMap (·.1)

/-- The jobs being executed. -/
def BSys.inflight (b : BSys S) : List (BJob S) :=
  match b.worker with
  | .executing q => q
  | _ => []

/-- All accepted jobs. -/
def BSys.jobs (b : BSys S) : List (BJob S) := b.executed ++ b.inflight ++ b.queue

theorem execAll_length {js : List (BStmt S × JobFate)} {s s' : S} {rs : List ExecResult}
    (h : execAll js s = .ok (s', rs)) : rs.length = js.length := by
  induction js generalizing s s' rs with
  | nil => cases h; rfl
  | cons j js ih =>
    obtain ⟨st, f⟩ := j
    unfold execAll at h
    split at h
    · cases h
    · split at h
      · cases h
      · rename_i h2
        cases h
        simp [ih h2]

theorem execQueue_length (begin : Option DbErr) (commit : CommitOut) (js : List (BStmt S × JobFate)) (s : S) :
    (execQueue begin commit js s).2.length = js.length := by
  unfold execQueue
  split
  · rfl
  · rfl
  · split
    · rename_i s' rs h
      unfold batchTx at h
      cases begin with
      | some e => cases h
      | none =>
        simp only at h
        cases hx : execAll js s with
        | error e => rw [hx] at h; cases h
        | ok p =>
          rw [hx] at h
          have hl := execAll_length (s' := p.1) (rs := p.2) hx
          cases commit <;> simp only [Prod.mk.injEq, Except.ok.injEq, reduceCtorEq, and_false] at h
          rw [List.length_map, ← h.2, hl]
    · simp

/-- What the phase of the worker says about the other fields. -/
def BSys.Phase (b : BSys S) : Prop :=
  match b.worker with
  | .none => b.status = .notStarted ∧ b.queue = [] ∧ ∀ j ∈ b.executed, j.runId < b.runId
  | .started => b.status = .started ∧ b.queue ≠ [] ∧ (∀ j ∈ b.queue, j.runId = b.runId) ∧
      ∀ j ∈ b.executed, j.runId < b.runId
  | .executing q => b.status = .running ∧ q ≠ [] ∧ (∀ j ∈ q, j.runId = b.runId) ∧
      (∀ j ∈ b.queue, j.runId = b.runId + 1) ∧ ∀ j ∈ b.executed, j.runId < b.runId
  | .finished _ => b.status = .running ∧
      (∀ j ∈ b.queue, j.runId = b.runId + 1) ∧ ∀ j ∈ b.executed, j.runId < b.runId + 1

structure BInv (b : BSys S) : Prop where
  sorted : (b.jobs.map (·.id)).Pairwise (· < ·)
  bound : ∀ j ∈ b.jobs, j.id < b.nextJob
  lens : ∀ p ∈ b.batches, p.1.length = p.2.length
  res : ∀ p ∈ b.batches, ∀ x ∈ p.1.zip p.2, b.results x.1.id = some x.2
  pend : ∀ j ∈ b.asleep ++ b.awake, j ∈ b.jobs
  phase : b.Phase
  asleep : ∀ j ∈ b.asleep, j.runId ≥ b.runId
  subLen : b.submitted.length = b.nextJob
  sub : ∀ j ∈ b.jobs, b.submitted[j.id]? = some j.stmt
  ran : ∀ p ∈ b.batches, ∃ begin commit fates s, fates.length = p.1.length ∧
    p.2 = (execQueue begin commit ((p.1.map (·.stmt)).zip fates) s).2
  calls : ((b.asleep ++ b.awake).map (·.id) ++ b.returned.map (·.1)).Perm (List.range b.nextJob)
  ret : ∀ x ∈ b.returned, (x.2 = .closed ∧ b.closed = true ∧ ∀ j ∈ b.jobs, j.id ≠ x.1) ∨
    (∃ p ∈ b.batches, ∃ y ∈ p.1.zip p.2, y.1.id = x.1 ∧ x.2 = .done y.2)
  closed : b.closed = true ↔ b.close ≠ .notCalled
  closeAsleep : b.close = .asleep → b.status ≠ .notStarted
  closeDone : b.close = .done → b.status = .notStarted

theorem BInv.init (s : S) : BInv (BSys.init s) where
  sorted := by simp [BSys.jobs, BSys.executed, BSys.inflight, BSys.init]
  bound := by simp [BSys.jobs, BSys.executed, BSys.inflight, BSys.init]
  lens := by simp [BSys.init]
  res := by simp [BSys.init]
  pend := by simp [BSys.init]
  phase := by simp [BSys.Phase, BSys.executed, BSys.init]
  asleep := by simp [BSys.init]
  subLen := by simp [BSys.init]
  sub := by simp [BSys.jobs, BSys.executed, BSys.inflight, BSys.init]
  ran := by simp [BSys.init]
  calls := by simp [BSys.init]
  ret := by simp [BSys.init]
  closed := by simp [BSys.init]
  closeAsleep := by simp [BSys.init]
  closeDone := by simp [BSys.init]

/-- The worker is idle iff the status says so. -/
theorem BInv.idle {b : BSys S} (h : BInv b) (hs : b.status = .notStarted) :
    b.worker = .none ∧ b.queue = [] := by
  have := h.phase
  unfold BSys.Phase at this
  split at this
  · exact ⟨by assumption, this.2.1⟩
  · rw [this.1] at hs; cases hs
  · rw [this.1] at hs; cases hs
  · rw [this.1] at hs; cases hs

theorem BInv.submit {b : BSys S} (h : BInv b) (st : BStmt S) : BInv (b.submit st) := by
  unfold BSys.submit
  split
  · rename_i hc
    refine { h with bound := fun j hj => ?_, subLen := by simp [h.subLen], sub := ?_, calls := ?_, ret := ?_ }
    · exact Nat.lt_succ_of_lt (h.bound j hj)
    · intro j hj
      show (b.submitted ++ [st])[j.id]? = some j.stmt
      rw [List.getElem?_append_left (by rw [h.subLen]; exact h.bound j hj)]
      exact h.sub j hj
    · simp only [List.map_append, List.map_cons, List.map_nil, List.range_succ]
      rw [← List.append_assoc]
      have := h.calls
      rw [List.map_append] at this
      exact List.Perm.append_right _ this
    · intro x hx
      rcases List.mem_append.1 hx with hx | hx
      · exact h.ret x hx
      · rw [List.mem_singleton] at hx
        subst hx
        exact Or.inl ⟨rfl, hc, fun j hj => Nat.ne_of_lt (h.bound j hj)⟩
  · rename_i hc
    have hcl : b.close = .notCalled := by
      by_cases he : b.close = .notCalled
      · exact he
      · exact absurd (h.closed.2 he) hc
    simp only
    -- common facts about the new job
    generalize hj : (⟨b.nextJob, st, if b.status = .running then b.runId + 1 else b.runId⟩ : BJob S) = j
    have hid : j.id = b.nextJob := by rw [← hj]
    have hrun : j.runId = if b.status = .running then b.runId + 1 else b.runId := by rw [← hj]
    have hstmt : j.stmt = st := by rw [← hj]
    have hsub : ∀ i ∈ b.jobs ++ [j], (b.submitted ++ [st])[i.id]? = some i.stmt := by
      intro i hi
      rcases List.mem_append.1 hi with hi | hi
      · rw [List.getElem?_append_left (by rw [h.subLen]; exact h.bound i hi)]
        exact h.sub i hi
      · rw [List.mem_singleton] at hi
        rw [hi, hid, hstmt, ← h.subLen]; simp
    have hge : j.runId ≥ b.runId := by rw [hrun]; split <;> omega
    have hcalls : ((b.asleep ++ [j] ++ b.awake).map (·.id) ++ b.returned.map (·.1)).Perm (List.range (b.nextJob + 1)) := by
      rw [List.range_succ]
      have h1 : ((b.asleep ++ [j] ++ b.awake).map (·.id) ++ b.returned.map (·.1)).Perm
          (((b.asleep ++ b.awake).map (·.id) ++ b.returned.map (·.1)) ++ [b.nextJob]) := by
        simp only [List.map_append, List.map_cons, List.map_nil, hid, List.append_assoc]
        refine List.Perm.append_left _ ?_
        have := (List.perm_append_comm (l₁ := [b.nextJob])
          (l₂ := b.awake.map (·.id) ++ b.returned.map (·.1)))
        rw [List.append_assoc] at this
        exact this
      exact h1.trans (List.Perm.append_right _ h.calls)
    split
    · rename_i hs
      obtain ⟨hw, hq⟩ := h.idle hs
      have hjobs : ∀ (b' : BSys S), b'.batches = b.batches → b'.queue = b.queue ++ [j] → b'.worker = .started →
          b'.jobs = b.jobs ++ [j] := by
        intro b' h1 h2 h3
        simp [BSys.jobs, BSys.executed, BSys.inflight, h1, h2, h3, hw]
      have hJ := hjobs { b with queue := b.queue ++ [j], asleep := b.asleep ++ [j], nextJob := b.nextJob + 1, submitted := b.submitted ++ [st], status := .started, worker := .started } rfl rfl rfl
      refine ⟨?_, ?_, h.lens, h.res, ?_, ?_, ?_, by simp [h.subLen], by rw [hJ]; exact hsub, h.ran, hcalls, ?_, h.closed, ?_, ?_⟩
      · rw [hJ]
        rw [List.map_append, List.pairwise_append]
        refine ⟨h.sorted, by simp, ?_⟩
        intro x hx y hy
        simp only [List.map_cons, List.map_nil, List.mem_singleton] at hy
        obtain ⟨i, hi, rfl⟩ := List.mem_map.1 hx
        rw [hy, hid]; exact h.bound i hi
      · rw [hJ]
        intro i hi
        show i.id < b.nextJob + 1
        rcases List.mem_append.1 hi with hi | hi
        · have := h.bound i hi; omega
        · rw [List.mem_singleton] at hi; rw [hi, hid]; omega
      · rw [hJ]
        intro i hi
        have hi' : i ∈ b.asleep ++ [j] ++ b.awake := hi
        simp only [List.mem_append, List.mem_singleton] at hi' ⊢
        rcases hi' with (hi | hi) | hi
        · exact Or.inl (h.pend i (List.mem_append_left _ hi))
        · exact Or.inr hi
        · exact Or.inl (h.pend i (List.mem_append_right _ hi))
      · have hp := h.phase
        unfold BSys.Phase at hp
        rw [hw] at hp
        refine ⟨rfl, by simp, ?_, hp.2.2⟩
        intro i hi
        have hi' : i ∈ b.queue ++ [j] := hi
        rw [hq] at hi'
        simp only [List.nil_append, List.mem_singleton] at hi'
        rw [hi', hrun, hs]; simp
      · intro i hi
        have hi' : i ∈ b.asleep ++ [j] := hi
        rcases List.mem_append.1 hi' with hi | hi
        · exact h.asleep i hi
        · rw [List.mem_singleton] at hi; rw [hi]; exact hge
      · rw [hJ]
        intro x hx
        rcases h.ret x hx with ⟨_, h2, _⟩ | h1
        · exact absurd h2 hc
        · exact Or.inr h1
      · intro he; rw [hcl] at he; cases he
      · intro he; rw [hcl] at he; cases he
    · rename_i hs
      have hJ : BSys.jobs { b with queue := b.queue ++ [j], asleep := b.asleep ++ [j], nextJob := b.nextJob + 1, submitted := b.submitted ++ [st] } =
          b.jobs ++ [j] := by
        simp [BSys.jobs, BSys.executed, BSys.inflight]
      refine ⟨?_, ?_, h.lens, h.res, ?_, ?_, ?_, by simp [h.subLen], by rw [hJ]; exact hsub, h.ran, hcalls, ?_, h.closed, h.closeAsleep, h.closeDone⟩
      · rw [hJ]
        rw [List.map_append, List.pairwise_append]
        refine ⟨h.sorted, by simp, ?_⟩
        intro x hx y hy
        simp only [List.map_cons, List.map_nil, List.mem_singleton] at hy
        obtain ⟨i, hi, rfl⟩ := List.mem_map.1 hx
        rw [hy, hid]; exact h.bound i hi
      · rw [hJ]
        intro i hi
        show i.id < b.nextJob + 1
        rcases List.mem_append.1 hi with hi | hi
        · have := h.bound i hi; omega
        · rw [List.mem_singleton] at hi; rw [hi, hid]; omega
      · rw [hJ]
        intro i hi
        have hi' : i ∈ b.asleep ++ [j] ++ b.awake := hi
        simp only [List.mem_append, List.mem_singleton] at hi' ⊢
        rcases hi' with (hi | hi) | hi
        · exact Or.inl (h.pend i (List.mem_append_left _ hi))
        · exact Or.inr hi
        · exact Or.inl (h.pend i (List.mem_append_right _ hi))
      · have hp := h.phase
        unfold BSys.Phase at hp ⊢
        split at hp
        · exact absurd hp.1 hs
        · rename_i hw
          show match b.worker with
            | .none => _
            | .started => _
            | .executing q => _
            | .finished q => _
          rw [hw]
          refine ⟨hp.1, by simp, ?_, hp.2.2.2⟩
          intro i hi
          rcases List.mem_append.1 hi with hi | hi
          · exact hp.2.2.1 i hi
          · rw [List.mem_singleton] at hi; rw [hi, hrun, hp.1]; rfl
        · rename_i q hw
          show match b.worker with
            | .none => _
            | .started => _
            | .executing q => _
            | .finished q => _
          rw [hw]
          refine ⟨hp.1, hp.2.1, hp.2.2.1, ?_, hp.2.2.2.2⟩
          intro i hi
          rcases List.mem_append.1 hi with hi | hi
          · exact hp.2.2.2.1 i hi
          · rw [List.mem_singleton] at hi; rw [hi, hrun, hp.1]; rfl
        · rename_i q hw
          show match b.worker with
            | .none => _
            | .started => _
            | .executing q => _
            | .finished q => _
          rw [hw]
          refine ⟨hp.1, ?_, hp.2.2⟩
          intro i hi
          rcases List.mem_append.1 hi with hi | hi
          · exact hp.2.1 i hi
          · rw [List.mem_singleton] at hi; rw [hi, hrun, hp.1]; rfl
      · intro i hi
        have hi' : i ∈ b.asleep ++ [j] := hi
        rcases List.mem_append.1 hi' with hi | hi
        · exact h.asleep i hi
        · rw [List.mem_singleton] at hi; rw [hi]; exact hge
      · rw [hJ]
        intro x hx
        rcases h.ret x hx with ⟨_, h2, _⟩ | h1
        · exact absurd h2 hc
        · exact Or.inr h1

/-- A pending job whose turn is over has been executed. -/
theorem BInv.executed_of_lt {b : BSys S} (h : BInv b) {j : BJob S} (hj : j ∈ b.jobs) (hr : j.runId < b.runId) :
    ∃ p ∈ b.batches, ∃ y ∈ p.1.zip p.2, y.1 = j := by
  have hx : j ∈ b.executed := by
    unfold BSys.jobs at hj
    have hp := h.phase
    unfold BSys.Phase at hp
    unfold BSys.inflight at hj
    rcases List.mem_append.1 hj with hj | hj
    · rcases List.mem_append.1 hj with hj | hj
      · exact hj
      · split at hj
        · rename_i q hw
          rw [hw] at hp
          have := hp.2.2.1 j hj
          omega
        · cases hj
    · split at hp
      · rw [hp.2.1] at hj; cases hj
      · have := hp.2.2.1 j hj; omega
      · have := hp.2.2.2.1 j hj; omega
      · have := hp.2.1 j hj; omega
  obtain ⟨p, hp, hjp⟩ := List.mem_flatMap.1 hx
  obtain ⟨i, hi, hij⟩ := List.getElem_of_mem hjp
  have hl := h.lens p hp
  refine ⟨p, hp, (p.1[i], p.2[i]), ?_, hij⟩
  rw [List.mem_iff_getElem]
  exact ⟨i, by simp only [List.length_zip]; omega, by simp⟩

theorem BInv.wake {b : BSys S} (h : BInv b) {pre post : List (BJob S)} {j : BJob S} (hw : b.awake = pre ++ j :: post) :
    BInv (b.wake pre post j) := by
  have hmem : j ∈ b.jobs := h.pend j (by rw [hw]; simp)
  unfold BSys.wake
  split
  · rename_i hr
    refine ⟨h.sorted, h.bound, h.lens, h.res, ?_, h.phase, ?_, h.subLen, h.sub, h.ran, ?_, h.ret, h.closed,
      h.closeAsleep, h.closeDone⟩
    · intro i hi
      apply h.pend i
      rw [hw]
      have hi' : i ∈ b.asleep ++ [j] ++ (pre ++ post) := hi
      simp only [List.mem_append, List.mem_cons] at hi' ⊢
      rcases hi' with (hi | hi) | hi | hi
      · exact Or.inl hi
      · exact Or.inr (Or.inr (Or.inl (by simpa using hi)))
      · exact Or.inr (Or.inl hi)
      · exact Or.inr (Or.inr (Or.inr hi))
    · intro i hi
      rcases List.mem_append.1 hi with hi | hi
      · exact h.asleep i hi
      · rw [List.mem_singleton] at hi; rw [hi]; exact hr
    · refine List.Perm.trans ?_ h.calls
      rw [hw]
      refine List.Perm.append_right _ (List.Perm.map _ ?_)
      rw [List.append_assoc]
      refine List.Perm.append_left _ ?_
      exact (List.perm_middle (l₁ := pre)).symm
  · rename_i hr
    obtain ⟨p, hp, y, hy, hyj⟩ := h.executed_of_lt hmem (by omega)
    have hres := h.res p hp y hy
    refine ⟨h.sorted, h.bound, h.lens, h.res, ?_, h.phase, h.asleep, h.subLen, h.sub, h.ran, ?_, ?_, h.closed,
      h.closeAsleep, h.closeDone⟩
    · intro i hi
      apply h.pend i
      rw [hw]
      simp only [List.mem_append, List.mem_cons] at hi ⊢
      rcases hi with hi | hi | hi <;> simp [hi]
    · refine List.Perm.trans ?_ h.calls
      rw [hw]
      simp only [List.map_append, List.map_cons, List.map_nil, List.append_assoc]
      refine List.Perm.append_left _ (List.Perm.append_left _ ?_)
      rw [← List.append_assoc]
      exact (List.perm_append_comm (l₂ := [j.id])).trans (by simp)
    · intro x hx
      rcases List.mem_append.1 hx with hx | hx
      · exact h.ret x hx
      · rw [List.mem_singleton] at hx
        refine Or.inr ⟨p, hp, y, hy, by rw [hx, hyj], ?_⟩
        rw [hx]
        simp only [BSys.answer]
        rw [← hyj, hres]; rfl

/-- Fields unchanged by `take`. -/
theorem BSys.take_fields (b : BSys S) : b.take.batches = b.batches ∧ b.take.nextJob = b.nextJob ∧
    b.take.results = b.results ∧ b.take.asleep = b.asleep ∧ b.take.awake = b.awake ∧ b.take.returned = b.returned ∧
    b.take.closed = b.closed ∧ b.take.close = b.close ∧ b.take.runId = b.runId ∧ b.take.store = b.store ∧
    b.take.submitted = b.submitted := by
  unfold BSys.take
  split <;> exact ⟨rfl, rfl, rfl, rfl, rfl, rfl, rfl, rfl, rfl, rfl, rfl⟩

/-- Taking the queue keeps the accepted jobs. -/
theorem BSys.take_jobs (b : BSys S) (hi : b.inflight = []) : b.take.jobs = b.jobs := by
  unfold BSys.take
  split
  · simp [BSys.jobs, BSys.executed, hi]
    simp [BSys.inflight]
  · rename_i hq
    have hq : b.queue = [] := by
      cases hb : b.queue with
      | nil => rfl
      | cons a l => rw [hb] at hq; simp at hq
    simp [BSys.jobs, BSys.executed, hi, hq]
    simp [BSys.inflight]

/-- A worker that is about to take the queue. -/
theorem BInv.take {b : BSys S} (hsorted : (b.jobs.map (·.id)).Pairwise (· < ·)) (hbound : ∀ j ∈ b.jobs, j.id < b.nextJob)
    (hlens : ∀ p ∈ b.batches, p.1.length = p.2.length)
    (hres : ∀ p ∈ b.batches, ∀ x ∈ p.1.zip p.2, b.results x.1.id = some x.2)
    (hpend : ∀ j ∈ b.asleep ++ b.awake, j ∈ b.jobs)
    (hrun : b.status = .running) (hinf : b.inflight = [])
    (hq : ∀ j ∈ b.queue, j.runId = b.runId) (hx : ∀ j ∈ b.executed, j.runId < b.runId)
    (hasleep : ∀ j ∈ b.asleep, j.runId ≥ b.runId)
    (hsubLen : b.submitted.length = b.nextJob) (hsub : ∀ j ∈ b.jobs, b.submitted[j.id]? = some j.stmt)
    (hran : ∀ p ∈ b.batches, ∃ begin commit fates s, fates.length = p.1.length ∧
      p.2 = (execQueue begin commit ((p.1.map (·.stmt)).zip fates) s).2)
    (hcalls : ((b.asleep ++ b.awake).map (·.id) ++ b.returned.map (·.1)).Perm (List.range b.nextJob))
    (hret : ∀ x ∈ b.returned, (x.2 = .closed ∧ b.closed = true ∧ ∀ j ∈ b.jobs, j.id ≠ x.1) ∨
      (∃ p ∈ b.batches, ∃ y ∈ p.1.zip p.2, y.1.id = x.1 ∧ x.2 = .done y.2))
    (hclosed : b.closed = true ↔ b.close ≠ .notCalled)
    (hca : b.close = .asleep → b.queue ≠ []) (hcd : b.close ≠ .done) : BInv b.take := by
  obtain ⟨f1, f2, f3, f4, f5, f6, f7, f8, f9, _, f10⟩ := b.take_fields
  have hj := b.take_jobs hinf
  refine ⟨?_, ?_, ?_, ?_, ?_, ?_, ?_, by rw [f10, f2]; exact hsubLen, by rw [hj, f10]; exact hsub,
    by rw [f1]; exact hran, ?_, ?_, ?_, ?_, ?_⟩
  · rw [hj]; exact hsorted
  · rw [hj, f2]; exact hbound
  · rw [f1]; exact hlens
  · rw [f1, f3]; exact hres
  · rw [f4, f5, hj]; exact hpend
  · unfold BSys.take
    split
    · rename_i hl
      refine ⟨hrun, ?_, hq, by simp, hx⟩
      intro he; rw [he] at hl; simp at hl
    · rename_i hl
      refine ⟨rfl, ?_, hx⟩
      cases hb : b.queue with
      | nil => simp
      | cons a l => rw [hb] at hl; simp at hl
  · rw [f4, f9]; exact hasleep
  · rw [f4, f5, f6, f2]; exact hcalls
  · rw [f6, f1, hj, f7]; exact hret
  · rw [f7, f8]; exact hclosed
  · rw [f8]
    intro he
    have := hca he
    unfold BSys.take
    split
    · show b.status ≠ .notStarted
      rw [hrun]; intro h; cases h
    · rename_i hl
      exfalso
      apply hl
      cases hb : b.queue with
      | nil => exact absurd hb this
      | cons a l => simp
  · rw [f8]; exact fun he => absurd he hcd

theorem BInv.start {b : BSys S} (h : BInv b) (hw : b.worker = .started) :
    BInv (BSys.take { b with status := .running }) := by
  have hp := h.phase
  unfold BSys.Phase at hp
  rw [hw] at hp
  apply BInv.take (b := { b with status := .running }) h.sorted h.bound h.lens h.res h.pend rfl
    (by simp [BSys.inflight, hw]) hp.2.2.1 hp.2.2.2 h.asleep h.subLen h.sub h.ran h.calls h.ret h.closed
  · intro _; exact hp.2.1
  · intro he
    have := h.closeDone he
    rw [hp.1] at this; cases this

theorem BInv.next {b : BSys S} (h : BInv b) {q : List (BJob S)} (hw : b.worker = .finished q) :
    BInv b.broadcast.take := by
  have hp := h.phase
  unfold BSys.Phase at hp
  rw [hw] at hp
  have hc : b.close ≠ .done := by
    intro he
    have := h.closeDone he
    rw [hp.1] at this; cases this
  apply BInv.take (b := b.broadcast) h.sorted h.bound h.lens h.res
  · intro j hj
    apply h.pend j
    have hj' : j ∈ [] ++ (b.awake ++ b.asleep) := hj
    simp only [List.nil_append, List.mem_append] at hj' ⊢
    rcases hj' with hj | hj <;> simp [hj]
  · exact hp.1
  · simp [BSys.inflight, BSys.broadcast, hw]
  · exact hp.2.1
  · exact hp.2.2
  · intro j hj; cases hj
  · exact h.subLen
  · exact h.sub
  · exact h.ran
  · refine List.Perm.trans ?_ h.calls
    show (([] ++ (b.awake ++ b.asleep)).map (fun j : BJob S => j.id) ++ b.returned.map (·.1)).Perm _
    refine List.Perm.append_right _ (List.Perm.map _ ?_)
    rw [List.nil_append]
    exact List.perm_append_comm
  · exact h.ret
  · show b.closed = true ↔ (if b.close = .asleep then BClose.awake else b.close) ≠ .notCalled
    rw [h.closed]
    split
    · rename_i he; rw [he]; simp
    · rfl
  · show (if b.close = .asleep then BClose.awake else b.close) = .asleep → _
    split
    · intro he; cases he
    · intro he; contradiction
  · show (if b.close = .asleep then BClose.awake else b.close) ≠ .done
    split
    · intro he; cases he
    · exact hc

theorem writeResults_old {q : List (BJob S)} {rs old} {id : Nat} (h : ∀ j ∈ q, j.id ≠ id) :
    writeResults q rs old id = old id := by
  unfold writeResults
  cases hf : ((q.map (·.id)).zip rs).find? fun p => p.1 == id with
  | none => rfl
  | some p =>
    exfalso
    have hp := List.mem_of_find?_eq_some hf
    have he : p.1 = id := by simpa using List.find?_some hf
    have := List.of_mem_zip (a := p.1) (b := p.2) hp
    obtain ⟨j, hj, hij⟩ := List.mem_map.1 this.1
    exact h j hj (by rw [hij, he])

theorem writeResults_new {q : List (BJob S)} {rs old} {x : BJob S × Except DbErr ExecResult}
    (hn : (q.map (·.id)).Pairwise (· < ·)) (hx : x ∈ q.zip rs) : writeResults q rs old x.1.id = some x.2 := by
  have key : ((q.map (·.id)).zip rs).find? (fun p => p.1 == x.1.id) = some (x.1.id, x.2) := by
    induction q generalizing rs with
    | nil => simp at hx
    | cons j q ih =>
      cases rs with
      | nil => simp at hx
      | cons r rs =>
        simp only [List.zip_cons_cons, List.mem_cons, List.map_cons, List.pairwise_cons, List.find?_cons] at hx hn ⊢
        rcases hx with rfl | hx
        · simp
        · have hm := List.of_mem_zip (a := x.1) (b := x.2) hx
          have hlt := hn.1 x.1.id (List.mem_map_of_mem hm.1)
          have : (j.id == x.1.id) = false := by simp; omega
          rw [this]
          exact ih hn.2 hx
  unfold writeResults
  rw [key]

theorem BInv.exec {b : BSys S} (h : BInv b) {q : List (BJob S)} (begin : Option DbErr) (commit : CommitOut)
    (fates : List JobFate) (hf : fates.length = q.length) (hw : b.worker = .executing q) :
    BInv (b.exec q begin commit fates) := by
  have hp := h.phase
  unfold BSys.Phase at hp
  rw [hw] at hp
  unfold BSys.exec
  generalize hrs : (execQueue begin commit ((q.map (·.stmt)).zip fates) b.store).2 = rs
  generalize (execQueue begin commit ((q.map (·.stmt)).zip fates) b.store).1 = s'
  have hlen : q.length = rs.length := by
    rw [← hrs, execQueue_length]; simp [hf]
  have hinf : b.inflight = q := by simp [BSys.inflight, hw]
  have hJ : BSys.jobs { b with store := s', results := writeResults q rs b.results, batches := b.batches ++ [(q, rs)], worker := .finished q } = b.jobs := by
    simp only [BSys.jobs, BSys.executed, hinf]
    simp [BSys.inflight]
  have hsub : ∀ j ∈ q, j ∈ b.jobs := by
    intro j hj
    simp [BSys.jobs, hinf, hj]
  -- ids of the executed jobs are smaller than those of the queue being executed
  have hs := h.sorted
  rw [BSys.jobs, hinf, List.map_append, List.map_append, List.pairwise_append, List.pairwise_append] at hs
  have hdisj : ∀ p ∈ b.batches, ∀ i ∈ p.1, ∀ j ∈ q, j.id ≠ i.id := by
    intro p hpb i hi j hj he
    have := hs.1.2.2 i.id (List.mem_map_of_mem (List.mem_flatMap.2 ⟨p, hpb, hi⟩)) j.id (List.mem_map_of_mem hj)
    omega
  refine ⟨?_, ?_, ?_, ?_, ?_, ?_, h.asleep, h.subLen, by rw [hJ]; exact h.sub, ?_, h.calls, ?_, h.closed, h.closeAsleep,
    h.closeDone⟩
  · rw [hJ]; exact h.sorted
  · rw [hJ]; exact h.bound
  · intro p hpb
    rcases List.mem_append.1 hpb with hpb | hpb
    · exact h.lens p hpb
    · rw [List.mem_singleton] at hpb; rw [hpb]; exact hlen
  · intro p hpb x hx
    show writeResults q rs b.results x.1.id = some x.2
    rcases List.mem_append.1 hpb with hpb | hpb
    · rw [writeResults_old (hdisj p hpb x.1 (List.of_mem_zip (a := x.1) (b := x.2) hx).1)]
      exact h.res p hpb x hx
    · rw [List.mem_singleton] at hpb
      subst hpb
      exact writeResults_new hs.1.2.1 hx
  · rw [hJ]; exact h.pend
  · refine ⟨hp.1, hp.2.2.2.1, ?_⟩
    intro j hj
    show j.runId < b.runId + 1
    have hj' : j ∈ (b.batches ++ [(q, rs)]).flatMap (·.1) := hj
    rw [List.flatMap_append, List.mem_append] at hj'
    rcases hj' with hj | hj
    · have := hp.2.2.2.2 j hj; omega
    · simp only [List.flatMap_cons, List.flatMap_nil, List.append_nil] at hj
      have := hp.2.2.1 j hj; omega
  · intro p hpb
    rcases List.mem_append.1 hpb with hpb | hpb
    · exact h.ran p hpb
    · rw [List.mem_singleton] at hpb
      subst hpb
      exact ⟨begin, commit, fates, b.store, hf, hrs.symm⟩
  · rw [hJ]
    intro x hx
    rcases h.ret x hx with h1 | ⟨p, hpb, h1⟩
    · exact Or.inl h1
    · exact Or.inr ⟨p, List.mem_append_left _ hpb, h1⟩

theorem BInv.step {k : BActor} {a b : BSys S} (h : BInv a) (hs : BStep k a b) : BInv b := by
  cases hs with
  | submit _ st => exact h.submit st
  | wake _ pre post j hw => exact h.wake hw
  | start _ hw => exact h.start hw
  | exec _ q begin commit fates hf hw => exact h.exec begin commit fates hf hw
  | next _ q hw => exact h.next hw
  | env _ s =>
    exact ⟨h.sorted, h.bound, h.lens, h.res, h.pend, h.phase, h.asleep, h.subLen, h.sub, h.ran, h.calls, h.ret, h.closed, h.closeAsleep,
      h.closeDone⟩
  | close _ hc =>
    refine ⟨h.sorted, h.bound, h.lens, h.res, h.pend, h.phase, h.asleep, h.subLen, h.sub, h.ran, h.calls, ?_, by simp,
      by simp, by simp⟩
    intro x hx
    rcases h.ret x hx with ⟨h1, _, h2⟩ | h1
    · exact Or.inl ⟨h1, rfl, h2⟩
    · exact Or.inr h1
  | checkClose _ hc =>
    have hcl : a.closed = true := h.closed.2 (by rw [hc]; intro he; cases he)
    unfold BSys.checkClose
    split
    · rename_i hs
      exact ⟨h.sorted, h.bound, h.lens, h.res, h.pend, h.phase, h.asleep, h.subLen, h.sub, h.ran, h.calls, h.ret, by simp [hcl], by simp,
        fun _ => hs⟩
    · rename_i hs
      exact ⟨h.sorted, h.bound, h.lens, h.res, h.pend, h.phase, h.asleep, h.subLen, h.sub, h.ran, h.calls, h.ret, by simp [hcl], fun _ => hs,
        by simp⟩

theorem BReachable.inv {b : BSys S} (h : BReachable b) : BInv b := by
  induction h with
  | init s => exact BInv.init s
  | step _ hs ih => exact ih.step hs

end Verif
