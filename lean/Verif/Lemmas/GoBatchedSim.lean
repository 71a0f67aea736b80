import Verif.Lemmas.GoBatchedExec
/-!
# The goroutines running the text of `batched.go` do what the model of the batcher does
-/

namespace Verif.Go

open Verif.GoText

variable {S : Type} {stmtOf : List UInt8 → List V → BStmt S} {N : Nat}

/-! ### Lock sections -/

/-- `ExecContext` after `Lock`. -/
def execBody (N c : Nat) (q : List UInt8) (l : List V) : Th :=
  .getClosed fun cl => cond cl (.unlock (.ret [.nil, closedV])) (.getRunId fun r => .getStatus fun st =>
      cond (decide (st = 2)) (submitT N c q l (r + 1)) (submitT N c q l r))

theorem execCall_eq (N c : Nat) (q : List UInt8) (l : List V) : execCall N c q l = .lock (execBody N c q l) := ExecContext_tree N c q l

/-- `Close` after `Lock`. -/
def closeBody (N : Nat) : Th :=
  .getClosed fun cl => cond cl (.unlock (.ret [closedV])) (.setClosed true (.stopWorker (closeLoopT N)))

theorem closeCall_eq (N : Nat) : closeCall N = .lock (closeBody N) := Close_tree N

attribute [local irreducible] execCall closeCall queueCall goroutine

/-- The worker after having executed a queue and `Lock`. -/
def finishT (n : Nat) : Th := .getRunId fun i => .setRunId (i + 1) (.broadcast (workLoopT n))

theorem execBody_closed (c : Nat) (q : List UInt8) (l : List V) (ce : Option DbErr) (m : BMem) (h : m.closed = true) :
    (execBody N c q l).sec ce m [] false = ⟨m, [], false, .unlocked (.ret [.nil, closedV])⟩ := by
  simp [execBody, Th.sec, h]

/-- The memory after the first lock section of `ExecContext`. -/
def submitMem (m : BMem) (c : Nat) (q : List UInt8) (l : List V) : BMem :=
  { m with
    jobs := setJob m.jobs m.next fun _ => ⟨c, q, l, if m.status = 2 then m.runId + 1 else m.runId, 0, 0, none⟩
    next := m.next + 1
    queue := m.queue ++ [jobV m.next]
    status := if m.status = 0 then 1 else m.status }

theorem execBody_open (c : Nat) (q : List UInt8) (l : List V) (ce : Option DbErr) (m : BMem) (h : m.closed = false) :
    (execBody (N + 1) c q l).sec ce m [] false =
    ⟨submitMem m c q l, if m.status = 0 then [workerT (N + 1)] else [], false, .waits (waitT m.next N)⟩ := by
  by_cases h0 : m.status = 0
  · simp [execBody, Th.sec, h, h0, submitT, runT, submitMem, waitT, setJob]
  · by_cases h2 : m.status = 2
    · have h3 : m.runId ≤ m.runId + 1 := by omega
      simp [execBody, Th.sec, h, h2, submitT, runT, submitMem, waitT, setJob, h3]
    · simp [execBody, Th.sec, h, h2, h0, submitT, runT, submitMem, waitT, setJob]

theorem execBody_out (c : Nat) (q : List UInt8) (l : List V) (ce : Option DbErr) (m : BMem) (h : m.closed = false) :
    ((execBody 0 c q l).sec ce m [] false).fin = .out := by
  by_cases h0 : m.status = 0
  · simp [execBody, Th.sec, h, h0, submitT, runT, waitT]
  · by_cases h2 : m.status = 2 <;> simp [execBody, Th.sec, h, h2, h0, submitT, runT, waitT]

theorem execBody_sec (c : Nat) (q : List UInt8) (l : List V) (ce : Option DbErr) (m : BMem) (h : m.closed = false) :
    (execBody N c q l).sec ce m [] false =
    ⟨submitMem m c q l, if m.status = 0 then [workerT N] else [], false, match N with | 0 => .out | M + 1 => .waits (waitT m.next M)⟩ := by
  cases N with
  | succ N => exact execBody_open c q l ce m h
  | zero =>
    by_cases h0 : m.status = 0
    · simp [execBody, Th.sec, h, h0, submitT, runT, submitMem, waitT]
    · by_cases h2 : m.status = 2
      · simp [execBody, Th.sec, h, h2, submitT, runT, submitMem, waitT]
      · simp [execBody, Th.sec, h, h2, h0, submitT, runT, submitMem, waitT]

theorem waitT_sec (j n : Nat) (ce : Option DbErr) (m : BMem) :
    (waitT j (n + 1)).sec ce m [] false =
    ⟨m, [], false, if m.runId ≤ (m.jobs j).runId then .waits (waitT j n) else
      .unlocked (.ret (match (m.jobs j).err with | none => [jobV j, .nil] | some e => [.nil, dbErrV e]))⟩ := by
  by_cases h : m.runId ≤ (m.jobs j).runId
  · simp [waitT, Th.sec, h]
  · cases he : (m.jobs j).err <;> simp [waitT, Th.sec, h, he]

theorem workLoopT_sec (n : Nat) (ce : Option DbErr) (m : BMem) (bc : Bool) :
    (workLoopT (n + 1)).sec ce m [] bc =
    if 0 < m.queue.length then ⟨{ m with queue := [] }, [], bc, .unlocked (.execQueue m.queue (.lock (finishT n)))⟩
    else ⟨{ m with status := 0 }, [], bc, .unlocked (.ret [])⟩ := by
  by_cases h : 0 < m.queue.length
  · have h' : (0 : Int) < m.queue.length := by omega
    simp only [workLoopT, Th.sec, h', decide_true, cond_true, if_pos h]
    rfl
  · have h' : ¬ (0 : Int) < m.queue.length := by omega
    simp only [workLoopT, Th.sec, h', decide_false, cond_false, if_neg h]

theorem closeLoopT_sec (n : Nat) (ce : Option DbErr) (m : BMem) :
    (closeLoopT (n + 1)).sec ce m [] false =
    ⟨m, [], false, if m.status = 0 then .unlocked (.ret (match ce with | none => [.nil] | some e => [dbErrV e])) else .waits (closeLoopT n)⟩ := by
  by_cases h : m.status = 0
  · cases ce <;> simp [closeLoopT, Th.sec, h]
  · simp [closeLoopT, Th.sec, h]

/-! ### The relation -/

/-- The number of a status. -/
def BatchStatus.code : BatchStatus → Int
  | .notStarted => 0
  | .started => 1
  | .running => 2

/-- What a goroutine is doing, and what the model says about it. `J p` is the job of the model for the job at `p`, `ids n` the number of the call
of goroutine `n`; `wk` is the worker and `cl` the call of `Close` that is not rejected. -/
inductive Shape (stmtOf : List UInt8 → List V → BStmt S) (N next : Nat) (b : BSys S) (J : Nat → BJob S) (ids : Nat → Option Nat) (wk cl n : Nat) :
    Origin → TSt → Prop where
  | execNew (c : Nat) (q : List UInt8) (l : List V) (hi : ids n = none) : Shape stmtOf N next b J ids wk cl n (.exec c q l) (.run (execCall N c q l))
  | execSleep (c : Nat) (q : List UInt8) (l : List V) (p k : Nat) (hp : p < next) (hm : J p ∈ b.asleep) (hi : ids n = some (J p).id)
      (hs : b.submitted[(J p).id]? = some (stmtOf q l)) : Shape stmtOf N next b J ids wk cl n (.exec c q l) (.asleep (waitT p k))
  | execWoken (c : Nat) (q : List UInt8) (l : List V) (p k : Nat) (hp : p < next) (hm : J p ∈ b.awake) (hi : ids n = some (J p).id)
      (hs : b.submitted[(J p).id]? = some (stmtOf q l)) : Shape stmtOf N next b J ids wk cl n (.exec c q l) (.woken (waitT p k))
  | execClosed (c : Nat) (q : List UInt8) (l : List V) (id : Nat) (hi : ids n = some id) (hr : (id, BAnswer.closed) ∈ b.returned)
      (hs : b.submitted[id]? = some (stmtOf q l)) : Shape stmtOf N next b J ids wk cl n (.exec c q l) (.run (.ret [.nil, closedV]))
  | execErr (c : Nat) (q : List UInt8) (l : List V) (id : Nat) (e : DbErr) (hi : ids n = some id) (hr : (id, BAnswer.done (.error e)) ∈ b.returned)
      (hs : b.submitted[id]? = some (stmtOf q l)) : Shape stmtOf N next b J ids wk cl n (.exec c q l) (.run (.ret [.nil, dbErrV e]))
  | execOk (c : Nat) (q : List UInt8) (l : List V) (p : Nat) (r : ExecResult) (hp : p < next) (hi : ids n = some (J p).id)
      (hr : ((J p).id, BAnswer.done (.ok r)) ∈ b.returned) (hs : b.submitted[(J p).id]? = some (stmtOf q l)) :
      Shape stmtOf N next b J ids wk cl n (.exec c q l) (.run (.ret [jobV p, .nil]))
  | closeNew : Shape stmtOf N next b J ids wk cl n .close (.run (closeCall N))
  | closeSleep (k : Nat) (hn : n = cl) (hc : b.close = .asleep) : Shape stmtOf N next b J ids wk cl n .close (.asleep (closeLoopT k))
  | closeWoken (k : Nat) (hn : n = cl) (hc : b.close = .awake) : Shape stmtOf N next b J ids wk cl n .close (.woken (closeLoopT k))
  | closeRejected (hc : b.close ≠ .notCalled) : Shape stmtOf N next b J ids wk cl n .close (.run (.ret [closedV]))
  | closeDone (vs : List V) (hn : n = cl) (hc : b.close = .done) (hv : vs = [.nil] ∨ ∃ e, vs = [dbErrV e]) :
      Shape stmtOf N next b J ids wk cl n .close (.run (.ret vs))
  | workStart (hn : n = wk) (hw : b.worker = .started) : Shape stmtOf N next b J ids wk cl n .worker (.run (workerT N))
  | workExec (k : Nat) (Q : List Nat) (hn : n = wk) (hw : b.worker = .executing (Q.map J)) (hQ : ∀ p ∈ Q, p < next) :
      Shape stmtOf N next b J ids wk cl n .worker (.run (.execQueue (Q.map jobV) (.lock (finishT k))))
  | workFin (k : Nat) (q : List (BJob S)) (hn : n = wk) (hw : b.worker = .finished q) : Shape stmtOf N next b J ids wk cl n .worker (.run (.lock (finishT k)))
  | workDone : Shape stmtOf N next b J ids wk cl n .worker (.run (.ret []))

/-- The goroutines and the model. -/
structure Rel (stmtOf : List UInt8 → List V → BStmt S) (N : Nat) (P : PSys S) (b : BSys S) (J : Nat → BJob S) (ids : Nat → Option Nat) (wk cl : Nat) : Prop where
  store : P.store = b.store
  closed : P.mem.closed = b.closed
  runId : P.mem.runId = b.runId
  status : P.mem.status = BatchStatus.code b.status
  queue : ∃ Q : List Nat, P.mem.queue = Q.map jobV ∧ b.queue = Q.map J ∧ ∀ p ∈ Q, p < P.mem.next
  jobs : ∀ p, p < P.mem.next → (P.mem.jobs p).runId = (J p).runId ∧ stmtAt stmtOf P.mem.jobs p = (J p).stmt ∧
    resOf (P.mem.jobs p) = (b.results (J p).id).getD (.ok ⟨0, 0⟩) ∧ (J p).id < b.nextJob
  rows : ∀ p, p < P.mem.next → 0 ≤ (P.mem.jobs p).rows
  inj : ∀ p p', p < P.mem.next → p' < P.mem.next → (J p).id = (J p').id → p = p'
  idsB : ∀ n a, ids n = some a → a < b.nextJob ∧ n < P.threads.length
  idsInj : ∀ n n' a, ids n = some a → ids n' = some a → n = n'
  shape : ∀ n o x, P.threads[n]? = some (o, x) → Shape stmtOf N P.mem.next b J ids wk cl n o x
  work : b.worker ≠ .none → ∃ x, P.threads[wk]? = some (.worker, x) ∧ x ≠ .run (.ret [])
  /-- the results of jobs without a number of the model are unset -/
  fresh : ∀ id, b.nextJob ≤ id → b.results id = none
  /-- every call of the model is the call of a goroutine -/
  calls : ∀ a, a < b.nextJob → ∃ (n c : Nat) (q : List UInt8) (l : List V) (x : TSt), ids n = some a ∧ P.threads[n]? = some (.exec c q l, x) ∧ b.submitted[a]? = some (stmtOf q l)

theorem Rel.init (s : S) (J : Nat → BJob S) : Rel stmtOf N (PSys.init s) (BSys.init s) J (fun _ => none) 0 0 where
  store := rfl
  closed := rfl
  runId := rfl
  status := rfl
  queue := ⟨[], rfl, rfl, fun p hp => by cases hp⟩
  jobs := fun p hp => absurd hp (Nat.not_lt_zero p)
  rows := fun p hp => absurd hp (Nat.not_lt_zero p)
  inj := fun p _ hp => absurd hp (Nat.not_lt_zero p)
  idsB := fun _ _ h => by cases h
  idsInj := fun _ _ _ h => by cases h
  shape := fun n o x h => by simp [PSys.init] at h
  work := fun h => absurd rfl h
  fresh := fun _ _ => rfl
  calls := fun a h => absurd h (Nat.not_lt_zero a)

/-- A goroutine that does nothing, while others do something. -/
theorem Shape.keep {next next' : Nat} {b b' : BSys S} {J J' : Nat → BJob S} {ids ids' : Nat → Option Nat} {wk wk' cl cl' n : Nat} {o : Origin} {x : TSt} (bc : Bool)
    (h : Shape stmtOf N next b J ids wk cl n o x) (hnext : next ≤ next') (hJ : ∀ p, p < next → J' p = J p)
    (hids : ids' n = ids n) (hsub : ∃ l, b'.submitted = b.submitted ++ l) (hret : ∀ x ∈ b.returned, x ∈ b'.returned)
    (hasleep : ∀ p, p < next → ids n = some (J p).id → J p ∈ b.asleep → (bc = false → J p ∈ b'.asleep) ∧ (bc = true → J p ∈ b'.awake))
    (hawake : ∀ p, p < next → ids n = some (J p).id → J p ∈ b.awake → J p ∈ b'.awake)
    (hclose : n = cl → b.close ≠ .notCalled → cl' = cl ∧ b'.close = if bc = true ∧ b.close = .asleep then .awake else b.close)
    (hclosed : b.close ≠ .notCalled → b'.close ≠ .notCalled)
    (hwork : n = wk → b.worker ≠ .none → wk' = wk ∧ b'.worker = b.worker) :
    Shape stmtOf N next' b' J' ids' wk' cl' n o (x.wake bc) := by
  obtain ⟨sl, hsl⟩ := hsub
  have hs : ∀ (id : Nat) st, b.submitted[id]? = some st → b'.submitted[id]? = some st := by
    intro id st h
    rw [hsl, List.getElem?_append_left (List.getElem?_eq_some_iff.1 h).1]
    exact h
  cases h with
  | execNew c q l hi => exact .execNew c q l (hids.trans hi)
  | execSleep c q l p k hp hm hi hst =>
    have := hasleep p hp hi hm
    have hj := hJ p hp
    cases bc with
    | false => exact .execSleep c q l p k (by omega) (by rw [hj]; exact this.1 rfl) (by rw [hj]; exact hids.trans hi) (by rw [hj]; exact hs _ _ hst)
    | true => exact .execWoken c q l p k (by omega) (by rw [hj]; exact this.2 rfl) (by rw [hj]; exact hids.trans hi) (by rw [hj]; exact hs _ _ hst)
  | execWoken c q l p k hp hm hi hst =>
    have hj := hJ p hp
    exact .execWoken c q l p k (by omega) (by rw [hj]; exact hawake p hp hi hm) (by rw [hj]; exact hids.trans hi) (by rw [hj]; exact hs _ _ hst)
  | execClosed c q l id hi hr hst => exact .execClosed c q l id (hids.trans hi) (hret _ hr) (hs _ _ hst)
  | execErr c q l id e hi hr hst => exact .execErr c q l id e (hids.trans hi) (hret _ hr) (hs _ _ hst)
  | execOk c q l p r hp hi hr hst =>
    have hj := hJ p hp
    exact .execOk c q l p r (by omega) (by rw [hj]; exact hids.trans hi) (by rw [hj]; exact hret _ hr) (by rw [hj]; exact hs _ _ hst)
  | closeNew => exact .closeNew
  | closeSleep k hn hc =>
    obtain ⟨h1, h2⟩ := hclose hn (by rw [hc]; decide)
    cases bc with
    | false => exact .closeSleep k (hn.trans h1.symm) (by rw [h2, hc]; rfl)
    | true => exact .closeWoken k (hn.trans h1.symm) (by rw [h2, hc]; rfl)
  | closeWoken k hn hc =>
    obtain ⟨h1, h2⟩ := hclose hn (by rw [hc]; decide)
    exact .closeWoken k (hn.trans h1.symm) (by rw [h2, hc]; simp)
  | closeRejected hc => exact .closeRejected (hclosed hc)
  | closeDone vs hn hc hv =>
    obtain ⟨h1, h2⟩ := hclose hn (by rw [hc]; decide)
    exact .closeDone vs (hn.trans h1.symm) (by rw [h2, hc]; simp) hv
  | workStart hn hw =>
    obtain ⟨h1, h2⟩ := hwork hn (by rw [hw]; nofun)
    exact .workStart (hn.trans h1.symm) (h2.trans hw)
  | workExec k Q hn hw hQ =>
    obtain ⟨h1, h2⟩ := hwork hn (by rw [hw]; nofun)
    refine .workExec k Q (hn.trans h1.symm) (h2.trans (hw.trans ?_)) fun p hp => Nat.lt_of_lt_of_le (hQ p hp) hnext
    exact congrArg _ (List.map_congr_left fun p hp => (hJ p (hQ p hp)).symm)
  | workFin k q hn hw =>
    obtain ⟨h1, h2⟩ := hwork hn (by rw [hw]; nofun)
    exact .workFin k q (hn.trans h1.symm) (h2.trans hw)
  | workDone => exact .workDone

/-- The goroutines after a lock section. -/
theorem after_threads {P : PSys S} {i : Nat} {x : TSt} {r : SecRes} {n : Nat} {o : Origin} {y : TSt} (h : (P.after i x r).threads[n]? = some (o, y)) :
    (n = i ∧ y = x ∧ ∃ z, P.threads[n]? = some (o, z)) ∨ (n ≠ i ∧ ∃ z, P.threads[n]? = some (o, z) ∧ y = z.wake r.bcast) ∨
    (∃ k t, n = P.threads.length + k ∧ r.spawned[k]? = some t ∧ o = .worker ∧ y = .run t) := by
  unfold PSys.after at h
  simp only at h
  by_cases hn : n < P.threads.length
  · rw [List.getElem?_append_left (by simpa using hn), List.getElem?_mapIdx] at h
    rw [List.getElem?_eq_getElem hn] at h
    simp only [Option.map_some, Option.some.injEq, Prod.mk.injEq] at h
    obtain ⟨h1, h2⟩ := h
    rw [List.getElem?_eq_getElem hn]
    by_cases hi : n = i
    · rw [if_pos hi] at h2
      exact Or.inl ⟨hi, h2.symm, P.threads[n].2, by rw [← h1]⟩
    · rw [if_neg hi] at h2
      exact Or.inr (Or.inl ⟨hi, P.threads[n].2, by rw [← h1], h2.symm⟩)
  · rw [List.getElem?_append_right (by simpa using Nat.not_lt.1 hn), List.length_mapIdx, List.getElem?_map] at h
    cases hs : r.spawned[n - P.threads.length]? with
    | none => rw [hs] at h; cases h
    | some t =>
      rw [hs] at h
      simp only [Option.map_some, Option.some.injEq, Prod.mk.injEq] at h
      exact Or.inr (Or.inr ⟨n - P.threads.length, t, by omega, hs, h.1.symm, h.2.symm⟩)

theorem after_get {P : PSys S} {i : Nat} {x : TSt} {r : SecRes} {n : Nat} {o : Origin} {y : TSt} (h : P.threads[n]? = some (o, y)) :
    (P.after i x r).threads[n]? = some (o, if n = i then x else y.wake r.bcast) := by
  unfold PSys.after
  obtain ⟨hn, h⟩ := List.getElem?_eq_some_iff.1 h
  simp only
  rw [List.getElem?_append_left (by simpa using hn), List.getElem?_mapIdx, List.getElem?_eq_getElem hn, h]
  rfl

theorem after_length {P : PSys S} {i : Nat} {x : TSt} {r : SecRes} : (P.after i x r).threads.length = P.threads.length + r.spawned.length := by
  simp [PSys.after]

theorem Rel.calls_after {P : PSys S} {b : BSys S} {J : Nat → BJob S} {ids : Nat → Option Nat} {wk cl : Nat} (hR : Rel stmtOf N P b J ids wk cl) (i : Nat) (x : TSt) (r : SecRes) (a : Nat) (h : a < b.nextJob) :
    ∃ (n c : Nat) (q : List UInt8) (l : List V) (y : TSt), ids n = some a ∧ (P.after i x r).threads[n]? = some (.exec c q l, y) ∧ b.submitted[a]? = some (stmtOf q l) := by
  obtain ⟨n, c, q, l, y, h1, h2, h3⟩ := hR.calls a h
  exact ⟨n, c, q, l, _, h1, after_get h2, h3⟩

/-- Some steps of the model, none of them by anybody else. -/
inductive BPath : BSys S → BSys S → Prop where
  | refl (b : BSys S) : BPath b b
  | step {a b c : BSys S} {k : BActor} : BPath a b → BStep k b c → k ≠ .env → BPath a c

theorem BPath.reach {a b : BSys S} (h : BPath a b) (ha : BReachable a) : BReachable b := by
  induction h with
  | refl => exact ha
  | step _ hs _ ih => exact .step ih hs

theorem BPath.one {a b : BSys S} {k : BActor} (h : BStep k a b) (hk : k ≠ .env := by decide) : BPath a b := .step (.refl a) h hk

theorem BPath.trans {a b c : BSys S} (h : BPath a b) (h' : BPath b c) : BPath a c := by
  induction h' with
  | refl => exact h
  | step _ hs hk ih => exact .step ih hs hk

/-- What the next state of the model is. -/
def SimTo (stmtOf : List UInt8 → List V → BStmt S) (N : Nat) (b : BSys S) (ids : Nat → Option Nat) (P' : PSys S) : Prop :=
  ∃ b' J' ids' wk' cl', BPath b b' ∧ Rel stmtOf N P' b' J' ids' wk' cl' ∧ ∀ n a, ids n = some a → ids' n = some a

variable {P : PSys S} {b : BSys S} {J : Nat → BJob S} {ids : Nat → Option Nat} {wk cl : Nat}

/-- A goroutine's call gets a number. -/
def setId (ids : Nat → Option Nat) (i a : Nat) : Nat → Option Nat := fun n => if n = i then some a else ids n

theorem setId_self (ids : Nat → Option Nat) (i a : Nat) : setId ids i a i = some a := if_pos rfl

theorem setId_ne (ids : Nat → Option Nat) {i a n : Nat} (h : n ≠ i) : setId ids i a n = ids n := if_neg h

theorem Rel.setIds (hR : Rel stmtOf N P b J ids wk cl) {i len : Nat} (hi : i < P.threads.length) (hl : P.threads.length ≤ len) :
    (∀ n a, setId ids i b.nextJob n = some a → a < b.nextJob + 1 ∧ n < len) ∧
    (∀ n n' a, setId ids i b.nextJob n = some a → setId ids i b.nextJob n' = some a → n = n') := by
  constructor
  · intro n a h
    unfold setId at h
    split at h
    · cases h
      exact ⟨Nat.lt_succ_self _, by omega⟩
    · have := hR.idsB n a h
      omega
  · intro n n' a h h'
    unfold setId at h h'
    split at h <;> split at h'
    · omega
    · cases h
      exact absurd (hR.idsB _ _ h').1 (Nat.lt_irrefl _)
    · cases h'
      exact absurd (hR.idsB _ _ h).1 (Nat.lt_irrefl _)
    · exact hR.idsInj n n' a h h'

theorem Rel.setIds_calls (hb : BReachable b) (hR : Rel stmtOf N P b J ids wk cl) {i c : Nat} {q : List UInt8} {l : List V} {z x : TSt} (r : SecRes)
    (hi : P.threads[i]? = some (.exec c q l, z)) (hids : ids i = none) (a : Nat) (h : a < b.nextJob + 1) :
    ∃ (n c' : Nat) (q' : List UInt8) (l' : List V) (y : TSt), setId ids i b.nextJob n = some a ∧ (P.after i x r).threads[n]? = some (.exec c' q' l', y) ∧
      (b.submitted ++ [stmtOf q l])[a]? = some (stmtOf q' l') := by
  by_cases ha : a < b.nextJob
  · obtain ⟨n, c', q', l', y, h1, h2, h3⟩ := hR.calls_after i x r a ha
    refine ⟨n, c', q', l', y, ?_, h2, ?_⟩
    · rw [setId_ne _ fun hn => ?_]
      · exact h1
      · rw [hn, hids] at h1
        cases h1
    · rw [List.getElem?_append_left (List.getElem?_eq_some_iff.1 h3).1]
      exact h3
  · have : a = b.nextJob := by omega
    subst this
    refine ⟨i, c, q, l, _, setId_self _ _ _, after_get hi, ?_⟩
    rw [← hb.inv.subLen]
    simp

theorem Rel.setIds_ext {i a : Nat} (h : ids i = none) : ∀ n c, ids n = some c → setId ids i a n = some c := by
  intro n c hc
  by_cases hn : n = i
  · subst hn
    rw [h] at hc
    cases hc
  · rw [setId_ne _ hn]
    exact hc

/-- The worker, if it is not the goroutine that has taken a step, is still there. -/
theorem Rel.work_after (hR : Rel stmtOf N P b J ids wk cl) {i : Nat} {o : Origin} {z x : TSt} {r : SecRes} (hi : P.threads[i]? = some (o, z)) (ho : o ≠ .worker)
    (hw : b.worker ≠ .none) : ∃ x', (P.after i x r).threads[wk]? = some (.worker, x') ∧ x' ≠ .run (.ret []) := by
  obtain ⟨x', hx, hx'⟩ := hR.work hw
  refine ⟨_, after_get hx, ?_⟩
  have h : wk ≠ i := by
    rintro rfl
    rw [hi] at hx
    cases hx
    exact ho rfl
  rw [if_neg h]
  cases x' with
  | run t => exact hx'
  | asleep t => cases hbc : r.bcast <;> simp [TSt.wake]
  | woken t => nofun

/-- `ExecContext` of a closed batcher. -/
theorem sim_closed (hb : BReachable b) (hR : Rel stmtOf N P b J ids wk cl) {i c : Nat} {q : List UInt8} {l : List V} {z : TSt}
    (hi : P.threads[i]? = some (.exec c q l, z)) (hids : ids i = none) (hc : b.closed = true) :
    SimTo stmtOf N b ids (P.after i (.run (.ret [.nil, closedV])) ⟨P.mem, [], false, .unlocked (.ret [.nil, closedV])⟩) := by
  have hsub : b.submit (stmtOf q l) = { b with nextJob := b.nextJob + 1, submitted := b.submitted ++ [stmtOf q l], returned := b.returned ++ [(b.nextJob, .closed)] } := by
    simp [BSys.submit, hc]
  have hlen := (List.getElem?_eq_some_iff.1 hi).1
  refine ⟨b.submit (stmtOf q l), J, setId ids i b.nextJob, wk, cl, .one (.submit b (stmtOf q l)), ?_, Rel.setIds_ext hids⟩
  rw [hsub]
  exact {
    store := hR.store
    closed := hR.closed
    runId := hR.runId
    status := hR.status
    queue := hR.queue
    jobs := fun p hp => by
      obtain ⟨h1, h2, h3, h4⟩ := hR.jobs p hp
      exact ⟨h1, h2, h3, Nat.lt_succ_of_lt h4⟩
    rows := hR.rows
    inj := hR.inj
    idsB := (hR.setIds hlen (by rw [after_length]; omega)).1
    idsInj := (hR.setIds hlen (Nat.le_refl _)).2
    shape := fun n o y h => by
      rcases after_threads h with ⟨hn, rfl, z', hz⟩ | ⟨hn, z', hz, rfl⟩ | ⟨k, t, _, ht, _⟩
      · subst hn
        rw [hi] at hz
        cases hz
        refine .execClosed c q l b.nextJob (setId_self _ _ _) (by simp) ?_
        show (b.submitted ++ [stmtOf q l])[b.nextJob]? = _
        rw [← hb.inv.subLen]
        simp
      · exact (hR.shape n o z' hz).keep false (Nat.le_refl _) (fun _ _ => rfl) (setId_ne _ hn) ⟨_, rfl⟩ (fun x hx => List.mem_append_left _ hx)
          (fun p hp hi hm => ⟨fun _ => hm, fun h => by cases h⟩) (fun p hp hi hm => hm) (fun _ _ => ⟨rfl, by simp⟩) (fun h => h) (fun _ _ => ⟨rfl, rfl⟩)
      · cases ht
    work := fun hw => hR.work_after hi (by nofun) hw
    fresh := fun id h => hR.fresh id (by have : b.nextJob + 1 ≤ id := h; omega)
    calls := hR.setIds_calls hb _ hi hids }

theorem status_zero (hR : Rel stmtOf N P b J ids wk cl) : P.mem.status = 0 ↔ b.status = .notStarted := by
  rw [hR.status]
  cases b.status <;> decide

theorem status_two (hR : Rel stmtOf N P b J ids wk cl) : P.mem.status = 2 ↔ b.status = .running := by
  rw [hR.status]
  cases b.status <;> decide

/-- `ExecContext` of a batcher that is open. -/
theorem sim_open {M : Nat} (hN : N = M + 1) (hb : BReachable b) (hR : Rel stmtOf N P b J ids wk cl) {i c : Nat} {q : List UInt8} {l : List V} {z : TSt}
    (hi : P.threads[i]? = some (.exec c q l, z)) (hids : ids i = none) (hc : b.closed = false) :
    SimTo stmtOf N b ids (P.after i (.asleep (waitT P.mem.next M))
      ⟨submitMem P.mem c q l, if P.mem.status = 0 then [workerT N] else [], false, .waits (waitT P.mem.next M)⟩) := by
  subst hN
  generalize hjob : (⟨b.nextJob, stmtOf q l, if b.status = .running then b.runId + 1 else b.runId⟩ : BJob S) = job
  have hjid : job.id = b.nextJob := by rw [← hjob]
  have hsub : b.submit (stmtOf q l) = { b with
      queue := b.queue ++ [job], asleep := b.asleep ++ [job], nextJob := b.nextJob + 1, submitted := b.submitted ++ [stmtOf q l],
      status := if b.status = .notStarted then .started else b.status, worker := if b.status = .notStarted then .started else b.worker } := by
    rw [← hjob]
    unfold BSys.submit
    by_cases h : b.status = .notStarted <;> simp [hc, h]
  have hlen := (List.getElem?_eq_some_iff.1 hi).1
  have hz := status_zero hR
  refine ⟨b.submit (stmtOf q l), fun p => if p = P.mem.next then job else J p, setId ids i b.nextJob, if b.status = .notStarted then P.threads.length else wk, cl,
    .one (.submit b (stmtOf q l)), ?_, Rel.setIds_ext hids⟩
  rw [hsub]
  have hJ : ∀ p, p < P.mem.next → (fun p => if p = P.mem.next then job else J p) p = J p := fun p hp => if_neg (Nat.ne_of_lt hp)
  exact {
    store := hR.store
    closed := hR.closed
    runId := hR.runId
    status := by
      show (if P.mem.status = 0 then 1 else P.mem.status) = BatchStatus.code (if b.status = .notStarted then .started else b.status)
      by_cases h : b.status = .notStarted
      · rw [if_pos h, if_pos (hz.2 h)]
        rfl
      · rw [if_neg h, if_neg (fun h' => h (hz.1 h'))]
        exact hR.status
    queue := by
      obtain ⟨Q, h1, h2, h3⟩ := hR.queue
      refine ⟨Q ++ [P.mem.next], ?_, ?_, ?_⟩
      · show P.mem.queue ++ [jobV P.mem.next] = _
        rw [h1, List.map_append]
        rfl
      · show b.queue ++ [job] = _
        rw [h2, List.map_append, List.map_congr_left (fun p hp => (hJ p (h3 p hp)))]
        simp
      · intro p hp
        show p < P.mem.next + 1
        rcases List.mem_append.1 hp with hp | hp
        · have := h3 p hp
          omega
        · rw [List.mem_singleton] at hp
          omega
    jobs := fun p hp => by
      show (setJob P.mem.jobs P.mem.next _ p).runId = _ ∧ _ ∧ _
      by_cases h : p = P.mem.next
      · subst h
        simp only [if_true]
        refine ⟨?_, ?_, ?_, ?_⟩
        · rw [setJob_same, ← hjob]
          show (if P.mem.status = 2 then P.mem.runId + 1 else P.mem.runId) = if b.status = .running then b.runId + 1 else b.runId
          rw [hR.runId]
          by_cases h : b.status = .running
          · rw [if_pos h, if_pos ((status_two hR).2 h)]
          · rw [if_neg h, if_neg (fun h' => h ((status_two hR).1 h'))]
        · unfold stmtAt
          show stmtOf (setJob P.mem.jobs P.mem.next _ _).query (setJob P.mem.jobs P.mem.next _ _).args = _
          rw [setJob_same, ← hjob]
        · show resOf (setJob P.mem.jobs P.mem.next _ _) = _
          rw [setJob_same, hjid, hR.fresh _ (Nat.le_refl _)]
          rfl
        · rw [hjid]
          exact Nat.lt_succ_self _
      · have hp' : p < P.mem.next := by
          have : p < P.mem.next + 1 := hp
          omega
        obtain ⟨h1, h2, h3, h4⟩ := hR.jobs p hp'
        have hs : setJob P.mem.jobs P.mem.next (fun _ => ⟨c, q, l, if P.mem.status = 2 then P.mem.runId + 1 else P.mem.runId, 0, 0, none⟩) p = P.mem.jobs p := if_neg h
        simp only [if_neg h]
        refine ⟨?_, ?_, ?_, Nat.lt_succ_of_lt h4⟩
        · rw [hs]
          exact h1
        · unfold stmtAt
          show stmtOf (setJob P.mem.jobs P.mem.next _ p).query (setJob P.mem.jobs P.mem.next _ p).args = _
          rw [hs]
          exact h2
        · show resOf (setJob P.mem.jobs P.mem.next _ p) = _
          rw [hs]
          exact h3
    rows := fun p hp => by
      show 0 ≤ (setJob P.mem.jobs P.mem.next _ p).rows
      by_cases h : p = P.mem.next
      · subst h
        rw [setJob_same]
        exact Int.le_refl 0
      · unfold setJob
        rw [if_neg h]
        exact hR.rows p (by have : p < P.mem.next + 1 := hp; omega)
    inj := fun p p' hp hp' h => by
      have hp : p < P.mem.next + 1 := hp
      have hp' : p' < P.mem.next + 1 := hp'
      by_cases h1 : p = P.mem.next <;> by_cases h2 : p' = P.mem.next
      · omega
      · rw [if_pos h1, if_neg h2, hjid] at h
        have := (hR.jobs p' (by omega)).2.2.2
        omega
      · rw [if_neg h1, if_pos h2, hjid] at h
        have := (hR.jobs p (by omega)).2.2.2
        omega
      · rw [if_neg h1, if_neg h2] at h
        exact hR.inj p p' (by omega) (by omega) h
    idsB := (hR.setIds hlen (by rw [after_length]; omega)).1
    idsInj := (hR.setIds hlen (Nat.le_refl _)).2
    shape := fun n o y h => by
      rcases after_threads h with ⟨hn, rfl, z', hz'⟩ | ⟨hn, z', hz', rfl⟩ | ⟨k, t, hk, ht, rfl, rfl⟩
      · subst hn
        rw [hi] at hz'
        cases hz'
        refine .execSleep c q l P.mem.next M (Nat.lt_succ_self _) ?_ ?_ ?_
        · simp
        · simp only [if_true, hjid]
          exact setId_self _ _ _
        · simp only [if_true, hjid]
          rw [← hb.inv.subLen]
          simp
      · refine (hR.shape n o z' hz').keep false (Nat.le_succ _) hJ (setId_ne _ hn) ⟨_, rfl⟩ (fun x hx => hx)
          (fun p hp hi hm => ⟨fun _ => List.mem_append_left _ hm, fun h => by cases h⟩) (fun p hp hi hm => hm) (fun _ _ => ⟨rfl, by simp⟩) (fun h => h) ?_
        intro hn hw
        have h : b.status ≠ .notStarted := fun h => hw (hb.inv.idle h).1
        exact ⟨if_neg h, if_neg h⟩
      · simp only at ht
        by_cases h' : P.mem.status = 0
        · rw [if_pos h'] at ht
          have h0 : k = 0 := by
            cases k with
            | zero => rfl
            | succ k => cases ht
          subst h0
          cases ht
          refine .workStart ?_ (if_pos (hz.1 h'))
          rw [if_pos (hz.1 h'), hk, Nat.add_zero]
        · rw [if_neg h'] at ht
          cases ht
    work := fun hw => by
      by_cases h : b.status = .notStarted
      · refine ⟨.run (workerT (M + 1)), ?_, by nofun⟩
        rw [if_pos h]
        unfold PSys.after
        simp [if_pos (hz.2 h)]
      · rw [if_neg h]
        exact hR.work_after hi (by nofun) (by simpa [h] using hw)
    fresh := fun id h => hR.fresh id (by have : b.nextJob + 1 ≤ id := h; omega)
    calls := hR.setIds_calls hb _ hi hids }

/-- A woken caller that must go on sleeping. -/
theorem sim_sleepAgain (hR : Rel stmtOf N P b J ids wk cl) {i c p k : Nat} {q : List UInt8} {l : List V} {z : TSt}
    (hi : P.threads[i]? = some (.exec c q l, z)) (hp : p < P.mem.next) (hm : J p ∈ b.awake) (hid : ids i = some (J p).id)
    (hs : b.submitted[(J p).id]? = some (stmtOf q l)) (hle : P.mem.runId ≤ (P.mem.jobs p).runId) :
    SimTo stmtOf N b ids (P.after i (.asleep (waitT p k)) ⟨P.mem, [], false, .waits (waitT p k)⟩) := by
  obtain ⟨pre, post, hw⟩ := List.append_of_mem hm
  have hge : (J p).runId ≥ b.runId := by
    rw [← hR.runId, ← (hR.jobs p hp).1]
    exact hle
  refine ⟨b.wake pre post (J p), J, ids, wk, cl, .one (.wake b pre post (J p) hw), ?_, fun _ _ h => h⟩
  have hwk : b.wake pre post (J p) = { b with awake := pre ++ post, asleep := b.asleep ++ [J p] } := by
    unfold BSys.wake
    rw [if_pos hge]
  rw [hwk]
  exact { hR with
    idsB := fun n a h => by
      rw [after_length]
      have := hR.idsB n a h
      exact ⟨this.1, by omega⟩
    shape := fun n o y h => by
      rcases after_threads h with ⟨hn, rfl, z', hz⟩ | ⟨hn, z', hz, rfl⟩ | ⟨k, t, _, ht, _⟩
      · subst hn
        rw [hi] at hz
        cases hz
        exact .execSleep c q l p k hp (by simp) hid hs
      · refine (hR.shape n o z' hz).keep false (Nat.le_refl _) (fun _ _ => rfl) rfl ⟨[], by simp⟩ (fun x hx => hx)
          (fun p hp hi hm => ⟨fun _ => List.mem_append_left _ hm, fun h => by cases h⟩) (fun p' hp' hi' hm' => ?_) (fun _ _ => ⟨rfl, by simp⟩) (fun h => h) (fun _ _ => ⟨rfl, rfl⟩)
        rw [hw] at hm'
        rcases List.mem_append.1 hm' with h | h
        · exact List.mem_append_left _ h
        · rcases List.mem_cons.1 h with h | h
          · rw [h] at hi'
            exact absurd (hR.idsInj _ _ _ hi' hid) hn
          · exact List.mem_append_right _ h
      · cases ht
    calls := hR.calls_after _ _ _
    work := fun hw => hR.work_after hi (by nofun) hw }

/-- A woken caller that returns. -/
theorem sim_return (hR : Rel stmtOf N P b J ids wk cl) {i c p : Nat} {q : List UInt8} {l : List V} {z : TSt}
    (hi : P.threads[i]? = some (.exec c q l, z)) (hp : p < P.mem.next) (hm : J p ∈ b.awake) (hid : ids i = some (J p).id)
    (hs : b.submitted[(J p).id]? = some (stmtOf q l)) (hlt : ¬ P.mem.runId ≤ (P.mem.jobs p).runId) {fin : SecEnd} :
    SimTo stmtOf N b ids (P.after i (.run (.ret (match (P.mem.jobs p).err with | none => [jobV p, .nil] | some e => [.nil, dbErrV e]))) ⟨P.mem, [], false, fin⟩) := by
  obtain ⟨pre, post, hw⟩ := List.append_of_mem hm
  have hge : ¬ (J p).runId ≥ b.runId := by
    rw [← hR.runId, ← (hR.jobs p hp).1]
    exact hlt
  refine ⟨b.wake pre post (J p), J, ids, wk, cl, .one (.wake b pre post (J p) hw), ?_, fun _ _ h => h⟩
  have hwk : b.wake pre post (J p) = { b with awake := pre ++ post, returned := b.returned ++ [((J p).id, b.answer (J p))] } := by
    unfold BSys.wake
    rw [if_neg hge]
  have hans : b.answer (J p) = .done (resOf (P.mem.jobs p)) := by
    unfold BSys.answer
    rw [(hR.jobs p hp).2.2.1]
  rw [hwk, hans]
  exact { hR with
    idsB := fun n a h => by
      rw [after_length]
      have := hR.idsB n a h
      exact ⟨this.1, by omega⟩
    shape := fun n o y h => by
      rcases after_threads h with ⟨hn, rfl, z', hz⟩ | ⟨hn, z', hz, rfl⟩ | ⟨k, t, _, ht, _⟩
      · subst hn
        rw [hi] at hz
        cases hz
        cases he : (P.mem.jobs p).err with
        | none =>
          refine .execOk c q l p ⟨(P.mem.jobs p).rows.toNat, (P.mem.jobs p).last⟩ hp hid ?_ hs
          simp [resOf, he]
        | some e =>
          refine .execErr c q l (J p).id e hid ?_ hs
          simp [resOf, he]
      · refine (hR.shape n o z' hz).keep false (Nat.le_refl _) (fun _ _ => rfl) rfl ⟨[], by simp⟩ (fun x hx => List.mem_append_left _ hx)
          (fun p hp hi hm => ⟨fun _ => hm, fun h => by cases h⟩) (fun p' hp' hi' hm' => ?_) (fun _ _ => ⟨rfl, by simp⟩) (fun h => h) (fun _ _ => ⟨rfl, rfl⟩)
        rw [hw] at hm'
        rcases List.mem_append.1 hm' with h | h
        · exact List.mem_append_left _ h
        · rcases List.mem_cons.1 h with h | h
          · rw [h] at hi'
            exact absurd (hR.idsInj _ _ _ hi' hid) hn
          · exact List.mem_append_right _ h
      · cases ht
    calls := hR.calls_after _ _ _
    work := fun hw => hR.work_after hi (by nofun) hw }

/-- A call of `Close` that is rejected. -/
theorem sim_closeRejected (hb : BReachable b) (hR : Rel stmtOf N P b J ids wk cl) {i : Nat} {z : TSt} {fin : SecEnd}
    (hi : P.threads[i]? = some (.close, z)) (hc : b.closed = true) :
    SimTo stmtOf N b ids (P.after i (.run (.ret [closedV])) ⟨P.mem, [], false, fin⟩) := by
  refine ⟨b, J, ids, wk, cl, .refl b, ?_, fun _ _ h => h⟩
  exact { hR with
    idsB := fun n a h => by
      rw [after_length]
      have := hR.idsB n a h
      exact ⟨this.1, by omega⟩
    shape := fun n o y h => by
      rcases after_threads h with ⟨hn, rfl, z', hz⟩ | ⟨hn, z', hz, rfl⟩ | ⟨k, t, _, ht, _⟩
      · subst hn
        rw [hi] at hz
        cases hz
        exact .closeRejected (hb.inv.closed.1 hc)
      · exact (hR.shape n o z' hz).keep false (Nat.le_refl _) (fun _ _ => rfl) rfl ⟨[], by simp⟩ (fun x hx => hx)
          (fun p hp hi hm => ⟨fun _ => hm, fun h => by cases h⟩) (fun p hp hi hm => hm) (fun _ _ => ⟨rfl, by simp⟩) (fun h => h) (fun _ _ => ⟨rfl, rfl⟩)
      · cases ht
    calls := hR.calls_after _ _ _
    work := fun hw => hR.work_after hi (by nofun) hw }

/-- `Close` checks the status. -/
theorem sim_check (hR : Rel stmtOf N P b J ids wk cl) {i k : Nat} {z : TSt} {ce : Option DbErr} {fin : SecEnd} (hi : P.threads[i]? = some (.close, z))
    (hcl : i = cl) (hc : b.close = .awake) :
    SimTo stmtOf N b ids (P.after i (if P.mem.status = 0 then .run (.ret (match ce with | none => [.nil] | some e => [dbErrV e])) else .asleep (closeLoopT k))
      ⟨P.mem, [], false, fin⟩) := by
  refine ⟨b.checkClose, J, ids, wk, cl, .one (.checkClose b hc), ?_, fun _ _ h => h⟩
  have hch : b.checkClose = { b with close := if b.status = .notStarted then .done else .asleep } := by
    unfold BSys.checkClose
    split <;> simp_all
  rw [hch]
  exact { hR with
    idsB := fun n a h => by
      rw [after_length]
      have := hR.idsB n a h
      exact ⟨this.1, by omega⟩
    shape := fun n o y h => by
      rcases after_threads h with ⟨hn, rfl, z', hz⟩ | ⟨hn, z', hz, rfl⟩ | ⟨k, t, _, ht, _⟩
      · subst hn
        rw [hi] at hz
        cases hz
        by_cases h0 : P.mem.status = 0
        · rw [if_pos h0]
          refine .closeDone _ hcl (if_pos ((status_zero hR).1 h0)) ?_
          cases ce with
          | none => exact Or.inl rfl
          | some e => exact Or.inr ⟨e, rfl⟩
        · rw [if_neg h0]
          exact .closeSleep k hcl (if_neg fun h' => h0 ((status_zero hR).2 h'))
      · refine (hR.shape n o z' hz).keep false (Nat.le_refl _) (fun _ _ => rfl) rfl ⟨[], by simp⟩ (fun x hx => hx)
          (fun p hp hi hm => ⟨fun _ => hm, fun h => by cases h⟩) (fun p hp hi hm => hm) (fun h _ => absurd (h.trans hcl.symm) hn) (fun h => ?_) (fun _ _ => ⟨rfl, rfl⟩)
        show (if b.status = .notStarted then BClose.done else .asleep) ≠ _
        split <;> decide
      · cases ht
    calls := hR.calls_after _ _ _
    work := fun hw => hR.work_after hi (by nofun) hw }

/-- The first call of `Close`. -/
theorem sim_close (hb : BReachable b) (hR : Rel stmtOf N P b J ids wk cl) {i k : Nat} {z : TSt} {ce : Option DbErr} {fin : SecEnd} (hi : P.threads[i]? = some (.close, z))
    (hc : b.closed = false) :
    SimTo stmtOf N b ids (P.after i (if P.mem.status = 0 then .run (.ret (match ce with | none => [.nil] | some e => [dbErrV e])) else .asleep (closeLoopT k))
      ⟨{ P.mem with closed := true }, [], false, fin⟩) := by
  have hnc : b.close = .notCalled := by
    by_cases h : b.close = .notCalled
    · exact h
    · have := hb.inv.closed.2 h
      rw [hc] at this
      cases this
  have hR1 : Rel stmtOf N { P with mem := { P.mem with closed := true } } { b with closed := true, close := .awake } J ids wk i :=
    { hR with
      closed := rfl
      shape := fun n o y h => by
        have := (hR.shape n o y h).keep (b' := { b with closed := true, close := .awake }) (cl' := i) false (Nat.le_refl _) (fun _ _ => rfl) rfl ⟨[], by simp⟩ (fun x hx => hx)
          (fun p hp hi hm => ⟨fun _ => hm, fun h => by cases h⟩) (fun p hp hi hm => hm) (fun _ h => absurd hnc h) (fun _ => by nofun) (fun _ _ => ⟨rfl, rfl⟩)
        cases y <;> exact this }
  obtain ⟨b', J', ids', wk', cl', h1, h2, h3⟩ := sim_check (k := k) (ce := ce) (fin := fin) hR1 hi rfl rfl
  exact ⟨b', J', ids', wk', cl', (BPath.one (.close b hnc)).trans h1, h2, h3⟩

/-- The worker takes the queue, or ends. -/
theorem sim_take (hR : Rel stmtOf N P b J ids wk cl) {k : Nat} {z : TSt} {fin : SecEnd} (hi : P.threads[wk]? = some (.worker, z)) (b1 : BSys S)
    (hstep : BStep .worker b b1.take) (bc : Bool) (ri : Int)
    (hst : b1.store = b.store) (hcl : b1.closed = b.closed) (hq : b1.queue = b.queue) (hru : b1.runId = ri)
    (hstat : b1.status = .running)
    (hre : b1.results = b.results) (hnx : b1.nextJob = b.nextJob) (hsu : b1.submitted = b.submitted) (hret : b1.returned = b.returned)
    (has : ∀ j ∈ b.asleep, (bc = false → j ∈ b1.asleep) ∧ (bc = true → j ∈ b1.awake)) (haw : ∀ j ∈ b.awake, j ∈ b1.awake)
    (hclo : b1.close = if bc = true ∧ b.close = .asleep then .awake else b.close) :
    SimTo stmtOf N b ids (if 0 < P.mem.queue.length then P.after wk (.run (.execQueue P.mem.queue (.lock (finishT k)))) ⟨{ P.mem with status := 2, runId := ri, queue := [] }, [], bc, fin⟩
      else P.after wk (.run (.ret [])) ⟨{ P.mem with status := 0, runId := ri }, [], bc, fin⟩) := by
  obtain ⟨Q, hQ1, hQ2, hQ3⟩ := hR.queue
  have hlen := (List.getElem?_eq_some_iff.1 hi).1
  have hcc : b.close ≠ .notCalled → b1.close ≠ .notCalled := by
    intro h
    rw [hclo]
    split
    · decide
    · exact h
  refine ⟨b1.take, J, ids, wk, cl, .one hstep, ?_, fun _ _ h => h⟩
  have hkeep : ∀ (w : BWorker S) n o z', n ≠ wk → P.threads[n]? = some (o, z') → Shape stmtOf N P.mem.next b1.take J ids wk cl n o (z'.wake bc) := by
    intro w n o z' hn hz
    have ht : b1.take.submitted = b1.submitted ∧ b1.take.returned = b1.returned ∧ b1.take.asleep = b1.asleep ∧ b1.take.awake = b1.awake ∧ b1.take.close = b1.close := by
      unfold BSys.take
      split <;> exact ⟨rfl, rfl, rfl, rfl, rfl⟩
    obtain ⟨t1, t2, t3, t4, t5⟩ := ht
    exact (hR.shape n o z' hz).keep bc (Nat.le_refl _) (fun _ _ => rfl) rfl ⟨[], by rw [t1, hsu]; simp⟩ (fun x hx => by rw [t2, hret]; exact hx)
      (fun p hp hi hm => by rw [t3, t4]; exact has _ hm) (fun p hp hi hm => by rw [t4]; exact haw _ hm) (fun _ _ => ⟨rfl, by rw [t5]; exact hclo⟩) (fun h => by rw [t5]; exact hcc h)
      (fun h _ => absurd h hn)
  by_cases hql : 0 < P.mem.queue.length
  · rw [if_pos hql]
    have hq1 : b1.queue.length > 0 := by
      rw [hq, hQ2, List.length_map]
      rw [hQ1, List.length_map] at hql
      exact hql
    have htake : b1.take = { b1 with worker := .executing b1.queue, queue := [] } := by
      unfold BSys.take
      rw [if_pos hq1]
    rw [htake] at hkeep ⊢
    exact {
      store := hR.store.trans hst.symm
      closed := hR.closed.trans hcl.symm
      runId := hru.symm
      status := by
        show (2 : Int) = BatchStatus.code b1.status
        rw [hstat]
        rfl
      queue := ⟨[], rfl, rfl, fun p hp => by cases hp⟩
      jobs := fun p hp => by
        have := hR.jobs p hp
        rw [← hre, ← hnx] at this
        exact this
      rows := hR.rows
      inj := hR.inj
      idsB := fun n a h => by
        rw [after_length]
        have := hR.idsB n a h
        rw [← hnx] at this
        exact ⟨this.1, by omega⟩
      idsInj := hR.idsInj
      shape := fun n o y h => by
        rcases after_threads h with ⟨hn, rfl, z', hz⟩ | ⟨hn, z', hz, rfl⟩ | ⟨k, t, _, ht, _⟩
        · subst hn
          rw [hi] at hz
          cases hz
          rw [hQ1]
          refine .workExec k Q rfl ?_ hQ3
          rw [hq, hQ2]
        · exact hkeep .none n o z' hn hz
        · cases ht
      work := fun _ => ⟨_, after_get hi, by rw [if_pos rfl]; nofun⟩
      fresh := fun id h => by
        rw [hre]
        exact hR.fresh id (by rw [← hnx]; exact h)
      calls := fun a h => by
        obtain ⟨n, c, q, l, y, h1, h2, h3⟩ := hR.calls a (by rw [← hnx]; exact h)
        exact ⟨n, c, q, l, _, h1, after_get h2, by rw [← hsu] at h3; exact h3⟩ }
  · rw [if_neg hql]
    have hq1 : ¬ b1.queue.length > 0 := by
      rw [hq, hQ2, List.length_map]
      rw [hQ1, List.length_map] at hql
      exact hql
    have htake : b1.take = { b1 with status := .notStarted, worker := .none } := by
      unfold BSys.take
      rw [if_neg hq1]
    rw [htake] at hkeep ⊢
    exact {
      store := hR.store.trans hst.symm
      closed := hR.closed.trans hcl.symm
      runId := hru.symm
      status := rfl
      queue := ⟨Q, hQ1, hq.trans hQ2, hQ3⟩
      jobs := fun p hp => by
        have := hR.jobs p hp
        rw [← hre, ← hnx] at this
        exact this
      rows := hR.rows
      inj := hR.inj
      idsB := fun n a h => by
        rw [after_length]
        have := hR.idsB n a h
        rw [← hnx] at this
        exact ⟨this.1, by omega⟩
      idsInj := hR.idsInj
      shape := fun n o y h => by
        rcases after_threads h with ⟨hn, rfl, z', hz⟩ | ⟨hn, z', hz, rfl⟩ | ⟨k, t, _, ht, _⟩
        · subst hn
          rw [hi] at hz
          cases hz
          exact .workDone
        · exact hkeep .none n o z' hn hz
        · cases ht
      work := fun h => absurd rfl h
      fresh := fun id h => by
        rw [hre]
        exact hR.fresh id (by rw [← hnx]; exact h)
      calls := fun a h => by
        obtain ⟨n, c, q, l, y, h1, h2, h3⟩ := hR.calls a (by rw [← hnx]; exact h)
        exact ⟨n, c, q, l, _, h1, after_get h2, by rw [← hsu] at h3; exact h3⟩ }

theorem inflight_sorted (hb : BReachable b) {q : List (BJob S)} (hw : b.worker = .executing q) : (q.map (·.id)).Pairwise (· < ·) := by
  have h := hb.inv.sorted
  rw [BSys.jobs, List.append_assoc, List.map_append, List.pairwise_append, List.map_append, List.pairwise_append] at h
  have := h.2.1.1
  unfold BSys.inflight at this
  rw [hw] at this
  exact this

theorem nodup_of_sorted {Q : List Nat} (h : ((Q.map J).map (·.id)).Pairwise (· < ·)) : Q.Nodup := by
  induction Q with
  | nil => exact List.nodup_nil
  | cons p Q ih =>
    simp only [List.map_cons, List.pairwise_cons] at h
    refine List.nodup_cons.2 ⟨fun hp => ?_, ih h.2⟩
    have := h.1 (J p).id (List.mem_map_of_mem (List.mem_map_of_mem hp))
    omega

/-- The worker executes a queue. -/
theorem sim_queue (hb : BReachable b) (hR : Rel stmtOf N P b J ids wk cl) {k : Nat} {Q : List Nat} {vs : List V} {E : DbEnv} {st : DbSt S}
    (hi : P.threads[wk]? = some (.worker, .run (.execQueue (Q.map jobV) (.lock (finishT k))))) (hw : b.worker = .executing (Q.map J)) (hQ : ∀ p ∈ Q, p < P.mem.next)
    (hr : (queueCall N (Q.map jobV)).runDb stmtOf E ⟨P.mem.jobs, P.store, none, [], 0⟩ = some (vs, st)) :
    SimTo stmtOf N b ids { P with mem := { P.mem with jobs := st.jobs }, store := st.store, threads := P.threads.set wk (.worker, .run (.lock (finishT k))) } := by
  have hsorted := inflight_sorted hb hw
  have hn := nodup_of_sorted hsorted
  have hlen := (List.getElem?_eq_some_iff.1 hi).1
  obtain ⟨begin, commit, fates, st', hl, h1, h2, h3, h4⟩ := execQueue_run (stmtOf := stmtOf) (E := E) N Q hn ⟨P.mem.jobs, P.store, none, [], 0⟩
  rw [h1] at hr
  cases hr
  have hst : Q.map (stmtAt stmtOf P.mem.jobs) = (Q.map J).map (·.stmt) := by
    rw [List.map_map]
    exact List.map_congr_left fun p hp => (hR.jobs p (hQ p hp)).2.1
  simp only at h2 h3 h4
  rw [hst, hR.store] at h3 h4
  refine ⟨b.exec (Q.map J) begin commit fates, J, ids, wk, cl, .one (.exec b (Q.map J) begin commit fates (by simp [hl]) hw), ?_, fun _ _ h => h⟩
  have hex : b.exec (Q.map J) begin commit fates = { b with
      store := st.store, results := writeResults (Q.map J) (Q.map fun p => resOf (st.jobs p)) b.results,
      batches := b.batches ++ [(Q.map J, Q.map fun p => resOf (st.jobs p))], worker := .finished (Q.map J) } := by
    unfold BSys.exec
    rw [h3, h4]
  have hset : ∀ n o y, (P.threads.set wk (.worker, .run (.lock (finishT k))))[n]? = some (o, y) →
      (n = wk ∧ o = .worker ∧ y = .run (.lock (finishT k))) ∨ (n ≠ wk ∧ P.threads[n]? = some (o, y)) := by
    intro n o y h
    rw [List.getElem?_set] at h
    by_cases hn : wk = n
    · rw [if_pos hn] at h
      simp only [hlen, if_true, Option.some.injEq, Prod.mk.injEq] at h
      exact Or.inl ⟨hn.symm, h.1.symm, h.2.symm⟩
    · rw [if_neg hn] at h
      exact Or.inr ⟨fun h => hn h.symm, h⟩
  have hids : ∀ p, p < P.mem.next → p ∉ Q → ∀ j ∈ Q.map J, j.id ≠ (J p).id := by
    intro p hp hpQ j hj he
    obtain ⟨p', hp', rfl⟩ := List.mem_map.1 hj
    have := hR.inj p' p (hQ p' hp') hp he
    exact hpQ (this ▸ hp')
  rw [hex]
  exact {
    store := rfl
    closed := hR.closed
    runId := hR.runId
    status := hR.status
    queue := hR.queue
    jobs := fun p hp => by
      obtain ⟨r1, r2, r3, r4⟩ := hR.jobs p hp
      refine ⟨(h2 p).2.2.2.1.trans r1, (h2.stmt p).trans r2, ?_, r4⟩
      show resOf (st.jobs p) = (writeResults (Q.map J) (Q.map fun p => resOf (st.jobs p)) b.results (J p).id).getD _
      by_cases hpQ : p ∈ Q
      · have hx : (J p, resOf (st.jobs p)) ∈ (Q.map J).zip (Q.map fun p => resOf (st.jobs p)) := by
          rw [List.zip_map']
          exact List.mem_map.2 ⟨p, hpQ, rfl⟩
        rw [writeResults_new (x := (J p, resOf (st.jobs p))) hsorted hx]
        rfl
      · rw [writeResults_old (hids p hp hpQ), (h2 p).2.2.2.2.1 hpQ]
        exact r3
    rows := fun p hp => (h2 p).2.2.2.2.2 (hR.rows p hp)
    inj := hR.inj
    idsB := fun n a h => by
      have := hR.idsB n a h
      exact ⟨this.1, by simpa using this.2⟩
    idsInj := hR.idsInj
    shape := fun n o y h => by
      rcases hset n o y h with ⟨hn, rfl, rfl⟩ | ⟨hn, hz⟩
      · exact .workFin k (Q.map J) hn rfl
      · have := (hR.shape n o y hz).keep (b' := { b with store := st.store, results := writeResults (Q.map J) (Q.map fun p => resOf (st.jobs p)) b.results, batches := b.batches ++ [(Q.map J, Q.map fun p => resOf (st.jobs p))], worker := .finished (Q.map J) }) (wk' := wk) (cl' := cl) false (Nat.le_refl _) (fun _ _ => rfl) rfl ⟨[], by simp⟩ (fun x hx => hx)
          (fun p hp hi hm => ⟨fun _ => hm, fun h => by cases h⟩) (fun p hp hi hm => hm) (fun _ _ => ⟨rfl, by simp⟩) (fun h => h) (fun h _ => absurd h hn)
        cases y <;> exact this
    work := fun _ => ⟨_, by rw [List.getElem?_set_self hlen], by nofun⟩
    fresh := fun id h => by
      show writeResults _ _ b.results id = none
      rw [writeResults_old]
      · exact hR.fresh id h
      · intro j hj
        obtain ⟨p, hp, rfl⟩ := List.mem_map.1 hj
        have := (hR.jobs p (hQ p hp)).2.2.2
        have hid : b.nextJob ≤ id := h
        omega
    calls := fun a h => by
      obtain ⟨n, c, q, l, y, h1, h2, h3⟩ := hR.calls a h
      refine ⟨n, c, q, l, y, h1, ?_, h3⟩
      rw [List.getElem?_set_ne (fun hn => ?_)]
      · exact h2
      · subst hn
        rw [hi] at h2
        cases h2 }

theorem zero_or_succ (n : Nat) : n = 0 ∨ ∃ m, n = m + 1 := by
  cases n
  · exact Or.inl rfl
  · exact Or.inr ⟨_, rfl⟩

/-- How a lock section of a goroutine ends, and where the goroutine is then. -/
def Ends (r : SecRes) (y : TSt) : Prop := (∃ t, r.fin = .unlocked t ∧ y = .run t) ∨ ∃ t, r.fin = .waits t ∧ y = .asleep t

/-- A lock section of any goroutine. -/
theorem sim_sec (hb : BReachable b) (hR : Rel stmtOf N P b J ids wk cl) {i : Nat} {o : Origin} {x y : TSt} {k : Th} {ce : Option DbErr}
    (hi : P.threads[i]? = some (o, x)) (hk : x.wants = some k) (hy : Ends (k.sec ce P.mem [] false) y) :
    SimTo stmtOf N b ids (P.after i y (k.sec ce P.mem [] false)) := by
  cases hR.shape i o x hi with
  | execNew c q l hids =>
    rw [execCall_eq] at hk
    cases hk
    by_cases hc : b.closed = true
    · rw [execBody_closed c q l ce _ (hR.closed.trans hc)] at hy ⊢
      rcases hy with ⟨t, h, rfl⟩ | ⟨t, h, rfl⟩ <;> cases h
      exact sim_closed hb hR hi hids hc
    · have hc : b.closed = false := by simpa using hc
      rcases zero_or_succ N with rfl | ⟨M, rfl⟩
      · have := execBody_out c q l ce _ (hR.closed.trans hc)
        rcases hy with ⟨t, h, rfl⟩ | ⟨t, h, rfl⟩ <;> rw [this] at h <;> cases h
      · rw [execBody_open c q l ce _ (hR.closed.trans hc)] at hy ⊢
        rcases hy with ⟨t, h, rfl⟩ | ⟨t, h, rfl⟩ <;> cases h
        exact sim_open rfl hb hR hi hids hc
  | execSleep => cases hk
  | execWoken c q l p n hp hm hid hs =>
    cases hk
    cases n with
    | zero => rcases hy with ⟨t, h, rfl⟩ | ⟨t, h, rfl⟩ <;> cases h
    | succ n =>
      rw [waitT_sec] at hy ⊢
      by_cases hle : P.mem.runId ≤ (P.mem.jobs p).runId
      · rw [if_pos hle] at hy ⊢
        rcases hy with ⟨t, h, rfl⟩ | ⟨t, h, rfl⟩ <;> cases h
        exact sim_sleepAgain hR hi hp hm hid hs hle
      · rw [if_neg hle] at hy ⊢
        rcases hy with ⟨t, h, rfl⟩ | ⟨t, h, rfl⟩ <;> cases h
        exact sim_return hR hi hp hm hid hs hle
  | execClosed => cases hk
  | execErr => cases hk
  | execOk => cases hk
  | closeNew =>
    rw [closeCall_eq] at hk
    cases hk
    by_cases hc : b.closed = true
    · have hsec : (closeBody N).sec ce P.mem [] false = ⟨P.mem, [], false, .unlocked (.ret [closedV])⟩ := by
        simp [closeBody, Th.sec, hR.closed.trans hc]
      rw [hsec] at hy ⊢
      rcases hy with ⟨t, h, rfl⟩ | ⟨t, h, rfl⟩ <;> cases h
      exact sim_closeRejected hb hR hi hc
    · have hc : b.closed = false := by simpa using hc
      have hsec : (closeBody N).sec ce P.mem [] false = (closeLoopT N).sec ce { P.mem with closed := true } [] false := by
        simp [closeBody, Th.sec, hR.closed.trans hc]
      rw [hsec] at hy ⊢
      rcases zero_or_succ N with rfl | ⟨M, rfl⟩
      · rcases hy with ⟨t, h, rfl⟩ | ⟨t, h, rfl⟩ <;> cases h
      · rw [closeLoopT_sec] at hy ⊢
        have := sim_close (k := M) (ce := ce) (fin := if P.mem.status = 0 then .unlocked (.ret (match ce with | none => [.nil] | some e => [dbErrV e])) else .waits (closeLoopT M)) hb hR hi hc
        have hst : ({ P.mem with closed := true } : BMem).status = P.mem.status := rfl
        rw [hst] at hy ⊢
        by_cases h0 : P.mem.status = 0
        · rw [if_pos h0] at hy this ⊢
          rw [if_pos h0] at this
          rcases hy with ⟨t, h, rfl⟩ | ⟨t, h, rfl⟩ <;> cases h
          exact this
        · rw [if_neg h0] at hy this ⊢
          rw [if_neg h0] at this
          rcases hy with ⟨t, h, rfl⟩ | ⟨t, h, rfl⟩ <;> cases h
          exact this
  | closeSleep => cases hk
  | closeWoken n hn hc =>
    cases hk
    cases n with
    | zero => rcases hy with ⟨t, h, rfl⟩ | ⟨t, h, rfl⟩ <;> cases h
    | succ n =>
      rw [closeLoopT_sec] at hy ⊢
      have := sim_check (k := n) (ce := ce) (fin := if P.mem.status = 0 then .unlocked (.ret (match ce with | none => [.nil] | some e => [dbErrV e])) else .waits (closeLoopT n)) hR hi hn hc
      by_cases h0 : P.mem.status = 0
      · rw [if_pos h0] at hy this ⊢
        rw [if_pos h0] at this
        rcases hy with ⟨t, h, rfl⟩ | ⟨t, h, rfl⟩ <;> cases h
        exact this
      · rw [if_neg h0] at hy this ⊢
        rw [if_neg h0] at this
        rcases hy with ⟨t, h, rfl⟩ | ⟨t, h, rfl⟩ <;> cases h
        exact this
  | closeRejected => cases hk
  | closeDone => cases hk
  | workStart hn hw =>
    cases hk
    subst hn
    have hph := hb.inv.phase
    unfold BSys.Phase at hph
    rw [hw] at hph
    have hsec : (Th.setStatus 2 (workLoopT N)).sec ce P.mem [] false = (workLoopT N).sec ce { P.mem with status := 2 } [] false := rfl
    rw [hsec] at hy ⊢
    rcases zero_or_succ N with rfl | ⟨M, rfl⟩
    · rcases hy with ⟨t, h, rfl⟩ | ⟨t, h, rfl⟩ <;> cases h
    · rw [workLoopT_sec] at hy ⊢
      have := sim_take (k := M) (fin := ((workLoopT (M + 1)).sec ce { P.mem with status := 2 } [] false).fin) hR hi { b with status := .running } (.start b hw) false P.mem.runId
        rfl rfl rfl hR.runId.symm rfl rfl rfl rfl rfl (fun j hj => ⟨fun _ => hj, fun h => by cases h⟩) (fun j hj => hj) (by simp)
      rw [workLoopT_sec] at this
      have hq : ({ P.mem with status := 2 } : BMem).queue = P.mem.queue := rfl
      rw [hq] at hy this ⊢
      by_cases h0 : 0 < P.mem.queue.length
      · rw [if_pos h0] at hy this ⊢
        rw [if_pos h0] at this
        rcases hy with ⟨t, h, rfl⟩ | ⟨t, h, rfl⟩ <;> cases h
        exact this
      · rw [if_neg h0] at hy this ⊢
        rw [if_neg h0] at this
        rcases hy with ⟨t, h, rfl⟩ | ⟨t, h, rfl⟩ <;> cases h
        exact this
  | workExec => cases hk
  | workFin n q hn hw =>
    cases hk
    subst hn
    have hph := hb.inv.phase
    unfold BSys.Phase at hph
    rw [hw] at hph
    have hrun : P.mem.status = 2 := (status_two hR).2 hph.1
    have hsec : (finishT n).sec ce P.mem [] false = (workLoopT n).sec ce { P.mem with runId := P.mem.runId + 1 } [] true := rfl
    rw [hsec] at hy ⊢
    cases n with
    | zero => rcases hy with ⟨t, h, rfl⟩ | ⟨t, h, rfl⟩ <;> cases h
    | succ n =>
      have := sim_take (k := n) (fin := ((workLoopT (n + 1)).sec ce { P.mem with runId := P.mem.runId + 1 } [] true).fin) hR hi b.broadcast (.next b q hw) true (P.mem.runId + 1)
        rfl rfl rfl (by rw [hR.runId]; rfl) hph.1 rfl rfl rfl rfl (fun j hj => ⟨fun h => (by cases h), fun _ => List.mem_append_right _ hj⟩) (fun j hj => List.mem_append_left _ hj)
        (by simp [BSys.broadcast])
      rw [workLoopT_sec] at hy this ⊢
      have hq : ({ P.mem with runId := P.mem.runId + 1 } : BMem).queue = P.mem.queue := rfl
      rw [hq] at hy this ⊢
      have hm : ({ P.mem with status := 2, runId := P.mem.runId + 1, queue := [] } : BMem) = { P.mem with runId := P.mem.runId + 1, queue := [] } := by
        rw [← hrun]
      rw [hm] at this
      by_cases h0 : 0 < P.mem.queue.length
      · rw [if_pos h0] at hy this ⊢
        rw [if_pos h0] at this
        rcases hy with ⟨t, h, rfl⟩ | ⟨t, h, rfl⟩ <;> cases h
        exact this
      · rw [if_neg h0] at hy this ⊢
        rw [if_neg h0] at this
        rcases hy with ⟨t, h, rfl⟩ | ⟨t, h, rfl⟩ <;> cases h
        exact this
  | workDone => cases hk

end Verif.Go
