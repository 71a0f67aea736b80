import Verif.Lemmas.GoBatchedRefine
import Verif.Props.Batched
/-!
# C103 What the text of `batched.go` does, run by any number of goroutines

`PReach stmtOf N s0 P`: the goroutines, running the text of `batched.go` (`Verif.Model.GoText`), can get from a fresh batcher on a database with
content `s0` to `P`. `P.threads` are the goroutines: calls of `ExecContext`, calls of `Close`, and workers. `stmtOf` says what the
statements do to the database.
-/

namespace Verif.Go

open Verif.GoText

variable {S : Type} {stmtOf : List UInt8 → List V → BStmt S} {N : Nat} {P : PSys S} {s0 : S}

attribute [local irreducible] execCall closeCall queueCall

/-! ### Specification -/

/-- A round: the statements of some calls (the numbers of their goroutines) are executed together, when the store is `store`. -/
structure Round (S : Type) where
  calls : List Nat
  begin : Option DbErr
  commit : CommitOut
  fates : List JobFate
  store : S

/-- The statement of a call. -/
def callStmt (stmtOf : List UInt8 → List V → BStmt S) (P : PSys S) (n : Nat) : BStmt S :=
  match P.threads[n]? with
  | some (.exec _ q l, _) => stmtOf q l
  | _ => fun s => (s, ⟨0, 0⟩)

/-- The store after a round and the results of its calls: one statement alone is executed as such, several in a transaction (`C41`). -/
def Round.outcome (stmtOf : List UInt8 → List V → BStmt S) (P : PSys S) (R : Round S) : S × List (Except DbErr ExecResult) :=
  execQueue R.begin R.commit ((R.calls.map (callStmt stmtOf P)).zip R.fates) R.store

/-- One round after another, from one store to another. -/
def Chain (stmtOf : List UInt8 → List V → BStmt S) (P : PSys S) : S → List (Round S) → S → Prop
  | s, [], s' => s' = s
  | s, R :: rounds, s' => R.store = s ∧ Chain stmtOf P (R.outcome stmtOf P).1 rounds s'

/-- What the methods of a result return, now. -/
def readResult (stmtOf : List UInt8 → List V → BStmt S) (N : Nat) (P : PSys S) (method : Nm) (r : V) (vs : List V) : Prop :=
  ∀ E : DbEnv, (((goroutine N n!"batchJob" method [r]).runDb stmtOf E ⟨P.mem.jobs, P.store, none, [], 0⟩).map fun x => x.1) = some vs

/-- The return values of `ExecContext` say this. -/
def ExecAnswers (stmtOf : List UInt8 → List V → BStmt S) (N : Nat) (P : PSys S) (vs : List V) : Except DbErr ExecResult → Prop
  | .error e => vs = [.nil, dbErrV e]
  | .ok r => ∃ j, vs = [j, .nil] ∧ readResult stmtOf N P n!"RowsAffected" j [.int r.rowsAffected, .nil] ∧
      readResult stmtOf N P n!"LastInsertId" j [.int r.lastInsertId, .nil]

/-! ### Proofs -/

theorem execCall_ne_ret {c : Nat} {q : List UInt8} {l : List V} {vs : List V} : TSt.run (.ret vs) ≠ .run (execCall N c q l) := by
  rw [execCall_eq]
  nofun

theorem closeCall_ne_ret {vs : List V} : TSt.run (.ret vs) ≠ .run (closeCall N) := by
  rw [closeCall_eq]
  nofun

/-- The goroutine of a call of the model. -/
theorem calls_inverse {b : BSys S} {J : Nat → BJob S} {ids : Nat → Option Nat} {wk cl : Nat} (hR : Rel stmtOf N P b J ids wk cl) :
    ∃ g : Nat → Nat, ∀ a, a < b.nextJob → ids (g a) = some a ∧ ∃ c q l x, P.threads[g a]? = some (.exec c q l, x) ∧ b.submitted[a]? = some (stmtOf q l) := by
  have h : ∀ a, ∃ n, a < b.nextJob → ids n = some a ∧ ∃ c q l x, P.threads[n]? = some (.exec c q l, x) ∧ b.submitted[a]? = some (stmtOf q l) := by
    intro a
    by_cases ha : a < b.nextJob
    · obtain ⟨n, c, q, l, x, h1, h2, h3⟩ := hR.calls a ha
      exact ⟨n, fun _ => ⟨h1, c, q, l, x, h2, h3⟩⟩
    · exact ⟨0, fun h => absurd h ha⟩
  exact ⟨fun a => Classical.choose (h a), fun a => Classical.choose_spec (h a)⟩

/-- The rounds of the model, with goroutines. -/
def toRound (g : Nat → Nat) (R : BRound S) : Round S := ⟨R.jobs.map fun j => g j.id, R.begin, R.commit, R.fates, R.store⟩

theorem toRound_outcome {b : BSys S} {g : Nat → Nat} (hb : BReachable b)
    (hg : ∀ a, a < b.nextJob → ∃ c q l x, P.threads[g a]? = some (.exec c q l, x) ∧ b.submitted[a]? = some (stmtOf q l)) {R : BRound S}
    (hR : ∀ j ∈ R.jobs, j ∈ b.jobs) : (toRound g R).outcome stmtOf P = R.outcome := by
  unfold Round.outcome BRound.outcome toRound
  simp only [List.map_map]
  congr 2
  apply List.map_congr_left
  intro j hj
  obtain ⟨c, q, l, x, h1, h2⟩ := hg j.id (hb.inv.bound j (hR j hj))
  have := hb.inv.sub j (hR j hj)
  rw [h2] at this
  simp only [Function.comp, callStmt, h1]
  exact Option.some.inj this

theorem toRound_chain {b : BSys S} {g : Nat → Nat} (hb : BReachable b)
    (hg : ∀ a, a < b.nextJob → ∃ c q l x, P.threads[g a]? = some (.exec c q l, x) ∧ b.submitted[a]? = some (stmtOf q l)) {s s' : S} {hs : List (BRound S)}
    (hR : ∀ R ∈ hs, ∀ j ∈ R.jobs, j ∈ b.jobs) (h : BChain s hs s') : Chain stmtOf P s (hs.map (toRound g)) s' := by
  induction hs generalizing s with
  | nil => exact h
  | cons R hs ih =>
    refine ⟨h.1, ?_⟩
    rw [toRound_outcome hb hg (hR R List.mem_cons_self)]
    exact ih (fun R' hR' => hR R' (List.mem_cons_of_mem _ hR')) h.2

/-- The methods of a result of a call that has succeeded. -/
theorem reads {r : ExecResult} {p : Nat} (hr : resOf (P.mem.jobs p) = .ok r) (h0 : 0 ≤ (P.mem.jobs p).rows) : ExecAnswers stmtOf N P [jobV p, .nil] (.ok r) := by
  unfold resOf at hr
  cases he : (P.mem.jobs p).err with
  | some e => rw [he] at hr; cases hr
  | none =>
    rw [he] at hr
    cases hr
    refine ⟨jobV p, rfl, fun E => ?_, fun E => ?_⟩
    · rw [RowsAffected_tree]
      simp only [Th.runDb, he, Option.map_some]
      rw [Int.toNat_of_nonneg h0]
    · rw [LastInsertId_tree]
      simp only [Th.runDb, he, Option.map_some]

/-- The statements of the calls are executed in rounds, one round after another, each round being what `execQueue` of the specification says:
* no call is in two rounds or twice in one (so nothing is executed twice), and only calls of `ExecContext` are in rounds;
* if nobody else has changed the database, the database is what the rounds have made of it;
* a call that has returned has either returned the "closed" error, when the batcher was closed, and is in no round; or it has returned what its
  own place in its round says: the error, or a result whose methods return, now and for ever, the rows and the id of its own statement. -/
theorem C103_rounds (h : PReach stmtOf N s0 P) :
    ∃ rounds : List (Round S),
      (rounds.flatMap (·.calls)).Nodup ∧
      (∀ R ∈ rounds, R.fates.length = R.calls.length ∧ ∀ n ∈ R.calls, ∃ c q l x, P.threads[n]? = some (.exec c q l, x)) ∧
      (P.foreign = 0 → Chain stmtOf P s0 rounds P.store) ∧
      ∀ (n c : Nat) (q : List UInt8) (l vs : List V), P.threads[n]? = some (.exec c q l, .run (.ret vs)) →
        (vs = [.nil, closedV] ∧ P.mem.closed = true ∧ n ∉ rounds.flatMap (·.calls)) ∨
        ∃ R ∈ rounds, ∃ (k : Nat) (r : Except DbErr ExecResult), R.calls[k]? = some n ∧ (R.outcome stmtOf P).2[k]? = some r ∧ ExecAnswers stmtOf N P vs r := by
  obtain ⟨b, J, ids, wk, cl, hs, hb, hR, hh⟩ := h.sim
  obtain ⟨g, hg⟩ := calls_inverse hR
  have hg' : ∀ a, a < b.nextJob → ∃ c q l x, P.threads[g a]? = some (.exec c q l, x) ∧ b.submitted[a]? = some (stmtOf q l) := fun a ha => (hg a ha).2
  have hjobs : ∀ R ∈ hs, ∀ j ∈ R.jobs, j ∈ b.jobs := by
    intro R hRm j hj
    refine List.mem_append_left _ (List.mem_append_left _ (List.mem_flatMap.2 ⟨(R.jobs, R.outcome.2), ?_, hj⟩))
    rw [hh.batches]
    exact List.mem_map.2 ⟨R, hRm, rfl⟩
  have hcalls : (hs.map (toRound g)).flatMap (·.calls) = (b.executed.map (·.id)).map g := by
    unfold BSys.executed
    rw [hh.batches]
    simp only [List.flatMap_map, List.map_flatMap, List.map_map]
    rfl
  have hlt : ∀ a ∈ b.executed.map (·.id), a < b.nextJob := by
    intro a ha
    obtain ⟨j, hj, rfl⟩ := List.mem_map.1 ha
    exact hb.inv.bound j (List.mem_append_left _ (List.mem_append_left _ hj))
  have place : ∀ (n a : Nat) (r : Except DbErr ExecResult) (p : List (BJob S) × List (Except DbErr ExecResult)) (y : BJob S × Except DbErr ExecResult),
      ids n = some a → p ∈ b.batches → y ∈ p.1.zip p.2 → y.1.id = a → y.2 = r →
      ∃ R ∈ hs.map (toRound g), ∃ k : Nat, R.calls[k]? = some n ∧ (R.outcome stmtOf P).2[k]? = some r := by
    intro n a r p y hi hp hy hya hyr
    rw [hh.batches] at hp
    obtain ⟨R, hRm, rfl⟩ := List.mem_map.1 hp
    obtain ⟨k, hk, hky⟩ := List.getElem_of_mem hy
    simp only [List.length_zip] at hk
    simp only [List.getElem_zip] at hky
    have hya' : (R.jobs[k]'(by omega)).id = a := by rw [← hya, ← hky]
    refine ⟨toRound g R, List.mem_map_of_mem hRm, k, ?_, ?_⟩
    · simp only [toRound]
      rw [List.getElem?_map, List.getElem?_eq_getElem (by omega), Option.map_some, hya']
      have hal : a < b.nextJob := by
        rw [← hya']
        exact hb.inv.bound _ (hjobs R hRm _ (List.getElem_mem _))
      rw [hR.idsInj _ _ _ (hg a hal).1 hi]
    · rw [toRound_outcome hb hg' (hjobs R hRm), List.getElem?_eq_getElem (by omega), ← hyr, ← hky]
  refine ⟨hs.map (toRound g), ?_, ?_, ?_, ?_⟩
  · rw [hcalls]
    refine List.pairwise_map.2 (hb.inv.executed_sorted.imp_of_mem fun {x y} hx hy hlt' hxy => ?_)
    have h1 := (hg x (hlt x hx)).1
    rw [hxy, (hg y (hlt y hy)).1] at h1
    cases h1
    exact Nat.lt_irrefl _ hlt'
  · intro R hRm
    obtain ⟨R', hRm', rfl⟩ := List.mem_map.1 hRm
    refine ⟨by simpa [toRound] using hh.fates R' hRm', fun n hn => ?_⟩
    obtain ⟨j, hj, rfl⟩ := List.mem_map.1 hn
    obtain ⟨c, q, l, x, h1, _⟩ := hg' j.id (hb.inv.bound j (hjobs R' hRm' j hj))
    exact ⟨c, q, l, x, h1⟩
  · intro h0
    rw [hR.store]
    exact toRound_chain hb hg' hjobs (hh.chain h0)
  · intro n c q l vs hn
    have hsh := hR.shape n _ _ hn
    generalize hx : TSt.run (.ret vs) = x at hsh
    cases hsh with
    | execNew c q l _ => exact absurd hx execCall_ne_ret
    | execSleep => cases hx
    | execWoken => cases hx
    | execClosed c q l id hi hr hst =>
      cases hx
      refine Or.inl ⟨rfl, ?_, ?_⟩
      · rcases hb.inv.ret _ hr with ⟨_, h1, _⟩ | ⟨_, _, _, _, _, h1⟩
        · exact hR.closed.trans h1
        · cases h1
      · rw [hcalls]
        intro hm
        obtain ⟨a, ha, hga⟩ := List.mem_map.1 hm
        have h1 := (hg a (hlt a ha)).1
        rw [hga, hi] at h1
        cases h1
        obtain ⟨j, hj, hja⟩ := List.mem_map.1 ha
        rcases hb.inv.ret _ hr with ⟨_, _, h2⟩ | ⟨_, _, _, _, _, h1⟩
        · exact h2 j (List.mem_append_left _ (List.mem_append_left _ hj)) hja
        · cases h1
    | execErr c q l id e hi hr hst =>
      cases hx
      rcases hb.inv.ret _ hr with ⟨h1, _⟩ | ⟨p, hp, y, hy, hid, hv⟩
      · cases h1
      · simp only [BAnswer.done.injEq] at hv
        obtain ⟨R, hRm, k, h1, h2⟩ := place n id (.error e) p y hi hp hy hid hv.symm
        exact Or.inr ⟨R, hRm, k, _, h1, h2, rfl⟩
    | execOk c q l pj r hpj hi hr hst =>
      cases hx
      rcases hb.inv.ret _ hr with ⟨h1, _⟩ | ⟨p, hp, y, hy, hid, hv⟩
      · cases h1
      · simp only [BAnswer.done.injEq] at hv
        obtain ⟨R, hRm, k, h1, h2⟩ := place n (J pj).id (.ok r) p y hi hp hy hid hv.symm
        refine Or.inr ⟨R, hRm, k, _, h1, h2, reads ?_ (hR.rows pj hpj)⟩
        have := hb.inv.res p hp y hy
        simp only at hid
        rw [(hR.jobs pj hpj).2.2.1, ← hid, this, ← hv]
        rfl

/-- Once a call of `Close` has returned anything but the "closed" error, and for ever after: every worker is over, the queue is empty, no caller
sleeps, the batcher is closed (so that, see `C103_refused`, later calls are refused); and all other calls of `Close` that have returned have got the
"closed" error. -/
theorem C103_close (h : PReach stmtOf N s0 P) {n : Nat} {vs : List V} (hn : P.threads[n]? = some (.close, .run (.ret vs))) (hv : vs ≠ [closedV]) :
    (vs = [.nil] ∨ ∃ e, vs = [dbErrV e]) ∧ P.mem.closed = true ∧ P.mem.queue = [] ∧ P.mem.status = 0 ∧
    (∀ (m : Nat) x, P.threads[m]? = some (.worker, x) → x = .run (.ret [])) ∧
    (∀ (m : Nat) o t, P.threads[m]? ≠ some (o, .asleep t)) ∧
    ∀ (m : Nat) ws, P.threads[m]? = some (.close, .run (.ret ws)) → m ≠ n → ws = [closedV] := by
  obtain ⟨b, J, ids, wk, cl, hs, hb, hR, hh⟩ := h.sim
  have hsh := hR.shape n _ _ hn
  have hcl : n = cl ∧ b.close = .done ∧ (vs = [.nil] ∨ ∃ e, vs = [dbErrV e]) := by
    generalize hx : TSt.run (.ret vs) = x at hsh
    cases hsh with
    | closeNew => exact absurd hx closeCall_ne_ret
    | closeSleep => cases hx
    | closeWoken => cases hx
    | closeRejected => cases hx; exact absurd rfl hv
    | closeDone vs hn hc hv => cases hx; exact ⟨hn, hc, hv⟩
  obtain ⟨hncl, hdone, hvs⟩ := hcl
  obtain ⟨hw, hq, _⟩ := C43_close_waits hb hdone
  have hst := hb.inv.closeDone hdone
  refine ⟨hvs, ?_, ?_, ?_, ?_, ?_, ?_⟩
  · rw [hR.closed]
    exact hb.inv.closed.2 (by rw [hdone]; decide)
  · obtain ⟨Q, h1, h2, _⟩ := hR.queue
    rw [hq] at h2
    rw [h1, List.map_eq_nil_iff.1 h2.symm]
    rfl
  · exact (status_zero hR).2 hst
  · intro m x hm
    have := hR.shape m _ _ hm
    cases this with
    | workStart _ h => rw [hw] at h; cases h
    | workExec _ _ _ h => rw [hw] at h; cases h
    | workFin _ _ _ h => rw [hw] at h; cases h
    | workDone => rfl
  · intro m o t hm
    have := hR.shape m _ _ hm
    cases this with
    | execSleep c q l p k hp hmem _ _ =>
      have h1 := hb.inv.asleep _ hmem
      have h2 := hb.inv.pend _ (List.mem_append_left _ hmem)
      have h3 := (hb.inv.runId_le h2).1 hw
      omega
    | closeSleep k hn hc => rw [hdone] at hc; cases hc
  · intro m ws hm hne
    have := hR.shape m _ _ hm
    generalize hx : TSt.run (.ret ws) = x at this
    cases this with
    | closeNew => exact absurd hx closeCall_ne_ret
    | closeSleep => cases hx
    | closeWoken => cases hx
    | closeRejected => cases hx; rfl
    | closeDone vs hn hc hv => exact absurd (hn.trans hncl.symm) hne

/-- A call of `ExecContext` that gets the mutex when the batcher is closed returns the "closed" error at once and changes nothing. -/
theorem C103_refused (N c : Nat) (q : List UInt8) (l : List V) (m : BMem) (hc : m.closed = true) :
    ∃ k, TSt.wants (.run (execCall N c q l)) = some k ∧ ∀ ce, k.sec ce m [] false = ⟨m, [], false, .unlocked (.ret [.nil, closedV])⟩ := by
  refine ⟨execBody N c q l, ?_, fun ce => execBody_closed c q l ce m hc⟩
  rw [execCall_eq]
  rfl

/-- Nobody gets stuck (does something with the fields of the batcher without holding the mutex, or something that blocks while holding it, or that
the text does not allow): a goroutine has returned, or sleeps, or wants the mutex and, as soon as it gets it, gives it back or sleeps, or executes its queue,
which it can, whatever the database answers. (In an execution of up to `N` steps; `N` is arbitrary.) -/
theorem C103_never_stuck {n : Nat} (h : PRun stmtOf N s0 n P) (hN : n < N) {i : Nat} {o : Origin} {x : TSt} (hi : P.threads[i]? = some (o, x)) :
    (∃ vs, x = .run (.ret vs)) ∨ (∃ t, x = .asleep t) ∨
    (∃ k, x.wants = some k ∧ ∀ ce, (∃ t, (k.sec ce P.mem [] false).fin = .unlocked t) ∨ ∃ t, (k.sec ce P.mem [] false).fin = .waits t) ∨
    ∃ q k, x = .run (.execQueue q k) ∧ ∀ E, ∃ st, (queueCall N q).runDb stmtOf E ⟨P.mem.jobs, P.store, none, [], 0⟩ = some ([], st) := by
  have hl := h.live (Nat.le_of_lt hN) hi
  obtain ⟨m, hm⟩ : ∃ m, N - n = m + 1 := ⟨N - n - 1, by omega⟩
  rw [hm] at hl
  have sec : ∀ k, x.wants = some k → ∀ ce, (∃ t, (k.sec ce P.mem [] false).fin = .unlocked t) ∨ ∃ t, (k.sec ce P.mem [] false).fin = .waits t := by
    intro k hk ce
    rcases (hl.sec hk ce P.mem).1 with ⟨t, h1, _⟩ | ⟨t, h1, _⟩
    · exact Or.inl ⟨t, h1⟩
    · exact Or.inr ⟨t, h1⟩
  cases hl with
  | execNew c q l h =>
    have hk : TSt.wants (.run (execCall N c q l)) = some (execBody N c q l) := by
      rw [execCall_eq]
      rfl
    exact Or.inr (Or.inr (Or.inl ⟨_, hk, sec _ hk⟩))
  | closeNew h =>
    have hk : TSt.wants (.run (closeCall N)) = some (closeBody N) := by
      rw [closeCall_eq]
      rfl
    exact Or.inr (Or.inr (Or.inl ⟨_, hk, sec _ hk⟩))
  | workNew h => exact Or.inr (Or.inr (Or.inl ⟨_, rfl, sec _ rfl⟩))
  | execSleep p k h => exact Or.inr (Or.inl ⟨_, rfl⟩)
  | execWoken p k h => exact Or.inr (Or.inr (Or.inl ⟨_, rfl, sec _ rfl⟩))
  | closeSleep k h => exact Or.inr (Or.inl ⟨_, rfl⟩)
  | closeWoken k h => exact Or.inr (Or.inr (Or.inl ⟨_, rfl, sec _ rfl⟩))
  | workFin k h => exact Or.inr (Or.inr (Or.inl ⟨_, rfl, sec _ rfl⟩))
  | ret vs => exact Or.inl ⟨_, rfl⟩
  | workExec k q hk =>
    refine Or.inr (Or.inr (Or.inr ⟨_, _, rfl, fun E => ?_⟩))
    obtain ⟨b, J, ids, wk, cl, hs, hb, hR, hh⟩ := h.reach.sim
    have hsh := hR.shape i _ _ hi
    generalize Th.lock (finishT k) = kk at hsh
    generalize hy : TSt.run (.execQueue q kk) = y at hsh
    cases hsh with
    | workExec k' Q hn hw hQ =>
      cases hy
      obtain ⟨_, _, _, st, _, h1, _⟩ := execQueue_run (stmtOf := stmtOf) (E := E) N Q (nodup_of_sorted (inflight_sorted hb hw)) ⟨P.mem.jobs, P.store, none, [], 0⟩
      exact ⟨st, h1⟩
    | execNew c q' l _ => rw [execCall_eq] at hy; cases hy
    | closeNew => rw [closeCall_eq] at hy; cases hy
    | _ => cases hy

/-- No wakeup is lost: if anybody sleeps, in `ExecContext` or in `Close`, there is a worker that neither sleeps nor has returned; it can go on
(`C103_never_stuck`), and before it returns it wakes everybody (`C103_worker_wakes`). -/
theorem C103_sleepers_have_a_worker (h : PReach stmtOf N s0 P) {n : Nat} {o : Origin} {t : Th} (hn : P.threads[n]? = some (o, .asleep t)) :
    ∃ (m : Nat) (x : TSt), P.threads[m]? = some (.worker, x) ∧ (∀ vs, x ≠ .run (.ret vs)) ∧ ∀ t, x ≠ .asleep t := by
  obtain ⟨b, J, ids, wk, cl, hs, hb, hR, hh⟩ := h.sim
  have hw : b.worker ≠ .none := by
    intro hw
    have hsh := hR.shape n _ _ hn
    generalize hy : TSt.asleep t = y at hsh
    cases hsh with
    | execSleep c q l p k hp hmem _ _ =>
      have h1 := hb.inv.asleep _ hmem
      have h2 := hb.inv.pend _ (List.mem_append_left _ hmem)
      have h3 := (hb.inv.runId_le h2).1 hw
      omega
    | closeSleep k hn hc =>
      have h1 := hb.inv.closeAsleep hc
      have h2 := hb.inv.phase
      unfold BSys.Phase at h2
      rw [hw] at h2
      exact h1 h2.1
    | _ => cases hy
  obtain ⟨x, h1, h2⟩ := hR.work hw
  have hsh := hR.shape wk _ _ h1
  refine ⟨wk, x, h1, ?_, ?_⟩
  · rintro vs rfl
    generalize hy : TSt.run (.ret vs) = y at hsh
    cases hsh with
    | workDone => cases hy; exact h2 rfl
    | _ => cases hy
  · rintro t' rfl
    cases hsh

/-- There is never more than one worker that has not returned. -/
theorem C103_one_worker (h : PReach stmtOf N s0 P) {m m' : Nat} {x x' : TSt} (h1 : P.threads[m]? = some (.worker, x)) (h2 : P.threads[m']? = some (.worker, x'))
    (hx : x ≠ .run (.ret [])) (hx' : x' ≠ .run (.ret [])) : m = m' := by
  obtain ⟨b, J, ids, wk, cl, hs, hb, hR, hh⟩ := h.sim
  have key : ∀ (m : Nat) x, P.threads[m]? = some (.worker, x) → x ≠ .run (.ret []) → m = wk := by
    intro m x hm hx
    have := hR.shape m _ _ hm
    cases this with
    | workStart h => exact h
    | workExec _ _ h => exact h
    | workFin _ _ h => exact h
    | workDone => exact absurd rfl hx
  exact (key m x h1 hx).trans (key m' x' h2 hx').symm

/-- The worker wakes everybody after each queue: when it has executed one (`batchRunning`) and gets the mutex again, nobody sleeps any more afterwards,
and it has gone on to the next queue or returned. -/
theorem C103_worker_wakes (h : PReach stmtOf N s0 P) {m : Nat} {k : Th} (hm : P.threads[m]? = some (.worker, .run (.lock k))) (hs : P.mem.status = 2)
    (ce : Option DbErr) {t : Th} (hf : (k.sec ce P.mem [] false).fin = .unlocked t) :
    (∀ (n : Nat) o t', (P.after m (.run t) (k.sec ce P.mem [] false)).threads[n]? ≠ some (o, .asleep t')) ∧
    ((∃ k', t = .execQueue P.mem.queue k' ∧ P.mem.queue ≠ []) ∨ (t = .ret [] ∧ P.mem.queue = [])) := by
  obtain ⟨b, J, ids, wk, cl, hist, hb, hR, hh⟩ := h.sim
  have hx : ∃ n', k = finishT n' := by
    have hsh := hR.shape m _ _ hm
    generalize hy : TSt.run (.lock k) = y at hsh
    cases hsh with
    | workStart hn hw =>
      have hph := hb.inv.phase
      unfold BSys.Phase at hph
      rw [hw] at hph
      have := (status_two hR).1 hs
      rw [hph.1] at this
      cases this
    | workFin k' q hn hw => cases hy; exact ⟨k', rfl⟩
    | _ => cases hy
  obtain ⟨n', rfl⟩ := hx
  have hsec : (finishT n').sec ce P.mem [] false = (workLoopT n').sec ce { P.mem with runId := P.mem.runId + 1 } [] true := rfl
  rw [hsec] at hf ⊢
  rcases zero_or_succ n' with rfl | ⟨M, rfl⟩
  · cases hf
  · have hbc : ((workLoopT (M + 1)).sec ce { P.mem with runId := P.mem.runId + 1 } [] true).bcast = true := by
      rw [workLoopT_sec]
      split <;> rfl
    have hsp : ((workLoopT (M + 1)).sec ce { P.mem with runId := P.mem.runId + 1 } [] true).spawned = [] := by
      rw [workLoopT_sec]
      split <;> rfl
    refine ⟨?_, ?_⟩
    · intro n o t' hn
      rcases after_threads hn with ⟨_, h1, _⟩ | ⟨_, z, _, h1⟩ | ⟨_, _, _, h1, _⟩
      · cases h1
      · rw [hbc] at h1
        cases z <;> simp [TSt.wake] at h1
      · rw [hsp] at h1
        cases h1
    · rw [workLoopT_sec] at hf
      have hq : ({ P.mem with runId := P.mem.runId + 1 } : BMem).queue = P.mem.queue := rfl
      rw [hq] at hf
      split at hf
      · rename_i h0
        cases hf
        exact Or.inl ⟨_, rfl, fun h => by rw [h] at h0; exact absurd h0 (Nat.lt_irrefl 0)⟩
      · rename_i h0
        cases hf
        exact Or.inr ⟨rfl, List.length_eq_zero_iff.1 (by omega)⟩

theorem map_jobV_inj : ∀ {Q Q' : List Nat}, Q.map jobV = Q'.map jobV → Q = Q'
  | [], [], _ => rfl
  | [], _ :: _, h => by cases h
  | _ :: _, [], h => by cases h
  | a :: Q, a' :: Q', h => by
    simp only [List.map_cons, List.cons.injEq] at h
    have : a = a' := by
      have h1 := h.1
      unfold jobV at h1
      cases h1
      rfl
    rw [this, map_jobV_inj h.2]

/-- A memory with other values of the jobs. -/
def BMem.withJobs (m : BMem) (jobs : Nat → JobMem) : BMem := { m with jobs := jobs }

/-- While the worker executes a queue without holding the mutex, nobody else depends on the results it is about to write: what any other goroutine does
when it gets the mutex, and what the methods of a result already returned return, is the same for any values of the results of the jobs in the queue. -/
theorem C103_no_race (h : PReach stmtOf N s0 P) {m : Nat} {Q : List Nat} {k : Th} (hm : P.threads[m]? = some (.worker, .run (.execQueue (Q.map jobV) k)))
    {jobs' : Nat → JobMem} (hj : Frame (· ∈ Q) P.mem.jobs jobs') {n : Nat} {o : Origin} {x : TSt} (hn : P.threads[n]? = some (o, x)) :
    (∀ k' ce, x.wants = some k' →
      ∃ jobs'', k'.sec ce (P.mem.withJobs jobs') [] false = { k'.sec ce P.mem [] false with mem := (k'.sec ce P.mem [] false).mem.withJobs jobs'' } ∧
        Frame (· ∈ Q) (k'.sec ce P.mem [] false).mem.jobs jobs'' ∧ ∀ p ∈ Q, jobs'' p = jobs' p ∧ (k'.sec ce P.mem [] false).mem.jobs p = P.mem.jobs p) ∧
    ∀ p, x = .run (.ret [jobV p, .nil]) → jobs' p = P.mem.jobs p := by
  obtain ⟨b, J, ids, wk, cl, hist, hb, hR, hh⟩ := h.sim
  obtain ⟨hw, hQ⟩ : b.worker = .executing (Q.map J) ∧ ∀ p ∈ Q, p < P.mem.next := by
    have hsh := hR.shape m _ _ hm
    generalize hq : Q.map jobV = qv at hsh
    generalize hy : TSt.run (.execQueue qv k) = y at hsh
    cases hsh with
    | workExec k' Q' hn hw hQ =>
      cases hy
      have : Q = Q' := by
        exact map_jobV_inj hq
      subst this
      exact ⟨hw, hQ⟩
    | _ => cases hy
  have hrun : ∀ p ∈ Q, (P.mem.jobs p).runId = P.mem.runId := by
    intro p hp
    have hph := hb.inv.phase
    unfold BSys.Phase at hph
    rw [hw] at hph
    rw [(hR.jobs p (hQ p hp)).1, hR.runId]
    exact hph.2.2.1 _ (List.mem_map_of_mem hp)
  refine ⟨fun k' ce hk => ?_, ?_⟩
  · have hrun' : ∀ i, (jobs' i).runId = (P.mem.jobs i).runId := fun i => (hj i).2.2.2.1
    have keep : ∀ r : SecRes, r.mem = P.mem → k'.sec ce P.mem [] false = r → k'.sec ce (P.mem.withJobs jobs') [] false = { r with mem := P.mem.withJobs jobs' } →
        ∃ jobs'', k'.sec ce (P.mem.withJobs jobs') [] false = { k'.sec ce P.mem [] false with mem := (k'.sec ce P.mem [] false).mem.withJobs jobs'' } ∧
          Frame (· ∈ Q) (k'.sec ce P.mem [] false).mem.jobs jobs'' ∧ ∀ p ∈ Q, jobs'' p = jobs' p ∧ (k'.sec ce P.mem [] false).mem.jobs p = P.mem.jobs p := by
      intro r hr h1 h2
      refine ⟨jobs', ?_, ?_, ?_⟩
      · rw [h1, h2, hr]
      · rw [h1, hr]
        exact hj
      · intro p hp
        rw [h1, hr]
        exact ⟨rfl, rfl⟩
    have hwc : (P.mem.withJobs jobs').closed = P.mem.closed := rfl
    have hws : (P.mem.withJobs jobs').status = P.mem.status := rfl
    cases hR.shape n o x hn with
    | execNew c q l hid =>
      rw [execCall_eq] at hk
      cases hk
      cases hc : P.mem.closed with
      | true => exact keep _ rfl (execBody_closed c q l ce _ hc) (execBody_closed c q l ce _ (hwc.trans hc))
      | false =>
        rw [execBody_sec c q l ce P.mem hc, execBody_sec c q l ce _ (hwc.trans hc)]
        refine ⟨setJob jobs' P.mem.next fun _ => ⟨c, q, l, if P.mem.status = 2 then P.mem.runId + 1 else P.mem.runId, 0, 0, none⟩, rfl, ?_, ?_⟩
        · intro i
          simp only [submitMem, setJob]
          split
          · exact ⟨rfl, rfl, rfl, rfl, fun _ => rfl, fun h => h⟩
          · exact hj i
        · intro p hp
          have : p ≠ P.mem.next := Nat.ne_of_lt (hQ p hp)
          simp [submitMem, setJob, this]
    | execSleep => cases hk
    | execWoken c q l p n hp hmem hid hst =>
      cases hk
      cases n with
      | zero => exact keep _ rfl rfl rfl
      | succ n =>
        refine keep _ rfl (waitT_sec p n ce P.mem) ?_
        rw [waitT_sec]
        have h1 : ((P.mem.withJobs jobs').jobs p).runId = (P.mem.jobs p).runId := hrun' p
        have h2 : (P.mem.withJobs jobs').runId = P.mem.runId := rfl
        rw [h1, h2]
        by_cases hle : P.mem.runId ≤ (P.mem.jobs p).runId
        · rw [if_pos hle, if_pos hle]
        · rw [if_neg hle, if_neg hle]
          have h3 : (P.mem.withJobs jobs').jobs p = P.mem.jobs p := (hj p).2.2.2.2.1 fun hpQ => hle (by rw [hrun p hpQ]; exact Int.le_refl _)
          rw [h3]
    | execClosed => cases hk
    | execErr => cases hk
    | execOk => cases hk
    | closeNew =>
      rw [closeCall_eq] at hk
      cases hk
      cases hc : P.mem.closed with
      | true =>
        have hsec : ∀ m : BMem, m.closed = true → (closeBody N).sec ce m [] false = ⟨m, [], false, .unlocked (.ret [closedV])⟩ := fun m h => by
          simp [closeBody, Th.sec, h]
        exact keep _ rfl (hsec _ hc) (hsec _ (hwc.trans hc))
      | false =>
        have hsec : ∀ m : BMem, m.closed = false → (closeBody N).sec ce m [] false = (closeLoopT N).sec ce { m with closed := true } [] false := fun m h => by
          simp [closeBody, Th.sec, h]
        rw [hsec _ hc, hsec _ (hwc.trans hc)]
        refine ⟨jobs', ?_⟩
        rcases zero_or_succ N with rfl | ⟨M, rfl⟩
        · exact ⟨rfl, hj, fun p hp => ⟨rfl, rfl⟩⟩
        · rw [closeLoopT_sec, closeLoopT_sec]
          exact ⟨rfl, hj, fun p hp => ⟨rfl, rfl⟩⟩
    | closeSleep => cases hk
    | closeWoken n hn hc =>
      cases hk
      cases n with
      | zero => exact keep _ rfl rfl rfl
      | succ n =>
        refine keep _ rfl (closeLoopT_sec n ce P.mem) ?_
        rw [closeLoopT_sec]
        rfl
    | closeRejected => cases hk
    | closeDone => cases hk
    | workStart hn hw' => rw [hw] at hw'; cases hw'
    | workExec => cases hk
    | workFin k q hn hw' => rw [hw] at hw'; cases hw'
    | workDone => cases hk
  · rintro p rfl
    refine (hj p).2.2.2.2.1 fun hpQ => ?_
    have hsh := hR.shape n _ _ hn
    generalize hy : TSt.run (.ret [jobV p, .nil]) = y at hsh
    have hdone : ∀ p' : Nat, p' = p → p' < P.mem.next → ∀ r, ((J p').id, BAnswer.done (.ok r)) ∈ b.returned → False := by
      rintro p' rfl hp' r hr
      rcases hb.inv.ret _ hr with ⟨h1, _⟩ | ⟨B, hB, y, hy, hid, _⟩
      · cases h1
      · have hs := hb.inv.sorted
        rw [BSys.jobs, List.append_assoc, List.map_append, List.pairwise_append] at hs
        have h1 : y.1 ∈ b.executed := List.mem_flatMap.2 ⟨B, hB, (List.of_mem_zip (a := y.1) (b := y.2) hy).1⟩
        have h2 : J p' ∈ b.inflight := by
          unfold BSys.inflight
          rw [hw]
          exact List.mem_map_of_mem hpQ
        have := hs.2.2 y.1.id (List.mem_map_of_mem h1) (J p').id (List.mem_map_of_mem (List.mem_append_left _ h2))
        simp only at hid
        omega
    cases hsh with
    | execNew c q l _ => exact absurd hy execCall_ne_ret
    | closeNew => exact absurd hy closeCall_ne_ret
    | execOk c q l p' r hp' hi hr hst =>
      simp only [TSt.run.injEq, Th.ret.injEq, List.cons.injEq, and_true] at hy
      have : p' = p := by cases hy; rfl
      exact hdone p' this hp' r hr
    | closeDone vs hn hc hv =>
      cases hy
      rcases hv with hv | ⟨e, hv⟩ <;> cases hv
    | _ => cases hy

/-! ### An execution -/

/-- What happens next. -/
inductive Act where
  | exec (c : Nat) (q : List UInt8) (l : List V)
  | close
  | lock (i : Nat)
  | queue (i : Nat) (E : DbEnv)

/-- Do it. -/
def PSys.act (stmtOf : List UInt8 → List V → BStmt S) (N : Nat) (P : PSys S) : Act → Option (PSys S)
  | .exec c q l => some { P with threads := P.threads ++ [(.exec c q l, .run (execCall N c q l))] }
  | .close => some { P with threads := P.threads ++ [(.close, .run (closeCall N))] }
  | .lock i =>
    match P.threads[i]? with
    | none => none
    | some (_, x) =>
      match x.wants with
      | none => none
      | some k =>
        match (k.sec none P.mem [] false).fin with
        | .unlocked t => some (P.after i (.run t) (k.sec none P.mem [] false))
        | .waits t => some (P.after i (.asleep t) (k.sec none P.mem [] false))
        | _ => none
  | .queue i E =>
    match P.threads[i]? with
    | some (o, .run (.execQueue q k)) =>
      match (queueCall N q).runDb stmtOf E ⟨P.mem.jobs, P.store, none, [], 0⟩ with
      | none => none
      | some (_, st) => some { P with mem := { P.mem with jobs := st.jobs }, store := st.store, threads := P.threads.set i (o, .run k) }
    | _ => none

theorem act_step {a : Act} {P' : PSys S} (h : P.act stmtOf N a = some P') : PStep stmtOf N P P' := by
  cases a with
  | exec c q l => cases h; exact .exec P c q l
  | close => cases h; exact .close P
  | lock i =>
    simp only [PSys.act] at h
    split at h
    · cases h
    · rename_i o x hi
      split at h
      · cases h
      · rename_i k hk
        split at h
        · rename_i t hf
          cases h
          exact .unlock P i o x k t none hi hk hf
        · rename_i t hf
          cases h
          exact .wait P i o x k t none hi hk hf
        · cases h
  | queue i E =>
    simp only [PSys.act] at h
    split at h
    · rename_i o q k hi
      split at h
      · cases h
      · rename_i vs st hr
        cases h
        exact .queue P i o q vs k E st hi hr
    · cases h

/-- Do it all. -/
def PSys.acts (stmtOf : List UInt8 → List V → BStmt S) (N : Nat) : List Act → PSys S → Option (PSys S)
  | [], P => some P
  | a :: as, P =>
    match P.act stmtOf N a with
    | none => none
    | some P' => PSys.acts stmtOf N as P'

theorem acts_run {as : List Act} {n : Nat} {P' : PSys S} (hP : PRun stmtOf N s0 n P) (h : PSys.acts stmtOf N as P = some P') : PRun stmtOf N s0 (n + as.length) P' := by
  induction as generalizing P n with
  | nil => cases h; exact hP
  | cons a as ih =>
    simp only [PSys.acts] at h
    split at h
    · cases h
    · rename_i P1 h1
      have := ih (.step hP (act_step h1)) h
      rw [List.length_cons, Nat.add_comm as.length, ← Nat.add_assoc]
      exact this

/-- A database that remembers the statements; the id of a statement is their number. -/
def logStmt (q : List UInt8) (_ : List V) : BStmt (List (List UInt8)) := fun s => (s ++ [q], ⟨1, s.length⟩)

/-- Everything is fine. -/
def fineEnv : DbEnv := ⟨fun _ => none, fun _ => .ok, fun _ => none, fun _ => none, fun _ => .ok, fun _ _ => none, fun _ _ _ h => by cases h⟩

/-- The context of call 7 is done. -/
def cancelEnv : DbEnv := ⟨fun _ => none, fun _ => .ok, fun _ => none, fun _ => none, fun _ => .ok, fun _ c => if c = 7 then some .canceled else none, fun _ _ _ h => h⟩

/-- Has the goroutine returned, and what? -/
def TSt.returned : TSt → Option (List V)
  | .run (.ret vs) => some vs
  | _ => none

/-- The first call starts a worker, which takes its statement. While it executes it, two other calls arrive; they are executed in one transaction. A fourth
and a fifth call are in a third queue; the context of the fifth is done, so that both fail and nothing is executed. `Close` is called meanwhile,
a sixth call is refused, and `Close` returns when the worker is over. -/
def exampleActs : List Act :=
  [.exec 0 [1] [], .lock 0, .lock 1, .exec 0 [2] [], .exec 0 [3] [], .lock 2, .lock 3, .queue 1 fineEnv, .lock 1, .lock 0, .lock 2,
   .exec 0 [4] [], .exec 7 [5] [], .lock 4, .lock 5, .close, .lock 6, .exec 0 [6] [], .lock 7, .queue 1 fineEnv, .lock 1, .lock 2, .lock 3,
   .queue 1 cancelEnv, .lock 1, .lock 4, .lock 5, .lock 6]

/-- What can be seen of it. -/
def PSys.seen (P : PSys (List (List UInt8))) : Nat × List (List UInt8) × List (Option (List V)) × (Option DbErr × Int × Int) :=
  (P.foreign, P.store, P.threads.map (fun p => p.2.returned), ((P.mem.jobs 2).err, (P.mem.jobs 2).rows, (P.mem.jobs 2).last))

theorem example_seen : (PSys.acts logStmt 40 exampleActs (PSys.init [])).map PSys.seen = some (0, [[1], [2], [3]],
    [some [jobV 0, .nil], some [], some [jobV 1, .nil], some [jobV 2, .nil], some [.nil, dbErrV .canceled],
      some [.nil, dbErrV .canceled], some [.nil], some [.nil, closedV]], (none, 1, 2)) := by
  kernel_rfl

theorem C103_example :
    ∃ P n, PRun logStmt 40 [] n P ∧ n < 40 ∧ P.foreign = 0 ∧ P.store = [[1], [2], [3]] ∧
      P.threads.map (fun p => p.2.returned) = [some [jobV 0, .nil], some [], some [jobV 1, .nil], some [jobV 2, .nil], some [.nil, dbErrV .canceled],
        some [.nil, dbErrV .canceled], some [.nil], some [.nil, closedV]] ∧
      readResult logStmt 40 P n!"LastInsertId" (jobV 2) [.int 2, .nil] := by
  have h := example_seen
  cases hP : PSys.acts logStmt 40 exampleActs (PSys.init []) with
  | none => rw [hP] at h; cases h
  | some P =>
    rw [hP] at h
    simp only [Option.map_some, Option.some.injEq, PSys.seen, Prod.mk.injEq] at h
    obtain ⟨h1, h2, h3, h4, h5, h6⟩ := h
    refine ⟨P, _, acts_run (s0 := []) .init hP, by decide, h1, h2, h3, fun E => ?_⟩
    rw [LastInsertId_tree]
    simp only [Th.runDb, h4, h6, Option.map_some]

end Verif.Go
