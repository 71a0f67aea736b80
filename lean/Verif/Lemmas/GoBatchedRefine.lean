import Verif.Lemmas.GoBatchedSim
/-!
# Every execution of the text of `batched.go` is one of the model; no goroutine ever gets stuck
-/

namespace Verif.Go

open Verif.GoText

variable {S : Type} {stmtOf : List UInt8 → List V → BStmt S} {N : Nat} {P P' : PSys S} {b : BSys S} {J : Nat → BJob S} {ids : Nat → Option Nat} {wk cl : Nat}

attribute [local irreducible] execCall closeCall queueCall goroutine

theorem wake_false (x : TSt) : x.wake false = x := by cases x <;> rfl

/-- A goroutine is started that has not done anything yet. -/
theorem sim_call (hR : Rel stmtOf N P b J ids wk cl) {o : Origin} {x : TSt}
    (hx : ids P.threads.length = none → Shape stmtOf N P.mem.next b J ids wk cl P.threads.length o x) :
    SimTo stmtOf N b ids { P with threads := P.threads ++ [(o, x)] } := by
  refine ⟨b, J, ids, wk, cl, .refl b, ?_, fun _ _ h => h⟩
  have hnone : ids P.threads.length = none := by
    cases h : ids P.threads.length with
    | none => rfl
    | some a => exact absurd (hR.idsB _ _ h).2 (Nat.lt_irrefl _)
  exact {
    store := hR.store, closed := hR.closed, runId := hR.runId, status := hR.status, queue := hR.queue, jobs := hR.jobs, rows := hR.rows, inj := hR.inj
    idsB := fun n a h => ⟨(hR.idsB n a h).1, by
      have := (hR.idsB n a h).2
      rw [List.length_append]
      omega⟩
    idsInj := hR.idsInj
    shape := fun n o' x' h => by
      by_cases hn : n < P.threads.length
      · rw [List.getElem?_append_left hn] at h
        exact hR.shape n o' x' h
      · have hlt := (List.getElem?_eq_some_iff.1 h).1
        simp only [List.length_append, List.length_cons, List.length_nil] at hlt
        have : n = P.threads.length := by omega
        subst this
        rw [List.getElem?_append_right (Nat.le_refl _)] at h
        simp only [Nat.sub_self, List.getElem?_cons_zero, Option.some.injEq, Prod.mk.injEq] at h
        obtain ⟨rfl, rfl⟩ := h
        exact hx hnone
    work := fun h => by
      obtain ⟨x', h1, h2⟩ := hR.work h
      exact ⟨x', by rw [List.getElem?_append_left (List.getElem?_eq_some_iff.1 h1).1]; exact h1, h2⟩
    fresh := hR.fresh
    calls := fun a h => by
      obtain ⟨n, c, q, l, y, h1, h2, h3⟩ := hR.calls a h
      exact ⟨n, c, q, l, y, h1, by rw [List.getElem?_append_left (List.getElem?_eq_some_iff.1 h2).1]; exact h2, h3⟩ }

/-- A step of the goroutines is some steps of the model, or one by anybody else. -/
theorem sim_step (hb : BReachable b) (hR : Rel stmtOf N P b J ids wk cl) (h : PStep stmtOf N P P') :
    (SimTo stmtOf N b ids P' ∧ P'.foreign = P.foreign) ∨
    (P'.foreign = P.foreign + 1 ∧ ∃ s, Rel stmtOf N P' { b with store := s } J ids wk cl) := by
  cases h with
  | exec c q l => exact Or.inl ⟨sim_call hR fun hi => .execNew c q l hi, rfl⟩
  | close => exact Or.inl ⟨sim_call hR fun _ => .closeNew, rfl⟩
  | unlock i o x k t ce hi hk hf => exact Or.inl ⟨sim_sec hb hR hi hk (Or.inl ⟨t, hf, rfl⟩), rfl⟩
  | wait i o x k t ce hi hk hf => exact Or.inl ⟨sim_sec hb hR hi hk (Or.inr ⟨t, hf, rfl⟩), rfl⟩
  | queue i o q vs k E st hi hr =>
    refine Or.inl ⟨?_, rfl⟩
    have hs := hR.shape i o _ hi
    generalize hy : TSt.run (.execQueue q k) = y at hs
    cases hs with
    | workExec k' Q hn hw hQ =>
      cases hy
      subst hn
      exact sim_queue hb hR hi hw hQ hr
    | execNew c q' l _ => rw [execCall_eq] at hy; cases hy
    | closeNew => rw [closeCall_eq] at hy; cases hy
    | _ => cases hy
  | env s =>
    refine Or.inr ⟨rfl, s, ?_⟩
    exact {
      store := rfl, closed := hR.closed, runId := hR.runId, status := hR.status, queue := hR.queue, jobs := hR.jobs, rows := hR.rows, inj := hR.inj
      idsB := hR.idsB, idsInj := hR.idsInj
      shape := fun n o x h => by
        have := (hR.shape n o x h).keep (b' := { b with store := s }) (J' := J) (ids' := ids) (wk' := wk) (cl' := cl) false (Nat.le_refl _) (fun _ _ => rfl) rfl ⟨[], by simp⟩ (fun x hx => hx)
          (fun p hp hi hm => ⟨fun _ => hm, fun h => by cases h⟩) (fun p hp hi hm => hm) (fun _ _ => ⟨rfl, by simp⟩) (fun h => h) (fun _ _ => ⟨rfl, rfl⟩)
        rw [wake_false] at this
        exact this
      work := hR.work, fresh := hR.fresh, calls := hR.calls }

/-! ### The history of the rounds of the worker -/

/-- A round of the worker in the model. -/
structure BRound (S : Type) where
  jobs : List (BJob S)
  begin : Option DbErr
  commit : CommitOut
  fates : List JobFate
  store : S

/-- What `execQueue` makes of it. -/
def BRound.outcome (R : BRound S) : S × List (Except DbErr ExecResult) := execQueue R.begin R.commit ((R.jobs.map (·.stmt)).zip R.fates) R.store

/-- The rounds lead from one store to another. -/
def BChain : S → List (BRound S) → S → Prop
  | s, [], s' => s' = s
  | s, R :: hs, s' => R.store = s ∧ BChain R.outcome.1 hs s'

theorem BChain.snoc {s s' : S} {hs : List (BRound S)} (h : BChain s hs s') (R : BRound S) (hR : R.store = s') : BChain s (hs ++ [R]) R.outcome.1 := by
  induction hs generalizing s with
  | nil =>
    cases h
    exact ⟨hR, rfl⟩
  | cons R' hs ih => exact ⟨h.1, ih h.2⟩

/-- The rounds of the worker so far. -/
structure BHist (s0 : S) (foreign : Nat) (b : BSys S) (hs : List (BRound S)) : Prop where
  batches : b.batches = hs.map fun R => (R.jobs, R.outcome.2)
  fates : ∀ R ∈ hs, R.fates.length = R.jobs.length
  chain : foreign = 0 → BChain s0 hs b.store

theorem BHist.same {s0 : S} {f : Nat} {b b' : BSys S} {hs : List (BRound S)} (h : BHist s0 f b hs) (h1 : b'.batches = b.batches) (h2 : b'.store = b.store) : BHist s0 f b' hs :=
  ⟨h1.trans h.batches, h.fates, fun hf => h2 ▸ h.chain hf⟩

theorem BHist.step {s0 : S} {f : Nat} {b b' : BSys S} {hs : List (BRound S)} {k : BActor} (h : BHist s0 f b hs) (hst : BStep k b b') (hk : k ≠ .env) : ∃ hs', BHist s0 f b' hs' := by
  cases hst with
  | submit st =>
    refine ⟨_, h.same ?_ ?_⟩ <;> (unfold BSys.submit; by_cases hc : b.closed = true <;> by_cases hn : b.status = .notStarted <;> simp [hc, hn])
  | wake pre post j hw =>
    refine ⟨_, h.same ?_ ?_⟩ <;> (unfold BSys.wake; split <;> rfl)
  | start hw =>
    refine ⟨_, h.same ?_ ?_⟩ <;> (unfold BSys.take; split <;> rfl)
  | next q hw =>
    refine ⟨_, h.same ?_ ?_⟩ <;> (unfold BSys.take; split <;> rfl)
  | close hc => exact ⟨_, h.same rfl rfl⟩
  | checkClose hc =>
    refine ⟨_, h.same ?_ ?_⟩ <;> (unfold BSys.checkClose; split <;> rfl)
  | env s => exact absurd rfl hk
  | exec _ q begin commit fates hf hw =>
    refine ⟨hs ++ [⟨q, begin, commit, fates, b.store⟩], ?_, ?_, fun h0 => ?_⟩
    · show b.batches ++ [_] = _
      rw [h.batches, List.map_append]
      rfl
    · intro R hR
      rcases List.mem_append.1 hR with hR | hR
      · exact h.fates R hR
      · rw [List.mem_singleton.1 hR]
        exact hf
    · exact (h.chain h0).snoc ⟨q, begin, commit, fates, b.store⟩ rfl

theorem BHist.path {s0 : S} {f : Nat} {b b' : BSys S} {hs : List (BRound S)} (h : BHist s0 f b hs) (hp : BPath b b') : ∃ hs', BHist s0 f b' hs' := by
  induction hp with
  | refl => exact ⟨hs, h⟩
  | step _ hs hk ih =>
    obtain ⟨hs', ih⟩ := ih
    exact ih.step hs hk

/-- Every state of the goroutines is one of the model. -/
theorem PReach.sim {s0 : S} (h : PReach stmtOf N s0 P) : ∃ b J ids wk cl hs, BReachable b ∧ Rel stmtOf N P b J ids wk cl ∧ BHist s0 P.foreign b hs := by
  induction h with
  | init => exact ⟨BSys.init s0, fun _ => ⟨0, fun s => (s, ⟨0, 0⟩), 0⟩, _, 0, 0, [], .init s0, Rel.init s0 _, ⟨rfl, (fun R h => by cases h), fun _ => rfl⟩⟩
  | step _ hs ih =>
    obtain ⟨b, J, ids, wk, cl, hist, hb, hR, hh⟩ := ih
    rcases sim_step hb hR hs with ⟨⟨b', J', ids', wk', cl', hp, hR', _⟩, hf⟩ | ⟨hf, s, hR'⟩
    · obtain ⟨hist', hh'⟩ := hh.path hp
      exact ⟨b', J', ids', wk', cl', hist', hp.reach hb, hR', hf ▸ hh'⟩
    · refine ⟨_, J, ids, wk, cl, hist, .step hb (.env b s), hR', ⟨hh.batches, hh.fates, fun h => ?_⟩⟩
      rw [hf] at h
      cases h

/-! ### Nobody gets stuck -/

/-- Reachable with `n` steps. -/
inductive PRun (stmtOf : List UInt8 → List V → BStmt S) (N : Nat) (s0 : S) : Nat → PSys S → Prop where
  | init : PRun stmtOf N s0 0 (PSys.init s0)
  | step {n : Nat} {P P' : PSys S} : PRun stmtOf N s0 n P → PStep stmtOf N P P' → PRun stmtOf N s0 (n + 1) P'

theorem PRun.reach {s0 : S} {n : Nat} (h : PRun stmtOf N s0 n P) : PReach stmtOf N s0 P := by
  induction h with
  | init => exact .init
  | step _ hs ih => exact .step ih hs

theorem PReach.run {s0 : S} (h : PReach stmtOf N s0 P) : ∃ n, PRun stmtOf N s0 n P := by
  induction h with
  | init => exact ⟨0, .init⟩
  | step _ hs ih => obtain ⟨n, ih⟩ := ih; exact ⟨n + 1, .step ih hs⟩

/-- A goroutine that can go through its loop at least `m` more times. -/
inductive Live (N m : Nat) : TSt → Prop where
  | execNew (c : Nat) (q : List UInt8) (l : List V) (h : m ≤ N) : Live N m (.run (execCall N c q l))
  | closeNew (h : m ≤ N) : Live N m (.run (closeCall N))
  | workNew (h : m ≤ N) : Live N m (.run (workerT N))
  | execSleep (p k : Nat) (h : m ≤ k) : Live N m (.asleep (waitT p k))
  | execWoken (p k : Nat) (h : m ≤ k) : Live N m (.woken (waitT p k))
  | closeSleep (k : Nat) (h : m ≤ k) : Live N m (.asleep (closeLoopT k))
  | closeWoken (k : Nat) (h : m ≤ k) : Live N m (.woken (closeLoopT k))
  | workExec (k : Nat) (q : List V) (h : m ≤ k) : Live N m (.run (.execQueue q (.lock (finishT k))))
  | workFin (k : Nat) (h : m ≤ k) : Live N m (.run (.lock (finishT k)))
  | ret (vs : List V) : Live N m (.run (.ret vs))

theorem Live.mono {m m' : Nat} {x : TSt} (h : Live N m x) (hm : m' ≤ m) : Live N m' x := by
  cases h with
  | execNew c q l h => exact .execNew c q l (by omega)
  | closeNew h => exact .closeNew (by omega)
  | workNew h => exact .workNew (by omega)
  | execSleep p k h => exact .execSleep p k (by omega)
  | execWoken p k h => exact .execWoken p k (by omega)
  | closeSleep k h => exact .closeSleep k (by omega)
  | closeWoken k h => exact .closeWoken k (by omega)
  | workExec k q h => exact .workExec k q (by omega)
  | workFin k h => exact .workFin k (by omega)
  | ret vs => exact .ret vs

theorem Live.wake {m : Nat} {x : TSt} (bc : Bool) (h : Live N m x) : Live N m (x.wake bc) := by
  cases h with
  | execNew c q l h => exact .execNew c q l h
  | closeNew h => exact .closeNew h
  | workNew h => exact .workNew h
  | execSleep p k h =>
    cases bc with
    | false => exact .execSleep p k h
    | true => exact .execWoken p k h
  | execWoken p k h => exact .execWoken p k h
  | closeSleep k h =>
    cases bc with
    | false => exact .closeSleep k h
    | true => exact .closeWoken k h
  | closeWoken k h => exact .closeWoken k h
  | workExec k q h => exact .workExec k q h
  | workFin k h => exact .workFin k h
  | ret vs => exact .ret vs

/-- A goroutine gets the mutex: it gives it back or sleeps, and does nothing else than it may. -/
theorem Live.sec {m : Nat} {x : TSt} {k : Th} (h : Live N (m + 1) x) (hk : x.wants = some k) (ce : Option DbErr) (mem : BMem) :
    ((∃ t, (k.sec ce mem [] false).fin = .unlocked t ∧ Live N m (.run t)) ∨ ∃ t, (k.sec ce mem [] false).fin = .waits t ∧ Live N m (.asleep t)) ∧
    ∀ t ∈ (k.sec ce mem [] false).spawned, t = workerT N := by
  cases h with
  | execNew c q l h =>
    rw [execCall_eq] at hk
    cases hk
    cases hc : mem.closed with
    | true =>
      rw [execBody_closed c q l ce mem hc]
      exact ⟨Or.inl ⟨_, rfl, .ret _⟩, fun t ht => by cases ht⟩
    | false =>
      rcases zero_or_succ N with rfl | ⟨M, rfl⟩
      · omega
      · rw [execBody_open c q l ce mem hc]
        refine ⟨Or.inr ⟨_, rfl, .execSleep _ _ (by omega)⟩, fun t ht => ?_⟩
        simp only at ht
        split at ht
        · exact List.mem_singleton.1 ht
        · cases ht
  | closeNew h =>
    rw [closeCall_eq] at hk
    cases hk
    cases hc : mem.closed with
    | true =>
      have hsec : (closeBody N).sec ce mem [] false = ⟨mem, [], false, .unlocked (.ret [closedV])⟩ := by
        simp [closeBody, Th.sec, hc]
      rw [hsec]
      exact ⟨Or.inl ⟨_, rfl, .ret _⟩, fun t ht => by cases ht⟩
    | false =>
      have hsec : (closeBody N).sec ce mem [] false = (closeLoopT N).sec ce { mem with closed := true } [] false := by
        simp [closeBody, Th.sec, hc]
      rw [hsec]
      rcases zero_or_succ N with rfl | ⟨M, rfl⟩
      · omega
      · rw [closeLoopT_sec]
        refine ⟨?_, fun t ht => by cases ht⟩
        simp only
        split
        · exact Or.inl ⟨_, rfl, .ret _⟩
        · exact Or.inr ⟨_, rfl, .closeSleep _ (by omega)⟩
  | workNew h =>
    cases hk
    have hsec : (Th.setStatus 2 (workLoopT N)).sec ce mem [] false = (workLoopT N).sec ce { mem with status := 2 } [] false := rfl
    rw [hsec]
    rcases zero_or_succ N with rfl | ⟨M, rfl⟩
    · omega
    · rw [workLoopT_sec]
      split
      · exact ⟨Or.inl ⟨_, rfl, .workExec _ _ (by omega)⟩, fun t ht => by cases ht⟩
      · exact ⟨Or.inl ⟨_, rfl, .ret _⟩, fun t ht => by cases ht⟩
  | execSleep => cases hk
  | execWoken p k' h =>
    cases hk
    rcases zero_or_succ k' with rfl | ⟨M, rfl⟩
    · omega
    · rw [waitT_sec]
      refine ⟨?_, fun t ht => by cases ht⟩
      simp only
      split
      · exact Or.inr ⟨_, rfl, .execSleep _ _ (by omega)⟩
      · exact Or.inl ⟨_, rfl, .ret _⟩
  | closeSleep => cases hk
  | closeWoken k' h =>
    cases hk
    rcases zero_or_succ k' with rfl | ⟨M, rfl⟩
    · omega
    · rw [closeLoopT_sec]
      refine ⟨?_, fun t ht => by cases ht⟩
      simp only
      split
      · exact Or.inl ⟨_, rfl, .ret _⟩
      · exact Or.inr ⟨_, rfl, .closeSleep _ (by omega)⟩
  | workExec => cases hk
  | workFin k' h =>
    cases hk
    have hsec : (finishT k').sec ce mem [] false = (workLoopT k').sec ce { mem with runId := mem.runId + 1 } [] true := rfl
    rw [hsec]
    rcases zero_or_succ k' with rfl | ⟨M, rfl⟩
    · omega
    · rw [workLoopT_sec]
      split
      · exact ⟨Or.inl ⟨_, rfl, .workExec _ _ (by omega)⟩, fun t ht => by cases ht⟩
      · exact ⟨Or.inl ⟨_, rfl, .ret _⟩, fun t ht => by cases ht⟩
  | ret => cases hk

/-- In `n ≤ N` steps nobody gets beyond the bound on the iterations. -/
theorem PRun.live {s0 : S} {n : Nat} (h : PRun stmtOf N s0 n P) (hn : n ≤ N) {i : Nat} {o : Origin} {x : TSt} (hi : P.threads[i]? = some (o, x)) : Live N (N - n) x := by
  induction h generalizing i o x with
  | init => simp [PSys.init] at hi
  | @step n P P' hr hs ih =>
    have hsucc : N - n = (N - (n + 1)) + 1 := by omega
    have ih1 : ∀ (i : Nat) o x, P.threads[i]? = some (o, x) → Live N ((N - (n + 1)) + 1) x := fun i o x h => hsucc ▸ ih (by omega) h
    have ih' : ∀ (i : Nat) o x, P.threads[i]? = some (o, x) → Live N (N - (n + 1)) x := fun i o x h => (ih1 i o x h).mono (by omega)
    have hafter : ∀ (i : Nat) o x k ce y, P.threads[i]? = some (o, x) → x.wants = some k → Live N (N - (n + 1)) y →
        ∀ (j : Nat) o' x', (P.after i y (k.sec ce P.mem [] false)).threads[j]? = some (o', x') → Live N (N - (n + 1)) x' := by
      intro i o x k ce y hi hk hl j o' x' hj
      rcases after_threads hj with ⟨_, rfl, _⟩ | ⟨_, z, hz, rfl⟩ | ⟨a, t, _, ht, _, rfl⟩
      · exact hl
      · exact (ih' _ _ _ hz).wake _
      · rw [((ih1 i o x hi).sec hk ce P.mem).2 t (List.mem_of_getElem? ht)]
        exact .workNew (by omega)
    cases hs with
    | exec c q l =>
      rcases List.mem_append.1 (List.mem_of_getElem? hi) with h | h
      · obtain ⟨j, hj⟩ := List.mem_iff_getElem?.1 h
        exact ih' j o x hj
      · cases List.mem_singleton.1 h
        exact .execNew c q l (by omega)
    | close =>
      rcases List.mem_append.1 (List.mem_of_getElem? hi) with h | h
      · obtain ⟨j, hj⟩ := List.mem_iff_getElem?.1 h
        exact ih' j o x hj
      · cases List.mem_singleton.1 h
        exact .closeNew (by omega)
    | unlock i' o' x' k t ce hi' hk hf =>
      refine hafter i' o' x' k ce _ hi' hk ?_ i o x hi
      rcases ((ih1 _ _ _ hi').sec hk ce P.mem).1 with ⟨t', h1, h2⟩ | ⟨t', h1, h2⟩
      · rw [hf] at h1; cases h1; exact h2
      · rw [hf] at h1; cases h1
    | wait i' o' x' k t ce hi' hk hf =>
      refine hafter i' o' x' k ce _ hi' hk ?_ i o x hi
      rcases ((ih1 _ _ _ hi').sec hk ce P.mem).1 with ⟨t', h1, h2⟩ | ⟨t', h1, h2⟩
      · rw [hf] at h1; cases h1
      · rw [hf] at h1; cases h1; exact h2
    | queue i' o' q vs k E st hi' hr =>
      simp only at hi
      rw [List.getElem?_set] at hi
      split at hi
      · split at hi
        · cases hi
          have := ih' _ _ _ hi'
          generalize hy : TSt.run (.execQueue q k) = y at this
          cases this with
          | workExec k' q' h => cases hy; exact .workFin k' h
          | execNew c q' l _ => rw [execCall_eq] at hy; cases hy
          | closeNew => rw [closeCall_eq] at hy; cases hy
          | _ => cases hy
        · cases hi
      · exact ih' i o x hi
    | env s => exact ih' i o x hi

end Verif.Go
