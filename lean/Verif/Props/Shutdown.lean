import Verif.Model.Shutdown
import Verif.Props.Batched
import Verif.Props.Prepared
import Verif.Lemmas.Routed
/-!
# C91 Requests in flight during a shutdown are answered or refused; nothing crashes
-/

namespace Verif

variable {S : Type}

/-- Requests, lease expiry, polling and starting issue queries and writes only; just compactions use transactions of their
own. So all but the compactor use the database in the two ways that may go on during and after a shutdown. -/
theorem C91_only_compaction_uses_transactions :
    (∀ v1 op, RoutedIf false (ClientOp.prog v1 op)) ∧
    ∀ c : Call, (∀ leader, c ≠ .doCompact leader) → RoutedIf false c.prog :=
  ⟨routed_op, routed_call_plain⟩

structure DownInv (d : DownSys S) : Prop where
  prep : PReachable d.prep
  bat : BReachable d.bat
  quiet : d.prep.panicked = false
  shut : d.prep.opened = false ↔ d.phase = .closed
  called : d.bat.close ≠ .notCalled ↔ d.phase = .closing ∨ d.phase = .closed
  done : d.phase = .closed → d.bat.close = .done
  compactor : d.phase = .closing ∨ d.phase = .closed → d.compactor = false

theorem worker_close {k : BActor} {a b : BSys S} (h : BStep k a b) (hk : k = .worker ∨ k = .waiter) :
    (b.close ≠ .notCalled ↔ a.close ≠ .notCalled) ∧ (a.close = .done → b.close = .done) := by
  have take : ∀ x : BSys S, x.take.close = x.close := by
    intro x; unfold BSys.take; split <;> rfl
  cases h with
  | submit _ st => rcases hk with hk | hk <;> cases hk
  | close _ h => rcases hk with hk | hk <;> cases hk
  | env _ s => rcases hk with hk | hk <;> cases hk
  | wake _ pre post j hw => unfold BSys.wake; split <;> exact ⟨Iff.rfl, id⟩
  | start _ hw => rw [take]; exact ⟨Iff.rfl, id⟩
  | exec _ q begin commit fates hf hw => exact ⟨Iff.rfl, id⟩
  | next _ q hw =>
    rw [take]
    show (((if a.close = .asleep then BClose.awake else a.close) ≠ .notCalled ↔ _) ∧
      (_ → (if a.close = .asleep then BClose.awake else a.close) = .done))
    split
    · rename_i he; rw [he]; exact ⟨by simp, nofun⟩
    · exact ⟨Iff.rfl, id⟩
  | checkClose _ h =>
    unfold BSys.checkClose
    rw [h]
    split <;> exact ⟨by simp, nofun⟩

theorem direct_opened {p : PSys} (h : p.opened = true) : p.direct = p := by
  unfold PSys.direct; rw [if_pos h]

theorem DownInv.opened {d : DownSys S} (h : DownInv d) (hp : d.phase ≠ .closed) : d.prep.opened = true := by
  cases ho : d.prep.opened with
  | true => rfl
  | false => exact absurd (h.shut.1 ho) hp

theorem DownInv.step {k : Bool} {a b : DownSys S} (h : DownInv a) (hs : DownStep k a b) : DownInv b := by
  cases hs with
  | query _ q =>
    exact ⟨.step h.prep (.call _ q), h.bat, h.quiet, h.shut, h.called, h.done, h.compactor⟩
  | fast _ pre post q hc =>
    have e : (a.prep.fast pre post q).panicked = a.prep.panicked ∧ (a.prep.fast pre post q).opened = a.prep.opened := by
      unfold PSys.fast; split <;> exact ⟨rfl, rfl⟩
    exact ⟨.step h.prep (.fast _ _ _ _ hc), h.bat, e.1.trans h.quiet, by simp only [e.2]; exact h.shut, h.called, h.done,
      h.compactor⟩
  | slow _ pre post q ok hc =>
    have e : (a.prep.slow pre post q ok).panicked = a.prep.panicked ∧
        (a.prep.slow pre post q ok).opened = a.prep.opened := by
      unfold PSys.slow
      split
      · exact ⟨rfl, rfl⟩
      · split
        · exact ⟨rfl, rfl⟩
        · split <;> exact ⟨rfl, rfl⟩
    exact ⟨.step h.prep (.slow _ _ _ _ _ hc), h.bat, e.1.trans h.quiet, by simp only [e.2]; exact h.shut, h.called, h.done,
      h.compactor⟩
  | run _ pre post q s hc =>
    exact ⟨.step h.prep (.run _ _ _ _ _ hc), h.bat, h.quiet, h.shut, h.called, h.done, h.compactor⟩
  | write _ st =>
    have e : (a.bat.submit st).close = a.bat.close := by
      unfold BSys.submit; split
      · rfl
      · simp only; split <;> rfl
    exact ⟨h.prep, .step h.bat (.submit _ st), h.quiet, h.shut, by simp only [e]; exact h.called,
      by simp only [e]; exact h.done, h.compactor⟩
  | waiter _ b hb =>
    obtain ⟨e1, e2⟩ := worker_close hb (Or.inr rfl)
    exact ⟨h.prep, .step h.bat hb, h.quiet, h.shut, e1.trans h.called, fun hp => e2 (h.done hp), h.compactor⟩
  | worker _ b hb =>
    obtain ⟨e1, e2⟩ := worker_close hb (Or.inl rfl)
    exact ⟨h.prep, .step h.bat hb, h.quiet, h.shut, e1.trans h.called, fun hp => e2 (h.done hp), h.compactor⟩
  | batch _ q hw hl =>
    have ho : a.prep.opened = true := by
      apply h.opened
      intro hp
      have := (C43_close_waits h.bat (h.done hp)).1
      rw [hw] at this; cases this
    rw [direct_opened ho]
    exact h
  | compact _ hc =>
    have ho : a.prep.opened = true := by
      apply h.opened
      intro hp
      have := h.compactor (Or.inr hp)
      rw [hc] at this; cases this
    rw [direct_opened ho]
    exact h
  | start _ hp =>
    refine ⟨h.prep, h.bat, h.quiet, h.shut, h.called, h.done, fun hq => ?_⟩
    rcases hq with hq | hq <;> (rw [show a.phase = _ from hq] at hp; cases hp)
  | stop _ hp =>
    refine ⟨h.prep, h.bat, h.quiet, ?_, ?_, nofun, fun hq => by rcases hq with hq | hq <;> cases hq⟩
    · have := h.shut; rw [hp] at this
      constructor
      · intro ho; have := this.1 ho; cases this
      · nofun
    · have := h.called; rw [hp] at this
      constructor
      · intro hn; rcases this.1 hn with h | h <;> cases h
      · intro hq; rcases hq with hq | hq <;> cases hq
  | exit _ hp hc =>
    exact ⟨h.prep, h.bat, h.quiet, h.shut, h.called, h.done, fun _ => rfl⟩
  | closeBat _ hp hc =>
    have hn : a.bat.close = .notCalled := by
      apply Classical.byContradiction
      intro hn
      rcases h.called.1 hn with h' | h' <;> (rw [hp] at h'; cases h')
    refine ⟨h.prep, .step h.bat (.close _ hn), h.quiet, ?_, by simp, nofun, fun _ => hc⟩
    have := h.shut; rw [hp] at this
    constructor
    · intro ho; have := this.1 ho; cases this
    · nofun
  | closePrep _ hp hb =>
    have ho : a.prep.opened = true := h.opened (by rw [hp]; nofun)
    refine ⟨.step h.prep (.close _), h.bat, ?_, ?_, ?_, fun _ => hb, fun _ => h.compactor (Or.inl hp)⟩
    · show a.prep.close.panicked = false
      unfold PSys.close; rw [if_pos ho]; exact h.quiet
    · show a.prep.close.opened = false ↔ _
      unfold PSys.close; rw [if_pos ho]; simp
    · simp [hb]

theorem DownReachable.inv {d : DownSys S} (h : DownReachable d) : DownInv d := by
  induction h with
  | init s =>
    refine ⟨.init, .init s, rfl, ?_, ?_, nofun, ?_⟩ <;> simp [DownSys.init, PSys.init, BSys.init]
  | step _ hs ih => exact ih.step hs

/-- Whatever requests and background goroutines are doing when the node is stopped, and whatever they go on doing
afterwards, the closed database is never dereferenced: the process does not crash. -/
theorem C91_no_panic {d : DownSys S} (h : DownReachable d) : d.prep.panicked = false := h.inv.quiet

/-- The database is closed only when nothing runs on it any more in the background: no worker, no queue, no compactor;
and every write there ever was has been executed or refused. -/
theorem C91_closed_when_idle {d : DownSys S} (h : DownReachable d) (hc : d.prep.opened = false) :
    d.bat.worker = .none ∧ d.bat.queue = [] ∧ d.compactor = false ∧
    ∀ id, id < d.bat.nextJob → (id, BAnswer.closed) ∈ d.bat.returned ∨ id ∈ d.bat.executions.map (·.1) := by
  have hi := h.inv
  have hp := hi.shut.1 hc
  obtain ⟨h1, h2, h3⟩ := C43_close_waits hi.bat (hi.done hp)
  exact ⟨h1, h2, hi.compactor (Or.inr hp), h3⟩

/-- After that no statement is executed any more, a new write is refused at once, and the database stays closed. -/
theorem C91_refused_afterwards {k : Bool} {d d' : DownSys S} (h : DownReachable d) (hc : d.prep.opened = false)
    (hs : DownStep k d d') :
    d'.prep.opened = false ∧ d'.bat.store = d.bat.store ∧ d'.prep.prepared = d.prep.prepared ∧
    (∀ q s, (q, PAnswer.executed s) ∈ d'.prep.answers → (q, PAnswer.executed s) ∈ d.prep.answers) ∧
    ∀ st, (d.bat.submit st).returned = d.bat.returned ++ [(d.bat.nextJob, .closed)] := by
  have hi := h.inv
  have hp := hi.shut.1 hc
  obtain ⟨hw, hq, hcomp, _⟩ := C91_closed_when_idle h hc
  have hsub : ∀ st, (d.bat.submit st).returned = d.bat.returned ++ [(d.bat.nextJob, .closed)] ∧
      (d.bat.submit st).store = d.bat.store := fun st => by
    have := C43_rejects_after_close hi.bat (hi.called.2 (Or.inr hp)) st
    exact ⟨this.1, this.2.2.2⟩
  have same : ∀ {p : PSys}, PStep d.prep p → p.opened = false ∧ p.prepared = d.prep.prepared ∧
      ∀ q s, (q, PAnswer.executed s) ∈ p.answers → (q, PAnswer.executed s) ∈ d.prep.answers :=
    fun hs => C44_refused_after_close hi.prep hc hs
  have idem : ∀ b : BSys S, b.store = d.bat.store → d.prep.opened = false ∧ b.store = d.bat.store ∧
      d.prep.prepared = d.prep.prepared ∧
      (∀ q s, (q, PAnswer.executed s) ∈ d.prep.answers → (q, PAnswer.executed s) ∈ d.prep.answers) ∧
      ∀ st, (d.bat.submit st).returned = d.bat.returned ++ [(d.bat.nextJob, .closed)] :=
    fun b hb => ⟨hc, hb, rfl, fun _ _ h => h, fun st => (hsub st).1⟩
  have viaPrep : ∀ p : PSys, PStep d.prep p → p.opened = false ∧ d.bat.store = d.bat.store ∧
      p.prepared = d.prep.prepared ∧
      (∀ q s, (q, PAnswer.executed s) ∈ p.answers → (q, PAnswer.executed s) ∈ d.prep.answers) ∧
      ∀ st, (d.bat.submit st).returned = d.bat.returned ++ [(d.bat.nextJob, .closed)] :=
    fun p hp => ⟨(same hp).1, rfl, (same hp).2.1, (same hp).2.2, fun st => (hsub st).1⟩
  cases hs with
  | query _ q => exact viaPrep _ (.call _ q)
  | fast _ pre post q hc => exact viaPrep _ (.fast _ _ _ _ hc)
  | slow _ pre post q ok hc => exact viaPrep _ (.slow _ _ _ _ _ hc)
  | run _ pre post q s hc => exact viaPrep _ (.run _ _ _ _ _ hc)
  | write _ st => exact idem _ (hsub st).2
  | waiter _ b hb =>
    refine idem b ?_
    cases hb with
    | wake _ pre post j hw => unfold BSys.wake; split <;> rfl
    | checkClose _ h => unfold BSys.checkClose; split <;> rfl
  | worker _ b hb =>
    cases hb with
    | start _ h => rw [hw] at h; cases h
    | exec _ q begin commit fates hf h => rw [hw] at h; cases h
    | next _ q h => rw [hw] at h; cases h
  | batch _ q h hl => rw [hw] at h; cases h
  | compact _ h => rw [hcomp] at h; cases h
  | start _ h => rw [hp] at h; cases h
  | stop _ h => rw [hp] at h; cases h
  | exit _ h _ => rw [hp] at h; cases h
  | closeBat _ h _ => rw [hp] at h; cases h
  | closePrep _ h _ => rw [hp] at h; cases h

theorem DownRuns.trans {a b c : DownSys S} (h1 : DownRuns a b) (h2 : DownRuns b c) : DownRuns a c := by
  induction h2 with
  | refl => exact h1
  | step _ hs ih => exact .step ih hs

theorem DownRuns.reachable {a b : DownSys S} (h : DownRuns a b) (ha : DownReachable a) : DownReachable b := by
  induction h with
  | refl => exact ha
  | step _ hs ih => exact .step ih hs

/-- The batcher runs until nothing is left. -/
theorem bat_quiesces (d : DownSys S) : ∃ b, DownRuns d { d with bat := b } ∧ ∀ c, ¬ BInternal b c := by
  have key : ∀ w k, ∀ d : DownSys S, d.bat.work = w → d.bat.woken = k →
      ∃ b, DownRuns d { d with bat := b } ∧ ∀ c, ¬ BInternal b c := by
    intro w
    induction w using Nat.strongRecOn with
    | ind w ihw =>
      intro k
      induction k using Nat.strongRecOn with
      | ind k ihk =>
        intro d hw hk
        by_cases hq : ∀ c, ¬ BInternal d.bat c
        · exact ⟨d.bat, .refl d, hq⟩
        · have : ∃ c, BInternal d.bat c := by
            apply Classical.byContradiction
            intro hn
            exact hq fun c hc => hn ⟨c, hc⟩
          obtain ⟨c, hc⟩ := this
          have h1 : DownRuns d { d with bat := c } := by
            rcases hc with hc | hc
            · exact .step (.refl d) (.worker d c hc)
            · exact .step (.refl d) (.waiter d c hc)
          rcases internal_decreases hc with hlt | ⟨he, hlt⟩
          · obtain ⟨b, hb, hb'⟩ := ihw c.work (by omega) c.woken { d with bat := c } rfl rfl
            exact ⟨b, h1.trans hb, hb'⟩
          · obtain ⟨b, hb, hb'⟩ := ihk c.woken (by omega) { d with bat := c } (he.trans hw) rfl
            exact ⟨b, h1.trans hb, hb'⟩
  exact key _ _ d rfl rfl

/-- Shutting down is never stuck: from every state after it was requested, the goroutines already running can bring it to
its end, and then every write there was has been answered. -/
theorem C91_completes {d : DownSys S} (h : DownReachable d) (hp : d.phase ≠ .serving) :
    ∃ d', DownRuns d d' ∧ d'.prep.opened = false ∧ ∀ id, id < d'.bat.nextJob → ∃ a, (id, a) ∈ d'.bat.returned := by
  -- the background goroutines end
  have s1 : ∃ d', DownRuns d d' ∧ (d'.phase = .closing ∨ d'.phase = .closed) := by
    cases hq : d.phase with
    | serving => exact absurd hq hp
    | closing => exact ⟨d, .refl d, Or.inl hq⟩
    | closed => exact ⟨d, .refl d, Or.inr hq⟩
    | stopping =>
      cases hc : d.compactor with
      | false => exact ⟨_, .step (.refl d) (.closeBat d hq hc), Or.inl rfl⟩
      | true => exact ⟨_, .step (.step (.refl d) (.exit d hq hc)) (.closeBat _ hq rfl), Or.inl rfl⟩
  obtain ⟨d1, r1, p1⟩ := s1
  obtain ⟨b, r2, hb⟩ := bat_quiesces d1
  have hr2 := r2.reachable (r1.reachable h)
  have hi2 := hr2.inv
  obtain ⟨q1, q2, q3, q4⟩ := C43_stops_only_when_done hi2.bat hb
  have hcalled : b.close ≠ .notCalled := hi2.called.2 p1
  have hdone : b.close = .done := q4.resolve_left hcalled
  rcases p1 with p1 | p1
  · refine ⟨_, (r1.trans r2).step (.closePrep _ p1 hdone), ?_, q1⟩
    show d1.prep.close.opened = false
    unfold PSys.close
    split
    · rfl
    · rename_i ho; simpa using ho
  · exact ⟨_, r1.trans r2, hi2.shut.2 p1, q1⟩

/-- The batcher after two writes and the start of its worker. -/
def demoBat : BSys (List Nat) :=
  BSys.take { ((BSys.init ([] : List Nat)).submit (appendStmt 1)).submit (appendStmt 2) with status := .running }

/-- A batch of two writes is under way when the node is stopped: a state all theorems apply to. -/
def demoDown : DownSys (List Nat) := { prep := .init, bat := demoBat, compactor := true, phase := .stopping }

theorem demoDown_reachable : DownReachable demoDown := by
  have h1 : DownReachable (DownSys.init ([] : List Nat)) := .init []
  have h2 := h1.step (.start _ rfl)
  have h3 := h2.step (.write _ (appendStmt 1))
  have h4 := h3.step (.write _ (appendStmt 2))
  have h5 := h4.step (.worker _ _ (.start _ rfl))
  exact h5.step (.stop _ rfl)

example : (∃ q, demoDown.bat.worker = .executing q ∧ q.length = 2) ∧ demoDown.phase ≠ .serving := ⟨⟨_, rfl, rfl⟩, nofun⟩

/-- A closed node exists. -/
example : ∃ d : DownSys (List Nat), DownReachable d ∧ d.prep.opened = false := by
  obtain ⟨d, h1, h2, _⟩ := C91_completes demoDown_reachable nofun
  exact ⟨d, h1.reachable demoDown_reachable, h2⟩

end Verif
