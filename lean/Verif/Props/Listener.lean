import Verif.Model.Listener
/-!
# C98 The instrumented listener
-/

namespace Verif

/-- The connection that is being handed over. -/
def AcceptPc.pending : AcceptPc → List Nat
  | .sending c => [c]
  | _ => []

structure LisInv (s : LisSys) : Prop where
  sorted : (s.received ++ s.pc.pending).Pairwise (· < ·)
  below : ∀ c ∈ s.received ++ s.pc.pending, c < s.accepted
  all : s.ctxDone = false → s.closes = 0 → s.received ++ s.pc.pending = List.range s.accepted
  none : s.socket = .none → s.pc = .gone ∧ s.owner = .idle
  fresh : s.closes = 0 → s.socket = .none → s.accepted = 0
  chan : s.chanClosed = true → 0 < s.closes

theorem LisInv.step {k : LisActor} {s t : LisSys} (h : LisInv s) (hs : LisStep k s t) : LisInv t := by
  obtain ⟨h1, h2, h3, h4, h5, h6⟩ := h
  cases hs with
  | listen _ hp ho h =>
    have hg := (h4 h).1
    rw [hg] at h1 h2 h3
    refine ⟨h1, h2, fun _ hc => ?_, nofun, nofun, h6⟩
    have h0 := h5 hc h
    have hr : s.received = [] := by
      cases hr : s.received with
      | nil => rfl
      | cons c r =>
        have := h2 c (by rw [hr]; simp)
        omega
    show s.received ++ AcceptPc.pending .accepting = List.range s.accepted
    rw [hr, h0]
    rfl
  | accept _ hp h hsk =>
    rw [h] at h1 h2 h3
    simp only [AcceptPc.pending, List.append_nil] at h1 h2 h3
    cases hd : s.ctxDone with
    | true =>
      refine ⟨by simpa [hd, AcceptPc.pending] using h1, ?_, nofun, fun hn => ?_, fun _ hn => ?_, h6⟩
      · intro c hc
        have := h2 c (by simpa [hd, AcceptPc.pending] using hc)
        exact Nat.lt_succ_of_lt this
      · simp only at hn; rw [hsk] at hn; cases hn
      · simp only at hn; rw [hsk] at hn; cases hn
    | false =>
      refine ⟨?_, ?_, fun _ hc => ?_, fun hn => ?_, fun _ hn => ?_, h6⟩
      · simp only [Bool.false_eq_true, if_false, AcceptPc.pending]
        refine List.pairwise_append.2 ⟨h1, List.pairwise_singleton _ _, fun a ha b hb => ?_⟩
        rw [List.mem_singleton] at hb
        subst hb
        exact h2 a ha
      · intro c hc
        simp only [Bool.false_eq_true, if_false, AcceptPc.pending] at hc
        rcases List.mem_append.1 hc with hc | hc
        · exact Nat.lt_succ_of_lt (h2 c hc)
        · rw [List.mem_singleton] at hc
          subst hc
          exact Nat.lt_succ_self _
      · simp only [Bool.false_eq_true, if_false, AcceptPc.pending]
        rw [h3 hd hc, List.range_succ]
      · simp only at hn; rw [hsk] at hn; cases hn
      · simp only at hn; rw [hsk] at hn; cases hn
  | acceptFails _ hp h =>
    rw [h] at h1 h2 h3
    exact ⟨h1, h2, h3, fun hn => ⟨rfl, (h4 hn).2⟩, h5, h6⟩
  | receive _ c hp h hc =>
    rw [h] at h1 h2 h3
    simp only [AcceptPc.pending] at h1 h2 h3
    refine ⟨by simpa [AcceptPc.pending] using h1, by simpa [AcceptPc.pending] using h2,
      fun a b => by simpa [AcceptPc.pending] using h3 a b, fun hn => ?_, h5, h6⟩
    have := (h4 hn).1
    rw [h] at this; cases this
  | sendClosed _ c hp h hc => exact ⟨h1, h2, h3, h4, h5, h6⟩
  | closeNone _ hp ho h => exact ⟨h1, h2, nofun, h4, nofun, fun _ => Nat.succ_pos _⟩
  | close _ hp ho h => exact ⟨h1, h2, h3, nofun, nofun, h6⟩
  | closed _ hp ho h => exact ⟨h1, h2, nofun, fun _ => ⟨h, rfl⟩, nofun, fun _ => Nat.succ_pos _⟩
  | ctx _ hp => exact ⟨h1, h2, nofun, h4, h5, h6⟩

theorem LisReachable.inv {s : LisSys} (h : LisReachable s) : LisInv s := by
  induction h with
  | init =>
    refine ⟨?_, ?_, ?_, ?_, ?_, ?_⟩
    · exact List.Pairwise.nil
    · nofun
    · exact fun _ _ => rfl
    · exact fun _ => ⟨rfl, rfl⟩
    · exact fun _ _ => rfl
    · nofun
  | step _ hs ih => exact ih.step hs

/-- Connections are handed over in the order they were accepted, each at most once; and until the context is done or the listener is
closed, all of them, the last of which may be under way. -/
theorem C98_in_order {s : LisSys} (h : LisReachable s) :
    s.received.Pairwise (· < ·) ∧ (∀ c ∈ s.received, c < s.accepted) ∧
    (s.ctxDone = false → s.closes = 0 → s.received = List.range s.accepted ∨
      s.received ++ [s.accepted - 1] = List.range s.accepted) := by
  have hi := h.inv
  refine ⟨(List.pairwise_append.1 hi.sorted).1, fun c hc => hi.below c (List.mem_append_left _ hc), fun hd hc => ?_⟩
  have ha := hi.all hd hc
  cases hp : s.pc with
  | gone => rw [hp] at ha; left; simpa [AcceptPc.pending] using ha
  | accepting => rw [hp] at ha; left; simpa [AcceptPc.pending] using ha
  | sending c =>
    rw [hp] at ha
    right
    simp only [AcceptPc.pending] at ha
    have hl : s.accepted = s.received.length + 1 := by
      have := congrArg List.length ha
      simpa using this.symm
    have : c = s.accepted - 1 := by
      rw [hl, List.range_succ] at ha
      have := (List.append_inj' ha rfl).2
      simp only [List.cons.injEq, and_true] at this
      omega
    rw [← this]
    exact ha

/-- **C98** (what does hold). The first `Close` returns, without a panic, if somebody receives the connection that may be under
way. -/
theorem C98_close_partial {s : LisSys} (h : LisReachable s) (ho : s.owner = .closing) (hc : s.closes = 0)
    (hp : s.panicked = false) :
    ∃ s', LisSteps (· ≠ .env) s s' ∧ s'.closes = 1 ∧ s'.panicked = false ∧ s'.chanClosed = true := by
  have hi := h.inv
  have hcc : s.chanClosed = false := by
    cases hx : s.chanClosed with
    | false => rfl
    | true => have := hi.chan hx; omega
  have fin : ∀ t : LisSys, t.owner = .closing → t.panicked = false → t.pc = .gone → t.chanClosed = false → t.closes = 0 →
      ∃ s', LisStep .owner t s' ∧ s'.closes = 1 ∧ s'.panicked = false ∧ s'.chanClosed = true := by
    intro t a b c d e
    exact ⟨_, .closed t b a c, by simp [e], d, rfl⟩
  cases hpc : s.pc with
  | gone =>
    obtain ⟨s', h1, h2⟩ := fin s ho hp hpc hcc hc
    exact ⟨s', .step (k := .owner) (by decide) h1 (.refl _), h2⟩
  | accepting =>
    obtain ⟨s', h1, h2⟩ := fin { s with pc := .gone } ho hp rfl hcc hc
    exact ⟨s', .step (k := .goroutine) (by decide) (.acceptFails s hp hpc) (.step (k := .owner) (by decide) h1 (.refl _)), h2⟩
  | sending c =>
    obtain ⟨s', h1, h2⟩ := fin { s with pc := .gone, received := s.received ++ [c] } ho hp rfl hcc hc
    exact ⟨s', .step (k := .receiver) (by decide) (.receive s c hp hpc hcc)
      (.step (k := .goroutine) (by decide) (.acceptFails { s with pc := .accepting, received := s.received ++ [c] } hp rfl)
        (.step (k := .owner) (by decide) h1 (.refl _))), h2⟩

/-- **C98** (the English property does not hold). If nobody receives the connection that was accepted last, `Close` never
returns. And a listener that is used again after `Close` crashes the process with its first connection. -/
theorem C98_close_counterexample :
    (∃ s, LisReachable s ∧ s.owner = .closing ∧ ∀ s', LisSteps (· ≠ .receiver) s s' → s'.closes = s.closes ∧ s'.owner = .closing) ∧
    ∃ s, LisReachable s ∧ s.closes = 1 ∧ s.panicked = true := by
  refine ⟨?_, ?_⟩
  · have h1 := LisReachable.init.step (.listen _ rfl rfl rfl)
    have h2 := h1.step (.accept _ rfl rfl rfl)
    have h3 := h2.step (.close _ rfl rfl (by decide))
    refine ⟨_, h3, rfl, ?_⟩
    have stuck : ∀ {a b : LisSys}, LisSteps (· ≠ .receiver) a b → a.owner = .closing → (∃ c, a.pc = .sending c) →
        a.chanClosed = false → b.closes = a.closes ∧ b.owner = .closing := by
      intro a b hab
      induction hab with
      | refl => exact fun ho _ _ => ⟨rfl, ho⟩
      | step hk hs _ ih =>
        intro ho ⟨c, hc⟩ hcc
        cases hs with
        | listen _ hp ho' h => rw [ho] at ho'; cases ho'
        | accept _ hp h hsk => rw [hc] at h; cases h
        | acceptFails _ hp h => rw [hc] at h; cases h
        | receive _ c hp h hcc => exact (hk rfl).elim
        | sendClosed _ c hp h hc' => rw [hcc] at hc'; cases hc'
        | closeNone _ hp ho' h => rw [ho] at ho'; cases ho'
        | close _ hp ho' h => rw [ho] at ho'; cases ho'
        | closed _ hp ho' h => rw [hc] at h; cases h
        | ctx _ hp => exact ih ho ⟨c, hc⟩ hcc
    exact fun s' hs' => stuck hs' rfl ⟨_, rfl⟩ rfl
  · have h1 := LisReachable.init.step (.listen _ rfl rfl rfl)
    have h2 := h1.step (.close _ rfl rfl (by decide))
    have h3 := h2.step (.acceptFails _ rfl rfl)
    have h4 := h3.step (.closed _ rfl rfl rfl)
    have h5 := h4.step (.listen _ rfl rfl rfl)
    have h6 := h5.step (.accept _ rfl rfl rfl)
    have h7 := h6.step (.sendClosed _ 0 rfl rfl rfl)
    exact ⟨_, h7, rfl, rfl⟩

/-- A listener that has handed over two connections and is being closed with a third under way. -/
example : ∃ s, LisReachable s ∧ s.received = [0, 1] ∧ s.accepted = 3 ∧ s.owner = .closing ∧ s.closes = 0 := by
  have h1 := LisReachable.init.step (.listen _ rfl rfl rfl)
  have h2 := (h1.step (.accept _ rfl rfl rfl)).step (.receive _ 0 rfl rfl rfl)
  have h3 := (h2.step (.accept _ rfl rfl rfl)).step (.receive _ 1 rfl rfl rfl)
  have h4 := (h3.step (.accept _ rfl rfl rfl)).step (.close _ rfl rfl (by decide))
  exact ⟨_, h4, rfl, rfl, rfl, rfl⟩

end Verif
