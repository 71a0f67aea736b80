import Verif.Model.Lifecycle
/-!
# C53 Starting and stopping the backend never wedges it

False, in two ways; what remains is proved.
-/

namespace Verif

/-- Once the mutex is leaked no call gets it any more. -/
theorem leaked_forever {a b : LSys} (hs : LSteps a b) (hl : a.leaked = true) :
    b.leaked = true ∧ a.waiting <+: b.waiting := by
  induction hs with
  | refl => exact ⟨hl, List.prefix_rfl⟩
  | step h hs ih =>
    obtain ⟨h1, h2⟩ := ih
    cases hs with
    | call c => exact ⟨h1, h2.trans (List.prefix_append _ _)⟩
    | start pre post ok hw hf => rw [h1] at hf; cases hf
    | stop pre post hw hf => rw [h1] at hf; cases hf
    | exit h => exact ⟨h1, h2⟩
    | joined h hz => exact ⟨h1, h2⟩

/-- `Stop` (or `Close`) on a backend that is not started returns without unlocking the mutex: a `Start` after it never
gets the mutex and so never returns, whatever happens. (The mutex is also the one of all watches.) -/
theorem C53_stop_before_start_counterexample :
    ∃ s, LSteps LSys.init s ∧ s.returned = [.stop] ∧ s.waiting = [.start] ∧
      ∀ s', LSteps s s' → .start ∈ s'.waiting := by
  refine ⟨{ LSys.init with leaked := true, returned := [.stop], waiting := [.start] }, ?_, rfl, rfl, ?_⟩
  · exact .step (.step (.step (.refl _) (.call _ .stop)) (.stop _ [] [] rfl rfl)) (.call _ .start)
  · intro s' hs
    exact (leaked_forever hs rfl).2.subset (by simp)

/-- The same after a start that failed (the server calls `Close` then, `/repo/pkg/server/server.go:448-451`), and after a
second `Stop`. -/
theorem C53_stop_twice_counterexample :
    ∃ s, LSteps LSys.init s ∧ s.returned = [.start, .stop, .stop] ∧ s.waiting = [.stop] ∧
      ∀ s', LSteps s s' → .stop ∈ s'.waiting := by
  let s4 : LSys := { LSys.init with returned := [.start], dying := 4, joining := 1 }
  let s8 : LSys := { LSys.init with returned := [.start], dying := 0, joining := 1 }
  have h4 : LSteps LSys.init s4 :=
    .step (.step (.step (.step (.refl _) (.call _ .start)) (.start _ [] [] true rfl rfl)) (.call _ .stop))
      (.stop _ [] [] rfl rfl)
  have h8 : LSteps LSys.init s8 :=
    .step (.step (.step (.step h4 (.exit _ (by decide))) (.exit _ (by decide))) (.exit _ (by decide)))
      (.exit _ (by decide))
  refine ⟨{ LSys.init with leaked := true, returned := [.start, .stop, .stop], waiting := [.stop] }, ?_, rfl, rfl, ?_⟩
  · exact .step (.step (.step (.step h8 (.joined _ (by decide) rfl)) (.call _ .stop)) (.stop _ [] [] rfl rfl))
      (.call _ .stop)
  · intro s' hs
    exact (leaked_forever hs rfl).2.subset (by simp)

/-- A `Start` that gets the mutex between the two halves of a `Stop` makes that `Stop` wait for the new goroutines: it
cannot return until somebody stops the backend again. -/
theorem C53_restart_counterexample :
    ∃ s, LSteps LSys.init s ∧ s.joining = 1 ∧ s.waiting = [] ∧ s.started = true ∧ s.dying = 0 ∧
      ∀ s', LStep s s' → ∃ c, s' = { s with waiting := [c] } := by
  let s4 : LSys := { LSys.init with returned := [.start], dying := 4, joining := 1 }
  have h4 : LSteps LSys.init s4 :=
    .step (.step (.step (.step (.refl _) (.call _ .start)) (.start _ [] [] true rfl rfl)) (.call _ .stop))
      (.stop _ [] [] rfl rfl)
  let s6 : LSys := { LSys.init with returned := [.start, .start], started := true, live := 4, dying := 4, joining := 1 }
  have h6 : LSteps LSys.init s6 := .step (.step h4 (.call _ .start)) (.start _ [] [] true rfl rfl)
  let s : LSys := { LSys.init with returned := [.start, .start], started := true, live := 4, dying := 0, joining := 1 }
  have hs : LSteps LSys.init s :=
    .step (.step (.step (.step h6 (.exit _ (by decide))) (.exit _ (by decide))) (.exit _ (by decide)))
      (.exit _ (by decide))
  refine ⟨s, hs, rfl, rfl, rfl, rfl, ?_⟩
  intro s' h
  cases h with
  | call c => exact ⟨c, rfl⟩
  | start pre post ok hw _ => simp [s, LSys.init] at hw
  | stop pre post hw _ => simp [s, LSys.init] at hw
  | exit h => exact absurd h (by decide)
  | joined h hz => exact absurd hz (by decide)

theorem LGood.inv {s : LSys} (h : LGood s) : s.leaked = false ∧ (s.started = false → s.live = 0) := by
  induction h with
  | init => exact ⟨rfl, fun _ => rfl⟩
  | step _ hs hg ih =>
    obtain ⟨h1, h2⟩ := ih
    cases hs with
    | call c => exact ⟨h1, h2⟩
    | start pre post ok hw _ =>
      unfold LSys.runStart
      split
      · exact ⟨h1, h2⟩
      · split
        · exact ⟨h1, nofun⟩
        · exact ⟨h1, h2⟩
    | stop pre post hw _ =>
      have := hg pre post hw rfl
      unfold LSys.runStop
      rw [if_pos this]
      exact ⟨h1, fun _ => rfl⟩
    | exit h => exact ⟨h1, h2⟩
    | joined h hz => exact ⟨h1, h2⟩

/-- What does hold, as long as nobody stops a backend that is not started: the mutex is always released, so every waiting
call, wherever it stands, can take it and proceed; and a `Stop` that waits for the goroutines gets its turn: either one
of the stopped goroutines is still to end, or it returns, unless the backend was started again meanwhile. Missing: `Stop`
without a running `Start`, and `Stop` overtaken by `Start` (see the counterexamples). -/
theorem C53_calls_return_partial {s : LSys} (h : LGood s) :
    (∀ pre post, s.waiting = pre ++ .start :: post → ∀ ok, LStep s (s.runStart pre post ok) ∧
      (s.runStart pre post ok).waiting = pre ++ post ∧ (s.runStart pre post ok).returned = s.returned ++ [.start]) ∧
    (∀ pre post, s.waiting = pre ++ .stop :: post → s.started = true → LStep s (s.runStop pre post) ∧
      (s.runStop pre post).waiting = pre ++ post ∧ (s.runStop pre post).leaked = false) ∧
    (0 < s.joining → s.started = false →
      (0 < s.dying ∧ LStep s { s with dying := s.dying - 1 }) ∨
      LStep s { s with joining := s.joining - 1, returned := s.returned ++ [.stop] }) := by
  obtain ⟨h1, h2⟩ := h.inv
  refine ⟨fun pre post hw ok => ⟨.start s pre post ok hw h1, ?_, ?_⟩, fun pre post hw hs =>
    ⟨.stop s pre post hw h1, ?_, ?_⟩, fun hj hs => ?_⟩
  · unfold LSys.runStart; split <;> (try split) <;> rfl
  · unfold LSys.runStart; split <;> (try split) <;> rfl
  · unfold LSys.runStop; rw [if_pos hs]
  · unfold LSys.runStop; rw [if_pos hs]; exact h1
  · rcases Nat.eq_zero_or_pos s.dying with hd | hd
    · exact Or.inr (.joined s hj (by rw [h2 hs, hd]))
    · exact Or.inl ⟨hd, .exit s hd⟩

/-- A backend started and being stopped. -/
example : LGood { LSys.init with returned := [.start], dying := 4, joining := 1 } :=
  .step (.step (.step (.step .init (.call _ .start) (by intro pre post h; simp [LSys.init] at h))
    (.start _ [] [] true rfl rfl) (by
      intro pre post h
      cases pre with
      | nil => cases h
      | cons a l => simp [LSys.init] at h))
    (.call _ .stop) (by intro pre post h; simp [LSys.init, LSys.runStart] at h)) (.stop _ [] [] rfl rfl)
    (fun _ _ _ _ => rfl)

end Verif
