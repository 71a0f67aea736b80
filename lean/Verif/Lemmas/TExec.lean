import Verif.Lemmas.SExec
import Verif.Lemmas.TtlInv
/-!
# Executing concrete schedules of the TTL loop
-/

namespace Verif

/-- What happens next. -/
inductive TAct where
  /-- other calls on the database -/
  | calls (cs : List (Call × List Outcome))
  /-- a step of the node other than those below -/
  | node (a : NAct)
  /-- `CurrentRevision` or `ListTTL` executes a statement -/
  | exec (o : Outcome)
  /-- it returns -/
  | done
  | openGroup
  | watch
  /-- receive an update; all timers get this jitter -/
  | recv (jitter : Nat)

/-- Does the group of the loop stay undisturbed? -/
def quietStep (t : TtlLoop) (n n' : Node) : Bool :=
  match t.phase.index? with
  | none => true
  | some i =>
    match n.groups[i]?, n'.groups[i]? with
    | some g, some g' => decide (g'.received = g.received) && decide (g'.used = g.used) &&
        g.watchers.all fun x => !x.initialized || g'.watchers.any fun x' => decide (x'.id = x.id)
    | none, _ => true
    | some _, none => false

theorem quietStep_spec {t : TtlLoop} {n n' : Node} (h : quietStep t n n' = true) : ∀ i g, t.phase.index? = some i →
    n.groupAt i = some g → ∃ g', n'.groupAt i = some g' ∧ g'.received = g.received ∧ g'.used = g.used ∧
      ∀ x ∈ g.watchers, x.initialized = true → ∃ x' ∈ g'.watchers, x'.id = x.id := by
  intro i g hi hg
  unfold Node.groupAt at hg
  unfold quietStep at h
  rw [hi] at h
  simp only at h
  rw [hg] at h
  cases hg' : n'.groups[i]? with
  | none => rw [hg'] at h; cases h
  | some g' =>
    rw [hg'] at h
    simp only [Bool.and_eq_true, decide_eq_true_eq, List.all_eq_true, List.any_eq_true, Bool.or_eq_true,
      Bool.not_eq_true'] at h
    refine ⟨g', hg', h.1.1, h.1.2, fun x hx hi => ?_⟩
    rcases h.2 x hx with h1 | ⟨x', hx', e⟩
    · rw [hi] at h1; cases h1
    · exact ⟨x', hx', e⟩

/-- Execute one action. -/
def tstep (a : TAct) (w : World) (n : Node) (t : TtlLoop) : Option (World × Node × TtlLoop) :=
  match a with
  | .calls cs => if cs.all (fun c => decide c.1.allowed) then some (runCalls cs w, n, t) else none
  | .node a =>
    if a.isCalls then none else
    match nstep a w n with
    | some (w', n') => if quietStep t n n' then some (w', n', t) else none
    | none => none
  | .exec o =>
    match t.phase with
    | .current (.stmt eff k) => some (w.exec eff o, n, { t with phase := .current (k o w.db) })
    | .list start (.stmt eff k) =>
      some (w.exec eff o, n, { t with phase := .list start (k o w.db), truncated := t.truncated || o.isTrunc })
    | _ => none
  | .done =>
    match t.phase with
    | .current (.ret r) => some (w, n, t.gotCurrent r)
    | .list start (.ret r) => some (w, n, t.gotList start r)
    | _ => none
  | .openGroup =>
    match t.phase with
    | .group start => some (w, { n with groups := n.groups ++ [Group.new n.pollRevision] },
        { t with phase := .watch start n.groups.length })
    | _ => none
  | .watch =>
    match t.phase with
    | .watch start i =>
      match n.groups[i]? with
      | some g =>
        match g.call with
        | .idle =>
          let g' := g.watch 1 ttlLo ttlHi start w.db.compactRev
          some (w, { n with groups := n.groups.take i ++ g' :: n.groups.drop (i + 1) }, { t with phase := .serve start i })
        | _ => none
      | none => none
    | _ => none
  | .recv j =>
    if j < 1000 then
      match t.phase with
      | .serve _ i =>
        match n.groups[i]? with
        | some g =>
          match g.call, g.queue with
          | .idle, u :: q => some (w, { n with groups := n.groups.take i ++
              { g with queue := q, received := g.received ++ [u] } :: n.groups.drop (i + 1) },
              { t with timers := t.timers ++ eventTimers (fun _ => j) u })
          | _, _ => none
        | none => none
      | _ => none
    else none

theorem TReachable.env {s s' : Sys} {n : Node} {t : TtlLoop} (h : TReachable ⟨⟨s, n⟩, t⟩) (hs : Steps s s') :
    TReachable ⟨⟨s', n⟩, t⟩ := by
  induction hs with
  | refl => exact h
  | tail _ hst ih =>
    exact ih.step (.env _ _ _ (.env _ _ _ hst) (fun i g _ hg => ⟨g, hg, rfl, rfl, fun x hx _ => ⟨x, hx, rfl⟩⟩))

theorem tstep_reach {a : TAct} {w w' : World} {n n' : Node} {t t' : TtlLoop}
    (h : TReachable ⟨⟨⟨w, []⟩, n⟩, t⟩) (hs : tstep a w n t = some (w', n', t')) :
    TReachable ⟨⟨⟨w', []⟩, n'⟩, t'⟩ := by
  unfold tstep at hs
  split at hs
  · split at hs
    · rename_i hc
      cases hs
      exact h.env (runCalls_steps _ (fun c hcs => by simpa using List.all_eq_true.1 hc c hcs) w [])
    · cases hs
  · split at hs
    · cases hs
    · rename_i a hnc
      split at hs
      · rename_i w₁ n₁ hn
        split at hs
        · rename_i hq
          cases hs
          exact h.step (.env _ _ _ (nstep_step hn (fun cs e => by rw [e] at hnc; exact hnc rfl)) (quietStep_spec hq))
        · cases hs
      · cases hs
  · split at hs
    · rename_i hp
      cases hs
      exact h.step (.currentExec ⟨w, []⟩ _ _ _ _ _ hp)
    · rename_i hp
      cases hs
      exact h.step (.listExec ⟨w, []⟩ _ _ _ _ _ _ hp)
    · cases hs
  · split at hs
    · rename_i hp
      cases hs
      exact h.step (.currentDone _ _ _ hp)
    · rename_i hp
      cases hs
      exact h.step (.listDone _ _ _ _ hp)
    · cases hs
  · split at hs
    · rename_i hp
      cases hs
      exact h.step (.openGroup _ _ _ _ hp)
    · cases hs
  · split at hs
    · rename_i start i hp
      split at hs
      · rename_i g hg
        split at hs
        · rename_i hidle
          cases hs
          obtain ⟨e1, e2⟩ := split_at_index hg
          have := TStep.watch ⟨w, []⟩ n t start _ _ g _ (by rw [e2]; exact hp) e1 hidle rfl
          rw [e2] at this
          exact h.step this
        · cases hs
      · cases hs
    · cases hs
  · split at hs
    · rename_i j hj
      split at hs
      · rename_i start i hp
        split at hs
        · rename_i g hg
          split at hs
          · rename_i u q hidle hq
            cases hs
            obtain ⟨e1, e2⟩ := split_at_index hg
            exact h.step (.recv _ _ _ start _ _ g u q (fun _ => j) (fun _ => hj) (by rw [e2]; exact hp) e1 hidle hq)
          · cases hs
        · cases hs
      · cases hs
    · cases hs

/-- Execute several actions. -/
def truns : List TAct → World → Node → TtlLoop → Option (World × Node × TtlLoop)
  | [], w, n, t => some (w, n, t)
  | a :: as, w, n, t =>
    match tstep a w n t with
    | some (w', n', t') => truns as w' n' t'
    | none => none

theorem truns_reach {as : List TAct} {w w' : World} {n n' : Node} {t t' : TtlLoop}
    (h : TReachable ⟨⟨⟨w, []⟩, n⟩, t⟩) (hs : truns as w n t = some (w', n', t')) :
    TReachable ⟨⟨⟨w', []⟩, n'⟩, t'⟩ := by
  induction as generalizing w n t with
  | nil =>
    simp only [truns, Option.some.injEq, Prod.mk.injEq] at hs
    obtain ⟨rfl, rfl, rfl⟩ := hs
    exact h
  | cons a as ih =>
    simp only [truns] at hs
    split at hs
    · rename_i h1
      exact ih (tstep_reach h h1) hs
    · cases hs

/-- A concrete run: a scenario of a node, then its TTL loop starts, then actions. -/
structure TScenario where
  node : NScenario
  acts : List TAct

/-- The result of a scenario. -/
def TScenario.result (sc : TScenario) : Option (World × Node × TtlLoop) :=
  match sc.node.result with
  | some (w, n) => truns sc.acts w n TtlLoop.init
  | none => none

/-- A check on the result of a scenario, executed in the kernel, gives a reachable state of the model. -/
theorem TScenario.check (sc : TScenario) (P : World → Node → TtlLoop → Bool)
    (h : (sc.node.ok && (match sc.result with | some (w, n, t) => P w n t | none => false)) = true) :
    ∃ w n t, TReachable ⟨⟨⟨w, []⟩, n⟩, t⟩ ∧ P w n t = true := by
  rw [Bool.and_eq_true] at h
  obtain ⟨hok, h⟩ := h
  split at h
  · rename_i w n t e
    refine ⟨w, n, t, ?_, h⟩
    unfold TScenario.result at e
    split at e
    · rename_i w₁ n₁ e1
      refine truns_reach (TReachable.start ?_) e
      unfold NScenario.result at e1
      split at e1
      · rename_i rev w₂ hr
        exact nruns_reach (NReachable.start (runCalls_reachable _ hok) (runSched_run hr)) e1
      · cases e1
    · cases e
  · cases h

end Verif
