import Verif.Lemmas.WatchInv
import Verif.Lemmas.Exec
/-!
# Executing concrete schedules of the watch machinery
-/

namespace Verif

/-- What happens next. -/
inductive NAct where
  /-- other calls on the database -/
  | calls (cs : List (Call × List Outcome))
  | pollStart
  | pollExec (o : Outcome)
  /-- the poll query has returned: publish, or handle the error -/
  | pollDone
  | openGroup
  | watch (i : Nat) (id : Int) (lo hi : Bytes) (start : Int)
  /-- the `Watch` call in progress executes a statement -/
  | exec (i : Nat) (o : Outcome)
  /-- its query has returned -/
  | done (i : Nat)
  | unwatch (i : Nat) (id : Int)
  | recv (i : Nat)
  | cancel (i : Nat)
  | afterFunc (i : Nat)

/-- Execute a step of a group. -/
def gstep (a : NAct) (w : World) (g : Group) : Option (World × Group) :=
  match a with
  | .watch _ id lo hi start =>
    match g.call with
    | .idle => if id ∉ g.used ∧ hi ≠ [] then some (w, g.watch id lo hi start w.db.compactRev) else none
    | _ => none
  | .exec _ o =>
    match g.call with
    | .check a (.stmt eff k) => some (w.exec eff o, { g with call := .check a (k o w.db) })
    | .query a (.stmt eff k) => some (w.exec eff o, { g.noteQuery a w.db o with call := .query a (k o w.db) })
    | _ => none
  | .done _ =>
    match g.call with
    | .check a (.ret r) => some (w, g.checked a r)
    | .query a (.ret r) => some (w, g.queried a r)
    | _ => none
  | .unwatch _ id =>
    match g.call with
    | .idle => some (w, { g with watchers := removeWatcher g.watchers id })
    | _ => none
  | .recv _ =>
    match g.queue with
    | u :: q => some (w, { g with queue := q, received := g.received ++ [u] })
    | [] => none
  | .cancel _ => if g.after = .armed then some (w, { g with after := .running }) else none
  | .afterFunc _ => if g.after = .running then some (w, Group.close { g with after := .done }) else none
  | _ => none

theorem gstep_step {a : NAct} {w w' : World} {g g' : Group} (h : gstep a w g = some (w', g')) :
    GroupStep w g w' g' := by
  unfold gstep at h
  split at h
  · split at h
    · split at h
      · rename_i hc
        cases h
        exact .watch _ _ _ _ _ _ (by assumption) hc.1 hc.2
      · cases h
    · cases h
  · split at h
    · cases h; exact .checkExec _ _ _ _ _ _ (by assumption)
    · cases h; exact .queryExec _ _ _ _ _ _ (by assumption)
    · cases h
  · split at h
    · cases h; exact .checked _ _ _ _ (by assumption)
    · cases h; exact .queried _ _ _ _ (by assumption)
    · cases h
  · split at h
    · cases h; exact .unwatch _ _ _ (by assumption)
    · cases h
  · split at h
    · cases h; exact .recv _ _ _ _ (by assumption)
    · cases h
  · split at h
    · cases h; exact .cancel _ _ (by assumption)
    · cases h
  · split at h
    · cases h; exact .afterFunc _ _ (by assumption)
    · cases h
  · cases h

/-- The group an action is about. -/
def NAct.index : NAct → Nat
  | .watch i _ _ _ _ => i
  | .exec i _ => i
  | .done i => i
  | .unwatch i _ => i
  | .recv i => i
  | .cancel i => i
  | .afterFunc i => i
  | _ => 0

/-- Execute one action. -/
def nstep (a : NAct) (w : World) (n : Node) : Option (World × Node) :=
  match a with
  | .calls cs => if cs.all (fun c => decide c.1.allowed) then some (runCalls cs w, n) else none
  | .pollStart =>
    match n.poll with
    | .idle => some (w, { n with poll := .querying (Driver.after n.pollRevision pollBatchSize) })
    | _ => none
  | .pollExec o =>
    match n.poll with
    | .querying (.stmt eff k) =>
      some (w.exec eff o, { n with poll := .querying (k o w.db),
                                   overtaken := n.overtaken || decide (n.pollRevision < w.db.compactRev) })
    | _ => none
  | .pollDone =>
    match n.poll with
    | .querying (.ret (.ok rows)) => some (w, { n.publishEvents (scanAll scanEvent rows) with poll := .idle })
    | .querying (.ret (.error e)) => some (w, { n with poll := pollAfterError e })
    | _ => none
  | .openGroup => some (w, { n with groups := n.groups ++ [Group.new n.pollRevision] })
  | a =>
    match n.groups[a.index]? with
    | some g =>
      match gstep a w g with
      | some (w', g') =>
        some (w', { n with groups := n.groups.take a.index ++ g' :: n.groups.drop (a.index + 1) })
      | none => none
    | none => none

theorem NReachable.env {s s' : Sys} {n : Node} (h : NReachable ⟨s, n⟩) (st : Steps s s') :
    NReachable ⟨s', n⟩ := by
  induction st with
  | refl => exact h
  | tail _ st ih => exact ih.step (.env _ _ _ st)

theorem nstep_reach {a : NAct} {w w' : World} {n n' : Node} (h : NReachable ⟨⟨w, []⟩, n⟩)
    (hs : nstep a w n = some (w', n')) : NReachable ⟨⟨w', []⟩, n'⟩ := by
  have hg : ∀ a : NAct, (match n.groups[a.index]? with
      | some g =>
        match gstep a w g with
        | some (w', g') =>
          some (w', { n with groups := n.groups.take a.index ++ g' :: n.groups.drop (a.index + 1) })
        | none => none
      | none => none) = some (w', n') → NReachable ⟨⟨w', []⟩, n'⟩ := by
    intro a hs
    split at hs
    · rename_i g hget
      split at hs
      · rename_i w₁ g' hst
        simp only [Option.some.injEq, Prod.mk.injEq] at hs
        obtain ⟨rfl, rfl⟩ := hs
        refine h.step (.group ⟨w, []⟩ n w₁ _ _ g g' ?_ (gstep_step hst))
        obtain ⟨hlt, rfl⟩ := List.getElem?_eq_some_iff.1 hget
        rw [List.getElem_cons_drop, List.take_append_drop]
      · cases hs
    · cases hs
  unfold nstep at hs
  split at hs
  · split at hs
    · rename_i hc
      cases hs
      exact h.env (runCalls_steps _ (fun c hcs => by simpa using List.all_eq_true.1 hc c hcs) w [])
    · cases hs
  · split at hs
    · cases hs
      exact h.step (.pollStart _ _ (by assumption))
    · cases hs
  · split at hs
    · cases hs
      exact h.step (.pollExec _ _ _ _ _ (by assumption))
    · cases hs
  · split at hs
    · cases hs
      exact h.step (.pollPublish _ _ _ (by assumption))
    · cases hs
      exact h.step (.pollError _ _ _ (by assumption))
    · cases hs
  · cases hs
    exact h.step (.openGroup _ _)
  · exact hg _ hs

/-- Execute several actions. -/
def nruns : List NAct → World → Node → Option (World × Node)
  | [], w, n => some (w, n)
  | a :: as, w, n =>
    match nstep a w n with
    | some (w', n') => nruns as w' n'
    | none => none

theorem nruns_reach {as : List NAct} {w w' : World} {n n' : Node} (h : NReachable ⟨⟨w, []⟩, n⟩)
    (hs : nruns as w n = some (w', n')) : NReachable ⟨⟨w', []⟩, n'⟩ := by
  induction as generalizing w n with
  | nil =>
    simp only [nruns, Option.some.injEq, Prod.mk.injEq] at hs
    obtain ⟨rfl, rfl⟩ := hs
    exact h
  | cons a as ih =>
    simp only [nruns] at hs
    split at hs
    · rename_i w₁ n₁ h1
      exact ih (nstep_reach h h1) hs
    · cases hs

/-- A concrete run of a node: background calls, the start of the node (`n` statements without faults), then
actions. -/
structure NScenario where
  setup : List (Call × List Outcome)
  start : Nat
  acts : List NAct

/-- The result of a scenario. -/
def NScenario.result (sc : NScenario) : Option (World × Node) :=
  match runSched (List.replicate sc.start (.me .ok)) Backend.start (runCalls sc.setup World.init) with
  | some (_, .ok rev, w) => nruns sc.acts w (Node.init rev)
  | _ => none

/-- The setup only uses allowed calls. -/
def NScenario.ok (sc : NScenario) : Bool := sc.setup.all fun c => decide c.1.allowed

/-- A check on the result of a scenario, executed in the kernel, gives a reachable state of the model. -/
theorem NScenario.check (sc : NScenario) (P : World → Node → Bool)
    (h : (sc.ok && (match sc.result with | some (w, n) => P w n | none => false)) = true) :
    ∃ w n, NReachable ⟨⟨w, []⟩, n⟩ ∧ P w n = true := by
  rw [Bool.and_eq_true] at h
  obtain ⟨hok, h⟩ := h
  split at h
  · rename_i w n e
    refine ⟨w, n, ?_, h⟩
    unfold NScenario.result at e
    split at e
    · rename_i rev w₁ hr
      exact nruns_reach (NReachable.start (runCalls_reachable _ hok) (runSched_run hr)) e
    · cases e
  · cases h

end Verif
