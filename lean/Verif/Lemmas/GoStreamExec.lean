import Verif.Lemmas.GoStreamRun
import Verif.Lemmas.SExec
/-!
# Executing concrete schedules of the goroutines of a watch stream
-/

namespace Verif.Go

/-- What happens next. -/
inductive StAct where
  /-- a goroutine does what its text does next; it succeeds -/
  | go (i : Nat)
  /-- the client sends a message -/
  | msg (r : WatchMsg)
  /-- `Recv` fails -/
  | noMsg (e : ApiErr)
  /-- a `Send` fails -/
  | sendFails (i : Nat) (e : ApiErr)
  /-- the context has ended -/
  | done (i : Nat)
  /-- the handler -/
  | opened
  | spawn
  | finish (i : Nat)
  | await
  /-- other calls on the database -/
  | calls (cs : List (Call × List Outcome))
  /-- a step of the node -/
  | node (a : NAct)
  | gone

/-- The next action of a goroutine. -/
def SMem.go (m : SMem) (i : Nat) : Ts → Option (SMem × Ts)
  | .lock k => if m.owner = none then some ({ m with owner := some i }, k) else none
  | .unlock k => if m.owner ≠ none then some ({ m with owner := none }, k) else none
  | .getRev k => some (m, k m.revision)
  | .setRev n k => some ({ m with revision := n }, k)
  | .setReport id b k => some ({ m with report := Verif.setReport m.report id b }, k)
  | .delReport id k => some ({ m with report := Go.delReport m.report id }, k)
  | .getReport k => some (m, k m.report)
  | .watch id lo hi start ok co er =>
    match m.index with
    | some j =>
      match m.base.node.groups[j]? with
      | some g =>
        match g.call with
        | .idle => some (m.withGroups (m.base.node.groups.take j ++ g.watch id lo hi start m.base.sys.world.db.compactRev :: m.base.node.groups.drop (j + 1)),
            .watching ok co er)
        | _ => none
      | none => none
    | none => none
  | .watching ok co er =>
    match m.index with
    | some j =>
      match m.base.node.groups[j]? with
      | some g =>
        match g.call, g.answers.getLast? with
        | .idle, some (_, .ok) => some (m, ok)
        | .idle, some (_, .compacted a b) => some (m, co a b)
        | .idle, some (_, .error) => some (m, er (.db .busy))
        | _, _ => none
      | none => none
    | none => none
  | .unwatch id k =>
    match m.index with
    | some j =>
      match m.base.node.groups[j]? with
      | some g => some (m.withGroups (m.base.node.groups.take j ++ { g with watchers := removeWatcher g.watchers id } :: m.base.node.groups.drop (j + 1)), k)
      | none => none
    | none => none
  | .send r ok _ => if m.broken = false then some ({ m with out := m.out ++ [r] }, ok) else none
  | .recvUpdate ok cl =>
    match m.index with
    | some j =>
      match m.base.node.groups[j]? with
      | some g =>
        match g.queue with
        | u :: q => some (m.withGroups (m.base.node.groups.take j ++ { g with queue := q, received := g.received ++ [u] } :: m.base.node.groups.drop (j + 1)), ok u)
        | [] => if g.closed > 0 then some (m, cl) else none
      | none => none
    | none => none
  | .select a _ => some (m, a)
  | _ => none

theorem SMem.go_step {m m' : SMem} {i : Nat} {t t' : Ts} (h : m.go i t = some (m', t')) : TStep i m t m' t' := by
  unfold SMem.go at h
  split at h
  · split at h
    · cases h; exact .lock _ _ (by assumption)
    · cases h
  · split at h
    · cases h; exact .unlock _ _ (by assumption)
    · cases h
  · cases h; exact .getRev _ _
  · cases h; exact .setRev _ _ _
  · cases h; exact .setReport _ _ _ _
  · cases h; exact .delReport _ _ _
  · cases h; exact .getReport _ _ _ (.refl _)
  · split at h
    · rename_i j hj
      split at h
      · rename_i g hg
        split at h
        · cases h
          obtain ⟨e1, e2⟩ := split_at_index hg
          exact .watch _ _ _ _ _ _ _ _ _ _ g e1 (by rw [e2]; exact hj) (by assumption)
        · cases h
      · cases h
    · cases h
  · split at h
    · rename_i j hj
      split at h
      · rename_i g hg
        split at h
        · cases h; exact .watched _ _ _ _ j g _ hj hg (by assumption) (by assumption)
        · cases h; exact .refused _ _ _ _ j g _ _ _ hj hg (by assumption) (by assumption)
        · cases h; exact .failed _ _ _ _ j g _ _ hj hg (by assumption) (by assumption)
        · cases h
      · cases h
    · cases h
  · split at h
    · rename_i j hj
      split at h
      · rename_i g hg
        cases h
        obtain ⟨e1, e2⟩ := split_at_index hg
        exact .unwatch _ _ _ _ _ g e1 (by rw [e2]; exact hj)
      · cases h
    · cases h
  · split at h
    · cases h; exact .send _ _ _ _ (by assumption)
    · cases h
  · split at h
    · rename_i j hj
      split at h
      · rename_i g hg
        split at h
        · cases h
          obtain ⟨e1, e2⟩ := split_at_index hg
          exact .recvUpdate _ _ _ _ _ g _ _ e1 (by rw [e2]; exact hj) (by assumption)
        · split at h
          · cases h; exact .updatesEnd _ _ _ j g hj hg (by assumption) (by assumption)
          · cases h
      · cases h
    · cases h
  · cases h; exact .tick _ _ _
  · cases h

/-- One action. -/
def GS.act (c : GS) : StAct → Option GS
  | .go i =>
    match c.ts[i]? with
    | some t =>
      match c.mem.go i t with
      | some (m', t') => some { c with mem := m', ts := c.ts.set i t' }
      | none => none
    | none => none
  | .msg r =>
    match (c.ts[3]? : Option Ts) with
    | some (.recv ok _) => some { c with mem := { c.mem with asked := c.mem.asked ++ [r] }, ts := c.ts.set 3 (ok r) }
    | _ => none
  | .noMsg e =>
    match (c.ts[3]? : Option Ts) with
    | some (.recv _ er) => some { c with ts := c.ts.set 3 (er e) }
    | _ => none
  | .sendFails i e =>
    match c.ts[i]? with
    | some (.send _ _ er) => some { c with mem := { c.mem with broken := true }, ts := c.ts.set i (er e) }
    | _ => none
  | .done i =>
    match c.ts[i]? with
    | some (.select _ b) => if c.mem.ended = true then some { c with ts := c.ts.set i b } else none
    | _ => none
  | .opened =>
    match (c.ts[0]? : Option Ts) with
    | some (.openGroup k _) => some { c with mem := c.mem.opened, ts := c.ts.set 0 k }
    | _ => none
  | .spawn =>
    match (c.ts[0]? : Option Ts) with
    | some (.spawn t k) => some { c with ts := c.ts.set 0 k ++ [t] }
    | _ => none
  | .finish i =>
    match c.ts[i]? with
    | some (.ret [v]) => if 0 < i ∧ i ∉ c.finished then some { c with finished := c.finished ++ [i], err := firstErr c.err v } else none
    | _ => none
  | .await =>
    match (c.ts[0]? : Option Ts) with
    | some (.await k) => if (List.range c.ts.length).all (fun j => decide (j = 0) || decide (j ∈ c.finished)) then some { c with ts := c.ts.set 0 (k c.err) } else none
    | _ => none
  | .calls cs =>
    if cs.all (fun c => decide c.1.allowed) then
      match c.mem.base.sys with
      | ⟨w, []⟩ => some { c with mem := { c.mem with base := ⟨⟨runCalls cs w, []⟩, c.mem.base.node⟩ } }
      | _ => none
    else none
  | .node a =>
    if a.isCalls then none else
    match c.mem.base.sys, c.mem.index with
    | ⟨w, []⟩, some j =>
      match nstep a w c.mem.base.node with
      | some (w', n') =>
        match c.mem.base.node.groups[j]?, n'.groups[j]? with
        | some g, some g' =>
          if g'.received = g.received ∧ g'.used = g.used then some { c with mem := { c.mem with base := ⟨⟨w', []⟩, n'⟩ } } else none
        | _, _ => none
      | none => none
    | _, _ => none
  | .gone => some { c with mem := { c.mem with ended := true } }

theorem GSteps.trans {a b c : GS} (h : GSteps a b) (h' : GSteps b c) : GSteps a c := by
  induction h' with
  | refl => exact h
  | tail _ st ih => exact ih.tail st

theorem GSteps.one {a b : GS} (h : GStep a b) : GSteps a b := .tail (.refl _) h

theorem GReachable.steps {N : Nat} {c d : GS} (h : GReachable N c) (st : GSteps c d) : GReachable N d := by
  induction st with
  | refl => exact h
  | tail _ st ih => exact ih.step st

theorem GS.base_eq {c : GS} {w : World} (h : c.mem.base.sys = ⟨w, []⟩) : c.mem.base = ⟨⟨w, []⟩, c.mem.base.node⟩ := by
  rw [← h]

theorem GSteps.calls {c : GS} {s s' : Sys} (hb : c.mem.base.sys = s) (st : Steps s s') :
    GSteps c { c with mem := { c.mem with base := ⟨s', c.mem.base.node⟩ } } := by
  induction st with
  | refl => subst hb; exact .refl _
  | tail _ st ih =>
    refine ih.tail ?_
    cases hi : c.mem.index with
    | none => exact .envBefore _ _ (.env _ _ _ st) hi
    | some j => exact .env _ _ j (.env _ _ _ st) hi fun g hg => ⟨g, hg, rfl, rfl⟩

theorem GS.act_steps {c d : GS} {a : StAct} (h : c.act a = some d) : GSteps c d := by
  unfold GS.act at h
  split at h
  · split at h
    · split at h
      · cases h; exact .one (.thread _ _ _ _ _ (by assumption) (SMem.go_step (by assumption)))
      · cases h
    · cases h
  · split at h
    · cases h; exact .one (.thread _ _ _ _ _ (by assumption) (.recv _ _ _ _))
    · cases h
  · split at h
    · cases h; exact .one (.thread _ _ _ _ _ (by assumption) (.recvFails _ _ _ _))
    · cases h
  · split at h
    · cases h; exact .one (.thread _ _ _ _ _ (by assumption) (.sendFails _ _ _ _ _))
    · cases h
  · split at h
    · split at h
      · cases h; exact .one (.thread _ _ _ _ _ (by assumption) (.done _ _ _ (by assumption)))
      · cases h
    · cases h
  · split at h
    · cases h; exact .one (.opened _ _ _ _ (by assumption))
    · cases h
  · split at h
    · cases h; exact .one (.spawn _ _ _ _ (by assumption))
    · cases h
  · split at h
    · split at h
      · rename_i hc
        cases h; exact .one (.finish _ _ _ (by assumption) hc.1 hc.2)
      · cases h
    · cases h
  · split at h
    · split at h
      · rename_i hc
        cases h
        refine .one (.await _ _ _ (by assumption) fun j h0 hj => ?_)
        have := List.all_eq_true.1 hc j (List.mem_range.2 hj)
        rw [Bool.or_eq_true, decide_eq_true_eq, decide_eq_true_eq] at this
        rcases this with e | e
        · omega
        · exact e
      · cases h
    · cases h
  · split at h
    · rename_i hc
      split at h
      · rename_i w e
        cases h
        exact .calls e (runCalls_steps _ (fun c hcs => by simpa using List.all_eq_true.1 hc c hcs) w [])
      · cases h
    · cases h
  · split at h
    · cases h
    · rename_i a hnc
      split at h
      · rename_i w j e hj
        split at h
        · rename_i w' n' hn
          split at h
          · rename_i g g' e1 e2
            split at h
            · rename_i hq
              cases h
              refine .one (.env _ _ j ?_ hj fun g₁ hg₁ => ?_)
              · rw [GS.base_eq e]
                exact nstep_step hn fun cs e => by rw [e] at hnc; exact hnc rfl
              · unfold Node.groupAt at hg₁
                rw [e1] at hg₁
                cases hg₁
                exact ⟨g', e2, hq.1, hq.2⟩
            · cases h
          · cases h
        · cases h
      · cases h
  · cases h; exact .one (.gone _)

/-- Several actions. -/
def GS.acts : List StAct → GS → Option GS
  | [], c => some c
  | a :: as, c =>
    match c.act a with
    | some d => GS.acts as d
    | none => none

theorem GS.acts_steps {as : List StAct} {c d : GS} (h : c.acts as = some d) : GSteps c d := by
  induction as generalizing c with
  | nil => cases h; exact .refl _
  | cons a as ih =>
    unfold GS.acts at h
    split at h
    · rename_i e
      exact (GS.act_steps e).trans (ih h)
    · cases h

/-- A concrete run: a scenario of a node, then the call of `Watch`, then actions. -/
def strun (N : Nat) (sc : NScenario) (as : List StAct) : Option GS :=
  match sc.result with
  | some (w, n) => GS.acts as (GS.init N ⟨⟨w, []⟩, n⟩)
  | none => none

theorem strun_reach {N : Nat} {sc : NScenario} {as : List StAct} {c : GS} (hok : sc.ok = true) (h : strun N sc as = some c) : GReachable N c := by
  unfold strun at h
  split at h
  · rename_i w n e1
    refine GReachable.steps (.init _ ?_) (GS.acts_steps h)
    unfold NScenario.result at e1
    split at e1
    · rename_i rev w₂ hr
      exact nruns_reach (NReachable.start (runCalls_reachable _ hok) (runSched_run hr)) e1
    · cases e1
  · cases h

/-- A check on the result, executed in the kernel. -/
theorem strun_check {N : Nat} {sc : NScenario} {as : List StAct} (P : GS → Bool)
    (h : (sc.ok && (match strun N sc as with | some c => P c | none => false)) = true) : ∃ c, GReachable N c ∧ P c = true := by
  rw [Bool.and_eq_true] at h
  obtain ⟨hok, h⟩ := h
  split at h
  · rename_i c e
    exact ⟨c, strun_reach hok e, h⟩
  · cases h

end Verif.Go
