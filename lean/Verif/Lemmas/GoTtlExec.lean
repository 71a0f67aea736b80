import Verif.Lemmas.TExec
import Verif.Model.GoTtl
/-!
# Executing concrete schedules of the goroutines of `ttl.go`
-/

namespace Verif.Go

/-- What happens next. -/
inductive TgAct where
  /-- other calls on the database -/
  | calls (cs : List (Call × List Outcome))
  /-- a step of the node -/
  | node (a : NAct)
  /-- a statement of the driver is executed for goroutine `i` -/
  | exec (i : Nat) (o : Outcome)
  /-- goroutine `i` goes on, and nothing fails -/
  | go (i : Nat)
  /-- what it waits for fails, or ends -/
  | stop (i : Nat)
  /-- its deletion is answered -/
  | answer (i : Nat) (r : Except ApiErr (Int × Bool))

/-- Does the group stay undisturbed? -/
def quietG (gr : Option Nat) (n n' : Node) : Bool :=
  match gr with
  | none => true
  | some i => quietStep { phase := .serve 0 i, timers := [], truncated := false } n n'

theorem quietG_spec {gr : Option Nat} {n n' : Node} (h : quietG gr n n' = true) : ∀ i g, gr = some i →
    n.groupAt i = some g → ∃ g', n'.groupAt i = some g' ∧ g'.received = g.received ∧ g'.used = g.used ∧
      ∀ x ∈ g.watchers, x.initialized = true → ∃ x' ∈ g'.watchers, x'.id = x.id := by
  intro i g hi hg
  subst hi
  exact quietStep_spec (t := { phase := .serve 0 i, timers := [], truncated := false }) h i g rfl hg

/-- Execute one action. -/
def Tg.act (rnd : Nat → Nat) (c : Tg) : TgAct → Option Tg
  | .calls cs =>
    if cs.all (fun c => decide c.1.allowed) then some { c with base := ⟨⟨runCalls cs c.base.sys.world, c.base.sys.pool⟩, c.base.node⟩ } else none
  | .node a =>
    match c.base with
    | ⟨⟨w, []⟩, n⟩ =>
      if a.isCalls then none else
      match nstep a w n with
      | some (w', n') => if quietG c.group n n' then some { c with base := ⟨⟨w', []⟩, n'⟩ } else none
      | none => none
    | _ => none
  | .exec i o =>
    match c.ts[i]? with
    | some (.current (.stmt eff q) ok er) =>
      some { c with base := ⟨{ c.base.sys with world := c.base.sys.world.exec eff o }, c.base.node⟩,
                    ts := c.ts.set i (.current (q o c.base.sys.world.db) ok er) }
    | some (.list (.stmt eff q) ok er) =>
      some { c with base := ⟨{ c.base.sys with world := c.base.sys.world.exec eff o }, c.base.node⟩,
                    ts := c.ts.set i (.list (q o c.base.sys.world.db) ok er), truncated := c.truncated || o.isTrunc }
    | _ => none
  | .go i =>
    match c.ts[i]? with
    | some (.spawn t k) => some { c with ts := c.ts.set i k ++ [t] }
    | some (.current (.ret (.ok n)) ok _) => some (c.at_ i (ok n))
    | some (.list (.ret (.ok rows)) ok _) => some (c.at_ i (ok rows))
    | some (.openGroup ok _) =>
      some { c with base := ⟨c.base.sys, { c.base.node with groups := c.base.node.groups ++ [Group.new c.base.node.pollRevision] }⟩,
                    ts := c.ts.set i (ok c.base.node.groups.length), group := some c.base.node.groups.length }
    | some (.watch m id lo hi start ok er) =>
      match c.base.node.groups[m]? with
      | some g =>
        match g.call with
        | .idle =>
          let gs := c.base.node.groups.take m ++ g.watch id lo hi start c.base.sys.world.db.compactRev :: c.base.node.groups.drop (m + 1)
          some { c with base := ⟨c.base.sys, { c.base.node with groups := gs }⟩, ts := c.ts.set i (.watching m ok er), start := some start }
        | _ => none
      | none => none
    | some (.watching m ok _) =>
      match c.base.node.groups[m]? with
      | some g =>
        match g.call with
        | .idle => some (c.at_ i ok)
        | _ => none
      | none => none
    | some (.recvUpdate m ok _) =>
      match c.base.node.groups[m]? with
      | some g =>
        match g.queue with
        | u :: q =>
          let gs := c.base.node.groups.take m ++ { g with queue := q, received := g.received ++ [u] } :: c.base.node.groups.drop (m + 1)
          some { c with base := ⟨c.base.sys, { c.base.node with groups := gs }⟩, ts := c.ts.set i (ok u) }
        | [] => none
      | none => none
    | some (.rand n k) => some { c with ts := c.ts.set i (k ((rnd c.drawn % n.toNat : Nat) : Int)), drawn := c.drawn + 1 }
    | some (.wait d _ after) => some { c with ts := c.ts.set i after, log := c.log ++ [.waited i d] }
    | some (.delete key rev ok er) =>
      some { c with base := ⟨{ c.base.sys with pool := (Call.expire key rev).prog :: c.base.sys.pool }, c.base.node⟩,
                    ts := c.ts.set i (.deleting ok er), log := c.log ++ [.asked i key rev] }
    | some (.pause _ again _) => some (c.at_ i again)
    | _ => none
  | .stop i =>
    match c.ts[i]? with
    | some (.current (.ret (.error e)) _ er) => some (c.at_ i (er e))
    | some (.list (.ret (.error e)) _ er) => some (c.at_ i (er e))
    | some (.recvUpdate _ _ closed) => some (c.at_ i closed)
    | some (.wait _ done _) => some { c with ts := c.ts.set i done, log := c.log ++ [.stopped i] }
    | some (.pause _ _ stop) => some { c with ts := c.ts.set i stop, log := c.log ++ [.stopped i] }
    | _ => none
  | .answer i r =>
    match c.ts[i]? with
    | some (.deleting ok er) =>
      match r with
      | .ok (v, d) => some { c with ts := c.ts.set i (ok v d), log := c.log ++ [.done i] }
      | .error e => some { c with ts := c.ts.set i (er e), log := c.log ++ [.failed i e] }
    | _ => none

theorem TgReachable.calls {N : Nat} {rnd : Nat → Nat} {c : Tg} {s s' : Sys} (h : TgReachable N rnd c) (hb : c.base.sys = s) (st : Steps s s') :
    TgReachable N rnd { c with base := ⟨s', c.base.node⟩ } := by
  induction st with
  | refl => subst hb; exact h
  | tail _ st ih => exact ih.step (.env _ _ (.env _ _ _ st) fun i g _ hg => ⟨g, hg, rfl, rfl, fun x hx _ => ⟨x, hx, rfl⟩⟩)

theorem Tg.act_reach {N : Nat} {rnd : Nat → Nat} {c d : Tg} {a : TgAct} (h : TgReachable N rnd c) (hs : c.act rnd a = some d) : TgReachable N rnd d := by
  unfold Tg.act at hs
  split at hs
  · split at hs
    · rename_i hc
      cases hs
      exact h.calls rfl (runCalls_steps _ (fun c hcs => by simpa using List.all_eq_true.1 hc c hcs) _ _)
    · cases hs
  · split at hs
    · rename_i w n hb
      split at hs
      · cases hs
      · rename_i hnc
        split at hs
        · rename_i w' n' hn
          split at hs
          · rename_i hq
            cases hs
            refine h.step (.env _ _ ?_ ?_)
            · rw [hb]
              exact nstep_step hn (fun cs e => by rw [e] at hnc; exact hnc rfl)
            · rw [hb]
              exact quietG_spec hq
          · cases hs
        · cases hs
    · cases hs
  · split at hs
    · cases hs; exact h.step (.currentExec _ _ _ _ _ _ _ (by assumption))
    · cases hs; exact h.step (.listExec _ _ _ _ _ _ _ (by assumption))
    · cases hs
  · split at hs
    · cases hs; exact h.step (.spawn _ _ _ _ (by assumption))
    · cases hs; exact h.step (.current _ _ _ _ _ (by assumption))
    · cases hs; exact h.step (.list _ _ _ _ _ (by assumption))
    · cases hs; exact h.step (.openGroup _ _ _ _ (by assumption))
    · split at hs
      · rename_i ht _ g hg
        split at hs
        · rename_i hi
          cases hs
          obtain ⟨e1, e2⟩ := split_at_index hg
          have := TgStep.watch (rnd := rnd) c _ _ _ _ _ _ _ _ _ g (by rw [e2]; exact ht) e1 hi
          rw [e2] at this
          exact h.step this
        · cases hs
      · cases hs
    · split at hs
      · rename_i hg
        split at hs
        · cases hs; exact h.step (.watched _ _ _ _ _ _ (by assumption) hg (by assumption))
        · cases hs
      · cases hs
    · split at hs
      · rename_i ht _ g hg
        split at hs
        · rename_i u q hq
          cases hs
          obtain ⟨e1, e2⟩ := split_at_index hg
          exact h.step (.recv c _ _ _ _ _ g u q (by rw [e2]; exact ht) e1 hq)
        · cases hs
      · cases hs
    · cases hs; exact h.step (.rand _ _ _ _ (by assumption))
    · cases hs; exact h.step (.waited _ _ _ _ _ (by assumption))
    · cases hs; exact h.step (.delete _ _ _ _ _ _ (by assumption))
    · cases hs; exact h.step (.again _ _ _ _ _ (by assumption))
    · cases hs
  · split at hs
    · cases hs; exact h.step (.currentFails _ _ _ _ _ (by assumption))
    · cases hs; exact h.step (.listFails _ _ _ _ _ (by assumption))
    · cases hs; exact h.step (.closed _ _ _ _ _ (by assumption))
    · cases hs; exact h.step (.waitDone _ _ _ _ _ (by assumption))
    · cases hs; exact h.step (.stop _ _ _ _ _ (by assumption))
    · cases hs
  · split at hs
    · split at hs
      · cases hs; exact h.step (.deleted _ _ _ _ _ _ (by assumption))
      · cases hs; exact h.step (.deleteFails _ _ _ _ _ (by assumption))
    · cases hs

/-- Execute several actions. -/
def Tg.acts (rnd : Nat → Nat) : List TgAct → Tg → Option Tg
  | [], c => some c
  | a :: as, c =>
    match c.act rnd a with
    | some d => Tg.acts rnd as d
    | none => none

theorem Tg.acts_reach {N : Nat} {rnd : Nat → Nat} {as : List TgAct} {c d : Tg} (h : TgReachable N rnd c) (hs : c.acts rnd as = some d) :
    TgReachable N rnd d := by
  induction as generalizing c with
  | nil => cases hs; exact h
  | cons a as ih =>
    simp only [Tg.acts] at hs
    split at hs
    · rename_i h1
      exact ih (Tg.act_reach h h1) hs
    · cases hs

/-- A concrete run: a scenario of a node, then the call of `ttl`, then actions. -/
def tgrun (N : Nat) (rnd : Nat → Nat) (sc : NScenario) (as : List TgAct) : Option Tg :=
  match sc.result with
  | some (w, n) => Tg.acts rnd as { base := ⟨⟨w, []⟩, n⟩, ts := [ttlGo N], group := none, start := none, drawn := 0, truncated := false, log := [] }
  | none => none

/-- A check on the result, executed in the kernel. -/
theorem tgrun_check {N : Nat} {rnd : Nat → Nat} {sc : NScenario} {as : List TgAct} (P : Tg → Bool)
    (h : (sc.ok && (match tgrun N rnd sc as with | some c => P c | none => false)) = true) : ∃ c, TgReachable N rnd c ∧ P c = true := by
  rw [Bool.and_eq_true] at h
  obtain ⟨hok, h⟩ := h
  split at h
  · rename_i c e
    refine ⟨c, ?_, h⟩
    unfold tgrun at e
    split at e
    · rename_i w n e1
      refine Tg.acts_reach (.start ?_) e
      unfold NScenario.result at e1
      split at e1
      · rename_i rev w₂ hr
        exact nruns_reach (NReachable.start (runCalls_reachable _ hok) (runSched_run hr)) e1
      · cases e1
    · cases e
  · cases h

end Verif.Go
