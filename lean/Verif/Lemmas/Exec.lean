import Verif.Lemmas.Run
import Verif.Spec.Trace
/-!
# Executing concrete schedules

Tools for the non-vacuity examples and counterexamples: a schedule is executed by a function, and the result
is a real `Run` of the model.
-/

namespace Verif

deriving instance DecidableEq for Except

/-- Execute a background program with given outcomes; stop when they are used up. -/
def runCall : Prog Unit → List Outcome → World → World
  | .ret _, _, w => w
  | .stmt _ _, [], w => w
  | .stmt eff k, o :: os, w => runCall (k o w.db) os (w.exec eff o)

/-- Execute several background calls one after the other. -/
def runCalls : List (Call × List Outcome) → World → World
  | [], w => w
  | (c, os) :: cs, w => runCalls cs (runCall c.prog os w)

theorem runCall_steps (p : Prog Unit) (os : List Outcome) (w : World) (pool : List (Prog Unit)) :
    Steps ⟨w, p :: pool⟩ ⟨runCall p os w, pool⟩ := by
  induction p generalizing os w with
  | ret a => exact (Steps.refl _).tail (Step.stop w [] pool _)
  | stmt eff k ih =>
    cases os with
    | nil => exact (Steps.refl _).tail (Step.stop w [] pool _)
    | cons o os =>
      exact Steps.trans ((Steps.refl _).tail (Step.exec w [] pool eff k o)) (ih o w.db os (w.exec eff o))

instance (c : Call) : Decidable c.allowed := by
  cases c <;> (unfold Call.allowed; infer_instance)

theorem runCalls_steps (cs : List (Call × List Outcome)) (h : ∀ c ∈ cs, c.1.allowed) (w : World)
    (pool : List (Prog Unit)) : Steps ⟨w, pool⟩ ⟨runCalls cs w, pool⟩ := by
  induction cs generalizing w with
  | nil => exact Steps.refl _
  | cons c cs ih =>
    obtain ⟨c, os⟩ := c
    have h1 : Steps ⟨w, pool⟩ ⟨w, c.prog :: pool⟩ :=
      (Steps.refl _).tail (Step.spawn ⟨w, pool⟩ c (h (c, os) (by simp)))
    exact (h1.trans (runCall_steps c.prog os w pool)).trans (ih (fun x hx => h x (by simp [hx])) _)

/-- What happens next while the observed call runs. -/
inductive Item where
  /-- its next statement is executed -/
  | me (o : Outcome)
  /-- other calls run -/
  | env (cs : List (Call × List Outcome))

/-- Execute the observed call under a schedule. -/
def runSched {α : Type} : List Item → Prog α → World → Option (List Obs × α × World)
  | [], .ret a, w => some ([], a, w)
  | [], .stmt _ _, _ => none
  | .env cs :: is, p, w =>
    if cs.all (fun c => decide c.1.allowed) then runSched is p (runCalls cs w) else none
  | .me _ :: _, .ret _, _ => none
  | .me o :: is, .stmt eff k, w =>
    match runSched is (k o w.db) (w.exec eff o) with
    | some (t, a, w') => some (⟨w, o, w.exec eff o⟩ :: t, a, w')
    | none => none

theorem Run.steps {α : Type} {s s' s'' : Sys} {p : Prog α} {t : List Obs} {a : α} (h : Steps s s')
    (r : Run s' p t a s'') : Run s p t a s'' := by
  induction h with
  | refl => exact r
  | tail _ st ih => exact ih (Run.env st r)

theorem runSched_run {α : Type} {is : List Item} {p : Prog α} {w w' : World} {t : List Obs} {a : α}
    (h : runSched is p w = some (t, a, w')) : Run ⟨w, []⟩ p t a ⟨w', []⟩ := by
  induction is generalizing p w t with
  | nil =>
    cases p with
    | ret b => simp only [runSched, Option.some.injEq, Prod.mk.injEq] at h
               obtain ⟨rfl, rfl, rfl⟩ := h; exact Run.ret _ _
    | stmt eff k => simp [runSched] at h
  | cons i is ih =>
    cases i with
    | env cs =>
      simp only [runSched] at h
      split at h
      · rename_i hc
        refine Run.steps (runCalls_steps cs ?_ w []) (ih h)
        intro c hcs
        have := List.all_eq_true.1 hc c hcs
        simpa using this
      · cases h
    | me o =>
      cases p with
      | ret b => simp [runSched] at h
      | stmt eff k =>
        simp only [runSched] at h
        split at h
        · rename_i t' a' w'' h'
          simp only [Option.some.injEq, Prod.mk.injEq] at h
          obtain ⟨rfl, rfl, rfl⟩ := h
          exact Run.step (s := ⟨w, []⟩) o (ih h')
        · cases h

/-- Background calls lead to a reachable system. -/
theorem runCalls_reachable (cs : List (Call × List Outcome))
    (h : cs.all (fun c => decide c.1.allowed) = true) : Reachable ⟨runCalls cs World.init, []⟩ :=
  runCalls_steps cs (fun c hc => by simpa using List.all_eq_true.1 h c hc) World.init []

/-- Outcomes of a call without any fault. -/
def oks (n : Nat) : List Outcome := List.replicate n .ok

/-- The statements and the answer of a schedule started after given background calls. -/
structure Scenario (α : Type) where
  setup : List (Call × List Outcome)
  sched : List Item
  prog : Prog α

/-- Result of a scenario. -/
def Scenario.result {α : Type} (sc : Scenario α) : Option (List Obs × α × World) :=
  runSched sc.sched sc.prog (runCalls sc.setup World.init)

/-- The setup only uses allowed calls. -/
def Scenario.ok {α : Type} (sc : Scenario α) : Bool := sc.setup.all fun c => decide c.1.allowed

theorem Scenario.run {α : Type} (sc : Scenario α) (hok : sc.ok = true) {t : List Obs} {a : α} {w' : World}
    (h : sc.result = some (t, a, w')) :
    ∃ s s', Reachable s ∧ Run s sc.prog t a s' ∧ s.world = runCalls sc.setup World.init ∧ s'.world = w' :=
  ⟨⟨runCalls sc.setup World.init, []⟩, ⟨w', []⟩, runCalls_reachable _ hok, runSched_run h, rfl, rfl⟩

/-- A check on the result of a scenario, executed in the kernel, gives a real run of the model. -/
theorem Scenario.check {α : Type} (sc : Scenario α) (P : List Obs → α → World → Bool) (hok : sc.ok = true)
    (h : (match sc.result with | some (t, a, w') => P t a w' | none => false) = true) :
    ∃ s s' t a, Reachable s ∧ Run s sc.prog t a s' ∧ s.world = runCalls sc.setup World.init ∧
      P t a s'.world = true := by
  split at h
  · rename_i t a w' e
    obtain ⟨s, s', h1, h2, h3, h4⟩ := sc.run hok e
    exact ⟨s, s', t, a, h1, h2, h3, by rw [h4]; exact h⟩
  · cases h

/-- No statement of the trace had a fault. -/
def faultless (t : List Obs) : Bool := t.all fun o => decide (o.out = .ok)

theorem faultless_noTrunc {t : List Obs} (h : faultless t = true) : NoTrunc t := by
  intro ob hob n he
  have := List.all_eq_true.1 h ob hob
  simp [he] at this

theorem faultless_noLost {t : List Obs} (h : faultless t = true) : NoLost t := by
  intro ob hob n he
  have := List.all_eq_true.1 h ob hob
  simp [he] at this

end Verif
