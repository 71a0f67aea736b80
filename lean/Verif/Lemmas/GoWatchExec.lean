import Verif.Lemmas.GoWatchSim
import Verif.Lemmas.NExec
/-!
# Executing concrete schedules of the goroutines of `watcher.go`
-/

namespace Verif.Go

open Verif.GoText

/-- Maps are iterated over in the order of their entries. -/
def plainOrders : Orders := ⟨id, id, fun _ => .refl _, fun _ => .refl _⟩

/-- What happens next. -/
inductive WAct where
  /-- other calls on the database -/
  | calls (cs : List (Call × List Outcome))
  /-- a goroutine gets the mutex it waits for -/
  | lock (t : Nat)
  /-- a query of a goroutine executes a statement -/
  | exec (t : Nat) (out : Outcome)
  /-- it returns -/
  | done (t : Nat)
  /-- the `select` of the poller -/
  | ended
  | notified (n : Int)
  | tick
  | recv (g : Nat)
  | cancel (a : Nat)
  | openCall
  | watch (g : Nat) (id : Int) (lo hi : List UInt8) (start : Int)
  | unwatch (g : Nat) (id : Int)

/-- Has the last call on a group returned? -/
def WSys.isIdle (s : WSys) (g : Nat) : Bool :=
  match s.client g with
  | none => true
  | some t =>
    match s.thr t with
    | some ⟨_, .ret _⟩ => true
    | some _ => false
    | none => true

theorem WSys.isIdle_idle {s : WSys} {g : Nat} (h : s.isIdle g = true) : s.idle g := by
  intro t th hc ht
  unfold WSys.isIdle at h
  rw [hc] at h
  dsimp only at h
  rw [ht] at h
  split at h
  · rename_i e; cases e; exact ⟨_, rfl⟩
  · cases h
  · rename_i e; cases e

/-- One action. -/
def WSys.act (N : Nat) (s : WSys) : WAct → Option WSys
  | .calls cs => if cs.all (fun c => decide c.1.allowed) then
      match s.sys with
      | ⟨w, []⟩ => some { s with sys := ⟨runCalls cs w, []⟩ }
      | _ => none
    else none
  | .lock t =>
    match s.thr t with
    | some ⟨r, .lockS k⟩ => if s.mem.owner = none then some (s.resume plainOrders t r none { s.mem with owner := some t } k) else none
    | some ⟨r, .lockW g k⟩ => some (s.resume plainOrders t r (some g) s.mem k)
    | _ => none
  | .exec t out =>
    match s.thr t with
    | some ⟨r, .check (.stmt eff k) ok er⟩ => some (s.exec t r eff out (.check (k out s.sys.world.db) ok er))
    | some ⟨r, .rows (.stmt eff k) ok er⟩ => some ((s.note r out).exec t r eff out (.rows (k out s.sys.world.db) ok er))
    | _ => none
  | .done t =>
    match s.thr t with
    | some ⟨r, .check (.ret (.ok (a, b))) ok _⟩ => some (s.resume plainOrders t r none s.mem (ok a b))
    | some ⟨r, .check (.ret (.error e)) _ er⟩ => some (s.resume plainOrders t r none s.mem (er e))
    | some ⟨r, .rows (.ret (.ok (rs, b))) ok _⟩ => some (s.resume plainOrders t r none s.mem (ok rs b))
    | some ⟨r, .rows (.ret (.error e)) _ er⟩ => some (s.resume plainOrders t r none s.mem (er e))
    | _ => none
  | .ended =>
    match s.thr 0 with
    | some ⟨r, .pollSelect a _ _⟩ => some (s.resume plainOrders 0 r none s.mem a)
    | _ => none
  | .notified n =>
    match s.thr 0 with
    | some ⟨r, .pollSelect _ b _⟩ => some (s.resume plainOrders 0 r none s.mem (b n))
    | _ => none
  | .tick =>
    match s.thr 0 with
    | some ⟨r, .pollSelect _ _ c⟩ => some (s.resume plainOrders 0 r none s.mem c)
    | _ => none
  | .recv g =>
    if g < s.mem.ng then
      match (s.mem.grp g).queue with
      | v :: q => some { s with mem := s.mem.setG g fun x => { x with queue := q, received := x.received ++ [v] } }
      | [] => none
    else none
  | .cancel a =>
    if a < s.mem.na ∧ s.mem.aft a = .armed then
      some ({ s with mem := { s.mem with aft := fun i => if i = a then .running s.nt else s.mem.aft i } }.spawn plainOrders (.cancel a) (s.mem.body a))
    else none
  | .openCall => some (s.spawn plainOrders .opn (openGo N))
  | .watch g id lo hi start =>
    if g < s.mem.ng ∧ s.isIdle g = true ∧ (∀ p ∈ s.used g, p.1 ≠ id) ∧ hi ≠ [] then
      some ({ s with client := fun i => if i = g then some s.nt else s.client i,
                     used := fun i => if i = g then s.used i ++ [(id, start, lo, hi)] else s.used i,
                     lossy := fun i j => if i = g ∧ j = id then false else s.lossy i j }.spawn plainOrders
              (.watch g id lo hi start s.sys.world.db.compactRev) (watchGo N g id lo hi start))
    else none
  | .unwatch g id =>
    if g < s.mem.ng ∧ s.isIdle g = true then
      some ({ s with client := fun i => if i = g then some s.nt else s.client i }.spawn plainOrders (.unwatch g id) (unwatchGo N g id))
    else none

theorem WReachable.env {N : Nat} {s : WSys} {s' : Sys} (h : WReachable N s) (st : Steps s.sys s') : WReachable N { s with sys := s' } := by
  generalize e : s.sys = s₀ at st
  induction st with
  | refl => subst e; exact h
  | tail _ st ih => exact ih.step (.env _ _ st)

theorem WSys.act_reach {N : Nat} {s s' : WSys} {a : WAct} (h : WReachable N s) (hs : s.act N a = some s') : WReachable N s' := by
  unfold WSys.act at hs
  split at hs
  · split at hs
    · rename_i hc
      split at hs
      · rename_i w e
        cases hs
        refine h.env ?_
        rw [e]
        exact runCalls_steps _ (fun c hcs => by simpa using List.all_eq_true.1 hc c hcs) w []
      · cases hs
    · cases hs
  · split at hs
    · split at hs
      · cases hs; exact h.step (.lockS _ _ _ _ _ (by assumption) (by assumption))
      · cases hs
    · cases hs; exact h.step (.lockW _ _ _ _ _ _ (by assumption))
    · cases hs
  · split at hs
    · cases hs; exact h.step (.checkExec _ _ _ _ _ _ _ _ (by assumption))
    · cases hs; exact h.step (.rowsExec _ _ _ _ _ _ _ _ (by assumption))
    · cases hs
  · split at hs
    · cases hs; exact h.step (.checkOk _ _ _ _ _ _ _ _ (by assumption))
    · cases hs; exact h.step (.checkErr _ _ _ _ _ _ _ (by assumption))
    · cases hs; exact h.step (.rowsOk _ _ _ _ _ _ _ _ (by assumption))
    · cases hs; exact h.step (.rowsErr _ _ _ _ _ _ _ (by assumption))
    · cases hs
  · split at hs
    · cases hs; exact h.step (.pollDone _ _ _ _ _ _ _ (by assumption))
    · cases hs
  · split at hs
    · cases hs; exact h.step (.pollNotified _ _ _ _ _ _ _ _ (by assumption))
    · cases hs
  · split at hs
    · cases hs; exact h.step (.pollTick _ _ _ _ _ _ _ (by assumption))
    · cases hs
  · split at hs
    · split at hs
      · cases hs; exact h.step (.recv _ _ _ _ (by assumption) (by assumption))
      · cases hs
    · cases hs
  · split at hs
    · rename_i hc
      cases hs; exact h.step (.cancel _ _ _ hc.1 hc.2)
    · cases hs
  · cases hs; exact h.step (.openCall _ _)
  · split at hs
    · rename_i hc
      cases hs; exact h.step (.watchCall _ _ _ _ _ _ _ hc.1 (WSys.isIdle_idle hc.2.1) hc.2.2.1 hc.2.2.2)
    · cases hs
  · split at hs
    · rename_i hc
      cases hs; exact h.step (.unwatchCall _ _ _ _ hc.1 (WSys.isIdle_idle hc.2))
    · cases hs

/-- Several actions. -/
def WSys.acts (N : Nat) : List WAct → WSys → Option WSys
  | [], s => some s
  | a :: as, s =>
    match s.act N a with
    | some s' => WSys.acts N as s'
    | none => none

theorem WSys.acts_reach {N : Nat} {as : List WAct} {s s' : WSys} (h : WReachable N s) (hs : s.acts N as = some s') : WReachable N s' := by
  induction as generalizing s with
  | nil => cases hs; exact h
  | cons a as ih =>
    unfold WSys.acts at hs
    split at hs
    · rename_i s₁ h1
      exact ih (WSys.act_reach h h1) hs
    · cases hs

/-- A concrete run of a node: background calls, the start of the node (`n` statements without faults), then actions. -/
def wrun (N : Nat) (setup : List (Call × List Outcome)) (n : Nat) (as : List WAct) : Option WSys :=
  match runSched (List.replicate n (.me .ok)) Backend.start (runCalls setup World.init) with
  | some (_, .ok rev, w) => WSys.acts N as (WSys.init N plainOrders ⟨w, []⟩ rev)
  | _ => none

theorem wrun_reach {N : Nat} {setup : List (Call × List Outcome)} {n : Nat} {as : List WAct} {s : WSys} (hok : setup.all (fun c => decide c.1.allowed) = true)
    (h : wrun N setup n as = some s) : WReachable N s := by
  unfold wrun at h
  split at h
  · rename_i rev w hr
    exact WSys.acts_reach (WReachable.start plainOrders (runCalls_reachable _ hok) (runSched_run hr)) h
  · cases h

/-- What a goroutine has returned. -/
def WSys.returned (s : WSys) (t : Nat) : Option (List V) :=
  match s.thr t with
  | some ⟨_, .ret vs⟩ => some vs
  | _ => none

end Verif.Go
