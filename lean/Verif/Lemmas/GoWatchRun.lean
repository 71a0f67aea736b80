import Verif.Model.GoWatchSys
import Verif.Lemmas.GoWatch
/-!
# What the goroutines of `watcher.go` do between two waits
-/

namespace Verif.Go

open Verif.GoText

variable {o : Orders} {t : Nat}

/-! ### The trees -/

/-- `WatcherGroup` waiting for the mutex. -/
def openLockT : Tw :=
  .lockS (.getPollRev fun rev => .newGroup rev 100 fun g => .after (cancelT g) fun a => .setStop g a (.addGroup g (.unlockS (.ret [groupV g, .nil]))))

/-- `Unwatch`. -/
def unwatchT (g : Nat) (id : Int) : Tw := .lockW g (.delWatcher g id (.unlockW g (.ret [])))

/-- The rest of `publishEvents`. -/
def pubT (src : List Event) (K : Tw) (gs : List Nat) : Tw := foldW (publishGroupT src) (fun _ => .unlockS K) gs ()

/-- `publishEvents` waiting for the mutex of a group. -/
def pubAt (src : List Event) (rev : Int) (g : Nat) (rest : List Nat) (K : Tw) : Tw :=
  publishLockT g rev src fun b =>
    cond b (pubT src K rest) (.stop g fun st => cond st (.delGroup g (.closeUpdates g (pubT src K rest))) (pubT src K rest))

/-- Where the poller waits next. -/
def pollPause (rev : Int) : Nat → Bool → Tw
  | 0, _ => .out
  | n + 1, true => pollStepT true (pollT n)
  | n + 1, false => pollQueryT false (pollT n) (Driver.after rev 500)

/-- Where `publishEvents` waits next. -/
def pubPause (src : List Event) (rev : Int) (n : Nat) (b : Bool) : List Nat → Tw
  | [] => pollPause rev n b
  | g :: rest => pubAt src rev g rest (pollT n b)

/-! ### Memory -/

/-- What `update` does with a watcher. -/
def WMem.upd (x : WMem) (src : List Event) : WMem × List V :=
  bif x.initialized then
    bif decide ((0 : Int) < x.events.length) then ({ x with events := [] }, x.events ++ (appendEvents src x.lo x.hi).map encEvent)
    else (x, (appendEvents src x.lo x.hi).map encEvent)
  else ({ x with events := x.events ++ (appendEvents src x.lo x.hi).map encEvent }, [])

/-- `update` of several watchers. -/
def WatchMem.updAll (m : WatchMem) (src : List Event) (ws : List Nat) : WatchMem :=
  { m with wat := fun i => if i ∈ ws then ((m.wat i).upd src).1 else m.wat i }

/-- The updates that `publish` collects. -/
def WatchMem.outs (m : WatchMem) (src : List Event) (l : List (Int × Nat)) : List V :=
  ((l.map fun p => (p.1, ((m.wat p.2).upd src).2)).filter fun u => decide ((0 : Int) < u.2.length)).map fun u => updateV u.1 u.2

theorem upd_ff (x : WMem) (src : List Event) (h : x.initialized = false) :
    x.upd src = ({ x with events := x.events ++ (appendEvents src x.lo x.hi).map encEvent }, []) := by
  obtain ⟨a, b, c, d, e, f⟩ := x
  change d = false at h
  subst h
  rfl

theorem upd_tf (x : WMem) (src : List Event) (h : x.initialized = true) (h' : decide ((0 : Int) < x.events.length) = false) :
    x.upd src = (x, (appendEvents src x.lo x.hi).map encEvent) := by
  unfold WMem.upd
  rw [h', h]
  rfl

theorem upd_tt (x : WMem) (src : List Event) (h : x.initialized = true) (h' : decide ((0 : Int) < x.events.length) = true) :
    x.upd src = ({ x with events := [] }, x.events ++ (appendEvents src x.lo x.hi).map encEvent) := by
  obtain ⟨a, b, c, d, e, f⟩ := x
  change d = true at h
  subst h
  unfold WMem.upd
  rw [h']
  rfl

theorem setW_id (m : WatchMem) (w : Nat) : m.setW w (fun x => x) = m := by
  unfold WatchMem.setW
  simp

theorem setW_congr (m : WatchMem) (w : Nat) {f f' : WMem → WMem} (h : f (m.wat w) = f' (m.wat w)) : m.setW w f = m.setW w f' := by
  unfold WatchMem.setW
  congr 1
  funext i
  split
  · rename_i e; rw [e, h]
  · rfl

theorem setW_setW (m : WatchMem) (w : Nat) (f f' : WMem → WMem) : (m.setW w f).setW w f' = m.setW w fun x => f' (f x) := by
  unfold WatchMem.setW
  congr 1
  funext i
  dsimp only
  split <;> rfl

theorem setG_setG (m : WatchMem) (w : Nat) (f f' : GMem → GMem) : (m.setG w f).setG w f' = m.setG w fun x => f' (f x) := by
  unfold WatchMem.setG
  congr 1
  funext i
  dsimp only
  split <;> rfl

theorem setW_same (m : WatchMem) (w : Nat) (f : WMem → WMem) : (m.setW w f).wat w = f (m.wat w) := if_pos rfl
theorem setW_other (m : WatchMem) {w i : Nat} (f : WMem → WMem) (h : i ≠ w) : (m.setW w f).wat i = m.wat i := if_neg h
theorem setG_same (m : WatchMem) (g : Nat) (f : GMem → GMem) : (m.setG g f).grp g = f (m.grp g) := if_pos rfl
theorem setG_other (m : WatchMem) {g i : Nat} (f : GMem → GMem) (h : i ≠ g) : (m.setG g f).grp i = m.grp i := if_neg h

theorem updAll_grp (m : WatchMem) (src : List Event) (ws : List Nat) : (m.updAll src ws).grp = m.grp := rfl
theorem setW_grp (m : WatchMem) (w : Nat) (f : WMem → WMem) : (m.setW w f).grp = m.grp := rfl
theorem setG_wat (m : WatchMem) (w : Nat) (f : GMem → GMem) : (m.setG w f).wat = m.wat := rfl

theorem upd_grp (x : WMem) (src : List Event) : (x.upd src).1.grp = x.grp := by
  unfold WMem.upd
  cases x.initialized
  · rfl
  · simp only [cond_true]
    cases decide ((0 : Int) < x.events.length) <;> rfl

/-! ### Sections -/

theorem run_update (g w : Nat) (src : List Event) (k : List V → Tw) (m : WatchMem) (hw : (m.wat w).grp = some g) :
    (updateT w src k).run o t (some g) m = (k ((m.wat w).upd src).2).run o t (some g) (m.setW w fun x => (x.upd src).1) := by
  have c : ∀ m' : WatchMem, (m'.wat w).grp = some g → ((some g : Option Nat) ≠ none ∧ (m'.wat w).grp = some g) := fun m' h => ⟨nofun, h⟩
  unfold updateT
  rw [Tw.run, if_pos (c m hw)]
  have hs : ∀ x' : WMem, (m.wat w).upd src = (x', ((m.wat w).upd src).2) → m.setW w (fun x => (x.upd src).1) = m.setW w fun _ => x' := by
    intro x' e
    unfold WatchMem.setW
    congr 1
    funext i
    dsimp only
    split
    · rename_i h; rw [h, e]
    · rfl
  have hid : m.setW w (fun _ => m.wat w) = m := by
    unfold WatchMem.setW
    have : (fun i => if i = w then m.wat w else m.wat i) = m.wat := by
      funext i
      split
      · rename_i h; rw [h]
      · rfl
    rw [this]
  have hset : ∀ l, m.setW w (fun x => { x with events := l }) = m.setW w fun _ => { m.wat w with events := l } := by
    intro l
    unfold WatchMem.setW
    congr 1
    funext i
    dsimp only
    split
    · rename_i h; rw [h]
    · rfl
  cases hi : (m.wat w).initialized
  · have e : (m.wat w).upd src = ({ m.wat w with events := (m.wat w).events ++ (appendEvents src (m.wat w).lo (m.wat w).hi).map encEvent }, []) :=
      upd_ff _ _ hi
    rw [hs _ (by rw [e]), e]
    simp only [cond_false, Tw.run, if_pos (c m hw)]
    rw [hset]
  · simp only [cond_true, Tw.run, if_pos (c m hw)]
    cases hl : decide ((0 : Int) < (m.wat w).events.length)
    · have e : (m.wat w).upd src = (m.wat w, (appendEvents src (m.wat w).lo (m.wat w).hi).map encEvent) :=
        upd_tf _ _ hi hl
      rw [hs _ (by rw [e]), e, hid]
      simp only [cond_false, Tw.run, if_pos (c m hw), List.nil_append]
    · have e : (m.wat w).upd src = ({ m.wat w with events := [] }, (m.wat w).events ++ (appendEvents src (m.wat w).lo (m.wat w).hi).map encEvent) :=
        upd_tt _ _ hi hl
      rw [hs _ (by rw [e]), e]
      simp only [cond_true, Tw.run, if_pos (c m hw)]
      rw [hset]
      have hw' : ((m.setW w fun _ => { m.wat w with events := [] }).wat w).grp = some g := by rw [setW_same]; exact hw
      simp only [if_pos (c _ hw'), setW_same]
      rw [if_pos (c m hw), if_pos (c m hw)]

theorem run_publishFold (g : Nat) (src : List Event) (K : List V → Tw) (l : List (Int × Nat)) :
    ∀ (m : WatchMem) (acc : List V), (∀ p ∈ l, (m.wat p.2).grp = some g) → (l.map (·.2)).Nodup →
      (foldW (publishStepT src) K l acc).run o t (some g) m = (K (acc ++ m.outs src l)).run o t (some g) (m.updAll src (l.map (·.2))) := by
  induction l with
  | nil =>
    intro m acc _ _
    have e : m.updAll src (([] : List (Int × Nat)).map (·.2)) = m := by
      unfold WatchMem.updAll
      simp
    rw [e]
    show (K acc).run o t (some g) m = (K (acc ++ [])).run o t (some g) m
    rw [List.append_nil]
  | cons p l ih =>
    intro m acc hg hn
    rw [List.map_cons, List.nodup_cons] at hn
    obtain ⟨hp, hn⟩ := hn
    show (updateT p.2 src fun x => cond (decide ((0 : Int) < x.length)) (foldW (publishStepT src) K l (acc ++ [updateV p.1 x])) (foldW (publishStepT src) K l acc)).run o t (some g) m = _
    rw [run_update g p.2 src _ m (hg p (by simp))]
    have hother : ∀ q ∈ l, ((m.setW p.2 fun x => (x.upd src).1).wat q.2) = m.wat q.2 := by
      intro q hq
      exact setW_other _ _ fun h => hp (h ▸ List.mem_map.2 ⟨q, hq, rfl⟩)
    have hg' : ∀ q ∈ l, ((m.setW p.2 fun x => (x.upd src).1).wat q.2).grp = some g := fun q hq => by
      rw [hother q hq]; exact hg q (by simp [hq])
    have houts : (m.setW p.2 fun x => (x.upd src).1).outs src l = m.outs src l := by
      unfold WatchMem.outs
      have : (l.map fun q => (q.1, (((m.setW p.2 fun x => (x.upd src).1).wat q.2).upd src).2)) = l.map fun q => (q.1, ((m.wat q.2).upd src).2) :=
        List.map_congr_left fun q hq => by rw [hother q hq]
      rw [this]
    have hall : (m.setW p.2 fun x => (x.upd src).1).updAll src (l.map (·.2)) = m.updAll src ((p :: l).map (·.2)) := by
      unfold WatchMem.updAll WatchMem.setW
      congr 1
      funext i
      dsimp only
      by_cases hi : i = p.2
      · subst hi
        rw [if_neg hp, if_pos rfl, if_pos (by simp)]
      · rw [if_neg hi]
        by_cases hl : i ∈ l.map (·.2)
        · rw [if_pos hl, if_pos (by rw [List.map_cons]; exact List.mem_cons_of_mem _ hl)]
        · rw [if_neg hl, if_neg (by rw [List.map_cons, List.mem_cons]; exact fun h => h.elim hi hl)]
    have ho : m.outs src (p :: l) = (bif decide ((0 : Int) < ((m.wat p.2).upd src).2.length) then [updateV p.1 ((m.wat p.2).upd src).2] else []) ++ m.outs src l := by
      unfold WatchMem.outs
      rw [List.map_cons, List.filter_cons]
      cases h : decide ((0 : Int) < ((m.wat p.2).upd src).2.length)
      · rfl
      · rfl
    cases h : decide ((0 : Int) < ((m.wat p.2).upd src).2.length)
    · rw [cond_false, ih _ acc hg' hn, houts, hall, ho, h]; rfl
    · rw [cond_true, ih _ _ hg' hn, houts, hall, ho, h, List.append_assoc]; rfl

/-- What `publish` does: the memory, and whether the update was sent. -/
def WatchMem.pub (m : WatchMem) (g : Nat) (rev : Int) (src : List Event) (l : List (Int × Nat)) : WatchMem × Bool :=
  if (m.grp g).closed > 0 then
    (((m.setG g fun x => { x with cur := rev }).updAll src (l.map (·.2))).setG g fun x => { x with panicked := true }, true)
  else if ((m.grp g).queue.length : Int) < (m.grp g).cap then
    (((m.setG g fun x => { x with cur := rev }).updAll src (l.map (·.2))).setG g fun x => { x with queue := x.queue ++ [groupUpdateV rev (m.outs src l)] }, true)
  else (((m.setG g fun x => { x with cur := rev }).updAll src (l.map (·.2))).setG g fun x => { x with dropped := true }, false)

theorem run_pub (g : Nat) (rev : Int) (src : List Event) (k : Bool → Tw) (m : WatchMem)
    (hg : ∀ p ∈ (m.grp g).watchers, (m.wat p.2).grp = some g) (hn : ((m.grp g).watchers.map (·.2)).Nodup) :
    (Tw.setCurRev g rev (.getWatchers g fun l => foldW (publishStepT src) (sendT g rev k) l [])).run o t (some g) m =
      (k (m.pub g rev src (o.watchers (m.grp g).watchers)).2).run o t none (m.pub g rev src (o.watchers (m.grp g).watchers)).1 := by
  have hp := o.watchers_perm (m.grp g).watchers
  rw [Tw.run, if_pos rfl, Tw.run, if_pos rfl, setG_same]
  rw [run_publishFold g src _ (o.watchers (m.grp g).watchers) (m.setG g fun x => { x with cur := rev }) []
    (fun p hm => hg p (hp.mem_iff.1 hm)) ((hp.map _).nodup_iff.2 hn)]
  generalize o.watchers (m.grp g).watchers = l
  rw [List.nil_append]
  have e : (m.setG g fun x => { x with cur := rev }).outs src l = m.outs src l := rfl
  rw [e]
  generalize hm1 : (m.setG g fun x => { x with cur := rev }).updAll src (l.map (·.2)) = m1
  have hc : (m1.grp g).closed = (m.grp g).closed := by rw [← hm1]; rw [updAll_grp, setG_same]
  have hq : (m1.grp g).queue = (m.grp g).queue := by rw [← hm1]; rw [updAll_grp, setG_same]
  have hcap : (m1.grp g).cap = (m.grp g).cap := by rw [← hm1]; rw [updAll_grp, setG_same]
  unfold sendT WatchMem.pub
  rw [Tw.run, hc, hq, hcap, hm1]
  by_cases h1 : (m.grp g).closed > 0
  · rw [if_pos h1, if_pos h1, Tw.run, if_pos rfl]
  · rw [if_neg h1, if_neg h1]
    by_cases h2 : ((m.grp g).queue.length : Int) < (m.grp g).cap
    · rw [if_pos h2, if_pos h2, Tw.run, if_pos rfl]
    · rw [if_neg h2, if_neg h2, Tw.run, if_pos rfl]

theorem run_pollT (n : Nat) (b : Bool) (m : WatchMem) (h : m.owner ≠ some t) : (pollT n b).run o t none m = (m, pollPause m.pollRev n b) := by
  cases n with
  | zero => show (m, _) = _; rw [if_pos ⟨rfl, h⟩]; rfl
  | succ n =>
    cases b with
    | true => show (m, _) = _; rw [if_pos ⟨rfl, h⟩]; rfl
    | false => show (m, _) = _; rw [if_pos ⟨rfl, h⟩]; rfl

theorem run_pubT_nil (src : List Event) (n : Nat) (b : Bool) (m : WatchMem) (h : m.owner = some t) :
    (pubT src (pollT n b) []).run o t none m = ({ m with owner := none }, pollPause m.pollRev n b) := by
  show (Tw.unlockS _).run o t none m = _
  rw [Tw.run, if_pos h, run_pollT n b _ (by exact nofun)]

theorem run_pubT_cons (src : List Event) (K : Tw) (g : Nat) (rest : List Nat) (m : WatchMem) :
    (pubT src K (g :: rest)).run o t none m = (m, pubAt src m.pollRev g rest K) := rfl

/-- The end of a section of `publishEvents`: the mutex is given up after the last group. -/
def WatchMem.pubEnd (m : WatchMem) : List Nat → WatchMem
  | [] => { m with owner := none }
  | _ :: _ => m

theorem run_pubT (src : List Event) (n : Nat) (b : Bool) (rest : List Nat) (m : WatchMem) (h : m.owner = some t) :
    (pubT src (pollT n b) rest).run o t none m = (m.pubEnd rest, pubPause src m.pollRev n b rest) := by
  cases rest with
  | nil => exact run_pubT_nil src n b m h
  | cons g rest => rfl

/-- What a section of `publishEvents` does when the update could not be sent. -/
def WatchMem.drop (m : WatchMem) (g a : Nat) : WatchMem :=
  { m with aft := fun i => if i = a then .stopped else m.aft i, map := m.map.filter fun x => decide (x ≠ g) }.setG g
    fun x => { x with closed := x.closed + 1, panicked := x.panicked || decide (x.closed > 0) }

/-- A section of `publishEvents`. -/
def WatchMem.pubDrop (m : WatchMem) (g a : Nat) (rev : Int) (src : List Event) (l : List (Int × Nat)) : WatchMem :=
  if (m.pub g rev src l).2 = true then (m.pub g rev src l).1
  else if m.aft a = .armed then (m.pub g rev src l).1.drop g a else (m.pub g rev src l).1

theorem pub_same (m : WatchMem) (g : Nat) (rev : Int) (src : List Event) (l : List (Int × Nat)) :
    (m.pub g rev src l).1.owner = m.owner ∧ (m.pub g rev src l).1.pollRev = m.pollRev ∧ (m.pub g rev src l).1.map = m.map ∧
    (m.pub g rev src l).1.aft = m.aft ∧ (m.pub g rev src l).1.body = m.body ∧ (m.pub g rev src l).1.ng = m.ng ∧ (m.pub g rev src l).1.nw = m.nw ∧
    (m.pub g rev src l).1.na = m.na ∧ ((m.pub g rev src l).1.grp g).stop = (m.grp g).stop ∧
    (m.pub g rev src l).1.wat = (fun i => if i ∈ l.map (·.2) then ((m.wat i).upd src).1 else m.wat i) ∧
    ∀ i, i ≠ g → (m.pub g rev src l).1.grp i = m.grp i := by
  have e : ∀ f : GMem → GMem, (∀ x, (f x).stop = x.stop) →
      (((((m.setG g fun x => { x with cur := rev }).updAll src (l.map (·.2))).setG g f).grp g).stop = (m.grp g).stop) ∧
      ∀ i, i ≠ g → ((((m.setG g fun x => { x with cur := rev }).updAll src (l.map (·.2))).setG g f).grp i) = m.grp i := by
    intro f hf
    refine ⟨?_, fun i hi => ?_⟩
    · rw [setG_same, hf]
      rw [updAll_grp, setG_same]
    · rw [setG_other _ _ hi]
      rw [updAll_grp, setG_other _ _ hi]
  unfold WatchMem.pub
  split
  · exact ⟨rfl, rfl, rfl, rfl, rfl, rfl, rfl, rfl, (e (fun x => { x with panicked := true }) fun _ => rfl).1, rfl, (e (fun x => { x with panicked := true }) fun _ => rfl).2⟩
  · split
    · exact ⟨rfl, rfl, rfl, rfl, rfl, rfl, rfl, rfl, (e (fun x => { x with queue := x.queue ++ [groupUpdateV rev (m.outs src l)] }) fun _ => rfl).1, rfl, (e (fun x => { x with queue := x.queue ++ [groupUpdateV rev (m.outs src l)] }) fun _ => rfl).2⟩
    · exact ⟨rfl, rfl, rfl, rfl, rfl, rfl, rfl, rfl, (e (fun x => { x with dropped := true }) fun _ => rfl).1, rfl, (e (fun x => { x with dropped := true }) fun _ => rfl).2⟩

theorem run_pubAt (g a : Nat) (rev : Int) (src : List Event) (n : Nat) (b : Bool) (rest : List Nat) (m : WatchMem) (ho : m.owner = some t)
    (hr : rev = m.pollRev) (hs : (m.grp g).stop = some a)
    (hg : ∀ p ∈ (m.grp g).watchers, (m.wat p.2).grp = some g) (hn : ((m.grp g).watchers.map (·.2)).Nodup) :
    ∃ k, pubAt src rev g rest (pollT n b) = .lockW g k ∧ k.run o t (some g) m =
      ((m.pubDrop g a rev src (o.watchers (m.grp g).watchers)).pubEnd rest, pubPause src rev n b rest) := by
  refine ⟨_, rfl, ?_⟩
  rw [run_pub g rev src _ m hg hn]
  generalize o.watchers (m.grp g).watchers = l
  obtain ⟨h1, h2, _, h4, _, _, _, _, h8, _, _⟩ := pub_same m g rev src l
  unfold WatchMem.pubDrop
  cases hb : (m.pub g rev src l).2
  · rw [cond_false, if_neg (by decide), Tw.run, h8, hs]
    dsimp only
    rw [h4]
    by_cases ha : m.aft a = .armed
    · rw [if_pos ha, if_pos ha, cond_true, Tw.run, if_pos (by exact h1.trans ho), Tw.run]
      rw [run_pubT _ _ _ _ _ (by exact h1.trans ho)]
      refine Prod.ext (by unfold WatchMem.drop; rw [h4]) ?_
      show pubPause src (m.pub g rev src l).1.pollRev n b rest = _
      rw [h2, hr]
    · rw [if_neg ha, if_neg ha, cond_false, run_pubT _ _ _ _ _ (h1.trans ho), h2, hr]
  · rw [cond_true, if_pos rfl, run_pubT _ _ _ _ _ (h1.trans ho), h2, hr]

/-- `publishEvents` gets the mutex of the backend. -/
theorem run_publishEvents (src : List Event) (n : Nat) (b : Bool) (m : WatchMem) (ho : m.owner = some t) :
    ∃ k, publishEventsT src (pollT n b) = .lockS k ∧ k.run o t none m =
      ({ m with pollRev := nextPollRevision m.pollRev src }.pubEnd (o.groups m.map),
        pubPause src (nextPollRevision m.pollRev src) n b (o.groups m.map)) := by
  refine ⟨_, rfl, ?_⟩
  unfold nextPollRevision
  cases src.getLast? with
  | none =>
    show (Tw.getGroups _).run o t none m = _
    rw [Tw.run, if_pos ho]
    exact run_pubT src n b _ m ho
  | some e =>
    show (Tw.setPollRev _ (.getGroups _)).run o t none m = _
    rw [Tw.run, if_pos ho, Tw.run, if_pos (by exact ho)]
    exact run_pubT src n b _ _ ho

/-- `WatcherGroup` gets the mutex. -/
def WatchMem.opened (m : WatchMem) : WatchMem :=
  { m.setG m.ng (fun _ => ⟨m.pollRev, [], 100, [], some m.na, 0, false, false, []⟩) with
    ng := m.ng + 1, na := m.na + 1, aft := fun i => if i = m.na then .armed else m.aft i
    body := fun i => if i = m.na then cancelT m.ng else m.body i
    map := m.map.filter (fun x => decide (x ≠ m.ng)) ++ [m.ng], owner := none }

theorem run_open (m : WatchMem) (ho : m.owner = some t) :
    ∃ k, openLockT = .lockS k ∧ k.run o t none m = (m.opened, .ret [groupV m.ng, .nil]) := by
  refine ⟨_, rfl, ?_⟩
  rw [Tw.run, Tw.run, Tw.run, Tw.run, Tw.run, if_pos (by exact ho), Tw.run, if_pos (by exact ho), Tw.run, if_pos ⟨rfl, by exact nofun⟩]
  refine Prod.ext ?_ rfl
  unfold WatchMem.opened WatchMem.setG
  dsimp only
  congr 1
  funext i
  split <;> rfl

/-- The `AfterFunc` of a group gets the mutex. -/
def WatchMem.cancelled (m : WatchMem) (g : Nat) : WatchMem :=
  { m with map := m.map.filter fun x => decide (x ≠ g), owner := none }.setG g
    fun x => { x with closed := x.closed + 1, panicked := x.panicked || decide (x.closed > 0) }

theorem run_cancel (g : Nat) (m : WatchMem) (ho : m.owner = some t) :
    ∃ k, cancelT g = .lockS k ∧ k.run o t none m = (m.cancelled g, .ret []) := by
  refine ⟨_, rfl, ?_⟩
  rw [Tw.run, if_pos (by exact ho), Tw.run, Tw.run, if_pos (by exact ho), Tw.run, if_pos ⟨rfl, by exact nofun⟩]
  rfl

/-- `Watch` registers. -/
def WatchMem.register (m : WatchMem) (g : Nat) (id : Int) (w : Nat) (i : Bool) : WatchMem :=
  (m.setG g fun x => { x with watchers := x.watchers.filter (fun p => decide (p.1 ≠ id)) ++ [(id, w)] }).setW w
    fun x => { x with grp := some g, initialized := x.initialized || i }

theorem run_watchLock (g : Nat) (id : Int) (lo hi : List UInt8) (start : Int) (w : Nat) (m : WatchMem) (ho : m.owner ≠ some t) :
    ∃ k, watchLockT g id lo hi start w = .lockW g k ∧ k.run o t (some g) m =
      (m.register g id w (decide ¬ start > 0),
        if start > 0 then watchCheckT g id lo hi start w (m.grp g).cur Driver.getCompactRevision else .ret [.nil]) := by
  refine ⟨_, rfl, ?_⟩
  rw [Tw.run, if_pos rfl]
  by_cases h : start > 0
  · rw [if_pos h, show decide (0 < start) = true by simpa using h, cond_true, Tw.run, if_pos rfl, Tw.run, if_pos rfl]
    unfold watchCheckT
    rw [Tw.run, if_pos ⟨rfl, by exact ho⟩]
    refine Prod.ext ?_ ?_
    · dsimp only
      unfold WatchMem.register
      refine setW_congr _ w ?_
      simp [h]
    · show Tw.check _ _ _ = Tw.check _ _ _
      have e : (((m.setG g fun x => { x with watchers := x.watchers.filter (fun p => decide (p.1 ≠ id)) ++ [(id, w)] }).setW w fun x => { x with grp := some g }).grp g).cur = (m.grp g).cur := by
        rw [setW_grp, setG_same]
      rw [e]
  · rw [if_neg h, show decide (0 < start) = false by simpa using h, cond_false, Tw.run,
      if_pos ⟨nofun, by rw [setW_same]⟩, Tw.run, if_pos rfl, Tw.run, if_pos ⟨rfl, by exact ho⟩]
    refine Prod.ext ?_ rfl
    dsimp only
    rw [setW_setW]
    unfold WatchMem.register
    refine setW_congr _ w ?_
    simp [h]

/-- `Watch` finishes. -/
def WatchMem.ready (m : WatchMem) (w : Nat) (es : List Event) : WatchMem :=
  m.setW w fun x => { x with events := es.map encEvent ++ x.events, initialized := true }

theorem run_watchRows (g w : Nat) (es : List Event) (m : WatchMem) (ho : m.owner ≠ some t) (hg : (m.wat w).grp = some g) :
    ∃ k, watchRowsT g w es = .lockW g k ∧ k.run o t (some g) m = (m.ready w es, .ret [.nil]) := by
  refine ⟨_, rfl, ?_⟩
  rw [Tw.run, if_pos ⟨nofun, hg⟩, Tw.run, if_pos ⟨nofun, hg⟩, Tw.run, if_pos ⟨nofun, by rw [setW_same]; exact hg⟩, Tw.run, if_pos rfl,
    Tw.run, if_pos ⟨rfl, by exact ho⟩]
  refine Prod.ext ?_ rfl
  dsimp only
  rw [setW_setW]
  exact setW_congr _ w rfl

/-- `Unwatch`, and `Watch` after a failed query. -/
def WatchMem.unwatch (m : WatchMem) (g : Nat) (id : Int) : WatchMem :=
  m.setG g fun x => { x with watchers := x.watchers.filter fun p => decide (p.1 ≠ id) }

theorem run_unwatch (g : Nat) (id : Int) (vs : List V) (m : WatchMem) (ho : m.owner ≠ some t) :
    (Tw.delWatcher g id (.unlockW g (.ret vs))).run o t (some g) m = (m.unwatch g id, .ret vs) := by
  rw [Tw.run, if_pos rfl, Tw.run, if_pos rfl, Tw.run, if_pos ⟨rfl, by exact ho⟩]
  rfl

end Verif.Go
