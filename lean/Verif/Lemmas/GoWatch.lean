import Verif.Lemmas.GoBackend
import Verif.Model.GoWatch
/-!
# What the texts of `/repo/pkg/backend/internal/backend/watcher.go` do
-/

namespace Verif.Go

open Verif.GoText

/-! ### Loops -/

/-- A loop with a state. -/
theorem loopW_eq {A : Type} (cnd : Store Ext → (V → Store Ext → Tw) → Tw) (body : Store Ext → (Store Ext → Tw) → (Store Ext → Tw) → Tw)
    (k : Store Ext → Tw) (st : A → Store Ext) (step : A → (A → Tw) → Tw)
    (h : ∀ a (K : Store Ext → Tw), (cnd (st a) fun c s => match c with | .bool b => bif b then body s K k else k s | _ => .stuck) = step a fun a' => K (st a')) :
    ∀ N a, loopW cnd body k N (st a) = Nat.rec (fun _ => .out) (fun _ r a => step a r) N a := by
  intro N
  induction N with
  | zero => intro a; rfl
  | succ n ih =>
    intro a
    refine (h a fun s => loopW cnd body k n s).trans ?_
    exact congrArg (step a) (funext ih)

/-- `range` with a state. -/
def foldW {α A : Type} (G : α → A → (A → Tw) → Tw) (K : A → Tw) : List α → A → Tw
  | [], a => K a
  | x :: l, a => G x a (foldW G K l)

theorem rangeW_eq {α A : Type} (enc : α → V) (st : A → Store Ext) (F : Nat → V → Store Ext → (Store Ext → Tw) → (Store Ext → Tw) → Tw) (k : Store Ext → Tw)
    (G : α → A → (A → Tw) → Tw) (h : ∀ i x a kc kb, F i (enc x) (st a) kc kb = G x a fun a' => kc (st a')) :
    ∀ l i a, rangeStd F k (l.map enc) i (st a) = foldW G (fun a => k (st a)) l a := by
  intro l
  induction l with
  | nil => intro i a; rfl
  | cons x l ih =>
    intro i a
    refine (h i x a _ _).trans ?_
    exact congrArg (G x a) (funext fun a' => ih (i + 1) a')

theorem cond_congrW {b : Bool} {x y x' y' : Tw} (h : x = x') (h' : y = y') : cond b x y = cond b x' y' := by rw [h, h']

/-! ### `Unwatch`, `notifyWatcherPoll`, `WatcherGroup` -/

theorem unwatch_tree (N g : Nat) (id : Int) : unwatchGo N g id = .lockW g (.delWatcher g id (.unlockW g (.ret []))) := by
  kernel_rfl

theorem notify_tree (N : Nat) (rev : Int) : notifyGo N rev = .notify rev (.ret []) (.ret []) := by
  kernel_rfl

/-- What runs when the context of a group is cancelled. -/
def cancelT (g : Nat) : Tw := .lockS (.delGroup g (.closeUpdates g (.unlockS (.ret []))))

theorem open_tree (N : Nat) : openGo N =
    .getPollRev fun _ => .lockS (.getPollRev fun rev => .newGroup rev 100 fun g => .after (cancelT g) fun a =>
      .setStop g a (.addGroup g (.unlockS (.ret [groupV g, .nil])))) := by
  unfold openGo goroutineW
  generalize hct : ctlW = ct
  go_nf
  refine congrArg Tw.getPollRev (funext fun cur => ?_)
  go_nf
  refine congrArg Tw.lockS ?_
  go_nf
  refine congrArg Tw.getPollRev (funext fun cur => ?_)
  go_nf
  refine congrArg (Tw.newGroup _ _) (funext fun cur => ?_)
  go_nf
  refine congr (congrArg Tw.after ?_) (funext fun cur => ?_)
  · kernel_rfl
  go_nf
  refine congrArg (Tw.setStop _ _) ?_
  go_nf
  refine congrArg (Tw.addGroup _) ?_
  kernel_rfl

/-! ### `Watch` -/

/-- `Watch` after the initial query. -/
def watchRowsT (g : Nat) (w : Nat) (es : List Event) : Tw :=
  .lockW g (.getEvents w fun l => .setEvents w (es.map encEvent ++ l) (.setInit w true (.unlockW g (.ret [.nil]))))

/-- `Watch` after a failed initial query. -/
def watchFailT (g : Nat) (id : Int) (e : ApiErr) : Tw := .lockW g (.delWatcher g id (.unlockW g (.ret [errV e])))

/-- `Watch` while the initial query is in progress. -/
def watchQueryT (g : Nat) (id : Int) (w : Nat) (p : Prog (Except ApiErr (List Row × Option Nat))) : Tw :=
  .rows p (fun r b => watchRowsT g w (scanAll scanEvent (r, b))) (watchFailT g id)

/-- `Watch` while the compact revision is read. -/
def watchCheckT (g : Nat) (id : Int) (lo hi : List UInt8) (start : Int) (w : Nat) (cur : Int) (p : Prog (Except ApiErr (Int × Int))) : Tw :=
  .check p (fun c r => cond (decide (start < c)) (.ret [compactedV c r]) (watchQueryT g id w (Driver.afterPrefix lo hi (start - 1) cur))) fun e => .ret [errV e]

/-- `Watch` in its first lock section. -/
def watchLockT (g : Nat) (id : Int) (lo hi : List UInt8) (start : Int) (w : Nat) : Tw :=
  .lockW g (.setWatcher g id w (cond (decide (0 < start))
    (.getCurRev g fun cur => .unlockW g (watchCheckT g id lo hi start w cur Driver.getCompactRevision))
    (.setInit w true (.unlockW g (.ret [.nil])))))

theorem initialEvents_tree (N n g : Nat) (lo hi : List UInt8) (a b : Int) (k : List V → Tw) :
    watchCalls ctlW N (n + 1) n!"WatcherGroup" n!"initialEvents" [groupV g, .tok, .bytes lo, .bytes hi, .int a, .int b] k =
      .rows (Driver.afterPrefix lo hi a b) (fun r b => k [.list ((scanAll scanEvent (r, b)).map encEvent), .nil]) fun e => k [.list [], errV e] := by
  generalize hct : ctlW = ct
  go_nf
  refine congr (congrArg (Tw.rows _) (funext fun r => funext fun b => ?_)) (funext fun e => ?_)
  · go_nf
    rfl
  · kernel_rfl

theorem watch_tree (N g : Nat) (id : Int) (lo hi : List UInt8) (start : Int) :
    watchGo N g id lo hi start = .newWatcher id lo hi fun w => watchLockT g id lo hi start w := by
  unfold watchGo goroutineW
  have hL := initialEvents_tree N 4 g lo hi
  refine Eq.trans (b := Watch.f_Watch.run (watchHost ctlW N (watchCalls ctlW N 5)) [groupV g, .int id, .bytes lo, .bytes hi, .int start] fun vs _ => .ret vs) (by kernel_rfl) ?_
  generalize watchCalls ctlW N 5 = L at hL ⊢
  generalize hct : ctlW = ct
  go_nf
  refine congrArg (Tw.newWatcher _ _ _) (funext fun w => ?_)
  go_nf
  refine congrArg (Tw.lockW _) ?_
  go_nf
  refine congrArg (Tw.setWatcher _ _ _) ?_
  go_nf
  refine cond_congrW ?_ (by subst hct; kernel_rfl)
  go_nf
  refine congrArg (Tw.getCurRev _) (funext fun cur => ?_)
  go_nf
  refine congrArg (Tw.unlockW _) ?_
  go_nf
  refine congr (congrArg (Tw.check _) (funext fun c => funext fun r => ?_)) (funext fun e => ?_)
  · go_nf
    refine cond_congrW (by kernel_rfl) ?_
    go_nf
    refine (hL _ _ _).trans ?_
    refine congr (congrArg (Tw.rows _) (funext fun r => funext fun b => ?_)) (funext fun e => ?_)
    · unfold watchRowsT
      generalize List.map encEvent (scanAll scanEvent (r, b)) = es
      go_nf
      refine congrArg (Tw.lockW _) ?_
      go_nf
      refine congrArg (Tw.getEvents _) (funext fun l => ?_)
      go_nf
      refine congrArg (Tw.setEvents _ _) ?_
      go_nf
      refine congrArg (Tw.setInit _ _) ?_
      kernel_rfl
    · go_nf
      refine congrArg (Tw.lockW _) ?_
      go_nf
      refine congrArg (Tw.delWatcher _ _) ?_
      go_nf
      refine congrArg (Tw.unlockW _) ?_
      cases e <;> first | kernel_rfl | (rename_i d; cases d <;> kernel_rfl)
  · kernel_rfl

/-! ### Publishing -/

/-- `update` of a watcher, and what comes after it with the events to send. -/
def updateT (w : Nat) (src : List Event) (k : List V → Tw) : Tw :=
  .getInit w fun b => cond b
    (.getEvents w fun l => cond (decide ((0 : Int) < l.length))
      (.getEvents w fun l => .setEvents w [] (.getKey w fun lo => .getRangeEnd w fun hi => k (l ++ (appendEvents src lo hi).map encEvent)))
      (.getKey w fun lo => .getRangeEnd w fun hi => k ([] ++ (appendEvents src lo hi).map encEvent)))
    (.getEvents w fun l => .getKey w fun lo => .getRangeEnd w fun hi => .setEvents w (l ++ (appendEvents src lo hi).map encEvent) (k []))

theorem cond_tW {b : Bool} {x y z : Tw} (hb : b = true) (h : x = z) : cond b x y = z := by rw [hb, ← h]; rfl
theorem cond_fW {b : Bool} {x y z : Tw} (hb : b = false) (h : y = z) : cond b x y = z := by rw [hb, ← h]; rfl

theorem appendEvents_tree (N n : Nat) (src : List Event) (dst : List V) (lo hi : List UInt8) (k : List V → Tw) :
    watchCalls ctlW N (n + 1) 0 n!"appendEvents" [.list (src.map encEvent), .list dst, .bytes lo, .bytes hi] k =
      k [.list (dst ++ (appendEvents src lo hi).map encEvent)] := by
  generalize hct : ctlW = ct
  have hr : ct.range = rangeStd := by rw [← hct]; rfl
  go_nf
  go_name F k'
  rw [hr]
  refine Eq.trans (rangeW_eq encEvent (fun acc : List V => { vars := [.list (src.map encEvent), .list acc, .bytes lo, .bytes hi, .list []] })
    F k' (fun e acc kk => kk (appendStep lo hi acc e)) ?_ src 0 dst) ?_
  · intro i e acc kc kb
    unfold appendStep
    rw [← cmpBytes_le, ← cmpBytes_gt]
    subst hF
    go_nf
    by_cases h1 : cmpBytes lo e.kv.key ≤ 0
    · refine cond_tW (by simpa using h1) ?_
      by_cases h2 : cmpBytes hi e.kv.key > 0
      · refine cond_tW (by simpa using h2) ?_
        simp only [h1, h2, decide_true, Bool.and_self, if_true]
      · refine cond_fW (by simpa using h2) ?_
        simp only [h2, decide_false, Bool.and_false, Bool.false_eq_true, if_false]
    · refine cond_fW (by simpa using h1) ?_
      simp only [h1, decide_false, Bool.false_and, Bool.false_eq_true, if_false]
  · have hf : ∀ (K : List V → Tw) (l : List Event) (a : List V), foldW (fun e acc kk => kk (appendStep lo hi acc e)) K l a = K (l.foldl (appendStep lo hi) a) := by
      intro K l
      induction l with
      | nil => intro a; rfl
      | cons x l ih => intro a; exact ih _
    rw [hf, foldl_appendStep]
    subst hk'
    kernel_rfl

theorem update_tree (N n w : Nat) (src : List Event) (k : List V → Tw) :
    watchCalls ctlW N (n + 2) n!"watcher" n!"update" [watcherV w, .list (src.map encEvent)] k = updateT w src fun l => k [.list l] := by
  have hL := appendEvents_tree N n src
  refine Eq.trans (b := Watch.f_update.run (watchHost ctlW N (watchCalls ctlW N (n + 1))) [watcherV w, .list (src.map encEvent)] fun vs _ => k vs) (by kernel_rfl) ?_
  generalize watchCalls ctlW N (n + 1) = L at hL ⊢
  generalize hct : ctlW = ct
  go_nf
  refine congrArg (Tw.getInit _) (funext fun b => ?_)
  cases b
  · go_nf
    refine congrArg (Tw.getEvents _) (funext fun l => ?_)
    go_nf
    refine congrArg (Tw.getKey _) (funext fun lo => ?_)
    go_nf
    refine congrArg (Tw.getRangeEnd _) (funext fun hi => ?_)
    go_nf
    refine (hL _ _ _ _).trans ?_
    generalize List.map encEvent (appendEvents src lo hi) = es
    kernel_rfl
  · go_nf
    refine congrArg (Tw.getEvents _) (funext fun l => ?_)
    go_nf
    refine cond_congrW ?_ ?_
    · go_nf
      refine congrArg (Tw.getEvents _) (funext fun l => ?_)
      go_nf
      refine congrArg (Tw.setEvents _ _) ?_
      go_nf
      refine congrArg (Tw.getKey _) (funext fun lo => ?_)
      go_nf
      refine congrArg (Tw.getRangeEnd _) (funext fun hi => ?_)
      go_nf
      refine (hL _ _ _ _).trans ?_
      generalize List.map encEvent (appendEvents src lo hi) = es
      kernel_rfl
    · go_nf
      refine congrArg (Tw.getKey _) (funext fun lo => ?_)
      go_nf
      refine congrArg (Tw.getRangeEnd _) (funext fun hi => ?_)
      go_nf
      refine (hL _ _ _ _).trans ?_
      generalize List.map encEvent (appendEvents src lo hi) = es
      kernel_rfl

/-- `limited.WatcherUpdate`. -/
def updateV (id : Int) (l : List V) : V := .struct n!"WatcherUpdate" [(n!"WatcherId", .int id), (n!"Events", .list l)]

/-- `*watcherGroupUpdate`. -/
def groupUpdateV (rev : Int) (us : List V) : V := msg n!"watcherGroupUpdate" [(n!"revision", .int rev), (n!"updates", .list us)]

/-- One iteration of the loop of `publish`. -/
def publishStepT (src : List Event) (p : Int × Nat) (acc : List V) (k : List V → Tw) : Tw :=
  updateT p.2 src fun l => cond (decide ((0 : Int) < l.length)) (k (acc ++ [updateV p.1 l])) (k acc)

/-- `publish` after the loop. -/
def sendT (g : Nat) (rev : Int) (k : Bool → Tw) (us : List V) : Tw :=
  .trySend g (groupUpdateV rev us) (.unlockW g (k true)) (.unlockW g (k false))

/-- The lock section of `publish`. -/
def publishLockT (g : Nat) (rev : Int) (src : List Event) (k : Bool → Tw) : Tw :=
  .lockW g (.setCurRev g rev (.getWatchers g fun l => foldW (publishStepT src) (sendT g rev k) l []))

theorem updateT_congr (w : Nat) (src : List Event) {k k' : List V → Tw} (h : ∀ l, k l = k' l) : updateT w src k = updateT w src k' := by
  rw [show k = k' from funext h]

theorem publish_tree (N n g : Nat) (rev : Int) (src : List Event) (k : List V → Tw) :
    watchCalls ctlW N (n + 3) n!"WatcherGroup" n!"publish" [groupV g, .int rev, .list (src.map encEvent)] k =
      .lenWatchers g fun _ => .lenUpdates g fun _ => publishLockT g rev src fun b => k [.bool b] := by
  have hL := fun w => update_tree N n w src
  refine Eq.trans (b := Watch.f_publish.run (watchHost ctlW N (watchCalls ctlW N (n + 2))) [groupV g, .int rev, .list (src.map encEvent)] fun vs _ => k vs) (by kernel_rfl) ?_
  generalize watchCalls ctlW N (n + 2) = L at hL ⊢
  generalize hct : ctlW = ct
  have hr : ct.range = rangeStd := by rw [← hct]; rfl
  go_nf
  refine congrArg (Tw.lenWatchers _) (funext fun _ => ?_)
  go_nf
  refine congrArg (Tw.lenUpdates _) (funext fun _ => ?_)
  go_nf
  refine congrArg (Tw.lockW _) ?_
  go_nf
  refine congrArg (Tw.setCurRev _ _) ?_
  go_nf
  refine congrArg (Tw.getWatchers _) (funext fun l => ?_)
  go_nf
  go_name F k'
  rw [hr]
  refine Eq.trans (rangeW_eq (fun p : Int × Nat => GV.list [.int p.1, watcherV p.2]) (fun acc : List V => { vars := [groupV g, .int rev, .list (src.map encEvent), .bool false, .tok, .list acc], defers := [.meth (.ext (.w (.gmutex g))) n!"Unlock" [], .meth .tok n!"End" []] })
    F k' (publishStepT src) ?_ l 0 []) ?_
  · intro i p acc kc kb
    subst hF
    go_nf
    refine (hL _ _).trans ?_
    refine updateT_congr _ _ fun l => ?_
    go_nf
    refine cond_congrW ?_ ?_
    · go_nf
      rfl
    · go_nf
      rfl
  · refine congrArg (fun K => foldW (publishStepT src) K l []) (funext fun us => ?_)
    subst hk'
    kernel_rfl

theorem getLatestEvents_tree (N n : Nat) (rev : Int) (k : List V → Tw) :
    watchCalls ctlW N (n + 1) n!"Backend" n!"getLatestEvents" [nodeV, .ext (.w .ctx), .int rev] k =
      .rows (Driver.after rev 500) (fun r b => k [.list ((scanAll scanEvent (r, b)).map encEvent), .nil]) fun e => k [.list [], errV e] := by
  generalize hct : ctlW = ct
  go_nf
  refine congr (congrArg (Tw.rows _) (funext fun r => funext fun b => ?_)) (funext fun e => ?_)
  · go_nf
    rfl
  · kernel_rfl


/-- `publishEvents` for one group. -/
def publishGroupT (src : List Event) (g : Nat) (_ : Unit) (k : Unit → Tw) : Tw :=
  .getPollRev fun rev => .lenWatchers g fun _ => .lenUpdates g fun _ => publishLockT g rev src fun b =>
    cond b (k ()) (.stop g fun st => cond st (.delGroup g (.closeUpdates g (k ()))) (k ()))

/-- `publishEvents` for all groups. -/
def publishGroupsT (src : List Event) (k : Tw) : Tw := .getGroups fun gs => foldW (publishGroupT src) (fun _ => .unlockS k) gs ()

/-- `publishEvents`. -/
def publishEventsT (src : List Event) (k : Tw) : Tw :=
  .lockS (match src.getLast? with
    | some e => .setPollRev e.kv.modRev (publishGroupsT src k)
    | none => publishGroupsT src k)

theorem nth_append {α : Type} (l : List α) (a : α) : nth (l ++ [a]) l.length = some a := by
  induction l with
  | nil => rfl
  | cons b l ih => exact ih

theorem idx_last (l : List V) (v : V) : idxV (.list (l ++ [v])) (.int ((l ++ [v]).length - 1)) = some v := by
  show (if (0 : Int) ≤ ((l ++ [v]).length : Int) - 1 then nth (l ++ [v]) (((l ++ [v]).length : Int) - 1).toNat else none) = some v
  have e : (((l ++ [v]).length : Int) - 1) = l.length := by simp
  rw [e, if_pos (by omega), Int.toNat_natCast]
  exact nth_append l v

theorem elim_some {α : Type} {o : Option α} {a : α} {n z : Tw} {f : α → Tw} (h : o = some a) (h' : f a = z) : Option.elim o n f = z := by rw [h]; exact h'

theorem publishLockT_congr (g : Nat) (rev : Int) (src : List Event) {k k' : Bool → Tw} (h : ∀ b, k b = k' b) : publishLockT g rev src k = publishLockT g rev src k' := by
  rw [show k = k' from funext h]

theorem publishEvents_tree (N n : Nat) (src : List Event) (k : List V → Tw) :
    watchCalls ctlW N (n + 4) n!"Backend" n!"publishEvents" [nodeV, .list (src.map encEvent)] k = publishEventsT src (k []) := by
  have hL := fun g rev => publish_tree N n g rev src
  refine Eq.trans (b := Watch.f_publishEvents.run (watchHost ctlW N (watchCalls ctlW N (n + 3))) [nodeV, .list (src.map encEvent)] fun vs _ => k vs) (by kernel_rfl) ?_
  generalize watchCalls ctlW N (n + 3) = L at hL ⊢
  have key : ∀ (ct : Control Ext Tw) (F : Nat → V → Store Ext → (Store Ext → Tw) → (Store Ext → Tw) → Tw) (k' : Store Ext → Tw) (gs : List Nat), ct.range = rangeStd →
      (∀ i g kc kb, F i (.list [groupV g, groupV g]) { vars := [nodeV, .list (src.map encEvent)], defers := [.meth (.ext (.w .mutex)) n!"Unlock" []] } kc kb =
        publishGroupT src g () fun _ => kc { vars := [nodeV, .list (src.map encEvent)], defers := [.meth (.ext (.w .mutex)) n!"Unlock" []] }) →
      k' { vars := [nodeV, .list (src.map encEvent)], defers := [.meth (.ext (.w .mutex)) n!"Unlock" []] } = .unlockS (k []) →
      ct.range F k' (gs.map fun g => .list [groupV g, groupV g]) 0 { vars := [nodeV, .list (src.map encEvent)], defers := [.meth (.ext (.w .mutex)) n!"Unlock" []] } =
        foldW (publishGroupT src) (fun _ => .unlockS (k [])) gs () := by
    intro ct F k' gs hr h h'
    rw [hr]
    refine Eq.trans (rangeW_eq (fun g : Nat => GV.list [groupV g, groupV g]) (fun _ : Unit => { vars := [nodeV, .list (src.map encEvent)], defers := [.meth (.ext (.w .mutex)) n!"Unlock" []] })
      F k' (publishGroupT src) (fun i g a kc kb => h i g kc kb) gs 0 ()) ?_
    exact congrArg (fun K => foldW (publishGroupT src) K gs ()) (funext fun _ => h')
  generalize hct : ctlW = ct
  have hr : ct.range = rangeStd := by rw [← hct]; rfl
  rcases List.eq_nil_or_concat src with h | ⟨init, e, h⟩
  · subst h
    go_nf
    refine congrArg Tw.lockS ?_
    go_nf
    refine congrArg Tw.getGroups (funext fun gs => ?_)
    go_nf
    go_name F k'
    refine key ct F k' gs hr ?_ ?_
    · intro i g kc kb
      subst hF
      go_nf
      refine congrArg Tw.getPollRev (funext fun rev => ?_)
      go_nf
      refine (hL _ _ _).trans ?_
      refine congrArg (Tw.lenWatchers _) (funext fun _ => congrArg (Tw.lenUpdates _) (funext fun _ => publishLockT_congr _ _ _ fun b => ?_))
      cases b
      · go_nf
        refine congrArg (Tw.stop _) (funext fun st => ?_)
        cases st
        · go_nf
          rfl
        · refine Eq.trans ?_ (cond_tW rfl rfl).symm
          go_nf
          refine congrArg (Tw.delGroup _) ?_
          go_nf
          refine congrArg (Tw.closeUpdates _) ?_
          go_nf
          rfl
      · go_nf
        rfl
    · subst hk'
      go_nf
      rfl
  · rw [List.concat_eq_append] at h
    have hg : src.getLast? = some e := by rw [h]; simp
    have hm : List.map encEvent src = List.map encEvent init ++ [encEvent e] := by rw [h]; simp
    clear h
    unfold publishEventsT
    rw [hg]
    generalize List.map encEvent src = es at *
    subst hm
    have hlen : 0 < ((List.map encEvent init ++ [encEvent e]).length : Int) := by simp
    have hidx := idx_last (List.map encEvent init) (encEvent e)
    generalize List.map encEvent init ++ [encEvent e] = es at *
    go_nf
    refine congrArg Tw.lockS ?_
    go_nf
    refine cond_tW (by simp; omega) ?_
    go_nf
    refine elim_some (a := encEvent e) hidx ?_
    go_nf
    refine congrArg (Tw.setPollRev _) ?_
    go_nf
    refine congrArg Tw.getGroups (funext fun gs => ?_)
    go_nf
    go_name F k'
    refine key ct F k' gs hr ?_ ?_
    · intro i g kc kb
      subst hF
      go_nf
      refine congrArg Tw.getPollRev (funext fun rev => ?_)
      go_nf
      refine (hL _ _ _).trans ?_
      refine congrArg (Tw.lenWatchers _) (funext fun _ => congrArg (Tw.lenUpdates _) (funext fun _ => publishLockT_congr _ _ _ fun b => ?_))
      cases b
      · go_nf
        refine congrArg (Tw.stop _) (funext fun st => ?_)
        cases st
        · go_nf
          rfl
        · refine Eq.trans ?_ (cond_tW rfl rfl).symm
          go_nf
          refine congrArg (Tw.delGroup _) ?_
          go_nf
          refine congrArg (Tw.closeUpdates _) ?_
          go_nf
          rfl
      · go_nf
        rfl
    · subst hk'
      go_nf
      rfl

/-- Does the poller end with this error? -/
def pollEnds : ApiErr → Bool
  | .db .deadline => true
  | .db .canceled => true
  | _ => false

/-- The poller while its query is in progress; `r` is the rest of the loop, given whether it has to wait. -/
def pollQueryT (b : Bool) (r : Bool → Tw) (p : Prog (Except ApiErr (List Row × Option Nat))) : Tw :=
  .rows p (fun rs br => publishEventsT (scanAll scanEvent (rs, br)) (r (decide (((scanAll scanEvent (rs, br)).length : Int) < 100))))
    fun e => cond (pollEnds e) (.ret []) (r b)

/-- An iteration of the poller. -/
def pollStepT (b : Bool) (r : Bool → Tw) : Tw :=
  cond b
    (.pollSelect (.ret []) (fun n => .getPollRev fun rev => cond (decide (n ≤ rev)) (r b) (.getPollRev fun rev => pollQueryT b r (Driver.after rev 500)))
      (.getPollRev fun rev => pollQueryT b r (Driver.after rev 500)))
    (.getPollRev fun rev => pollQueryT b r (Driver.after rev 500))

/-- The poller. -/
def pollT : Nat → Bool → Tw := Nat.rec (fun _ => .out) fun _ r b => pollStepT b r

theorem publishEventsT_congr (src : List Event) {k k' : Tw} (h : k = k') : publishEventsT src k = publishEventsT src k' := by rw [h]

theorem poll_tree (N : Nat) : pollGo N = pollT N true := by
  unfold pollGo goroutineW
  have hE := getLatestEvents_tree N 4
  have hP := publishEvents_tree N 1
  refine Eq.trans (b := Watch.f_poll.run (watchHost ctlW N (watchCalls ctlW N 5)) [nodeV, .ext (.w .ctx)] fun vs _ => .ret vs) (by kernel_rfl) ?_
  generalize watchCalls ctlW N 5 = L at hE hP ⊢
  generalize hct : ctlW = ct
  have hl : ct.loop = loopW := by rw [← hct]; rfl
  go_nf
  go_name F G k
  rw [hl]
  refine loopW_eq F G k (fun b : Bool => { vars := [nodeV, .ext (.w .ctx), .ext (.w .ticker), .bool b], defers := [.meth (.ext (.w .ticker)) n!"Stop" []] }) pollStepT ?_ N true
  have hq : ∀ (b : Bool) (p : Prog (Except ApiErr (List Row × Option Nat))) (r : Bool → Tw) (ok : List Row → Option Nat → Tw) (er : ApiErr → Tw),
      (∀ rs br, ok rs br = publishEventsT (scanAll scanEvent (rs, br)) (r (decide (((scanAll scanEvent (rs, br)).length : Int) < 100)))) →
      (∀ e, er e = cond (pollEnds e) (.ret []) (r b)) → Tw.rows p ok er = pollQueryT b r p := by
    intro b p r ok er h1 h2
    unfold pollQueryT
    rw [show ok = _ from funext fun rs => funext fun br => h1 rs br, show er = _ from funext h2]
  intro b K
  subst hF hG hk
  go_env
  cases b
  · go_env
    go_nf
    refine congrArg Tw.getPollRev (funext fun rev => ?_)
    go_env
    go_nf
    refine (hE _ _).trans ?_
    refine hq false _ _ _ _ (fun rs br => ?_) (fun e => ?_)
    · have hlen : ((List.map encEvent (scanAll scanEvent (rs, br))).length : Int) = (scanAll scanEvent (rs, br)).length := by simp
      have hP := hP (scanAll scanEvent (rs, br))
      rw [← hlen]
      generalize List.map encEvent (scanAll scanEvent (rs, br)) = es at hP ⊢
      go_env
      go_nf
      refine (hP _).trans (publishEventsT_congr _ ?_)
      go_env
      go_nf
      rfl
    · cases e <;> first | (go_env; go_nf; rfl) | (rename_i d; cases d <;> (go_env; go_nf; rfl))
  · go_env
    go_nf
    refine Eq.trans ?_ (cond_tW rfl rfl).symm
    refine congr (congr (congrArg Tw.pollSelect ?_) (funext fun m => ?_)) ?_
    · go_nf
      rfl
    · go_env
      go_nf
      refine congrArg Tw.getPollRev (funext fun rev0 => ?_)
      go_env
      go_nf
      refine cond_congrW ?_ ?_
      · go_nf
        rfl
      · go_env
        go_nf
        refine congrArg Tw.getPollRev (funext fun rev => ?_)
        go_env
        go_nf
        refine (hE _ _).trans ?_
        refine hq true _ _ _ _ (fun rs br => ?_) (fun e => ?_)
        · have hlen : ((List.map encEvent (scanAll scanEvent (rs, br))).length : Int) = (scanAll scanEvent (rs, br)).length := by simp
          have hP := hP (scanAll scanEvent (rs, br))
          rw [← hlen]
          generalize List.map encEvent (scanAll scanEvent (rs, br)) = es at hP ⊢
          go_env
          go_nf
          refine (hP _).trans (publishEventsT_congr _ ?_)
          go_env
          go_nf
          rfl
        · cases e <;> first | (go_env; go_nf; rfl) | (rename_i d; cases d <;> (go_env; go_nf; rfl))
    · go_env
      go_nf
      refine congrArg Tw.getPollRev (funext fun rev => ?_)
      go_env
      go_nf
      refine (hE _ _).trans ?_
      refine hq true _ _ _ _ (fun rs br => ?_) (fun e => ?_)
      · have hlen : ((List.map encEvent (scanAll scanEvent (rs, br))).length : Int) = (scanAll scanEvent (rs, br)).length := by simp
        have hP := hP (scanAll scanEvent (rs, br))
        rw [← hlen]
        generalize List.map encEvent (scanAll scanEvent (rs, br)) = es at hP ⊢
        go_env
        go_nf
        refine (hP _).trans (publishEventsT_congr _ ?_)
        go_env
        go_nf
        rfl
      · cases e <;> first | (go_env; go_nf; rfl) | (rename_i d; cases d <;> (go_env; go_nf; rfl))

end Verif.Go
