import Verif.Lemmas.Watch
/-!
# The invariant of the watch machinery
-/

namespace Verif

/-- The keys a watcher is interested in. -/
def Watcher.range (x : Watcher) : Bytes → Bool := inRange x.lo x.hi

/-- The revision after which a watcher gets everything. -/
def Watcher.from (x : Watcher) : Int :=
  if x.initialized = true ∧ x.start > 0 then min (x.start - 1) x.base else x.base

/-- The events sent on a group for an id. -/
def Group.sent (g : Group) (id : Int) : List Event := sentTo (g.received ++ g.queue) id

/-- State of a query program: in its retry loop, failed, or holding a result read from an earlier world. -/
inductive QState {β : Type} (sel : DB → β) (C : World → Option Nat → Prop) (w : World) :
    Prog (Except ApiErr (β × Option Nat)) → Prop where
  | loop (m : Nat) : QState sel C w (queryLoop sel m)
  | err (e : ApiErr) : QState sel C w (.ret (.error e))
  | got (wq : World) (tr : Option Nat) (i : Inv wq) (x : Ext wq w) (c : C wq tr) :
      QState sel C w (.ret (.ok (sel wq.db, tr)))

theorem QState.mono {β : Type} {sel : DB → β} {C C' : World → Option Nat → Prop} {w w' : World}
    {p : Prog (Except ApiErr (β × Option Nat))} (h : QState sel C w p) (hx : Ext w w')
    (hc : ∀ wq tr, Ext wq w → C wq tr → C' wq tr) : QState sel C' w' p := by
  cases h with
  | loop m => exact .loop m
  | err e => exact .err e
  | got wq tr i x c => exact .got wq tr i (x.trans hx) (hc wq tr x c)

/-- One statement of a query program. -/
theorem QState.exec {β : Type} {sel : DB → β} {C C' : World → Option Nat → Prop} {w : World}
    {eff : DB → DB} {k : Outcome → DB → Prog (Except ApiErr (β × Option Nat))} (i : Inv w)
    (h : QState sel C w (.stmt eff k)) (o : Outcome)
    (hc : ∀ tr, (o.isTrunc = false → tr = none) → C' w tr) :
    w.exec eff o = w ∧ QState sel C' w (k o w.db) := by
  generalize hp : Prog.stmt eff k = p at h
  cases h with
  | loop m =>
    cases m with
    | zero => simp [queryLoop] at hp
    | succ m =>
      simp only [queryLoop, Prog.stmt.injEq] at hp
      obtain ⟨rfl, rfl⟩ := hp
      refine ⟨i.exec_id o, ?_⟩
      cases o with
      | ok => exact .got w none i (Ext.refl i) (hc none (fun _ => rfl))
      | trunc n => exact .got w (some n) i (Ext.refl i) (hc (some n) (fun h => by simp [Outcome.isTrunc] at h))
      | fail e =>
        simp only
        split
        · exact .loop m
        · exact .err _
      | lost e =>
        simp only
        split
        · exact .loop m
        · exact .err _
  | err e => cases hp
  | got => cases hp

/-- What holds for a registered watcher. -/
structure WOk (ot : Bool) (w : World) (g : Group) (x : Watcher) : Prop where
  base_le : x.base ≤ g.currentRevision
  uninit : x.initialized = false → g.sent x.id = []
  sound : Sound w.hist x.range x.from g.currentRevision (g.sent x.id ++ x.events)
  full : ot = false → x.lossy = false → (g.dropped = false ∨ g.after = .stopped) →
    ∃ rest, Sound w.hist x.range x.from g.currentRevision (g.sent x.id ++ rest) ∧
      Covers w.hist x.range x.from g.currentRevision (g.sent x.id ++ rest) ∧
      (g.dropped = false → rest = x.events)

/-- The registered watcher of a call in progress. -/
structure Registered (g : Group) (a : WatchArgs) (x : Watcher) : Prop where
  mem : x ∈ g.watchers
  id : x.id = a.id
  lo : x.lo = a.lo
  hi : x.hi = a.hi
  start : x.start = a.start
  base : x.base = a.base
  uninit : x.initialized = false
  pos : a.start > 0
  ne : a.hi ≠ []

/-- The `Watch` call in progress. -/
def CallOk (w : World) (g : Group) : Prop :=
  match g.call with
  | .idle => True
  | .check a p => (∃ x, Registered g a x ∧ x.lossy = false) ∧
      WP (fun r w' => ∀ cr cur, r = .ok (cr, cur) → a.compactThen ≤ cr ∧ cr ≤ w'.db.compactRev ∧
        cur ≤ w'.hist.top) p w
  | .query a p => a.compactThen ≤ a.start ∧ ∃ x, Registered g a x ∧
      QState (fun db => afterSQLPrefix db a.lo (rangeEndOf a.lo a.hi) (a.start - 1) a.base)
        (fun wq tr => a.base ≤ wq.hist.top ∧ (x.lossy = false → wq.db.compactRev < a.start ∧ tr = none)) w p

/-- What holds for an answered `Watch` call. -/
def AnswerOk (w : World) (x : WatchArgs × WatchAnswer) : Prop :=
  x.1.start > 0 → (x.2 = .ok → x.1.compactThen ≤ x.1.start) ∧
    ∀ cr cur, x.2 = .compacted cr cur → x.1.start < cr ∧ cr ≤ w.db.compactRev ∧ cur ≤ w.hist.top

/-- Lifecycle of the channel of a group. -/
structure Life (g : Group) : Prop where
  closed : g.closed = if g.inMap then 0 else 1
  map : g.inMap = true ↔ (g.after = .armed ∨ g.after = .running)
  fine : g.panicked = false
  cap : g.queue.length ≤ updateCapacity
  drop : g.dropped = true → g.after ≠ .armed

/-- Invariant of a group, when the node has polled up to `pr`. -/
structure GroupInv (ot : Bool) (pr : Int) (w : World) (g : Group) : Prop where
  cur : g.currentRevision ≤ pr
  curMap : g.inMap = true → g.currentRevision = pr
  ids : g.watchers.Pairwise fun a b => a.id ≠ b.id
  used : ∀ x ∈ g.watchers, x.id ∈ g.used
  fresh : ∀ id, id ∉ g.used → g.sent id = []
  ok : ∀ x ∈ g.watchers, WOk ot w g x
  life : Life g
  call : CallOk w g
  answers : ∀ x ∈ g.answers, AnswerOk w x

/-- The poll query in progress. -/
def PollOk (w : World) (n : Node) : Prop :=
  match n.poll with
  | .querying p => QState (fun db => afterSQL db n.pollRevision pollBatchSize)
      (fun wq _ => n.overtaken = false → wq.db.compactRev ≤ n.pollRevision) w p
  | _ => True

/-- The invariant. -/
structure NInv (s : NSys) : Prop where
  sys : SysInv s.sys
  start : s.node.startRevision ≤ s.node.pollRevision
  le : s.node.pollRevision ≤ s.sys.world.hist.top
  nonneg : 0 ≤ s.node.startRevision
  pub : Sound s.sys.world.hist (fun _ => true) s.node.startRevision s.node.pollRevision s.node.published
  pubFull : s.node.overtaken = false →
    Covers s.sys.world.hist (fun _ => true) s.node.startRevision s.node.pollRevision s.node.published
  poll : PollOk s.sys.world s.node
  groups : ∀ g ∈ s.node.groups, GroupInv s.node.overtaken s.node.pollRevision s.sys.world g

/-! ## Interference -/

theorem WOk.ext {ot ot' : Bool} (hot : ot' = false → ot = false) {w w' : World} {g : Group} {x : Watcher}
    (i : Inv w) (hx : Ext w w') (hle : g.currentRevision ≤ w.hist.top) (h : WOk ot w g x) :
    WOk ot' w' g x where
  base_le := h.base_le
  uninit := h.uninit
  sound := h.sound.ext hx i.wf
  full := by
    intro h1 h2 h3
    obtain ⟨rest, a, b, c⟩ := h.full (hot h1) h2 h3
    exact ⟨rest, a.ext hx i.wf, b.ext hx hle, c⟩

theorem wp_ext_sys {α : Type} {Q : α → World → Prop} (hQ : ∀ a w w', Ext w w' → Q a w → Q a w') {p : Prog α}
    {w w' : World} (hx : Ext w w') (h : WP Q p w) : WP Q p w' := by
  cases p with
  | ret a => exact hQ a w w' hx h
  | stmt eff k => exact fun w'' hx' o => h w'' (hx.trans hx') o

theorem CallOk.ext {w w' : World} {g : Group} (hx : Ext w w') (h : CallOk w g) : CallOk w' g := by
  unfold CallOk at h ⊢
  split at h
  · trivial
  · refine ⟨h.1, wp_ext_sys ?_ hx h.2⟩
    intro r w₁ w₂ hx' hr cr cur e
    obtain ⟨a, b, c⟩ := hr cr cur e
    have := hx'.cr
    have := hx'.top
    exact ⟨a, by omega, by omega⟩
  · obtain ⟨h0, x, hr, hq⟩ := h
    exact ⟨h0, x, hr, hq.mono hx (fun _ _ _ h => h)⟩

theorem AnswerOk.ext {w w' : World} (hx : Ext w w') {x : WatchArgs × WatchAnswer} (h : AnswerOk w x) :
    AnswerOk w' x := by
  intro hp
  obtain ⟨h1, h2⟩ := h hp
  refine ⟨h1, fun cr cur e => ?_⟩
  obtain ⟨a, b, c⟩ := h2 cr cur e
  have := hx.cr
  have := hx.top
  exact ⟨a, by omega, by omega⟩

theorem GroupInv.ext {ot ot' : Bool} (hot : ot' = false → ot = false) {pr : Int} {w w' : World} {g : Group}
    (i : Inv w) (hx : Ext w w') (hle : pr ≤ w.hist.top) (h : GroupInv ot pr w g) : GroupInv ot' pr w' g where
  cur := h.cur
  curMap := h.curMap
  ids := h.ids
  used := h.used
  fresh := h.fresh
  ok := fun x hx' => (h.ok x hx').ext hot i hx (by have := h.cur; omega)
  life := h.life
  call := h.call.ext hx
  answers := fun x hx' => (h.answers x hx').ext hx

theorem PollOk.ext {w w' : World} {n : Node} (hx : Ext w w') (hp : PollOk w n) : PollOk w' n := by
  unfold PollOk at hp ⊢
  cases hn : n.poll with
  | querying p =>
    rw [hn] at hp
    exact QState.mono hp hx (fun _ _ _ h => h)
  | idle => trivial
  | dead => trivial

theorem NInv.ext {s s' : Sys} {n : Node} (h : NInv ⟨s, n⟩) (hs : SysInv s') (hx : Ext s.world s'.world) :
    NInv ⟨s', n⟩ where
  sys := hs
  start := h.start
  le := by have := hx.top; have := h.le; simp only at *; omega
  nonneg := h.nonneg
  pub := h.pub.ext hx h.sys.inv.wf
  pubFull := fun ho => (h.pubFull ho).ext hx h.le
  poll := h.poll.ext hx
  groups := fun g hg => (h.groups g hg).ext id h.sys.inv hx h.le

/-! ## Publishing -/

theorem Watcher.update_init {x : Watcher} (hi : x.initialized = true) (es : List Event) :
    x.update es = ({ x with events := [] }, x.events ++ appendEvents es x.lo x.hi) := by
  unfold Watcher.update
  rw [if_neg (by simp [hi])]
  split
  · rfl
  · rename_i h
    have : x.events = [] := List.eq_nil_of_length_eq_zero (by omega)
    cases x
    simp only at this
    subst this
    rfl

theorem Watcher.update_uninit {x : Watcher} (hi : x.initialized = false) (es : List Event) :
    x.update es = ({ x with events := x.events ++ appendEvents es x.lo x.hi }, []) := by
  unfold Watcher.update
  rw [if_pos hi]

theorem Watcher.update_id (x : Watcher) (es : List Event) : (x.update es).1.id = x.id := by
  cases h : x.initialized
  · rw [update_uninit h]
  · rw [update_init h]

/-- Sent and pending events together after an update: the new ones are appended. -/
theorem Watcher.update_total (x : Watcher) (es sent : List Event)
    (hs : x.initialized = false → sent = []) :
    (sent ++ (x.update es).2) ++ (x.update es).1.events = (sent ++ x.events) ++ appendEvents es x.lo x.hi := by
  cases h : x.initialized
  · rw [update_uninit h, hs h]; simp
  · rw [update_init h]; simp

theorem sentTo_append (us vs : List GroupUpdate) (id : Int) :
    sentTo (us ++ vs) id = sentTo us id ++ sentTo vs id := by
  simp [sentTo, List.flatMap_append]

theorem flatMap_filter_empty {α β : Type} (f : α → List β) (l : List α) :
    (l.filter fun x => decide ((f x).length > 0)).flatMap f = l.flatMap f := by
  induction l with
  | nil => rfl
  | cons a l ih =>
    rw [List.filter_cons]
    split
    · rw [List.flatMap_cons, List.flatMap_cons, ih]
    · rename_i h
      rw [List.flatMap_cons, ih]
      have : f a = [] := List.eq_nil_of_length_eq_zero (by simpa using h)
      rw [this]; rfl

theorem sentTo_update (ws : List Watcher) (rev : Int) (es : List Event) (id : Int) :
    sentTo [groupUpdate ws rev es] id = ((ws.filter fun x => decide (x.id = id)).flatMap fun x => (x.update es).2) := by
  unfold sentTo groupUpdate
  simp only [List.flatMap_cons, List.flatMap_nil, List.append_nil, List.filter_filter]
  induction ws with
  | nil => rfl
  | cons x ws ih =>
    simp only [List.map_cons, List.filter_cons]
    by_cases hid : x.id = id
    · by_cases hl : (x.update es).2.length > 0
      · simp [hid, hl, ih]
      · have : (x.update es).2 = [] := List.eq_nil_of_length_eq_zero (by omega)
        simp [hid, this, ih]
    · simp [hid, ih]

theorem filter_unique {ws : List Watcher} (hp : ws.Pairwise fun a b => a.id ≠ b.id) {x : Watcher}
    (hx : x ∈ ws) : ws.filter (fun y => decide (y.id = x.id)) = [x] := by
  induction ws with
  | nil => simp at hx
  | cons y ws ih =>
    rw [List.pairwise_cons] at hp
    rcases List.mem_cons.1 hx with rfl | hx'
    · have : ws.filter (fun y => decide (y.id = x.id)) = [] := by
        rw [List.filter_eq_nil_iff]
        intro z hz
        simpa using (hp.1 z hz).symm
      simp [this]
    · have hne := hp.1 x hx'
      rw [List.filter_cons, if_neg (by simpa using hne)]
      exact ih hp.2 hx'

theorem sentTo_update_mem {ws : List Watcher} (hp : ws.Pairwise fun a b => a.id ≠ b.id) {x : Watcher}
    (hx : x ∈ ws) (rev : Int) (es : List Event) :
    sentTo [groupUpdate ws rev es] x.id = (x.update es).2 := by
  rw [sentTo_update, filter_unique hp hx]
  simp

theorem sentTo_update_not {ws : List Watcher} {id : Int} (h : ∀ x ∈ ws, x.id ≠ id) (rev : Int)
    (es : List Event) : sentTo [groupUpdate ws rev es] id = [] := by
  rw [sentTo_update]
  have : ws.filter (fun y => decide (y.id = id)) = [] := by
    rw [List.filter_eq_nil_iff]
    intro z hz
    simpa using h z hz
  rw [this]; rfl

theorem Watcher.update_from (x : Watcher) (es : List Event) : (x.update es).1.from = x.from := by
  cases h : x.initialized
  · rw [update_uninit h]; rfl
  · rw [update_init h]; rfl

theorem Watcher.update_range (x : Watcher) (es : List Event) : (x.update es).1.range = x.range := by
  cases h : x.initialized
  · rw [update_uninit h]; rfl
  · rw [update_init h]; rfl

theorem Watcher.update_same (x : Watcher) (es : List Event) :
    let y := (x.update es).1
    y.lo = x.lo ∧ y.hi = x.hi ∧ y.start = x.start ∧ y.base = x.base ∧ y.lossy = x.lossy ∧
      y.initialized = x.initialized := by
  cases h : x.initialized
  · rw [update_uninit h]; simp [h]
  · rw [update_init h]; simp [h]

theorem Watcher.from_le (x : Watcher) : x.from ≤ x.base := by
  unfold Watcher.from
  split <;> omega

theorem publish_watchers (ws : List Watcher) (es : List Event) :
    (ws.Pairwise fun a b => a.id ≠ b.id) →
    (ws.map fun (x : Watcher) => (x.update es).1).Pairwise fun a b => a.id ≠ b.id := by
  intro h
  rw [List.pairwise_map]
  exact h.imp (fun hne => by rw [Watcher.update_id, Watcher.update_id]; exact hne)

/-- The call in progress does not care about a publish. -/
theorem CallOk.publish {w : World} {g g' : Group} (es : List Event) (hc : g'.call = g.call)
    (hw : g'.watchers = g.watchers.map fun (x : Watcher) => (x.update es).1) (h : CallOk w g) :
    CallOk w g' := by
  have reg : ∀ a x, Registered g a x → Registered g' a (x.update es).1 := by
    intro a x hr
    obtain ⟨h1, h2, h3, h4, h5, h6⟩ := x.update_same es
    exact ⟨by rw [hw]; exact List.mem_map_of_mem hr.mem, by rw [Watcher.update_id]; exact hr.id,
      h1.trans hr.lo, h2.trans hr.hi, h3.trans hr.start, h4.trans hr.base, h6.trans hr.uninit, hr.pos, hr.ne⟩
  unfold CallOk at h ⊢
  rw [hc]
  split at h
  · trivial
  · obtain ⟨⟨x, hr, hl⟩, hp⟩ := h
    exact ⟨⟨_, reg _ x hr, (x.update_same es).2.2.2.2.1.trans hl⟩, hp⟩
  · obtain ⟨h0, x, hr, hq⟩ := h
    refine ⟨h0, _, reg _ x hr, ?_⟩
    rw [(x.update_same es).2.2.2.2.1]
    exact hq

/-- Publishing to one group. -/
theorem GroupInv.publish {ot : Bool} {pr pr' : Int} {w : World} {g : Group} {es : List Event} (i : Inv w)
    (h : GroupInv ot pr w g) (hle : pr ≤ pr') (hs : Sound w.hist (fun _ => true) pr pr' es)
    (hc : ot = false → Covers w.hist (fun _ => true) pr pr' es) :
    GroupInv ot pr' w (if g.inMap then g.publishOrDrop pr' es else g) := by
  by_cases hm : ¬ g.inMap = true
  · rw [if_neg hm]
    exact ⟨by have := h.cur; omega, fun h' => absurd h' hm, h.ids, h.used, h.fresh, h.ok, h.life, h.call, h.answers⟩
  replace hm : g.inMap = true := by simpa using hm
  rw [if_pos hm]
  have hcur := h.curMap hm
  have hclosed : g.closed = 0 := by rw [h.life.closed, if_pos hm]
  -- the watchers afterwards
  generalize hws : (g.watchers.map fun (x : Watcher) => (x.update es).1) = ws
  have hids : ws.Pairwise fun a b => a.id ≠ b.id := by rw [← hws]; exact publish_watchers _ _ h.ids
  have hused : ∀ x ∈ ws, x.id ∈ g.used := by
    intro x hx
    rw [← hws] at hx
    obtain ⟨y, hy, rfl⟩ := List.mem_map.1 hx
    rw [Watcher.update_id]
    exact h.used y hy
  have htot : ∀ x ∈ g.watchers, ∀ sent, (x.initialized = false → sent = []) →
      Sound w.hist x.range x.from g.currentRevision (sent ++ x.events) →
      Sound w.hist x.range x.from pr' ((sent ++ x.events) ++ appendEvents es x.lo x.hi) := by
    intro x hx sent _ hso
    have hb := (h.ok x hx).base_le
    have hf := x.from_le
    exact hso.append (by rw [hcur]; exact appendEvents_sound hs) (by omega) (by omega)
  have hcov : ∀ x ∈ g.watchers, ot = false → ∀ sent,
      Covers w.hist x.range x.from g.currentRevision (sent ++ x.events) →
      Covers w.hist x.range x.from pr' ((sent ++ x.events) ++ appendEvents es x.lo x.hi) := by
    intro x hx ho sent hco
    exact hco.append (by rw [hcur]; exact appendEvents_covers i.wf hs (hc ho))
  by_cases hq : g.queue.length < updateCapacity
  · -- the update is sent
    have heq : g.publishOrDrop pr' es =
        { g with currentRevision := pr', watchers := ws, queue := g.queue ++ [groupUpdate g.watchers pr' es] } := by
      unfold Group.publishOrDrop Group.publish
      simp only [hclosed, hq, if_true, hws]
      rfl
    rw [heq]
    have hsent : ∀ id, sentTo (g.received ++ (g.queue ++ [groupUpdate g.watchers pr' es])) id =
        g.sent id ++ sentTo [groupUpdate g.watchers pr' es] id := by
      intro id
      unfold Group.sent
      rw [← List.append_assoc, sentTo_append]
    refine ⟨Int.le_refl _, fun _ => rfl, hids, hused, ?_, ?_, ?_, ?_, h.answers⟩
    · intro id hid
      change sentTo _ id = []
      have hne : ∀ x ∈ g.watchers, x.id ≠ id := by
        intro x hx e
        have := h.used x hx
        rw [e] at this
        exact hid this
      rw [hsent, h.fresh id hid, sentTo_update_not hne]
      rfl
    · intro y hy
      simp only at hy
      rw [← hws] at hy
      obtain ⟨x, hx, rfl⟩ := List.mem_map.1 hy
      have hok := h.ok x hx
      have hsx : sentTo (g.received ++ (g.queue ++ [groupUpdate g.watchers pr' es])) (x.update es).1.id =
          g.sent x.id ++ (x.update es).2 := by
        rw [Watcher.update_id, hsent, sentTo_update_mem h.ids hx]
      obtain ⟨u1, u2, u3, u4, u5, u6⟩ := x.update_same es
      refine ⟨?_, ?_, ?_, ?_⟩
      · have := hok.base_le
        change (x.update es).1.base ≤ pr'
        omega
      · intro hi
        change sentTo _ _ = []
        rw [hsx, hok.uninit (by rw [← u6]; exact hi)]
        rw [Watcher.update_uninit (by rw [← u6]; exact hi)]
        rfl
      · change Sound _ _ _ pr' (sentTo _ _ ++ _)
        rw [hsx, Watcher.update_range, Watcher.update_from, Watcher.update_total _ _ _ hok.uninit]
        exact htot x hx _ hok.uninit hok.sound
      · intro ho hlo hd
        change (g.dropped = false ∨ g.after = .stopped) at hd
        have hd' : g.dropped = false := by
          rcases hd with hd | hd
          · exact hd
          · rcases h.life.map.1 hm with h' | h' <;> rw [h'] at hd <;> cases hd
        obtain ⟨rest, r1, r2, r3⟩ := hok.full ho (by rw [← u5]; exact hlo) (Or.inl hd')
        have := r3 hd'
        subst this
        refine ⟨(x.update es).1.events, ?_, ?_, fun _ => rfl⟩
        · change Sound _ _ _ pr' (sentTo _ _ ++ _)
          rw [hsx, Watcher.update_range, Watcher.update_from, Watcher.update_total _ _ _ hok.uninit]
          exact htot x hx _ hok.uninit hok.sound
        · change Covers _ _ _ pr' (sentTo _ _ ++ _)
          rw [hsx, Watcher.update_range, Watcher.update_from, Watcher.update_total _ _ _ hok.uninit]
          exact hcov x hx ho _ r2
    · refine ⟨h.life.closed, h.life.map, h.life.fine, ?_, h.life.drop⟩
      change (g.queue ++ [_]).length ≤ _
      rw [List.length_append]
      simp only [List.length_cons, List.length_nil]
      omega
    · exact CallOk.publish (g := g) es rfl hws.symm h.call
  · -- the channel is full
    have hbase : ∀ (g' : Group), g'.currentRevision = pr' → g'.watchers = ws → g'.received = g.received →
        g'.queue = g.queue → g'.used = g.used → g'.dropped = true → g'.answers = g.answers → g'.call = g.call →
        (g'.after = .stopped → g.after = .armed) → Life g' → GroupInv ot pr' w g' := by
      intro g' e1 e2 e3 e4 e5 e6 e7 e8 e9 e10
      have hsent : ∀ id, g'.sent id = g.sent id := by
        intro id; unfold Group.sent; rw [e3, e4]
      refine ⟨by omega, fun _ => e1, by rw [e2]; exact hids, by rw [e2, e5]; exact hused, ?_, ?_, e10, ?_, ?_⟩
      · intro id hid
        rw [e5] at hid
        rw [hsent]; exact h.fresh id hid
      · intro y hy
        rw [e2, ← hws] at hy
        obtain ⟨x, hx, rfl⟩ := List.mem_map.1 hy
        have hok := h.ok x hx
        obtain ⟨u1, u2, u3, u4, u5, u6⟩ := x.update_same es
        refine ⟨?_, ?_, ?_, ?_⟩
        · have := hok.base_le
          rw [e1]; omega
        · intro hi
          rw [hsent, Watcher.update_id]
          exact hok.uninit (by rw [← u6]; exact hi)
        · rw [hsent, e1, Watcher.update_id, Watcher.update_range, Watcher.update_from]
          cases hi : x.initialized with
          | true =>
            rw [Watcher.update_init hi]
            simp only [List.append_nil]
            exact hok.sound.left.mono (Int.le_refl _) (by omega)
          | false =>
            rw [Watcher.update_uninit hi]
            simp only [← List.append_assoc]
            exact htot x hx _ hok.uninit hok.sound
        · intro ho hlo hd
          rw [e6] at hd
          have hst : g'.after = .stopped := by
            rcases hd with hd | hd
            · cases hd
            · exact hd
          have harm := e9 hst
          have hnd : g.dropped = false := by
            cases hdr : g.dropped with
            | false => rfl
            | true => exact absurd harm (h.life.drop hdr)
          obtain ⟨rest, r1, r2, r3⟩ := hok.full ho (by rw [← u5]; exact hlo) (Or.inl hnd)
          have := r3 hnd
          subst this
          refine ⟨x.events ++ appendEvents es x.lo x.hi, ?_, ?_, fun hf => by rw [e6] at hf; cases hf⟩
          · rw [hsent, e1, Watcher.update_id, Watcher.update_range, Watcher.update_from, ← List.append_assoc]
            exact htot x hx _ hok.uninit hok.sound
          · rw [hsent, e1, Watcher.update_id, Watcher.update_range, Watcher.update_from, ← List.append_assoc]
            exact hcov x hx ho _ r2
      · exact h.call.publish es e8 (e2.trans hws.symm)
      · rw [e7]; exact h.answers
    have hpub : g.publish pr' es =
        ({ g with currentRevision := pr', watchers := ws, dropped := true }, false) := by
      unfold Group.publish
      simp only [hclosed, hq, if_false, hws]
      rfl
    unfold Group.publishOrDrop
    rw [hpub]
    simp only
    rcases h.life.map.1 hm with ha | ha
    · rw [if_pos ha]
      refine hbase _ rfl rfl rfl rfl rfl rfl rfl rfl (fun _ => ha) ⟨?_, ?_, ?_, h.life.cap, ?_⟩
      · change g.closed + 1 = _
        rw [hclosed]; rfl
      · constructor
        · intro hc; cases hc
        · rintro (hc | hc) <;> cases hc
      · change (g.panicked || decide (g.closed > 0)) = false
        rw [h.life.fine, hclosed]; rfl
      · intro _ hc; cases hc
    · rw [if_neg (by rw [ha]; intro hc; cases hc)]
      refine hbase _ rfl rfl rfl rfl rfl rfl rfl rfl (fun hs => ?_) ⟨h.life.closed, h.life.map, h.life.fine, h.life.cap, ?_⟩
      · change g.after = _ at hs
        rw [ha] at hs; cases hs
      · intro _ hc
        change g.after = _ at hc
        rw [ha] at hc; cases hc

/-! ## Steps of a group -/

/-- A group that only differs in fields the invariant of watchers does not look at. -/
theorem WOk.congr {ot : Bool} {w : World} {g g' : Group} {x : Watcher} (h : WOk ot w g x)
    (e1 : g'.currentRevision = g.currentRevision) (e2 : ∀ id, g'.sent id = g.sent id)
    (e3 : g'.dropped = g.dropped) (e4 : g'.after = .stopped → g.after = .stopped) : WOk ot w g' x where
  base_le := by rw [e1]; exact h.base_le
  uninit := by rw [e2]; exact h.uninit
  sound := by rw [e1, e2]; exact h.sound
  full := by
    rw [e1, e2, e3]
    intro h1 h2 h3
    exact h.full h1 h2 (h3.imp id e4)

theorem CallOk.congr {w : World} {g g' : Group} (h : CallOk w g) (e1 : g'.call = g.call)
    (e2 : g'.watchers = g.watchers) : CallOk w g' := by
  have reg : ∀ a x, Registered g a x → Registered g' a x := fun a x hr =>
    ⟨by rw [e2]; exact hr.mem, hr.id, hr.lo, hr.hi, hr.start, hr.base, hr.uninit, hr.pos, hr.ne⟩
  unfold CallOk at h ⊢
  rw [e1]
  split at h
  · trivial
  · obtain ⟨⟨x, hr, hl⟩, hp⟩ := h
    exact ⟨⟨x, reg _ x hr, hl⟩, hp⟩
  · obtain ⟨h0, x, hr, hq⟩ := h
    exact ⟨h0, x, reg _ x hr, hq⟩

theorem removeWatcher_sub {ws : List Watcher} {id : Int} {x : Watcher} (h : x ∈ removeWatcher ws id) :
    x ∈ ws ∧ x.id ≠ id := by
  have := List.mem_filter.1 h
  exact ⟨this.1, by simpa using this.2⟩

theorem mem_updateWatcher {ws : List Watcher} {id : Int} {f : Watcher → Watcher} {y : Watcher}
    (h : y ∈ updateWatcher ws id f) : ∃ x ∈ ws, (x.id = id ∧ y = f x) ∨ (x.id ≠ id ∧ y = x) := by
  obtain ⟨x, hx, rfl⟩ := List.mem_map.1 h
  refine ⟨x, hx, ?_⟩
  by_cases hid : x.id = id
  · left; simp [hid]
  · right; simp [hid]

theorem updateWatcher_ids {ws : List Watcher} {id : Int} {f : Watcher → Watcher} (hf : ∀ x, (f x).id = x.id)
    (h : ws.Pairwise fun a b => a.id ≠ b.id) :
    (updateWatcher ws id f).Pairwise fun a b => a.id ≠ b.id := by
  unfold updateWatcher
  rw [List.pairwise_map]
  refine h.imp ?_
  intro a b hne
  have : ∀ x : Watcher, (if x.id = id then f x else x).id = x.id := by
    intro x; split
    · exact hf x
    · rfl
  rw [this, this]; exact hne

theorem Ext.of_eq {w w' : World} (i : Inv w) (h : w' = w) : Ext w w' := by rw [h]; exact Ext.refl i

/-- Every step of a group keeps its invariant; the world only evolves. -/
theorem GroupInv.step {ot : Bool} {pr : Int} {w w' : World} {g g' : Group} (i : Inv w) (hle : pr ≤ w.hist.top)
    (h : GroupInv ot pr w g) (st : GroupStep w g w' g') : Ext w w' ∧ GroupInv ot pr w' g' := by
  have hr : Ext w w := Ext.refl i
  cases st with
  | watch id lo hi start idle fresh ne =>
    refine ⟨hr, ?_⟩
    generalize ha : (⟨id, lo, hi, start, g.currentRevision, w.db.compactRev⟩ : WatchArgs) = a
    have hwid : a.watcher.id = id := by rw [← ha]; rfl
    have hids : (removeWatcher g.watchers id ++ [a.watcher]).Pairwise fun a b => a.id ≠ b.id := by
      refine List.pairwise_append.2 ⟨h.ids.filter _, by simp, ?_⟩
      intro x hx y hy
      simp only [List.mem_singleton] at hy
      rw [hy, hwid]
      exact (removeWatcher_sub hx).2
    have hnew : ∀ g' : Group, (∀ id, g'.sent id = g.sent id) → g'.currentRevision = g.currentRevision →
        WOk ot w g' a.watcher := by
      intro g' e1 e2
      have hs : g.sent id = [] := h.fresh id fresh
      have hfrom : g.currentRevision ≤ a.watcher.from := by
        rw [← ha]
        unfold Watcher.from WatchArgs.watcher
        simp only [decide_eq_true_eq]
        split
        · rename_i hc; exact absurd hc.2 hc.1
        · exact Int.le_refl _
      refine ⟨?_, ?_, ?_, ?_⟩
      · rw [e2, ← ha]; exact Int.le_refl _
      · intro _; rw [e1, hwid, hs]
      · rw [e1, hwid, hs, e2]
        rw [← ha]
        exact Sound.nil
      · intro _ _ _
        refine ⟨[], ?_, ?_, ?_⟩
        · rw [e1, hwid, hs]; exact Sound.nil
        · rw [e1, hwid, hs, e2]
          exact Covers.nil hfrom
        · intro _; rw [← ha]; rfl
    have hmem : a.watcher ∈ removeWatcher g.watchers id ++ [a.watcher] := by simp
    have hok : ∀ g' : Group, (∀ id, g'.sent id = g.sent id) → g'.currentRevision = g.currentRevision →
        g'.dropped = g.dropped → g'.after = g.after → ∀ x ∈ removeWatcher g.watchers id ++ [a.watcher],
        WOk ot w g' x := by
      intro g' e1 e2 e3 e4 x hx
      rcases List.mem_append.1 hx with hx | hx
      · exact (h.ok x (removeWatcher_sub hx).1).congr e2 e1 e3 (by rw [e4]; exact fun h => h)
      · simp only [List.mem_singleton] at hx
        rw [hx]; exact hnew g' e1 e2
    have husd : ∀ x ∈ removeWatcher g.watchers id ++ [a.watcher], x.id ∈ g.used ++ [id] := by
      intro x hx
      rcases List.mem_append.1 hx with hx | hx
      · exact List.mem_append.2 (Or.inl (h.used x (removeWatcher_sub hx).1))
      · simp only [List.mem_singleton] at hx
        rw [hx, hwid]; simp
    have hfr : ∀ j, j ∉ g.used ++ [id] → g.sent j = [] :=
      fun j hj => h.fresh j (fun hc => hj (List.mem_append.2 (Or.inl hc)))
    unfold Group.watch
    simp only [ha]
    split
    · rename_i hpos
      refine ⟨h.cur, h.curMap, hids, husd, hfr, hok _ (fun _ => rfl) rfl rfl rfl, 
        ⟨h.life.closed, h.life.map, h.life.fine, h.life.cap, h.life.drop⟩, ?_, h.answers⟩
      unfold CallOk
      simp only
      constructor
      · refine ⟨a.watcher, ⟨hmem, rfl, rfl, rfl, rfl, rfl, ?_, by rw [← ha]; exact hpos, by rw [← ha]; exact ne⟩, rfl⟩
        rw [← ha]
        simp [WatchArgs.watcher, hpos]
      · apply wp_getCompactRevision i
        · intro w₁ hx cr cur e
          cases e
          refine ⟨?_, Int.le_refl _, Int.le_refl _⟩
          rw [← ha]
          exact hx.cr
        · intro w₁ e _ cr cur he
          cases he
    · rename_i hpos
      refine ⟨h.cur, h.curMap, hids, husd, hfr, hok _ (fun _ => rfl) rfl rfl rfl,
        ⟨h.life.closed, h.life.map, h.life.fine, h.life.cap, h.life.drop⟩, ?_, ?_⟩
      · unfold CallOk
        simp only [idle]
      · intro x hx
        rcases List.mem_append.1 hx with hx | hx
        · exact h.answers x hx
        · simp only [List.mem_singleton] at hx
          rw [hx]
          intro hp
          rw [← ha] at hp
          exact absurd hp hpos
  | checkExec a eff k o c =>
    have hc := h.call
    unfold CallOk at hc
    rw [c] at hc
    obtain ⟨hreg, hwp⟩ := hc
    obtain ⟨hx, hwp'⟩ := hwp w hr o
    have h' := h.ext (ot' := ot) id i hx hle
    refine ⟨hx, h'.cur, h'.curMap, h'.ids, h'.used, h'.fresh, ?_,
      ⟨h.life.closed, h.life.map, h.life.fine, h.life.cap, h.life.drop⟩, ?_, h'.answers⟩
    · intro x hx'
      exact (h'.ok x hx').congr rfl (fun _ => rfl) rfl id
    · obtain ⟨x, hreg, hl⟩ := hreg
      exact ⟨⟨x, ⟨hreg.mem, hreg.id, hreg.lo, hreg.hi, hreg.start, hreg.base, hreg.uninit, hreg.pos, hreg.ne⟩, hl⟩, hwp'⟩
  | checked a r c =>
    refine ⟨hr, ?_⟩
    have hc := h.call
    unfold CallOk at hc
    rw [c] at hc
    obtain ⟨⟨x, hreg, hl⟩, hwp⟩ := hc
    have hans : ∀ ans : WatchAnswer, AnswerOk w (a, ans) → ∀ y ∈ g.answers ++ [(a, ans)], AnswerOk w y := by
      intro ans ha y hy
      rcases List.mem_append.1 hy with hy | hy
      · exact h.answers y hy
      · simp only [List.mem_singleton] at hy
        rw [hy]; exact ha
    have hok : ∀ g' : Group, (∀ id, g'.sent id = g.sent id) → g'.currentRevision = g.currentRevision →
        g'.dropped = g.dropped → g'.after = g.after → ∀ x ∈ g.watchers, WOk ot w g' x := by
      intro g' e1 e2 e3 e4 x hx
      exact (h.ok x hx).congr e2 e1 e3 (by rw [e4]; exact fun h => h)
    have hlife : ∀ cl an, Life { g with call := cl, answers := an } :=
      fun cl an => ⟨h.life.closed, h.life.map, h.life.fine, h.life.cap, h.life.drop⟩
    unfold Group.checked
    split
    · refine ⟨h.cur, h.curMap, h.ids, h.used, h.fresh, hok _ (fun _ => rfl) rfl rfl rfl, hlife _ _, trivial, ?_⟩
      apply hans
      intro _
      exact ⟨fun e => (by cases e), fun _ _ e => (by cases e)⟩
    · rename_i cr cur
      obtain ⟨q1, q2, q3⟩ := hwp cr cur rfl
      split
      · rename_i hlt
        refine ⟨h.cur, h.curMap, h.ids, h.used, h.fresh, hok _ (fun _ => rfl) rfl rfl rfl, hlife _ _, trivial, ?_⟩
        apply hans
        intro _
        refine ⟨fun e => (by cases e), fun cr' cur' e => ?_⟩
        cases e
        exact ⟨hlt, q2, q3⟩
      · rename_i hge
        refine ⟨h.cur, h.curMap, h.ids, h.used, h.fresh, hok _ (fun _ => rfl) rfl rfl rfl,
          ⟨h.life.closed, h.life.map, h.life.fine, h.life.cap, h.life.drop⟩, ?_, h.answers⟩
        refine ⟨by omega, x, ⟨hreg.mem, hreg.id, hreg.lo, hreg.hi, hreg.start, hreg.base, hreg.uninit, hreg.pos, hreg.ne⟩, ?_⟩
        exact QState.loop maxRetries
  | queryExec a eff k o c =>
    have hc := h.call
    unfold CallOk at hc
    rw [c] at hc
    obtain ⟨h0, x, hreg, hq⟩ := hc
    -- the ghost update of the watcher
    let f : Watcher → Watcher := fun y =>
      { y with lossy := y.lossy || decide (a.start ≤ w.db.compactRev) || o.isTrunc }
    have hbase : a.base ≤ w.hist.top := by
      have h1 := (h.ok x hreg.mem).base_le
      have h2 := h.cur
      rw [hreg.base] at h1
      omega
    have hstep := hq.exec i o (C' := fun wq tr => a.base ≤ wq.hist.top ∧
        ((f x).lossy = false → wq.db.compactRev < a.start ∧ tr = none)) (by
      intro tr htr
      refine ⟨hbase, fun hl => ?_⟩
      change (x.lossy || decide (a.start ≤ w.db.compactRev) || o.isTrunc) = false at hl
      simp only [Bool.or_eq_false_iff, decide_eq_false_iff_not] at hl
      exact ⟨by omega, htr hl.2⟩)
    obtain ⟨hw, hq'⟩ := hstep
    rw [hw]
    refine ⟨hr, h.cur, h.curMap, ?_, ?_, h.fresh, ?_,
      ⟨h.life.closed, h.life.map, h.life.fine, h.life.cap, h.life.drop⟩, ?_, h.answers⟩
    · exact updateWatcher_ids (fun _ => rfl) h.ids
    · intro y hy
      obtain ⟨z, hz, ⟨_, rfl⟩ | ⟨_, rfl⟩⟩ := mem_updateWatcher hy
      · exact h.used z hz
      · exact h.used _ hz
    · intro y hy
      obtain ⟨z, hz, ⟨_, rfl⟩ | ⟨_, rfl⟩⟩ := mem_updateWatcher hy
      · have hok := h.ok z hz
        refine ⟨hok.base_le, hok.uninit, hok.sound, ?_⟩
        intro h1 h2 h3
        have hl : z.lossy = false := by
          change (z.lossy || decide (a.start ≤ w.db.compactRev) || o.isTrunc) = false at h2
          simp only [Bool.or_eq_false_iff] at h2
          exact h2.1.1
        exact hok.full h1 hl h3
      · exact (h.ok _ hz).congr rfl (fun _ => rfl) rfl id
    · refine ⟨h0, f x, ⟨?_, hreg.id, hreg.lo, hreg.hi, hreg.start, hreg.base, hreg.uninit, hreg.pos, hreg.ne⟩, hq'⟩
      exact List.mem_map.2 ⟨x, hreg.mem, by simp [hreg.id, f]⟩
  | queried a r c =>
    refine ⟨hr, ?_⟩
    have hc := h.call
    unfold CallOk at hc
    rw [c] at hc
    obtain ⟨h0, x, hreg, hq⟩ := hc
    have hans : ∀ ans : WatchAnswer, AnswerOk w (a, ans) → ∀ y ∈ g.answers ++ [(a, ans)], AnswerOk w y := by
      intro ans ha y hy
      rcases List.mem_append.1 hy with hy | hy
      · exact h.answers y hy
      · simp only [List.mem_singleton] at hy
        rw [hy]; exact ha
    have hlife : ∀ ws cl an, Life { g with watchers := ws, call := cl, answers := an } :=
      fun ws cl an => ⟨h.life.closed, h.life.map, h.life.fine, h.life.cap, h.life.drop⟩
    unfold Group.queried
    split
    · refine ⟨h.cur, h.curMap, h.ids.filter _, fun y hy => h.used y (removeWatcher_sub hy).1, h.fresh, ?_,
        hlife _ _ _, trivial, ?_⟩
      · intro y hy
        exact (h.ok y (removeWatcher_sub hy).1).congr rfl (fun _ => rfl) rfl id
      · apply hans
        intro _
        exact ⟨fun e => (by cases e), fun _ _ e => (by cases e)⟩
    · rename_i rows
      generalize hp : (Prog.ret (Except.ok rows) : Prog (Except ApiErr (List Row × Option Nat))) = p at hq
      have hgot : ∃ wq tr, Inv wq ∧ Ext wq w ∧ (a.base ≤ wq.hist.top ∧
          (x.lossy = false → wq.db.compactRev < a.start ∧ tr = none)) ∧
          rows = (afterSQLPrefix wq.db a.lo (rangeEndOf a.lo a.hi) (a.start - 1) a.base, tr) := by
        cases hq with
        | loop m => cases m <;> simp [queryLoop] at hp
        | err e => cases hp
        | got wq tr iq xq cq =>
          cases hp
          exact ⟨wq, tr, iq, xq, cq, rfl⟩
      obtain ⟨wq, tr, iq, xq, ⟨cb, cl⟩, rfl⟩ := hgot
      obtain ⟨es1, es2⟩ := iq.initial_events a.lo a.hi hreg.ne (a.start - 1) a.base tr
      generalize scanAll scanEvent (afterSQLPrefix wq.db a.lo (rangeEndOf a.lo a.hi) (a.start - 1) a.base, tr) = ini
        at es1 es2
      have hini := es1.ext xq iq.wf
      refine ⟨h.cur, h.curMap, updateWatcher_ids (fun _ => rfl) h.ids, ?_, h.fresh, ?_, hlife _ _ _, trivial, ?_⟩
      · intro y hy
        obtain ⟨z, hz, ⟨_, rfl⟩ | ⟨_, rfl⟩⟩ := mem_updateWatcher hy
        · exact h.used z hz
        · exact h.used _ hz
      · intro y hy
        obtain ⟨z, hz, ⟨hzid, rfl⟩ | ⟨_, rfl⟩⟩ := mem_updateWatcher hy
        · have hzx : z = x := by
            have h1 := filter_unique h.ids hreg.mem
            have h2 : z ∈ g.watchers.filter fun y => decide (y.id = x.id) :=
              List.mem_filter.2 ⟨hz, by simp [hzid, hreg.id]⟩
            rw [h1] at h2
            simpa using h2
          subst hzx
          have hok := h.ok z hz
          have hs0 := hok.uninit hreg.uninit
          have hfrom0 : z.from = a.base := by
            unfold Watcher.from
            rw [if_neg (by simp [hreg.uninit]), hreg.base]
          have hrange : z.range = inRange a.lo a.hi := by unfold Watcher.range; rw [hreg.lo, hreg.hi]
          have hfrom1 : Watcher.from { z with events := ini ++ z.events, initialized := true } =
              min (a.start - 1) a.base := by
            unfold Watcher.from
            simp only [true_and]
            rw [if_pos (by rw [hreg.start]; exact hreg.pos), hreg.start, hreg.base]
          have hbl := hok.base_le
          rw [hreg.base] at hbl
          -- initial events followed by events collected since
          have hso : ∀ rest, Sound w.hist z.range z.from g.currentRevision rest →
              Sound w.hist (inRange a.lo a.hi) (min (a.start - 1) a.base) g.currentRevision (ini ++ rest) := by
            intro rest hsr
            rw [hfrom0, hrange] at hsr
            by_cases hcmp : a.start - 1 ≤ a.base
            · rw [Int.min_eq_left hcmp]
              exact hini.append hsr hcmp hbl
            · have := hini.empty (by omega)
              subst this
              rw [Int.min_eq_right (by omega)]
              exact hsr
          have hco : z.lossy = false → ∀ rest, Covers w.hist z.range z.from g.currentRevision rest →
              Covers w.hist (inRange a.lo a.hi) (min (a.start - 1) a.base) g.currentRevision (ini ++ rest) := by
            intro hlo rest hcr
            rw [hfrom0, hrange] at hcr
            obtain ⟨c1, c2⟩ := cl hlo
            have hc := (es2 (by omega) c2).ext xq (by omega)
            by_cases hcmp : a.start - 1 ≤ a.base
            · rw [Int.min_eq_left hcmp]
              exact hc.append hcr
            · have := hini.empty (by omega)
              subst this
              rw [Int.min_eq_right (by omega)]
              exact hcr
          refine ⟨hok.base_le, ?_, ?_, ?_⟩
          · intro hf; cases hf
          · rw [hfrom1]
            change Sound w.hist z.range _ g.currentRevision (g.sent z.id ++ (ini ++ z.events))
            rw [hs0, hrange]
            have := hok.sound
            rw [hs0] at this
            exact hso _ this
          · intro h1 h2 h3
            obtain ⟨rest, r1, r2, r3⟩ := hok.full h1 h2 h3
            rw [hs0] at r1 r2
            refine ⟨ini ++ rest, ?_, ?_, fun hd => by rw [r3 hd]⟩
            · rw [hfrom1]
              change Sound w.hist z.range _ g.currentRevision (g.sent z.id ++ (ini ++ rest))
              rw [hs0, hrange]
              exact hso _ r1
            · rw [hfrom1]
              change Covers w.hist z.range _ g.currentRevision (g.sent z.id ++ (ini ++ rest))
              rw [hs0, hrange]
              exact hco h2 _ r2
        · exact (h.ok _ hz).congr rfl (fun _ => rfl) rfl id
      · apply hans
        intro _
        exact ⟨fun _ => h0, fun _ _ e => (by cases e)⟩
  | unwatch id idle =>
    refine ⟨hr, h.cur, h.curMap, h.ids.filter _, fun y hy => h.used y (removeWatcher_sub hy).1, h.fresh, ?_,
      ⟨h.life.closed, h.life.map, h.life.fine, h.life.cap, h.life.drop⟩, ?_, h.answers⟩
    · intro y hy
      exact (h.ok y (removeWatcher_sub hy).1).congr rfl (fun _ => rfl) rfl (fun h => h)
    · unfold CallOk
      simp only [idle]
  | recv u q c =>
    have hs : ∀ id, Group.sent { g with queue := q, received := g.received ++ [u] } id = g.sent id := by
      intro id
      unfold Group.sent
      rw [c]
      simp
    refine ⟨hr, h.cur, h.curMap, h.ids, h.used, ?_, ?_, ⟨h.life.closed, h.life.map, h.life.fine, ?_, h.life.drop⟩,
      ?_, h.answers⟩
    · intro id hid
      rw [hs]; exact h.fresh id hid
    · intro y hy
      exact (h.ok y hy).congr rfl hs rfl (fun h => h)
    · have := h.life.cap
      rw [c] at this
      simp only [List.length_cons] at this
      change q.length ≤ _
      omega
    · exact h.call.congr rfl rfl
  | cancel c =>
    refine ⟨hr, h.cur, h.curMap, h.ids, h.used, h.fresh, ?_, ⟨h.life.closed, ?_, h.life.fine, h.life.cap, ?_⟩, ?_, h.answers⟩
    · intro y hy
      exact (h.ok y hy).congr rfl (fun _ => rfl) rfl (fun h => by cases h)
    · have := h.life.map
      rw [c] at this
      change g.inMap = true ↔ _
      rw [this]; simp
    · intro _ hc; cases hc
    · exact h.call.congr rfl rfl
  | afterFunc c =>
    have hin : g.inMap = true := h.life.map.2 (Or.inr c)
    have hcl : g.closed = 0 := by rw [h.life.closed, if_pos hin]
    refine ⟨hr, h.cur, ?_, h.ids, h.used, h.fresh, ?_, ⟨?_, ?_, ?_, h.life.cap, ?_⟩, ?_, h.answers⟩
    · intro hf; cases hf
    · intro y hy
      exact (h.ok y hy).congr rfl (fun _ => rfl) rfl (fun h => by cases h)
    · change g.closed + 1 = _
      rw [hcl]; rfl
    · constructor
      · intro hf; cases hf
      · rintro (hf | hf) <;> cases hf
    · change (g.panicked || decide (g.closed > 0)) = false
      rw [h.life.fine, hcl]; rfl
    · intro _ hf; cases hf
    · exact h.call.congr rfl rfl

/-! ## Start of the node -/

theorem run_wp_sys {α : Type} {Q : α → World → Prop} (hQ : ∀ a w w', Ext w w' → Q a w → Q a w') {s s' : Sys}
    {p : Prog α} {t : List Obs} {a : α} (r : Run s p t a s') (h : SysInv s) (hp : WP Q p s.world) :
    Q a s'.world ∧ SysInv s' := by
  induction r with
  | ret s a => exact ⟨hp, h⟩
  | env st _ ih =>
    obtain ⟨h1, h2⟩ := h.step st
    exact ih h1 (wp_ext_sys hQ h2 hp)
  | @step s s'' eff k t a o _ ih =>
    obtain ⟨h1, h2⟩ := hp s.world (Ext.refl h.inv) o
    exact ih ⟨h1.inv, fun q hq => safe_ext h1 (h.safe q hq)⟩ h2

/-- The poll revision a node starts with. -/
def StartOk (r : Except ApiErr Int) (w : World) : Prop :=
  ∀ rev, r = .ok rev → 0 ≤ rev ∧ rev ≤ w.db.compactRev ∧ rev ≤ w.hist.top

theorem wp_start_rev {w : World} (i : Inv w) : WP StartOk Backend.start w := by
  apply wp_andThen
  refine wp_mono ?_ (wp_create_inv i _ _ _)
  intro a w1 i1
  cases a with
  | error e => intro _ h; cases h
  | ok _ =>
    simp only
    apply wp_andThen
    refine wp_mono ?_ (wp_compactStart i1)
    intro a w2 h2
    cases a with
    | error e => intro _ h; cases h
    | ok _ =>
      simp only
      apply wp_andThen
      apply wp_getCompactRevision h2.1
      · intro w3 h3 rev e
        cases e
        exact ⟨h3.inv.nonneg, Int.le_refl _, h3.inv.compact_le_top⟩
      · intro w3 e h3 _ h; cases h

theorem run_start {s s' : Sys} {t : List Obs} {rev : Int} (h : Reachable s)
    (r : Run s Backend.start t (.ok rev) s') :
    SysInv s' ∧ 0 ≤ rev ∧ rev ≤ s'.world.db.compactRev ∧ rev ≤ s'.world.hist.top := by
  have := run_wp_sys (Q := StartOk) (by
    intro a w w' hx hq rev e
    obtain ⟨q1, q2, q3⟩ := hq rev e
    have := hx.cr
    have := hx.top
    exact ⟨q1, by omega, by omega⟩) r h.sysInv (wp_start_rev h.inv)
  exact ⟨this.2, this.1 rev rfl⟩

/-! ## All steps -/

theorem NInv.step {a b : NSys} (h : NInv a) (st : NStep a b) : NInv b ∧ Ext a.sys.world b.sys.world := by
  have hr := Ext.refl h.sys.inv
  cases st with
  | env s s' n hst =>
    obtain ⟨h1, h2⟩ := h.sys.step hst
    exact ⟨h.ext h1 h2, h2⟩
  | pollStart s n c =>
    exact ⟨⟨h.sys, h.start, h.le, h.nonneg, h.pub, h.pubFull, QState.loop maxRetries, h.groups⟩, hr⟩
  | pollExec s n eff k o c =>
    have hp := h.poll
    unfold PollOk at hp
    simp only [c] at hp
    obtain ⟨hw, hq⟩ := hp.exec h.sys.inv o (C' := fun wq _ =>
      (n.overtaken || decide (n.pollRevision < s.world.db.compactRev)) = false →
        wq.db.compactRev ≤ n.pollRevision) (by
      intro tr _ ho
      simp only [Bool.or_eq_false_iff, decide_eq_false_iff_not] at ho
      have := ho.2
      change s.world.db.compactRev ≤ _
      omega)
    have hot : (n.overtaken || decide (n.pollRevision < s.world.db.compactRev)) = false →
        n.overtaken = false := fun ho => by
      simp only [Bool.or_eq_false_iff] at ho
      exact ho.1
    have hsame : ({ s with world := s.world.exec eff o } : Sys) = s := by
      have : s.world.exec eff o = s.world := hw
      rw [this]
    rw [hsame]
    refine ⟨⟨h.sys, h.start, h.le, h.nonneg, h.pub, fun ho => h.pubFull (hot ho), hq, ?_⟩, hr⟩
    intro g hg
    exact (h.groups g hg).ext hot h.sys.inv hr h.le
  | pollPublish s n rows c =>
    have hp := h.poll
    unfold PollOk at hp
    simp only [c] at hp
    generalize hpp : (Prog.ret (Except.ok rows) : Prog (Except ApiErr (List Row × Option Nat))) = p at hp
    have hgot : ∃ wq tr, Inv wq ∧ Ext wq s.world ∧ (n.overtaken = false → wq.db.compactRev ≤ n.pollRevision) ∧
        rows = (afterSQL wq.db n.pollRevision pollBatchSize, tr) := by
      cases hp with
      | loop m => cases m <;> simp [queryLoop] at hpp
      | err e => cases hpp
      | got wq tr iq xq cq =>
        cases hpp
        exact ⟨wq, tr, iq, xq, cq, rfl⟩
    obtain ⟨wq, tr, iq, xq, cq, rfl⟩ := hgot
    obtain ⟨e1, e2, e3, e4⟩ := iq.poll_events n.pollRevision pollBatchSize tr
    generalize scanAll scanEvent (afterSQL wq.db n.pollRevision pollBatchSize, tr) = es at e1 e2 e3 e4
    have hle := h.le
    change n.pollRevision ≤ s.world.hist.top at hle
    have hnext : nextPollRevision n.pollRevision es ≤ s.world.hist.top := by
      have := xq.top
      rcases e2 with e2 | e2 <;> omega
    have hs := e3.ext xq iq.wf
    have hc : n.overtaken = false →
        Covers s.world.hist (fun _ => true) n.pollRevision (nextPollRevision n.pollRevision es) es := by
      intro ho
      rcases e2 with e2 | e2
      · rw [e2]
        intro c _ _ h1 h2
        omega
      · exact (e4 (cq ho)).ext xq e2
    have hst := h.start
    refine ⟨⟨h.sys, ?_, hnext, h.nonneg, ?_, ?_, trivial, ?_⟩, hr⟩
    · change n.startRevision ≤ nextPollRevision _ _
      change n.startRevision ≤ n.pollRevision at hst
      omega
    · exact h.pub.append hs hst e1
    · intro ho
      exact (h.pubFull ho).append (hc ho)
    · intro g hg
      obtain ⟨g₀, hg₀, rfl⟩ := List.mem_map.1 hg
      exact (h.groups g₀ hg₀).publish h.sys.inv e1 hs hc
  | pollError s n e c =>
    refine ⟨⟨h.sys, h.start, h.le, h.nonneg, h.pub, h.pubFull, ?_, h.groups⟩, hr⟩
    unfold PollOk pollAfterError
    simp only
    split <;> rename_i heq
    · split at heq <;> cases heq
    · trivial
  | openGroup s n =>
    refine ⟨⟨h.sys, h.start, h.le, h.nonneg, h.pub, h.pubFull, h.poll, ?_⟩, hr⟩
    intro g hg
    rcases List.mem_append.1 hg with hg | hg
    · exact h.groups g hg
    · simp only [List.mem_singleton] at hg
      subst hg
      refine ⟨Int.le_refl _, fun _ => rfl, List.Pairwise.nil, ?_, fun _ _ => rfl, ?_, ?_, trivial, ?_⟩
      · intro x hx; simp [Group.new] at hx
      · intro x hx; simp [Group.new] at hx
      · exact ⟨rfl, by simp [Group.new], rfl, by simp [Group.new], fun hf => by simp [Group.new] at hf⟩
      · intro x hx; simp [Group.new] at hx
  | group s n w' pre post g g' c hst =>
    have hg := h.groups g (by rw [c]; simp)
    obtain ⟨hx, hg'⟩ := hg.step h.sys.inv h.le hst
    have h' := h.ext (s' := { s with world := w' }) ⟨hx.inv, fun p hp => safe_ext hx (h.sys.safe p hp)⟩ hx
    refine ⟨⟨h'.sys, h'.start, h'.le, h'.nonneg, h'.pub, h'.pubFull, h'.poll, ?_⟩, hx⟩
    intro x hxm
    simp only [List.mem_append, List.mem_cons] at hxm
    rcases hxm with hxm | rfl | hxm
    · exact h'.groups x (by change x ∈ n.groups; rw [c]; simp [hxm])
    · exact hg'
    · exact h'.groups x (by change x ∈ n.groups; rw [c]; simp [hxm])

/-- The invariant holds in every reachable state. -/
theorem NReachable.ninv {s : NSys} (h : NReachable s) : NInv s := by
  induction h with
  | @start s s' t rev h r =>
    obtain ⟨h1, h2, _, h4⟩ := run_start h r
    exact ⟨h1, Int.le_refl _, h4, h2, Sound.nil, fun _ => Covers.nil (Int.le_refl _), trivial,
      fun g hg => by simp [Node.init] at hg⟩
  | step _ st ih => exact (ih.step st).1

end Verif
