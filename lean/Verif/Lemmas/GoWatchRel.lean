import Verif.Lemmas.GoWatchRun
import Verif.Lemmas.NReach
/-!
# How the goroutines of `watcher.go` are related to the model of the watch machinery

One group is looked at at a time: a node with that group alone (or none, before it is opened).
-/

namespace Verif.Go

open Verif.GoText

/-- Two lists, element by element. -/
inductive Each {α β : Type} (R : α → β → Prop) : List α → List β → Prop where
  | nil : Each R [] []
  | cons {a : α} {b : β} {as : List α} {bs : List β} : R a b → Each R as bs → Each R (a :: as) (b :: bs)

theorem Each.append {α β : Type} {R : α → β → Prop} {a a' : List α} {b b' : List β} (h : Each R a b) (h' : Each R a' b') : Each R (a ++ a') (b ++ b') := by
  induction h with
  | nil => exact h'
  | cons h _ ih => exact .cons h ih

theorem Each.length {α β : Type} {R : α → β → Prop} {a : List α} {b : List β} (h : Each R a b) : a.length = b.length := by
  induction h with
  | nil => rfl
  | cons _ _ ih => simp [ih]

/-- An update on the channel. -/
def UpdRel (v : V) (u : GroupUpdate) : Prop :=
  ∃ us, us.Perm (u.updates.map encWatcherUpdate) ∧ v = groupUpdateV u.revision us ∧ (u.updates.map (·.1)).Nodup

/-- What is seen of a watcher. -/
def WatchMem.view (m : WatchMem) (p : Int × Nat) : Int × List UInt8 × List UInt8 × Bool × List V :=
  (p.1, (m.wat p.2).lo, (m.wat p.2).hi, (m.wat p.2).initialized, (m.wat p.2).events)

/-- The same, in the model. -/
def _root_.Verif.Watcher.view (x : Watcher) : Int × List UInt8 × List UInt8 × Bool × List V :=
  (x.id, x.lo, x.hi, x.initialized, x.events.map encEvent)

/-- The group a client calls. -/
def WRole.grp : WRole → Option Nat
  | .watch g _ _ _ _ _ => some g
  | .unwatch g _ => some g
  | _ => none

/-- An `AfterFunc`. -/
inductive AftRel (i : Nat) (thr : Nat → Option WThread) (a : Nat) : AftSt → AfterFunc → Prop where
  | armed : AftRel i thr a .armed .armed
  | stopped : AftRel i thr a .stopped .stopped
  | running (t : Nat) (h : thr t = some ⟨.cancel a, cancelT i⟩) : AftRel i thr a (.running t) .running
  | done (t : Nat) (h : thr t = some ⟨.cancel a, .ret []⟩) : AftRel i thr a (.running t) .done

/-- What `Watch` returns. -/
inductive AnsV : WatchAnswer → List V → Prop where
  | ok : AnsV .ok [.nil]
  | compacted (c r : Int) : AnsV (.compacted c r) [compactedV c r]
  | error (e : ApiErr) : AnsV .error [errV e]

/-- The goroutine of the last call on a group. -/
inductive ClientAt (s : WSys) (i : Nat) (g : Group) : WRole → Tw → Prop where
  | ret (r : WRole) (vs : List V) (idle : g.call = .idle) : ClientAt s i g r (.ret vs)
  | unwatch (id : Int) (idle : g.call = .idle) : ClientAt s i g (.unwatch i id) (unwatchT i id)
  | reg (id : Int) (lo hi : List UInt8) (start c : Int) (w : Nat) (idle : g.call = .idle) (hw : s.mem.wat w = ⟨id, lo, hi, false, [], none⟩)
      (hc : c ≤ s.sys.world.db.compactRev) (fresh : id ∉ g.used) (hl : s.lossy i id = false) (ne : hi ≠ []) (hu : (id, start, lo, hi) ∈ s.used i) :
      ClientAt s i g (.watch i id lo hi start c) (watchLockT i id lo hi start w)
  | check (a : WatchArgs) (p : Prog (Except ApiErr (Int × Int))) (w : Nat) (c : Int) (call : g.call = .check a p) (hw : (a.id, w) ∈ (s.mem.grp i).watchers)
      (hc : c ≤ a.compactThen) (hp : AllStmts (fun e => e = id) p) :
      ClientAt s i g (.watch i a.id a.lo a.hi a.start c) (watchCheckT i a.id a.lo a.hi a.start w a.base p)
  | query (a : WatchArgs) (p : Prog (Except ApiErr (List Row × Option Nat))) (w : Nat) (c : Int) (call : g.call = .query a p)
      (hw : (a.id, w) ∈ (s.mem.grp i).watchers) (hc : c ≤ a.compactThen) (hp : AllStmts (fun e => e = id) p) :
      ClientAt s i g (.watch i a.id a.lo a.hi a.start c) (watchQueryT i a.id w p)
  | rows (a : WatchArgs) (rs : List Row × Option Nat) (w : Nat) (c : Int) (call : g.call = .query a (.ret (.ok rs)))
      (hw : (a.id, w) ∈ (s.mem.grp i).watchers) (hc : c ≤ a.compactThen) :
      ClientAt s i g (.watch i a.id a.lo a.hi a.start c) (watchRowsT i w (scanAll scanEvent rs))
  | fail (a : WatchArgs) (e : ApiErr) (w : Nat) (c : Int) (call : g.call = .query a (.ret (.error e)))
      (hw : (a.id, w) ∈ (s.mem.grp i).watchers) (hc : c ≤ a.compactThen) :
      ClientAt s i g (.watch i a.id a.lo a.hi a.start c) (watchFailT i a.id e)

/-- An answered `Watch`. -/
def Answered (g : Group) (id start c : Int) (vs : List V) : Prop :=
  ∃ a ans, (a, ans) ∈ g.answers ∧ a.id = id ∧ a.start = start ∧ c ≤ a.compactThen ∧ AnsV ans vs

/-- A group. -/
structure GRel (i : Nat) (s : WSys) (g : Group) : Prop where
  cur : (s.mem.grp i).cur = g.currentRevision
  cap : (s.mem.grp i).cap = 100
  views : (s.mem.grp i).watchers.map s.mem.view = g.watchers.map Watcher.view
  marks : ∀ x ∈ g.watchers, x.lossy = s.lossy i x.id ∧ (x.id, x.start, x.lo, x.hi) ∈ s.used i
  queue : Each UpdRel (s.mem.grp i).queue g.queue
  received : Each UpdRel (s.mem.grp i).received g.received
  closed : (s.mem.grp i).closed = g.closed
  panicked : (s.mem.grp i).panicked = g.panicked
  dropped : (s.mem.grp i).dropped = g.dropped
  inMap : g.inMap = true ↔ i ∈ s.mem.map
  aft : ∀ a, (s.mem.grp i).stop = some a → AftRel i s.thr a (s.mem.aft a) g.after
  free : s.client i = none → g.call = .idle
  call : ∀ t, s.client i = some t → ∃ r x, s.thr t = some ⟨r, x⟩ ∧ r.grp = some i ∧ ClientAt s i g r x
  answers : ∀ t id lo hi start c vs, s.thr t = some ⟨.watch i id lo hi start c, .ret vs⟩ → Answered g id start c vs
  used : ∀ id ∈ g.used, ∃ p ∈ s.used i, p.1 = id
  once : ((s.used i).map (·.1)).Nodup

/-- All the groups of a node: at most this one. -/
def GroupRel (i : Nat) (s : WSys) (n : Node) : Prop :=
  if i < s.mem.ng then ∃ g, n.groups = [g] ∧ GRel i s g else n.groups = []

/-- The poller. -/
inductive PollRel (i : Nat) (m : WatchMem) (n : Node) : Tw → Prop where
  | out (free : m.owner = none) (rev : n.pollRevision = m.pollRev) : PollRel i m n .out
  | ret (free : m.owner = none) (rev : n.pollRevision = m.pollRev) : PollRel i m n (.ret [])
  | sel (k : Nat) (free : m.owner = none) (rev : n.pollRevision = m.pollRev) (idle : n.poll = .idle) : PollRel i m n (pollStepT true (pollT k))
  | qry (b : Bool) (k : Nat) (p : Prog (Except ApiErr (List Row × Option Nat))) (free : m.owner = none) (rev : n.pollRevision = m.pollRev)
      (q : n.poll = .querying p) (hp : AllStmts (fun e => e = id) p) : PollRel i m n (pollQueryT b (pollT k) p)
  | lock (k : Nat) (b : Bool) (rows : List Row × Option Nat) (free : m.owner = none) (rev : n.pollRevision = m.pollRev)
      (q : n.poll = .querying (.ret (.ok rows))) : PollRel i m n (publishEventsT (scanAll scanEvent rows) (pollT k b))
  | pend (k : Nat) (b : Bool) (rows : List Row × Option Nat) (g : Nat) (rest : List Nat) (held : m.owner = some 0) (nodup : (g :: rest).Nodup)
      (sub : ∀ x ∈ g :: rest, x ∈ m.map) (mem : i ∈ g :: rest) (rev : m.pollRev = nextPollRevision n.pollRevision (scanAll scanEvent rows))
      (q : n.poll = .querying (.ret (.ok rows))) : PollRel i m n (pubAt (scanAll scanEvent rows) m.pollRev g rest (pollT k b))
  | past (k : Nat) (b : Bool) (es : List Event) (g : Nat) (rest : List Nat) (held : m.owner = some 0) (nodup : (g :: rest).Nodup)
      (sub : ∀ x ∈ g :: rest, x ∈ m.map) (mem : i ∉ g :: rest) (rev : n.pollRevision = m.pollRev) (idle : n.poll = .idle) :
      PollRel i m n (pubAt es m.pollRev g rest (pollT k b))

/-- The memory is in order. -/
structure MInv (m : WatchMem) : Prop where
  stop : ∀ g, g < m.ng → ∃ a, a < m.na ∧ (m.grp g).stop = some a ∧ m.body a = cancelT g
  inj : ∀ g g' a, g < m.ng → g' < m.ng → (m.grp g).stop = some a → (m.grp g').stop = some a → g = g'
  afts : ∀ a, a < m.na → ∃ g, g < m.ng ∧ (m.grp g).stop = some a
  nodup : m.map.Nodup
  sub : ∀ g ∈ m.map, g < m.ng
  refs : ∀ g, g < m.ng → ∀ p ∈ (m.grp g).watchers, p.2 < m.nw ∧ (m.wat p.2).grp = some g
  refsNodup : ∀ g, g < m.ng → ((m.grp g).watchers.map (·.2)).Nodup
  idsNodup : ∀ g, g < m.ng → ((m.grp g).watchers.map (·.1)).Nodup

/-- Goroutine `t` is about to register watcher `w`. -/
def Pend (s : WSys) (t w : Nat) : Prop := ∃ g id lo hi start c, s.thr t = some ⟨.watch g id lo hi start c, watchLockT g id lo hi start w⟩

/-- The goroutines are in order. -/
structure TInv (s : WSys) : Prop where
  mem : MInv s.mem
  first : ∃ x, s.thr 0 = some ⟨.poll, x⟩
  lt : ∀ t th, s.thr t = some th → t < s.nt
  poll : ∀ t x, s.thr t = some ⟨.poll, x⟩ → t = 0
  opn : ∀ t x, s.thr t = some ⟨.opn, x⟩ → x = openLockT ∨ ∃ vs, x = .ret vs
  call : ∀ t r x g, s.thr t = some ⟨r, x⟩ → r.grp = some g → g < s.mem.ng ∧ (s.client g = some t ∨ ∃ vs, x = .ret vs)
  cancel : ∀ t a x, s.thr t = some ⟨.cancel a, x⟩ → ∃ g, g < s.mem.ng ∧ (s.mem.grp g).stop = some a ∧ s.mem.aft a = .running t ∧ (x = cancelT g ∨ x = .ret [])
  client : ∀ g t, s.client g = some t → g < s.mem.ng
  clean : ∀ g, ¬ g < s.mem.ng → s.used g = []
  pend : ∀ t w, Pend s t w → w < s.mem.nw ∧ (s.mem.wat w).grp = none
  pendInj : ∀ t t' w, Pend s t w → Pend s t' w → t = t'

/-- The node and the model. -/
structure WRel (i : Nat) (s : WSys) (n : NSys) : Prop where
  reach : NReachable n
  sys : n.sys = s.sys
  over : n.node.overtaken = s.overtaken
  poll : ∀ x, s.thr 0 = some ⟨.poll, x⟩ → PollRel i s.mem n.node x
  group : GroupRel i s n.node

/-- Everything is in order, and every group behaves as in the model. -/
structure Sim (s : WSys) : Prop where
  inv : TInv s
  rel : ∀ i, ∃ n, WRel i s n

end Verif.Go
