import Verif.Lemmas.GoStream
import Verif.Lemmas.StreamInv
import Verif.Model.GoStreamSys
/-!
# Where the goroutines of a watch stream are

For each goroutine the places its text can be at, and what they mean in the model of the stream (`Model/Stream.lean`). `pend` are the responses
that the model has already sent and the goroutine that holds the lock is about to send. Nothing is said about the model once a `Send` has failed.
-/

namespace Verif.Go

/-- The requests among the messages. -/
def askOf : WatchMsg → Option WatchAsk
  | .create key rangeEnd start wid => if wid ≠ 0 then none else some (.create key rangeEnd start)
  | .cancel id => some (.cancel id)
  | .progress => some .progress
  | .empty => none

/-- The model's responses to an update. -/
def updResp (rev : Int) (p : Int × List Event) : WatchResponse := { revision := rev, watchId := p.1, events := p.2 }

/-- The flags after an update. -/
def updReport (l : List (Int × List Event)) (r : List (Int × Bool)) : List (Int × Bool) := l.foldl (fun r p => setReport r p.1 false) r

/-- `ServeUpdates`. -/
inductive UPh (m : SMem) (st : Stream) (pend : List WatchResponse) : Ts → Prop where
  | idle (n : Nat) (hd : m.broken = false → st.sending = none) : UPh m st pend (updatesT n)
  | got (u : GroupUpdate) (n : Nat) (hd : m.broken = false → st.sending = some u) :
      UPh m st pend (.setRev u.revision (.lock (sendUpdatesT (endK (updatesT n)) u.updates)))
  | stored (u : GroupUpdate) (n : Nat) (hd : m.broken = false → st.sending = some u ∧ st.revision = u.revision) :
      UPh m st pend (.lock (sendUpdatesT (endK (updatesT n)) u.updates))
  | loop (l : List (Int × List Event)) (n : Nat) (ho : m.owner = some 1)
      (hd : m.broken = false → st.sending = none ∧ pend = l.map (updResp st.revision) ∧ st.report = updReport l m.report) :
      UPh m st pend (sendUpdatesT (endK (updatesT n)) l)
  | flagged (p : Int × List Event) (l : List (Int × List Event)) (n : Nat) (ho : m.owner = some 1)
      (hd : m.broken = false → st.sending = none ∧ pend = (p :: l).map (updResp st.revision) ∧ st.report = updReport l m.report) :
      UPh m st pend (.getRev fun r => .send (encResponse (updResp r p)) (sendUpdatesT (endK (updatesT n)) l) fun e => .unlock (.ret [apiErrV e]))
  | reply (p : Int × List Event) (l : List (Int × List Event)) (n : Nat) (r : Int) (ho : m.owner = some 1)
      (hd : m.broken = false → r = st.revision ∧ st.sending = none ∧ pend = (p :: l).map (updResp st.revision) ∧ st.report = updReport l m.report) :
      UPh m st pend (.send (encResponse (updResp r p)) (sendUpdatesT (endK (updatesT n)) l) fun e => .unlock (.ret [apiErrV e]))
  | fail (v : V) (ho : m.owner = some 1) (hb : m.broken = true) : UPh m st pend (.unlock (.ret [v]))
  | ended (v : V) (hd : m.broken = false → st.sending = none) : UPh m st pend (.ret [v])

/-- `ServeProgress`. It ends only when the context has ended or a `Send` has failed. -/
inductive PPh (m : SMem) (st : Stream) (pend : List WatchResponse) : Ts → Prop where
  | idle (n : Nat) : PPh m st pend (progressT n)
  | want (n : Nat) : PPh m st pend (.lock (.getReport fun l => sendProgressT (endK (progressT n)) l))
  | locked (n : Nat) (ho : m.owner = some 2) (hd : m.broken = false → pend = [] ∧ m.report = st.report) :
      PPh m st pend (.getReport fun l => sendProgressT (endK (progressT n)) l)
  | loop (l : List (Int × Bool)) (n : Nat) (ho : m.owner = some 2) (ht : ∀ p ∈ l, p.2 = true)
      (hd : m.broken = false → pend = [] ∧ m.report = st.report ∧ ∀ p ∈ l, p ∈ st.report) : PPh m st pend (sendProgressT (endK (progressT n)) l)
  | reply (p : Int × Bool) (l : List (Int × Bool)) (n : Nat) (r : Int) (ho : m.owner = some 2) (ht : ∀ p ∈ l, p.2 = true)
      (hd : m.broken = false → pend = [{ revision := r, watchId := p.1 }] ∧ m.report = st.report ∧ ∀ p ∈ l, p ∈ st.report) :
      PPh m st pend (.send (encResponse { revision := r, watchId := p.1 }) (sendProgressT (endK (progressT n)) l) fun e => .unlock (.ret [apiErrV e]))
  | fail (v : V) (ho : m.owner = some 2) (hb : m.broken = true) : PPh m st pend (.unlock (.ret [v]))
  | ended (v : V) (he : m.ended = true ∨ m.broken = true) : PPh m st pend (.ret [v])

/-- The model's request goroutine: what it is creating, what it is closing, the next id and the requests made. -/
structure At (m : SMem) (st : Stream) (creating closing : Option Int) (next : Int) (rest : List WatchAsk) : Prop where
  creating : st.creating = creating
  closing : st.closing = closing
  next : st.next = next
  asked : m.asked.filterMap askOf = st.asked ++ rest

/-- The lock is held, and nothing is under way. -/
structure Calm (m : SMem) (st : Stream) (pend : List WatchResponse) : Prop where
  pend : pend = []
  report : m.report = st.report

/-- `ServeRequests`. -/
inductive RPh (m : SMem) (st : Stream) (pend : List WatchResponse) : Ts → Prop where
  | idle (n : Nat) (next : Int) (hd : m.broken = false → At m st none none next []) : RPh m st pend (requestsT n next)
  | wantCreate (n : Nat) (next : Int) (key re : List UInt8) (start : Int) (hd : m.broken = false → At m st none none next [.create key re start]) :
      RPh m st pend (createT next key (watchRangeEnd key re) start (endK (requestsT n (next + 1))))
  | watch (n : Nat) (next : Int) (key re : List UInt8) (start : Int) (ho : m.owner = some 3)
      (hd : m.broken = false → At m st none none next [.create key re start] ∧ Calm m st pend) :
      RPh m st pend (.watch next key (watchRangeEnd key re) start (createdT next (endK (requestsT n (next + 1))))
        (fun _ cur => refusedT cur (endK (requestsT n (next + 1)))) fun _ => failedT (endK (requestsT n (next + 1))))
  | watching (n : Nat) (next : Int) (ho : m.owner = some 3) (hd : m.broken = false → At m st (some next) none next [] ∧ Calm m st pend) :
      RPh m st pend (.watching (createdT next (endK (requestsT n (next + 1)))) (fun _ cur => refusedT cur (endK (requestsT n (next + 1))))
        fun _ => failedT (endK (requestsT n (next + 1))))
  | created (n : Nat) (next : Int) (ho : m.owner = some 3)
      (hd : m.broken = false → At m st none none (next + 1) [] ∧ pend = [{ revision := 0, watchId := next, created := true }] ∧
        st.report = setReport m.report next true) :
      RPh m st pend (createdT next (endK (requestsT n (next + 1))))
  | failed (n : Nat) (next : Int) (ho : m.owner = some 3)
      (hd : m.broken = false → At m st (some next) none next [] ∧ Calm m st pend ∧
        ∃ g args, m.base.node.groupAt st.index = some g ∧ g.call = .idle ∧ g.answers.getLast? = some (args, .error)) :
      RPh m st pend (failedT (endK (requestsT n (next + 1))))
  | reply (n : Nat) (next : Int) (r : WatchResponse) (ho : m.owner = some 3)
      (hd : m.broken = false → At m st none none next [] ∧ pend = [r] ∧ m.report = st.report) : RPh m st pend (replyT r (endK (requestsT n next)))
  | unlock (n : Nat) (next : Int) (ho : m.owner = some 3) (hd : m.broken = false → At m st none none next [] ∧ Calm m st pend) :
      RPh m st pend (.unlock (requestsT n next))
  | wantClose (n : Nat) (next id : Int) (hd : m.broken = false → At m st none none next [.cancel id]) : RPh m st pend (closeT id (requestsT n next))
  | closing (n : Nat) (next id : Int) (hd : m.broken = false → At m st none (some id) next []) :
      RPh m st pend (.lock (.delReport id (.unlock (requestsT n next))))
  | delete (n : Nat) (next id : Int) (ho : m.owner = some 3) (hd : m.broken = false → At m st none (some id) next [] ∧ Calm m st pend) :
      RPh m st pend (.delReport id (.unlock (requestsT n next)))
  | wantProgress (n : Nat) (next : Int) (hd : m.broken = false → At m st none none next [.progress]) : RPh m st pend (askProgressT (endK (requestsT n next)))
  | progress (n : Nat) (next : Int) (ho : m.owner = some 3) (hd : m.broken = false → At m st none none next [.progress] ∧ Calm m st pend) :
      RPh m st pend (.getRev fun r => replyT { revision := r, watchId := -1 } (endK (requestsT n next)))
  | fail (v : V) (ho : m.owner = some 3) (hb : m.broken = true) : RPh m st pend (.unlock (.ret [v]))
  | ended (v : V) (hd : m.broken = false → ∃ next, At m st none none next []) : RPh m st pend (.ret [v])

/-- States of the model, closed under its steps: all that can be reached, or all that can be reached from one of them. -/
structure Closed where
  P : SSys → Prop
  reach : ∀ {a}, P a → SReachable a
  step : ∀ {a b}, P a → SStep a b → P b

/-- All that can be reached. -/
def Closed.all : Closed := ⟨SReachable, id, fun h => h.step⟩

/-- All that can be reached from a state. -/
def Closed.from {a : SSys} (h : SReachable a) : Closed := ⟨fun b => SReachable b ∧ SSteps a b, And.left, fun h st => ⟨h.1.step st, h.2.tail st⟩⟩

/-- The memory is that of the model. -/
structure StSim (Q : Closed) (m : SMem) (st : Stream) (pend : List WatchResponse) : Prop where
  reach : m.broken = false → Q.P ⟨m.base, st⟩
  index : m.broken = false → m.index = some st.index
  revision : m.broken = false → st.revision = m.revision
  out : m.broken = false → m.out ++ pend.map encResponse = st.out.map encResponse
  free : m.broken = false → m.owner = none → Calm m st pend

/-- What one goroutine leaves alone of what the others rely on. -/
structure Fr (i : Nat) (m : SMem) (st : Stream) (pend : List WatchResponse) (m' : SMem) (st' : Stream) (pend' : List WatchResponse) : Prop where
  broken : m'.broken = false → m.broken = false
  ended : m.ended = true → m'.ended = true
  owner : ∀ k, k ≠ i → m.owner = some k → m'.owner = some k
  held : ∀ k, k ≠ i → m.owner = some k → m'.broken = false → pend' = pend ∧ m'.report = m.report ∧ st'.report = st.report
  upd : i ≠ 1 → m'.broken = false → st'.sending = st.sending ∧ st'.revision = st.revision
  req : i ≠ 3 → m'.broken = false → st'.creating = st.creating ∧ st'.closing = st.closing ∧ st'.next = st.next ∧ st'.asked = st.asked ∧
    m'.asked = m.asked ∧ st'.index = st.index
  call : i ≠ 3 → m'.broken = false → ∀ g, m.base.node.groupAt st.index = some g → g.call = .idle →
    ∃ g', m'.base.node.groupAt st.index = some g' ∧ g'.call = .idle ∧ g'.answers = g.answers

variable {i : Nat} {m m' : SMem} {st st' : Stream} {pend pend' : List WatchResponse} {t t' : Ts}

theorem Fr.mono (f : Fr i m st pend m' st' pend') (h : m.broken = true) : m'.broken = true := by
  cases hb : m'.broken with
  | true => rfl
  | false => rw [f.broken hb] at h; cases h

theorem UPh.frame (f : Fr i m st pend m' st' pend') (hi : i ≠ 1) (h : UPh m st pend t) : UPh m' st' pend' t := by
  cases h with
  | idle n hd => exact .idle n fun hb => (f.upd hi hb).1.trans (hd (f.broken hb))
  | got u n hd => exact .got u n fun hb => (f.upd hi hb).1.trans (hd (f.broken hb))
  | stored u n hd => exact .stored u n fun hb => ⟨(f.upd hi hb).1.trans (hd (f.broken hb)).1, (f.upd hi hb).2.trans (hd (f.broken hb)).2⟩
  | loop l n ho hd =>
    refine .loop l n (f.owner 1 (Ne.symm hi) ho) fun hb => ?_
    obtain ⟨h1, h2, h3⟩ := hd (f.broken hb)
    obtain ⟨e1, e2, e3⟩ := f.held 1 (Ne.symm hi) ho hb
    obtain ⟨e4, e5⟩ := f.upd hi hb
    exact ⟨e4.trans h1, by rw [e1, e5]; exact h2, by rw [e2, e3]; exact h3⟩
  | flagged p l n ho hd =>
    refine .flagged p l n (f.owner 1 (Ne.symm hi) ho) fun hb => ?_
    obtain ⟨h1, h2, h3⟩ := hd (f.broken hb)
    obtain ⟨e1, e2, e3⟩ := f.held 1 (Ne.symm hi) ho hb
    obtain ⟨e4, e5⟩ := f.upd hi hb
    exact ⟨e4.trans h1, by rw [e1, e5]; exact h2, by rw [e2, e3]; exact h3⟩
  | reply p l n r ho hd =>
    refine .reply p l n r (f.owner 1 (Ne.symm hi) ho) fun hb => ?_
    obtain ⟨h0, h1, h2, h3⟩ := hd (f.broken hb)
    obtain ⟨e1, e2, e3⟩ := f.held 1 (Ne.symm hi) ho hb
    obtain ⟨e4, e5⟩ := f.upd hi hb
    exact ⟨h0.trans e5.symm, e4.trans h1, by rw [e1, e5]; exact h2, by rw [e2, e3]; exact h3⟩
  | fail v ho hb => exact .fail v (f.owner 1 (Ne.symm hi) ho) (f.mono hb)
  | ended v hd => exact .ended v fun hb => (f.upd hi hb).1.trans (hd (f.broken hb))

theorem PPh.frame (f : Fr i m st pend m' st' pend') (hi : i ≠ 2) (h : PPh m st pend t) : PPh m' st' pend' t := by
  cases h with
  | idle n => exact .idle n
  | want n => exact .want n
  | locked n ho hd =>
    refine .locked n (f.owner 2 (Ne.symm hi) ho) fun hb => ?_
    obtain ⟨h1, h2⟩ := hd (f.broken hb)
    obtain ⟨e1, e2, e3⟩ := f.held 2 (Ne.symm hi) ho hb
    exact ⟨e1.trans h1, by rw [e2, e3]; exact h2⟩
  | loop l n ho ht hd =>
    refine .loop l n (f.owner 2 (Ne.symm hi) ho) ht fun hb => ?_
    obtain ⟨h1, h2, h3⟩ := hd (f.broken hb)
    obtain ⟨e1, e2, e3⟩ := f.held 2 (Ne.symm hi) ho hb
    exact ⟨e1.trans h1, by rw [e2, e3]; exact h2, by rw [e3]; exact h3⟩
  | reply p l n r ho ht hd =>
    refine .reply p l n r (f.owner 2 (Ne.symm hi) ho) ht fun hb => ?_
    obtain ⟨h1, h2, h3⟩ := hd (f.broken hb)
    obtain ⟨e1, e2, e3⟩ := f.held 2 (Ne.symm hi) ho hb
    exact ⟨e1.trans h1, by rw [e2, e3]; exact h2, by rw [e3]; exact h3⟩
  | fail v ho hb => exact .fail v (f.owner 2 (Ne.symm hi) ho) (f.mono hb)
  | ended v he => exact .ended v (he.imp f.ended f.mono)

theorem At.frame (f : Fr i m st pend m' st' pend') (hi : i ≠ 3) (hb : m'.broken = false) {c d : Option Int} {n : Int} {r : List WatchAsk}
    (h : At m st c d n r) : At m' st' c d n r := by
  obtain ⟨e1, e2, e3, e4, e5, e6⟩ := f.req hi hb
  exact ⟨e1.trans h.creating, e2.trans h.closing, e3.trans h.next, by rw [e4, e5]; exact h.asked⟩

theorem Calm.frame (f : Fr i m st pend m' st' pend') (hi : i ≠ 3) (ho : m.owner = some 3) (hb : m'.broken = false) (h : Calm m st pend) :
    Calm m' st' pend' := by
  obtain ⟨e1, e2, e3⟩ := f.held 3 (Ne.symm hi) ho hb
  exact ⟨e1.trans h.pend, by rw [e2, e3]; exact h.report⟩

theorem RPh.frame (f : Fr i m st pend m' st' pend') (hi : i ≠ 3) (h : RPh m st pend t) : RPh m' st' pend' t := by
  have own : m.owner = some 3 → m'.owner = some 3 := f.owner 3 (Ne.symm hi)
  cases h with
  | idle n next hd => exact .idle n next fun hb => (hd (f.broken hb)).frame f hi hb
  | wantCreate n next key re start hd => exact .wantCreate n next key re start fun hb => (hd (f.broken hb)).frame f hi hb
  | watch n next key re start ho hd =>
    exact .watch n next key re start (own ho) fun hb => ⟨(hd (f.broken hb)).1.frame f hi hb, (hd (f.broken hb)).2.frame f hi ho hb⟩
  | watching n next ho hd =>
    exact .watching n next (own ho) fun hb => ⟨(hd (f.broken hb)).1.frame f hi hb, (hd (f.broken hb)).2.frame f hi ho hb⟩
  | created n next ho hd =>
    refine .created n next (own ho) fun hb => ?_
    obtain ⟨h1, h2, h3⟩ := hd (f.broken hb)
    obtain ⟨e1, e2, e3⟩ := f.held 3 (Ne.symm hi) ho hb
    exact ⟨h1.frame f hi hb, e1.trans h2, by rw [e2, e3]; exact h3⟩
  | failed n next ho hd =>
    refine .failed n next (own ho) fun hb => ?_
    obtain ⟨h1, h2, g, args, h3, h4, h5⟩ := hd (f.broken hb)
    obtain ⟨g', e1, e2, e3⟩ := f.call hi hb g h3 h4
    exact ⟨h1.frame f hi hb, h2.frame f hi ho hb, g', args, by rw [(f.req hi hb).2.2.2.2.2]; exact e1, e2, by rw [e3]; exact h5⟩
  | reply n next r ho hd =>
    refine .reply n next r (own ho) fun hb => ?_
    obtain ⟨h1, h2, h3⟩ := hd (f.broken hb)
    obtain ⟨e1, e2, e3⟩ := f.held 3 (Ne.symm hi) ho hb
    exact ⟨h1.frame f hi hb, e1.trans h2, by rw [e2, e3]; exact h3⟩
  | unlock n next ho hd =>
    exact .unlock n next (own ho) fun hb => ⟨(hd (f.broken hb)).1.frame f hi hb, (hd (f.broken hb)).2.frame f hi ho hb⟩
  | wantClose n next id hd => exact .wantClose n next id fun hb => (hd (f.broken hb)).frame f hi hb
  | closing n next id hd => exact .closing n next id fun hb => (hd (f.broken hb)).frame f hi hb
  | delete n next id ho hd =>
    exact .delete n next id (own ho) fun hb => ⟨(hd (f.broken hb)).1.frame f hi hb, (hd (f.broken hb)).2.frame f hi ho hb⟩
  | wantProgress n next hd => exact .wantProgress n next fun hb => (hd (f.broken hb)).frame f hi hb
  | progress n next ho hd =>
    exact .progress n next (own ho) fun hb => ⟨(hd (f.broken hb)).1.frame f hi hb, (hd (f.broken hb)).2.frame f hi ho hb⟩
  | fail v ho hb => exact .fail v (own ho) (f.mono hb)
  | ended v hd => exact .ended v fun hb => (hd (f.broken hb)).imp fun _ h => h.frame f hi hb

/-- Only the holder of the lock creates. -/
theorem RPh.notCreating (h : RPh m st pend t) (ho : m.owner ≠ some 3) (hb : m.broken = false) : st.creating = none := by
  cases h with
  | idle n next hd => exact (hd hb).creating
  | wantCreate n next key re start hd => exact (hd hb).creating
  | wantClose n next id hd => exact (hd hb).creating
  | closing n next id hd => exact (hd hb).creating
  | wantProgress n next hd => exact (hd hb).creating
  | ended v hd => obtain ⟨_, h⟩ := hd hb; exact h.creating
  | _ => contradiction

end Verif.Go
