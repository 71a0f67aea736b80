import Verif.Lemmas.GoStreamExec
import Verif.Props.Cancel
import Verif.Props.Requests
import Verif.Props.Streams
import Verif.Props.Watches
/-!
# C105 What the text of `watch.go` does, run by the goroutines of a client's watch stream

`GReachable N c`: a client calls `Watch` on a node in any reachable state, and the goroutines of the stream, running the text of `watch.go`
(`Model/GoTextStream.lean`), get to `c`: their schedule is any, and so is what the client and the rest of the node do. `c.ts` are the goroutines:
the handler, `ServeUpdates`, `ServeProgress`, `ServeRequests`. `c.mem.asked` are the messages of the client, `c.mem.out` the responses sent to it
(values of Go), `c.mem.index` is the watcher group of the stream.
-/

namespace Verif.Go

open Verif.GoText

variable {N : Nat} {c : GS}

/-! ### Specification -/

/-- A field of a message. -/
def fieldOf (f : Nm) : V → Option V
  | .imm (.struct _ fs) => assoc f fs
  | _ => none

/-- The response announces watch `id`. -/
def Announces (v : V) (id : Int) : Prop :=
  fieldOf n!"Created" v = some (.bool true) ∧ fieldOf n!"Canceled" v = some (.bool false) ∧ fieldOf n!"WatchId" v = some (.int id)

/-- The events of a response. -/
def respEvents (v : V) : List V :=
  match fieldOf n!"Events" v with
  | some (.list l) => l
  | _ => []

/-- Its events, if it is for watch `id`. -/
def respEventsFor (id : Int) (v : V) : List V :=
  match fieldOf n!"WatchId" v with
  | some (.int j) => if j = id then respEvents v else []
  | _ => []

/-- A flag of a response. -/
def flagOf (f : Nm) (v : V) : Bool :=
  match fieldOf f v with
  | some (.bool b) => b
  | _ => false

/-- The answer to a create request. -/
def isCreateAnswer (v : V) : Bool := flagOf n!"Created" v || flagOf n!"Canceled" v

/-- The answer to a progress request: it names no watch. -/
def isProgressAnswer (v : V) : Bool :=
  !isCreateAnswer v &&
    match fieldOf n!"WatchId" v with
    | some (.int j) => decide (j = -1)
    | _ => false

/-- What the answer to the `n`-th create request looks like: the watch got number `n`; or its start revision is compacted (created and cancelled at
once, number -1); or it failed (cancelled, number 0). -/
def AnswersCreate (n : Nat) (v : V) : Prop :=
  respEvents v = [] ∧ ∃ id, fieldOf n!"WatchId" v = some (.int id) ∧
    ((flagOf n!"Created" v = true ∧ flagOf n!"Canceled" v = false ∧ id = n) ∨
     (flagOf n!"Created" v = true ∧ flagOf n!"Canceled" v = true ∧ id = -1) ∨
     (flagOf n!"Created" v = false ∧ flagOf n!"Canceled" v = true ∧ id = 0))

/-- The create requests among the messages. -/
def WatchMsg.isCreate : WatchMsg → Bool
  | .create _ _ _ wid => decide (wid = 0)
  | _ => false

/-- The progress requests. -/
def WatchMsg.isProgress : WatchMsg → Bool
  | .progress => true
  | _ => false

/-- The keys a create request asks for: the key, or those from it up to the range end. -/
def WatchMsg.asksFor : WatchMsg → Bytes → Prop
  | .create key rangeEnd _ _, k => if rangeEnd = [] then k = key else ble key k = true ∧ blt k rangeEnd = true
  | _, _ => False

/-! ### Reading responses -/

theorem field_watchId (r : WatchResponse) : fieldOf n!"WatchId" (encResponse r) = some (.int r.watchId) := rfl
theorem field_created (r : WatchResponse) : fieldOf n!"Created" (encResponse r) = some (.bool r.created) := rfl
theorem field_canceled (r : WatchResponse) : fieldOf n!"Canceled" (encResponse r) = some (.bool r.canceled) := rfl
theorem respEvents_enc (r : WatchResponse) : respEvents (encResponse r) = r.events.map encEvent := rfl
theorem flag_created (r : WatchResponse) : flagOf n!"Created" (encResponse r) = r.created := rfl
theorem flag_canceled (r : WatchResponse) : flagOf n!"Canceled" (encResponse r) = r.canceled := rfl

theorem announces_enc (r : WatchResponse) (id : Int) : Announces (encResponse r) id ↔ r.announces id = true := by
  unfold Announces WatchResponse.announces
  rw [field_created, field_canceled, field_watchId]
  cases r.created <;> cases r.canceled <;> simp

theorem isCreateAnswer_enc (r : WatchResponse) : isCreateAnswer (encResponse r) = r.answersCreate := rfl

theorem isProgressAnswer_enc (r : WatchResponse) : isProgressAnswer (encResponse r) = r.answersProgress := by
  unfold isProgressAnswer WatchResponse.answersProgress isCreateAnswer
  rw [flag_created, flag_canceled, field_watchId]
  cases r.created <;> cases r.canceled <;> rfl

theorem respEventsFor_enc (id : Int) (rs : List WatchResponse) : (rs.map encResponse).flatMap (respEventsFor id) = (Verif.eventsFor rs id).map encEvent := by
  induction rs with
  | nil => rfl
  | cons r rs ih =>
    have e : respEventsFor id (encResponse r) = if r.watchId = id then r.events.map encEvent else [] := rfl
    rw [List.map_cons, List.flatMap_cons, ih, e]
    unfold Verif.eventsFor
    rw [List.filter_cons]
    by_cases h : r.watchId = id
    · rw [if_pos h, if_pos (by simpa using h), List.flatMap_cons, List.map_append]
    · rw [if_neg h, if_neg (by simpa using h), List.nil_append]

/-- What has been sent is a part of what the model has sent. -/
theorem GReachable.sent (h : GReachable N c) : ∃ rs, c.mem.out = rs.map encResponse ∧ (rs = [] ∨ ∃ x, SReachable x ∧ rs <+: x.stream.out) := by
  rcases h.rel with g | ⟨j, st, pend, tu, tp, tr, g⟩
  · obtain ⟨e, hm⟩ := g.mem
    exact ⟨[], by rw [hm]; rfl, .inl rfl⟩
  · obtain ⟨x, hx, _, hp⟩ := g.sent
    obtain ⟨rest, hp⟩ := hp
    obtain ⟨l₁, l₂, e, e1, e2⟩ := List.map_eq_append_iff.1 hp.symm
    exact ⟨l₁, e1.symm, .inr ⟨x, hx, l₂, e.symm⟩⟩

/-- Once the group is open. -/
theorem GReachable.opened (h : GReachable N c) {j : Nat} (hj : c.mem.index = some j) : ∃ st pend tu tp tr, StRel .all N c j st pend tu tp tr := by
  rcases h.rel with g | ⟨j', st, pend, tu, tp, tr, g⟩
  · obtain ⟨e, hm⟩ := g.mem
    rw [hm] at hj
    cases hj
  · have := g.index
    rw [hj] at this
    cases this
    exact ⟨st, pend, tu, tp, tr, g⟩

/-! ## C105 -/

/-- When nobody holds the mutex, the memory of the goroutines is a state of the model of the stream (`Model/Stream.lean`): the same node, the same
revision and flags, the same responses; the client's requests are those of the model, except for one that is just being taken up. Until a `Send`
has failed. -/
theorem C105_simulates (h : GReachable N c) (whole : c.mem.broken = false) (free : c.mem.owner = none) {j : Nat} (hj : c.mem.index = some j) :
    ∃ st, SReachable ⟨c.mem.base, st⟩ ∧ st.index = j ∧ c.mem.out = st.out.map encResponse ∧ c.mem.revision = st.revision ∧
      c.mem.report = st.report ∧ ∃ rest, rest.length ≤ 1 ∧ c.mem.asked.filterMap askOf = st.asked ++ rest := by
  obtain ⟨st, pend, tu, tp, tr, g⟩ := h.opened hj
  have hc := g.sim.free whole free
  refine ⟨st, g.sim.reach whole, (g.sim.indexed whole hj).symm, ?_, (g.sim.revision whole).symm, hc.report, g.r.asked whole⟩
  have := g.sim.out whole
  rw [hc.pend] at this
  simpa using this

/-- The ids announced to the client ascend and are positive, and no event is sent for a watch that has not been announced: whatever the schedule of
the goroutines. -/
theorem C105_fresh_and_announced (h : GReachable N c) :
    (∀ A v B v' C i i', c.mem.out = A ++ v :: B ++ v' :: C → Announces v i → Announces v' i' → i < i') ∧
    (∀ v ∈ c.mem.out, ∀ i, Announces v i → 0 < i) ∧
    (∀ A v B, c.mem.out = A ++ v :: B → respEvents v ≠ [] → ∃ id, fieldOf n!"WatchId" v = some (.int id) ∧ ∃ v' ∈ A, Announces v' id) := by
  obtain ⟨rs, ho, hrs⟩ := h.sent
  rw [ho]
  have key : (∀ A r B r' C i i', rs = A ++ r :: B ++ r' :: C → r.announces i = true → r'.announces i' = true → i < i') ∧
      (∀ r ∈ rs, ∀ i, r.announces i = true → 0 < i) ∧
      (∀ A r B, rs = A ++ r :: B → r.events ≠ [] → ∃ r' ∈ A, r'.announces r.watchId = true) := by
    rcases hrs with rfl | ⟨x, hx, l, hl⟩
    · refine ⟨?_, (fun r hr => nomatch hr), ?_⟩
      · intro A r B r' C i i' e
        exact absurd (congrArg List.length e) (by simp)
      · intro A r B e
        exact absurd (congrArg List.length e) (by simp)
    · obtain ⟨h1, h2, h3⟩ := C59_fresh_and_announced hx
      refine ⟨?_, fun r hr => h2 r (by rw [← hl]; exact List.mem_append_left _ hr), ?_⟩
      · intro A r B r' C i i' e
        exact h1 A r B r' (C ++ l) i i' (by rw [← hl, e]; simp)
      · intro A r B e
        exact h3 A r (B ++ l) (by rw [← hl, e]; simp)
  obtain ⟨h1, h2, h3⟩ := key
  refine ⟨?_, ?_, ?_⟩
  · intro A v B v' C i i' e hv hv'
    obtain ⟨l₁, l₂, e1, e2, e3⟩ := List.map_eq_append_iff.1 e
    obtain ⟨l₃, l₄, e4, e5, e6⟩ := List.map_eq_append_iff.1 e2
    obtain ⟨r, l₅, e7, rfl, _⟩ := List.map_eq_cons_iff.1 e6
    obtain ⟨r', l₆, e8, rfl, _⟩ := List.map_eq_cons_iff.1 e3
    exact h1 l₃ r l₅ r' l₆ i i' (by rw [e1, e4, e7, e8]) ((announces_enc _ _).1 hv) ((announces_enc _ _).1 hv')
  · intro v hv i hi
    obtain ⟨r, hr, rfl⟩ := List.mem_map.1 hv
    exact h2 r hr i ((announces_enc _ _).1 hi)
  · intro A v B e hv
    obtain ⟨l₁, l₂, e1, e2, e3⟩ := List.map_eq_append_iff.1 e
    obtain ⟨r, l₃, e4, rfl, _⟩ := List.map_eq_cons_iff.1 e3
    obtain ⟨r', hr', ha⟩ := h3 l₁ r l₃ (by rw [e1, e4]) (fun he => hv (by rw [respEvents_enc, he]; rfl))
    exact ⟨r.watchId, rfl, encResponse r', by rw [← e2]; exact List.mem_map_of_mem hr', (announces_enc _ _).2 ha⟩

theorem askOf_isCreate {m : WatchMsg} {a : WatchAsk} (h : askOf m = some a) : a.isCreate = m.isCreate ∧ a.isProgress = m.isProgress := by
  cases m with
  | create key re start wid =>
    by_cases hw : wid ≠ 0
    · rw [show askOf (.create key re start wid) = none from if_pos hw] at h; cases h
    · rw [show askOf (.create key re start wid) = some (.create key re start) from if_neg hw] at h
      cases h
      exact ⟨(decide_eq_true (Decidable.not_not.1 hw)).symm, rfl⟩
  | cancel id => cases h; exact ⟨rfl, rfl⟩
  | progress => cases h; exact ⟨rfl, rfl⟩
  | empty => cases h

theorem askOf_none {m : WatchMsg} (h : askOf m = none) : m.isCreate = false ∧ m.isProgress = false := by
  cases m with
  | create key re start wid =>
    by_cases hw : wid ≠ 0
    · exact ⟨decide_eq_false hw, rfl⟩
    · rw [show askOf (.create key re start wid) = some (.create key re start) from if_neg hw] at h; cases h
  | cancel id => cases h
  | progress => cases h
  | empty => exact ⟨rfl, rfl⟩

theorem filter_asked (p : WatchAsk → Bool) (q : WatchMsg → Bool) (h1 : ∀ m a, askOf m = some a → p a = q m) (h2 : ∀ m, askOf m = none → q m = false) (l : List WatchMsg) :
    (l.filterMap askOf).filter p = (l.filter q).filterMap askOf ∧ ((l.filterMap askOf).filter p).length = (l.filter q).length := by
  induction l with
  | nil => exact ⟨rfl, rfl⟩
  | cons m l ih =>
    cases hm : askOf m with
    | none =>
      rw [List.filterMap_cons_none hm, List.filter_cons_of_neg (by rw [h2 m hm]; decide)]
      exact ih
    | some a =>
      rw [List.filterMap_cons_some hm]
      have e := h1 m a hm
      by_cases hp : p a = true
      · rw [List.filter_cons_of_pos hp, List.filter_cons_of_pos (by rw [← e]; exact hp), List.filterMap_cons_some hm]
        exact ⟨congrArg _ ih.1, congrArg (· + 1) ih.2⟩
      · rw [List.filter_cons_of_neg hp, List.filter_cons_of_neg (by rw [← e]; exact hp)]
        exact ih

theorem asked_get (l : List WatchMsg) (i : Nat) {a : WatchAsk} (h : ((l.filterMap askOf).filter (·.isCreate))[i]? = some a) :
    ∃ m, (l.filter (·.isCreate))[i]? = some m ∧ askOf m = some a := by
  rw [(filter_asked (·.isCreate) (·.isCreate) (fun _ _ h => (askOf_isCreate h).1) (fun _ h => (askOf_none h).1) l).1] at h
  have hall : ∀ m ∈ l.filter (·.isCreate), ∃ a, askOf m = some a := by
    intro m hm
    cases e : askOf m with
    | some a => exact ⟨a, rfl⟩
    | none =>
      have := (List.mem_filter.1 hm).2
      rw [(askOf_none e).1] at this
      cases this
  generalize l.filter (·.isCreate) = l' at h hall
  induction l' generalizing i with
  | nil => cases h
  | cons m l' ih =>
    obtain ⟨b, hb⟩ := hall m List.mem_cons_self
    rw [List.filterMap_cons_some hb] at h
    cases i with
    | zero => cases h; exact ⟨m, rfl, hb⟩
    | succ i => exact ih i h fun m hm => hall m (List.mem_cons_of_mem _ hm)

/-- Every event the client has been sent describes a commit. The events for a watch that is not cancelled have strictly ascending revisions, they
are on keys that the create request of that number asked for, and they are those that have been received from the channel of the group, in that
order. -/
theorem C105_events_faithful (h : GReachable N c) (whole : c.mem.broken = false) {j : Nat} (hj : c.mem.index = some j) :
    ∃ g, c.mem.base.node.groupAt j = some g ∧
      (∀ v ∈ c.mem.out, ∀ w ∈ respEvents v, ∃ e, w = encEvent e ∧ ∃ k ∈ c.mem.base.sys.world.hist, Describes c.mem.base.sys.world.hist k e) ∧
      (∀ id, c.mem.out.flatMap (respEventsFor id) <+: (sentTo g.received id).map encEvent) ∧
      ∀ x ∈ g.watchers, ∃ es : List Event, c.mem.out.flatMap (respEventsFor x.id) = es.map encEvent ∧
        es.Pairwise (fun a b => a.kv.modRev < b.kv.modRev) ∧
        0 < x.id ∧ ∃ q, (c.mem.asked.filter (·.isCreate))[(x.id - 1).toNat]? = some q ∧ ∀ e ∈ es, q.asksFor e.kv.key := by
  obtain ⟨st, pend, tu, tp, tr, r⟩ := h.opened hj
  have hr : SReachable ⟨c.mem.base, st⟩ := r.sim.reach whole
  have hidx := r.sim.indexed whole hj
  obtain ⟨hn, g, hg, hi⟩ := hr.inv
  have hgm := List.mem_of_getElem? hg
  have hout := r.sim.out whole
  have hpre : ∀ id, ∃ es : List Event, c.mem.out.flatMap (respEventsFor id) = es.map encEvent ∧ es <+: sentTo g.received id := by
    intro id
    obtain ⟨l₁, l₂, e, e1, e2⟩ := List.map_eq_append_iff.1 hout.symm
    refine ⟨Verif.eventsFor l₁ id, by rw [← e1, respEventsFor_enc], ?_⟩
    rw [hi.sent id]
    refine ⟨Verif.eventsFor l₂ id ++ sentTo st.sending.toList id, ?_⟩
    rw [← List.append_assoc]
    congr 1
    change _ = Verif.eventsFor st.out id
    rw [e]
    unfold Verif.eventsFor
    rw [List.filter_append, List.flatMap_append]
  refine ⟨g, by rw [hidx]; exact hg, ?_, ?_, ?_⟩
  · intro v hv w hw
    have hv' : v ∈ st.out.map encResponse := by rw [← hout]; exact List.mem_append_left _ hv
    obtain ⟨r', hr', rfl⟩ := List.mem_map.1 hv'
    obtain ⟨e, he, rfl⟩ := List.mem_map.1 hw
    have hm : e ∈ Verif.eventsFor st.out r'.watchId :=
      List.mem_flatMap.2 ⟨r', List.mem_filter.2 ⟨hr', decide_eq_true rfl⟩, he⟩
    have hsent : e ∈ sentTo (g.received ++ g.queue) r'.watchId := by
      rw [sentTo_append, hi.sent]
      exact List.mem_append_left _ (List.mem_append_left _ hm)
    obtain ⟨u, hu, hx⟩ := List.mem_flatMap.1 hsent
    obtain ⟨p, hp, hep⟩ := List.mem_flatMap.1 hx
    exact ⟨e, rfl, (C31_faithful_partial hn hgm).1 u hu p (List.mem_filter.1 hp).1 e hep⟩
  · intro id
    obtain ⟨es, e1, l, e2⟩ := hpre id
    exact ⟨l.map encEvent, by rw [e1, ← e2, List.map_append]⟩
  · intro x hx
    obtain ⟨es, e1, e2⟩ := hpre x.id
    obtain ⟨o1, o2⟩ := C28_ordered hn hgm hx
    obtain ⟨l, hl⟩ := e2
    have hdel : g.delivered x = es ++ (l ++ sentTo g.queue x.id ++ x.events) := by
      unfold Group.delivered
      rw [sentTo_append, ← hl]
      simp
    rw [hdel] at o1 o2
    obtain ⟨g₁, hg₁, q⟩ := hr.qinv
    rw [hg] at hg₁
    cases hg₁
    obtain ⟨hpos, y, hy, hw⟩ := q.args x hx
    obtain ⟨g₂, hg₂, hcov⟩ := C87_covers hr
    rw [hg] at hg₂
    cases hg₂
    obtain ⟨y', hy', hcov⟩ := hcov x hx
    rw [hy] at hy'
    cases hy'
    obtain ⟨rest, _, hask⟩ := r.r.asked whole
    have hy₂ : ((c.mem.asked.filterMap askOf).filter (·.isCreate))[(x.id - 1).toNat]? = some y := by
      rw [hask, List.filter_append]
      have hlt := (List.getElem?_eq_some_iff.1 hy).1
      rw [List.getElem?_append_left hlt]
      exact hy
    obtain ⟨m, hm, ha⟩ := asked_get _ _ hy₂
    refine ⟨es, e1, (List.pairwise_append.1 o1).1, hpos, m, hm, fun e he => ?_⟩
    have := (hcov e.kv.key).1 (o2 e (List.mem_append_left _ he)).1
    cases m with
    | create key re start wid =>
      by_cases hw : wid ≠ 0
      · rw [show askOf (.create key re start wid) = none from if_pos hw] at ha; cases ha
      · rw [show askOf (.create key re start wid) = some (.create key re start) from if_neg hw] at ha
        cases ha
        exact this
    | cancel id => cases ha; exact this.elim
    | progress => cases ha; exact this.elim
    | empty => cases ha

/-- Nothing that was received from the channel is kept back: while `ServeUpdates` waits for the next update and nobody holds the mutex, the client
has been sent all of it. -/
theorem C105_forwards_all (h : GReachable N c) (whole : c.mem.broken = false) (free : c.mem.owner = none) {j : Nat} (hj : c.mem.index = some j)
    {ok : GroupUpdate → Ts} {cl : Ts} (hw : c.ts[1]? = some (.recvUpdate ok cl)) :
    ∃ g, c.mem.base.node.groupAt j = some g ∧ ∀ id, c.mem.out.flatMap (respEventsFor id) = (sentTo g.received id).map encEvent := by
  obtain ⟨st, pend, tu, tp, tr, r⟩ := h.opened hj
  have hr : SReachable ⟨c.mem.base, st⟩ := r.sim.reach whole
  obtain ⟨hn, g, hg, hi⟩ := hr.inv
  have hout := r.sim.out whole
  rw [(r.sim.free whole free).pend] at hout
  have htu : tu = .recvUpdate ok cl := by
    have hs := r.shape
    generalize c.ts = ts at hw hs
    cases hs with
    | one => cases hw
    | two => cases hw; rfl
    | three => cases hw; rfl
    | four => cases hw; rfl
    | ret => cases hw; rfl
  have hsend : st.sending = none := r.u.waiting (by rw [htu]; rfl) whole
  refine ⟨g, by rw [r.sim.indexed whole hj]; exact hg, fun id => ?_⟩
  rw [List.map_nil, List.append_nil] at hout
  rw [hout, respEventsFor_enc, hi.sent id]
  change _ = (Verif.eventsFor st.out id ++ sentTo st.sending.toList id).map encEvent
  rw [hsend]
  simp [sentTo]

/-- While `ServeRequests` waits for the next message and nobody holds the mutex, every create request and every progress request of the client has
been answered, exactly once and in order: the `k`-th create answer is for the `k`-th create request. -/
theorem C105_answered (h : GReachable N c) (whole : c.mem.broken = false) (free : c.mem.owner = none)
    {ok : WatchMsg → Ts} {er : ApiErr → Ts} (hw : c.ts[3]? = some (.recv ok er)) :
    (c.mem.out.filter isCreateAnswer).length = (c.mem.asked.filter (·.isCreate)).length ∧
    (∀ k v, (c.mem.out.filter isCreateAnswer)[k]? = some v → AnswersCreate (k + 1) v) ∧
    (c.mem.out.filter isProgressAnswer).length = (c.mem.asked.filter (·.isProgress)).length := by
  rcases h.rel with g | ⟨j, st, pend, tu, tp, tr, r⟩
  · exfalso
    rcases g.ts with e | ⟨_, e⟩ <;> rw [e] at hw <;> cases hw
  have hr : SReachable ⟨c.mem.base, st⟩ := r.sim.reach whole
  have hout := r.sim.out whole
  rw [(r.sim.free whole free).pend, List.map_nil, List.append_nil] at hout
  have htr : tr = .recv ok er := by
    have hs := r.shape
    generalize c.ts = ts at hw hs
    cases hs with
    | one => cases hw
    | two => cases hw
    | three => cases hw
    | four => cases hw; rfl
    | ret => cases hw; rfl
  obtain ⟨next, hat⟩ := r.r.waiting (by rw [htr]; rfl) whole
  obtain ⟨q1, q2, q3, _⟩ := C87_answered_in_order_partial hr
  rw [show (⟨c.mem.base, st⟩ : SSys).stream.creating = none from hat.creating] at q1
  have e1 : c.mem.out.filter isCreateAnswer = (st.out.filter (·.answersCreate)).map encResponse := by
    rw [hout, List.filter_map]
    rfl
  have e2 : c.mem.out.filter isProgressAnswer = (st.out.filter (·.answersProgress)).map encResponse := by
    rw [hout, List.filter_map]
    congr 1
    exact List.filter_congr fun r _ => isProgressAnswer_enc r
  have hask := hat.asked
  rw [List.append_nil] at hask
  rw [e1, e2, List.length_map, List.length_map]
  refine ⟨?_, ?_, ?_⟩
  · rw [← (filter_asked (·.isCreate) (·.isCreate) (fun _ _ h => (askOf_isCreate h).1) (fun _ h => (askOf_none h).1) c.mem.asked).2, hask]
    simpa using q1
  · intro k v hv
    rw [List.getElem?_map] at hv
    cases hr : (st.out.filter (·.answersCreate))[k]? with
    | none => rw [hr] at hv; cases hv
    | some r =>
      rw [hr] at hv
      cases hv
      obtain ⟨a1, a2⟩ := q2 k r hr
      refine ⟨by rw [respEvents_enc, a1]; rfl, r.watchId, rfl, ?_⟩
      rw [flag_created, flag_canceled]
      exact a2
  · rw [← (filter_asked (·.isProgress) (·.isProgress) (fun _ _ h => (askOf_isCreate h).2) (fun _ h => (askOf_none h).2) c.mem.asked).2, hask]
    exact q3

/-- When `ServeRequests` has removed a watch that was announced, the client is never sent an event for it that had not been published before, however the
execution goes on. -/
theorem C105_cancelled (h : GReachable N c) (whole : c.mem.broken = false) {i j : Nat} (hj : c.mem.index = some j) {id : Int} {k t' : Ts} {m' : SMem}
    (ht : c.ts[i]? = some (.unwatch id k)) (st : TStep i c.mem (.unwatch id k) m' t') {v : V} (hv : v ∈ c.mem.out) (ha : Announces v id)
    {d : GS} (later : GSteps { c with mem := m', ts := c.ts.set i t' } d) :
    ∃ g, c.mem.base.node.groupAt j = some g ∧
      d.mem.out.flatMap (respEventsFor id) <+: (sentTo (g.received ++ g.queue) id).map encEvent := by
  obtain ⟨s, pend, tu, tp, tr, r⟩ := h.opened hj
  have hr : SReachable ⟨c.mem.base, s⟩ := r.sim.reach whole
  obtain ⟨hn, g, hg, hi⟩ := hr.inv
  obtain ⟨s', tr', hr', st1, hask, r'⟩ := r.unwatch ht st whole
  obtain ⟨_, _, _, _, _, r''⟩ := r'.steps later
  obtain ⟨x, hx, _, hp⟩ := r''.sent
  have hid : id < s.next := by
    have hv' : v ∈ s.out.map encResponse := by rw [← r.sim.out whole]; exact List.mem_append_left _ hv
    obtain ⟨w, hw, rfl⟩ := List.mem_map.1 hv'
    have hw2 := (announces_enc _ _).1 ha
    refine (hi.annId id ?_).2
    unfold announcedIds
    simp only [WatchResponse.announces, Bool.and_eq_true, decide_eq_true_eq] at hw2
    rw [List.mem_map]
    exact ⟨w, List.mem_filter.2 ⟨hw, by simp [hw2.1]⟩, hw2.2⟩
  obtain ⟨c1, _, _⟩ := C88_no_event_after_cancel hr st1 hask hid hx.2 hg
  refine ⟨g, by rw [r.sim.indexed whole hj]; exact hg, ?_⟩
  have hpre : d.mem.out.flatMap (respEventsFor id) <+: (x.stream.out.map encResponse).flatMap (respEventsFor id) := by
    obtain ⟨l, hl⟩ := hp
    exact ⟨l.flatMap (respEventsFor id), by rw [← hl, List.flatMap_append]⟩
  rw [respEventsFor_enc] at hpre
  refine hpre.trans ?_
  obtain ⟨l, hl⟩ := c1
  exact ⟨l.map encEvent, by rw [← hl, List.map_append]⟩

/-- A goroutine that sends to the client, that reads or changes the flags, or that calls `Watch` holds the mutex: no two of them do it at a time.
(`Send` of a gRPC stream must not be called concurrently.) -/
theorem C105_mutual_exclusion (h : GReachable N c) {i : Nat} {t : Ts} (ht : c.ts[i]? = some t)
    (hg : (∃ r ok er, t = .send r ok er) ∨ (∃ k, t = .getReport k) ∨ (∃ id b k, t = .setReport id b k) ∨ (∃ id k, t = .delReport id k) ∨
      (∃ id lo hi s ok co er, t = .watch id lo hi s ok co er) ∨ (∃ ok co er, t = .watching ok co er) ∨ ∃ k, t = .unlock k) :
    c.mem.owner = some i := by
  have hg : t.guarded = true := by
    rcases hg with ⟨_, _, _, rfl⟩ | ⟨_, rfl⟩ | ⟨_, _, _, rfl⟩ | ⟨_, _, rfl⟩ | ⟨_, _, _, _, _, _, _, rfl⟩ | ⟨_, _, _, rfl⟩ | ⟨_, rfl⟩ <;> rfl
  rcases h.rel with g | ⟨j, st, pend, tu, tp, tr, r⟩
  · exfalso
    have e0 : i = 0 := by
      rcases g.ts with e | ⟨_, e⟩ <;> rw [e] at ht <;> (match i, ht with | 0, _ => rfl)
    subst e0
    rcases g.ts with e | ⟨_, e⟩ <;> rw [e] at ht
    · rw [handler_tree] at ht; cases ht; cases hg
    · cases ht; cases hg
  · have hs := r.shape
    generalize c.ts = ts at ht hs
    cases hs with
    | one =>
      match i, ht with
      | 0, ht => cases ht; cases hg
    | two =>
      match i, ht with
      | 0, ht => cases ht; cases hg
      | 1, ht => cases ht; exact r.u.guarded hg
    | three =>
      match i, ht with
      | 0, ht => cases ht; cases hg
      | 1, ht => cases ht; exact r.u.guarded hg
      | 2, ht => cases ht; exact r.p.guarded hg
    | four =>
      match i, ht with
      | 0, ht => cases ht; cases hg
      | 1, ht => cases ht; exact r.u.guarded hg
      | 2, ht => cases ht; exact r.p.guarded hg
      | 3, ht => cases ht; exact r.r.guarded hg
    | ret =>
      match i, ht with
      | 0, ht => cases ht; cases hg
      | 1, ht => cases ht; exact r.u.guarded hg
      | 2, ht => cases ht; exact r.p.guarded hg
      | 3, ht => cases ht; exact r.r.guarded hg

theorem PPh.returned {m : SMem} {st : Stream} {pend : List WatchResponse} {vs : List V} {t : Ts} (h : PPh m st pend t) (ht : t = .ret vs) :
    m.ended = true ∨ m.broken = true := by
  cases h with
  | idle n => cases n <;> cases ht
  | loop l n ho hl =>
    cases l with
    | nil => cases ht
    | cons p l =>
      obtain ⟨id, b⟩ := p
      obtain rfl : b = true := hl (id, b) (by simp)
      cases ht
  | ended v he => exact he
  | _ => cases ht

/-- The handler of an open stream returns only when the client is gone or cannot be sent to: `eg.Wait` waits for `ServeProgress`, which waits for the
context of the gRPC stream, not for that of the `errgroup` (`watch.go:33-38,116-129`). A client is not told the error that another goroutine has
returned while it is connected, nor that the server will not send anything any more. -/
theorem C106_never_told_counterexample (h : GReachable N c) {j : Nat} (hj : c.mem.index = some j) {vs : List V} (ht : c.ts[0]? = some (.ret vs)) :
    c.mem.ended = true ∨ c.mem.broken = true := by
  obtain ⟨st, pend, tu, tp, tr, r⟩ := h.opened hj
  have h2 : 2 ∈ c.finished ∧ c.ts[2]? = some tp := by
    have hall := r.all
    have hs := r.shape
    generalize c.ts = ts at ht hall hs
    cases hs with
    | ret v => exact ⟨(hall v rfl).2.1, rfl⟩
    | one => cases ht
    | two => cases ht
    | three => cases ht
    | four => cases ht
  obtain ⟨_, v, hv⟩ := r.fin 2 h2.1
  rw [h2.2] at hv
  cases hv
  exact r.p.returned rfl

theorem UPh.notStuck {m : SMem} {st : Stream} {pend : List WatchResponse} {t : Ts} (h : UPh m st pend t) : t ≠ .stuck := by
  cases h with
  | idle n => cases n <;> nofun
  | loop l => cases l <;> nofun
  | _ => nofun

theorem PPh.notStuck {m : SMem} {st : Stream} {pend : List WatchResponse} {t : Ts} (h : PPh m st pend t) : t ≠ .stuck := by
  cases h with
  | idle n => cases n <;> nofun
  | loop l n ho hl =>
    cases l with
    | nil => nofun
    | cons p l =>
      obtain ⟨id, b⟩ := p
      obtain rfl : b = true := hl (id, b) (by simp)
      nofun
  | _ => nofun

theorem RPh.notStuck {m : SMem} {st : Stream} {pend : List WatchResponse} {t : Ts} (h : RPh m st pend t) : t ≠ .stuck := by
  cases h with
  | idle n => cases n <;> nofun
  | _ => nofun

/-- No goroutine panics or leaves the fragment of Go. -/
theorem C105_never_stuck (h : GReachable N c) {i : Nat} : c.ts[i]? ≠ some .stuck := by
  intro ht
  rcases h.rel with g | ⟨j, st, pend, tu, tp, tr, r⟩
  · have e0 : i = 0 := by
      rcases g.ts with e | ⟨_, e⟩ <;> rw [e] at ht <;> (match i, ht with | 0, _ => rfl)
    subst e0
    rcases g.ts with e | ⟨_, e⟩ <;> rw [e] at ht
    · rw [handler_tree] at ht; cases ht
    · cases ht
  · have hs := r.shape
    have hu := r.u.notStuck
    have hp := r.p.notStuck
    have hr := r.r.notStuck
    generalize c.ts = ts at ht hs
    cases hs with
    | one =>
      match i, ht with
      | 0, ht => cases ht
    | two =>
      match i, ht with
      | 0, ht => cases ht
      | 1, ht => cases ht; exact hu rfl
    | three =>
      match i, ht with
      | 0, ht => cases ht
      | 1, ht => cases ht; exact hu rfl
      | 2, ht => cases ht; exact hp rfl
    | four =>
      match i, ht with
      | 0, ht => cases ht
      | 1, ht => cases ht; exact hu rfl
      | 2, ht => cases ht; exact hp rfl
      | 3, ht => cases ht; exact hr rfl
    | ret =>
      match i, ht with
      | 0, ht => cases ht
      | 1, ht => cases ht; exact hu rfl
      | 2, ht => cases ht; exact hp rfl
      | 3, ht => cases ht; exact hr rfl

/-! ### Concrete schedules -/

/-- A goroutine has returned this error. -/
def Ts.isErr (e : ApiErr) : Ts → Bool
  | .ret [.ext (.err e')] => decide (e' = e)
  | _ => false

/-- It waits in `eg.Wait`. -/
def Ts.isAwait : Ts → Bool
  | .await _ => true
  | _ => false

/-- It is about to write `ws.revision`. -/
def Ts.isSetRev : Ts → Bool
  | .setRev _ _ => true
  | _ => false

/-- It is about to read it. -/
def Ts.isGetRev : Ts → Bool
  | .getRev _ => true
  | _ => false

theorem Ts.isErr_eq {e : ApiErr} {t : Ts} (h : t.isErr e = true) : t = .ret [apiErrV e] := by
  unfold Ts.isErr at h
  split at h
  · rw [of_decide_eq_true h]; rfl
  · cases h

theorem Ts.isAwait_eq {t : Ts} (h : t.isAwait = true) : ∃ k, t = .await k := by
  unfold Ts.isAwait at h
  split at h
  · exact ⟨_, rfl⟩
  · cases h

theorem Ts.isSetRev_eq {t : Ts} (h : t.isSetRev = true) : ∃ n k, t = .setRev n k := by
  unfold Ts.isSetRev at h
  split at h
  · exact ⟨_, _, rfl⟩
  · cases h

theorem Ts.isGetRev_eq {t : Ts} (h : t.isGetRev = true) : ∃ k, t = .getRev k := by
  unfold Ts.isGetRev at h
  split at h
  · exact ⟨_, rfl⟩
  · cases h

/-- A check on a goroutine. -/
def GS.is (c : GS) (i : Nat) (p : Ts → Bool) : Bool :=
  match c.ts[i]? with
  | some t => p t
  | none => false

theorem GS.is_eq {i : Nat} {p : Ts → Bool} (h : c.is i p = true) : ∃ t, c.ts[i]? = some t ∧ p t = true := by
  unfold GS.is at h
  split at h
  · exact ⟨_, by assumption, h⟩
  · cases h

/-- The handler opens the group and starts the goroutines. -/
def startActs : List StAct := [.opened, .spawn, .spawn, .spawn]

/-- A poll of the node. -/
def pollActs : List StAct := [.node .pollStart, .node (.pollExec .ok), .node .pollDone]

/-- The client asks for a watch with an id of its own choice, which is not supported: `ServeRequests` returns the error to the `errgroup`, which nobody looks
at while the client stays (`C106_never_told_counterexample`). -/
theorem C106_refused_in_silence_counterexample : ∃ c, GReachable 20 c ∧ c.mem.index = some 0 ∧ c.mem.asked = [.create [0x2f] [0x30] 0 7] ∧
    c.ts[3]? = some (.ret [apiErrV .unsupported]) ∧ 3 ∈ c.finished ∧ (∃ k, c.ts[0]? = some (.await k)) ∧ c.mem.out.length = 0 ∧
    c.mem.ended = false ∧ c.mem.broken = false := by
  obtain ⟨c, h, hP⟩ := strun_check (N := 20) (sc := { setup := Demo.setup, start := 4, acts := [.pollStart, .pollExec .ok, .pollDone] })
    (as := startActs ++ [.msg (.create [0x2f] [0x30] 0 7), .finish 3])
    (fun c => decide (c.mem.index = some 0) && decide (c.mem.asked = [.create [0x2f] [0x30] 0 7]) && c.is 3 (Ts.isErr .unsupported) && decide (3 ∈ c.finished) &&
      c.is 0 Ts.isAwait && decide (c.mem.out.length = 0) && !c.mem.ended && !c.mem.broken) (by decide +kernel)
  simp only [Bool.and_eq_true, decide_eq_true_eq, Bool.not_eq_true'] at hP
  obtain ⟨⟨⟨⟨⟨⟨⟨h1, h2⟩, h3⟩, h4⟩, h5⟩, h6⟩, h7⟩, h8⟩ := hP
  obtain ⟨t3, e3, i3⟩ := GS.is_eq h3
  obtain ⟨t0, e0, i0⟩ := GS.is_eq h5
  obtain ⟨k, rfl⟩ := Ts.isAwait_eq i0
  exact ⟨c, h, h1, h2, by rw [e3, Ts.isErr_eq i3], h4, ⟨k, e0⟩, h6, h7, h8⟩

/-- `ws.revision` is written without the mutex while another goroutine reads it: a data race (`watch.go:88,193-201`). -/
theorem C106_race_counterexample : ∃ c, GReachable 20 c ∧ (∃ n k, c.ts[1]? = some (.setRev n k)) ∧ (∃ k, c.ts[3]? = some (.getRev k)) ∧
    c.mem.owner = some 3 := by
  obtain ⟨c, h, hP⟩ := strun_check (N := 20) (sc := { setup := Demo.setup, start := 4, acts := [.pollStart, .pollExec .ok, .pollDone] })
    (as := startActs ++ pollActs ++ [.msg .progress, .go 3, .go 1])
    (fun c => c.is 1 Ts.isSetRev && c.is 3 Ts.isGetRev && decide (c.mem.owner = some 3)) (by decide +kernel)
  simp only [Bool.and_eq_true, decide_eq_true_eq] at hP
  obtain ⟨⟨h1, h2⟩, h3⟩ := hP
  obtain ⟨t1, e1, i1⟩ := GS.is_eq h1
  obtain ⟨t3, e3, i3⟩ := GS.is_eq h2
  obtain ⟨n, k, rfl⟩ := Ts.isSetRev_eq i1
  obtain ⟨k', rfl⟩ := Ts.isGetRev_eq i3
  exact ⟨c, h, ⟨n, k, e1⟩, ⟨k', e3⟩, h3⟩

/-- A response: watch, created, cancelled, how many events. -/
def viewOf (v : V) : Option (Int × Bool × Bool × Nat) :=
  match fieldOf n!"WatchId" v with
  | some (.int j) => some (j, flagOf n!"Created" v, flagOf n!"Canceled" v, (respEvents v).length)
  | _ => none

/-- The client watches all keys, `/b` is deleted, the poller sees it, and `ServeUpdates` sends it on; then the client asks for progress. -/
def forwardActs : List StAct :=
  startActs ++ [.msg (.create [0x2f] [0x30] 0 0), .go 3, .go 3, .go 3, .go 3, .go 3, .go 3, .calls [(.txn true (deleteTxn Demo.kb 4), oks 1)]] ++ pollActs ++
    [.go 1, .go 1, .go 1, .go 1, .go 1, .go 1, .go 1, .msg .progress, .go 3, .go 3, .go 3, .go 3]

/-- All that the theorems above ask for is met: the watch is there, it has been announced and got its event, the progress request has been answered. -/
theorem C105_example : ∃ c, GReachable 20 c ∧ c.mem.broken = false ∧ c.mem.owner = none ∧ c.mem.index = some 0 ∧
    (∃ ok cl, c.ts[1]? = some (.recvUpdate ok cl)) ∧ (∃ ok er, c.ts[3]? = some (.recv ok er)) ∧
    c.mem.asked = [.create [0x2f] [0x30] 0 0, .progress] ∧
    c.mem.out.map viewOf = [some (1, true, false, 0), some (1, false, false, 1), some (-1, false, false, 0)] ∧
    ∃ g, c.mem.base.node.groupAt 0 = some g ∧ g.watchers.map (·.id) = [1] := by
  obtain ⟨c, h, hP⟩ := strun_check (N := 20) (sc := { setup := Demo.setup, start := 4, acts := [.pollStart, .pollExec .ok, .pollDone] })
    (as := forwardActs)
    (fun c => !c.mem.broken && decide (c.mem.owner = none) && decide (c.mem.index = some 0) && c.is 1 Ts.isRecvUpdate && c.is 3 Ts.isRecv &&
      decide (c.mem.asked = [.create [0x2f] [0x30] 0 0, .progress]) &&
      decide (c.mem.out.map viewOf = [some (1, true, false, 0), some (1, false, false, 1), some (-1, false, false, 0)]) &&
      match c.mem.base.node.groupAt 0 with
      | some g => decide (g.watchers.map (·.id) = [1])
      | none => false) (by decide +kernel)
  simp only [Bool.and_eq_true, decide_eq_true_eq, Bool.not_eq_true'] at hP
  obtain ⟨⟨⟨⟨⟨⟨⟨h1, h2⟩, h3⟩, h4⟩, h5⟩, h6⟩, h7⟩, h8⟩ := hP
  obtain ⟨t1, e1, i1⟩ := GS.is_eq h4
  obtain ⟨t3, e3, i3⟩ := GS.is_eq h5
  refine ⟨c, h, h1, h2, h3, ?_, ?_, h6, h7, ?_⟩
  · cases t1 <;> first | exact ⟨_, _, e1⟩ | cases i1
  · cases t3 <;> first | exact ⟨_, _, e3⟩ | cases i3
  · split at h8
    · exact ⟨_, by assumption, of_decide_eq_true h8⟩
    · cases h8

/-- The client cancels its watch: what `C105_cancelled` asks for. -/
example : ∃ c, GReachable 20 c ∧ c.mem.broken = false ∧ c.mem.index = some 0 ∧ (∃ k, c.ts[3]? = some (.unwatch 1 k) ∧ ∃ m', TStep 3 c.mem (.unwatch 1 k) m' k) ∧
    ∃ v ∈ c.mem.out, Announces v 1 := by
  obtain ⟨c, h, hP⟩ := strun_check (N := 20) (sc := { setup := Demo.setup, start := 4, acts := [.pollStart, .pollExec .ok, .pollDone] })
    (as := forwardActs ++ [.msg (.cancel 1)])
    (fun c => !c.mem.broken && decide (c.mem.index = some 0) && c.is 3 (fun t => decide (t.unwatches = some 1)) && c.is 3 (fun t => (c.mem.go 3 t).isSome) &&
      c.mem.out.any (fun v => flagOf n!"Created" v && (match fieldOf n!"Canceled" v with | some (.bool false) => true | _ => false) &&
        match fieldOf n!"WatchId" v with | some (.int j) => decide (j = 1) | _ => false)) (by decide +kernel)
  simp only [Bool.and_eq_true, decide_eq_true_eq, Bool.not_eq_true', List.any_eq_true] at hP
  obtain ⟨⟨⟨⟨h1, h2⟩, h3⟩, h4⟩, v, hv, ⟨h5, h6⟩, h7⟩ := hP
  obtain ⟨t, e, i⟩ := GS.is_eq h3
  obtain ⟨t', e', i'⟩ := GS.is_eq h4
  rw [e] at e'
  cases e'
  refine ⟨c, h, h1, h2, ?_, v, hv, ?_, ?_, ?_⟩
  · cases t with
    | unwatch id k =>
      cases of_decide_eq_true i
      obtain ⟨⟨m', k'⟩, hk⟩ := Option.isSome_iff_exists.1 i'
      have st := SMem.go_step hk
      cases st
      exact ⟨_, e, _, .unwatch _ _ _ _ _ _ (by assumption) (by assumption)⟩
    | _ => cases of_decide_eq_true i
  · unfold flagOf at h5
    split at h5
    · rename_i b hb; rw [hb, h5]
    · cases h5
  · split at h6
    · assumption
    · cases h6
  · split at h7
    · rename_i b hb; rw [hb, of_decide_eq_true h7]
    · cases h7

/-! ## C106 -/

/-- The handler has returned `v`: all three goroutines have returned, and unless `v` is `nil` it is what one of them returned. -/
def Told (c : GS) : Prop :=
  (c.err = .nil ∨ ∃ k ∈ c.finished, c.ts[k]? = some (.ret [c.err])) ∧
  ∀ v, c.ts[0]? = some (.ret [v]) → c.mem.index ≠ none → v = .nil ∨ ∃ k ∈ c.finished, c.ts[k]? = some (.ret [v])

theorem firstErr_cases (err v : V) : firstErr err v = err ∨ (err = .nil ∧ firstErr err v = v) := by
  cases err <;> first | exact .inl rfl | exact .inr ⟨rfl, rfl⟩

theorem Told.keep {c d : GS} (h : Told c) (hf : d.finished = c.finished) (he : d.err = c.err) (hk : ∀ k ∈ c.finished, d.ts[k]? = c.ts[k]?)
    (h0 : d.ts[0]? = c.ts[0]? ∨ ∀ v, d.ts[0]? = some (.ret [v]) → d.mem.index ≠ none → v = c.err) (hi : d.mem.index ≠ none → c.mem.index ≠ none ∨ ∀ v, d.ts[0]? ≠ some (.ret [v])) : Told d := by
  have lift : ∀ v, (v = .nil ∨ ∃ k ∈ c.finished, c.ts[k]? = some (.ret [v])) → v = .nil ∨ ∃ k ∈ d.finished, d.ts[k]? = some (.ret [v]) := by
    rintro v (e | ⟨k, hkf, e⟩)
    · exact .inl e
    · exact .inr ⟨k, by rw [hf]; exact hkf, by rw [hk k hkf]; exact e⟩
  refine ⟨by rw [he]; exact lift _ h.1, fun v hv hx => ?_⟩
  rcases hi hx with hx' | hn
  · rcases h0 with h0 | h0
    · rw [h0] at hv
      exact lift v (h.2 v hv hx')
    · rw [h0 v hv hx]
      exact lift _ h.1
  · exact absurd hv (hn v)

theorem GReachable.told (h : GReachable N c) : Told c := by
  induction h with
  | init a _ =>
    refine ⟨.inl rfl, fun v _ hx => absurd rfl hx⟩
  | @step c d hr st ih =>
    have hrel := hr.rel
    have hfin : ∀ k ∈ c.finished, 0 < k ∧ ∃ v, c.ts[k]? = some (.ret [v]) := by
      rcases hrel with g | ⟨j, s, pend, tu, tp, tr, r⟩
      · rw [g.finished]; exact fun k hk => nomatch hk
      · exact r.fin
    have set0 : ∀ (t : Ts), ∀ k ∈ c.finished, (c.ts.set 0 t)[k]? = c.ts[k]? := by
      intro t k hk
      rw [List.getElem?_set_ne (by have := (hfin k hk).1; omega)]
    cases st with
    | thread i t t' m' ht h =>
      refine ih.keep rfl rfl ?_ ?_ (fun hx => .inl (by rw [← h.index_same]; exact hx))
      · intro k hk
        obtain ⟨_, v, hv⟩ := hfin k hk
        by_cases e : i = k
        · subst e
          rw [ht] at hv
          cases hv
          exact h.not_ret.elim
        · exact List.getElem?_set_ne e
      · have : i ≠ 0 := by
          rcases hrel with g | ⟨j, s, pend, tu, tp, tr, r⟩
          · rintro rfl
            rcases g.ts with e | ⟨_, e⟩ <;> rw [e] at ht <;> cases ht
            · rw [handler_tree] at h; cases h
            · cases h
          · rcases r.shape.act ht h with ⟨e, _⟩ | ⟨e, _⟩ | ⟨e, _⟩ <;> omega
        exact .inl (List.getElem?_set_ne this)
    | opened i k er ht =>
      rcases hrel with g | ⟨j, s, pend, tu, tp, tr, r⟩
      · rcases g.ts with e | ⟨_, e⟩
        · have e0 : i = 0 := by
            rw [e] at ht
            match i, ht with
            | 0, _ => rfl
          subst e0
          rw [e, handler_tree] at ht
          cases ht
          refine ih.keep rfl rfl (set0 _) (.inr ?_) (fun _ => .inr ?_)
          · intro v hv
            change (c.ts.set 0 _)[0]? = _ at hv
            rw [e] at hv
            cases hv
          · intro v hv
            change (c.ts.set 0 _)[0]? = _ at hv
            rw [e] at hv
            cases hv
        · exfalso
          rw [e] at ht
          match i, ht with
          | 0, ht => cases ht
      · exfalso
        obtain rfl := r.handler ht rfl
        have hsh := r.shape
        generalize c.ts = ts at ht hsh
        cases hsh <;> cases ht
    | notOpened i k er e ht =>
      rcases hrel with g | ⟨j, s, pend, tu, tp, tr, r⟩
      · obtain ⟨b, hm⟩ := g.mem
        refine ⟨?_, fun v _ hx => absurd (by rw [hm]) hx⟩
        rcases ih.1 with e1 | ⟨k, hk, _⟩
        · exact .inl e1
        · rw [g.finished] at hk; cases hk
      · exfalso
        obtain rfl := r.handler ht rfl
        have hsh := r.shape
        generalize c.ts = ts at ht hsh
        cases hsh <;> cases ht
    | spawn i t k ht =>
      rcases hrel with g | ⟨j, s, pend, tu, tp, tr, r⟩
      · exfalso
        have e0 : i = 0 := by
          rcases g.ts with e | ⟨_, e⟩ <;> rw [e] at ht <;> (match i, ht with | 0, _ => rfl)
        subst e0
        rcases g.ts with e | ⟨_, e⟩ <;> rw [e] at ht
        · rw [handler_tree] at ht; cases ht
        · cases ht
      · obtain rfl := r.handler ht rfl
        refine ih.keep rfl rfl ?_ (.inr ?_) (fun _ => .inl (by rw [r.index]; nofun))
        · intro q hq
          obtain ⟨h0, v, hv⟩ := hfin q hq
          have hl : q < c.ts.length := (List.getElem?_eq_some_iff.1 hv).1
          change (c.ts.set 0 k ++ [t])[q]? = _
          rw [List.getElem?_append_left (by rw [List.length_set]; exact hl), List.getElem?_set_ne (by omega)]
        · intro v hv
          exfalso
          have hsh := r.shape
          change (c.ts.set 0 k ++ [t])[0]? = _ at hv
          generalize c.ts = ts at ht hsh hv
          cases hsh <;> cases ht <;> cases hv
    | finish i v ht h0 hn =>
      have up : ∀ w, (w = .nil ∨ ∃ k ∈ c.finished, c.ts[k]? = some (.ret [w])) → w = .nil ∨ ∃ k ∈ c.finished ++ [i], c.ts[k]? = some (.ret [w]) :=
        fun w h => h.imp id fun ⟨k, hk, e⟩ => ⟨k, List.mem_append_left _ hk, e⟩
      refine ⟨?_, fun w hw hx => up w (ih.2 w hw hx)⟩
      rcases firstErr_cases c.err v with e | ⟨_, e⟩
      · change firstErr c.err v = .nil ∨ ∃ k ∈ c.finished ++ [i], c.ts[k]? = some (.ret [firstErr c.err v])
        rw [e]
        exact up _ ih.1
      · change firstErr c.err v = .nil ∨ ∃ k ∈ c.finished ++ [i], c.ts[k]? = some (.ret [firstErr c.err v])
        rw [e]
        exact .inr ⟨i, List.mem_append_right _ (List.mem_singleton.2 rfl), ht⟩
    | await i k ht all =>
      rcases hrel with g | ⟨j, s, pend, tu, tp, tr, r⟩
      · exfalso
        have e0 : i = 0 := by
          rcases g.ts with e | ⟨_, e⟩ <;> rw [e] at ht <;> (match i, ht with | 0, _ => rfl)
        subst e0
        rcases g.ts with e | ⟨_, e⟩ <;> rw [e] at ht
        · rw [handler_tree] at ht; cases ht
        · cases ht
      · obtain rfl := r.handler ht rfl
        refine ih.keep rfl rfl (set0 _) (.inr ?_) (fun _ => .inl (by rw [r.index]; nofun))
        intro v hv _
        have hsh := r.shape
        change (c.ts.set 0 (k c.err))[0]? = _ at hv
        generalize c.ts = ts at ht hsh hv
        cases hsh <;> cases ht
        cases hv
        rfl
    | envBefore b hst no => exact ih.keep rfl rfl (fun _ _ => rfl) (.inl rfl) (fun hx => .inl hx)
    | env b j hst hj quiet => exact ih.keep rfl rfl (fun _ _ => rfl) (.inl rfl) (fun hx => .inl hx)
    | gone => exact ih.keep rfl rfl (fun _ _ => rfl) (.inl rfl) (fun hx => .inl hx)

/-- The handler of an open stream returns when all three goroutines have returned, and the error it gives the client is one that they returned. Missing: that it returns
when one of them has failed (the counterexamples above). -/
theorem C106_returns_their_error_partial (h : GReachable N c) {j : Nat} (hj : c.mem.index = some j) {vs : List V} (ht : c.ts[0]? = some (.ret vs)) :
    (∀ i, 0 < i → i ≤ 3 → ∃ v, c.ts[i]? = some (.ret [v])) ∧
    ∃ v, vs = [v] ∧ (v = .nil ∨ ∃ i, 0 < i ∧ c.ts[i]? = some (.ret [v])) := by
  obtain ⟨st, pend, tu, tp, tr, r⟩ := h.opened hj
  have hv : ∃ v, vs = [v] := by
    have hs := r.shape
    generalize c.ts = ts at ht hs
    cases hs <;> cases ht
    exact ⟨_, rfl⟩
  obtain ⟨v, rfl⟩ := hv
  obtain ⟨f1, f2, f3⟩ := r.all v ht
  refine ⟨?_, v, rfl, ?_⟩
  · intro i h0 h3
    have hi : i = 1 ∨ i = 2 ∨ i = 3 := by omega
    rcases hi with rfl | rfl | rfl
    · exact (r.fin 1 f1).2
    · exact (r.fin 2 f2).2
    · exact (r.fin 3 f3).2
  · rcases h.told.2 v ht (by rw [hj]; nofun) with e | ⟨k, hk, e⟩
    · exact .inl e
    · exact .inr ⟨k, (r.fin k hk).1, e⟩

/-- Only `ServeUpdates` writes the revision of the stream. Missing: that it does so under the mutex (`C106_race_counterexample`). -/
theorem C106_one_writer_partial (h : GReachable N c) {i : Nat} {n : Int} {k : Ts} (ht : c.ts[i]? = some (.setRev n k)) : i = 1 := by
  rcases h.rel with g | ⟨j, st, pend, tu, tp, tr, r⟩
  · exfalso
    have e0 : i = 0 := by
      rcases g.ts with e | ⟨_, e⟩ <;> rw [e] at ht <;> (match i, ht with | 0, _ => rfl)
    subst e0
    rcases g.ts with e | ⟨_, e⟩ <;> rw [e] at ht
    · rw [handler_tree] at ht; cases ht
    · cases ht
  · have st1 : TStep i c.mem (.setRev n k) { c.mem with revision := n } k := .setRev _ _ _
    rcases r.shape.act ht st1 with ⟨e, _⟩ | ⟨_, e, _⟩ | ⟨_, e, _⟩
    · exact e
    · exfalso
      have hp := r.p
      have ht' : tp.isSetRev = true := by rw [← e]; rfl
      cases hp with
      | idle n => cases n <;> cases ht'
      | loop l n ho hl =>
        cases l with
        | nil => cases ht'
        | cons p l =>
          obtain ⟨id, b⟩ := p
          obtain rfl : b = true := hl (id, b) (by simp)
          cases ht'
      | _ => cases ht'
    · exfalso
      have hr := r.r
      have ht' : tr.isSetRev = true := by rw [← e]; rfl
      cases hr with
      | idle n => cases n <;> cases ht'
      | _ => cases ht'

/-- The client asks for an unsupported watch and leaves; then its channel is closed and all goroutines return, and with them the handler: its error is the one of `ServeRequests`. -/
theorem C106_example : ∃ c, GReachable 20 c ∧ c.mem.index = some 0 ∧ c.mem.ended = true ∧ c.ts[0]? = some (.ret [apiErrV .unsupported]) := by
  obtain ⟨c, h, hP⟩ := strun_check (N := 20) (sc := { setup := Demo.setup, start := 4, acts := [.pollStart, .pollExec .ok, .pollDone] })
    (as := startActs ++ [.msg (.create [0x2f] [0x30] 0 7), .finish 3, .gone, .done 2, .finish 2, .node (.cancel 0), .node (.afterFunc 0), .go 1, .finish 1, .await])
    (fun c => decide (c.mem.index = some 0) && c.mem.ended && c.is 0 (Ts.isErr .unsupported)) (by decide +kernel)
  simp only [Bool.and_eq_true, decide_eq_true_eq] at hP
  obtain ⟨⟨h1, h2⟩, h3⟩ := hP
  obtain ⟨t, e, i⟩ := GS.is_eq h3
  exact ⟨c, h, h1, h2, by rw [e, Ts.isErr_eq i]⟩

end Verif.Go
