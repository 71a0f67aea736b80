import Verif.Lemmas.GoStreamSim
/-!
# The goroutines of a watch stream simulate the model: all executions
-/

namespace Verif.Go

/-- Where the handler is and which goroutines there are; those that have not been started yet are at their beginning. -/
inductive StShape (N : Nat) : List Ts → Ts → Ts → Ts → Prop where
  | one : StShape N [.spawn (updatesT N) (.spawn (progressT N) (.spawn (requestsT N 1) (.await fun v => .ret [v])))] (updatesT N) (progressT N) (requestsT N 1)
  | two (tu : Ts) : StShape N [.spawn (progressT N) (.spawn (requestsT N 1) (.await fun v => .ret [v])), tu] tu (progressT N) (requestsT N 1)
  | three (tu tp : Ts) : StShape N [.spawn (requestsT N 1) (.await fun v => .ret [v]), tu, tp] tu tp (requestsT N 1)
  | four (tu tp tr : Ts) : StShape N [.await fun v => .ret [v], tu, tp, tr] tu tp tr
  | ret (v : V) (tu tp tr : Ts) : StShape N [.ret [v], tu, tp, tr] tu tp tr

theorem StShape.act {N i : Nat} {ts : List Ts} {tu tp tr t t' : Ts} {m m' : SMem} (s : StShape N ts tu tp tr) (ht : ts[i]? = some t) (h : TStep i m t m' t') :
    (i = 1 ∧ t = tu ∧ StShape N (ts.set i t') t' tp tr) ∨ (i = 2 ∧ t = tp ∧ StShape N (ts.set i t') tu t' tr) ∨ (i = 3 ∧ t = tr ∧ StShape N (ts.set i t') tu tp t') := by
  cases s with
  | one =>
    match i, ht with
    | 0, ht => cases ht; cases h
  | two tu =>
    match i, ht with
    | 0, ht => cases ht; cases h
    | 1, ht => cases ht; exact .inl ⟨rfl, rfl, .two _⟩
  | three tu tp =>
    match i, ht with
    | 0, ht => cases ht; cases h
    | 1, ht => cases ht; exact .inl ⟨rfl, rfl, .three _ _⟩
    | 2, ht => cases ht; exact .inr (.inl ⟨rfl, rfl, .three _ _⟩)
  | four tu tp tr =>
    match i, ht with
    | 0, ht => cases ht; cases h
    | 1, ht => cases ht; exact .inl ⟨rfl, rfl, .four _ _ _⟩
    | 2, ht => cases ht; exact .inr (.inl ⟨rfl, rfl, .four _ _ _⟩)
    | 3, ht => cases ht; exact .inr (.inr ⟨rfl, rfl, .four _ _ _⟩)
  | ret v tu tp tr =>
    match i, ht with
    | 0, ht => cases ht; cases h
    | 1, ht => cases ht; exact .inl ⟨rfl, rfl, .ret _ _ _ _⟩
    | 2, ht => cases ht; exact .inr (.inl ⟨rfl, rfl, .ret _ _ _ _⟩)
    | 3, ht => cases ht; exact .inr (.inr ⟨rfl, rfl, .ret _ _ _ _⟩)

/-- The stream is open. -/
structure StRel (Q : Closed) (N : Nat) (c : GS) (j : Nat) (st : Stream) (pend : List WatchResponse) (tu tp tr : Ts) : Prop where
  index : c.mem.index = some j
  shape : StShape N c.ts tu tp tr
  u : UPh c.mem st pend tu
  p : PPh c.mem st pend tp
  r : RPh c.mem st pend tr
  sim : StSim Q c.mem st pend
  /-- what has been sent, also if the stream is broken now -/
  sent : ∃ x, Q.P x ∧ x.stream.index = j ∧ c.mem.out <+: x.stream.out.map encResponse
  fin : ∀ k ∈ c.finished, 0 < k ∧ ∃ v, c.ts[k]? = some (.ret [v])
  all : ∀ v, c.ts[0]? = some (.ret [v]) → 1 ∈ c.finished ∧ 2 ∈ c.finished ∧ 3 ∈ c.finished

/-! ### What else happens -/

theorem publishOrDrop_call (g : Group) (rev : Int) (es : List Event) : (g.publishOrDrop rev es).call = g.call ∧ (g.publishOrDrop rev es).answers = g.answers := by
  unfold Group.publishOrDrop Group.publish
  simp only
  by_cases h1 : g.closed > 0
  · simp [h1]
  · by_cases h2 : g.queue.length < updateCapacity
    · simp [h1, h2]
    · simp only [h1, h2, if_false]
      split <;> exact ⟨rfl, rfl⟩

theorem move_call {w w' : World} {g g' : Group} (mv : GroupMove w w' g g') (hu : g'.used = g.used) (idle : g.call = .idle) :
    g'.call = .idle ∧ g'.answers = g.answers := by
  cases mv with
  | same => exact ⟨idle, rfl⟩
  | publish rev es hin hcur =>
    obtain ⟨e1, e2⟩ := publishOrDrop_call g rev es
    exact ⟨e1.trans idle, e2⟩
  | step hs =>
    cases hs with
    | watch id lo hi start =>
      have : g.used ++ [id] = g.used := by
        unfold Group.watch at hu
        simp only at hu
        split at hu <;> exact hu
      exact absurd (congrArg List.length this) (by simp)
    | checkExec _ _ _ _ c => rw [idle] at c; cases c
    | checked _ _ c => rw [idle] at c; cases c
    | queryExec _ _ _ _ c => rw [idle] at c; cases c
    | queried _ _ c => rw [idle] at c; cases c
    | unwatch => exact ⟨idle, rfl⟩
    | recv => exact ⟨idle, rfl⟩
    | cancel => exact ⟨idle, rfl⟩
    | afterFunc => exact ⟨idle, rfl⟩

/-- Nobody else calls `Watch` on the group. -/
theorem env_call {a b : NSys} (inv : NInv a) (h : NStep a b) {j : Nat} {g g' : Group} (hg : a.node.groupAt j = some g) (hg' : b.node.groupAt j = some g')
    (hu : g'.used = g.used) (idle : g.call = .idle) : g'.call = .idle ∧ g'.answers = g.answers := by
  obtain ⟨g₁, hg₁, mv⟩ := NStep.move inv h hg
  rw [hg'] at hg₁
  cases hg₁
  exact move_call mv hu idle

/-- Responses are sent only on a stream that is whole. -/
theorem TStep.out_same {i : Nat} {m m' : SMem} {t t' : Ts} (h : TStep i m t m' t') (hb : m'.broken = true) : m'.out = m.out := by
  cases h with
  | send _ _ _ whole => change m.broken = true at hb; rw [whole] at hb; cases hb
  | _ => rfl

theorem TStep.index_same {i : Nat} {m m' : SMem} {t t' : Ts} (h : TStep i m t m' t') : m'.index = m.index := by
  cases h <;> rfl

theorem TStep.not_ret {i : Nat} {m m' : SMem} {vs : List V} {t' : Ts} (h : TStep i m (.ret vs) m' t') : False := by cases h

variable {Q : Closed} {N : Nat} {c : GS} {j : Nat} {st : Stream} {pend : List WatchResponse} {tu tp tr : Ts}

/-- What has been sent, from the simulation. -/
theorem sent_of {m m' : SMem} {st' : Stream} {pend' : List WatchResponse} (s' : StSim Q m' st' pend') (hi : m'.index = some j)
    (old : ∃ x, Q.P x ∧ x.stream.index = j ∧ m.out <+: x.stream.out.map encResponse) (h : m'.broken = true → m'.out = m.out) :
    ∃ x, Q.P x ∧ x.stream.index = j ∧ m'.out <+: x.stream.out.map encResponse := by
  cases hb : m'.broken with
  | true => rw [h hb]; exact old
  | false => exact ⟨_, s'.reach hb, (s'.indexed hb hi).symm, ⟨pend'.map encResponse, s'.out hb⟩⟩

theorem StRel.thread {i : Nat} {t t' : Ts} {m' : SMem} (g : StRel Q N c j st pend tu tp tr) (ht : c.ts[i]? = some t) (h : TStep i c.mem t m' t') :
    ∃ st' pend' tu' tp' tr', StRel Q N { c with mem := m', ts := c.ts.set i t' } j st' pend' tu' tp' tr' := by
  have hfin : ∀ k ∈ c.finished, 0 < k ∧ ∃ v, (c.ts.set i t')[k]? = some (.ret [v]) := by
    intro k hk
    obtain ⟨h0, v, hv⟩ := g.fin k hk
    refine ⟨h0, v, ?_⟩
    by_cases e : i = k
    · subst e
      rw [ht] at hv
      cases hv
      exact h.not_ret.elim
    · rw [List.getElem?_set_ne e]
      exact hv
  have hall : i ≠ 0 → ∀ v, (c.ts.set i t')[0]? = some (.ret [v]) → 1 ∈ c.finished ∧ 2 ∈ c.finished ∧ 3 ∈ c.finished := by
    intro hi v hv
    rw [List.getElem?_set_ne hi] at hv
    exact g.all v hv
  have hidx : m'.index = some j := h.index_same.trans g.index
  rcases g.shape.act ht h with ⟨rfl, rfl, hs⟩ | ⟨rfl, rfl, hs⟩ | ⟨rfl, rfl, hs⟩
  · obtain ⟨st', pend', hu, s', f⟩ := g.u.sim g.sim (fun ho hb => g.r.notCreating (by rw [ho]; nofun) hb) h
    exact ⟨st', pend', _, _, _, hidx, hs, hu, g.p.frame f (by decide), g.r.frame f (by decide), s', sent_of s' hidx g.sent h.out_same, hfin, hall (by decide)⟩
  · obtain ⟨st', pend', hp, s', f⟩ := g.p.sim g.sim (fun ho hb => g.r.notCreating ho hb) h
    exact ⟨st', pend', _, _, _, hidx, hs, g.u.frame f (by decide), hp, g.r.frame f (by decide), s', sent_of s' hidx g.sent h.out_same, hfin, hall (by decide)⟩
  · obtain ⟨st', pend', hr, s', f⟩ := g.r.sim g.sim h
    exact ⟨st', pend', _, _, _, hidx, hs, g.u.frame f (by decide), g.p.frame f (by decide), hr, s', sent_of s' hidx g.sent h.out_same, hfin, hall (by decide)⟩

/-- Anything that is done by none of the goroutines. -/
theorem StRel.other {m' : SMem} (g : StRel Q N c j st pend tu tp tr) (f : Fr 0 c.mem st pend m' st pend) (s' : StSim Q m' st pend) (hi : m'.index = some j)
    (ho : m'.out = c.mem.out) : StRel Q N { c with mem := m' } j st pend tu tp tr :=
  ⟨hi, g.shape, g.u.frame f (by decide), g.p.frame f (by decide), g.r.frame f (by decide), s', sent_of s' hi g.sent fun _ => ho, g.fin, g.all⟩

theorem StRel.env {b : NSys} (g : StRel Q N c j st pend tu tp tr) (h : NStep c.mem.base b)
    (quiet : ∀ g, c.mem.base.node.groupAt j = some g → ∃ g', b.node.groupAt j = some g' ∧ g'.received = g.received ∧ g'.used = g.used) :
    StRel Q N { c with mem := { c.mem with base := b } } j st pend tu tp tr := by
  have hj : c.mem.broken = false → j = st.index := fun hb => g.sim.indexed hb g.index
  refine g.other ⟨id, id, fun _ _ h => h, fun _ _ _ _ => ⟨rfl, rfl, rfl⟩, fun _ _ => ⟨rfl, rfl⟩, fun _ _ => ⟨rfl, rfl, rfl, rfl, rfl, rfl⟩, fun _ hb g₁ hg₁ idle => ?_⟩
    ⟨fun hb => ?_, g.sim.index, g.sim.revision, g.sim.out, fun hb ho => ⟨(g.sim.free hb ho).pend, (g.sim.free hb ho).report⟩⟩ g.index rfl
  · have e := hj hb
    subst e
    obtain ⟨g', hg', _, hu⟩ := quiet g₁ hg₁
    obtain ⟨e1, e2⟩ := env_call (Q.reach (g.sim.reach hb)).inv.1.ninv h hg₁ hg' hu idle
    exact ⟨g', hg', e1, e2⟩
  · have e := hj hb
    subst e
    exact Q.step (g.sim.reach hb) (.env _ _ _ h quiet)

/-- Before the group is opened. -/
structure StNew (N : Nat) (c : GS) : Prop where
  reach : NReachable c.mem.base
  mem : ∃ e : Bool, c.mem = { base := c.mem.base, index := none, revision := 0, report := [], owner := none, asked := [], out := [], broken := false, ended := e }
  ts : c.ts = [handlerGo N] ∨ ∃ e, c.ts = [.ret [apiErrV e]]
  finished : c.finished = []

theorem StRel.start (a : NSys) (e : Bool) (h : NReachable a) (err : V) :
    StRel .all N { mem := (SMem.mk a none 0 [] none [] [] false e).opened, ts := [.spawn (updatesT N) (.spawn (progressT N) (.spawn (requestsT N 1) (.await fun v => .ret [v])))],
                   finished := [], err := err } a.node.groups.length (Stream.new a.node.groups.length) [] (updatesT N) (progressT N) (requestsT N 1) := by
  have hr : SReachable ⟨⟨a.sys, { a.node with groups := a.node.groups ++ [Group.new a.node.pollRevision] }⟩, Stream.new a.node.groups.length⟩ := .open h
  exact ⟨rfl, .one, .idle N fun _ => rfl, .idle N, .idle N 1 fun _ => ⟨rfl, rfl, rfl, rfl⟩, ⟨fun _ => hr, fun _ => rfl, fun _ => rfl, fun _ => rfl, fun _ _ => ⟨rfl, rfl⟩⟩,
    ⟨_, hr, rfl, ⟨[], rfl⟩⟩, (fun k hk => nomatch hk), fun v hv => by cases hv⟩

theorem StNew.step {d : GS} (g : StNew N c) (h : GStep c d) : StNew N d ∨ ∃ j st pend tu tp tr, StRel .all N d j st pend tu tp tr := by
  obtain ⟨hr, ⟨e, hm⟩, hts, hf⟩ := g
  have single : ∀ {i : Nat} {x t : Ts}, c.ts = [x] → c.ts[i]? = some t → i = 0 ∧ t = x := by
    intro i x t he ht
    rw [he] at ht
    match i, ht with
    | 0, ht => cases ht; exact ⟨rfl, rfl⟩
  cases h with
  | thread i t t' m' ht h =>
    exfalso
    rcases hts with hts | ⟨x, hts⟩
    · obtain ⟨rfl, rfl⟩ := single hts ht
      rw [handler_tree] at h
      cases h
    · obtain ⟨rfl, rfl⟩ := single hts ht
      cases h
  | opened i k er ht =>
    rcases hts with hts | ⟨x, hts⟩
    · obtain ⟨rfl, hx⟩ := single hts ht
      rw [handler_tree] at hx
      cases hx
      right
      refine ⟨c.mem.base.node.groups.length, Stream.new c.mem.base.node.groups.length, [], updatesT N, progressT N, requestsT N 1, ?_⟩
      have := StRel.start (N := N) c.mem.base e hr c.err
      rw [← hm] at this
      rw [hf, hts]
      exact this
    · obtain ⟨rfl, hx⟩ := single hts ht
      cases hx
  | notOpened i k er x ht =>
    rcases hts with hts | ⟨y, hts⟩
    · obtain ⟨rfl, hx⟩ := single hts ht
      rw [handler_tree] at hx
      cases hx
      left
      refine ⟨hr, ⟨e, hm⟩, .inr ⟨x, ?_⟩, hf⟩
      rw [hts]
      rfl
    · obtain ⟨rfl, hx⟩ := single hts ht
      cases hx
  | spawn i t k ht =>
    exfalso
    rcases hts with hts | ⟨y, hts⟩
    · obtain ⟨rfl, hx⟩ := single hts ht
      rw [handler_tree] at hx
      cases hx
    · obtain ⟨rfl, hx⟩ := single hts ht
      cases hx
  | finish i v ht h0 hn =>
    exfalso
    rcases hts with hts | ⟨y, hts⟩
    · obtain ⟨rfl, _⟩ := single hts ht
      exact absurd h0 (Nat.lt_irrefl _)
    · obtain ⟨rfl, _⟩ := single hts ht
      exact absurd h0 (Nat.lt_irrefl _)
  | await i k ht all =>
    exfalso
    rcases hts with hts | ⟨y, hts⟩
    · obtain ⟨rfl, hx⟩ := single hts ht
      rw [handler_tree] at hx
      cases hx
    · obtain ⟨rfl, hx⟩ := single hts ht
      cases hx
  | envBefore b hst no =>
    left
    exact ⟨hr.step hst, ⟨e, by rw [hm]⟩, hts, hf⟩
  | env b j hst hj quiet =>
    rw [hm] at hj
    cases hj
  | gone =>
    left
    exact ⟨hr, ⟨true, by rw [hm]⟩, hts, hf⟩

/-- Actions of the handler only. -/
def Ts.special : Ts → Bool
  | .openGroup _ _ => true
  | .spawn _ _ => true
  | .await _ => true
  | _ => false

theorem UPh.plain {m : SMem} {t : Ts} (h : UPh m st pend t) : t.special = false := by
  cases h with
  | idle n => cases n <;> rfl
  | loop l => cases l <;> rfl
  | _ => rfl

theorem PPh.plain {m : SMem} {t : Ts} (h : PPh m st pend t) : t.special = false := by
  cases h with
  | idle n => cases n <;> rfl
  | loop l n ho ht =>
    cases l with
    | nil => rfl
    | cons p l =>
      obtain ⟨id, b⟩ := p
      obtain rfl : b = true := ht (id, b) (by simp)
      rfl
  | _ => rfl

theorem RPh.plain {m : SMem} {t : Ts} (h : RPh m st pend t) : t.special = false := by
  cases h with
  | idle n => cases n <;> rfl
  | _ => rfl

theorem StRel.handler (g : StRel Q N c j st pend tu tp tr) {i : Nat} {t : Ts} (ht : c.ts[i]? = some t) (hs : t.special = true) : i = 0 := by
  have hu := g.u.plain
  have hp := g.p.plain
  have hr := g.r.plain
  have hsh := g.shape
  generalize c.ts = ts at ht hsh
  cases hsh with
  | one =>
    match i, ht with
    | 0, _ => rfl
  | two =>
    match i, ht with
    | 0, _ => rfl
    | 1, ht => cases ht; rw [hs] at hu; cases hu
  | three =>
    match i, ht with
    | 0, _ => rfl
    | 1, ht => cases ht; rw [hs] at hu; cases hu
    | 2, ht => cases ht; rw [hs] at hp; cases hp
  | four =>
    match i, ht with
    | 0, _ => rfl
    | 1, ht => cases ht; rw [hs] at hu; cases hu
    | 2, ht => cases ht; rw [hs] at hp; cases hp
    | 3, ht => cases ht; rw [hs] at hr; cases hr
  | ret =>
    match i, ht with
    | 0, _ => rfl
    | 1, ht => cases ht; rw [hs] at hu; cases hu
    | 2, ht => cases ht; rw [hs] at hp; cases hp
    | 3, ht => cases ht; rw [hs] at hr; cases hr

theorem StRel.step {d : GS} (g : StRel Q N c j st pend tu tp tr) (h : GStep c d) : ∃ st' pend' tu' tp' tr', StRel Q N d j st' pend' tu' tp' tr' := by
  cases h with
  | thread i t t' m' ht h => exact g.thread ht h
  | opened i k er ht =>
    exfalso
    obtain rfl := g.handler ht rfl
    have hsh := g.shape
    generalize c.ts = ts at ht hsh
    cases hsh <;> cases ht
  | notOpened i k er e ht =>
    exfalso
    obtain rfl := g.handler ht rfl
    have hsh := g.shape
    generalize c.ts = ts at ht hsh
    cases hsh <;> cases ht
  | spawn i t k ht =>
    obtain rfl := g.handler ht rfl
    have hfin : ∀ q ∈ c.finished, 0 < q ∧ ∃ v, (c.ts.set 0 k ++ [t])[q]? = some (.ret [v]) := by
      intro q hq
      obtain ⟨h0, v, hv⟩ := g.fin q hq
      refine ⟨h0, v, ?_⟩
      have hl : q < c.ts.length := (List.getElem?_eq_some_iff.1 hv).1
      rw [List.getElem?_append_left (by rw [List.length_set]; exact hl), List.getElem?_set_ne (by omega)]
      exact hv
    suffices H : StShape N (c.ts.set 0 k ++ [t]) tu tp tr ∧ ∀ v, (c.ts.set 0 k ++ [t])[0]? ≠ some (.ret [v]) from
      ⟨st, pend, tu, tp, tr, g.index, H.1, g.u, g.p, g.r, g.sim, g.sent, hfin, fun v hv => absurd hv (H.2 v)⟩
    have hsh := g.shape
    generalize c.ts = ts at ht hsh
    cases hsh with
    | one => cases ht; exact ⟨.two _, nofun⟩
    | two => cases ht; exact ⟨.three _ _, nofun⟩
    | three => cases ht; exact ⟨.four _ _ _, nofun⟩
    | four => cases ht
    | ret => cases ht
  | finish i v ht h0 hn =>
    refine ⟨st, pend, tu, tp, tr, g.index, g.shape, g.u, g.p, g.r, g.sim, g.sent, ?_, ?_⟩
    · intro k hk
      rcases List.mem_append.1 hk with hk | hk
      · exact g.fin k hk
      · rw [List.mem_singleton] at hk
        subst hk
        exact ⟨h0, v, ht⟩
    · intro v' hv'
      obtain ⟨h1, h2, h3⟩ := g.all v' hv'
      exact ⟨List.mem_append_left _ h1, List.mem_append_left _ h2, List.mem_append_left _ h3⟩
  | await i k ht all =>
    obtain rfl := g.handler ht rfl
    have hfin : ∀ q ∈ c.finished, 0 < q ∧ ∃ v, (c.ts.set 0 (k c.err))[q]? = some (.ret [v]) := by
      intro q hq
      obtain ⟨h0, v, hv⟩ := g.fin q hq
      exact ⟨h0, v, by rw [List.getElem?_set_ne (by omega)]; exact hv⟩
    suffices H : StShape N (c.ts.set 0 (k c.err)) tu tp tr ∧ c.ts.length = 4 from
      ⟨st, pend, tu, tp, tr, g.index, H.1, g.u, g.p, g.r, g.sim, g.sent, hfin,
        fun _ _ => ⟨all 1 (by omega) (by omega), all 2 (by omega) (by omega), all 3 (by omega) (by omega)⟩⟩
    have hsh := g.shape
    generalize c.ts = ts at ht hsh
    cases hsh with
    | four => cases ht; exact ⟨.ret _ _ _ _, rfl⟩
    | one => cases ht
    | two => cases ht
    | three => cases ht
    | ret => cases ht
  | envBefore b hst no => rw [g.index] at no; cases no
  | env b j' hst hj quiet =>
    rw [g.index] at hj
    cases hj
    exact ⟨_, _, _, _, _, g.env hst quiet⟩
  | gone =>
    exact ⟨_, _, _, _, _, g.other ⟨id, fun _ => rfl, fun _ _ h => h, fun _ _ _ _ => ⟨rfl, rfl, rfl⟩, fun _ _ => ⟨rfl, rfl⟩, fun _ _ => ⟨rfl, rfl, rfl, rfl, rfl, rfl⟩, fun _ _ => KeepsCall.same rfl⟩
      ⟨g.sim.reach, g.sim.index, g.sim.revision, g.sim.out, fun hb ho => ⟨(g.sim.free hb ho).pend, (g.sim.free hb ho).report⟩⟩ g.index rfl⟩

/-- Every execution is one of the model. -/
theorem GReachable.rel (h : GReachable N c) : StNew N c ∨ ∃ j st pend tu tp tr, StRel .all N c j st pend tu tp tr := by
  induction h with
  | init a h => exact .inl ⟨h, ⟨false, rfl⟩, .inl rfl, rfl⟩
  | step _ hs ih =>
    rcases ih with g | ⟨j, st, pend, tu, tp, tr, g⟩
    · exact g.step hs
    · obtain ⟨st', pend', tu', tp', tr', g'⟩ := g.step hs
      exact .inr ⟨j, st', pend', tu', tp', tr', g'⟩

/-- Start over from here. -/
theorem StRel.again (g : StRel Q N c j st pend tu tp tr) (hb : c.mem.broken = false) :
    StRel (.from (Q.reach (g.sim.reach hb))) N c j st pend tu tp tr :=
  have s : StSim (.from (Q.reach (g.sim.reach hb))) c.mem st pend := ⟨fun _ => ⟨Q.reach (g.sim.reach hb), .refl _⟩, g.sim.index, g.sim.revision, g.sim.out, g.sim.free⟩
  ⟨g.index, g.shape, g.u, g.p, g.r, s, ⟨_, s.reach hb, (s.indexed hb g.index).symm, ⟨pend.map encResponse, s.out hb⟩⟩, g.fin, g.all⟩

theorem StRel.steps {d : GS} (g : StRel Q N c j st pend tu tp tr) (h : GSteps c d) : ∃ st' pend' tu' tp' tr', StRel Q N d j st' pend' tu' tp' tr' := by
  induction h with
  | refl => exact ⟨_, _, _, _, _, g⟩
  | tail _ hs ih =>
    obtain ⟨_, _, _, _, _, g'⟩ := ih
    exact g'.step hs

/-- The requests of the client, in the model. -/
theorem RPh.asked {m : SMem} {t : Ts} (h : RPh m st pend t) (hb : m.broken = false) : ∃ rest, rest.length ≤ 1 ∧ m.asked.filterMap askOf = st.asked ++ rest := by
  have go : ∀ {c d : Option Int} {n : Int} {r : List WatchAsk}, At m st c d n r → r.length ≤ 1 → ∃ rest, rest.length ≤ 1 ∧ m.asked.filterMap askOf = st.asked ++ rest :=
    fun h hl => ⟨_, hl, h.asked⟩
  cases h with
  | idle n next hd => exact go (hd hb) (by decide)
  | wantCreate n next key re start hd => exact go (hd hb) (Nat.le_refl _)
  | watch n next key re start ho hd => exact go (hd hb).1 (Nat.le_refl _)
  | watching n next ho hd => exact go (hd hb).1 (by decide)
  | created n next ho hd => exact go (hd hb).1 (by decide)
  | failed n next ho hd => exact go (hd hb).1 (by decide)
  | reply n next r ho hd => exact go (hd hb).1 (by decide)
  | unlock n next ho hd => exact go (hd hb).1 (by decide)
  | wantClose n next id hd => exact go (hd hb) (Nat.le_refl _)
  | closing n next id hd => exact go (hd hb) (by decide)
  | delete n next id ho hd => exact go (hd hb).1 (by decide)
  | wantProgress n next hd => exact go (hd hb) (Nat.le_refl _)
  | progress n next ho hd => exact go (hd hb).1 (Nat.le_refl _)
  | fail v ho hb' => rw [hb] at hb'; cases hb'
  | ended v hd => obtain ⟨_, h⟩ := hd hb; exact go h (by decide)

/-- What is done under the lock only. -/
def Ts.guarded : Ts → Bool
  | .send _ _ _ => true
  | .unlock _ => true
  | .setReport _ _ _ => true
  | .delReport _ _ => true
  | .getReport _ => true
  | .watch _ _ _ _ _ _ _ => true
  | .watching _ _ _ => true
  | _ => false

theorem UPh.guarded {m : SMem} {t : Ts} (h : UPh m st pend t) (hg : t.guarded = true) : m.owner = some 1 := by
  cases h with
  | idle n hd => cases n <;> cases hg
  | got u n hd => cases hg
  | stored u n hd => cases hg
  | loop l n ho hd => exact ho
  | flagged p l n ho hd => exact ho
  | reply p l n r ho hd => exact ho
  | fail v ho hb => exact ho
  | ended v hd => cases hg

theorem PPh.guarded {m : SMem} {t : Ts} (h : PPh m st pend t) (hg : t.guarded = true) : m.owner = some 2 := by
  cases h with
  | idle n => cases n <;> cases hg
  | want n => cases hg
  | locked n ho hd => exact ho
  | loop l n ho ht hd => exact ho
  | reply p l n r ho ht hd => exact ho
  | fail v ho hb => exact ho
  | ended v he => cases hg

theorem RPh.guarded {m : SMem} {t : Ts} (h : RPh m st pend t) (hg : t.guarded = true) : m.owner = some 3 := by
  cases h with
  | idle n => cases n <;> cases hg
  | wantCreate => cases hg
  | wantClose => cases hg
  | closing => cases hg
  | wantProgress => cases hg
  | ended => cases hg
  | _ => assumption

/-- The watch that is being cancelled. -/
def Ts.unwatches : Ts → Option Int
  | .unwatch id _ => some id
  | _ => none

theorem UPh.notUnwatch {m : SMem} {t : Ts} (h : UPh m st pend t) : t.unwatches = none := by
  cases h with
  | idle n => cases n <;> rfl
  | loop l => cases l <;> rfl
  | _ => rfl

theorem PPh.notUnwatch {m : SMem} {t : Ts} (h : PPh m st pend t) : t.unwatches = none := by
  cases h with
  | idle n => cases n <;> rfl
  | loop l n ho ht =>
    cases l with
    | nil => rfl
    | cons p l =>
      obtain ⟨id, b⟩ := p
      obtain rfl : b = true := ht (id, b) (by simp)
      rfl
  | _ => rfl

/-- A cancellation is one of the model. -/
theorem StRel.unwatch {i : Nat} {id : Int} {k t' : Ts} {m' : SMem} (g : StRel Q N c j st pend tu tp tr) (ht : c.ts[i]? = some (.unwatch id k))
    (h : TStep i c.mem (.unwatch id k) m' t') (hb : c.mem.broken = false) :
    ∃ (st' : Stream) (tr' : Ts) (r : SReachable ⟨m'.base, st'⟩), SStep ⟨c.mem.base, st⟩ ⟨m'.base, st'⟩ ∧ st'.asked = st.asked ++ [.cancel id] ∧
      StRel (.from r) N { c with mem := m', ts := c.ts.set i t' } j st' pend tu tp tr' := by
  have hidx : m'.index = some j := h.index_same.trans g.index
  have hfin : ∀ k ∈ c.finished, 0 < k ∧ ∃ v, (c.ts.set i t')[k]? = some (.ret [v]) := by
    intro k hk
    obtain ⟨h0, v, hv⟩ := g.fin k hk
    refine ⟨h0, v, ?_⟩
    by_cases e : i = k
    · subst e
      rw [ht] at hv
      cases hv
    · rw [List.getElem?_set_ne e]
      exact hv
  rcases g.shape.act ht h with ⟨_, e, _⟩ | ⟨_, e, _⟩ | ⟨rfl, e, hs⟩
  · have := g.u.notUnwatch; rw [← e] at this; cases this
  · have := g.p.notUnwatch; rw [← e] at this; cases this
  · have hr := g.r
    have hu : tr.unwatches = some id := by rw [← e]; rfl
    cases hr with
    | idle n => cases n <;> cases hu
    | wantClose n next id' hd =>
      change Ts.unwatch id k = .unwatch id' _ at e
      obtain ⟨rfl, rfl⟩ := Ts.unwatch.inj e
      cases h with
      | unwatch _ _ pre post gr cc hi =>
        have st1 : SStep ⟨c.mem.base, st⟩ ⟨(c.mem.withGroups (pre ++ { gr with watchers := removeWatcher gr.watchers id } :: post)).base,
            { st with closing := some id, asked := st.asked ++ [.cancel id], cancelled := st.cancelled ++ [id] }⟩ :=
          .unwatch c.mem.base.sys c.mem.base.node st pre post gr id cc (g.sim.indexed hb hi) ⟨(hd hb).creating, (hd hb).closing⟩
        have r := (Q.reach (g.sim.reach hb)).step st1
        have f : Fr 3 c.mem st pend (c.mem.withGroups (pre ++ { gr with watchers := removeWatcher gr.watchers id } :: post))
            { st with closing := some id, asked := st.asked ++ [.cancel id], cancelled := st.cancelled ++ [id] } pend :=
          .free rfl rfl rfl rfl rfl (fun _ => ⟨rfl, rfl⟩) (fun h => absurd rfl h) (fun h => absurd rfl h)
        have s' : StSim (.from r) (c.mem.withGroups (pre ++ { gr with watchers := removeWatcher gr.watchers id } :: post))
            { st with closing := some id, asked := st.asked ++ [.cancel id], cancelled := st.cancelled ++ [id] } pend :=
          ⟨fun _ => ⟨r, .refl _⟩, g.sim.index, g.sim.revision, g.sim.out, fun hb ho => ⟨(g.sim.free hb ho).pend, (g.sim.free hb ho).report⟩⟩
        refine ⟨_, _, r, st1, rfl, hidx, hs, g.u.frame f (by decide), g.p.frame f (by decide),
          .closing n next id fun hb => ⟨(hd hb).creating, rfl, (hd hb).next, (hd hb).asked.trans (List.append_nil _).symm⟩, s',
          ⟨_, s'.reach hb, (s'.indexed hb hidx).symm, ⟨pend.map encResponse, s'.out hb⟩⟩, hfin, ?_⟩
        intro v hv
        rw [List.getElem?_set_ne (by decide)] at hv
        exact g.all v hv
    | _ => cases hu

/-- `ServeRequests` waits for a message. -/
def Ts.isRecv : Ts → Bool
  | .recv _ _ => true
  | _ => false

theorem RPh.waiting {m : SMem} {t : Ts} (h : RPh m st pend t) (ht : t.isRecv = true) (hb : m.broken = false) : ∃ next, At m st none none next [] := by
  cases h with
  | idle n next hd => exact ⟨next, hd hb⟩
  | _ => cases ht

/-- `ServeUpdates` waits for an update. -/
def Ts.isRecvUpdate : Ts → Bool
  | .recvUpdate _ _ => true
  | _ => false

theorem UPh.waiting {m : SMem} {t : Ts} (h : UPh m st pend t) (ht : t.isRecvUpdate = true) (hb : m.broken = false) : st.sending = none := by
  cases h with
  | idle n hd => exact hd hb
  | loop l => cases l <;> cases ht
  | _ => cases ht

end Verif.Go
