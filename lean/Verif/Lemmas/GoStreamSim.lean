import Verif.Lemmas.GoStreamRel
/-!
# The goroutines of a watch stream simulate the model: one action
-/

namespace Verif.Go

variable {Q : Closed} {i : Nat} {m m' : SMem} {st st' : Stream} {pend pend' : List WatchResponse} {t t' : Ts}

/-- What `Fr.call` asks for. -/
def KeepsCall (m : SMem) (st : Stream) (m' : SMem) : Prop :=
  ∀ g, m.base.node.groupAt st.index = some g → g.call = .idle → ∃ g', m'.base.node.groupAt st.index = some g' ∧ g'.call = .idle ∧ g'.answers = g.answers

theorem KeepsCall.same (h : m'.base = m.base) : KeepsCall m st m' := fun g hg hi => ⟨g, by rw [h]; exact hg, hi, rfl⟩

theorem Fr.own (ho : m.owner = none ∨ m.owner = some i) (hb : m'.broken = false → m.broken = false) (he : m'.ended = m.ended)
    (hu : i ≠ 1 → st'.sending = st.sending ∧ st'.revision = st.revision)
    (hq : i ≠ 3 → st'.creating = st.creating ∧ st'.closing = st.closing ∧ st'.next = st.next ∧ st'.asked = st.asked ∧ m'.asked = m.asked ∧ st'.index = st.index)
    (hc : i ≠ 3 → KeepsCall m st m') : Fr i m st pend m' st' pend' := by
  have no : ∀ k, k ≠ i → m.owner = some k → False := by
    intro k hk h
    rcases ho with ho | ho <;> rw [ho] at h <;> cases h
    exact hk rfl
  exact ⟨hb, fun h => he.trans h, fun k hk h => (no k hk h).elim, fun k hk h => (no k hk h).elim, fun h _ => hu h, fun h _ => hq h, fun h _ => hc h⟩

theorem Fr.free (hb : m'.broken = m.broken) (he : m'.ended = m.ended) (ho : m'.owner = m.owner) (hr : m'.report = m.report)
    (hs : st'.report = st.report) (hu : i ≠ 1 → st'.sending = st.sending ∧ st'.revision = st.revision)
    (hq : i ≠ 3 → st'.creating = st.creating ∧ st'.closing = st.closing ∧ st'.next = st.next ∧ st'.asked = st.asked ∧ m'.asked = m.asked ∧ st'.index = st.index)
    (hc : i ≠ 3 → KeepsCall m st m') : Fr i m st pend m' st' pend :=
  ⟨fun h => hb.symm.trans h, fun h => he.trans h, fun _ _ h => ho.trans h, fun _ _ _ _ => ⟨rfl, hr, hs⟩, fun h _ => hu h, fun h _ => hq h, fun h _ => hc h⟩

theorem Fr.refl (i : Nat) (m : SMem) (st : Stream) (pend : List WatchResponse) : Fr i m st pend m st pend :=
  .free rfl rfl rfl rfl rfl (fun _ => ⟨rfl, rfl⟩) (fun _ => ⟨rfl, rfl, rfl, rfl, rfl, rfl⟩) fun _ => .same rfl

theorem StSim.indexed (s : StSim Q m st pend) (hb : m.broken = false) {j : Nat} (h : m.index = some j) : j = st.index := by
  have := s.index hb
  rw [h] at this
  exact Option.some.inj this

/-- Nothing is claimed of a broken stream. -/
theorem StSim.none (h : m.broken = true) : StSim Q m st pend := by
  constructor <;> intro hb <;> rw [h] at hb <;> cases hb

theorem sendUpdates_out (st : Stream) (u : GroupUpdate) : (st.sendUpdates u).out = st.out ++ u.updates.map (updResp st.revision) := rfl

/-! ### `ServeUpdates` -/

theorem UPh.sim (hu : UPh m st pend t) (s : StSim Q m st pend) (hc : m.owner = none → m.broken = false → st.creating = none) (h : TStep 1 m t m' t') :
    ∃ st' pend', UPh m' st' pend' t' ∧ StSim Q m' st' pend' ∧ Fr 1 m st pend m' st' pend' := by
  cases hu with
  | idle n hd =>
    cases n with
    | zero => cases h
    | succ n =>
      change TStep 1 m (.recvUpdate _ _) m' t' at h
      cases h with
      | recvUpdate _ _ pre post g u q c hi hq =>
        refine ⟨{ st with sending := some u }, pend, .got u n fun _ => rfl, ⟨fun hb => ?_, s.index, s.revision, s.out, fun hb ho => ⟨(s.free hb ho).pend, (s.free hb ho).report⟩⟩, ?_⟩
        · exact Q.step (s.reach hb) (.recv m.base.sys m.base.node st pre post g u q c (s.indexed hb hi) hq (hd hb))
        · refine .free rfl rfl rfl rfl rfl (fun h => absurd rfl h) (fun _ => ⟨rfl, rfl, rfl, rfl, rfl, rfl⟩) fun _ g₁ hg₁ hidle => ?_
          by_cases e : st.index = pre.length
          · have hg₂ := groupAt_mid c e.symm
            rw [hg₂] at hg₁
            cases hg₁
            exact ⟨_, groupAt_mid rfl e.symm, hidle, rfl⟩
          · refine ⟨g₁, ?_, hidle, rfl⟩
            unfold Node.groupAt at hg₁ ⊢
            change (pre ++ _ :: post)[st.index]? = _
            rw [c] at hg₁
            rcases Nat.lt_or_ge st.index pre.length with hl | hl
            · rw [List.getElem?_append_left hl] at hg₁ ⊢
              exact hg₁
            · rw [List.getElem?_append_right hl] at hg₁ ⊢
              obtain ⟨k, hk⟩ : ∃ k, st.index - pre.length = k + 1 := ⟨st.index - pre.length - 1, by omega⟩
              rw [hk] at hg₁ ⊢
              exact hg₁
      | updatesEnd _ _ j g hj hg hq hcl => exact ⟨st, pend, .ended _ hd, s, .refl _ _ _ _⟩
  | got u n hd =>
    cases h
    refine ⟨{ st with revision := u.revision }, pend, .stored u n fun hb => ⟨hd hb, rfl⟩, ⟨fun hb => ?_, s.index, fun _ => rfl, s.out, ?_⟩, ?_⟩
    · exact Q.step (s.reach hb) (.store m.base st u (hd hb))
    · intro hb ho
      exact ⟨(s.free hb ho).pend, (s.free hb ho).report⟩
    · exact .free rfl rfl rfl rfl rfl (fun h => absurd rfl h) (fun _ => ⟨rfl, rfl, rfl, rfl, rfl, rfl⟩) fun _ => .same rfl
  | stored u n hd =>
    cases h with
    | lock _ free =>
      refine ⟨st.sendUpdates u, u.updates.map (updResp st.revision), .loop u.updates n rfl fun hb => ⟨rfl, rfl, ?_⟩,
        ⟨fun hb => ?_, s.index, s.revision, fun hb => ?_, fun _ ho => nomatch ho⟩, ?_⟩
      · change updReport u.updates st.report = _
        rw [(s.free hb free).report]
      · exact Q.step (s.reach hb) (.sendUpdates m.base st u (hd hb).1 (hd hb).2 (hc free hb))
      · have := s.out hb
        rw [(s.free hb free).pend, List.map_nil, List.append_nil] at this
        rw [sendUpdates_out, List.map_append]
        exact congrArg (· ++ _) this
      · exact .own (.inl free) id rfl (fun h => absurd rfl h) (fun _ => ⟨rfl, rfl, rfl, rfl, rfl, rfl⟩) fun _ => .same rfl
  | loop l n ho hd =>
    cases l with
    | nil =>
      change TStep 1 m (.unlock _) m' t' at h
      cases h
      refine ⟨st, pend, .idle n fun hb => (hd hb).1, ⟨s.reach, s.index, s.revision, s.out, fun hb _ => ⟨(hd hb).2.1, (hd hb).2.2.symm⟩⟩, ?_⟩
      exact .own (.inr ho) id rfl (fun _ => ⟨rfl, rfl⟩) (fun _ => ⟨rfl, rfl, rfl, rfl, rfl, rfl⟩) fun _ => .same rfl
    | cons p l =>
      change TStep 1 m (.setReport _ _ _) m' t' at h
      cases h
      refine ⟨st, pend, .flagged p l n ho fun hb => ⟨(hd hb).1, (hd hb).2.1, (hd hb).2.2⟩, ⟨s.reach, s.index, s.revision, s.out, fun hb h => ?_⟩, ?_⟩
      · change m.owner = none at h
        rw [ho] at h
        cases h
      · exact .own (.inr ho) id rfl (fun _ => ⟨rfl, rfl⟩) (fun _ => ⟨rfl, rfl, rfl, rfl, rfl, rfl⟩) fun _ => .same rfl
  | flagged p l n ho hd =>
    cases h
    exact ⟨st, pend, .reply p l n m.revision ho fun hb => ⟨(s.revision hb).symm, hd hb⟩, s, .refl _ _ _ _⟩
  | reply p l n r ho hd =>
    cases h with
    | send _ _ _ whole =>
      refine ⟨st, l.map (updResp st.revision), .loop l n ho fun hb => ⟨(hd hb).2.1, rfl, (hd hb).2.2.2⟩,
        ⟨s.reach, s.index, s.revision, fun hb => ?_, fun hb h => ?_⟩, ?_⟩
      · have e := s.out hb
        obtain ⟨e0, _, e1, _⟩ := hd hb
        rw [e1, List.map_cons, List.map_cons, List.append_cons] at e
        rw [e0]
        exact e
      · change m.owner = none at h
        rw [ho] at h
        cases h
      · exact .own (.inr ho) id rfl (fun _ => ⟨rfl, rfl⟩) (fun _ => ⟨rfl, rfl, rfl, rfl, rfl, rfl⟩) fun _ => .same rfl
    | sendFails _ _ _ e =>
      refine ⟨st, pend, .fail _ ho rfl, .none rfl, ?_⟩
      exact .own (.inr ho) (fun h => nomatch h) rfl (fun _ => ⟨rfl, rfl⟩) (fun _ => ⟨rfl, rfl, rfl, rfl, rfl, rfl⟩) fun _ => .same rfl
  | fail v ho hb =>
    cases h
    refine ⟨st, pend, .ended v fun h => ?_, .none hb, ?_⟩
    · rw [show m.broken = false from h] at hb; cases hb
    · exact .own (.inr ho) id rfl (fun _ => ⟨rfl, rfl⟩) (fun _ => ⟨rfl, rfl, rfl, rfl, rfl, rfl⟩) fun _ => .same rfl
  | ended v hd => cases h

/-! ### `ServeProgress` -/

theorem sendProgressT_filter (k : Option ApiErr → Ts) (l : List (Int × Bool)) : sendProgressT k l = sendProgressT k (l.filter (·.2)) := by
  induction l with
  | nil => rfl
  | cons p l ih =>
    obtain ⟨id, b⟩ := p
    cases b with
    | false => exact ih
    | true => exact congrArg (progRoundT k (id, true)) ih

theorem PPh.sim (hp : PPh m st pend t) (s : StSim Q m st pend) (hc : m.owner ≠ some 3 → m.broken = false → st.creating = none) (h : TStep 2 m t m' t') :
    ∃ st' pend', PPh m' st' pend' t' ∧ StSim Q m' st' pend' ∧ Fr 2 m st pend m' st' pend' := by
  have same : Fr 2 m st pend m st pend := .refl _ _ _ _
  cases hp with
  | idle n =>
    cases n with
    | zero => cases h
    | succ n =>
      change TStep 2 m (.select _ _) m' t' at h
      cases h with
      | tick => exact ⟨st, pend, .want n, s, same⟩
      | done _ _ he => exact ⟨st, pend, .ended _ (.inl he), s, same⟩
  | want n =>
    cases h with
    | lock _ free =>
      refine ⟨st, pend, .locked n rfl fun hb => ⟨(s.free hb free).pend, (s.free hb free).report⟩, ⟨s.reach, s.index, s.revision, s.out, fun _ h => nomatch h⟩, ?_⟩
      exact .own (.inl free) id rfl (fun _ => ⟨rfl, rfl⟩) (fun _ => ⟨rfl, rfl, rfl, rfl, rfl, rfl⟩) fun _ => .same rfl
  | locked n ho hd =>
    cases h with
    | getReport _ l perm =>
      refine ⟨st, pend, ?_, s, same⟩
      dsimp only
      rw [sendProgressT_filter]
      refine .loop _ n ho (fun p hp => (List.mem_filter.1 hp).2) fun hb => ⟨(hd hb).1, (hd hb).2, fun p hp => ?_⟩
      rw [← (hd hb).2]
      exact perm.subset (List.mem_filter.1 hp).1
  | loop l n ho ht hd =>
    cases l with
    | nil =>
      change TStep 2 m (.unlock _) m' t' at h
      cases h
      refine ⟨st, pend, .idle n, ⟨s.reach, s.index, s.revision, s.out, fun hb _ => ⟨(hd hb).1, (hd hb).2.1⟩⟩, ?_⟩
      exact .own (.inr ho) id rfl (fun _ => ⟨rfl, rfl⟩) (fun _ => ⟨rfl, rfl, rfl, rfl, rfl, rfl⟩) fun _ => .same rfl
    | cons p l =>
      obtain ⟨id', b⟩ := p
      obtain rfl : b = true := ht (id', b) (by simp)
      change TStep 2 m (.getRev _) m' t' at h
      cases h
      refine ⟨st.sendProgressTo [(id', true)], [{ revision := m.revision, watchId := id' }],
        .reply (id', true) l n m.revision ho (fun p hp => ht p (by simp [hp])) fun hb => ⟨rfl, (hd hb).2.1, fun p hp => (hd hb).2.2 p (by simp [hp])⟩,
        ⟨fun hb => ?_, s.index, s.revision, fun hb => ?_, fun hb h => ?_⟩, ?_⟩
      · refine Q.step (s.reach hb) (.tick m.base st _ (fun p hp => ?_) (hc (by rw [ho]; nofun) hb))
        rw [List.mem_singleton] at hp
        subst hp
        exact List.mem_filter.2 ⟨(hd hb).2.2 _ (by simp), rfl⟩
      · have e := s.out hb
        rw [(hd hb).1, List.map_nil, List.append_nil] at e
        unfold Stream.sendProgressTo
        rw [e, List.map_append, s.revision hb]
        rfl
      · rw [ho] at h
        cases h
      · exact .own (.inr ho) id rfl (fun _ => ⟨rfl, rfl⟩) (fun _ => ⟨rfl, rfl, rfl, rfl, rfl, rfl⟩) fun _ => .same rfl
  | reply p l n r ho ht hd =>
    cases h with
    | send _ _ _ whole =>
      refine ⟨st, [], .loop l n ho ht fun hb => ⟨rfl, (hd hb).2⟩, ⟨s.reach, s.index, s.revision, fun hb => ?_, fun hb h => ?_⟩, ?_⟩
      · have e := s.out hb
        rw [(hd hb).1] at e
        simpa using e
      · change m.owner = none at h
        rw [ho] at h
        cases h
      · exact .own (.inr ho) id rfl (fun _ => ⟨rfl, rfl⟩) (fun _ => ⟨rfl, rfl, rfl, rfl, rfl, rfl⟩) fun _ => .same rfl
    | sendFails _ _ _ e =>
      refine ⟨st, pend, .fail _ ho rfl, .none rfl, ?_⟩
      exact .own (.inr ho) (fun h => nomatch h) rfl (fun _ => ⟨rfl, rfl⟩) (fun _ => ⟨rfl, rfl, rfl, rfl, rfl, rfl⟩) fun _ => .same rfl
  | fail v ho hb =>
    cases h
    refine ⟨st, pend, .ended v (.inr hb), .none hb, ?_⟩
    exact .own (.inr ho) id rfl (fun _ => ⟨rfl, rfl⟩) (fun _ => ⟨rfl, rfl, rfl, rfl, rfl, rfl⟩) fun _ => .same rfl
  | ended v hd => cases h

/-! ### `ServeRequests` -/

theorem At.ask {c d : Option Int} {n : Int} (h : At m st c d n []) {r : WatchMsg} {a : WatchAsk} (e : askOf r = some a) :
    At { m with asked := m.asked ++ [r] } st c d n [a] := by
  refine ⟨h.creating, h.closing, h.next, ?_⟩
  simp only [List.filterMap_append, h.asked, List.append_nil, List.filterMap_cons, e, List.filterMap_nil]

theorem At.skip {c d : Option Int} {n : Int} (h : At m st c d n []) {r : WatchMsg} (e : askOf r = none) :
    At { m with asked := m.asked ++ [r] } st c d n [] := by
  refine ⟨h.creating, h.closing, h.next, ?_⟩
  simp only [List.filterMap_append, h.asked, List.append_nil, List.filterMap_cons, e, List.filterMap_nil]

theorem RPh.sim (hr : RPh m st pend t) (s : StSim Q m st pend) (h : TStep 3 m t m' t') :
    ∃ st' pend', RPh m' st' pend' t' ∧ StSim Q m' st' pend' ∧ Fr 3 m st pend m' st' pend' := by
  have same : Fr 3 m st pend m st pend := .refl _ _ _ _
  have q : ∀ {P : Prop}, (3 : Nat) ≠ 3 → P := fun h => absurd rfl h
  have held : ∀ {P : Prop}, m.owner = some 3 → m.owner = none → P := fun ho h => by rw [ho] at h; cases h
  cases hr with
  | idle n next hd =>
    cases n with
    | zero => cases h
    | succ n =>
      change TStep 3 m (.recv _ _) m' t' at h
      cases h with
      | recvFails _ _ e => exact ⟨st, pend, .ended _ fun hb => ⟨next, hd hb⟩, s, same⟩
      | recv _ _ r =>
        have hs : StSim Q { m with asked := m.asked ++ [r] } st pend := ⟨s.reach, s.index, s.revision, s.out, fun hb ho => ⟨(s.free hb ho).pend, (s.free hb ho).report⟩⟩
        have hf : Fr 3 m st pend { m with asked := m.asked ++ [r] } st pend := .free rfl rfl rfl rfl rfl (fun _ => ⟨rfl, rfl⟩) q q
        refine ⟨st, pend, ?_, hs, hf⟩
        cases r with
        | create key re start wid =>
          by_cases hw : wid = 0
          · subst hw
            exact .wantCreate n next key re start fun hb => (hd hb).ask rfl
          · have e : requestStepT next (.create key re start wid) (requestsT n) = .ret [apiErrV .unsupported] := if_pos hw
            change RPh _ st pend (requestStepT next (.create key re start wid) (requestsT n))
            rw [e]
            exact .ended _ fun hb => ⟨next, (hd hb).skip (if_pos hw)⟩
        | cancel id => exact .wantClose n next id fun hb => (hd hb).ask rfl
        | progress => exact .wantProgress n next fun hb => (hd hb).ask rfl
        | empty => exact .idle n next fun hb => (hd hb).skip rfl
  | wantCreate n next key re start hd =>
    change TStep 3 m (.lock _) m' t' at h
    cases h with
    | lock _ free =>
      refine ⟨st, pend, .watch n next key re start rfl fun hb => ⟨⟨(hd hb).creating, (hd hb).closing, (hd hb).next, (hd hb).asked⟩, ⟨(s.free hb free).pend, (s.free hb free).report⟩⟩,
        ⟨s.reach, s.index, s.revision, s.out, fun _ h => nomatch h⟩, .own (.inl free) id rfl (fun _ => ⟨rfl, rfl⟩) q q⟩
  | watch n next key re start ho hd =>
    cases h with
    | watch _ _ _ _ _ _ _ pre post g c hi idle =>
      refine ⟨{ st with creating := some st.next, asked := st.asked ++ [.create key re start] }, pend, .watching n next ho fun hb => ⟨⟨congrArg some (hd hb).1.next, (hd hb).1.closing, (hd hb).1.next, ?_⟩, ⟨(hd hb).2.pend, (hd hb).2.report⟩⟩,
        ⟨fun hb => ?_, s.index, s.revision, s.out, fun _ h => held ho h⟩, .own (.inr ho) id rfl (fun _ => ⟨rfl, rfl⟩) q q⟩
      · exact (hd hb).1.asked.trans (List.append_nil _).symm
      · refine Q.step (s.reach hb) (.create m.base.sys m.base.node st pre post g _ key re start c (s.indexed hb hi) idle ⟨(hd hb).1.creating, (hd hb).1.closing⟩ ?_)
        rw [(hd hb).1.next]
  | watching n next ho hd =>
    cases h with
    | watched _ _ _ j g args hj hg idle ha =>
      refine ⟨st.created next .ok, [{ revision := 0, watchId := next, created := true }], .created n next ho fun hb => ⟨⟨rfl, (hd hb).1.closing, congrArg (· + 1) (hd hb).1.next, (hd hb).1.asked⟩, rfl, ?_⟩,
        ⟨fun hb => ?_, s.index, s.revision, fun hb => ?_, fun _ h => held ho h⟩, .own (.inr ho) id rfl (fun _ => ⟨rfl, rfl⟩) q q⟩
      · change setReport st.report next true = _
        rw [(hd hb).2.report]
      · exact Q.step (s.reach hb) (.created m.base st g next args .ok (s.indexed hb hj ▸ hg) idle (hd hb).1.creating ha)
      · have e := s.out hb
        rw [(hd hb).2.pend, List.map_nil, List.append_nil] at e
        change _ = (st.out ++ _).map encResponse
        rw [List.map_append, ← e]
    | refused _ _ _ j g args a b hj hg idle ha =>
      refine ⟨st.created next (.compacted a b), [{ revision := b, watchId := -1, created := true, canceled := true }], .reply n (next + 1) _ ho fun hb => ⟨⟨rfl, (hd hb).1.closing, congrArg (· + 1) (hd hb).1.next, (hd hb).1.asked⟩, rfl, (hd hb).2.report⟩,
        ⟨fun hb => ?_, s.index, s.revision, fun hb => ?_, fun _ h => held ho h⟩, .own (.inr ho) id rfl (fun _ => ⟨rfl, rfl⟩) q q⟩
      · exact Q.step (s.reach hb) (.created m.base st g next args (.compacted a b) (s.indexed hb hj ▸ hg) idle (hd hb).1.creating ha)
      · have e := s.out hb
        rw [(hd hb).2.pend, List.map_nil, List.append_nil] at e
        change _ = (st.out ++ _).map encResponse
        rw [List.map_append, ← e]
        rfl
    | failed _ _ _ j g args e hj hg idle ha =>
      exact ⟨st, pend, .failed n next ho fun hb => ⟨(hd hb).1, (hd hb).2, g, args, s.indexed hb hj ▸ hg, idle, ha⟩, s, same⟩
  | created n next ho hd =>
    change TStep 3 m (.setReport _ _ _) m' t' at h
    cases h
    exact ⟨st, pend, .reply n (next + 1) _ ho fun hb => ⟨⟨(hd hb).1.creating, (hd hb).1.closing, (hd hb).1.next, (hd hb).1.asked⟩, (hd hb).2.1, (hd hb).2.2.symm⟩,
      ⟨s.reach, s.index, s.revision, s.out, fun _ h => held ho h⟩, .own (.inr ho) id rfl (fun _ => ⟨rfl, rfl⟩) q q⟩
  | failed n next ho hd =>
    change TStep 3 m (.getRev _) m' t' at h
    cases h
    refine ⟨st.created next .error, [{ revision := m.revision, watchId := 0, canceled := true }], .reply n (next + 1) _ ho fun hb => ⟨⟨rfl, (hd hb).1.closing, congrArg (· + 1) (hd hb).1.next, (hd hb).1.asked⟩, rfl, (hd hb).2.1.report⟩,
      ⟨fun hb => ?_, s.index, s.revision, fun hb => ?_, fun _ h => held ho h⟩, .own (.inr ho) id rfl (fun _ => ⟨rfl, rfl⟩) q q⟩
    · obtain ⟨h1, h2, g, args, hg, idle, ha⟩ := hd hb
      exact Q.step (s.reach hb) (.created m.base st g next args .error hg idle h1.creating ha)
    · have e := s.out hb
      rw [(hd hb).2.1.pend, List.map_nil, List.append_nil] at e
      change _ = (st.out ++ [({ revision := st.revision, watchId := 0, canceled := true } : WatchResponse)]).map encResponse
      rw [List.map_append, ← e, s.revision hb]
  | reply n next r ho hd =>
    change TStep 3 m (.send _ _ _) m' t' at h
    cases h with
    | send _ _ _ whole =>
      refine ⟨st, [], .unlock n next ho fun hb => ⟨⟨(hd hb).1.creating, (hd hb).1.closing, (hd hb).1.next, (hd hb).1.asked⟩, rfl, (hd hb).2.2⟩, ⟨s.reach, s.index, s.revision, fun hb => ?_, fun _ h => held ho h⟩, .own (.inr ho) id rfl (fun _ => ⟨rfl, rfl⟩) q q⟩
      have e := s.out hb
      rw [(hd hb).2.1] at e
      simpa using e
    | sendFails _ _ _ e => exact ⟨st, pend, .fail _ ho rfl, .none rfl, .own (.inr ho) (fun h => nomatch h) rfl (fun _ => ⟨rfl, rfl⟩) q q⟩
  | unlock n next ho hd =>
    cases h
    exact ⟨st, pend, .idle n next fun hb => ⟨(hd hb).1.creating, (hd hb).1.closing, (hd hb).1.next, (hd hb).1.asked⟩, ⟨s.reach, s.index, s.revision, s.out, fun hb _ => ⟨(hd hb).2.pend, (hd hb).2.report⟩⟩,
      .own (.inr ho) id rfl (fun _ => ⟨rfl, rfl⟩) q q⟩
  | wantClose n next id' hd =>
    change TStep 3 m (.unwatch _ _) m' t' at h
    cases h with
    | unwatch _ _ pre post g c hi =>
      refine ⟨{ st with closing := some id', asked := st.asked ++ [.cancel id'], cancelled := st.cancelled ++ [id'] }, pend,
        .closing n next id' fun hb => ⟨(hd hb).creating, rfl, (hd hb).next, (hd hb).asked.trans (List.append_nil _).symm⟩,
        ⟨fun hb => ?_, s.index, s.revision, s.out, fun hb ho => ⟨(s.free hb ho).pend, (s.free hb ho).report⟩⟩, .free rfl rfl rfl rfl rfl (fun _ => ⟨rfl, rfl⟩) q q⟩
      exact Q.step (s.reach hb) (.unwatch m.base.sys m.base.node st pre post g id' c (s.indexed hb hi) ⟨(hd hb).creating, (hd hb).closing⟩)
  | closing n next id' hd =>
    cases h with
    | lock _ free =>
      exact ⟨st, pend, .delete n next id' rfl fun hb => ⟨⟨(hd hb).creating, (hd hb).closing, (hd hb).next, (hd hb).asked⟩, ⟨(s.free hb free).pend, (s.free hb free).report⟩⟩,
        ⟨s.reach, s.index, s.revision, s.out, fun _ h => nomatch h⟩, .own (.inl free) id rfl (fun _ => ⟨rfl, rfl⟩) q q⟩
  | delete n next id' ho hd =>
    cases h
    refine ⟨{ st with closing := none, report := st.report.filter fun p => decide (p.1 ≠ id') }, pend,
      .unlock n next ho fun hb => ⟨⟨(hd hb).1.creating, rfl, (hd hb).1.next, (hd hb).1.asked⟩, (hd hb).2.pend, ?_⟩,
      ⟨fun hb => ?_, s.index, s.revision, s.out, fun _ h => held ho h⟩, .own (.inr ho) id rfl (fun _ => ⟨rfl, rfl⟩) q q⟩
    · change Go.delReport m.report id' = _
      rw [(hd hb).2.report]
      rfl
    · exact Q.step (s.reach hb) (.closed m.base st id' (hd hb).1.closing)
  | wantProgress n next hd =>
    change TStep 3 m (.lock _) m' t' at h
    cases h with
    | lock _ free =>
      exact ⟨st, pend, .progress n next rfl fun hb => ⟨⟨(hd hb).creating, (hd hb).closing, (hd hb).next, (hd hb).asked⟩, ⟨(s.free hb free).pend, (s.free hb free).report⟩⟩,
        ⟨s.reach, s.index, s.revision, s.out, fun _ h => nomatch h⟩, .own (.inl free) id rfl (fun _ => ⟨rfl, rfl⟩) q q⟩
  | progress n next ho hd =>
    cases h
    refine ⟨st.requestProgress, [{ revision := m.revision, watchId := -1 }], .reply n next _ ho fun hb => ⟨⟨(hd hb).1.creating, (hd hb).1.closing, (hd hb).1.next, ?_⟩, rfl, (hd hb).2.report⟩,
      ⟨fun hb => ?_, s.index, s.revision, fun hb => ?_, fun _ h => held ho h⟩, .own (.inr ho) id rfl (fun _ => ⟨rfl, rfl⟩) q q⟩
    · exact (hd hb).1.asked.trans (List.append_nil _).symm
    · exact Q.step (s.reach hb) (.requestProgress m.base st ⟨(hd hb).1.creating, (hd hb).1.closing⟩)
    · have e := s.out hb
      rw [(hd hb).2.pend, List.map_nil, List.append_nil] at e
      change _ = (st.out ++ [({ revision := st.revision, watchId := -1 } : WatchResponse)]).map encResponse
      rw [List.map_append, ← e, s.revision hb]
  | fail v ho hb =>
    cases h
    refine ⟨st, pend, .ended v fun h => ?_, .none hb, .own (.inr ho) id rfl (fun _ => ⟨rfl, rfl⟩) q q⟩
    rw [show m.broken = false from h] at hb; cases hb
  | ended v hd => cases h

end Verif.Go
