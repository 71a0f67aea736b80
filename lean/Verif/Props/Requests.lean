import Verif.Props.Streams
/-!
# Requests on a watch stream: C87, C88
-/

namespace Verif

/-! ## Reading requests and answers -/

/-- The request creates a watch. -/
def WatchAsk.isCreate : WatchAsk → Bool
  | .create _ _ _ => true
  | _ => false

/-- The request asks for progress. -/
def WatchAsk.isProgress : WatchAsk → Bool
  | .progress => true
  | _ => false

/-- The response tells what became of a create request: a watch was created, or refused. -/
def WatchResponse.answersCreate (r : WatchResponse) : Bool := r.created || r.canceled

/-- The response is the answer to a progress request: it names no watch and is no refusal. -/
def WatchResponse.answersProgress (r : WatchResponse) : Bool :=
  !r.created && !r.canceled && decide (r.watchId = -1)

/-- What the answer to the `n`-th create request looks like: the watch got number `n`; or its start revision is
compacted (created and cancelled at once, no number); or it failed (cancelled, number 0). -/
def AnswerTo (n : Nat) (r : WatchResponse) : Prop :=
  r.events = [] ∧
  ((r.created = true ∧ r.canceled = false ∧ r.watchId = n) ∨
   (r.created = true ∧ r.canceled = true ∧ r.watchId = -1) ∨
   (r.created = false ∧ r.canceled = true ∧ r.watchId = 0))

/-- The watch `x` is the one the request asked for. -/
def IsWatchOf (x : Watcher) : WatchAsk → Prop
  | .create key rangeEnd start => x.lo = key ∧ x.hi = watchRangeEnd key rangeEnd ∧ x.start = start
  | _ => False

/-! ## Invariant -/

structure QInv (g : Group) (st : Stream) : Prop where
  count : (st.out.filter (·.answersCreate)).length + (if st.creating.isSome then 1 else 0) =
    (st.asked.filter (·.isCreate)).length
  next : st.next = (st.out.filter (·.answersCreate)).length + 1
  answers : ∀ k r, (st.out.filter (·.answersCreate))[k]? = some r → AnswerTo (k + 1) r
  progress : (st.out.filter (·.answersProgress)).length = (st.asked.filter (·.isProgress)).length
  report : ∀ p ∈ st.report, p.1 ∈ announcedIds st.out
  named : ∀ r ∈ st.out, 0 < r.watchId → r.watchId ∈ announcedIds st.out
  args : ∀ x ∈ g.watchers, 0 < x.id ∧ ∃ q, (st.asked.filter (·.isCreate))[(x.id - 1).toNat]? = some q ∧ IsWatchOf x q

theorem publishOrDrop_watchers (g : Group) (rev : Int) (es : List Event) :
    (g.publishOrDrop rev es).watchers = g.watchers.map fun (x : Watcher) => (x.update es).1 := by
  unfold Group.publishOrDrop Group.publish
  simp only
  by_cases h1 : g.closed > 0
  · simp [h1]
  · by_cases h2 : g.queue.length < updateCapacity
    · simp [h1, h2]
    · simp only [h1, h2, if_false]
      split <;> rfl

/-- Without a new watch, every watcher was there before, with the same parameters. -/
theorem GroupMove.old {w w' : World} {g g' : Group} (m : GroupMove w w' g g') (hu : g'.used = g.used) {x' : Watcher}
    (hx' : x' ∈ g'.watchers) : ∃ x ∈ g.watchers, x'.id = x.id ∧ x'.lo = x.lo ∧ x'.hi = x.hi ∧ x'.start = x.start := by
  have id' : x' ∈ g.watchers → ∃ x ∈ g.watchers, x'.id = x.id ∧ x'.lo = x.lo ∧ x'.hi = x.hi ∧ x'.start = x.start :=
    fun h => ⟨x', h, rfl, rfl, rfl, rfl⟩
  cases m with
  | same => exact id' hx'
  | publish rev es hin hcur =>
    rw [publishOrDrop_watchers] at hx'
    obtain ⟨y, hy, rfl⟩ := List.mem_map.1 hx'
    obtain ⟨h1, h2, h3, _⟩ := y.update_same es
    exact ⟨y, hy, Watcher.update_id y es, h1, h2, h3⟩
  | step hs =>
    cases hs with
    | watch id lo hi start idle fresh ne =>
      exfalso
      have : g.used ++ [id] = g.used := by
        unfold Group.watch at hu
        simp only at hu
        split at hu <;> exact hu
      simpa using congrArg List.length this
    | checkExec => exact id' hx'
    | checked a r c =>
      apply id'
      unfold Group.checked at hx'
      split at hx'
      · exact hx'
      · split at hx' <;> exact hx'
    | queryExec a eff k o c =>
      obtain ⟨z, hz, ⟨_, rfl⟩ | ⟨_, rfl⟩⟩ := mem_updateWatcher hx'
      · exact ⟨z, hz, rfl, rfl, rfl, rfl⟩
      · exact id' hz
    | queried a r c =>
      unfold Group.queried at hx'
      split at hx'
      · exact id' (removeWatcher_sub hx').1
      · obtain ⟨z, hz, ⟨_, rfl⟩ | ⟨_, rfl⟩⟩ := mem_updateWatcher hx'
        · exact ⟨z, hz, rfl, rfl, rfl, rfl⟩
        · exact id' hz
    | unwatch id idle => exact id' (removeWatcher_sub hx').1
    | recv => exact id' hx'
    | cancel => exact id' hx'
    | afterFunc => exact id' hx'

theorem IsWatchOf.congr {x x' : Watcher} {q : WatchAsk} (h : IsWatchOf x q) (h1 : x'.lo = x.lo) (h2 : x'.hi = x.hi)
    (h3 : x'.start = x.start) : IsWatchOf x' q := by
  cases q with
  | create => exact ⟨h1.trans h.1, h2.trans h.2.1, h3.trans h.2.2⟩
  | cancel => cases h
  | progress => cases h

/-- Responses that are no answers. -/
theorem filter_quiet {out new : List WatchResponse} {p : WatchResponse → Bool} (h : ∀ r ∈ new, p r = false) :
    (out ++ new).filter p = out.filter p := by
  have e : new.filter p = [] := List.filter_eq_nil_iff.2 (by simpa using h)
  rw [List.filter_append, e, List.append_nil]

theorem SReachable.qinv {a : SSys} (h : SReachable a) :
    ∃ g, a.base.node.groupAt a.stream.index = some g ∧ QInv g a.stream := by
  induction h with
  | @«open» s n h =>
    refine ⟨Group.new n.pollRevision, ?_, ?_⟩
    · unfold Node.groupAt Stream.new
      simp
    · refine ⟨rfl, rfl, ?_, rfl, ?_, ?_, ?_⟩
      · intro k r hk; simp [Stream.new] at hk
      · intro p hp; cases hp
      · intro p hp; cases hp
      · intro x hx; cases hx
  | @step a b hr st ih =>
    obtain ⟨hn, g, hg, hi⟩ := hr.inv
    obtain ⟨g', hg', q⟩ := ih
    rw [hg] at hg'
    cases hg'
    have inv := hn.ninv
    cases st with
    | env a b st hst quiet =>
      obtain ⟨g₁, hg₁, _, hu⟩ := quiet g hg
      obtain ⟨g₂, hg₂, mv⟩ := NStep.move inv hst hg
      rw [hg₁] at hg₂
      cases hg₂
      refine ⟨g₁, hg₁, q.count, q.next, q.answers, q.progress, q.report, q.named, fun x' hx' => ?_⟩
      obtain ⟨x, hx, e1, e2, e3, e4⟩ := mv.old hu hx'
      obtain ⟨hp, r, hr, hw⟩ := q.args x hx
      rw [e1]
      exact ⟨hp, r, hr, hw.congr e2 e3 e4⟩
    | recv s n st pre post g₁ u qu c hidx hq free =>
      have hg₁ := groupAt_mid c hidx
      rw [hg₁] at hg
      cases hg
      exact ⟨_, groupAt_mid rfl hidx, q.count, q.next, q.answers, q.progress, q.report, q.named, q.args⟩
    | store a st u hs => exact ⟨g, hg, q.count, q.next, q.answers, q.progress, q.report, q.named, q.args⟩
    | sendUpdates a st u hs hrev unlocked =>
      have hann : ∀ p ∈ u.updates, p.1 ∈ announcedIds st.out := by
        intro p hp
        have hmem : u ∈ g.received := List.mem_of_getLast? (hi.last u hs)
        have hne := hi.ne u (List.mem_append.2 (Or.inl hmem)) p hp
        have hsent : g.sent p.1 ≠ [] := by
          intro e
          apply hne
          have : ∀ ev ∈ p.2, ev ∈ g.sent p.1 := by
            intro ev hev
            unfold Group.sent sentTo
            refine List.mem_flatMap.2 ⟨u, List.mem_append.2 (Or.inl hmem), ?_⟩
            exact List.mem_flatMap.2 ⟨p, List.mem_filter.2 ⟨hp, by simp⟩, hev⟩
          cases hp2 : p.2 with
          | nil => rfl
          | cons ev l =>
            have := this ev (by rw [hp2]; simp)
            rw [e] at this
            cases this
        rcases hi.upd p.1 hsent with h | h
        · exact h
        · rw [unlocked] at h; cases h
      have hpos : ∀ p ∈ u.updates, 0 < p.1 := fun p hp => (hi.annId p.1 (hann p hp)).1
      have hq1 : ∀ r ∈ u.updates.map (fun p => ({ revision := st.revision, watchId := p.1, events := p.2 } : WatchResponse)),
          r.answersCreate = false := by
        intro r hr
        obtain ⟨p, _, rfl⟩ := List.mem_map.1 hr
        rfl
      have hq2 : ∀ r ∈ u.updates.map (fun p => ({ revision := st.revision, watchId := p.1, events := p.2 } : WatchResponse)),
          r.answersProgress = false := by
        intro r hr
        obtain ⟨p, hp, rfl⟩ := List.mem_map.1 hr
        have := hpos p hp
        have hne : ¬ p.1 = -1 := by omega
        simp [WatchResponse.answersProgress, hne]
      refine ⟨g, hg, ?_, ?_, ?_, ?_, ?_, ?_, q.args⟩
      · change ((st.out ++ _).filter _).length + _ = _
        rw [filter_quiet hq1]; exact q.count
      · change st.next = ((st.out ++ _).filter _).length + 1
        rw [filter_quiet hq1]; exact q.next
      · change ∀ k r, ((st.out ++ _).filter _)[k]? = some r → _
        rw [filter_quiet hq1]; exact q.answers
      · change ((st.out ++ _).filter _).length = _
        rw [filter_quiet hq2]; exact q.progress
      · intro p hp
        change p ∈ u.updates.foldl (fun l p => setReport l p.1 false) st.report at hp
        change p.1 ∈ announcedIds (st.out ++ _)
        rw [announcedIds_append]
        refine List.mem_append.2 (Or.inl ?_)
        have key : ∀ (us : List (Int × List Event)) (l : List (Int × Bool)), (∀ p ∈ us, p.1 ∈ announcedIds st.out) →
            (∀ p ∈ l, p.1 ∈ announcedIds st.out) →
            ∀ p ∈ us.foldl (fun l p => setReport l p.1 false) l, p.1 ∈ announcedIds st.out := by
          intro us
          induction us with
          | nil => intro l _ h; exact h
          | cons y us ih =>
            intro l hy hl
            refine ih _ (fun p hp => hy p (by simp [hp])) ?_
            intro p hp
            unfold setReport at hp
            rcases List.mem_append.1 hp with hp | hp
            · exact hl p (List.mem_filter.1 hp).1
            · simp only [List.mem_singleton] at hp
              rw [hp]
              exact hy y (by simp)
        exact key u.updates st.report hann q.report p hp
      · intro r hrm hp
        change r.watchId ∈ announcedIds (st.out ++ _)
        rw [announcedIds_append]
        refine List.mem_append.2 (Or.inl ?_)
        rcases List.mem_append.1 hrm with hrm | hrm
        · exact q.named r hrm hp
        · obtain ⟨p, hp', rfl⟩ := List.mem_map.1 hrm
          exact hann p hp'
    | create s n st pre post g₁ g' key rangeEnd start c hidx idle seq hgw =>
      have hg₁ := groupAt_mid c hidx
      rw [hg₁] at hg
      cases hg
      have hw : g'.watchers = removeWatcher g.watchers st.next ++
          [({ id := st.next, lo := key, hi := watchRangeEnd key rangeEnd, start, base := g.currentRevision, compactThen := s.world.db.compactRev } : WatchArgs).watcher] := by
        rw [hgw]; unfold Group.watch; simp only; split <;> rfl
      have hf : (st.asked ++ [WatchAsk.create key rangeEnd start]).filter (·.isCreate) =
          st.asked.filter (·.isCreate) ++ [.create key rangeEnd start] := by
        rw [List.filter_append]; rfl
      have hcount := q.count
      rw [show st.creating = none from seq.1] at hcount
      simp only [Option.isSome_none, Bool.false_eq_true, if_false, Nat.add_zero] at hcount
      refine ⟨g', groupAt_mid rfl hidx, ?_, q.next, q.answers, ?_, q.report, q.named, ?_⟩
      · change _ + 1 = ((st.asked ++ [_]).filter _).length
        rw [hf, List.length_append, ← hcount]
        rfl
      · change _ = ((st.asked ++ [_]).filter _).length
        rw [List.filter_append]
        change _ = (_ ++ ([] : List WatchAsk)).length
        rw [List.append_nil]
        exact q.progress
      · intro x hx
        change 0 < x.id ∧ ∃ y, ((st.asked ++ [WatchAsk.create key rangeEnd start]).filter (·.isCreate))[(x.id - 1).toNat]? = some y ∧
          IsWatchOf x y
        rw [hw] at hx
        rw [hf]
        rcases List.mem_append.1 hx with hx | hx
        · obtain ⟨hp, r, hr, hw⟩ := q.args x (removeWatcher_sub hx).1
          refine ⟨hp, r, ?_, hw⟩
          rw [List.getElem?_append_left (List.getElem?_eq_some_iff.1 hr).1]
          exact hr
        · simp only [List.mem_singleton] at hx
          subst hx
          have hnx := q.next
          simp only at hnx
          refine ⟨?_, .create key rangeEnd start, ?_, rfl, rfl, rfl⟩
          · change 0 < st.next
            omega
          · change (_ ++ _)[(st.next - 1).toNat]? = _
            rw [show (st.next - 1).toNat = (st.asked.filter (·.isCreate)).length by omega]
            rw [List.getElem?_append_right (Nat.le_refl _)]
            simp
    | created a st g₁ id args ans hg₁ idle hc ha =>
      have hcr := hi.creating id hc
      have hcount := q.count
      rw [show st.creating = some id from hc] at hcount
      simp only [Option.isSome_some, if_true] at hcount
      have hnx := q.next
      simp only at hnx hcr
      -- one answer is sent
      have one : ∀ (r : WatchResponse) (rep : List (Int × Bool)), r.answersCreate = true → r.answersProgress = false →
          AnswerTo ((st.out.filter (·.answersCreate)).length + 1) r →
          (∀ p ∈ rep, p.1 ∈ announcedIds (st.out ++ [r])) → (0 < r.watchId → r.watchId ∈ announcedIds (st.out ++ [r])) →
          QInv g { st with report := rep, creating := none, next := st.next + 1, out := st.out ++ [r] } := by
        intro r rep h1 h2 h3 h4 h5
        have e1 : (st.out ++ [r]).filter (·.answersCreate) = st.out.filter (·.answersCreate) ++ [r] := by
          rw [List.filter_append]; simp [h1]
        have e2 : (st.out ++ [r]).filter (·.answersProgress) = st.out.filter (·.answersProgress) := by
          rw [List.filter_append]; simp [h2]
        refine ⟨?_, ?_, ?_, ?_, h4, ?_, q.args⟩
        · simp only [e1, List.length_append, List.length_singleton, Option.isSome_none, Bool.false_eq_true, if_false]
          omega
        · simp only [e1, List.length_append, List.length_singleton]
          omega
        · simp only [e1]
          intro k x hk
          by_cases hlt : k < (st.out.filter (·.answersCreate)).length
          · rw [List.getElem?_append_left hlt] at hk
            exact q.answers k x hk
          · rw [List.getElem?_append_right (by omega)] at hk
            obtain ⟨hl, he⟩ := List.getElem?_eq_some_iff.1 hk
            simp only [List.length_singleton] at hl
            have hk0 : k = (st.out.filter (·.answersCreate)).length := by omega
            subst hk0
            simp only [Nat.sub_self, List.getElem_cons_zero] at he
            rw [← he]
            exact h3
        · simp only [e2]
          exact q.progress
        · intro x hx hp
          rcases List.mem_append.1 hx with hx | hx
          · change x.watchId ∈ announcedIds (st.out ++ [r])
            rw [announcedIds_append]
            exact List.mem_append.2 (Or.inl (q.named x hx hp))
          · simp only [List.mem_singleton] at hx
            subst hx
            exact h5 hp
      have old : ∀ (r : WatchResponse) (p : Int × Bool), p ∈ st.report → p.1 ∈ announcedIds (st.out ++ [r]) := by
        intro r p hp
        rw [announcedIds_append]
        exact List.mem_append.2 (Or.inl (q.report p hp))
      refine ⟨g, ?_, ?_⟩
      · have : (st.created id ans).index = st.index := by cases ans <;> rfl
        change a.node.groupAt (st.created id ans).index = some g
        rw [this]
        exact hg
      · cases ans with
        | ok =>
          refine one { revision := 0, watchId := id, created := true } (setReport st.report id true) rfl rfl
            ⟨rfl, Or.inl ⟨rfl, rfl, ?_⟩⟩ ?_ ?_
          · change id = ((_ + 1 : Nat) : Int)
            omega
          · intro p hp
            unfold setReport at hp
            rcases List.mem_append.1 hp with hp | hp
            · exact old _ p (List.mem_filter.1 hp).1
            · simp only [List.mem_singleton] at hp
              rw [hp, announcedIds_append]
              exact List.mem_append.2 (Or.inr (by simp [announcedIds]))
          · intro _
            rw [announcedIds_append]
            exact List.mem_append.2 (Or.inr (by simp [announcedIds]))
        | compacted cr cur =>
          exact one { revision := cur, watchId := invalidWatchId, created := true, canceled := true } st.report rfl rfl
            ⟨rfl, Or.inr (Or.inl ⟨rfl, rfl, rfl⟩)⟩ (old _) (fun h => by change (0 : Int) < -1 at h; omega)
        | error =>
          exact one { revision := st.revision, watchId := 0, canceled := true } st.report rfl rfl
            ⟨rfl, Or.inr (Or.inr ⟨rfl, rfl, rfl⟩)⟩ (old _) (fun h => by change (0 : Int) < 0 at h; omega)
    | unwatch s n st pre post g₁ id c hidx seq =>
      have hg₁ := groupAt_mid c hidx
      rw [hg₁] at hg
      cases hg
      have hf : ∀ p : WatchAsk → Bool, p (.cancel id) = false →
          (st.asked ++ [WatchAsk.cancel id]).filter p = st.asked.filter p := by
        intro p hp
        rw [List.filter_append]
        simp [hp]
      refine ⟨_, groupAt_mid rfl hidx, ?_, q.next, q.answers, ?_, q.report, q.named, ?_⟩
      · change _ = ((st.asked ++ [_]).filter _).length
        rw [hf _ rfl]; exact q.count
      · change _ = ((st.asked ++ [_]).filter _).length
        rw [hf _ rfl]; exact q.progress
      · intro x hx
        change 0 < x.id ∧ ∃ y, ((st.asked ++ [WatchAsk.cancel id]).filter (·.isCreate))[(x.id - 1).toNat]? = some y ∧
          IsWatchOf x y
        rw [hf _ rfl]
        exact q.args x (removeWatcher_sub hx).1
    | closed a st id hc =>
      exact ⟨g, hg, q.count, q.next, q.answers, q.progress, fun p hp => q.report p (List.mem_filter.1 hp).1, q.named, q.args⟩
    | tick a st l hl unlocked =>
      have hq1 : ∀ r ∈ l.map (fun p => ({ revision := st.revision, watchId := p.1 } : WatchResponse)),
          r.answersCreate = false := by
        intro r hr
        obtain ⟨p, _, rfl⟩ := List.mem_map.1 hr
        rfl
      have hq2 : ∀ r ∈ l.map (fun p => ({ revision := st.revision, watchId := p.1 } : WatchResponse)),
          r.answersProgress = false := by
        intro r hr
        obtain ⟨p, hp, rfl⟩ := List.mem_map.1 hr
        have := (hi.annId p.1 (q.report p (List.mem_filter.1 (hl p hp)).1)).1
        have hne : ¬ p.1 = -1 := by omega
        simp [WatchResponse.answersProgress, hne]
      refine ⟨g, hg, ?_, ?_, ?_, ?_, ?_, ?_, q.args⟩
      · change ((st.out ++ _).filter _).length + _ = _
        rw [filter_quiet hq1]; exact q.count
      · change st.next = ((st.out ++ _).filter _).length + 1
        rw [filter_quiet hq1]; exact q.next
      · change ∀ k r, ((st.out ++ _).filter _)[k]? = some r → _
        rw [filter_quiet hq1]; exact q.answers
      · change ((st.out ++ _).filter _).length = _
        rw [filter_quiet hq2]; exact q.progress
      · intro p hp
        change p.1 ∈ announcedIds (st.out ++ _)
        rw [announcedIds_append]
        exact List.mem_append.2 (Or.inl (q.report p hp))
      · intro r hrm hp
        change r.watchId ∈ announcedIds (st.out ++ _)
        rw [announcedIds_append]
        refine List.mem_append.2 (Or.inl ?_)
        rcases List.mem_append.1 hrm with hrm | hrm
        · exact q.named r hrm hp
        · obtain ⟨p, hp', rfl⟩ := List.mem_map.1 hrm
          exact q.report p (List.mem_filter.1 (hl p hp')).1
    | requestProgress a st seq =>
      refine ⟨g, hg, ?_, ?_, ?_, ?_, ?_, ?_, ?_⟩
      · change ((st.out ++ _).filter _).length + _ = ((st.asked ++ [_]).filter _).length
        rw [filter_quiet (by intro r hr; simp only [List.mem_singleton] at hr; rw [hr]; rfl), List.filter_append]
        change _ = (_ ++ ([] : List WatchAsk)).length
        rw [List.append_nil]
        exact q.count
      · change st.next = ((st.out ++ _).filter _).length + 1
        rw [filter_quiet (by intro r hr; simp only [List.mem_singleton] at hr; rw [hr]; rfl)]; exact q.next
      · change ∀ k r, ((st.out ++ _).filter _)[k]? = some r → _
        rw [filter_quiet (by intro r hr; simp only [List.mem_singleton] at hr; rw [hr]; rfl)]; exact q.answers
      · change ((st.out ++ _).filter _).length = ((st.asked ++ [_]).filter _).length
        rw [List.filter_append, List.filter_append, List.length_append, List.length_append]
        have := q.progress
        simp only at this
        rw [this]
        rfl
      · intro p hp
        change p.1 ∈ announcedIds (st.out ++ _)
        rw [announcedIds_append]
        exact List.mem_append.2 (Or.inl (q.report p hp))
      · intro r hrm hp
        change r.watchId ∈ announcedIds (st.out ++ _)
        rw [announcedIds_append]
        refine List.mem_append.2 (Or.inl ?_)
        rcases List.mem_append.1 hrm with hrm | hrm
        · exact q.named r hrm hp
        · simp only [List.mem_singleton] at hrm
          rw [hrm] at hp
          change (0 : Int) < -1 at hp
          omega
      · intro x hx
        change 0 < x.id ∧ ∃ y, ((st.asked ++ [WatchAsk.progress]).filter (·.isCreate))[(x.id - 1).toNat]? = some y ∧
          IsWatchOf x y
        rw [List.filter_append, show [WatchAsk.progress].filter (·.isCreate) = [] from rfl, List.append_nil]
        exact q.args x hx

/-! ## C87 Every request on a watch stream is answered, in order -/

/-- Create requests are served in the order they were made, each is answered exactly once (the last one may still be in
progress), and the answer to the `k`-th request carries the number `k` or says that the watch was refused. Progress
requests are answered exactly once each. Every watch that exists is one the client asked for: watch number `k` covers
the range and start revision of the `k`-th create request. -/
theorem C87_answered_in_order_partial {a : SSys} (h : SReachable a) :
    (a.stream.out.filter (·.answersCreate)).length + (if a.stream.creating.isSome then 1 else 0) =
      (a.stream.asked.filter (·.isCreate)).length ∧
    (∀ k r, (a.stream.out.filter (·.answersCreate))[k]? = some r → AnswerTo (k + 1) r) ∧
    (a.stream.out.filter (·.answersProgress)).length = (a.stream.asked.filter (·.isProgress)).length ∧
    ∃ g, a.base.node.groupAt a.stream.index = some g ∧ ∀ x ∈ g.watchers,
      0 < x.id ∧ ∃ q, (a.stream.asked.filter (·.isCreate))[(x.id - 1).toNat]? = some q ∧ IsWatchOf x q := by
  obtain ⟨g, hg, q⟩ := h.qinv
  exact ⟨q.count, q.answers, q.progress, g, hg, q.args⟩

/-- Specification: the keys a create request asks for: only the key, or those from it up to the range end. -/
def WatchAsk.asksFor : WatchAsk → Bytes → Prop
  | .create key rangeEnd _, k => if rangeEnd = [] then k = key else ble key k = true ∧ blt k rangeEnd = true
  | _, _ => False

/-- Watch number `k` covers exactly the keys the `k`-th create request asks for. -/
theorem C87_covers {a : SSys} (h : SReachable a) :
    ∃ g, a.base.node.groupAt a.stream.index = some g ∧ ∀ x ∈ g.watchers,
      ∃ q, (a.stream.asked.filter (·.isCreate))[(x.id - 1).toNat]? = some q ∧
        ∀ k, inRange x.lo x.hi k = true ↔ q.asksFor k := by
  obtain ⟨g, hg, q⟩ := h.qinv
  refine ⟨g, hg, fun x hx => ?_⟩
  obtain ⟨_, y, hy, hw⟩ := q.args x hx
  refine ⟨y, hy, fun k => ?_⟩
  cases y with
  | create key rangeEnd start =>
    obtain ⟨h1, h2, _⟩ := hw
    rw [h1, h2]
    change inRange key (watchRangeEnd key rangeEnd) k = true ↔ if rangeEnd = [] then k = key else ble key k = true ∧ blt k rangeEnd = true
    unfold watchRangeEnd
    by_cases he : rangeEnd = []
    · subst he
      exact inRange_single
    · rw [if_neg he, if_neg (by simpa using he)]
      simp [inRange]
  | cancel _ => exact hw.elim
  | progress => exact hw.elim

/-- A create request that is being served can be answered as soon as its queries have returned. -/
theorem C87_answer_comes {a : SSys} (h : SReachable a) {id : Int} (hc : a.stream.creating = some id) {g : Group}
    (hg : a.base.node.groupAt a.stream.index = some g) (idle : g.call = .idle) :
    ∃ b r, SStep a b ∧ b.stream.creating = none ∧ b.stream.out = a.stream.out ++ [r] ∧ r.answersCreate = true ∧
      AnswerTo (a.stream.asked.filter (·.isCreate)).length r := by
  obtain ⟨_, g₁, hg₁, hi⟩ := h.inv
  rw [hg] at hg₁
  cases hg₁
  obtain ⟨args, ans, hans, _⟩ := hi.pend id hc idle
  have st : SStep a ⟨a.base, a.stream.created id ans⟩ := .created a.base a.stream g id args ans hg idle hc hans
  obtain ⟨_, _, q⟩ := (h.step st).qinv
  have ex : ∃ r, (a.stream.created id ans).out = a.stream.out ++ [r] ∧ r.answersCreate = true ∧
      (a.stream.created id ans).creating = none ∧ (a.stream.created id ans).asked = a.stream.asked := by
    cases ans <;> exact ⟨_, rfl, rfl, rfl, rfl⟩
  obtain ⟨r, h1, h2, h3, h4⟩ := ex
  refine ⟨_, r, st, h3, h1, h2, ?_⟩
  have hcount := q.count
  have hans' := q.answers
  simp only [h1, h3, h4, List.filter_append, List.length_append, Option.isSome_none, Bool.false_eq_true, if_false,
    show [r].filter (·.answersCreate) = [r] by simp [h2], List.length_singleton, Nat.add_zero] at hcount hans'
  rw [← hcount]
  apply hans'
  rw [List.getElem?_append_right (Nat.le_refl _)]
  simp

/-- A cancel request is never confirmed: in no state has the client been sent a response that says that watch `id` was
cancelled (`Close`, `/repo/pkg/limited/watch.go:185-191`, sends nothing, although etcd's protocol announces the end of
a watch). -/
theorem C87_cancel_unanswered_counterexample {a : SSys} (h : SReachable a) {r : WatchResponse} (hr : r ∈ a.stream.out)
    (hc : r.canceled = true) : r.watchId = 0 ∨ r.watchId = -1 := by
  obtain ⟨g, hg, q⟩ := h.qinv
  have hm : r ∈ a.stream.out.filter (·.answersCreate) :=
    List.mem_filter.2 ⟨hr, by simp [WatchResponse.answersCreate, hc]⟩
  obtain ⟨k, hk⟩ := List.mem_iff_getElem?.1 hm
  rcases (q.answers k r hk).2 with ⟨_, h2, _⟩ | ⟨_, _, h3⟩ | ⟨_, _, h3⟩
  · rw [hc] at h2; cases h2
  · exact Or.inr h3
  · exact Or.inl h3

/-- A watch is created and cancelled; the client has been told of the creation, and is never told of the cancellation. -/
theorem C87_cancel_silent_counterexample : ∃ a, SReachable a ∧ a.stream.asked = [.create [0x2f] [0x30] 0, .cancel 1] ∧
    a.stream.creating = none ∧ a.stream.closing = none ∧
    a.stream.out.map WatchResponse.view = [(1, 0, true, false, [])] := by
  obtain ⟨w, n, st, h, hP⟩ := (SScenario.mk streamDemo.node
      [.create [0x2f] [0x30] 0, .created, .unwatch 1, .closed]).check
    (fun _ _ st => decide (st.asked = [.create [0x2f] [0x30] 0, .cancel 1]) && decide (st.creating = none) &&
      decide (st.closing = none) && decide (st.out.map WatchResponse.view = [(1, 0, true, false, [])])) (by decide +kernel)
  simp only [Bool.and_eq_true, decide_eq_true_eq] at hP
  exact ⟨_, h, hP.1.1.1, hP.1.1.2, hP.1.2, hP.2⟩

/-- A create request whose query fails is answered by a response for watch 0 that is not marked as created
(`/repo/pkg/limited/watch.go:165-173`): nothing in it refers to the request or to any watch ever numbered on the stream
(numbers start at 1), so an etcd client, which matches answers to requests by the `Created` flag or by the number, cannot tell which request
failed. Here the first request fails and the second succeeds. -/
theorem C87_failed_create_counterexample : ∃ a, SReachable a ∧
    a.stream.asked = [.create [0x2f] [0x30] 4, .create [0x2f] [0x30] 0] ∧
    a.stream.out.map WatchResponse.view = [(0, 0, false, true, []), (2, 0, true, false, [])] := by
  obtain ⟨w, n, st, h, hP⟩ := (SScenario.mk streamDemo.node
      [.create [0x2f] [0x30] 4, .node (.exec 0 (.fail .other)), .node (.done 0), .created, .create [0x2f] [0x30] 0,
       .created]).check
    (fun _ _ st => decide (st.asked = [.create [0x2f] [0x30] 4, .create [0x2f] [0x30] 0]) &&
      decide (st.out.map WatchResponse.view = [(0, 0, false, true, []), (2, 0, true, false, [])])) (by decide +kernel)
  simp only [Bool.and_eq_true, decide_eq_true_eq] at hP
  exact ⟨_, h, hP⟩

/-- A mixed history: a watch from revision 4, one without start revision, a progress request, a cancellation. -/
example : ∃ a, SReachable a ∧
    a.stream.asked = [.create [0x2f] [0x30] 4, .progress, .create [0x2f] [0x30] 0, .cancel 1, .progress] ∧
    a.stream.out.map WatchResponse.view =
      [(1, 0, true, false, []), (-1, 0, false, false, []), (2, 0, true, false, []), (-1, 0, false, false, [])] := by
  obtain ⟨w, n, st, h, hP⟩ := (SScenario.mk streamDemo.node
      [.create [0x2f] [0x30] 4, .node (.exec 0 .ok), .node (.done 0), .node (.exec 0 .ok), .node (.done 0), .created,
       .requestProgress, .create [0x2f] [0x30] 0, .created, .unwatch 1, .closed, .requestProgress]).check
    (fun _ _ st =>
      decide (st.asked = [.create [0x2f] [0x30] 4, .progress, .create [0x2f] [0x30] 0, .cancel 1, .progress]) &&
      decide (st.out.map WatchResponse.view =
      [(1, 0, true, false, []), (-1, 0, false, false, []), (2, 0, true, false, []), (-1, 0, false, false, [])]))
    (by decide +kernel)
  simp only [Bool.and_eq_true, decide_eq_true_eq] at hP
  exact ⟨_, h, hP⟩

end Verif
