import Verif.Lemmas.StreamInv
/-!
# Executing concrete schedules of a stream
-/

namespace Verif

theorem nstep_step {a : NAct} {w w' : World} {n n' : Node} (hs : nstep a w n = some (w', n'))
    (hc : ∀ cs, a ≠ .calls cs) : NStep ⟨⟨w, []⟩, n⟩ ⟨⟨w', []⟩, n'⟩ := by
  have hg : ∀ a : NAct, (match n.groups[a.index]? with
      | some g =>
        match gstep a w g with
        | some (w', g') =>
          some (w', { n with groups := n.groups.take a.index ++ g' :: n.groups.drop (a.index + 1) })
        | none => none
      | none => none) = some (w', n') → NStep ⟨⟨w, []⟩, n⟩ ⟨⟨w', []⟩, n'⟩ := by
    intro a hs
    split at hs
    · rename_i g hget
      split at hs
      · rename_i w₁ g' hst
        simp only [Option.some.injEq, Prod.mk.injEq] at hs
        obtain ⟨rfl, rfl⟩ := hs
        refine .group ⟨w, []⟩ n w₁ _ _ g g' ?_ (gstep_step hst)
        obtain ⟨hlt, rfl⟩ := List.getElem?_eq_some_iff.1 hget
        rw [List.getElem_cons_drop, List.take_append_drop]
      · cases hs
    · cases hs
  unfold nstep at hs
  split at hs
  · exact absurd rfl (hc _)
  · split at hs
    · cases hs
      exact .pollStart _ _ (by assumption)
    · cases hs
  · split at hs
    · cases hs
      exact .pollExec _ _ _ _ _ (by assumption)
    · cases hs
  · split at hs
    · cases hs
      exact .pollPublish _ _ _ (by assumption)
    · cases hs
      exact .pollError _ _ _ (by assumption)
    · cases hs
  · cases hs
    exact .openGroup _ _
  · exact hg _ hs

/-- What happens next to a stream. -/
inductive SAct where
  /-- other calls on the database -/
  | calls (cs : List (Call × List Outcome))
  /-- a step of the node other than those below -/
  | node (a : NAct)
  | recv
  | sendUpdates
  | create (key rangeEnd : Bytes) (start : Int)
  | created
  | unwatch (id : Int)
  | closed
  | tick
  | requestProgress

/-- Is it a list of database calls? -/
def NAct.isCalls : NAct → Bool
  | .calls _ => true
  | _ => false

/-- Execute one action. -/
def sstep (a : SAct) (w : World) (n : Node) (st : Stream) : Option (World × Node × Stream) :=
  match a with
  | .calls cs => if cs.all (fun c => decide c.1.allowed) then some (runCalls cs w, n, st) else none
  | .node a =>
    if a.isCalls then none else
    match nstep a w n with
    | some (w', n') =>
      match n.groups[st.index]?, n'.groups[st.index]? with
      | some g, some g' => if g'.received = g.received ∧ g'.used = g.used then some (w', n', st) else none
      | _, _ => none
    | none => none
  | .recv =>
    match n.groups[st.index]?, st.sending with
    | some g, none =>
      match g.queue with
      | u :: q => some (w, { n with groups := n.groups.take st.index ++
          { g with queue := q, received := g.received ++ [u] } :: n.groups.drop (st.index + 1) },
          { st with revision := u.revision, sending := some u })
      | [] => none
    | _, _ => none
  | .sendUpdates =>
    match st.sending, st.creating with
    | some u, none => if st.revision = u.revision then some (w, n, st.sendUpdates u) else none
    | _, _ => none
  | .create key rangeEnd start =>
    match n.groups[st.index]?, st.creating, st.closing with
    | some g, none, none =>
      match g.call with
      | .idle =>
        let g' := g.watch st.next key (watchRangeEnd key rangeEnd) start w.db.compactRev
        some (w, { n with groups := n.groups.take st.index ++ g' :: n.groups.drop (st.index + 1) }, { st with creating := some st.next, asked := st.asked ++ [.create key rangeEnd start] })
      | _ => none
    | _, _, _ => none
  | .created =>
    match n.groups[st.index]?, st.creating with
    | some g, some id =>
      match g.call, g.answers.getLast? with
      | .idle, some (_, ans) => some (w, n, st.created id ans)
      | _, _ => none
    | _, _ => none
  | .unwatch id =>
    match n.groups[st.index]?, st.creating, st.closing with
    | some g, none, none => some (w, { n with groups := n.groups.take st.index ++
        { g with watchers := removeWatcher g.watchers id } :: n.groups.drop (st.index + 1) },
        { st with closing := some id, asked := st.asked ++ [.cancel id], cancelled := st.cancelled ++ [id] })
    | _, _, _ => none
  | .closed =>
    match st.closing with
    | some id => some (w, n, { st with closing := none, report := st.report.filter fun p => decide (p.1 ≠ id) })
    | none => none
  | .tick => match st.creating with
    | none => some (w, n, st.sendProgress)
    | some _ => none
  | .requestProgress =>
    match st.creating, st.closing with
    | none, none => some (w, n, st.requestProgress)
    | _, _ => none

theorem split_at_index {l : List Group} {i : Nat} {g : Group} (h : l[i]? = some g) :
    l = l.take i ++ g :: l.drop (i + 1) ∧ (l.take i).length = i := by
  obtain ⟨hlt, rfl⟩ := List.getElem?_eq_some_iff.1 h
  constructor
  · rw [List.getElem_cons_drop, List.take_append_drop]
  · rw [List.length_take]; omega

theorem SReachable.env {s s' : Sys} {n : Node} {st : Stream} (h : SReachable ⟨⟨s, n⟩, st⟩) (hs : Steps s s') :
    SReachable ⟨⟨s', n⟩, st⟩ := by
  induction hs with
  | refl => exact h
  | tail _ hst ih => exact ih.step (.env _ _ _ (.env _ _ _ hst) (fun g hg => ⟨g, hg, rfl, rfl⟩))

theorem sstep_reach {a : SAct} {w w' : World} {n n' : Node} {st st' : Stream}
    (h : SReachable ⟨⟨⟨w, []⟩, n⟩, st⟩) (hs : sstep a w n st = some (w', n', st')) :
    SReachable ⟨⟨⟨w', []⟩, n'⟩, st'⟩ := by
  unfold sstep at hs
  split at hs
  · split at hs
    · rename_i hc
      cases hs
      exact h.env (runCalls_steps _ (fun c hcs => by simpa using List.all_eq_true.1 hc c hcs) w [])
    · cases hs
  · split at hs
    · cases hs
    · rename_i a hnc
      split at hs
      · rename_i w₁ n₁ hn
        split at hs
        · rename_i g g' e1 e2
          split at hs
          · rename_i hq
            cases hs
            refine h.step (.env _ _ _ (nstep_step hn (fun cs e => by rw [e] at hnc; exact hnc rfl)) ?_)
            intro g₁ hg₁
            unfold Node.groupAt at hg₁
            rw [e1] at hg₁
            cases hg₁
            exact ⟨g', e2, hq.1, hq.2⟩
          · cases hs
        · cases hs
      · cases hs
  · split at hs
    · rename_i g hg hf
      split at hs
      · rename_i u q hq
        cases hs
        obtain ⟨e1, e2⟩ := split_at_index hg
        exact (h.step (.recv _ _ _ _ _ g u q e1 e2 hq hf)).step (.store _ _ u rfl)
      · cases hs
    · cases hs
  · split at hs
    · split at hs
      · cases hs
        exact h.step (.sendUpdates _ _ _ (by assumption) (by assumption) (by assumption))
      · cases hs
    · cases hs
  · split at hs
    · rename_i g hg h1 h2
      split at hs
      · cases hs
        obtain ⟨e1, e2⟩ := split_at_index hg
        exact h.step (.create _ _ _ _ _ g _ _ _ _ e1 e2 (by assumption) ⟨h1, h2⟩ rfl)
      · cases hs
    · cases hs
  · split at hs
    · rename_i g id hg hc
      split at hs
      · cases hs
        exact h.step (.created _ _ g id _ _ hg (by assumption) hc (by assumption))
      · cases hs
    · cases hs
  · split at hs
    · rename_i g hg h1 h2
      cases hs
      obtain ⟨e1, e2⟩ := split_at_index hg
      exact h.step (.unwatch _ _ _ _ _ g _ e1 e2 ⟨h1, h2⟩)
    · cases hs
  · split at hs
    · cases hs
      exact h.step (.closed _ _ _ (by assumption))
    · cases hs
  · split at hs
    · cases hs
      exact h.step (.tick _ _ _ (fun _ h => h) (by assumption))
    · cases hs
  · split at hs
    · rename_i h1 h2
      cases hs
      exact h.step (.requestProgress _ _ ⟨h1, h2⟩)
    · cases hs

/-- Execute several actions. -/
def sruns : List SAct → World → Node → Stream → Option (World × Node × Stream)
  | [], w, n, st => some (w, n, st)
  | a :: as, w, n, st =>
    match sstep a w n st with
    | some (w', n', st') => sruns as w' n' st'
    | none => none

theorem sruns_reach {as : List SAct} {w w' : World} {n n' : Node} {st st' : Stream}
    (h : SReachable ⟨⟨⟨w, []⟩, n⟩, st⟩) (hs : sruns as w n st = some (w', n', st')) :
    SReachable ⟨⟨⟨w', []⟩, n'⟩, st'⟩ := by
  induction as generalizing w n st with
  | nil =>
    simp only [sruns, Option.some.injEq, Prod.mk.injEq] at hs
    obtain ⟨rfl, rfl, rfl⟩ := hs
    exact h
  | cons a as ih =>
    simp only [sruns] at hs
    split at hs
    · rename_i h1
      exact ih (sstep_reach h h1) hs
    · cases hs

/-- A concrete run: a scenario of a node, then a stream is opened, then actions. -/
structure SScenario where
  node : NScenario
  acts : List SAct

/-- The result of a scenario. -/
def SScenario.result (sc : SScenario) : Option (World × Node × Stream) :=
  match sc.node.result with
  | some (w, n) => sruns sc.acts w { n with groups := n.groups ++ [Group.new n.pollRevision] } (Stream.new n.groups.length)
  | none => none

/-- A check on the result of a scenario, executed in the kernel, gives a reachable state of the model. -/
theorem SScenario.check (sc : SScenario) (P : World → Node → Stream → Bool)
    (h : (sc.node.ok && (match sc.result with | some (w, n, st) => P w n st | none => false)) = true) :
    ∃ w n st, SReachable ⟨⟨⟨w, []⟩, n⟩, st⟩ ∧ P w n st = true := by
  rw [Bool.and_eq_true] at h
  obtain ⟨hok, h⟩ := h
  split at h
  · rename_i w n st e
    refine ⟨w, n, st, ?_, h⟩
    unfold SScenario.result at e
    split at e
    · rename_i w₁ n₁ e1
      refine sruns_reach (SReachable.open ?_) e
      unfold NScenario.result at e1
      split at e1
      · rename_i rev w₂ hr
        exact nruns_reach (NReachable.start (runCalls_reachable _ hok) (runSched_run hr)) e1
      · cases e1
    · cases e
  · cases h

end Verif
