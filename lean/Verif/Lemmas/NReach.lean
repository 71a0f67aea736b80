import Verif.Lemmas.WatchInv
import Verif.Lemmas.Reach
/-!
# The database under a node is a reachable one: observing a call and polling add nothing to the behaviours
-/

namespace Verif

/-- Insert a program somewhere into the pool. -/
inductive Plus (q : Prog Unit) (s : Sys) : Sys → Prop where
  | mk (pre post : List (Prog Unit)) (h : s.pool = pre ++ post) : Plus q s ⟨s.world, pre ++ q :: post⟩

theorem Plus.step {q : Prog Unit} {s s' s₁ : Sys} (h : Plus q s s₁) (st : Step s s') :
    ∃ s₁', Step s₁ s₁' ∧ Plus q s' s₁' := by
  obtain ⟨pre, post, hp⟩ := h
  cases st with
  | spawn _ c ok =>
    refine ⟨_, .spawn _ c ok, ?_⟩
    have := Plus.mk (q := q) (s := { s with pool := c.prog :: s.pool }) (c.prog :: pre) post (by simp [hp])
    simpa using this
  | exec w pre' post' eff k o =>
    simp only at hp
    rcases List.append_eq_append_iff.1 hp with ⟨a, e1, e2⟩ | ⟨a, e1, e2⟩
    · -- the program is in the second part
      cases a with
      | nil =>
        simp only [List.append_nil, List.nil_append] at e1 e2
        subst e1 e2
        have st := Step.exec w (pre ++ [q]) post' eff k o
        simp only [List.append_assoc, List.singleton_append] at st
        exact ⟨_, st, Plus.mk (q := q) (s := ⟨w.exec eff o, pre ++ k o w.db :: post'⟩) pre (k o w.db :: post') rfl⟩
      | cons b a =>
        simp only [List.cons_append, List.cons.injEq] at e2
        obtain ⟨rfl, rfl⟩ := e2
        subst e1
        have st := Step.exec w pre' (a ++ q :: post) eff k o
        simp only [List.append_assoc, List.cons_append] at st ⊢
        refine ⟨_, st, ?_⟩
        have := Plus.mk (q := q) (s := ⟨w.exec eff o, pre' ++ k o w.db :: (a ++ post)⟩)
          (pre' ++ k o w.db :: a) post (by simp)
        simpa using this
    · cases a with
      | nil =>
        simp only [List.append_nil, List.nil_append] at e1 e2
        subst e1 e2
        have st := Step.exec w (pre' ++ [q]) post' eff k o
        simp only [List.append_assoc, List.singleton_append] at st
        exact ⟨_, st, Plus.mk (q := q) (s := ⟨w.exec eff o, pre' ++ k o w.db :: post'⟩) pre' (k o w.db :: post') rfl⟩
      | cons b a =>
        subst e1 e2
        have st := Step.exec w (pre ++ q :: (b :: a)) post' eff k o
        simp only [List.append_assoc, List.cons_append] at st ⊢
        refine ⟨_, st, ?_⟩
        have := Plus.mk (q := q) (s := ⟨w.exec eff o, pre ++ b :: (a ++ k o w.db :: post')⟩)
          pre (b :: (a ++ k o w.db :: post')) rfl
        simpa using this
  | stop w pre' post' p =>
    simp only at hp
    rcases List.append_eq_append_iff.1 hp with ⟨a, e1, e2⟩ | ⟨a, e1, e2⟩
    · cases a with
      | nil =>
        simp only [List.append_nil, List.nil_append] at e1 e2
        subst e1 e2
        have st := Step.stop w (pre ++ [q]) post' p
        simp only [List.append_assoc, List.singleton_append] at st
        exact ⟨_, st, Plus.mk (q := q) (s := ⟨w, pre ++ post'⟩) pre post' rfl⟩
      | cons b a =>
        simp only [List.cons_append, List.cons.injEq] at e2
        obtain ⟨rfl, rfl⟩ := e2
        subst e1
        have st := Step.stop w pre' (a ++ q :: post) p
        simp only [List.append_assoc, List.cons_append] at st ⊢
        refine ⟨_, st, ?_⟩
        have := Plus.mk (q := q) (s := ⟨w, pre' ++ (a ++ post)⟩) (pre' ++ a) post (by simp)
        simpa using this
    · cases a with
      | nil =>
        simp only [List.append_nil, List.nil_append] at e1 e2
        subst e1 e2
        have st := Step.stop w (pre' ++ [q]) post' p
        simp only [List.append_assoc, List.singleton_append] at st
        exact ⟨_, st, Plus.mk (q := q) (s := ⟨w, pre' ++ post'⟩) pre' post' rfl⟩
      | cons b a =>
        subst e1 e2
        have st := Step.stop w (pre ++ q :: (b :: a)) post' p
        simp only [List.append_assoc, List.cons_append] at st ⊢
        refine ⟨_, st, ?_⟩
        have := Plus.mk (q := q) (s := ⟨w, pre ++ b :: (a ++ post')⟩) pre (b :: (a ++ post')) rfl
        simpa using this

theorem Plus.run {α : Type} {f : α → Unit} {s s' : Sys} {p : Prog α} {t : List Obs} {a : α} (r : Run s p t a s') :
    ∀ s₁, Plus (p.map f) s s₁ → ∃ s₁', Steps s₁ s₁' ∧ Plus (.ret ()) s' s₁' := by
  induction r with
  | ret s a => exact fun s₁ h => ⟨s₁, .refl _, h⟩
  | env st _ ih =>
    intro s₁ h
    obtain ⟨s₂, h1, h2⟩ := h.step st
    obtain ⟨s₃, h3, h4⟩ := ih s₂ h2
    exact ⟨s₃, (Steps.tail (.refl _) h1).trans h3, h4⟩
  | @step s s'' eff k t a o _ ih =>
    intro s₁ h
    obtain ⟨pre, post, hp⟩ := h
    have st := Step.exec s.world pre post eff (fun o db => (k o db).map f) o
    obtain ⟨s₃, h3, h4⟩ := ih _ (Plus.mk (q := (k o s.world.db).map f)
      (s := { s with world := s.world.exec eff o }) pre post hp)
    exact ⟨s₃, (Steps.tail (.refl _) st).trans h3, h4⟩

/-- A complete call adds nothing to the behaviours of the system. -/
theorem Run.reach {α : Type} {f : α → Unit} {s s' : Sys} {p : Prog α} {t : List Obs} {a : α} (r : Run s p t a s')
    (c : Call) (ok : c.allowed) (hc : c.prog = p.map f) : Steps s s' := by
  have h1 := Step.spawn s c ok
  obtain ⟨s₁, h2, h3⟩ := Plus.run (f := f) r { s with pool := c.prog :: s.pool }
    (by rw [hc]; exact Plus.mk (q := p.map f) (s := s) [] s.pool rfl)
  obtain ⟨pre, post, hp⟩ := h3
  have h4 := Step.stop s'.world pre post (.ret ())
  have e : (⟨s'.world, pre ++ post⟩ : Sys) = s' := by rw [← hp]
  rw [e] at h4
  exact .tail ((Steps.tail (.refl _) h1).trans h2) h4

/-- The programs of the watch machinery only read. -/
def Group.ReadOnly (g : Group) : Prop :=
  match g.call with
  | .idle => True
  | .check _ p => AllStmts (fun e => e = id) p
  | .query _ p => AllStmts (fun e => e = id) p

/-- The programs of a node only read. -/
structure Node.ReadOnly (n : Node) : Prop where
  poll : match n.poll with
    | .querying p => AllStmts (fun e => e = id) p
    | _ => True
  groups : ∀ g ∈ n.groups, g.ReadOnly

theorem Group.ReadOnly.of_call {g g' : Group} (h : g.ReadOnly) (e : g'.call = g.call) : g'.ReadOnly := by
  unfold Group.ReadOnly at *
  rw [e]; exact h

theorem GroupStep.readOnly {w w' : World} {g g' : Group} (i : Inv w) (h : g.ReadOnly) (st : GroupStep w g w' g') :
    w' = w ∧ g'.ReadOnly := by
  cases st with
  | watch id lo hi start idle fresh ne =>
    refine ⟨rfl, ?_⟩
    unfold Group.watch
    simp only
    split
    · exact all_getCompactRevision (E := fun e => e = _root_.id) rfl
    · exact h.of_call rfl
  | checkExec a eff k o c =>
    unfold Group.ReadOnly at h
    rw [c] at h
    obtain ⟨e, h'⟩ := h
    subst e
    exact ⟨i.exec_id _, h' _ _⟩
  | checked a r c =>
    refine ⟨rfl, ?_⟩
    unfold Group.checked
    split
    · trivial
    · split
      · trivial
      · exact all_queryLoop (E := fun e => e = id) rfl _
  | queryExec a eff k o c =>
    unfold Group.ReadOnly at h
    rw [c] at h
    obtain ⟨e, h'⟩ := h
    subst e
    exact ⟨i.exec_id _, h' _ _⟩
  | queried a r c =>
    refine ⟨rfl, ?_⟩
    unfold Group.queried
    split <;> trivial
  | unwatch => exact ⟨rfl, h.of_call rfl⟩
  | recv => exact ⟨rfl, h.of_call rfl⟩
  | cancel => exact ⟨rfl, h.of_call rfl⟩
  | afterFunc => exact ⟨rfl, h.of_call rfl⟩

theorem publishOrDrop_call (g : Group) (rev : Int) (es : List Event) : (g.publishOrDrop rev es).call = g.call := by
  unfold Group.publishOrDrop Group.publish
  simp only
  split
  · rename_i h; split at h
    · cases h; rfl
    · split at h
      · cases h; rfl
      · cases h
  · rename_i h; split at h
    · cases h
    · split at h
      · cases h
      · cases h
        split <;> rfl

theorem NStep.readOnly {a b : NSys} (i : Inv a.sys.world) (h : a.node.ReadOnly) (st : NStep a b) :
    Steps a.sys b.sys ∧ b.node.ReadOnly := by
  cases st with
  | env s s' n hst => exact ⟨.tail (.refl _) hst, h⟩
  | pollStart s n c => exact ⟨.refl _, ⟨all_queryLoop (E := fun e => e = id) rfl _, h.groups⟩⟩
  | pollExec s n eff k o c =>
    have hp := h.poll
    simp only [c] at hp
    obtain ⟨e, h'⟩ := hp
    subst e
    have e := i.exec_id o
    simp only at e
    have hs : ({ s with world := s.world.exec id o } : Sys) = s := by rw [e]
    rw [hs]
    exact ⟨.refl _, ⟨h' _ _, h.groups⟩⟩
  | pollPublish s n rows c =>
    refine ⟨.refl _, ⟨trivial, ?_⟩⟩
    intro g hg
    obtain ⟨g₀, hg₀, rfl⟩ := List.mem_map.1 hg
    split
    · exact (h.groups g₀ hg₀).of_call (publishOrDrop_call _ _ _)
    · exact h.groups g₀ hg₀
  | pollError s n e c =>
    refine ⟨.refl _, ⟨?_, h.groups⟩⟩
    change match pollAfterError e with
      | .querying p => AllStmts (fun e => e = id) p
      | _ => True
    have : pollAfterError e = .dead ∨ pollAfterError e = .idle := by
      unfold pollAfterError
      split <;> simp
    rcases this with h | h <;> rw [h] <;> trivial
  | openGroup s n =>
    refine ⟨.refl _, ⟨h.poll, ?_⟩⟩
    intro g hg
    rcases List.mem_append.1 hg with hg | hg
    · exact h.groups g hg
    · rw [List.mem_singleton.1 hg]; trivial
  | group s n w' pre post g g' c hst =>
    obtain ⟨e, hg'⟩ := hst.readOnly i (h.groups g (by change g ∈ n.groups; rw [c]; simp))
    subst e
    refine ⟨.refl _, ⟨h.poll, ?_⟩⟩
    intro x hx
    simp only [List.mem_append, List.mem_cons] at hx
    rcases hx with hx | rfl | hx
    · exact h.groups x (by change x ∈ n.groups; rw [c]; simp [hx])
    · exact hg'
    · exact h.groups x (by change x ∈ n.groups; rw [c]; simp [hx])

/-- The shared database under a node is in a state reachable without that node. -/
theorem NReachable.reachable {a : NSys} (h : NReachable a) : Reachable a.sys := by
  suffices Reachable a.sys ∧ a.node.ReadOnly from this.1
  induction h with
  | start h r => exact ⟨h.trans (r.reach (f := fun _ => ()) .start trivial rfl), ⟨trivial, by simp [Node.init]⟩⟩
  | step _ st ih =>
    obtain ⟨h1, h2⟩ := st.readOnly ih.1.inv ih.2
    exact ⟨ih.1.trans h1, h2⟩

theorem Reachable.by {s : Sys} (h : Reachable s) : ReachableBy (fun _ => True) s := by
  unfold Reachable at h
  generalize hi : Sys.init = s₀ at h
  subst hi
  induction h with
  | refl => exact .init
  | tail _ st ih =>
    have := ih
    cases st with
    | spawn _ c ok => exact .spawn c ok trivial this
    | exec w pre post eff k o => exact .exec w pre post eff k o this
    | stop w pre post p => exact .stop w pre post p this

/-- The compaction marker never has a lease. -/
theorem Reachable.markerPlain {s : Sys} (h : Reachable s) : MarkerPlain s.world.hist :=
  h.by.invariant (l := true) (J := fun w => MarkerPlain w.hist) (fun _ _ h => by cases h)
    (by intro c hc; simp [World.init] at hc) (fun w eff o i hm hk => markerPlain_step i hm hk o)

end Verif
