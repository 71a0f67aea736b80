import Verif.Lemmas.NReach
import Verif.Props.Watches
/-!
# An accepted watch that is still registered is ready

`Watch` returns nil only after its watcher is initialized.
-/

namespace Verif

/-- Answered and pending `Watch` calls of a group. -/
structure AnsInv (g : Group) : Prop where
  old : ∀ y ∈ g.answers, y.1.id ∈ g.used
  init : ∀ y ∈ g.answers, y.2 = .ok → ∀ x ∈ g.watchers, x.id = y.1.id → x.initialized = true
  check : ∀ a p, g.call = .check a p → a.id ∈ g.used ∧ ∀ y ∈ g.answers, y.1.id ≠ a.id
  query : ∀ a p, g.call = .query a p → a.id ∈ g.used ∧ ∀ y ∈ g.answers, y.1.id ≠ a.id

theorem AnsInv.watchers {g g' : Group} (h : AnsInv g) (e1 : g'.answers = g.answers) (e2 : g'.used = g.used) (e3 : g'.call = g.call)
    (hw : ∀ x ∈ g'.watchers, ∃ z ∈ g.watchers, z.id = x.id ∧ (z.initialized = true → x.initialized = true)) : AnsInv g' := by
  refine ⟨by rw [e1, e2]; exact h.old, ?_, by rw [e1, e2, e3]; exact h.check, by rw [e1, e2, e3]; exact h.query⟩
  rw [e1]
  intro y hy hok x hx hid
  obtain ⟨z, hz, h1, h2⟩ := hw x hx
  exact h2 (h.init y hy hok z hz (h1.trans hid))

theorem publishOrDrop_kept (g : Group) (rev : Int) (es : List Event) :
    (g.publishOrDrop rev es).watchers = (g.watchers.map fun (x : Watcher) => (x.update es).1) ∧
    (g.publishOrDrop rev es).answers = g.answers ∧ (g.publishOrDrop rev es).used = g.used ∧ (g.publishOrDrop rev es).call = g.call := by
  unfold Group.publishOrDrop Group.publish
  simp only
  split
  · rename_i h; split at h
    · cases h; exact ⟨rfl, rfl, rfl, rfl⟩
    · split at h
      · cases h; exact ⟨rfl, rfl, rfl, rfl⟩
      · cases h
  · rename_i h; split at h
    · cases h
    · split at h
      · cases h
      · cases h
        split <;> exact ⟨rfl, rfl, rfl, rfl⟩

theorem AnsInv.publishOrDrop {g : Group} (h : AnsInv g) (rev : Int) (es : List Event) : AnsInv (g.publishOrDrop rev es) := by
  obtain ⟨e1, e2, e3, e4⟩ := publishOrDrop_kept g rev es
  refine h.watchers e2 e3 e4 ?_
  rw [e1]
  intro x hx
  obtain ⟨z, hz, rfl⟩ := List.mem_map.1 hx
  refine ⟨z, hz, ?_, fun hi => by rw [(z.update_same es).2.2.2.2.2]; exact hi⟩
  unfold Watcher.update
  split
  · rfl
  · split <;> rfl

theorem AnsInv.group {w w' : World} {g g' : Group} (h : AnsInv g) (st : GroupStep w g w' g') : AnsInv g' := by
  have ans : ∀ (a : WatchArgs) (ans : WatchAnswer) (ws : List Watcher), a.id ∈ g.used → (∀ y ∈ g.answers, y.1.id ≠ a.id) →
      (∀ x ∈ ws, x.id ≠ a.id → ∃ z ∈ g.watchers, z.id = x.id ∧ (z.initialized = true → x.initialized = true)) →
      (∀ x ∈ ws, x.id = a.id → ans = .ok → x.initialized = true) →
      AnsInv { g with watchers := ws, call := .idle, answers := g.answers ++ [(a, ans)] } := by
    intro a ans ws hu hne hw hok
    refine ⟨?_, ?_, nofun, nofun⟩
    · intro y hy
      rcases List.mem_append.1 hy with hy | hy
      · exact h.old y hy
      · rw [List.mem_singleton] at hy; subst hy; exact hu
    · intro y hy hyo x hx hid
      rcases List.mem_append.1 hy with hy | hy
      · obtain ⟨z, hz, h1, h2⟩ := hw x hx (by rw [hid]; exact hne y hy)
        exact h2 (h.init y hy hyo z hz (h1.trans hid))
      · rw [List.mem_singleton] at hy; subst hy
        exact hok x hx hid hyo
  cases st with
  | watch id lo hi start idle fresh ne =>
    have new : ∀ y ∈ g.answers, y.1.id ≠ id := fun y hy e => fresh (e ▸ h.old y hy)
    have hwat : ∀ y ∈ g.answers, y.2 = .ok → ∀ x ∈ removeWatcher g.watchers id ++ [WatchArgs.watcher ⟨id, lo, hi, start, g.currentRevision, w.db.compactRev⟩],
        x.id = y.1.id → x.initialized = true := by
      intro y hy hyo x hx hid
      rcases List.mem_append.1 hx with hx | hx
      · exact h.init y hy hyo x (List.mem_filter.1 hx).1 hid
      · rw [List.mem_singleton] at hx; subst hx
        exact absurd hid.symm (new y hy)
    unfold Group.watch
    simp only
    split
    · refine ⟨fun y hy => List.mem_append_left _ (h.old y hy), hwat, ?_, nofun⟩
      intro a p e
      cases e
      exact ⟨List.mem_append_right _ (List.mem_singleton.2 rfl), new⟩
    · rename_i hs
      refine ⟨?_, ?_, ?_, ?_⟩
      · intro y hy
        rcases List.mem_append.1 hy with hy | hy
        · exact List.mem_append_left _ (h.old y hy)
        · rw [List.mem_singleton] at hy; subst hy; exact List.mem_append_right _ (List.mem_singleton.2 rfl)
      · intro y hy hyo x hx hid
        rcases List.mem_append.1 hy with hy | hy
        · exact hwat y hy hyo x hx hid
        · rw [List.mem_singleton] at hy; subst hy
          rcases List.mem_append.1 hx with hx | hx
          · exact absurd hid (by simpa using (List.mem_filter.1 hx).2)
          · rw [List.mem_singleton] at hx; subst hx
            exact decide_eq_true hs
      · intro a p e; dsimp only at e; rw [idle] at e; cases e
      · intro a p e; dsimp only at e; rw [idle] at e; cases e
  | checkExec a eff k o c =>
    exact ⟨h.old, h.init, fun b p e => by cases e; exact h.check a _ c, nofun⟩
  | checked a r c =>
    have hc := h.check a _ c
    unfold Group.checked
    split
    · exact ans a .error _ hc.1 hc.2 (fun x hx _ => ⟨x, hx, rfl, fun h => h⟩) (fun _ _ _ => nofun)
    · split
      · exact ans a (.compacted _ _) _ hc.1 hc.2 (fun x hx _ => ⟨x, hx, rfl, fun h => h⟩) (fun _ _ _ => nofun)
      · exact ⟨h.old, h.init, nofun, fun b p e => by cases e; exact hc⟩
  | queryExec a eff k o c =>
    refine ⟨h.old, ?_, nofun, fun b p e => by cases e; exact h.query a _ c⟩
    intro y hy hyo x hx hid
    obtain ⟨z, hz, rfl⟩ := List.mem_map.1 hx
    by_cases e : z.id = a.id
    · rw [if_pos e] at hid ⊢
      exact h.init y hy hyo z hz hid
    · rw [if_neg e] at hid ⊢
      exact h.init y hy hyo z hz hid
  | queried a r c =>
    have hc := h.query a _ c
    unfold Group.queried
    split
    · exact ans a .error _ hc.1 hc.2 (fun x hx _ => ⟨x, (List.mem_filter.1 hx).1, rfl, fun h => h⟩) (fun _ _ _ => nofun)
    · refine ans a .ok _ hc.1 hc.2 ?_ ?_
      · intro x hx hne
        obtain ⟨z, hz, rfl⟩ := List.mem_map.1 hx
        by_cases e : z.id = a.id
        · rw [if_pos e] at hne
          exact absurd e hne
        · rw [if_neg e]
          exact ⟨z, hz, rfl, fun h => h⟩
      · intro x hx hid _
        obtain ⟨z, hz, rfl⟩ := List.mem_map.1 hx
        by_cases e : z.id = a.id
        · rw [if_pos e]
        · rw [if_neg e] at hid
          exact absurd hid e
  | unwatch id idle => exact h.watchers rfl rfl rfl fun x hx => ⟨x, (List.mem_filter.1 hx).1, rfl, fun h => h⟩
  | recv u q c => exact h.watchers rfl rfl rfl fun x hx => ⟨x, hx, rfl, fun h => h⟩
  | cancel c => exact h.watchers rfl rfl rfl fun x hx => ⟨x, hx, rfl, fun h => h⟩
  | afterFunc c => exact h.watchers rfl rfl rfl fun x hx => ⟨x, hx, rfl, fun h => h⟩

theorem NReachable.ansInv {s : NSys} (h : NReachable s) : ∀ g ∈ s.node.groups, AnsInv g := by
  induction h with
  | start => nofun
  | step _ st ih =>
    cases st with
    | env => exact ih
    | pollStart => exact ih
    | pollExec => exact ih
    | pollPublish s n rows c =>
      intro g hg
      obtain ⟨z, hz, rfl⟩ := List.mem_map.1 hg
      split
      · exact (ih z hz).publishOrDrop _ _
      · exact ih z hz
    | pollError => exact ih
    | openGroup s n =>
      intro g hg
      rcases List.mem_append.1 hg with hg | hg
      · exact ih g hg
      · rw [List.mem_singleton] at hg; subst hg
        exact ⟨nofun, nofun, nofun, nofun⟩
    | group s n w' pre post g₀ g' c hst =>
      intro g hg
      have c' : ∀ x ∈ pre ++ g₀ :: post, AnsInv x := fun x hx => ih x (by simp only [c]; exact hx)
      rcases List.mem_append.1 hg with hg | hg
      · exact c' g (List.mem_append_left _ hg)
      · rcases List.mem_cons.1 hg with rfl | hg
        · exact (c' g₀ (List.mem_append_right _ List.mem_cons_self)).group hst
        · exact c' g (List.mem_append_right _ (List.mem_cons_of_mem _ hg))

end Verif
