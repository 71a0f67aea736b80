import Verif.Lemmas.NExec
import Verif.Model.Stream
/-!
# Invariants used for streams
-/

namespace Verif

theorem GroupStep.sent_eq {w w' : World} {g g' : Group} (h : GroupStep w g w' g') :
    g'.received ++ g'.queue = g.received ++ g.queue := by
  cases h with
  | watch => unfold Group.watch; simp only; split <;> rfl
  | checked => unfold Group.checked; split
               · rfl
               · split <;> rfl
  | queried => unfold Group.queried; split <;> rfl
  | recv u q c => simp [c]
  | _ => rfl

/-- What a publish puts into the channel. -/
theorem publishOrDrop_sent (g : Group) (rev : Int) (es : List Event) :
    (g.publishOrDrop rev es).received = g.received ∧
    ((g.publishOrDrop rev es).queue = g.queue ∨
      (g.publishOrDrop rev es).queue = g.queue ++ [groupUpdate g.watchers rev es]) := by
  unfold Group.publishOrDrop Group.publish
  simp only
  by_cases h1 : g.closed > 0
  · rw [if_pos h1]; exact ⟨rfl, Or.inl rfl⟩
  · rw [if_neg h1]
    by_cases h2 : g.queue.length < updateCapacity
    · rw [if_pos h2]; exact ⟨rfl, Or.inr rfl⟩
    · rw [if_neg h2]
      simp only
      split
      · exact ⟨rfl, Or.inl rfl⟩
      · exact ⟨rfl, Or.inl rfl⟩

theorem NSteps.one {a b : NSys} (h : NStep a b) : NSteps a b := .tail (.refl a) h

theorem NSteps.trans {a b c : NSys} (h1 : NSteps a b) (h2 : NSteps b c) : NSteps a c := by
  induction h2 with
  | refl => exact h1
  | tail _ st ih => exact .tail ih st

theorem NReachable.steps {a b : NSys} (h : NReachable a) (st : NSteps a b) : NReachable b := by
  induction st with
  | refl => exact h
  | tail _ st ih => exact ih.step st

/-! ## How a group evolves in one step of the node -/

/-- What a step of the node does to one group. -/
inductive GroupMove (w w' : World) (g : Group) : Group → Prop where
  | same : GroupMove w w' g g
  | publish (rev : Int) (es : List Event) (hin : g.inMap = true) (hcur : g.currentRevision ≤ rev) :
      GroupMove w w' g (g.publishOrDrop rev es)
  | step {g' : Group} (h : GroupStep w g w' g') : GroupMove w w' g g'

theorem NInv.poll_mono {a b : NSys} (h : NInv a) (st : NStep a b) : a.node.pollRevision ≤ b.node.pollRevision := by
  cases st with
  | pollPublish s n rows c =>
    have hp := h.poll
    unfold PollOk at hp
    simp only [c] at hp
    generalize hpp : (Prog.ret (Except.ok rows) : Prog (Except ApiErr (List Row × Option Nat))) = p at hp
    cases hp with
    | loop m => cases m <;> simp [queryLoop] at hpp
    | err e => cases hpp
    | got wq tr iq xq cq =>
      cases hpp
      exact (iq.poll_events n.pollRevision pollBatchSize tr).1
  | _ => exact Int.le_refl _

theorem NStep.overtaken {a b : NSys} (st : NStep a b) : b.node.overtaken = false → a.node.overtaken = false := by
  cases st with
  | pollExec s n eff k o c =>
    intro h
    simp only [Bool.or_eq_false_iff] at h
    exact h.1
  | _ => exact id

theorem NStep.move {a b : NSys} (inv : NInv a) (st : NStep a b) {i : Nat} {g : Group} (hg : a.node.groupAt i = some g) :
    ∃ g', b.node.groupAt i = some g' ∧ GroupMove a.sys.world b.sys.world g g' := by
  have hmono := inv.poll_mono st
  have hcur := (inv.groups g (List.mem_of_getElem? hg)).cur
  unfold Node.groupAt at hg ⊢
  cases st with
  | env => exact ⟨g, hg, .same⟩
  | pollStart => exact ⟨g, hg, .same⟩
  | pollExec => exact ⟨g, hg, .same⟩
  | pollError => exact ⟨g, hg, .same⟩
  | openGroup s n =>
    refine ⟨g, ?_, .same⟩
    obtain ⟨hlt, _⟩ := List.getElem?_eq_some_iff.1 hg
    simp only
    rw [List.getElem?_append_left hlt]
    exact hg
  | pollPublish s n rows c =>
    change ∃ g', (n.groups.map _)[i]? = _ ∧ _
    rw [List.getElem?_map]
    simp only at hg
    rw [hg]
    simp only [Option.map_some, Option.some.injEq]
    by_cases hin : g.inMap = true
    · exact ⟨_, by rw [if_pos hin], .publish (nextPollRevision n.pollRevision (scanAll scanEvent rows)) _ hin
        (Int.le_trans hcur hmono)⟩
    · exact ⟨_, by rw [if_neg hin], .same⟩
  | group s n w' pre post x x' c hgs =>
    simp only at hg ⊢
    rw [c] at hg
    by_cases hi : i = pre.length
    · subst hi
      simp only [List.getElem?_append_right (Nat.le_refl _), Nat.sub_self, List.getElem?_cons_zero,
        Option.some.injEq] at hg ⊢
      subst hg
      exact ⟨x', rfl, .step hgs⟩
    · refine ⟨g, ?_, .same⟩
      by_cases hlt : i < pre.length
      · rw [List.getElem?_append_left hlt] at hg ⊢
        exact hg
      · rw [List.getElem?_append_right (by omega)] at hg ⊢
        obtain ⟨m, hm⟩ : ∃ m, i - pre.length = m + 1 := ⟨i - pre.length - 1, by omega⟩
        rw [hm] at hg ⊢
        simpa using hg

theorem NStep.new {a b : NSys} (st : NStep a b) {i : Nat} {g' : Group} (hn : a.node.groupAt i = none)
    (hg : b.node.groupAt i = some g') : g' = Group.new a.node.pollRevision := by
  unfold Node.groupAt at hg hn
  have hlen := List.getElem?_eq_none_iff.1 hn
  obtain ⟨hlt, _⟩ := List.getElem?_eq_some_iff.1 hg
  cases st with
  | env => rw [hn] at hg; cases hg
  | pollStart => rw [hn] at hg; cases hg
  | pollExec => rw [hn] at hg; cases hg
  | pollError => rw [hn] at hg; cases hg
  | openGroup s n =>
    simp only at hlen hlt hg
    rw [List.length_append, List.length_singleton] at hlt
    have : i = n.groups.length := by omega
    subst this
    simp at hg
    exact hg.symm
  | pollPublish s n rows c =>
    change i < (n.groups.map _).length at hlt
    rw [List.length_map] at hlt
    exact absurd hlen (by change ¬ n.groups.length ≤ i; omega)
  | group s n w' pre post x x' c hgs =>
    exfalso
    simp only at hlen hlt
    rw [c] at hlen
    simp only [List.length_append, List.length_cons] at hlen hlt
    omega

/-! ## Flushing -/

/-- After each update, a watcher that has no backlog has been sent everything up to the update's revision. -/
structure Flush (ot : Bool) (w : World) (g : Group) : Prop where
  revs : ∀ u ∈ g.received ++ g.queue, u.revision ≤ g.currentRevision
  zero : ∀ x ∈ g.watchers, x.start ≤ 0 → x.initialized = true
  cov : ∀ x ∈ g.watchers, ot = false → x.lossy = false → (g.dropped = false ∨ g.after = .stopped) →
    ∀ A u B, g.received ++ g.queue = A ++ u :: B → (x.start ≤ 0 ∨ sentTo (A ++ [u]) x.id ≠ []) →
      Covers w.hist x.range x.from u.revision (sentTo (A ++ [u]) x.id)

theorem Flush.ext {ot ot' : Bool} (hot : ot' = false → ot = false) {pr : Int} {w w' : World} {g : Group} (hx : Ext w w')
    (gi : GroupInv ot pr w g) (hle : pr ≤ w.hist.top) (h : Flush ot w g) : Flush ot' w' g where
  revs := h.revs
  zero := h.zero
  cov := by
    intro x hxm h1 h2 h3 A u B e h4
    refine (h.cov x hxm (hot h1) h2 h3 A u B e h4).ext hx ?_
    have := h.revs u (by rw [e]; simp)
    have := gi.cur
    omega

theorem split_snoc {α : Type} {U A B : List α} {u v : α} (h : U ++ [v] = A ++ u :: B) :
    (B = [] ∧ A = U ∧ u = v) ∨ ∃ B', U = A ++ u :: B' := by
  rcases List.eq_nil_or_concat B with rfl | ⟨B', b, rfl⟩
  · left
    have := List.append_inj' h (by simp)
    exact ⟨rfl, this.1.symm, by simpa using this.2.symm⟩
  · right
    refine ⟨B', ?_⟩
    rw [List.concat_eq_append] at h
    have h' : U ++ [v] = (A ++ u :: B') ++ [b] := by rw [h]; simp
    exact (List.append_inj' h' (by simp)).1

theorem publishOrDrop_cases (g : Group) (rev : Int) (es : List Event) (hc : g.closed = 0) :
    (g.queue.length < updateCapacity ∧ g.publishOrDrop rev es = { g with currentRevision := rev, watchers := g.watchers.map fun (w : Watcher) => (w.update es).1, queue := g.queue ++ [groupUpdate g.watchers rev es] }) ∨
    (¬ g.queue.length < updateCapacity ∧ g.after = .armed ∧ g.publishOrDrop rev es = { g with currentRevision := rev, watchers := g.watchers.map fun (w : Watcher) => (w.update es).1, dropped := true, after := .stopped, inMap := false, closed := 1 }) ∨
    (¬ g.queue.length < updateCapacity ∧ g.after ≠ .armed ∧ g.publishOrDrop rev es = { g with currentRevision := rev, watchers := g.watchers.map fun (w : Watcher) => (w.update es).1, dropped := true }) := by
  unfold Group.publishOrDrop Group.publish
  simp only
  rw [if_neg (by omega)]
  by_cases h2 : g.queue.length < updateCapacity
  · rw [if_pos h2]; exact Or.inl ⟨h2, rfl⟩
  · rw [if_neg h2]
    simp only
    by_cases h3 : g.after = .armed
    · rw [if_pos h3]
      refine Or.inr (Or.inl ⟨h2, h3, ?_⟩)
      simp [Group.close, hc]
    · rw [if_neg h3]
      exact Or.inr (Or.inr ⟨h2, h3, rfl⟩)

theorem Flush.move {ot : Bool} {pr pr' : Int} {w w' : World} {g g' : Group} (hle : pr ≤ w.hist.top) (hx : Ext w w')
    (gi : GroupInv ot pr w g) (gi' : GroupInv ot pr' w' g') (m : GroupMove w w' g g')
    (h : Flush ot w g) :
    Flush ot w' g' := by
  have h := h.ext (ot' := ot) id hx gi hle
  cases m with
  | same => exact h
  | publish rev es hin hcur =>
    have hc : g.closed = 0 := by rw [gi.life.closed, if_pos hin]
    have hzero : ∀ x ∈ g.watchers.map (fun (w : Watcher) => (w.update es).1), x.start ≤ 0 → x.initialized = true := by
      intro x hxm
      obtain ⟨y, hy, rfl⟩ := List.mem_map.1 hxm
      obtain ⟨_, _, s3, _, _, s6⟩ := y.update_same es
      rw [s3, s6]
      exact h.zero y hy
    rcases publishOrDrop_cases g rev es hc with ⟨h2, e⟩ | ⟨h2, h3, e⟩ | ⟨h2, h3, e⟩ <;> rw [e] at gi' ⊢
    · refine ⟨?_, hzero, ?_⟩
      · intro u hu
        change u ∈ g.received ++ (g.queue ++ [_]) at hu
        rw [← List.append_assoc] at hu
        change u.revision ≤ rev
        rcases List.mem_append.1 hu with hu | hu
        · have := h.revs u hu
          omega
        · simp only [List.mem_singleton] at hu
          rw [hu]; exact Int.le_refl _
      · intro x hxm h4 h5 h6 A u B he h7
        change x ∈ g.watchers.map (fun (w : Watcher) => (w.update es).1) at hxm
        change g.received ++ (g.queue ++ [_]) = _ at he
        rw [← List.append_assoc] at he
        have hx' := hxm
        obtain ⟨y, hy, rfl⟩ := List.mem_map.1 hxm
        obtain ⟨s1, s2, s3, s4, s5, s6⟩ := y.update_same es
        rw [y.update_range, y.update_from]
        rw [y.update_id] at h7 ⊢
        rcases split_snoc he with ⟨rfl, rfl, rfl⟩ | ⟨B', e'⟩
        · have hok := gi'.ok _ hx'
          have hinit : y.initialized = true := by
            rcases h7 with h7 | h7
            · exact h.zero y hy (by rw [← s3]; exact h7)
            · cases hi : y.initialized with
              | true => rfl
              | false =>
                exfalso
                apply h7
                rw [sentTo_append]
                have h8 := (gi.ok y hy).uninit hi
                unfold Group.sent at h8
                rw [h8, sentTo_update_mem gi.ids hy, Watcher.update_uninit hi]
                rfl
          have hev : ((y.update es).1).events = [] := by rw [Watcher.update_init hinit]
          obtain ⟨rest, r1, r2, r3⟩ := hok.full h4 h5 h6
          have hdr : g.dropped = false := by
            rcases h6 with h6 | h6
            · exact h6
            · change g.after = .stopped at h6
              have := gi.life.map.1 hin
              rw [h6] at this
              rcases this with this | this <;> cases this
          have hr := r3 hdr
          rw [hev] at hr
          rw [hr, List.append_nil, y.update_range, y.update_from, y.update_id] at r2
          unfold Group.sent at r2
          change Covers _ _ _ rev (sentTo (g.received ++ (g.queue ++ [_])) _) at r2
          rw [← List.append_assoc] at r2
          exact r2
        · exact h.cov y hy h4 (by rw [← s5]; exact h5) h6 A u B' e' (by rw [← s3]; exact h7)
    · refine ⟨?_, hzero, ?_⟩
      · intro u hu
        have := h.revs u hu
        change u.revision ≤ rev
        omega
      · intro x hxm h4 h5 h6 A u B he h7
        change x ∈ g.watchers.map (fun (w : Watcher) => (w.update es).1) at hxm
        obtain ⟨y, hy, rfl⟩ := List.mem_map.1 hxm
        obtain ⟨s1, s2, s3, s4, s5, s6⟩ := y.update_same es
        rw [y.update_range, y.update_from]
        rw [y.update_id] at h7 ⊢
        refine h.cov y hy h4 (by rw [← s5]; exact h5) (Or.inl ?_) A u B he (by rw [← s3]; exact h7)
        cases hd : g.dropped with
        | false => rfl
        | true => exact absurd h3 (gi.life.drop hd)
    · refine ⟨?_, hzero, ?_⟩
      · intro u hu
        have := h.revs u hu
        change u.revision ≤ rev
        omega
      · intro x hxm h4 h5 h6 A u B he h7
        exfalso
        rcases h6 with h6 | h6
        · cases h6
        · change g.after = .stopped at h6
          have := gi.life.map.1 hin
          rw [h6] at this
          rcases this with this | this <;> cases this
  | step hst =>
    cases hst with
    | watch id lo hi start idle fresh ne =>
      generalize ha : (⟨id, lo, hi, start, g.currentRevision, w.db.compactRev⟩ : WatchArgs) = a
      have hkey : ∀ x ∈ removeWatcher g.watchers id ++ [a.watcher],
          (x.start ≤ 0 → x.initialized = true) ∧
          (ot = false → x.lossy = false → (g.dropped = false ∨ g.after = .stopped) →
            ∀ A u B, g.received ++ g.queue = A ++ u :: B → (x.start ≤ 0 ∨ sentTo (A ++ [u]) x.id ≠ []) →
            Covers w.hist x.range x.from u.revision (sentTo (A ++ [u]) x.id)) := by
        intro x hxm
        rcases List.mem_append.1 hxm with hxm | hxm
        · exact ⟨h.zero x (removeWatcher_sub hxm).1, h.cov x (removeWatcher_sub hxm).1⟩
        · simp only [List.mem_singleton] at hxm
          subst hxm
          subst ha
          refine ⟨?_, ?_⟩
          · intro hs
            change start ≤ 0 at hs
            change decide (¬ start > 0) = true
            simp; omega
          · intro _ _ _ A u B he h7
            have hs : sentTo (A ++ [u]) id = [] := by
              have := gi.fresh id fresh
              unfold Group.sent at this
              have e2 : A ++ u :: B = (A ++ [u]) ++ B := by simp
              rw [he, e2, sentTo_append] at this
              exact (List.append_eq_nil_iff.1 this).1
            rcases h7 with h7 | h7
            · change Covers _ _ _ _ (sentTo (A ++ [u]) id)
              rw [hs]
              apply Covers.nil
              have := h.revs u (by rw [he]; simp)
              change start ≤ 0 at h7
              unfold Watcher.from WatchArgs.watcher
              simp only
              rw [if_neg (fun hc => by omega)]
              exact this
            · exact absurd hs h7
      unfold Group.watch
      simp only [ha]
      split
      · exact ⟨h.revs, fun x hxm => (hkey x hxm).1, fun x hxm => (hkey x hxm).2⟩
      · exact ⟨h.revs, fun x hxm => (hkey x hxm).1, fun x hxm => (hkey x hxm).2⟩
    | checkExec a eff k o c => exact ⟨h.revs, h.zero, h.cov⟩
    | checked a r c =>
      unfold Group.checked
      split
      · exact ⟨h.revs, h.zero, h.cov⟩
      · split
        · exact ⟨h.revs, h.zero, h.cov⟩
        · exact ⟨h.revs, h.zero, h.cov⟩
    | queryExec a eff k o c =>
      refine ⟨h.revs, ?_, ?_⟩
      · intro y hy
        obtain ⟨z, hz, ⟨_, rfl⟩ | ⟨_, rfl⟩⟩ := mem_updateWatcher hy
        · exact h.zero z hz
        · exact h.zero _ hz
      · intro y hy
        obtain ⟨z, hz, ⟨_, rfl⟩ | ⟨_, rfl⟩⟩ := mem_updateWatcher hy
        · intro h4 h5 h6
          refine h.cov z hz h4 ?_ h6
          change (z.lossy || _ || _) = false at h5
          simp only [Bool.or_eq_false_iff] at h5
          exact h5.1.1
        · exact h.cov _ hz
    | queried a r c =>
      have hc := gi.call
      unfold CallOk at hc
      rw [c] at hc
      obtain ⟨h0, x, hreg, hq⟩ := hc
      unfold Group.queried
      split
      · exact ⟨h.revs, fun y hy => h.zero y (removeWatcher_sub hy).1, fun y hy => h.cov y (removeWatcher_sub hy).1⟩
      · refine ⟨h.revs, ?_, ?_⟩
        · intro y hy
          obtain ⟨z, hz, ⟨_, rfl⟩ | ⟨_, rfl⟩⟩ := mem_updateWatcher hy
          · intro _; rfl
          · exact h.zero _ hz
        · intro y hy
          obtain ⟨z, hz, ⟨hzid, rfl⟩ | ⟨_, rfl⟩⟩ := mem_updateWatcher hy
          · intro h4 h5 h6 A u B he h7
            have hzx : z = x := by
              have h1 := filter_unique gi.ids hreg.mem
              have h2 : z ∈ g.watchers.filter fun y => decide (y.id = x.id) :=
                List.mem_filter.2 ⟨hz, by simp [hzid, hreg.id]⟩
              rw [h1] at h2
              simpa using h2
            subst hzx
            exfalso
            have hs : sentTo (A ++ [u]) z.id = [] := by
              have := (gi.ok z hz).uninit hreg.uninit
              unfold Group.sent at this
              change g.received ++ g.queue = _ at he
              have e2 : A ++ u :: B = (A ++ [u]) ++ B := by simp
              rw [he, e2, sentTo_append] at this
              exact (List.append_eq_nil_iff.1 this).1
            rcases h7 with h7 | h7
            · have := hreg.pos
              change z.start ≤ 0 at h7
              rw [hreg.start] at h7
              omega
            · exact h7 hs
          · exact h.cov _ hz
    | unwatch id idle =>
      exact ⟨h.revs, fun y hy => h.zero y (removeWatcher_sub hy).1, fun y hy => h.cov y (removeWatcher_sub hy).1⟩
    | recv u q c =>
      have e : ∀ v, g.received ++ g.queue = v ↔ (g.received ++ [u]) ++ q = v := by
        intro v; rw [c]; simp
      refine ⟨?_, h.zero, ?_⟩
      · intro v hv
        apply h.revs v
        rw [c]
        change v ∈ (g.received ++ [u]) ++ q at hv
        simpa using hv
      · intro x hxm h4 h5 h6 A v B he
        exact h.cov x hxm h4 h5 h6 A v B ((e _).2 he)
    | cancel c =>
      refine ⟨h.revs, h.zero, ?_⟩
      intro x hxm h4 h5 h6
      refine h.cov x hxm h4 h5 ?_
      rcases h6 with h6 | h6
      · exact Or.inl h6
      · cases h6
    | afterFunc c =>
      refine ⟨h.revs, h.zero, ?_⟩
      intro x hxm h4 h5 h6
      refine h.cov x hxm h4 h5 ?_
      rcases h6 with h6 | h6
      · exact Or.inl h6
      · cases h6

theorem Flush.new {ot : Bool} {w : World} {pr : Int} : Flush ot w (Group.new pr) where
  revs := by intro u hu; simp [Group.new] at hu
  zero := by intro x hx; simp [Group.new] at hx
  cov := by intro x hx; simp [Group.new] at hx

theorem NReachable.flush {s : NSys} (h : NReachable s) :
    ∀ i g, s.node.groupAt i = some g → Flush s.node.overtaken s.sys.world g := by
  induction h with
  | start => intro i g hg; simp [Node.init, Node.groupAt] at hg
  | @step a b hr st ih =>
    intro i g' hg'
    have inv := hr.ninv
    obtain ⟨inv', hx⟩ := inv.step st
    cases ha : a.node.groupAt i with
    | none =>
      rw [NStep.new st ha hg']
      exact Flush.new
    | some g =>
      obtain ⟨g₁, hg₁, m⟩ := NStep.move inv st ha
      rw [hg'] at hg₁
      cases hg₁
      have gi := inv.groups g (List.mem_of_getElem? ha)
      have hrx := Ext.refl inv.sys.inv
      exact Flush.move inv.le hx (gi.ext st.overtaken inv.sys.inv hrx inv.le)
        (inv'.groups g' (List.mem_of_getElem? hg')) m ((ih i g ha).ext st.overtaken hrx gi inv.le)

/-! ## The invariant of a stream -/

/-- The ids announced to the client, oldest first. -/
def announcedIds (out : List WatchResponse) : List Int :=
  (out.filter fun r => r.created && !r.canceled).map (·.watchId)

theorem announcedIds_append (a b : List WatchResponse) : announcedIds (a ++ b) = announcedIds a ++ announcedIds b := by
  simp [announcedIds]

theorem eventsFor_append (a b : List WatchResponse) (id : Int) : eventsFor (a ++ b) id = eventsFor a id ++ eventsFor b id := by
  simp [eventsFor]

/-- The invariant of a stream and its group. -/
structure SInv (g : Group) (st : Stream) : Prop where
  /-- ids in use were handed out -/
  used : ∀ id ∈ g.used, id < st.next ∨ st.creating = some id
  next : 0 < st.next
  creating : ∀ id, st.creating = some id → id = st.next
  idle : st.creating = none → g.call = .idle
  callId : ∀ a p, g.call = .check a p → st.creating = some a.id
  queryId : ∀ a p, g.call = .query a p → st.creating = some a.id
  /-- the answer that is about to be sent -/
  pend : ∀ id, st.creating = some id → g.call = .idle → ∃ args ans, g.answers.getLast? = some (args, ans) ∧
    (ans = .ok ∨ ((∀ x ∈ g.watchers, x.id = id → x.initialized = false) ∧ g.sent id = []))
  /-- a watcher that gets events has been announced, or is about to be -/
  init : ∀ x ∈ g.watchers, x.initialized = true → x.id ∈ announcedIds st.out ∨ st.creating = some x.id
  /-- so has every addressee of an update -/
  upd : ∀ id, g.sent id ≠ [] → id ∈ announcedIds st.out ∨ st.creating = some id
  /-- updates have no empty entries -/
  ne : ∀ u ∈ g.received ++ g.queue, ∀ p ∈ u.updates, p.2 ≠ []
  /-- the stream's revision is that of the last update received, unless that is being processed -/
  rev : st.sending = none → st.revision = (g.received.getLast?.map (·.revision)).getD 0
  /-- what the client has been sent is what was received, except for the update being processed -/
  sent : ∀ id, sentTo g.received id = eventsFor st.out id ++ sentTo st.sending.toList id
  last : ∀ u, st.sending = some u → g.received.getLast? = some u
  /-- announced ids ascend and lie below the next one -/
  asc : (announcedIds st.out).Pairwise (· < ·)
  annId : ∀ id ∈ announcedIds st.out, 0 < id ∧ id < st.next
  /-- events follow announcements -/
  ord : ∀ A r B, st.out = A ++ r :: B → r.events ≠ [] → r.watchId ∈ announcedIds A
  /-- a progress flag that is on belongs to a watch that has not been sent anything -/
  flag : ∀ id, (id, true) ∈ st.report → eventsFor st.out id = []
  /-- and a watch that has not been sent anything and is not cancelled has its flag on -/
  flagOn : ∀ id ∈ announcedIds st.out, id ∉ st.cancelled → eventsFor st.out id = [] → (id, true) ∈ st.report
  /-- ids being closed are cancelled -/
  closing : ∀ id, st.closing = some id → id ∈ st.cancelled

theorem SInv.new (pr : Int) (i : Nat) : SInv (Group.new pr) (Stream.new i) := by
  constructor <;> simp [Group.new, Stream.new, Group.sent, sentTo, announcedIds, eventsFor]

/-- The stream sees its group change. -/
theorem SInv.move {ot : Bool} {pr : Int} {w w' : World} {g g' : Group} {st : Stream} (gi : GroupInv ot pr w g)
    (h : SInv g st) (m : GroupMove w w' g g') (hr : g'.received = g.received) (hu : g'.used = g.used) :
    SInv g' st := by
  cases m with
  | same => exact h
  | publish rev es hin hcur =>
    have hc : g.closed = 0 := by rw [gi.life.closed, if_pos hin]
    have hinit : ∀ x ∈ g.watchers.map (fun (w : Watcher) => (w.update es).1), x.initialized = true →
        x.id ∈ announcedIds st.out ∨ st.creating = some x.id := by
      intro x hxm hi
      obtain ⟨y, hy, rfl⟩ := List.mem_map.1 hxm
      obtain ⟨_, _, _, _, _, s6⟩ := y.update_same es
      rw [y.update_id]
      exact h.init y hy (by rw [← s6]; exact hi)
    have hsame : ∀ id, (∀ x ∈ g.watchers, x.id = id → x.initialized = false) →
        ∀ x ∈ g.watchers.map (fun (w : Watcher) => (w.update es).1), x.id = id → x.initialized = false := by
      intro id hx x hxm he
      obtain ⟨y, hy, rfl⟩ := List.mem_map.1 hxm
      obtain ⟨_, _, _, _, _, s6⟩ := y.update_same es
      rw [s6]
      exact hx y hy (by rw [← y.update_id es]; exact he)
    rcases publishOrDrop_cases g rev es hc with ⟨h2, e⟩ | ⟨h2, h3, e⟩ | ⟨h2, h3, e⟩
    · rw [e]
      have hsent : ∀ id, Group.sent { g with currentRevision := rev, watchers := g.watchers.map fun (w : Watcher) => (w.update es).1, queue := g.queue ++ [groupUpdate g.watchers rev es] } id =
          g.sent id ++ sentTo [groupUpdate g.watchers rev es] id := by
        intro id
        unfold Group.sent
        simp only
        rw [← List.append_assoc, sentTo_append]
      refine ⟨h.used, h.next, h.creating, h.idle, h.callId, h.queryId, ?_, hinit, ?_, ?_, h.rev, h.sent, h.last, h.asc,
        h.annId, h.ord, h.flag, h.flagOn, h.closing⟩
      · intro id hcr hidle
        obtain ⟨args, ans, h4, h5⟩ := h.pend id hcr hidle
        refine ⟨args, ans, h4, ?_⟩
        rcases h5 with h5 | ⟨h5, h6⟩
        · exact Or.inl h5
        · refine Or.inr ⟨hsame id h5, ?_⟩
          rw [hsent, h6, sentTo_update]
          rw [List.nil_append, List.flatMap_eq_nil_iff]
          intro x hx
          obtain ⟨x1, x2⟩ := List.mem_filter.1 hx
          rw [Watcher.update_uninit (h5 x x1 (by simpa using x2))]
      · intro id hne
        rw [hsent] at hne
        by_cases hg : g.sent id = []
        · rw [hg, List.nil_append, sentTo_update] at hne
          obtain ⟨e', he'⟩ := List.exists_mem_of_ne_nil _ hne
          obtain ⟨x, hx, hex⟩ := List.mem_flatMap.1 he'
          obtain ⟨x1, x2⟩ := List.mem_filter.1 hx
          have hid : x.id = id := by simpa using x2
          subst hid
          cases hi : x.initialized with
          | false => rw [Watcher.update_uninit hi] at hex; simp at hex
          | true => exact h.init x x1 hi
        · exact h.upd id hg
      · intro u hu' p hp
        change u ∈ g.received ++ (g.queue ++ [_]) at hu'
        rw [← List.append_assoc] at hu'
        rcases List.mem_append.1 hu' with hu' | hu'
        · exact h.ne u hu' p hp
        · simp only [List.mem_singleton] at hu'
          subst hu'
          have := (List.mem_filter.1 hp).2
          intro hnil
          rw [hnil] at this
          simp at this
    · rw [e]
      refine ⟨h.used, h.next, h.creating, h.idle, h.callId, h.queryId, ?_, hinit, h.upd, h.ne, h.rev, h.sent, h.last, h.asc,
        h.annId, h.ord, h.flag, h.flagOn, h.closing⟩
      intro id hcr hidle
      obtain ⟨args, ans, h4, h5⟩ := h.pend id hcr hidle
      refine ⟨args, ans, h4, ?_⟩
      rcases h5 with h5 | ⟨h5, h6⟩
      · exact Or.inl h5
      · exact Or.inr ⟨hsame id h5, h6⟩
    · rw [e]
      refine ⟨h.used, h.next, h.creating, h.idle, h.callId, h.queryId, ?_, hinit, h.upd, h.ne, h.rev, h.sent, h.last, h.asc,
        h.annId, h.ord, h.flag, h.flagOn, h.closing⟩
      intro id hcr hidle
      obtain ⟨args, ans, h4, h5⟩ := h.pend id hcr hidle
      refine ⟨args, ans, h4, ?_⟩
      rcases h5 with h5 | ⟨h5, h6⟩
      · exact Or.inl h5
      · exact Or.inr ⟨hsame id h5, h6⟩
  | step hst =>
    have hreg : ∀ a, ((∃ p, g.call = .check a p) ∨ (∃ q, g.call = .query a q)) → (∀ x ∈ g.watchers, x.id = a.id → x.initialized = false) ∧ g.sent a.id = [] := by
      intro a hcall
      have hc := gi.call
      have : ∃ x, Registered g a x := by
        unfold CallOk at hc
        rcases hcall with ⟨q, hcall⟩ | ⟨q, hcall⟩
        · rw [hcall] at hc
          obtain ⟨⟨x, hx, _⟩, _⟩ := hc
          exact ⟨x, hx⟩
        · rw [hcall] at hc
          obtain ⟨_, x, hx, _⟩ := hc
          exact ⟨x, hx⟩
      obtain ⟨x, hx⟩ := this
      constructor
      · intro z hz hzid
        have h1 := filter_unique gi.ids hx.mem
        have h2 : z ∈ g.watchers.filter fun y => decide (y.id = x.id) :=
          List.mem_filter.2 ⟨hz, by simp [hzid, hx.id]⟩
        rw [h1] at h2
        have : z = x := by simpa using h2
        rw [this]; exact hx.uninit
      · rw [← hx.id]
        exact (gi.ok x hx.mem).uninit hx.uninit
    cases hst with
    | watch id lo hi start idle fresh ne =>
      exfalso
      unfold Group.watch at hu
      simp only at hu
      have : (g.used ++ [id]).length = g.used.length := by
        split at hu <;> rw [← congrArg List.length hu]
      simp at this
    | checkExec a eff k o c =>
      have hid := h.callId _ _ c
      refine ⟨h.used, h.next, h.creating, ?_, ?_, ?_, ?_, h.init, h.upd, h.ne, h.rev, h.sent, h.last, h.asc,
        h.annId, h.ord, h.flag, h.flagOn, h.closing⟩
      · intro hn; rw [hn] at hid; cases hid
      · intro a' p he; cases he; exact hid
      · intro a' p he; cases he
      · intro id _ he; cases he
    | checked a r c =>
      have hid := h.callId _ _ c
      have hreg' := hreg a (Or.inl ⟨_, c⟩)
      have hcre : ∀ id, st.creating = some id → id = a.id := by
        intro id hcr
        rw [hid] at hcr
        exact (Option.some.inj hcr).symm
      have hfin : ∀ ans, SInv { g with call := .idle, answers := g.answers ++ [(a, ans)] } st := by
        intro ans
        refine ⟨h.used, h.next, h.creating, fun _ => rfl, ?_, ?_, ?_, h.init, h.upd, h.ne, h.rev, h.sent, h.last, h.asc,
          h.annId, h.ord, h.flag, h.flagOn, h.closing⟩
        · intro a' p he; cases he
        · intro a' p he; cases he
        · intro id hcr _
          rw [hcre id hcr]
          exact ⟨a, ans, by simp, Or.inr hreg'⟩
      unfold Group.checked
      split
      · exact hfin _
      · split
        · exact hfin _
        · refine ⟨h.used, h.next, h.creating, ?_, ?_, ?_, ?_, h.init, h.upd, h.ne, h.rev, h.sent, h.last, h.asc,
            h.annId, h.ord, h.flag, h.flagOn, h.closing⟩
          · intro hn; rw [hn] at hid; cases hid
          · intro a' p he; cases he
          · intro a' p he; cases he; exact hid
          · intro id _ he; cases he
    | queryExec a eff k o c =>
      have hid := h.queryId _ _ c
      refine ⟨h.used, h.next, h.creating, ?_, ?_, ?_, ?_, ?_, h.upd, h.ne, h.rev, h.sent, h.last, h.asc,
        h.annId, h.ord, h.flag, h.flagOn, h.closing⟩
      · intro hn; rw [hn] at hid; cases hid
      · intro a' p he; cases he
      · intro a' p he; cases he; exact hid
      · intro id _ he; cases he
      · intro y hy hi
        obtain ⟨z, hz, ⟨_, rfl⟩ | ⟨_, rfl⟩⟩ := mem_updateWatcher hy
        · exact h.init z hz hi
        · exact h.init _ hz hi
    | queried a r c =>
      have hid := h.queryId _ _ c
      have hreg' := hreg a (Or.inr ⟨_, c⟩)
      have hcre : ∀ id, st.creating = some id → id = a.id := by
        intro id hcr
        rw [hid] at hcr
        exact (Option.some.inj hcr).symm
      unfold Group.queried
      split
      · refine ⟨h.used, h.next, h.creating, fun _ => rfl, ?_, ?_, ?_, ?_, h.upd, h.ne, h.rev, h.sent, h.last, h.asc,
          h.annId, h.ord, h.flag, h.flagOn, h.closing⟩
        · intro a' p he; cases he
        · intro a' p he; cases he
        · intro id hcr _
          rw [hcre id hcr]
          exact ⟨a, .error, by simp, Or.inr ⟨fun x hx => hreg'.1 x (removeWatcher_sub hx).1, hreg'.2⟩⟩
        · intro x hx
          exact h.init x (removeWatcher_sub hx).1
      · refine ⟨h.used, h.next, h.creating, fun _ => rfl, ?_, ?_, ?_, ?_, h.upd, h.ne, h.rev, h.sent, h.last, h.asc,
          h.annId, h.ord, h.flag, h.flagOn, h.closing⟩
        · intro a' p he; cases he
        · intro a' p he; cases he
        · intro id hcr _
          exact ⟨a, _, by simp, Or.inl rfl⟩
        · intro y hy hi
          obtain ⟨z, hz, ⟨hzid, rfl⟩ | ⟨_, rfl⟩⟩ := mem_updateWatcher hy
          · right
            change st.creating = some z.id
            rw [hzid]; exact hid
          · exact h.init _ hz hi
    | unwatch id idle =>
      refine ⟨h.used, h.next, h.creating, h.idle, h.callId, h.queryId, ?_, ?_, h.upd, h.ne, h.rev, h.sent, h.last, h.asc,
        h.annId, h.ord, h.flag, h.flagOn, h.closing⟩
      · intro id' hcr hidle
        obtain ⟨args, ans, h4, h5⟩ := h.pend id' hcr hidle
        refine ⟨args, ans, h4, ?_⟩
        rcases h5 with h5 | ⟨h5, h6⟩
        · exact Or.inl h5
        · exact Or.inr ⟨fun x hx => h5 x (removeWatcher_sub hx).1, h6⟩
      · intro x hx
        exact h.init x (removeWatcher_sub hx).1
    | recv u q c =>
      exfalso
      have := congrArg List.length hr
      simp at this
    | cancel c =>
      exact ⟨h.used, h.next, h.creating, h.idle, h.callId, h.queryId, h.pend, h.init, h.upd, h.ne, h.rev, h.sent, h.last, h.asc,
        h.annId, h.ord, h.flag, h.flagOn, h.closing⟩
    | afterFunc c =>
      exact ⟨h.used, h.next, h.creating, h.idle, h.callId, h.queryId, h.pend, h.init, h.upd, h.ne, h.rev, h.sent, h.last, h.asc,
        h.annId, h.ord, h.flag, h.flagOn, h.closing⟩

theorem groupAt_mid {n : Node} {pre post : List Group} {g : Group} {i : Nat} (c : n.groups = pre ++ g :: post)
    (hi : pre.length = i) : n.groupAt i = some g := by
  unfold Node.groupAt
  rw [c, ← hi]
  simp

theorem watchRangeEnd_ne (key rangeEnd : Bytes) : watchRangeEnd key rangeEnd ≠ [] := by
  unfold watchRangeEnd
  split
  · simp
  · intro h
    rename_i hl
    rw [h] at hl
    exact hl rfl

theorem eventsFor_updates (rev : Int) (u : GroupUpdate) (id : Int) :
    eventsFor (u.updates.map fun p => { revision := rev, watchId := p.1, events := p.2 }) id = sentTo [u] id := by
  unfold eventsFor sentTo
  simp only [List.flatMap_cons, List.flatMap_nil, List.append_nil]
  induction u.updates with
  | nil => rfl
  | cons p ps ih =>
    simp only [List.map_cons, List.filter_cons]
    split <;> simp [ih]

theorem setReport_true {l : List (Int × Bool)} {id j : Int} {b : Bool} (h : (j, true) ∈ setReport l id b) :
    ((j, true) ∈ l ∧ j ≠ id) ∨ (j = id ∧ b = true) := by
  unfold setReport at h
  rcases List.mem_append.1 h with h | h
  · obtain ⟨h1, h2⟩ := List.mem_filter.1 h
    exact Or.inl ⟨h1, by simpa using h2⟩
  · simp only [List.mem_singleton, Prod.mk.injEq] at h
    exact Or.inr ⟨h.1, h.2.symm⟩

theorem foldReport_true (ps : List (Int × List Event)) (l : List (Int × Bool)) (j : Int) :
    (j, true) ∈ ps.foldl (fun l p => setReport l p.1 false) l ↔ (j, true) ∈ l ∧ ∀ p ∈ ps, p.1 ≠ j := by
  induction ps generalizing l with
  | nil => simp
  | cons p ps ih =>
    simp only [List.foldl_cons, ih, List.mem_cons, forall_eq_or_imp]
    constructor
    · rintro ⟨h1, h2⟩
      rcases setReport_true h1 with ⟨h3, h4⟩ | ⟨_, h4⟩
      · exact ⟨h3, Ne.symm h4, h2⟩
      · cases h4
    · rintro ⟨h1, h2, h3⟩
      refine ⟨?_, h3⟩
      unfold setReport
      refine List.mem_append.2 (Or.inl (List.mem_filter.2 ⟨h1, ?_⟩))
      simp [Ne.symm h2]

theorem ord_append {out new : List WatchResponse}
    (h : ∀ A r B, out = A ++ r :: B → r.events ≠ [] → r.watchId ∈ announcedIds A)
    (hn : ∀ r ∈ new, r.events ≠ [] → r.watchId ∈ announcedIds out) :
    ∀ A r B, out ++ new = A ++ r :: B → r.events ≠ [] → r.watchId ∈ announcedIds A := by
  intro A r B e he
  rcases List.append_eq_append_iff.1 e with ⟨C, h1, h2⟩ | ⟨C, h1, h2⟩
  · have hr : r ∈ new := by rw [h2]; simp
    rw [h1, announcedIds_append]
    exact List.mem_append.2 (Or.inl (hn r hr he))
  · cases C with
    | nil =>
      rw [List.nil_append] at h2
      have hr : r ∈ new := by rw [← h2]; simp
      rw [List.append_nil] at h1
      rw [← h1]
      exact hn r hr he
    | cons c C =>
      simp only [List.cons_append, List.cons.injEq] at h2
      exact h A r C (by rw [h1, h2.1]) he

theorem quiet_append {out new : List WatchResponse} (h1 : ∀ r ∈ new, r.events = [])
    (h2 : ∀ r ∈ new, (r.created && !r.canceled) = false) :
    announcedIds (out ++ new) = announcedIds out ∧ ∀ id, eventsFor (out ++ new) id = eventsFor out id := by
  constructor
  · rw [announcedIds_append]
    have : announcedIds new = [] := by
      unfold announcedIds
      rw [List.filter_eq_nil_iff.2 (fun r hr => by rw [h2 r hr]; simp)]
      rfl
    rw [this, List.append_nil]
  · intro id
    rw [eventsFor_append]
    have : eventsFor new id = [] := by
      unfold eventsFor
      rw [List.flatMap_eq_nil_iff]
      intro r hr
      exact h1 r (List.mem_filter.1 hr).1
    rw [this, List.append_nil]

/-- Sending responses without events that announce nothing changes nothing essential. -/
theorem SInv.sendQuiet {g : Group} {st : Stream} (h : SInv g st) {new : List WatchResponse}
    (h1 : ∀ r ∈ new, r.events = []) (h2 : ∀ r ∈ new, (r.created && !r.canceled) = false) :
    ∀ asked, SInv g { st with asked := asked, out := st.out ++ new } := by
  intro asked
  obtain ⟨e1, e2⟩ := quiet_append (out := st.out) h1 h2
  refine ⟨h.used, h.next, h.creating, h.idle, h.callId, h.queryId, h.pend, ?_, ?_, h.ne, h.rev, ?_, h.last, ?_, ?_, ?_, ?_, ?_, h.closing⟩
  · rw [e1]; exact h.init
  · rw [e1]; exact h.upd
  · intro id; rw [e2]; exact h.sent id
  · rw [e1]; exact h.asc
  · rw [e1]; exact h.annId
  · exact ord_append h.ord (fun r hr he => absurd (h1 r hr) he)
  · intro id hid; rw [e2]; exact h.flag id hid
  · rw [e1]; intro id; rw [e2]; exact h.flagOn id

theorem SReachable.inv {a : SSys} (h : SReachable a) :
    NReachable a.base ∧ ∃ g, a.base.node.groupAt a.stream.index = some g ∧ SInv g a.stream := by
  induction h with
  | @«open» s n h =>
    refine ⟨h.step (.openGroup s n), Group.new n.pollRevision, ?_, SInv.new _ _⟩
    unfold Node.groupAt Stream.new
    simp
  | @step a b hr st ih =>
    obtain ⟨hn, g, hg, hi⟩ := ih
    have inv := hn.ninv
    cases st with
    | env a b st hst quiet =>
      obtain ⟨g', hg', m⟩ := NStep.move inv hst hg
      obtain ⟨g'', hg'', h1, h2⟩ := quiet g hg
      rw [hg'] at hg''
      cases hg''
      exact ⟨hn.step hst, g', hg', hi.move (inv.groups g (List.mem_of_getElem? hg)) m h1 h2⟩
    | recv s n st pre post g₁ u q c hidx hq free =>
      have hg₁ := groupAt_mid c hidx
      rw [hg₁] at hg
      cases hg
      refine ⟨hn.step (.group s n _ pre post g _ c (.recv _ _ u q hq)), _, groupAt_mid rfl hidx, ?_⟩
      refine ⟨hi.used, hi.next, hi.creating, hi.idle, hi.callId, hi.queryId, ?_, hi.init, ?_, ?_, ?_, ?_, ?_, hi.asc,
        hi.annId, hi.ord, hi.flag, hi.flagOn, hi.closing⟩
      · intro id hcr hidle
        obtain ⟨args, ans, h4, h5⟩ := hi.pend id hcr hidle
        refine ⟨args, ans, h4, ?_⟩
        rcases h5 with h5 | ⟨h5, h6⟩
        · exact Or.inl h5
        · refine Or.inr ⟨h5, ?_⟩
          unfold Group.sent at h6 ⊢
          rw [hq] at h6
          simpa using h6
      · intro id hne
        apply hi.upd id
        unfold Group.sent at hne ⊢
        rw [hq]
        simpa using hne
      · intro v hv
        apply hi.ne v
        rw [hq]
        simpa using hv
      · intro h; cases h
      · intro id
        have := hi.sent id
        rw [free] at this
        change sentTo (g.received ++ [u]) id = eventsFor st.out id ++ sentTo [u] id
        rw [sentTo_append, this]
        simp [sentTo]
      · intro v hv
        cases hv
        simp
    | store a st u hs =>
      refine ⟨hn, g, hg, ?_⟩
      exact ⟨hi.used, hi.next, hi.creating, hi.idle, hi.callId, hi.queryId, hi.pend, hi.init, hi.upd, hi.ne,
        fun h => absurd (hs.symm.trans h) (by nofun), hi.sent, hi.last, hi.asc, hi.annId, hi.ord, hi.flag, hi.flagOn, hi.closing⟩
    | sendUpdates a st u hs hrev unlocked =>
      refine ⟨hn, g, hg, ?_⟩
      have hmem : u ∈ g.received ++ g.queue :=
        List.mem_append.2 (Or.inl (List.mem_of_getLast? (hi.last u hs)))
      have hann : announcedIds (u.updates.map fun p => ({ revision := st.revision, watchId := p.1, events := p.2 } : WatchResponse)) = [] := by
        unfold announcedIds
        rw [List.filter_eq_nil_iff.2]
        · rfl
        · intro r hr
          obtain ⟨p, _, rfl⟩ := List.mem_map.1 hr
          simp
      have hev := eventsFor_updates st.revision u
      unfold Stream.sendUpdates
      refine ⟨hi.used, hi.next, hi.creating, hi.idle, hi.callId, hi.queryId, hi.pend, ?_, ?_, hi.ne,
        fun _ => by simp only [hi.last u hs, Option.map_some, Option.getD_some]; exact hrev, ?_, ?_, ?_,
        ?_, ?_, ?_, ?_, hi.closing⟩
      · simp only [announcedIds_append, hann, List.append_nil]; exact hi.init
      · simp only [announcedIds_append, hann, List.append_nil]; exact hi.upd
      · intro id
        simp only [eventsFor_append, hev]
        rw [hi.sent id, hs]
        simp [sentTo]
      · intro v hv; cases hv
      · simp only [announcedIds_append, hann, List.append_nil]; exact hi.asc
      · simp only [announcedIds_append, hann, List.append_nil]; exact hi.annId
      · apply ord_append hi.ord
        intro r hr hne
        obtain ⟨p, hp, rfl⟩ := List.mem_map.1 hr
        have hsne : g.sent p.1 ≠ [] := by
          obtain ⟨e, he⟩ := List.exists_mem_of_ne_nil _ hne
          intro hnil
          have : e ∈ g.sent p.1 := by
            unfold Group.sent sentTo
            refine List.mem_flatMap.2 ⟨u, hmem, List.mem_flatMap.2 ⟨p, ?_, he⟩⟩
            exact List.mem_filter.2 ⟨hp, by simp⟩
          rw [hnil] at this
          simp at this
        rcases hi.upd p.1 hsne with h | h
        · exact h
        · rw [unlocked] at h; cases h
      · intro id hid
        simp only at hid
        rw [foldReport_true] at hid
        simp only [eventsFor_append, hev]
        rw [hi.flag id hid.1, List.nil_append]
        unfold sentTo
        simp only [List.flatMap_cons, List.flatMap_nil, List.append_nil]
        rw [List.filter_eq_nil_iff.2]
        · rfl
        · intro p hp
          simpa using hid.2 p hp
      · intro id hid hc he
        simp only [announcedIds_append, hann, List.append_nil] at hid
        simp only [eventsFor_append, hev, List.append_eq_nil_iff] at he
        simp only
        rw [foldReport_true]
        refine ⟨hi.flagOn id hid hc he.1, fun p hp hpe => ?_⟩
        have h2 := he.2
        unfold sentTo at h2
        simp only [List.flatMap_cons, List.flatMap_nil, List.append_nil] at h2
        rw [List.flatMap_eq_nil_iff] at h2
        exact hi.ne u hmem p hp (h2 p (List.mem_filter.2 ⟨hp, by simp [hpe]⟩))
    | create s n st pre post g₁ g' key rangeEnd start c hidx idle seq hgw =>
      have hg₁ := groupAt_mid c hidx
      rw [hg₁] at hg
      cases hg
      have hfresh : st.next ∉ g.used := by
        intro hm
        rcases hi.used _ hm with h | h
        · exact absurd h (Int.lt_irrefl _)
        · change st.creating = some st.next at h
          rw [seq.1] at h; cases h
      have hstep : GroupStep s.world g s.world g' := by
        rw [hgw]
        exact .watch _ _ _ _ _ _ idle hfresh (watchRangeEnd_ne key rangeEnd)
      refine ⟨hn.step (.group s n _ pre post g g' c hstep), g', groupAt_mid rfl hidx, ?_⟩
      subst hgw
      generalize ha : (⟨st.next, key, watchRangeEnd key rangeEnd, start, g.currentRevision, s.world.db.compactRev⟩ : WatchArgs) = wa
      have hwid : wa.id = st.next := by rw [← ha]
      have hused : ∀ id ∈ g.used ++ [st.next], id < st.next ∨ some st.next = some id := by
        intro id hid
        rcases List.mem_append.1 hid with hid | hid
        · rcases hi.used id hid with h | h
          · exact Or.inl h
          · change st.creating = some id at h
            rw [seq.1] at h; cases h
        · simp only [List.mem_singleton] at hid
          rw [hid]; exact Or.inr rfl
      have hinit : ∀ x ∈ removeWatcher g.watchers st.next ++ [wa.watcher], x.initialized = true →
          x.id ∈ announcedIds st.out ∨ some st.next = some x.id := by
        intro x hx hxi
        rcases List.mem_append.1 hx with hx | hx
        · rcases hi.init x (removeWatcher_sub hx).1 hxi with h | h
          · exact Or.inl h
          · change st.creating = some x.id at h
            rw [seq.1] at h; cases h
        · simp only [List.mem_singleton] at hx
          rw [hx]
          right
          change some st.next = some wa.id
          rw [hwid]
      have hupd : ∀ id, g.sent id ≠ [] → id ∈ announcedIds st.out ∨ some st.next = some id := by
        intro id hne
        rcases hi.upd id hne with h | h
        · exact Or.inl h
        · change st.creating = some id at h
          rw [seq.1] at h; cases h
      unfold Group.watch
      simp only [ha]
      split
      · refine ⟨hused, hi.next, ?_, ?_, ?_, ?_, ?_, hinit, hupd, hi.ne, hi.rev, hi.sent, hi.last, hi.asc,
          hi.annId, hi.ord, hi.flag, hi.flagOn, hi.closing⟩
        · intro id he; cases he; rfl
        · intro hf; cases hf
        · intro a' p he; cases he; change some st.next = some wa.id; rw [hwid]
        · intro a' p he; cases he
        · intro id _ he; cases he
      · refine ⟨hused, hi.next, ?_, ?_, ?_, ?_, ?_, hinit, hupd, hi.ne, hi.rev, hi.sent, hi.last, hi.asc,
          hi.annId, hi.ord, hi.flag, hi.flagOn, hi.closing⟩
        · intro id he; cases he; rfl
        · intro hf; cases hf
        · intro a' p he
          simp only [idle] at he
          cases he
        · intro a' p he
          simp only [idle] at he
          cases he
        · intro id _ _
          exact ⟨wa, .ok, by simp, Or.inl rfl⟩
    | created a st g₁ id args ans hg₁ idle hc ha =>
      rw [hg₁] at hg
      cases hg
      refine ⟨hn, g, ?_, ?_⟩
      · have : (st.created id ans).index = st.index := by cases ans <;> rfl
        simp only [this]
        exact hg₁
      have hidn := hi.creating id hc
      change id = st.next at hidn
      obtain ⟨args', ans', h4, h5⟩ := hi.pend id hc idle
      rw [ha] at h4
      cases h4
      have hused : ∀ j ∈ g.used, j < st.next + 1 ∨ (none : Option Int) = some j := by
        intro j hj
        rcases hi.used j hj with h | h
        · change j < st.next at h
          exact Or.inl (by omega)
        · change st.creating = some j at h
          rw [hc] at h
          cases h
          exact Or.inl (by omega)
      have hcases : ∀ j, (j ∈ announcedIds st.out ∨ st.creating = some j) → j ∈ announcedIds st.out ∨ j = id := by
        intro j h
        rcases h with h | h
        · exact Or.inl h
        · rw [hc] at h
          cases h
          exact Or.inr rfl
      -- a failed answer: nothing announced, nothing waiting for the id
      have hfail : ∀ r : WatchResponse, r.events = [] → (r.created && !r.canceled) = false →
          ((∀ x ∈ g.watchers, x.id = id → x.initialized = false) ∧ g.sent id = []) →
          SInv g { st with creating := none, next := st.next + 1, out := st.out ++ [r] } := by
        intro r hr1 hr2 hno
        have hq := hi.sendQuiet (new := [r]) (by simpa using hr1) (by simpa using hr2) st.asked
        refine ⟨hused, by have := hi.next; simp only at this ⊢; omega, ?_, fun _ => idle, ?_, ?_, ?_, ?_, ?_, hi.ne,
          hi.rev, hq.sent, hi.last, hq.asc, ?_, hq.ord, hq.flag, hq.flagOn, hi.closing⟩
        · intro j he; cases he
        · intro a' p he; rw [idle] at he; cases he
        · intro a' p he; rw [idle] at he; cases he
        · intro j he; cases he
        · intro x hx hxi
          rcases hcases _ (hq.init x hx hxi |>.imp (fun h => by
              rw [(quiet_append (out := st.out) (new := [r]) (by simpa using hr1) (by simpa using hr2)).1] at h
              exact h) (fun h => h)) with h | h
          · left
            rw [(quiet_append (out := st.out) (new := [r]) (by simpa using hr1) (by simpa using hr2)).1]
            exact h
          · rw [hno.1 x hx h] at hxi; cases hxi
        · intro j hne
          rcases hcases j (hi.upd j hne) with h | h
          · left
            rw [(quiet_append (out := st.out) (new := [r]) (by simpa using hr1) (by simpa using hr2)).1]
            exact h
          · rw [h] at hne
            exact absurd hno.2 hne
        · intro j hj
          have := hq.annId j hj
          simp only at this ⊢
          exact ⟨this.1, by omega⟩
      cases ans with
      | ok =>
        have hann : announcedIds (st.out ++ [({ revision := 0, watchId := id, created := true } : WatchResponse)]) =
            announcedIds st.out ++ [id] := by
          rw [announcedIds_append]; rfl
        have hev : ∀ j, eventsFor (st.out ++ [({ revision := 0, watchId := id, created := true } : WatchResponse)]) j =
            eventsFor st.out j := by
          intro j
          rw [eventsFor_append]
          have : eventsFor [({ revision := 0, watchId := id, created := true } : WatchResponse)] j = [] := by
            unfold eventsFor
            rw [List.flatMap_eq_nil_iff]
            intro r hr
            have := (List.mem_filter.1 hr).1
            simp only [List.mem_singleton] at this
            rw [this]
          rw [this, List.append_nil]
        -- nothing has been sent for the new id
        have hnone : eventsFor st.out id = [] := by
          cases he : eventsFor st.out id with
          | nil => rfl
          | cons e es =>
            exfalso
            have hmem : e ∈ eventsFor st.out id := by rw [he]; simp
            obtain ⟨r, hr, her⟩ := List.mem_flatMap.1 hmem
            obtain ⟨h1, h2⟩ := List.mem_filter.1 hr
            obtain ⟨A, B, hAB⟩ := List.append_of_mem h1
            have hord := hi.ord A r B hAB (by intro hnil; rw [hnil] at her; simp at her)
            have hid : r.watchId = id := by simpa using h2
            rw [hid] at hord
            have := hi.annId id (by
              change id ∈ announcedIds st.out
              rw [hAB, announcedIds_append]
              exact List.mem_append.2 (Or.inl hord))
            simp only at this
            omega
        unfold Stream.created
        simp only
        refine ⟨hused, by have := hi.next; simp only at this ⊢; omega, ?_, fun _ => idle, ?_, ?_, ?_, ?_, ?_, hi.ne,
          hi.rev, ?_, hi.last, ?_, ?_, ?_, ?_, ?_, hi.closing⟩
        · intro j he; cases he
        · intro a' p he; rw [idle] at he; cases he
        · intro a' p he; rw [idle] at he; cases he
        · intro j he; cases he
        · intro x hx hxi
          left
          rw [hann]
          rcases hcases _ (hi.init x hx hxi) with h | h
          · exact List.mem_append.2 (Or.inl h)
          · rw [h]; simp
        · intro j hne
          left
          rw [hann]
          rcases hcases _ (hi.upd j hne) with h | h
          · exact List.mem_append.2 (Or.inl h)
          · rw [h]; simp
        · intro j; rw [hev]; exact hi.sent j
        · rw [hann]
          refine List.pairwise_append.2 ⟨hi.asc, by simp, ?_⟩
          intro x hx y hy
          simp only [List.mem_singleton] at hy
          rw [hy, hidn]
          exact (hi.annId x hx).2
        · intro j hj
          rw [hann] at hj
          rcases List.mem_append.1 hj with hj | hj
          · have := hi.annId j hj
            simp only at this
            exact ⟨this.1, by change j < st.next + 1; omega⟩
          · simp only [List.mem_singleton] at hj
            have := hi.next
            simp only at this
            exact ⟨by omega, by change j < st.next + 1; omega⟩
        · apply ord_append hi.ord
          intro r hr hne
          simp only [List.mem_singleton] at hr
          rw [hr] at hne
          exact absurd rfl hne
        · intro j hj
          rw [hev]
          rcases setReport_true hj with ⟨h1, _⟩ | ⟨h1, _⟩
          · exact hi.flag j h1
          · rw [h1]; exact hnone
        · intro j hj hcan he
          rw [hev] at he
          rw [hann] at hj
          unfold setReport
          by_cases hjid : j = id
          · rw [hjid]; simp
          · rcases List.mem_append.1 hj with hj | hj
            · refine List.mem_append.2 (Or.inl (List.mem_filter.2 ⟨hi.flagOn j hj hcan he, ?_⟩))
              simpa using hjid
            · simp only [List.mem_singleton] at hj
              exact absurd hj hjid
      | compacted cr cur =>
        refine hfail _ rfl rfl ?_
        rcases h5 with h5 | h5
        · cases h5
        · exact h5
      | error =>
        refine hfail _ rfl rfl ?_
        rcases h5 with h5 | h5
        · cases h5
        · exact h5
    | unwatch s n st pre post g₁ id c hidx seq =>
      have hg₁ := groupAt_mid c hidx
      rw [hg₁] at hg
      cases hg
      have hidle := hi.idle seq.1
      refine ⟨hn.step (.group s n _ pre post g _ c (.unwatch _ _ id hidle)), _, groupAt_mid rfl hidx, ?_⟩
      refine ⟨hi.used, hi.next, hi.creating, hi.idle, hi.callId, hi.queryId, ?_, ?_, hi.upd, hi.ne, hi.rev, hi.sent, hi.last,
        hi.asc, hi.annId, hi.ord, hi.flag, ?_, ?_⟩
      · intro j he
        change st.creating = some j at he
        rw [seq.1] at he; cases he
      · intro x hx
        exact hi.init x (removeWatcher_sub hx).1
      · intro j hj hcan
        exact hi.flagOn j hj (fun h => hcan (List.mem_append.2 (Or.inl h)))
      · intro j he
        cases he
        simp
    | closed a st id hc =>
      refine ⟨hn, g, hg, ?_⟩
      refine ⟨hi.used, hi.next, hi.creating, hi.idle, hi.callId, hi.queryId, hi.pend, hi.init, hi.upd, hi.ne, hi.rev, hi.sent,
        hi.last, hi.asc, hi.annId, hi.ord, ?_, ?_, ?_⟩
      · intro j hj
        exact hi.flag j (List.mem_filter.1 hj).1
      · intro j hj hcan he
        refine List.mem_filter.2 ⟨hi.flagOn j hj hcan he, ?_⟩
        have := hi.closing id hc
        simp only [decide_eq_true_eq]
        intro heq
        rw [heq] at hcan
        exact hcan this
      · intro j he; cases he
    | tick a st l hl unlocked =>
      refine ⟨hn, g, hg, ?_⟩
      refine hi.sendQuiet ?_ ?_ st.asked
      · intro r hr
        obtain ⟨p, _, rfl⟩ := List.mem_map.1 hr
        rfl
      · intro r hr
        obtain ⟨p, _, rfl⟩ := List.mem_map.1 hr
        rfl
    | requestProgress a st seq =>
      refine ⟨hn, g, hg, ?_⟩
      refine hi.sendQuiet ?_ ?_ (st.asked ++ [.progress])
      · intro r hr
        simp only [List.mem_singleton] at hr
        rw [hr]
      · intro r hr
        simp only [List.mem_singleton] at hr
        rw [hr]; rfl

end Verif
