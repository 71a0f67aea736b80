import Verif.Lemmas.Stmts
/-!
# Systems reached by a restricted set of calls, and table invariants preserved by every statement
-/

namespace Verif

/-- Reachable from a fresh database when only calls satisfying `P` are started. -/
inductive ReachableBy (P : Call → Prop) : Sys → Prop where
  | init : ReachableBy P Sys.init
  | spawn {s : Sys} (c : Call) (ok : c.allowed) (hP : P c) :
      ReachableBy P s → ReachableBy P { s with pool := c.prog :: s.pool }
  | exec (w : World) (pre post : List (Prog Unit)) (eff : DB → DB) (k : Outcome → DB → Prog Unit) (o : Outcome) :
      ReachableBy P ⟨w, pre ++ .stmt eff k :: post⟩ → ReachableBy P ⟨w.exec eff o, pre ++ k o w.db :: post⟩
  | stop (w : World) (pre post : List (Prog Unit)) (p : Prog Unit) :
      ReachableBy P ⟨w, pre ++ p :: post⟩ → ReachableBy P ⟨w, pre ++ post⟩

theorem ReachableBy.reachable {P : Call → Prop} {s : Sys} (h : ReachableBy P s) : Reachable s := by
  induction h with
  | init => exact Steps.refl _
  | spawn c ok _ _ ih => exact Steps.tail ih (.spawn _ c ok)
  | exec w pre post eff k o _ ih => exact Steps.tail ih (.exec w pre post eff k o)
  | stop w pre post p _ ih => exact Steps.tail ih (.stop w pre post p)

/-- An invariant of the world that every statement preserves holds in every reachable system. -/
theorem ReachableBy.invariant {P : Call → Prop} {l : Bool} (hl : ∀ c, P c → l = false → c.modern)
    {J : World → Prop} (h0 : J World.init)
    (hstep : ∀ w eff o, Inv w → J w → StmtKind l eff → J (w.exec eff o)) {s : Sys} (h : ReachableBy P s) :
    J s.world := by
  suffices J s.world ∧ ∀ p ∈ s.pool, AllStmts (StmtKind l) p from this.1
  induction h with
  | init => exact ⟨h0, by simp [Sys.init]⟩
  | @spawn s c ok hP _ ih =>
    refine ⟨ih.1, fun p hp => ?_⟩
    rcases List.mem_cons.1 hp with rfl | hp
    · exact all_call c ok (hl c hP)
    · exact ih.2 p hp
  | exec w pre post eff k o hr ih =>
    have hk := ih.2 (.stmt eff k) (by simp)
    refine ⟨hstep w eff o hr.reachable.inv ih.1 hk.1, fun p hp => ?_⟩
    simp only [List.mem_append, List.mem_cons] at hp
    rcases hp with hp | rfl | hp
    · exact ih.2 p (by simp [hp])
    · exact hk.2 o w.db
    · exact ih.2 p (by simp [hp])
  | stop w pre post p _ ih =>
    refine ⟨ih.1, fun q hq => ih.2 q ?_⟩
    simp only [List.mem_append, List.mem_cons] at hq ⊢
    rcases hq with hq | hq
    · exact Or.inl hq
    · exact Or.inr (Or.inr hq)

/-- Between a stored version and its recorded predecessor no version of the key is stored. -/
def Chain (db : DB) : Prop :=
  ∀ r ∈ db.rows, r.name ≠ compactRevKey → r.prevRevision < r.id ∧
    ∀ q ∈ db.rows, q.name = r.name → ¬ (r.prevRevision < q.id ∧ q.id < r.id)

theorem Chain.sub {db db' : DB} (h : Chain db)
    (hs : ∀ r ∈ db'.rows, ∃ q ∈ db.rows, r.id = q.id ∧ r.name = q.name ∧
      (r.name ≠ compactRevKey → r.prevRevision = q.prevRevision)) : Chain db' := by
  intro r hr hn
  obtain ⟨r', hr', e1, e2, e3⟩ := hs r hr
  obtain ⟨h1, h2⟩ := h r' hr' (by rw [← e2]; exact hn)
  rw [e3 hn, e1]
  refine ⟨h1, ?_⟩
  intro q hq hqn
  obtain ⟨q', hq', f1, f2, _⟩ := hs q hq
  rw [f1]
  exact h2 q' hq' (by rw [← f2, hqn, e2])

theorem Chain.insert {w : World} (i : Inv w) (h : Chain w.db) {r : Row}
    (hp : r.prevRevision ≤ w.hist.top) (hmax : ∀ q ∈ w.db.rows, q.name = r.name → q.id ≤ r.prevRevision) :
    Chain (w.db.insert r) := by
  rw [i.insert_eq]
  intro x hx hn
  simp only [List.mem_append, List.mem_singleton] at hx
  rcases hx with hx | rfl
  · obtain ⟨h1, h2⟩ := h x hx hn
    refine ⟨h1, ?_⟩
    intro q hq hqn
    simp only [List.mem_append, List.mem_singleton] at hq
    rcases hq with hq | rfl
    · exact h2 q hq hqn
    · have := i.row_le_top hx
      have e : (w.newRow r).id = w.hist.top + 1 := rfl
      omega
  · have e : (w.newRow r).id = w.hist.top + 1 := rfl
    have e' : (w.newRow r).prevRevision = r.prevRevision := rfl
    refine ⟨by rw [e, e']; omega, ?_⟩
    intro q hq hqn
    simp only [List.mem_append, List.mem_singleton] at hq
    rcases hq with hq | rfl
    · have := hmax q hq hqn
      rw [e', e]; omega
    · rw [e]; omega

/-- Row matched by the compare of update and delete. -/
theorem casRows_cases {w : World} (i : Inv w) (key : Bytes) (rev : Int) :
    casRows w.db key rev = [] ∨ ∃ m, casRows w.db key rev = [m] ∧ m ∈ w.db.rows ∧ m.name = key ∧
      ∀ q ∈ w.db.rows, q.name = key → q.id ≤ m.id := by
  have hc := i.casRows_spec key rev
  have main : ∀ m, casRows w.db key rev = [m] → m.name = key → m ∈ w.db.rows ∧ m.name = key ∧
      ∀ q ∈ w.db.rows, q.name = key → q.id ≤ m.id := by
    intro m hm hname
    have hmem : m ∈ casRows w.db key rev := by rw [hm]; simp
    obtain ⟨h1, h2⟩ := List.mem_filter.1 hmem
    simp only [Bool.and_eq_true, beq_iff_eq] at h2
    refine ⟨h1, hname, fun q hq hqn => ?_⟩
    exact (maxId_eq_some.1 h2.1.1.symm).2 q (List.mem_filter.2 ⟨hq, by simp [hqn]⟩)
  split at hc
  · split at hc
    · obtain ⟨m, hm, _, hn⟩ := hc
      exact Or.inr ⟨m, hm, main m hm hn⟩
    · exact Or.inl hc
  · exact Or.inl hc

theorem chain_step {w : World} (i : Inv w) (h : Chain w.db) {eff : DB → DB} (hk : StmtKind false eff)
    (o : Outcome) : Chain (w.exec eff o).db := by
  cases ho : o.applied with
  | false => rw [not_applied_exec ho]; exact h
  | true =>
    have hdb : (w.exec eff o).db = eff w.db := by simp [World.exec, ho]
    rw [hdb]
    cases hk with
    | query => exact h
    | create key lease value =>
      have ins : ∀ prev, prev ≤ w.hist.top → (∀ q ∈ w.db.rows, q.name = key → q.id ≤ prev) →
          Chain (w.db.insertSelect [(⟨0, key, true, false, 0, prev, lease, value, []⟩ : Row)]).1 := by
        intro prev h1 h2
        rw [i.insertSelect_one]
        exact h.insert i h1 h2
      change Chain (createSQL w.db key lease value).1
      unfold createSQL
      cases hm : maxRow (w.db.rows.filter fun r => r.name == key) with
      | none =>
        have hm' := hm
        rw [maxRow_none, List.filter_eq_nil_iff] at hm'
        exact ins 0 (top_nonneg i.wf) (fun q hq hqn => absurd (by simp [hqn]) (hm' q hq))
      | some m =>
        obtain ⟨h1, h2⟩ := maxRow_some hm
        have h1' := (List.mem_filter.1 h1).1
        simp only
        split
        · exact ins m.id (i.row_le_top h1')
            (fun q hq hqn => h2 q (List.mem_filter.2 ⟨hq, by simp [hqn]⟩))
        · exact h
    | update key _ lease value rev =>
      change Chain (updateSQL w.db key lease value rev).1
      unfold updateSQL
      rcases casRows_cases i key rev with e | ⟨m, e, hm, hn, hmax⟩
      · rw [e]; exact h
      · rw [e]
        simp only [List.map_cons, List.map_nil]
        rw [i.insertSelect_one]
        exact h.insert i (i.row_le_top hm) hmax
    | delete key _ rev =>
      change Chain (deleteSQL w.db key rev).1
      unfold deleteSQL
      rcases casRows_cases i key rev with e | ⟨m, e, hm, hn, hmax⟩
      · rw [e]; exact h
      · rw [e]
        simp only [List.map_cons, List.map_nil]
        rw [i.insertSelect_one]
        refine h.insert i (i.row_le_top hm) ?_
        rw [hn]; exact hmax
    | deleteRev rev =>
      apply h.sub
      intro r hr
      exact ⟨r, (List.mem_filter.1 hr).1, rfl, rfl, fun _ => rfl⟩
    | compact a b =>
      apply h.sub
      intro r hr
      obtain ⟨q, hq, _, _, rfl⟩ := mem_tryCompact.1 hr
      refine ⟨q, hq, markRow_id _ _, markRow_name _ _, ?_⟩
      intro hn
      rw [markRow_name] at hn
      unfold markRow
      rw [if_neg (by simpa using hn)]
    | legacyCreate _ _ _ _ _ hl => cases hl

end Verif
