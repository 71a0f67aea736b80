import Verif.Spec.Linear
import Verif.Lemmas.Txn
/-!
# Facts about recorded executions with many clients
-/

namespace Verif

/-- The instant of an event as a (possibly trivial) statement. -/
def CEv.obs : CEv → Obs
  | .call _ _ w => ⟨w, .ok, w⟩
  | .stmt _ ob => ob
  | .ret _ _ w => ⟨w, .ok, w⟩

/-- Invariant of concurrent executions. -/
structure CInv (c : Conc) : Prop where
  sys : SysInv ⟨c.world, c.bg⟩
  safe : ∀ i p, c.active i = some p → Safe p c.world ∧ i < c.next

theorem CInv.init : CInv Conc.init := ⟨SysInv.init, fun i p h => by cases h⟩

theorem safe_op {w : World} (i : Inv w) (v1 : Bool) {op : ClientOp} (ok : op.allowed) :
    Safe (op.prog v1) w := by
  cases op with
  | read k e => exact safe_map (safe_range i v1 _)
  | create k v l =>
    exact safe_map (safe_txn i v1 _ (by intro h; exact ok (Option.some.inj h)))
  | update k r v l =>
    exact safe_map (safe_txn i v1 _ (by intro h; exact ok (Option.some.inj h)))
  | delete k r =>
    exact safe_map (safe_txn i v1 _ (by intro h; exact ok.1 (Option.some.inj h)))

theorem Facts.cons {w w' : World} {ob : Obs} {l : List Obs} (h0 : Ext w ob.pre) (h1 : Ext ob.pre ob.post)
    (f : Facts ob.post l w') : Facts w (ob :: l) w' := by
  refine ⟨?_, ?_, ?_, ?_, (h0.trans h1).trans f.total⟩
  · intro x hx
    rcases List.mem_cons.1 hx with rfl | hx
    · exact h0
    · exact (h0.trans h1).trans (f.pre x hx)
  · intro x hx
    rcases List.mem_cons.1 hx with rfl | hx
    · exact h1
    · exact f.step x hx
  · intro x hx
    rcases List.mem_cons.1 hx with rfl | hx
    · exact f.total
    · exact f.post x hx
  · rw [List.pairwise_cons]
    exact ⟨fun b hb => f.pre b hb, f.chain⟩

theorem Facts.weaken {w₀ w w' : World} {l : List Obs} (h : Ext w₀ w) (f : Facts w l w') : Facts w₀ l w' :=
  ⟨fun x hx => h.trans (f.pre x hx), f.step, f.post, f.chain, h.trans f.total⟩

theorem crun_facts {c c' : Conc} {l : List CEv} (r : CRun c l c') (h : CInv c) :
    Facts c.world (l.map CEv.obs) c'.world ∧ CInv c' := by
  induction r with
  | done c => exact ⟨Facts.nil h.sys.inv, h⟩
  | @env c c' w bg l st _ ih =>
    obtain ⟨h1, h2⟩ := h.sys.step st
    obtain ⟨f, h3⟩ := ih ⟨h1, fun i p hp => ⟨safe_ext h2 (h.safe i p hp).1, (h.safe i p hp).2⟩⟩
    exact ⟨Facts.weaken h2 f, h3⟩
  | @call c c' l v1 op ok _ ih =>
    obtain ⟨f, h3⟩ := ih ⟨h.sys, by
      intro i p hp
      simp only [Conc.set] at hp
      split at hp
      · cases hp
        rename_i hi
        subst hi
        exact ⟨safe_op h.sys.inv v1 ok, Nat.lt_succ_self _⟩
      · exact ⟨(h.safe i p hp).1, Nat.lt_succ_of_lt (h.safe i p hp).2⟩⟩
    exact ⟨Facts.cons (Ext.refl h.sys.inv) (Ext.refl h.sys.inv) f, h3⟩
  | @stmt c c' l i o eff k hi _ ih =>
    obtain ⟨hs, hlt⟩ := h.safe i _ hi
    obtain ⟨h1, h2⟩ := hs c.world (Ext.refl h.sys.inv) o
    obtain ⟨f, h3⟩ := ih ⟨⟨h1.inv, fun p hp => safe_ext h1 (h.sys.safe p hp)⟩, by
      intro j p hp
      simp only [Conc.set] at hp
      split at hp
      · cases hp
        rename_i hj
        subst hj
        exact ⟨h2, hlt⟩
      · exact ⟨safe_ext h1 (h.safe j p hp).1, (h.safe j p hp).2⟩⟩
    exact ⟨Facts.cons (Ext.refl h.sys.inv) h1 f, h3⟩
  | @ret c c' l i a hi _ ih =>
    obtain ⟨f, h3⟩ := ih ⟨h.sys, by
      intro j p hp
      simp only [Conc.set] at hp
      split at hp
      · cases hp
      · exact h.safe j p hp⟩
    exact ⟨Facts.cons (Ext.refl h.sys.inv) (Ext.refl h.sys.inv) f, h3⟩
  | @die c c' l i _ ih =>
    exact ih ⟨h.sys, by
      intro j p hp
      simp only [Conc.set] at hp
      split at hp
      · cases hp
      · exact h.safe j p hp⟩

/-- A record can be cut anywhere. -/
theorem crun_split {c c' : Conc} {A l : List CEv} (r : CRun c (A ++ l) c') :
    ∃ m, CRun c A m ∧ CRun m l c' := by
  generalize hl : A ++ l = L at r
  induction r generalizing A with
  | done c =>
    have := List.append_eq_nil_iff.1 hl
    rw [this.1, this.2]
    exact ⟨c, .done c, .done c⟩
  | env st _ ih =>
    obtain ⟨m, h1, h2⟩ := ih hl
    exact ⟨m, .env st h1, h2⟩
  | @call c c' l' v1 op ok r ih =>
    cases A with
    | nil => exact ⟨c, .done c, by rw [List.nil_append] at hl; rw [hl]; exact .call v1 op ok r⟩
    | cons e A =>
      simp only [List.cons_append, List.cons.injEq] at hl
      obtain ⟨m, h1, h2⟩ := ih hl.2
      exact ⟨m, by rw [hl.1]; exact .call v1 op ok h1, h2⟩
  | @stmt c c' l' i o eff k h r ih =>
    cases A with
    | nil => exact ⟨c, .done c, by rw [List.nil_append] at hl; rw [hl]; exact .stmt i o eff k h r⟩
    | cons e A =>
      simp only [List.cons_append, List.cons.injEq] at hl
      obtain ⟨m, h1, h2⟩ := ih hl.2
      exact ⟨m, by rw [hl.1]; exact .stmt i o eff k h h1, h2⟩
  | @ret c c' l' i a h r ih =>
    cases A with
    | nil => exact ⟨c, .done c, by rw [List.nil_append] at hl; rw [hl]; exact .ret i a h r⟩
    | cons e A =>
      simp only [List.cons_append, List.cons.injEq] at hl
      obtain ⟨m, h1, h2⟩ := ih hl.2
      exact ⟨m, by rw [hl.1]; exact .ret i a h h1, h2⟩
  | die i _ ih =>
    obtain ⟨m, h1, h2⟩ := ih hl
    exact ⟨m, .die i h1, h2⟩

/-- A finished call leaves no further trace. -/
theorem crun_dead {c c' : Conc} {l : List CEv} (r : CRun c l c') {i : Nat} (h : c.active i = none)
    (hi : i < c.next) : ∀ e ∈ l, e.id ≠ i := by
  induction r with
  | done c => simp
  | env st _ ih => exact ih h hi
  | @call c c' l v1 op ok _ ih =>
    intro e he
    rcases List.mem_cons.1 he with rfl | he
    · simp only [CEv.id]; omega
    · exact ih (by simp only [Conc.set]; rw [if_neg (by omega)]; exact h) (Nat.lt_succ_of_lt hi) e he
  | @stmt c c' l j o eff k hj _ ih =>
    have hne : j ≠ i := fun e => by rw [e, h] at hj; cases hj
    intro e he
    rcases List.mem_cons.1 he with rfl | he
    · exact hne
    · exact ih (by simp only [Conc.set]; rw [if_neg (Ne.symm hne)]; exact h) hi e he
  | @ret c c' l j a hj _ ih =>
    have hne : j ≠ i := fun e => by rw [e, h] at hj; cases hj
    intro e he
    rcases List.mem_cons.1 he with rfl | he
    · exact hne
    · exact ih (by simp only [Conc.set]; rw [if_neg (Ne.symm hne)]; exact h) hi e he
  | @die c c' l j _ ih =>
    exact ih (by simp only [Conc.set]; split; rfl; exact h) hi

/-- Calls get new numbers. -/
theorem crun_call_ge {c c' : Conc} {l : List CEv} (r : CRun c l c') {i : Nat} {op : ClientOp} {w : World}
    (h : CEv.call i op w ∈ l) : c.next ≤ i := by
  induction r with
  | done c => simp at h
  | env st _ ih => exact ih h
  | call v1 op ok _ ih =>
    rcases List.mem_cons.1 h with h | h
    · cases h; exact Nat.le_refl _
    · exact Nat.le_of_succ_le (ih h)
  | stmt i o eff k hi _ ih =>
    rcases List.mem_cons.1 h with h | h
    · cases h
    · exact ih h
  | ret i a hi _ ih =>
    rcases List.mem_cons.1 h with h | h
    · cases h
    · exact ih h
  | die i _ ih => exact ih h

/-- Events of a finished record belong to numbered calls. -/
theorem crun_id_lt {c c' : Conc} {l : List CEv} (r : CRun c l c') (h : CInv c) :
    c.next ≤ c'.next ∧ ∀ e ∈ l, e.id < c'.next := by
  induction r with
  | done c => exact ⟨Nat.le_refl _, by simp⟩
  | @env c c' w bg l st _ ih =>
    obtain ⟨h1, h2⟩ := h.sys.step st
    exact ih ⟨h1, fun i p hp => ⟨safe_ext h2 (h.safe i p hp).1, (h.safe i p hp).2⟩⟩
  | @call c c' l v1 op ok r ih =>
    have hc := (crun_facts (.call (c := { c with }) v1 op ok (.done _)) h).2
    obtain ⟨a, b⟩ := ih hc
    refine ⟨Nat.le_of_succ_le a, ?_⟩
    intro e he
    rcases List.mem_cons.1 he with rfl | he
    · exact a
    · exact b e he
  | @stmt c c' l i o eff k hi r ih =>
    have hc := (crun_facts (.stmt i o eff k hi (.done _)) h).2
    obtain ⟨a, b⟩ := ih hc
    refine ⟨a, ?_⟩
    intro e he
    rcases List.mem_cons.1 he with rfl | he
    · exact Nat.lt_of_lt_of_le (h.safe i _ hi).2 a
    · exact b e he
  | @ret c c' l i x hi r ih =>
    have hc := (crun_facts (.ret i x hi (.done _)) h).2
    obtain ⟨a, b⟩ := ih hc
    refine ⟨a, ?_⟩
    intro e he
    rcases List.mem_cons.1 he with rfl | he
    · exact Nat.lt_of_lt_of_le (h.safe i _ hi).2 a
    · exact b e he
  | @die c c' l i r ih =>
    exact ih (crun_facts (.die i (.done _)) h).2

/-- The statements of an open call up to its return are a path of its program. -/
theorem crun_path {c c' : Conc} {B C : List CEv} {i : Nat} {a : Except ApiErr ClientResp} {w : World}
    (r : CRun c (B ++ .ret i a w :: C) c') {p : Prog (Except ApiErr ClientResp)} (h : c.active i = some p)
    (hi : i < c.next) (hB : ∀ b v, CEv.ret i b v ∉ B) : Path p (stmtsOf i B) a := by
  generalize hl : B ++ CEv.ret i a w :: C = L at r
  induction r generalizing B p with
  | done c => simp at hl
  | env st _ ih => exact ih h hi hB hl
  | @call c c' l' v1 op ok r ih =>
    cases B with
    | nil => simp at hl
    | cons e B =>
      simp only [List.cons_append, List.cons.injEq] at hl
      obtain ⟨rfl, hl⟩ := hl
      have := ih (B := B) (p := p) (by simp only [Conc.set]; rw [if_neg (by omega)]; exact h)
        (Nat.lt_succ_of_lt hi) (fun b v hb => hB b v (by simp [hb])) hl
      simpa [stmtsOf] using this
  | @stmt c c' l' j o eff k hj r ih =>
    cases B with
    | nil => simp at hl
    | cons e B =>
      simp only [List.cons_append, List.cons.injEq] at hl
      obtain ⟨rfl, hl⟩ := hl
      by_cases hji : j = i
      · subst hji
        rw [h] at hj
        cases hj
        have := ih (B := B) (p := k o c.world.db) (by simp [Conc.set]) hi
          (fun b v hb => hB b v (by simp [hb])) hl
        simpa [stmtsOf] using Path.step (eff := eff) c.world o this
      · have := ih (B := B) (p := p) (by simp only [Conc.set]; rw [if_neg (Ne.symm hji)]; exact h) hi
          (fun b v hb => hB b v (by simp [hb])) hl
        simpa [stmtsOf, hji] using this
  | @ret c c' l' j b hj r ih =>
    cases B with
    | nil =>
      simp only [List.nil_append, List.cons.injEq, CEv.ret.injEq] at hl
      obtain ⟨⟨rfl, rfl, rfl⟩, _⟩ := hl
      rw [h] at hj
      cases hj
      exact .ret _
    | cons e B =>
      simp only [List.cons_append, List.cons.injEq] at hl
      obtain ⟨rfl, hl⟩ := hl
      have hji : j ≠ i := fun e => by
        subst e
        exact hB b c.world (by simp)
      have := ih (B := B) (p := p) (by simp only [Conc.set]; rw [if_neg (Ne.symm hji)]; exact h) hi
        (fun b v hb => hB b v (by simp [hb])) hl
      simpa [stmtsOf] using this
  | @die c c' l' j r ih =>
    by_cases hji : j = i
    · subst hji
      exfalso
      refine crun_dead r (i := j) (by simp [Conc.set]) hi (.ret j a w) ?_ rfl
      rw [← hl]; simp
    · exact ih (p := p) (by simp only [Conc.set]; rw [if_neg (Ne.symm hji)]; exact h) hi hB hl

/-- Events come one after the other. -/
theorem facts_order {w w' : World} {A B : List CEv} (f : Facts w ((A ++ B).map CEv.obs) w') {e e' : CEv}
    (he : e ∈ A) (he' : e' ∈ B) : Ext e.obs.post e'.obs.pre := by
  rw [List.map_append] at f
  exact (List.pairwise_append.1 f.chain).2.2 _ (List.mem_map_of_mem he) _ (List.mem_map_of_mem he')

theorem mem_stmtsOf {i : Nat} {l : List CEv} {ob : Obs} : ob ∈ stmtsOf i l ↔ CEv.stmt i ob ∈ l := by
  unfold stmtsOf
  simp only [List.mem_filterMap]
  constructor
  · rintro ⟨e, he, h⟩
    cases e with
    | call => cases h
    | ret => cases h
    | stmt j o =>
      simp only at h
      split at h
      · cases h; rename_i hj; subst hj; exact he
      · cases h
  · intro h
    exact ⟨_, h, by simp⟩

theorem stmtsOf_sublist (i : Nat) (l : List CEv) : (stmtsOf i l).Sublist (l.map CEv.obs) := by
  induction l with
  | nil => exact List.Sublist.refl _
  | cons e l ih =>
    cases e with
    | call => exact ih.cons _
    | ret => exact ih.cons _
    | stmt j ob =>
      by_cases hj : j = i
      · subst hj
        have : stmtsOf j (.stmt j ob :: l) = ob :: stmtsOf j l := by simp [stmtsOf]
        rw [this]
        exact ih.cons_cons _
      · have : stmtsOf i (.stmt j ob :: l) = stmtsOf i l := by simp [stmtsOf, hj]
        rw [this]
        exact ih.cons _

theorem Facts.sub {w w' : World} {t u : List Obs} (f : Facts w u w') (h : t.Sublist u) : Facts w t w' :=
  ⟨fun x hx => f.pre x (h.subset hx), fun x hx => f.step x (h.subset hx), fun x hx => f.post x (h.subset hx),
    f.chain.sublist h, f.total⟩

/-- Everything about one completed call. -/
structure CallFacts (l : List CEv) (c : Conc) (i : Nat) (op : ClientOp) (t : List Obs) (w w' : World)
    (a : Except ApiErr ClientResp) : Prop where
  allowed : op.allowed
  path : ∃ v1, Path (op.prog v1) t a
  facts : Facts w t w'
  last : Ext w' c.world
  lt : i < c.next

theorem crun_ret {m c : Conc} {L : List CEv} {i : Nat} {a : Except ApiErr ClientResp} {w' : World} (hm : CInv m)
    (hr : CRun m (.ret i a w' :: L) c) : ∃ m', CInv m' ∧ m'.world = w' ∧ Ext m.world w' ∧
      m'.active i = none ∧ i < m'.next ∧ CRun m' L c := by
  generalize hL : CEv.ret i a w' :: L = L' at hr
  induction hr with
  | done => cases hL
  | @env c c' w₁ bg l st _ ih =>
    obtain ⟨h1, h2⟩ := hm.sys.step st
    obtain ⟨m', a1, a2, a3, a4⟩ := ih ⟨h1, fun i p hp => ⟨safe_ext h2 (hm.safe i p hp).1, (hm.safe i p hp).2⟩⟩ hL
    exact ⟨m', a1, a2, h2.trans a3, a4⟩
  | call => cases hL
  | stmt => cases hL
  | @ret c c' l j b hj r ih =>
    cases hL
    exact ⟨_, (crun_facts (.ret i a hj (.done _)) hm).2, rfl, Ext.refl hm.sys.inv, by simp [Conc.set],
      (hm.safe _ _ hj).2, r⟩
  | @die c c' l j r ih => exact ih (crun_facts (.die j (.done _)) hm).2 hL

theorem crun_call {m c : Conc} {L : List CEv} {i : Nat} {op : ClientOp} {w : World} (hm : CInv m)
    (hr : CRun m (.call i op w :: L) c) : ∃ m' v1, CInv m' ∧ m'.world = w ∧
      m'.active i = some (op.prog v1) ∧ op.allowed ∧ i < m'.next ∧ CRun m' L c ∧ m.next ≤ i := by
  generalize hL : CEv.call i op w :: L = L' at hr
  induction hr with
  | done => cases hL
  | @env c c' w₁ bg l st _ ih =>
    obtain ⟨h1, h2⟩ := hm.sys.step st
    exact ih ⟨h1, fun i p hp => ⟨safe_ext h2 (hm.safe i p hp).1, (hm.safe i p hp).2⟩⟩ hL
  | @call c c' l v1 op' ok r ih =>
    cases hL
    refine ⟨_, v1, (crun_facts (.call (c := { c with }) v1 op ok (.done _)) hm).2, rfl, by simp [Conc.set], ok,
      Nat.lt_succ_self _, r, Nat.le_refl _⟩
  | stmt => cases hL
  | ret => cases hL
  | @die c c' l j r ih => exact ih (crun_facts (.die j (.done _)) hm).2 hL

/-- The parts of a completed call. -/
theorem completed_parts {l : List CEv} {c : Conc} (r : CRun Conc.init l c) {i : Nat} {op : ClientOp}
    {w w' : World} {a : Except ApiErr ClientResp} {A B C : List CEv}
    (hl : l = A ++ .call i op w :: B ++ .ret i a w' :: C) :
    (∀ e ∈ A, e.id ≠ i) ∧ (∀ b v, CEv.ret i b v ∉ B) ∧ (∀ e ∈ C, e.id ≠ i) ∧
    CallFacts l c i op (stmtsOf i B) w w' a := by
  have hr := r
  rw [hl, List.append_assoc, List.cons_append] at hr
  obtain ⟨m, h1, h2⟩ := crun_split hr
  obtain ⟨_, hm⟩ := crun_facts h1 CInv.init
  -- the call event
  obtain ⟨m', v1, hm', hw, hact, hok, hlt, h3, hge⟩ := crun_call hm h2
  -- the return event
  obtain ⟨n, h4, h5⟩ := crun_split h3
  obtain ⟨fB, hn⟩ := crun_facts h4 hm'
  obtain ⟨n', hn', hw', hxr, hdead, hlt', h6⟩ := crun_ret hn h5
  have hC := crun_dead h6 hdead hlt'
  have hAid : ∀ e ∈ A, e.id ≠ i := by
    intro e he heq
    have := (crun_id_lt h1 CInv.init).2 e he
    omega
  have hB : ∀ b v, CEv.ret i b v ∉ B := by
    intro b v hb
    obtain ⟨B₁, B₂, rfl⟩ := List.append_of_mem hb
    rw [List.append_assoc, List.cons_append] at h3
    obtain ⟨k, hk0, h7⟩ := crun_split h3
    obtain ⟨_, _, _, _, hd, hl', h8⟩ := crun_ret (crun_facts hk0 hm').2 h7
    exact crun_dead h8 hd hl' (.ret i a w') (by simp) rfl
  refine ⟨hAid, hB, hC, hok, ⟨v1, crun_path h3 hact hlt hB⟩, ?_, ?_, ?_⟩
  · have hlast : Facts w (B.map CEv.obs) w' := by
      rw [hw] at fB
      exact ⟨fB.pre, fB.step, fun x hx => (fB.post x hx).trans hxr, fB.chain, fB.total.trans hxr⟩
    exact hlast.sub (stmtsOf_sublist i B)
  · have := (crun_facts h6 hn').1.total
    rw [hw'] at this
    exact this
  · exact Nat.lt_of_lt_of_le hlt' (crun_id_lt h6 hn').1

end Verif
