import Verif.Lemmas.Read
/-!
# Writes
-/

namespace Verif

/-- A conditional insert: guard `G`, key and write. -/
structure CasStmt (st : DB → DB × ExecResult) (G : World → Prop) (key : Bytes)
    (wr : Option (Bytes × Int)) : Prop where
  hit : ∀ w, Inv w → G w → ∃ r, GoodRow w r ∧ commitOf (w.newRow r) = ⟨w.hist.top + 1, key, wr⟩ ∧
    st w.db = (w.db.insert r, ⟨1, w.hist.top + 1⟩)
  miss : ∀ w, Inv w → ¬ G w → st w.db = (w.db, ⟨0, w.db.seq⟩)

/-- The guard of create. -/
def Absent (key : Bytes) (w : World) : Prop := w.hist.now key = none
/-- The guard of update and delete. -/
def AtRev (key : Bytes) (rev : Int) (w : World) : Prop :=
  ∃ kv, w.hist.now key = some kv ∧ kv.modRev = rev

theorem cas_create (key value : Bytes) (lease : Int) :
    CasStmt (fun db => createSQL db key lease value) (Absent key) key (some (value, lease)) where
  hit w i h := by
    rcases i.createSQL_spec key lease value with ⟨_, r, g, _, e, e'⟩ | ⟨h', _⟩
    · exact ⟨r, g, e, e'⟩
    · exact absurd h h'
  miss w i h := by
    rcases i.createSQL_spec key lease value with ⟨h', _⟩ | ⟨_, e⟩
    · exact absurd h' h
    · exact e

theorem cas_update {key : Bytes} (hk : key ≠ compactRevKey) (value : Bytes) (lease rev : Int) :
    CasStmt (fun db => updateSQL db key lease value rev) (AtRev key rev) key (some (value, lease)) where
  hit w i h := by
    rcases i.updateSQL_spec hk lease value rev with ⟨_, _, _, r, g, e, e'⟩ | ⟨h', _⟩
    · exact ⟨r, g, e, e'⟩
    · obtain ⟨kv, h1, h2⟩ := h; exact absurd h2 (h' kv h1)
  miss w i h := by
    rcases i.updateSQL_spec hk lease value rev with ⟨kv, h1, h2, _⟩ | ⟨_, e⟩
    · exact absurd ⟨kv, h1, h2⟩ h
    · exact e

theorem cas_delete {key : Bytes} (hk : key ≠ compactRevKey) (rev : Int) :
    CasStmt (fun db => deleteSQL db key rev) (AtRev key rev) key none where
  hit w i h := by
    rcases i.deleteSQL_spec hk rev with ⟨_, _, _, r, g, e, e'⟩ | ⟨h', _⟩
    · exact ⟨r, g, e, e'⟩
    · obtain ⟨kv, h1, h2⟩ := h; exact absurd h2 (h' kv h1)
  miss w i h := by
    rcases i.deleteSQL_spec hk rev with ⟨kv, h1, h2, _⟩ | ⟨_, e⟩
    · exact absurd ⟨kv, h1, h2⟩ h
    · exact e

/-- Once committed, the guard never holds again. -/
def OnceGuard (G : World → Prop) (key : Bytes) (wr : Option (Bytes × Int)) : Prop :=
  ∀ w p w', Inv w → G w → p.hist = w.hist ++ [⟨w.hist.top + 1, key, wr⟩] → Ext p w' → ¬ G w'

/-- A later commit on a key hides the older version for ever. -/
theorem now_newer {h : History} (wf : h.Wf) {c : Commit} (hc : c ∈ h) {kv : KV}
    (e : h.now c.key = some kv) : c.rev ≤ kv.modRev := by
  rw [← at_ge_top wf (Int.le_refl _)] at e
  exact (at_some_inv wf e).2.2.2.2 c hc rfl (le_top wf hc)

theorem now_le_top {h : History} (wf : h.Wf) {k : Bytes} {kv : KV} (e : h.now k = some kv) :
    kv.modRev ≤ h.top := by
  rw [← at_ge_top wf (Int.le_refl _)] at e
  exact (at_some_inv wf e).2.1

theorem once_atRev (key : Bytes) (rev : Int) (wr : Option (Bytes × Int)) :
    OnceGuard (AtRev key rev) key wr := by
  rintro w p w' i ⟨kv, h1, h2⟩ hp hx ⟨kv', h3, h4⟩
  have hc : (⟨w.hist.top + 1, key, wr⟩ : Commit) ∈ w'.hist := hx.mem (by rw [hp]; simp)
  have a := now_newer hx.inv.wf hc h3
  have b := now_le_top i.wf h1
  simp only at a
  omega

theorem CasStmt.nothing {st : DB → DB × ExecResult} {G : World → Prop} {key : Bytes}
    {wr : Option (Bytes × Int)} (c : CasStmt st G key wr) {ob : Obs} (i : Inv ob.pre)
    (h : ob.isExec st) (hn : ob.out.applied = false ∨ ¬ G ob.pre) : ob.post = ob.pre := by
  rw [Obs.isExec] at h
  rw [h]
  rcases hn with hn | hn
  · exact not_applied_exec hn
  · exact i.exec_of_eq (by simp only [c.miss _ i hn]) _

theorem CasStmt.commits {st : DB → DB × ExecResult} {G : World → Prop} {key : Bytes}
    {wr : Option (Bytes × Int)} (c : CasStmt st G key wr) {ob : Obs} (i : Inv ob.pre)
    (h : ob.isExec st) (ha : ob.out.applied = true) (hg : G ob.pre) :
    ob.post.hist = ob.pre.hist ++ [⟨ob.pre.hist.top + 1, key, wr⟩] := by
  rw [Obs.isExec] at h
  obtain ⟨r, g, e, e'⟩ := c.hit _ i hg
  rw [h, i.exec_insert (r := r) (by simp only [e']) ha]
  simp only [e]

theorem retried_not_ok {ob : Obs} (h : ob.retried) (hl : ∀ e, ob.out ≠ .lost e) :
    ob.out.applied = false := by
  rcases h with h | h
  · rw [h]; rfl
  · exact absurd h (hl _)

/-- Attempts of a conditional insert whose guard never holds again once it was applied (and queries in
between): at most one of them changes anything. -/
theorem once_of_execs {st : DB → DB × ExecResult} {G : World → Prop} {key : Bytes}
    {wr : Option (Bytes × Int)} (c : CasStmt st G key wr) (ho : OnceGuard G key wr) {w w' : World} {t : List Obs}
    (f : Facts w t w') (hex : ∀ ob ∈ t, ob.isExec st ∨ ob.post = ob.pre) : AtMostOnce t G key wr := by
  have hno : ∀ {x : Obs}, x ∈ t → (x.out.applied = false ∨ ¬ G x.pre) → x.post = x.pre := by
    intro x hx h
    rcases hex x hx with h' | h'
    · exact c.nothing (f.inv hx) h' h
    · exact h'
  have key' : ∀ l : List Obs, (∀ x ∈ l, x ∈ t) → (l.Pairwise fun a b => Ext a.post b.pre) →
      AtMostOnce l G key wr := by
    intro l
    induction l with
    | nil => intro _ _; left; intro x hx; simp at hx
    | cons x xs ih =>
      intro hm hp
      rw [List.pairwise_cons] at hp
      have hx := hm x (by simp)
      have rest : x.post = x.pre → AtMostOnce (x :: xs) G key wr := by
        intro hxn
        rcases ih (fun y hy => hm y (by simp [hy])) hp.2 with h | ⟨rev, a, ob, b, e, h1, h2⟩
        · left
          intro y hy
          rcases List.mem_cons.1 hy with rfl | hy
          · exact hxn
          · exact h y hy
        · right
          refine ⟨rev, x :: a, ob, b, by rw [e]; rfl, ?_, h2⟩
          intro y hy
          rcases List.mem_cons.1 hy with rfl | hy
          · exact hxn
          · exact h1 y hy
      rcases hex x hx with hxe | hxn
      · by_cases hc : x.out.applied = true ∧ G x.pre
        · right
          have hcm := c.commits (f.inv hx) hxe hc.1 hc.2
          refine ⟨_, [], x, xs, rfl, ?_, hc.2, rfl, hcm⟩
          intro y hy
          rw [List.nil_append] at hy
          exact hno (hm y (by simp [hy]))
            (Or.inr (ho x.pre x.post y.pre (f.inv hx) hc.2 hcm (hp.1 y hy)))
        · apply rest
          apply hno hx
          cases ha : x.out.applied with
          | false => exact Or.inl rfl
          | true => exact Or.inr fun hg => hc ⟨ha, hg⟩
      · exact rest hxn
  exact key' t (fun _ h => h) f.chain

/-- Everything about executing a conditional insert with retries. -/
theorem write_spec {st : DB → DB × ExecResult} {G : World → Prop} {key : Bytes}
    {wr : Option (Bytes × Int)} (c : CasStmt st G key wr) {w w' : World} {t : List Obs} {n : Nat}
    {r : Except ApiErr ExecResult} (f : Facts w t w') (h : ExecAny st n t r) :
    (∀ res, r = .ok res → res.rowsAffected ≠ 0 → NoLost t ∨ OnceGuard G key wr →
      CommitsOnce t G res.lastInsertId key wr) ∧
    (∀ res, r = .ok res → res.rowsAffected = 0 → (∃ ob ∈ t, ¬ G ob.pre) ∧
      (NoLost t → ChangesNothing t)) ∧
    (∀ e, r = .error e → NoLost t → ChangesNothing t) ∧
    (OnceGuard G key wr → AtMostOnce t G key wr) := by
  obtain ⟨hex, hlen, hr⟩ := h
  have hprev : ∀ u, (∀ x ∈ u, x ∈ t) → (∀ x ∈ u, x.retried) → NoLost t → ChangesNothing u := by
    intro u hu hret hnl x hx
    exact c.nothing (f.inv (hu x hx)) (hex x (hu x hx))
      (Or.inl (retried_not_ok (hret x hx) (hnl x (hu x hx))))
  have honce : OnceGuard G key wr → AtMostOnce t G key wr := fun ho =>
    once_of_execs c ho f fun ob hob => Or.inl (hex ob hob)
  refine ⟨?_, ?_, ?_, honce⟩
  · intro res hres hne hcond
    rcases hr with ⟨u, ob, rfl, hret, hout, e⟩ | ⟨u, ob, e, _, _, _, _, he⟩ | ⟨_, _, he⟩
    · rw [hres] at e
      have hmem : ob ∈ u ++ [ob] := by simp
      have i := f.inv hmem
      have hg : G ob.pre := by
        apply Classical.byContradiction
        intro hg
        rw [c.miss _ i hg] at e
        simp only [Except.ok.injEq] at e
        rw [e] at hne
        exact hne rfl
      have happ : ob.out.applied = true := by
        rcases hout with h | ⟨m, h⟩ <;> rw [h] <;> rfl
      have hid : res.lastInsertId = ob.pre.hist.top + 1 := by
        obtain ⟨r', _, _, e'⟩ := c.hit _ i hg
        rw [e'] at e
        simp only [Except.ok.injEq] at e
        rw [e]
      refine ⟨u, ob, [], rfl, ?_, hg, hid, by rw [hid]; exact c.commits i (hex ob hmem) happ hg⟩
      rw [List.append_nil]
      rcases hcond with hnl | ho
      · exact hprev u (fun x hx => by simp [hx]) hret hnl
      · intro x hx
        have hx' : x ∈ u ++ [ob] := by simp [hx]
        apply c.nothing (f.inv hx') (hex x hx')
        cases ha : x.out.applied with
        | false => exact Or.inl rfl
        | true =>
          right
          intro hgx
          have hcm := c.commits (f.inv hx') (hex x hx') ha hgx
          exact ho _ _ _ (f.inv hx') hgx hcm ((List.pairwise_append.1 f.chain).2.2 x hx ob (by simp)) hg
    · rw [hres] at he; cases he
    · rw [hres] at he; cases he
  · intro res hres hz
    rcases hr with ⟨u, ob, rfl, hret, hout, e⟩ | ⟨u, ob, e, _, _, _, _, he⟩ | ⟨_, _, he⟩
    · rw [hres] at e
      have hmem : ob ∈ u ++ [ob] := by simp
      have i := f.inv hmem
      have hg : ¬ G ob.pre := by
        intro hg
        obtain ⟨r', _, _, e'⟩ := c.hit _ i hg
        rw [e'] at e
        simp only [Except.ok.injEq] at e
        rw [e] at hz
        simp at hz
      refine ⟨⟨ob, hmem, hg⟩, ?_⟩
      intro hnl x hx
      rcases List.mem_append.1 hx with hx | hx
      · exact hprev u (fun x hx => by simp [hx]) hret hnl x hx
      · rw [List.mem_singleton] at hx
        subst hx
        exact c.nothing i (hex x hmem) (Or.inr hg)
    · rw [hres] at he; cases he
    · rw [hres] at he; cases he
  · intro e he hnl
    rcases hr with ⟨u, ob, _, _, _, e'⟩ | ⟨u, ob, e', rfl, hret, hout, _, _⟩ | ⟨_, hret, _⟩
    · rw [he] at e'; cases e'
    · intro x hx
      rcases List.mem_append.1 hx with hx | hx
      · exact hprev u (fun x hx => by simp [hx]) hret hnl x hx
      · rw [List.mem_singleton] at hx
        subst hx
        have hmem : x ∈ u ++ [x] := by simp
        apply c.nothing (f.inv hmem) (hex x hmem)
        left
        rcases hout with h | h
        · rw [h]; rfl
        · exact absurd h (hnl x hmem _)
    · exact hprev t (fun _ h => h) hret hnl

theorem writeResult_true {r : ExecResult} {rev : Int} (h : writeResult r = (rev, true)) :
    r.rowsAffected ≠ 0 ∧ r.lastInsertId = rev := by
  unfold writeResult at h
  split at h
  · simp at h
  · rename_i hz; exact ⟨hz, by simpa using h⟩

theorem writeResult_false {r : ExecResult} {rev : Int} (h : writeResult r = (rev, false)) :
    r.rowsAffected = 0 ∧ rev = 0 := by
  unfold writeResult at h
  split at h
  · rename_i hz; exact ⟨hz, by simpa using h.symm⟩
  · simp at h

/-- The same for the driver's write methods. -/
theorem path_write {st : DB → DB × ExecResult} {G : World → Prop} {key : Bytes}
    {wr : Option (Bytes × Int)} (c : CasStmt st G key wr) {w w' : World} {t : List Obs}
    {r : Except ApiErr (Int × Bool)} (f : Facts w t w')
    (h : Path ((execute st).andThen fun r => .ret (.ok (writeResult r))) t r) :
    (∀ rev, r = .ok (rev, true) → NoLost t ∨ OnceGuard G key wr → CommitsOnce t G rev key wr) ∧
    (∀ rev, r = .ok (rev, false) → rev = 0 ∧ (∃ ob ∈ t, ¬ G ob.pre) ∧ (NoLost t → ChangesNothing t)) ∧
    (∀ e, r = .error e → (∃ d, e = .db d) ∧ (NoLost t → ChangesNothing t)) ∧
    (OnceGuard G key wr → AtMostOnce t G key wr) ∧ t.length ≤ maxRetries := by
  rcases path_andThen h with ⟨t₁, t₂, res, rfl, h1, h2⟩ | ⟨e, rfl, h1⟩
  · have hx := path_executeLoop h1
    obtain ⟨rfl, rfl⟩ := path_ret h2
    rw [List.append_nil] at *
    obtain ⟨a, b, _, d⟩ := write_spec c f hx
    refine ⟨?_, ?_, ?_, d, hx.2.1⟩
    · intro rev hr hc
      simp only [Except.ok.injEq] at hr
      obtain ⟨h3, h4⟩ := writeResult_true hr
      rw [← h4]; exact a res rfl h3 hc
    · intro rev hr
      simp only [Except.ok.injEq] at hr
      obtain ⟨h3, h4⟩ := writeResult_false hr
      exact ⟨h4, b res rfl h3⟩
    · intro e he; cases he
  · have hx := path_executeLoop h1
    obtain ⟨a, b, c, d⟩ := write_spec c f hx
    refine ⟨fun rev hr => (by cases hr), fun rev hr => (by cases hr), ?_, d, hx.2.1⟩
    intro e' he
    refine ⟨?_, c e rfl⟩
    simp only [Except.error.injEq] at he
    subst he
    rcases hx.2.2 with ⟨_, _, _, _, _, h⟩ | ⟨_, _, e', _, _, _, _, h⟩ | ⟨_, _, h⟩
    · cases h
    · exact ⟨_, Except.error.inj h⟩
    · exact ⟨_, Except.error.inj h⟩

/-- Whatever was lost before, a successful answer names a commit made by this call. -/
theorem path_write_rev {st : DB → DB × ExecResult} {G : World → Prop} {key : Bytes}
    {wr : Option (Bytes × Int)} (c : CasStmt st G key wr) {w w' : World} {t : List Obs} {rev : Int}
    (f : Facts w t w')
    (h : Path ((execute st).andThen fun r => .ret (.ok (writeResult r))) t (.ok (rev, true))) :
    ∃ ob ∈ t, G ob.pre ∧ rev = ob.pre.hist.top + 1 ∧
      ob.post.hist = ob.pre.hist ++ [⟨rev, key, wr⟩] := by
  obtain ⟨t₁, t₂, res, rfl, h1, h2⟩ := path_andThen_ok h
  obtain ⟨e1, e2⟩ := path_ret h2
  subst e1
  simp only [Except.ok.injEq] at e2
  obtain ⟨h3, h4⟩ := writeResult_true e2.symm
  obtain ⟨hex, _, hr⟩ := path_executeLoop h1
  rw [List.append_nil] at *
  rcases hr with ⟨u, ob, rfl, hret, hout, e⟩ | ⟨_, _, _, _, _, _, _, he⟩ | ⟨_, _, he⟩
  · have hmem : ob ∈ u ++ [ob] := by simp
    have i := f.inv hmem
    simp only [Except.ok.injEq] at e
    have hg : G ob.pre := by
      apply Classical.byContradiction
      intro hg
      rw [c.miss _ i hg] at e
      rw [e] at h3
      exact h3 rfl
    have happ : ob.out.applied = true := by
      rcases hout with h | ⟨m, h⟩ <;> rw [h] <;> rfl
    have hid : rev = ob.pre.hist.top + 1 := by
      obtain ⟨r', _, _, e'⟩ := c.hit _ i hg
      rw [e'] at e
      rw [e] at h4
      exact h4.symm
    exact ⟨ob, hmem, hg, hid, by rw [hid]; exact c.commits i (hex ob hmem) happ hg⟩
  · cases he
  · cases he

end Verif
