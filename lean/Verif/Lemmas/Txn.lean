import Verif.Lemmas.Range
/-!
# Transactions
-/

namespace Verif

/-- The new state of a key after a write. -/
def newState (key : Bytes) (rev : Int) (wr : Option (Bytes × Int)) (cur : Option KV) : Option KV :=
  (⟨rev, key, wr⟩ : Commit).applyTo cur

theorem effect_of_commit {w w' : World} (i' : Inv w') {key : Bytes}
    {wr : Option (Bytes × Int)} {rev : Int} (hr : rev = w.hist.top + 1)
    (h : w'.hist = w.hist ++ [⟨rev, key, wr⟩]) :
    Effect w w' key rev (newState key rev wr (w.hist.now key)) := by
  refine ⟨by omega, ?_, ?_, ?_, ?_⟩
  · rw [h, top_snoc]
  · rw [h, now_snoc]; simp [newState]
  · intro k hk; rw [h, now_snoc]; rw [if_neg (fun e => hk e.symm)]
  · intro r hr k
    rw [h]
    exact at_ext (by rw [← h]; exact i'.wf) hr k

theorem CommitsOnce.oneWrite {w w' : World} {t : List Obs} {G : World → Prop} {rev : Int} {key : Bytes}
    {wr : Option (Bytes × Int)} (f : Facts w t w') (h : CommitsOnce t G rev key wr)
    {before : Option KV → Prop} (hb : ∀ w, G w → before (w.hist.now key)) :
    OneWrite t key rev before (newState key rev wr) := by
  obtain ⟨a, ob, b, e, h1, h2, h3, h4⟩ := h
  have hm : ob ∈ t := by rw [e]; simp
  exact ⟨a, ob, b, e, h1, hb _ h2, effect_of_commit (f.step ob hm).inv h3 h4⟩

theorem OneWrite.append {t u : List Obs} {key : Bytes} {rev : Int} {before : Option KV → Prop}
    {new : Option KV → Option KV} (h : OneWrite t key rev before new) (hu : ChangesNothing u) :
    OneWrite (t ++ u) key rev before new := by
  obtain ⟨a, ob, b, e, h1, h2⟩ := h
  refine ⟨a, ob, b ++ u, by rw [e]; simp, ?_, h2⟩
  intro x hx
  simp only [List.mem_append] at hx
  rcases hx with hx | hx | hx
  · exact h1 x (by simp [hx])
  · exact h1 x (by simp [hx])
  · exact hu x hx

theorem ChangesNothing.append {t u : List Obs} (h₁ : ChangesNothing t) (h₂ : ChangesNothing u) :
    ChangesNothing (t ++ u) := by
  intro x hx
  rcases List.mem_append.1 hx with hx | hx
  · exact h₁ x hx
  · exact h₂ x hx

/-- What is known about a compare-and-write call (`G` guard, `wr` write). -/
structure CasOutcome (t : List Obs) (key : Bytes) (r : Int) (wr : Option (Bytes × Int)) (v1 : Bool)
    (resp : Except ApiErr TxnResp) : Prop where
  success : ∀ x, resp = .ok x → x.succeeded = true →
    OneWrite t key x.header (fun cur => ∃ old, cur = some old ∧ old.modRev = r) (newState key x.header wr)
  failure : ∀ x, resp = .ok x → x.succeeded = false → (NoLost t → ChangesNothing t) ∧
    (∃ ob ∈ t, ∀ old, ob.pre.hist.now key = some old → old.modRev ≠ r) ∧ x.header = 0 ∧
    ∃ t₁ t₂ hdr kvs, t = t₁ ++ t₂ ∧ Path (Backend.list v1 key [] 1 0) t₂ (.ok (hdr, kvs)) ∧
      (∃ ob ∈ t₁, ∀ old, ob.pre.hist.now key = some old → old.modRev ≠ r) ∧
      x.responses = [.range { header := hdr, kvs := kvs }]
  error : ∀ e, resp = .error e → NoLost t → ChangesNothing t
  once : ChangesNothing t ∨ ∃ rev, OneWrite t key rev (fun cur => ∃ old, cur = some old ∧ old.modRev = r)
    (newState key rev wr)

/-- Update and delete share their shape. -/
theorem cas_outcome {st : DB → DB × ExecResult} {key : Bytes} {r : Int} {wr : Option (Bytes × Int)}
    (c : CasStmt st (AtRev key r) key wr) {w w' : World} {t : List Obs} {v1 : Bool}
    {mk : Int → RespOp} {resp : Except ApiErr TxnResp} (f : Facts w t w')
    (h : Path (((execute st).andThen fun r => .ret (.ok (writeResult r))).andThen fun (rev', succeeded) =>
      if succeeded then .ret (.ok { header := rev', succeeded := true, responses := [mk rev'] })
      else Limited.elseRange v1 key rev') t resp) :
    CasOutcome t key r wr v1 resp ∧
    ∀ x, resp = .ok x → x.succeeded = true → x.responses = [mk x.header] := by
  have hg : ∀ w, AtRev key r w → ∃ old, w.hist.now key = some old ∧ old.modRev = r := fun w h => h
  have hng : ∀ ob : Obs, ¬ AtRev key r ob.pre →
      ∀ old, ob.pre.hist.now key = some old → old.modRev ≠ r :=
    fun ob hn old h1 h2 => hn ⟨old, h1, h2⟩
  rcases path_andThen h with ⟨t₁, t₂, ⟨rev', ok⟩, rfl, h1, h2⟩ | ⟨e, he, h1⟩
  · obtain ⟨a1, a2, a3, a4, _⟩ := path_write c f.append_left h1
    have honce := a4 (once_atRev key r wr)
    cases ok with
    | true =>
      simp only [↓reduceIte] at h2
      obtain ⟨e1, e2⟩ := path_ret h2
      subst e1
      subst e2
      rw [List.append_nil] at *
      have hc := a1 rev' rfl (Or.inr (once_atRev key r wr))
      refine ⟨⟨?_, ?_, ?_, ?_⟩, ?_⟩
      · intro x hx hs
        cases hx
        exact hc.oneWrite f hg
      · intro x hx hs; cases hx; cases hs
      · intro e he; cases he
      · exact Or.inr ⟨rev', hc.oneWrite f hg⟩
      · intro x hx hs; cases hx; rfl
    | false =>
      simp only [Bool.false_eq_true, ↓reduceIte] at h2
      obtain ⟨hz, ⟨ob, hob, hn⟩, hch⟩ := a2 rev' rfl
      subst hz
      have hread : ChangesNothing t₂ := by
        rcases path_andThen h2 with ⟨t₃, t₄, ⟨hdr, kvs⟩, rfl, h3, h4⟩ | ⟨e, he, h3⟩
        · obtain ⟨e1, e2⟩ := path_ret h4
          subst e1
          rw [List.append_nil] at *
          exact (list_header f.append_right h3).2.2.1
        · rcases path_andThen h3 with ⟨t₅, t₆, ⟨cr, cur⟩, rfl, h5, h6⟩ | ⟨e', he', h5⟩
          · obtain ⟨_, _, _, hq, _⟩ := path_getCompactRevision_ok h5
            refine ChangesNothing.append (fun x hx => isQuery_nothing
              (f.append_right.inv (by simp [hx])) (hq x hx)) ?_
            have hgo : ∀ q, Path ((Driver.list v1 key [] 1 q).andThen fun rows =>
              .ret (.ok (cur, scanAll scanKeyValue rows))) t₆ (.error e) → ChangesNothing t₆ := by
              intro q hp
              rcases path_andThen hp with ⟨_, _, _, _, _, h8⟩ | ⟨e', he, h7⟩
              · obtain ⟨_, h9⟩ := path_ret h8; cases h9
              · exact fun x hx => isQuery_nothing (f.append_right.inv (by simp [hx]))
                  ((path_queryLoop h7).1 x hx)
            simp only at h6
            split at h6
            · exact hgo _ h6
            · split at h6
              · obtain ⟨e1, _⟩ := path_ret h6
                subst e1
                intro x hx; simp at hx
              · exact hgo _ h6
          · have hq : ∀ x ∈ t₂, x.isQuery := by
              rcases path_andThen h5 with ⟨t₇, t₈, p, rfl, h6, h7⟩ | ⟨e'', _, h6⟩
              · obtain ⟨y, hy, h8⟩ := path_map h7
                obtain ⟨e1, _⟩ := path_oneRow h8
                subst e1
                rw [List.append_nil]
                exact (path_queryLoop h6).1
              · exact (path_queryLoop h6).1
            exact fun x hx => isQuery_nothing (f.append_right.inv (by simp [hx])) (hq x hx)
      have hcn : NoLost (t₁ ++ t₂) → ChangesNothing (t₁ ++ t₂) := fun hnl =>
        (hch fun x hx => hnl x (by simp [hx])).append hread
      refine ⟨⟨?_, ?_, fun _ _ => hcn, ?_⟩, ?_⟩
      · intro x hx hs
        obtain ⟨t₃, t₄, ⟨hdr, kvs⟩, e3, h3, h4⟩ := path_andThen_ok (hx ▸ h2)
        obtain ⟨_, e2⟩ := path_ret h4
        cases e2; cases hs
      · intro x hx hs
        obtain ⟨t₃, t₄, ⟨hdr, kvs⟩, e3, h3, h4⟩ := path_andThen_ok (hx ▸ h2)
        obtain ⟨e1, e2⟩ := path_ret h4
        subst e1
        cases e2
        rw [List.append_nil] at e3
        subst e3
        exact ⟨hcn, ⟨ob, by simp [hob], hng ob hn⟩, rfl, t₁, t₂, hdr, kvs, rfl, h3, ⟨ob, hob, hng ob hn⟩, rfl⟩
      · rcases honce with hc | ⟨rev, hc⟩
        · exact Or.inl (hc.append hread)
        · exact Or.inr ⟨rev, (hc.oneWrite f.append_left hg).append hread⟩
      · intro x hx hs
        obtain ⟨t₃, t₄, ⟨hdr, kvs⟩, e3, h3, h4⟩ := path_andThen_ok (hx ▸ h2)
        obtain ⟨_, e2⟩ := path_ret h4
        cases e2; cases hs
  · obtain ⟨a1, a2, a3, a4, _⟩ := path_write c f h1
    have honce := a4 (once_atRev key r wr)
    refine ⟨⟨?_, ?_, ?_, ?_⟩, ?_⟩
    · intro x hx; rw [he] at hx; cases hx
    · intro x hx; rw [he] at hx; cases hx
    · intro e' _ hnl; exact (a3 e rfl).2 hnl
    · rcases honce with hc | ⟨rev, hc⟩
      · exact Or.inl hc
      · exact Or.inr ⟨rev, hc.oneWrite f hg⟩
    · intro x hx; rw [he] at hx; cases hx

theorem update_outcome {key : Bytes} (hk : key ≠ compactRevKey) {rev : Int} (hr : rev ≠ 0) {value : Bytes}
    {lease : Int} {w w' : World} {t : List Obs} {v1 : Bool} {resp : Except ApiErr TxnResp}
    (f : Facts w t w') (h : Path (Limited.update v1 rev key value lease) t resp) :
    CasOutcome t key rev (some (value, lease)) v1 resp ∧
    ∀ x, resp = .ok x → x.succeeded = true → x.responses = [.put x.header] := by
  unfold Limited.update at h
  rw [if_neg hr] at h
  exact cas_outcome (cas_update hk value lease rev) f h

theorem delete_outcome {key : Bytes} (hk : key ≠ compactRevKey) {rev : Int}
    {w w' : World} {t : List Obs} {v1 : Bool} {resp : Except ApiErr TxnResp}
    (f : Facts w t w') (h : Path (Limited.delete v1 key rev) t resp) :
    CasOutcome t key rev none v1 resp ∧
    ∀ x, resp = .ok x → x.succeeded = true → x.responses = [.deleteRange x.header] := by
  unfold Limited.delete at h
  exact cas_outcome (mk := fun h => .deleteRange h) (cas_delete hk rev) f h

/-- Create. -/
theorem create_outcome {put : PutReq} {w w' : World} {t : List Obs} {resp : Except ApiErr TxnResp}
    (f : Facts w t w') (h : Path (Limited.create put) t resp) :
    (∀ x, resp = .ok x → x.succeeded = true → NoLost t →
      OneWrite t put.key x.header (fun cur => cur = none)
        (newState put.key x.header (some (put.value, put.lease))) ∧ x.responses = [.put x.header]) ∧
    (∀ x, resp = .ok x → x.succeeded = false → (NoLost t → ChangesNothing t) ∧
      (∃ ob ∈ t, ob.pre.hist.now put.key ≠ none) ∧ x.header = 0 ∧ x.responses = []) ∧
    (∀ e, resp = .error e → NoLost t → ChangesNothing t) := by
  unfold Limited.create at h
  have hun : Path (.ret (.error .unsupported)) t resp →
    (∀ x, resp = .ok x → x.succeeded = true → NoLost t →
      OneWrite t put.key x.header (fun cur => cur = none)
        (newState put.key x.header (some (put.value, put.lease))) ∧ x.responses = [.put x.header]) ∧
    (∀ x, resp = .ok x → x.succeeded = false → (NoLost t → ChangesNothing t) ∧
      (∃ ob ∈ t, ob.pre.hist.now put.key ≠ none) ∧ x.header = 0 ∧ x.responses = []) ∧
    (∀ e, resp = .error e → NoLost t → ChangesNothing t) := by
    intro h
    obtain ⟨e1, e2⟩ := path_ret h
    subst e1
    subst e2
    exact ⟨fun x hx => (by cases hx), fun x hx => (by cases hx),
      fun e _ _ x hx => (by simp at hx)⟩
  split at h
  · exact hun h
  split at h
  · exact hun h
  split at h
  · exact hun h
  rcases path_andThen h with ⟨t₁, t₂, ⟨rev', ok⟩, rfl, h1, h2⟩ | ⟨e, he, h1⟩
  · obtain ⟨a1, a2, a3, a4, _⟩ := path_write (cas_create put.key put.value put.lease) f.append_left h1
    cases ok with
    | true =>
      simp only [↓reduceIte] at h2
      obtain ⟨e1, e2⟩ := path_ret h2
      subst e1
      subst e2
      rw [List.append_nil] at *
      refine ⟨?_, ?_, ?_⟩
      · intro x hx hs hnl
        cases hx
        exact ⟨(a1 rev' rfl (Or.inl hnl)).oneWrite f fun w h => h, rfl⟩
      · intro x hx hs; cases hx; cases hs
      · intro e he; cases he
    | false =>
      simp only [Bool.false_eq_true, ↓reduceIte] at h2
      obtain ⟨e1, e2⟩ := path_ret h2
      subst e1
      subst e2
      rw [List.append_nil] at *
      obtain ⟨hz, ⟨ob, hob, hn⟩, hch⟩ := a2 rev' rfl
      subst hz
      refine ⟨?_, ?_, ?_⟩
      · intro x hx hs; cases hx; cases hs
      · intro x hx hs
        cases hx
        exact ⟨hch, ⟨ob, hob, hn⟩, rfl, rfl⟩
      · intro e he; cases he
  · obtain ⟨a1, a2, a3, a4, _⟩ := path_write (cas_create put.key put.value put.lease) f h1
    refine ⟨?_, ?_, ?_⟩
    · intro x hx; rw [he] at hx; cases hx
    · intro x hx; rw [he] at hx; cases hx
    · intro e' _ hnl; exact (a3 e rfl).2 hnl

theorem OneWrite.imp {t : List Obs} {key : Bytes} {rev : Int} {before before' : Option KV → Prop}
    {new new' : Option KV → Option KV} (h : OneWrite t key rev before new)
    (hb : ∀ x, before x → before' x) (hn : ∀ x, before x → new x = new' x) :
    OneWrite t key rev before' new' := by
  obtain ⟨a, ob, b, e, h1, h2, h3⟩ := h
  exact ⟨a, ob, b, e, h1, hb _ h2, by rw [← hn _ h2]; exact h3⟩

/-- Every successful write transaction, of whatever shape, made a commit with the revision it returns. -/
theorem txn_commit {w w' : World} {t : List Obs} {v1 : Bool} {req : TxnReq} {resp : TxnResp}
    (f : Facts w t w') (hk : req.writtenKey ≠ some compactRevKey)
    (h : Path (Limited.txn v1 req) t (.ok resp)) (hs : resp.succeeded = true) :
    ∃ ob ∈ t, ∃ key wr, req.writtenKey = some key ∧ resp.header = ob.pre.hist.top + 1 ∧
      ob.post.hist = ob.pre.hist ++ [⟨resp.header, key, wr⟩] := by
  have fin : ∀ {st : DB → DB × ExecResult} {G : World → Prop} {key : Bytes} {wr : Option (Bytes × Int)}
      {p : Int → Prog (Except ApiErr TxnResp)} {mk : Int → RespOp}, CasStmt st G key wr →
      req.writtenKey = some key →
      (∀ rev t, Path (p rev) t (.ok resp) → resp.succeeded = false) →
      Path (((execute st).andThen fun r => .ret (.ok (writeResult r))).andThen fun (rev', succeeded) =>
        if succeeded then .ret (.ok { header := rev', succeeded := true, responses := [mk rev'] })
        else p rev') t (.ok resp) →
      ∃ ob ∈ t, ∃ key wr, req.writtenKey = some key ∧ resp.header = ob.pre.hist.top + 1 ∧
        ob.post.hist = ob.pre.hist ++ [⟨resp.header, key, wr⟩] := by
    intro st G key wr p mk c hkey hp h
    obtain ⟨t₁, t₂, ⟨rev', ok⟩, rfl, h1, h2⟩ := path_andThen_ok h
    cases ok with
    | true =>
      simp only [↓reduceIte] at h2
      obtain ⟨e1, e2⟩ := path_ret h2
      subst e1
      cases e2
      obtain ⟨ob, hob, _, e3, e4⟩ := path_write_rev c f.append_left h1
      exact ⟨ob, by simp [hob], key, wr, hkey, e3, e4⟩
    | false =>
      simp only [Bool.false_eq_true, ↓reduceIte] at h2
      have := hp _ _ h2
      rw [hs] at this; cases this
  have helse : ∀ (key : Bytes) (rev : Int) t, Path (Limited.elseRange v1 key rev) t (.ok resp) →
      resp.succeeded = false := by
    intro key rev t h
    obtain ⟨_, _, ⟨_, _⟩, _, _, h4⟩ := path_andThen_ok h
    obtain ⟨_, e2⟩ := path_ret h4
    cases e2; rfl
  unfold Limited.txn at h
  unfold TxnReq.writtenKey at hk fin ⊢
  cases hc : isCreate req with
  | some put =>
    simp only [hc] at h hk fin ⊢
    unfold Limited.create at h
    split at h
    · obtain ⟨_, h'⟩ := path_ret h; cases h'
    split at h
    · obtain ⟨_, h'⟩ := path_ret h; cases h'
    split at h
    · obtain ⟨_, h'⟩ := path_ret h; cases h'
    refine fin (p := fun rev => .ret (.ok { header := rev, succeeded := false })) (mk := RespOp.put)
      (cas_create put.key put.value put.lease) rfl ?_ h
    intro rev t h
    obtain ⟨_, e2⟩ := path_ret h
    cases e2; rfl
  | none =>
    simp only [hc] at h hk fin ⊢
    cases hd : isDelete req with
    | some x =>
      obtain ⟨rev, key⟩ := x
      simp only [hd] at h hk fin ⊢
      exact fin (p := Limited.elseRange v1 key) (mk := fun h => .deleteRange h)
        (cas_delete (fun e => hk (by rw [e])) rev) rfl (helse key) h
    | none =>
      simp only [hd] at h hk fin ⊢
      cases hu : isUpdate req with
      | some x =>
        obtain ⟨rev, key, value, lease⟩ := x
        simp only [hu] at h hk fin ⊢
        have hk' : key ≠ compactRevKey := fun e => hk (by rw [e]; rfl)
        unfold Limited.update at h
        by_cases hr : rev = 0
        · rw [if_pos hr] at h
          exact fin (p := Limited.elseRange v1 key) (mk := RespOp.put)
            (cas_create key value lease) rfl (helse key) h
        · rw [if_neg hr] at h
          exact fin (p := Limited.elseRange v1 key) (mk := RespOp.put)
            (cas_update hk' value lease rev) rfl (helse key) h
      | none =>
        simp only [hu] at h
        split at h
        · obtain ⟨_, e2⟩ := path_ret h
          cases e2; cases hs
        · obtain ⟨_, e2⟩ := path_ret h
          cases e2

end Verif
