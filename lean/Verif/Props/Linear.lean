import Verif.Lemmas.Conc
import Verif.Props.Txns
/-!
# Linearizability (C74)
-/

namespace Verif

theorem split_unique {α : Type} {P : α → Prop} {A A' X X' : List α} {x x' : α}
    (h : A ++ x :: X = A' ++ x' :: X') (hA : ∀ e ∈ A, ¬ P e) (hA' : ∀ e ∈ A', ¬ P e) (hx : P x) (hx' : P x') :
    A = A' ∧ x = x' ∧ X = X' := by
  induction A generalizing A' with
  | nil =>
    cases A' with
    | nil => simpa using h
    | cons e A' =>
      simp only [List.nil_append, List.cons_append, List.cons.injEq] at h
      exact absurd (h.1 ▸ hx) (hA' e (by simp))
  | cons e A ih =>
    cases A' with
    | nil =>
      simp only [List.nil_append, List.cons_append, List.cons.injEq] at h
      exact absurd (h.1.symm ▸ hx') (hA e (by simp))
    | cons e' A' =>
      simp only [List.cons_append, List.cons.injEq] at h
      obtain ⟨h1, h2, h3⟩ := ih h.2 (fun e he => hA e (by simp [he])) (fun e he => hA' e (by simp [he]))
      exact ⟨by rw [h.1, h1], h2, h3⟩

/-- A call is answered at most once. -/
theorem completed_unique {l : List CEv} {c : Conc} (r : CRun Conc.init l c) {i : Nat} {op op₂ : ClientOp}
    {t t₂ : List Obs} {w w' w₂ w₂' : World} {a a₂ : Except ApiErr ClientResp}
    (h : Completed l i op t w w' a) (h₂ : Completed l i op₂ t₂ w₂ w₂' a₂) :
    op = op₂ ∧ t = t₂ ∧ w = w₂ ∧ w' = w₂' ∧ a = a₂ := by
  obtain ⟨A, B, C, hl, rfl⟩ := h
  obtain ⟨A₂, B₂, C₂, hl₂, rfl⟩ := h₂
  obtain ⟨a1, a2, _, _⟩ := completed_parts r hl
  obtain ⟨b1, b2, _, _⟩ := completed_parts r hl₂
  have h : A ++ .call i op w :: (B ++ .ret i a w' :: C) = A₂ ++ .call i op₂ w₂ :: (B₂ ++ .ret i a₂ w₂' :: C₂) := by
    simpa using hl.symm.trans hl₂
  obtain ⟨rfl, h1, h2⟩ := split_unique (P := fun e => e.id = i) h a1 b1 rfl rfl
  cases h1
  obtain ⟨rfl, h3, _⟩ := split_unique (P := fun e => ∃ b v, e = CEv.ret i b v) h2
    (by rintro e he ⟨b, v, rfl⟩; exact a2 b v he) (by rintro e he ⟨b, v, rfl⟩; exact b2 b v he) ⟨_, _, rfl⟩ ⟨_, _, rfl⟩
  cases h3
  exact ⟨rfl, rfl, rfl, rfl, rfl⟩

/-- Did the answer announce a write? -/
def ClientResp.wrote : ClientResp → Bool
  | .read _ => false
  | .txn r => r.succeeded

/-- How a write transaction answers, for all three shapes. -/
theorem write_explained {op : ClientOp} {key : Bytes} {rev : Int} {wr : Option (Bytes × Int)}
    {st : DB → DB × ExecResult} {G : World → Prop} {mk : Int → RespOp} {p : Int → Prog (Except ApiErr TxnResp)}
    {w w' : World} {t : List Obs} {a : Except ApiErr TxnResp}
    (hop : op.asWrite = some (key, rev, wr)) (c : CasStmt st G key wr)
    (hG : ∀ w, Inv w → (Etcd.modRev w.hist key = rev ↔ G w))
    (hp : ∀ rev t r, Path (p rev) t (.ok r) → r.succeeded = false)
    (hq : ∀ rev a t, Path (p rev) t a → ∀ ob ∈ t, ob.isQuery) (f : Facts w t w')
    (h : Path (((execute st).andThen fun r => .ret (.ok (writeResult r))).andThen fun (rev', succeeded) =>
        if succeeded then .ret (.ok { header := rev', succeeded := true, responses := [mk rev'] })
        else p rev') t a) :
    (∀ r, a = .ok r → ∃ ob ∈ t, SeqStep ob.pre.hist op (.txn r)
      (if r.succeeded then ob.post.hist else ob.pre.hist)) ∧
    (NoLost t → (∀ r, a = .ok r → r.succeeded = true → CommitsOnce t G r.header key wr) ∧
      ((∀ r, a = .ok r → r.succeeded = false) → ChangesNothing t)) := by
  constructor
  · intro r ha
    subst ha
    obtain ⟨h1, h2⟩ := cas_answer c f (fun rev t => hp rev t r) hq h
    cases hs : r.succeeded with
    | true =>
      obtain ⟨ob, hob, hg, h3, h4⟩ := h1 hs
      refine ⟨ob, hob, ?_⟩
      simp only [↓reduceIte, h3]
      exact .success op key rev wr r hop ((hG _ (f.inv hob)).2 hg) hs (by rw [h4])
    | false =>
      obtain ⟨⟨ob, hob, hg⟩, _⟩ := h2 hs
      refine ⟨ob, hob, ?_⟩
      simp only [Bool.false_eq_true, ↓reduceIte]
      exact .failure op key rev wr r hop (fun he => hg ((hG _ (f.inv hob)).1 he)) hs
  · intro hnl
    rcases path_andThen h with ⟨t₁, t₂, ⟨rev', ok⟩, rfl, h1, h2⟩ | ⟨e, rfl, h1⟩
    · obtain ⟨a1, a2, _⟩ := path_write c f.append_left h1
      have hnl1 : NoLost t₁ := fun ob hob => hnl ob (by simp [hob])
      cases ok with
      | true =>
        simp only [↓reduceIte] at h2
        obtain ⟨e1, e2⟩ := path_ret h2
        subst e1
        subst e2
        refine ⟨?_, fun h => by cases h _ rfl⟩
        intro r hr _
        cases hr
        rw [List.append_nil]
        exact a1 rev' rfl (Or.inl hnl1)
      | false =>
        simp only [Bool.false_eq_true, ↓reduceIte] at h2
        refine ⟨?_, fun _ => ?_⟩
        · intro r hr hs
          subst hr
          rw [hp _ _ _ h2] at hs
          cases hs
        · refine ((a2 rev' rfl).2.2 hnl1).append ?_
          intro ob hob
          exact isQuery_nothing (f.inv (by simp [hob])) (hq _ _ _ h2 ob hob)
    · obtain ⟨_, _, a3, _⟩ := path_write c f h1
      exact ⟨nofun, fun _ => (a3 e rfl).2 hnl⟩

theorem write_own {G : World → Prop} {key : Bytes} {wr : Option (Bytes × Int)} {t : List Obs} {rev : Int}
    (h : CommitsOnce t G rev key wr) : ownCommits t = [⟨rev, key, wr⟩] := by
  obtain ⟨a, ob, b, rfl, hn, _, _, h3⟩ := h
  have hz : ∀ u, (∀ x ∈ u, x.post = x.pre) → ownCommits u = [] := by
    intro u hu
    unfold ownCommits
    rw [List.flatMap_eq_nil_iff]
    intro x hx
    rw [hu x hx]; simp
  have ha := hz a fun x hx => hn x (by simp [hx])
  have hb := hz b fun x hx => hn x (by simp [hx])
  unfold ownCommits at ha hb ⊢
  rw [List.flatMap_append, List.flatMap_cons, ha, hb, h3]
  simp

theorem nothing_own {t : List Obs} (h : ChangesNothing t) : ownCommits t = [] := by
  unfold ownCommits
  rw [List.flatMap_eq_nil_iff]
  intro x hx
  rw [h x hx]; simp

/-- What a write answer of an operation means and what the call did. -/
theorem op_write {op : ClientOp} {key : Bytes} {rev : Int} {wr : Option (Bytes × Int)} (ok : op.allowed)
    (hop : op.asWrite = some (key, rev, wr)) {v1 : Bool} {w w' : World} {t : List Obs}
    {a : Except ApiErr ClientResp} (f : Facts w t w') (h : Path (op.prog v1) t a) :
    (∀ resp, a = .ok resp → ∃ r, resp = .txn r ∧ ∃ ob ∈ t, SeqStep ob.pre.hist op resp
      (if r.succeeded then ob.post.hist else ob.pre.hist)) ∧
    (NoLost t → (∀ r, a = .ok (.txn r) → r.succeeded = true → ownCommits t = [⟨r.header, key, wr⟩]) ∧
      ((∀ r, a = .ok (.txn r) → r.succeeded = false) → ownCommits t = [])) := by
  have helse : ∀ key rev t r, Path (Limited.elseRange v1 key rev) t (.ok r) → r.succeeded = false :=
    fun _ _ _ _ h => (elseRange_answer h).1 _ rfl
  have heq : ∀ key rev a t, Path (Limited.elseRange v1 key rev) t a → ∀ ob ∈ t, ob.isQuery :=
    fun _ _ _ _ h => (elseRange_answer h).2
  have fin : ∀ {st : DB → DB × ExecResult} {G : World → Prop} {mk : Int → RespOp}
      {p : Int → Prog (Except ApiErr TxnResp)} {q : Prog (Except ApiErr TxnResp)} (_ : CasStmt st G key wr)
      (_ : ∀ w, Inv w → (Etcd.modRev w.hist key = rev ↔ G w))
      (_ : ∀ rev t r, Path (p rev) t (.ok r) → r.succeeded = false)
      (_ : ∀ rev a t, Path (p rev) t a → ∀ ob ∈ t, ob.isQuery)
      (_ : q = (((execute st).andThen fun r => .ret (.ok (writeResult r))).andThen fun (rev', succeeded) =>
        if succeeded then .ret (.ok { header := rev', succeeded := true, responses := [mk rev'] })
        else p rev')) (_ : Path (q.map (Except.map ClientResp.txn)) t a),
      (∀ resp, a = .ok resp → ∃ r, resp = .txn r ∧ ∃ ob ∈ t, SeqStep ob.pre.hist op resp
        (if r.succeeded then ob.post.hist else ob.pre.hist)) ∧
      (NoLost t → (∀ r, a = .ok (.txn r) → r.succeeded = true → ownCommits t = [⟨r.header, key, wr⟩]) ∧
        ((∀ r, a = .ok (.txn r) → r.succeeded = false) → ownCommits t = [])) := by
    intro st G mk p q c hG hp hq eq h
    obtain ⟨x, hx, h'⟩ := path_map h
    subst hx
    rw [eq] at h'
    obtain ⟨h1, h2⟩ := write_explained hop c hG hp hq f h'
    cases x with
    | error e =>
      refine ⟨nofun, fun hnl => ⟨nofun, fun _ => ?_⟩⟩
      exact nothing_own ((h2 hnl).2 fun r he => by cases he)
    | ok r =>
      refine ⟨?_, fun hnl => ⟨?_, ?_⟩⟩
      · intro resp he
        cases he
        exact ⟨r, rfl, h1 r rfl⟩
      · intro r' he hs
        cases he
        exact write_own ((h2 hnl).1 r rfl hs)
      · intro hf
        refine nothing_own ((h2 hnl).2 fun r' he => ?_)
        cases he
        exact hf r rfl
  cases op with
  | read k e => cases hop
  | create k v l =>
    cases hop
    exact fin (mk := RespOp.put) (p := fun rev => .ret (.ok { header := rev, succeeded := false }))
      (cas_create _ v l) (fun w i => etcd_absent i)
      (fun _ _ _ h => by obtain ⟨_, e⟩ := path_ret h; cases e; rfl)
      (fun _ _ _ h => by obtain ⟨e, _⟩ := path_ret h; subst e; simp) (txn_create_eq v1 _ v l) h
  | update k r v l =>
    cases hop
    by_cases hr : rev = 0
    · subst hr
      exact fin (mk := RespOp.put) (cas_create key v l) (fun w i => etcd_absent i) (helse key) (heq key)
        (by rw [txn_update_eq]; unfold Limited.update; rw [if_pos rfl]; rfl) h
    · exact fin (mk := RespOp.put) (cas_update ok v l rev) (fun w i => etcd_atRev hr) (helse key) (heq key)
        (by rw [txn_update_eq]; unfold Limited.update; rw [if_neg hr]; rfl) h
  | delete k r =>
    cases hop
    exact fin (mk := fun h => .deleteRange h) (cas_delete ok.1 rev) (fun w i => etcd_atRev ok.2) (helse key) (heq key)
      (by rw [txn_delete_eq]; rfl) h

/-- What a read answer means. -/
theorem op_read {key re : Bytes} {v1 : Bool} {w w' : World} {t : List Obs} {a : Except ApiErr ClientResp}
    (f : Facts w t w') (h : Path ((ClientOp.read key re).prog v1) t a) :
    ChangesNothing t ∧ (∀ resp, a = .ok resp → ∃ r, resp = .read r ∧ (Covered resp t w' →
      ∃ ob ∈ t, SeqStep ob.pre.hist (.read key re) resp ob.pre.hist)) := by
  obtain ⟨x, hx, h'⟩ := path_map h
  clear h
  have h := h'
  clear h'
  subst hx
  have hcn : ChangesNothing t := by
    intro ob hob
    have := path_allStmts h (all_range (E := fun e => e = id) rfl v1 _) ob hob
    obtain ⟨e, he, hpost⟩ := this
    subst he
    exact isQuery_nothing (f.inv hob) hpost
  refine ⟨hcn, ?_⟩
  intro resp he
  cases x with
  | error e => cases he
  | ok r =>
    cases he
    refine ⟨r, rfl, ?_⟩
    rintro ⟨hnt, hc⟩
    -- both shapes are one `List`
    have key' : ∃ t₁ limit kvs, (∀ ob ∈ t₁, ob ∈ t) ∧ Facts w t₁ w' ∧
        Path (Backend.list v1 key re limit 0) t₁ (.ok (r.header, kvs)) ∧ (re = [] ∧ limit = 1 ∨ limit = 0) ∧
        r.kvs = kvs ∧ r.more = false ∧ (re ≠ [] → r.count = kvs.length) := by
      rcases bridge_range_cases v1 ({ key := key, rangeEnd := re } : RangeReq) with ⟨_, e⟩ | ⟨_, e⟩
      · rw [e] at h
        unfold Limited.range at h
        split at h
        · rename_i hre
          have hre : re = [] := by simpa using hre
          obtain ⟨t₁, t₂, ⟨hdr, kvs⟩, rfl, h1, h2⟩ := path_andThen_ok h
          obtain ⟨_, e2⟩ := path_ret h2
          cases e2
          refine ⟨t₁, 1, kvs, by simp +contextual, f.append_left, by rw [hre]; exact h1, Or.inl ⟨hre, rfl⟩, rfl, rfl, fun hn => absurd hre hn⟩
        · unfold Limited.list at h
          obtain ⟨t₁, t₂, ⟨hdr, kvs⟩, rfl, h1, h2⟩ := path_andThen_ok h
          have h2' := (path_ret h2).2
          cases h2'
          exact ⟨t₁, 0, kvs, by simp +contextual, f.append_left, h1, Or.inr rfl, rfl, rfl, fun _ => rfl⟩
      · rw [e] at h
        obtain ⟨_, hp⟩ := path_ret h
        cases hp
    obtain ⟨t₁, limit, kvs, hsub, f1, hl, hlim, e1, e2, e3⟩ := key'
    obtain ⟨ob, hob, _, _, _, hh, _⟩ := path_list f1 hl
    have heff : effRev 0 r.header = r.header := by simp [effRev]
    obtain ⟨full, hf, hk⟩ := list_exact f1 hl (fun x hx => hnt x (hsub x hx)) (by rw [heff]; exact hc)
    rw [heff, answers_iff] at hf
    have hx := (f.step ob (hsub ob hob)).trans (f.post ob (hsub ob hob))
    have hfull : r.kvs = full := by
      rw [e1, hk]
      rcases hlim with ⟨hre, hl1⟩ | hl0
      · rw [hl1]; rw [hre] at hf; exact answers_single hf
      · rw [hl0]; simp [takeIf]
    refine ⟨ob, hsub ob hob, .read key re r hh ?_ e2 (fun hn => by rw [e3 hn, e1])⟩
    rw [hfull, ← hh]
    refine ⟨hf.1, fun kv => ?_⟩
    rw [hf.2 kv, hx.at (by omega)]

/-- Every covered answer is explained at one instant of its call. -/
theorem op_explained {l : List CEv} {c : Conc} {i : Nat} {op : ClientOp} {t : List Obs} {w w' : World}
    {resp : ClientResp} (cf : CallFacts l c i op t w w' (.ok resp)) (hc : Covered resp t w') :
    ∃ ob ∈ t, SeqStep ob.pre.hist op resp (if resp.wrote then ob.post.hist else ob.pre.hist) := by
  obtain ⟨v1, hp⟩ := cf.path
  cases hop : op.asWrite with
  | none =>
    cases op with
    | read key re =>
      obtain ⟨r, rfl, h⟩ := (op_read cf.facts hp).2 resp rfl
      obtain ⟨ob, hob, h⟩ := h hc
      exact ⟨ob, hob, by simpa [ClientResp.wrote] using h⟩
    | _ => cases hop
  | some x =>
    obtain ⟨key, rev, wr⟩ := x
    obtain ⟨r, rfl, ob, hob, h⟩ := (op_write cf.allowed hop cf.facts hp).1 resp rfl
    exact ⟨ob, hob, h⟩

/-! ### Building the sequential execution -/

theorem Legal.append {h h' h'' : History} {S S' : List Entry} (a : Legal h S h') (b : Legal h' S' h'') :
    Legal h (S ++ S') h'' := by
  induction a with
  | nil h => exact b
  | op st _ ih => exact .op st (ih b)
  | other hc _ ih => exact .other hc (ih b)

theorem legal_stay {h : History} {S : List Entry}
    (hS : ∀ e ∈ S, ∃ i op resp, e = .op i op resp ∧ SeqStep h op resp h) : Legal h S h := by
  induction S with
  | nil => exact .nil h
  | cons e S ih =>
    obtain ⟨i, op, resp, rfl, st⟩ := hS e (by simp)
    exact .op st (ih fun e he => hS e (by simp [he]))

/-- For every explained call: operation, answer, and the number of commits before its instant. -/
abbrev Points := Nat → Option (ClientOp × ClientResp × Nat)

/-- The order of instants: by the commits before; at equal numbers a write comes last, others by call number. -/
def Earlier (n : Nat) (x : Bool) (i : Nat) (m : Nat) (y : Bool) (j : Nat) : Prop :=
  n < m ∨ (n = m ∧ x = false ∧ (y = true ∨ i < j))

/-- The calls below `N` which do not write and whose instant is `n`. -/
def Points.reads (pt : Points) (N n : Nat) : List Entry :=
  (List.range N).filterMap fun i =>
    match pt i with
    | some (op, resp, m) => if m = n ∧ resp.wrote = false then some (.op i op resp) else none
    | none => none

open Classical in
/-- The entry for commit number `n`. -/
noncomputable def Points.writer (pt : Points) (H : History) (n : Nat) : Entry :=
  if h : ∃ e : Nat × ClientOp × ClientResp, pt e.1 = some (e.2.1, e.2.2, n) ∧ e.2.2.wrote = true then
    .op h.choose.1 h.choose.2.1 h.choose.2.2
  else .other (H[n]?.getD ⟨0, [], none⟩)

/-- The sequential execution up to commit number `n`. -/
noncomputable def Points.seq (pt : Points) (H : History) (N : Nat) : Nat → List Entry
  | 0 => pt.reads N 0
  | n + 1 => pt.seq H N n ++ pt.writer H n :: pt.reads N (n + 1)

theorem Points.mem_reads {pt : Points} {N n : Nat} {e : Entry} :
    e ∈ pt.reads N n ↔ ∃ i op resp, e = .op i op resp ∧ i < N ∧ pt i = some (op, resp, n) ∧ resp.wrote = false := by
  unfold Points.reads
  simp only [List.mem_filterMap, List.mem_range]
  constructor
  · rintro ⟨i, hi, h⟩
    cases hp : pt i with
    | none => simp [hp] at h
    | some x =>
      obtain ⟨op, resp, m⟩ := x
      simp only [hp] at h
      split at h
      · rename_i hc
        cases h
        exact ⟨i, op, resp, rfl, hi, by rw [hp, hc.1], hc.2⟩
      · cases h
  · rintro ⟨i, op, resp, rfl, hi, hp, hw⟩
    exact ⟨i, hi, by simp [hp, hw]⟩

theorem Points.writer_op {pt : Points} {H : History} {n i : Nat} {op : ClientOp} {resp : ClientResp}
    (h : pt.writer H n = .op i op resp) : pt i = some (op, resp, n) ∧ resp.wrote = true := by
  unfold Points.writer at h
  split at h
  · rename_i hx
    cases h
    exact hx.choose_spec
  · cases h

theorem Points.mem_seq {pt : Points} {H : History} {N n : Nat} {i : Nat} {op : ClientOp} {resp : ClientResp}
    (h : .op i op resp ∈ pt.seq H N n) :
    ∃ m, pt i = some (op, resp, m) ∧ (m < n ∨ (m = n ∧ resp.wrote = false)) := by
  induction n with
  | zero =>
    obtain ⟨_, _, _, e, _, hp, hw⟩ := Points.mem_reads.1 h
    cases e
    exact ⟨0, hp, Or.inr ⟨rfl, hw⟩⟩
  | succ n ih =>
    simp only [Points.seq, List.mem_append, List.mem_cons] at h
    rcases h with h | h | h
    · obtain ⟨m, h1, h2⟩ := ih h
      exact ⟨m, h1, Or.inl (by omega)⟩
    · obtain ⟨h1, h2⟩ := Points.writer_op h.symm
      exact ⟨n, h1, Or.inl (by omega)⟩
    · obtain ⟨_, _, _, e, _, hp, hw⟩ := Points.mem_reads.1 h
      cases e
      exact ⟨n + 1, hp, Or.inr ⟨rfl, hw⟩⟩

/-- Order in the constructed execution. -/
def Points.Ordered (pt : Points) (e e' : Entry) : Prop :=
  ∀ i op resp j op' resp', e = .op i op resp → e' = .op j op' resp' →
    ∃ n m, pt i = some (op, resp, n) ∧ pt j = some (op', resp', m) ∧ Earlier n resp.wrote i m resp'.wrote j

theorem Points.reads_ordered (pt : Points) (N n : Nat) : (pt.reads N n).Pairwise pt.Ordered := by
  unfold Points.reads
  rw [List.pairwise_filterMap]
  refine List.Pairwise.imp ?_ List.pairwise_lt_range
  intro a b hab x hx y hy i op resp j op' resp' e e'
  subst e
  subst e'
  cases ha : pt a with
  | none => simp [ha] at hx
  | some u =>
    cases hb : pt b with
    | none => simp [hb] at hy
    | some v =>
      obtain ⟨o1, r1, m1⟩ := u
      obtain ⟨o2, r2, m2⟩ := v
      simp only [ha] at hx
      simp only [hb] at hy
      split at hx
      case isFalse => cases hx
      split at hy
      case isFalse => cases hy
      rename_i h1 h2
      cases hx
      cases hy
      exact ⟨m1, m2, ha, hb, Or.inr ⟨by omega, h1.2, Or.inr hab⟩⟩

theorem Points.seq_ordered (pt : Points) (H : History) (N n : Nat) : (pt.seq H N n).Pairwise pt.Ordered := by
  induction n with
  | zero => exact pt.reads_ordered N 0
  | succ n ih =>
    simp only [Points.seq]
    rw [List.pairwise_append, List.pairwise_cons]
    refine ⟨ih, ⟨?_, pt.reads_ordered N (n + 1)⟩, ?_⟩
    · intro e he i op resp j op' resp' h1 h2
      obtain ⟨a1, _⟩ := Points.writer_op h1
      obtain ⟨_, _, _, e2, _, hp, _⟩ := Points.mem_reads.1 he
      rw [h2] at e2
      cases e2
      exact ⟨n, n + 1, a1, hp, Or.inl (by omega)⟩
    · intro e he e' he' i op resp j op' resp' h1 h2
      subst h1
      obtain ⟨m, hm, hlt⟩ := Points.mem_seq he
      rcases List.mem_cons.1 he' with h | h
      · obtain ⟨a1, a2⟩ := Points.writer_op (h.symm.trans h2)
        refine ⟨m, n, hm, a1, ?_⟩
        rcases hlt with hlt | ⟨hlt, hw⟩
        · exact Or.inl hlt
        · exact Or.inr ⟨hlt, hw, Or.inl a2⟩
      · obtain ⟨_, _, _, e2, _, hp, _⟩ := Points.mem_reads.1 h
        rw [h2] at e2
        cases e2
        exact ⟨m, n + 1, hm, hp, Or.inl (by omega)⟩

theorem Earlier.irrefl {n i : Nat} {x : Bool} : ¬ Earlier n x i n x i := by
  rintro (h | ⟨_, h, h' | h'⟩)
  · omega
  · rw [h] at h'; cases h'
  · omega

theorem Earlier.asymm {n m i j : Nat} {x y : Bool} (h : Earlier n x i m y j) : ¬ Earlier m y j n x i := by
  rintro h'
  rcases h with h | ⟨h1, h2, h3⟩ <;> rcases h' with h' | ⟨h1', h2', h3'⟩
  · omega
  · omega
  · omega
  · rcases h3 with h3 | h3
    · rw [h2'] at h3; cases h3
    · rcases h3' with h4 | h4
      · rw [h2] at h4; cases h4
      · omega

/-- The points fit the history. -/
structure Points.Fit (pt : Points) (H : History) (N : Nat) : Prop where
  wf : H.Wf
  lt : ∀ i op resp n, pt i = some (op, resp, n) → i < N
  le : ∀ i op resp n, pt i = some (op, resp, n) → n ≤ H.length
  step : ∀ i op resp n, pt i = some (op, resp, n) →
    SeqStep (H.take n) op resp (H.take (if resp.wrote then n + 1 else n))
  room : ∀ i op resp n, pt i = some (op, resp, n) → resp.wrote = true → n < H.length
  uniq : ∀ i op resp n j op' resp', pt i = some (op, resp, n) → pt j = some (op', resp', n) →
    resp.wrote = true → resp'.wrote = true → i = j

theorem Points.Fit.legal {pt : Points} {H : History} {N : Nat} (f : pt.Fit H N) {n : Nat} (hn : n ≤ H.length) :
    Legal [] (pt.seq H N n) (H.take n) := by
  have hreads : ∀ n, Legal (H.take n) (pt.reads N n) (H.take n) := by
    intro n
    apply legal_stay
    intro e he
    obtain ⟨i, op, resp, rfl, _, hp, hw⟩ := Points.mem_reads.1 he
    have := f.step _ _ _ _ hp
    rw [hw] at this
    exact ⟨i, op, resp, rfl, by simpa using this⟩
  induction n with
  | zero => simpa [Points.seq] using hreads 0
  | succ n ih =>
    refine (ih (by omega)).append ?_
    have hlt : n < H.length := by omega
    have htake : H.take (n + 1) = H.take n ++ [H[n]] := List.take_succ_eq_append_getElem hlt
    unfold Points.writer
    split
    · rename_i hx
      obtain ⟨h1, h2⟩ := hx.choose_spec
      have := f.step _ _ _ _ h1
      rw [h2, if_pos rfl] at this
      exact .op this (hreads (n + 1))
    · have hget : H[n]?.getD ⟨0, [], none⟩ = H[n] := by simp [hlt]
      rw [hget]
      refine .other ?_ (by rw [← htake]; exact hreads (n + 1))
      have hw : History.Wf (H.take n ++ H.drop n) := by rw [List.take_append_drop]; exact f.wf
      refine ext_gt hw (c := H[n]) ?_
      have hd := List.drop_eq_getElem_cons (l := (H : List Commit)) hlt
      exact hd ▸ List.mem_cons_self

theorem Points.Fit.mem {pt : Points} {H : History} {N : Nat} (f : pt.Fit H N) {i : Nat} {op : ClientOp}
    {resp : ClientResp} : .op i op resp ∈ pt.seq H N H.length ↔ ∃ n, pt i = some (op, resp, n) := by
  constructor
  · intro h
    obtain ⟨m, hm, _⟩ := Points.mem_seq h
    exact ⟨m, hm⟩
  · rintro ⟨n, hn⟩
    have main : ∀ k, (n < k ∨ (n = k ∧ resp.wrote = false)) → .op i op resp ∈ pt.seq H N k := by
      intro k
      induction k with
      | zero =>
        rintro (h | ⟨h, hw⟩)
        · omega
        · exact Points.mem_reads.2 ⟨i, op, resp, rfl, f.lt _ _ _ _ hn, by rw [← h]; exact hn, hw⟩
      | succ k ih =>
        intro hk
        simp only [Points.seq, List.mem_append, List.mem_cons]
        rcases hk with hk | ⟨hk, hw⟩
        · by_cases hlt : n < k
          · exact Or.inl (ih (Or.inl hlt))
          · have hnk : n = k := by omega
            cases hw : resp.wrote with
            | false => exact Or.inl (ih (Or.inr ⟨hnk, hw⟩))
            | true =>
              right; left
              subst hnk
              unfold Points.writer
              have hx : ∃ e : Nat × ClientOp × ClientResp, pt e.1 = some (e.2.1, e.2.2, n) ∧ e.2.2.wrote = true :=
                ⟨(i, op, resp), hn, hw⟩
              rw [dif_pos hx]
              obtain ⟨h1, h2⟩ := hx.choose_spec
              have := f.uniq _ _ _ _ _ _ _ hn h1 hw h2
              rw [← this] at h1 ⊢
              rw [hn] at h1
              simp only [Option.some.injEq, Prod.mk.injEq, and_true] at h1
              rw [← h1.1, ← h1.2]
        · right; right
          exact Points.mem_reads.2 ⟨i, op, resp, rfl, f.lt _ _ _ _ hn, by rw [← hk]; exact hn, hw⟩
    apply main
    cases hw : resp.wrote with
    | false =>
      have := f.le _ _ _ _ hn
      by_cases h : n < H.length
      · exact Or.inl h
      · exact Or.inr ⟨by omega, rfl⟩
    | true => exact Or.inl (f.room _ _ _ _ hn hw)

/-! ### Real time -/

theorem returned_before {l : List CEv} {c : Conc} (r : CRun Conc.init l c) {i j : Nat}
    {a : Except ApiErr ClientResp} {w w' : World} {op : ClientOp} {A B C : List CEv}
    (hl : l = A ++ .ret i a w :: B ++ .call j op w' :: C) :
    i < j ∧ (∀ ob, CEv.stmt i ob ∈ l → CEv.stmt i ob ∈ A) ∧ (∀ ob, CEv.stmt j ob ∈ l → CEv.stmt j ob ∈ C) := by
  have hr := r
  rw [hl] at hr
  obtain ⟨n, h4, h5⟩ := crun_split hr
  obtain ⟨_, _, _, _, _, _, _, _, hge⟩ := crun_call (crun_facts h4 CInv.init).2 h5
  have hid := (crun_id_lt h4 CInv.init).2
  rw [List.append_assoc, List.cons_append] at hr
  obtain ⟨m, h1, h2⟩ := crun_split hr
  obtain ⟨m', hm', _, _, hdead, hlt, h3⟩ := crun_ret (crun_facts h1 CInv.init).2 h2
  have hi := hid (.ret i a w) (by simp)
  simp only [CEv.id] at hi
  refine ⟨by omega, ?_, ?_⟩
  · intro ob hob
    rw [hl] at hob
    simp only [List.append_assoc, List.cons_append, List.mem_append, List.mem_cons] at hob
    rcases hob with h | h | h | h | h
    · exact h
    · cases h
    · exact absurd rfl (crun_dead h3 hdead hlt (.stmt i ob) (by simp [h]))
    · cases h
    · exact absurd rfl (crun_dead h3 hdead hlt (.stmt i ob) (by simp [h]))
  · intro ob hob
    rw [hl] at hob
    rcases List.mem_append.1 hob with h | h
    · have := hid _ h
      simp only [CEv.id] at this
      omega
    · rcases List.mem_cons.1 h with h | h
      · cases h
      · exact h

/-- Two events of a record are ordered. -/
theorem events_ordered {l : List CEv} {R : CEv → CEv → Prop} (h : l.Pairwise R) {e e' : CEv} (he : e ∈ l)
    (he' : e' ∈ l) (hne : e ≠ e') : R e e' ∨ R e' e := by
  induction l with
  | nil => cases he
  | cons x l ih =>
    rw [List.pairwise_cons] at h
    rcases List.mem_cons.1 he with h1 | h1 <;> rcases List.mem_cons.1 he' with h2 | h2
    · exact absurd (h1.trans h2.symm) hne
    · rw [h1]; exact Or.inl (h.1 _ h2)
    · rw [h2]; exact Or.inr (h.1 _ h1)
    · exact ih h.2 h1 h2

/-- The instant of a call: the number `n` of commits before it, and what happens there. -/
def Instant (l : List CEv) (i : Nat) (x : ClientOp × ClientResp × Nat) : Prop :=
  ∃ t w w', Completed l i x.1 t w w' (.ok x.2.1) ∧ Covered x.2.1 t w' ∧ ∃ ob ∈ t, x.2.2 = ob.pre.hist.length ∧
    SeqStep ob.pre.hist x.1 x.2.1 (if x.2.1.wrote then ob.post.hist else ob.pre.hist)

open Classical in
/-- One instant for every covered call. -/
noncomputable def pointsOf (l : List CEv) : Points := fun i =>
  if h : ∃ x, Instant l i x then some h.choose else none

theorem pointsOf_some {l : List CEv} {i : Nat} {x : ClientOp × ClientResp × Nat} (h : pointsOf l i = some x) :
    Instant l i x := by
  unfold pointsOf at h
  split at h
  · rename_i hx
    cases h
    exact hx.choose_spec
  · cases h

theorem pointsOf_iff {l : List CEv} {c : Conc} (r : CRun Conc.init l c) {i : Nat} {op : ClientOp}
    {resp : ClientResp} : (∃ n, pointsOf l i = some (op, resp, n)) ↔
      ∃ t w w', Completed l i op t w w' (.ok resp) ∧ Covered resp t w' := by
  constructor
  · rintro ⟨n, h⟩
    obtain ⟨t, w, w', h1, h2, _⟩ := pointsOf_some h
    exact ⟨t, w, w', h1, h2⟩
  · rintro ⟨t, w, w', h1, h2⟩
    have h1' := h1
    obtain ⟨A, B, C, hl, rfl⟩ := h1'
    obtain ⟨ob, hob, hs⟩ := op_explained (completed_parts r hl).2.2.2 h2
    have hx : ∃ x, Instant l i x := ⟨(op, resp, ob.pre.hist.length), _, w, w', h1, h2, ob, hob, rfl, hs⟩
    have hp : pointsOf l i = some hx.choose := by
      unfold pointsOf
      rw [dif_pos hx]
    obtain ⟨t', v, v', h3, _⟩ := hx.choose_spec
    obtain ⟨e1, _, _, _, e2⟩ := completed_unique r h1 h3
    refine ⟨hx.choose.2.2, ?_⟩
    rw [hp, e1]
    simp only [Except.ok.injEq] at e2
    rw [e2]

theorem wrote_step {h h' : History} {op : ClientOp} {resp : ClientResp} (s : SeqStep h op resp h')
    (hw : resp.wrote = true) : h'.length = h.length + 1 := by
  cases s with
  | read => cases hw
  | success => simp
  | failure _ _ _ _ r _ _ hf => simp only [ClientResp.wrote] at hw; rw [hf] at hw; cases hw

/-- What an instant looks like in the record. -/
theorem instant_event {l : List CEv} {c : Conc} (r : CRun Conc.init l c) {i : Nat} {op : ClientOp}
    {resp : ClientResp} {n : Nat} (h : pointsOf l i = some (op, resp, n)) :
    i < c.next ∧ ∃ ob, CEv.stmt i ob ∈ l ∧ n = ob.pre.hist.length ∧ Ext ob.pre ob.post ∧ Ext ob.post c.world ∧
      SeqStep ob.pre.hist op resp (if resp.wrote then ob.post.hist else ob.pre.hist) := by
  obtain ⟨t, w, w', h1, _, ob, hob, hn, hs⟩ := pointsOf_some h
  obtain ⟨A, B, C, hl, rfl⟩ := h1
  obtain ⟨_, _, _, cf⟩ := completed_parts r hl
  refine ⟨cf.lt, ob, ?_, hn, cf.facts.step ob hob, (cf.facts.post ob hob).trans cf.last, hs⟩
  rw [hl]
  simp only [List.append_assoc, List.cons_append, List.mem_append, List.mem_cons]
  exact Or.inr (Or.inr (Or.inl (mem_stmtsOf.1 hob)))

theorem take_of_ext {w w' : World} (h : Ext w w') : w'.hist.take w.hist.length = w.hist := by
  obtain ⟨t, ht⟩ := h.hist
  rw [ht]; simp

theorem Ext.len {w w' : World} (h : Ext w w') : w.hist.length ≤ w'.hist.length := by
  obtain ⟨t, ht⟩ := h.hist
  rw [ht]; simp

theorem pointsOf_fit {l : List CEv} {c : Conc} (r : CRun Conc.init l c) :
    (pointsOf l).Fit c.world.hist c.next where
  wf := (crun_facts r CInv.init).2.sys.inv.wf
  lt i op resp n h := (instant_event r h).1
  le i op resp n h := by
    obtain ⟨_, ob, _, rfl, h1, h2, _⟩ := instant_event r h
    exact (h1.trans h2).len
  step i op resp n h := by
    obtain ⟨_, ob, _, rfl, h1, h2, hs⟩ := instant_event r h
    rw [take_of_ext (h1.trans h2)]
    cases hw : resp.wrote with
    | false => rw [hw] at hs; simpa [take_of_ext (h1.trans h2)] using hs
    | true =>
      have hlen := wrote_step hs hw
      rw [hw, if_pos rfl] at hs hlen
      rw [if_pos rfl, ← hlen, take_of_ext h2]
      exact hs
  room i op resp n h hw := by
    obtain ⟨_, ob, _, rfl, h1, h2, hs⟩ := instant_event r h
    have hlen := wrote_step hs hw
    rw [hw, if_pos rfl] at hlen
    have := h2.len
    omega
  uniq i op resp n j op' resp' h h' hw hw' := by
    obtain ⟨_, ob, hm, hn, h1, h2, hs⟩ := instant_event r h
    obtain ⟨_, ob', hm', hn', h1', h2', hs'⟩ := instant_event r h'
    have l1 := wrote_step hs hw
    have l2 := wrote_step hs' hw'
    rw [hw, if_pos rfl] at l1
    rw [hw', if_pos rfl] at l2
    apply Classical.byContradiction
    intro hne
    have hch := List.pairwise_map.1 (crun_facts r CInv.init).1.chain
    rcases events_ordered hch hm hm' (fun e => hne (by cases e; rfl)) with h | h
    · have := h.len; simp only [CEv.obs] at this; omega
    · have := h.len; simp only [CEv.obs] at this; omega

/-! ## C74 Linearizability -/

/-- However the calls of any number of clients interleave with each other, with background work, other nodes
and crashes: there is one sequential execution of the store, legal step by step, ending in the actual history,
which contains every covered answered operation exactly once with exactly the answer its client got, contains
no other client operations, and orders any operation that returned before another was called before it. -/
theorem C74_linearizable {l : List CEv} {c : Conc} (r : CRun Conc.init l c) :
    ∃ S : List Entry, Legal [] S c.world.hist ∧
      (∀ i op resp, Entry.op i op resp ∈ S ↔
        ∃ t w w', Completed l i op t w w' (.ok resp) ∧ Covered resp t w') ∧
      S.Pairwise (fun e e' => ∀ i op resp op' resp', e = .op i op resp → e' ≠ .op i op' resp') ∧
      (∀ i j op resp op' resp', ReturnedBefore l i j → Entry.op i op resp ∈ S → Entry.op j op' resp' ∈ S →
        ∃ S₁ S₂ S₃, S = S₁ ++ .op i op resp :: S₂ ++ .op j op' resp' :: S₃) := by
  have fit := pointsOf_fit r
  have hord := (pointsOf l).seq_ordered c.world.hist c.next c.world.hist.length
  refine ⟨(pointsOf l).seq c.world.hist c.next c.world.hist.length, ?_, ?_, ?_, ?_⟩
  · have := fit.legal (Nat.le_refl _)
    rwa [List.take_length] at this
  · intro i op resp
    rw [fit.mem, pointsOf_iff r]
  · refine hord.imp ?_
    intro e e' h i op resp op' resp' he he'
    obtain ⟨n, m, h1, h2, h3⟩ := h i op resp i op' resp' he he'
    rw [h1] at h2
    cases h2
    exact Earlier.irrefl h3
  · intro i j op resp op' resp' ⟨A, B, C, a, w, opj, w', hl⟩ hi hj
    obtain ⟨hij, hbi, hbj⟩ := returned_before r hl
    obtain ⟨n, hn⟩ := fit.mem.1 hi
    obtain ⟨m, hm⟩ := fit.mem.1 hj
    have hE : Earlier n resp.wrote i m resp'.wrote j := by
      obtain ⟨_, ob, hm1, e1, h1, h2, hs⟩ := instant_event r hn
      obtain ⟨_, ob', hm1', e1', h1', h2', hs'⟩ := instant_event r hm
      have f := (crun_facts r CInv.init).1
      rw [hl] at f
      have hx := facts_order (A := A ++ CEv.ret i a w :: B) (B := CEv.call j opj w' :: C) f
        (List.mem_append_left _ (hbi ob hm1)) (List.mem_cons_of_mem _ (hbj ob' hm1'))
      have hlen := hx.len
      simp only [CEv.obs] at hlen
      have hlen1 := h1.len
      cases hw : resp.wrote with
      | true =>
        have := wrote_step hs hw
        rw [hw, if_pos rfl] at this
        exact Or.inl (by omega)
      | false =>
        by_cases hlt : n < m
        · exact Or.inl hlt
        · exact Or.inr ⟨by omega, rfl, Or.inr hij⟩
    -- positions in the list
    obtain ⟨S₁, R, hS⟩ := List.append_of_mem hi
    rw [hS] at hj
    rcases List.mem_append.1 hj with h | h
    · exfalso
      rw [hS, List.pairwise_append] at hord
      obtain ⟨n', m', a1, a2, a3⟩ := hord.2.2 _ h _ (by simp) j op' resp' i op resp rfl rfl
      rw [hm] at a1
      rw [hn] at a2
      cases a1
      cases a2
      exact Earlier.asymm hE a3
    · rcases List.mem_cons.1 h with h | h
      · exfalso
        cases h
        omega
      · obtain ⟨S₂, S₃, hR⟩ := List.append_of_mem h
        exact ⟨S₁, S₂, S₃, by rw [hS, hR]; simp⟩

/-- Calls have no hidden effects: unless the acknowledgement of one of its statements was lost, a call told
success made exactly the commit announced, and every other answered call (a read, a failed write, an error)
made none. -/
theorem C74_no_hidden_effects {l : List CEv} {c : Conc} (r : CRun Conc.init l c) {i : Nat} {op : ClientOp}
    {t : List Obs} {w w' : World} {a : Except ApiErr ClientResp} (h : Completed l i op t w w' a)
    (hnl : NoLost t) :
    (∀ resp key rev wr, a = .ok (.txn resp) → resp.succeeded = true → op.asWrite = some (key, rev, wr) →
      ownCommits t = [⟨resp.header, key, wr⟩]) ∧
    ((¬ ∃ resp, a = .ok (.txn resp) ∧ resp.succeeded = true) → ownCommits t = []) := by
  obtain ⟨A, B, C, hl, rfl⟩ := h
  obtain ⟨_, _, _, cf⟩ := completed_parts r hl
  obtain ⟨v1, hp⟩ := cf.path
  cases hop : op.asWrite with
  | none =>
    cases op with
    | read key re =>
      refine ⟨nofun, fun _ => nothing_own (op_read cf.facts hp).1⟩
    | _ => cases hop
  | some x =>
    obtain ⟨key, rev, wr⟩ := x
    obtain ⟨h1, h2⟩ := (op_write cf.allowed hop cf.facts hp).2 hnl
    refine ⟨?_, ?_⟩
    · intro resp key' rev' wr' ha hs he
      cases he
      exact h1 resp ha hs
    · intro hn
      apply h2
      intro r' ha
      cases hs : r'.succeeded with
      | false => rfl
      | true => exact absurd ⟨r', ha, hs⟩ hn

/-- Witness: client 0 creates `/a`, client 1 creates `/a` at the same time and loses, client 2, called after
client 0 returned and while client 1 is still waiting for its answer, reads `/a` and sees the new key. -/
theorem linear_demo : ∃ l c t₀ t₁ t₂ w₀ w₀' w₁ w₁' w₂ w₂', CRun Conc.init l c ∧
    Completed l 0 (.create Demo.ka [1] 0) t₀ w₀ w₀'
      (.ok (.txn { header := 1, succeeded := true, responses := [.put 1] })) ∧
    Completed l 1 (.create Demo.ka [2] 0) t₁ w₁ w₁' (.ok (.txn { header := 0, succeeded := false })) ∧
    Completed l 2 (.read Demo.ka []) t₂ w₂ w₂' (.ok (.read { header := 1, kvs := [⟨Demo.ka, [1], 0, 1, 1⟩] })) ∧
    Covered (.read { header := 1, kvs := [⟨Demo.ka, [1], 0, 1, 1⟩] }) t₂ w₂' ∧
    ReturnedBefore l 0 2 ∧ c.world.hist = [⟨1, Demo.ka, some ([1], 0)⟩] :=
  have hk : Demo.ka ≠ compactRevKey := by decide +kernel
  ⟨_, _, _, _, _, _, _, _, _, _, _,
    .call true (.create Demo.ka [1] 0) hk <| .call true (.create Demo.ka [2] 0) hk <|
      .stmt 0 .ok _ _ rfl <| .stmt 1 .ok _ _ rfl <| .ret 0 _ rfl <|
      .call true (.read Demo.ka []) trivial <| .stmt 2 .ok _ _ rfl <| .stmt 2 .ok _ _ rfl <|
      .ret 2 _ rfl <| .ret 1 _ rfl <| .done _,
    ⟨[], [_, _, _], [_, _, _, _, _], rfl, rfl⟩, ⟨[_], [_, _, _, _, _, _, _], [], rfl, rfl⟩,
    ⟨[_, _, _, _, _], [_, _], [_], rfl, rfl⟩, ⟨faultless_noTrunc (by decide +kernel), by decide +kernel⟩,
    ⟨[_, _, _, _], [], [_, _, _, _], _, _, _, _, rfl⟩, by decide +kernel⟩

end Verif
