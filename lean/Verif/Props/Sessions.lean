import Verif.Props.Composed
import Verif.Props.Streams
import Verif.Props.Rpc
import Verif.Lemmas.Alone
/-!
# What clients can build on the store (C82 – C84)

Consequences for any number of clients of any number of nodes, each with its batcher (`MRun`, `Model/Composed.lean`):
optimistic concurrency loses no update, a key is a lock, and the answers to one client never go back in time. All
statements are about the record `H` of calls and answers and about the history of the store.
-/

namespace Verif

/-! ## The sequential store, step by step -/

theorem SeqStep.ext {h h' : History} {op : ClientOp} {resp : ClientResp} (w : h.Wf) (s : SeqStep h op resp h') :
    h'.Wf ∧ h.top ≤ h'.top ∧ ∃ t, h' = h ++ t := by
  cases s with
  | read => exact ⟨w, Int.le_refl _, [], by simp⟩
  | success =>
    refine ⟨Wf_snoc w (by simp only; omega), ?_, _, rfl⟩
    rw [top_snoc]; simp only; omega
  | failure => exact ⟨w, Int.le_refl _, [], by simp⟩

theorem Legal.ext {h h' : History} {S : List Entry} (l : Legal h S h') (w : h.Wf) :
    h'.Wf ∧ h.top ≤ h'.top ∧ ∃ t, h' = h ++ t := by
  induction l with
  | nil h => exact ⟨w, Int.le_refl _, [], by simp⟩
  | op s _ ih =>
    obtain ⟨a1, a2, t, rfl⟩ := s.ext w
    obtain ⟨b1, b2, u, rfl⟩ := ih a1
    exact ⟨b1, by omega, t ++ u, by simp⟩
  | @other h h'' c S hc _ ih =>
    obtain ⟨b1, b2, u, rfl⟩ := ih (Wf_snoc w hc)
    rw [top_snoc] at b2
    exact ⟨b1, by omega, [c] ++ u, by simp⟩

theorem Legal.split {h h' : History} {S₁ S₂ : List Entry} (l : Legal h (S₁ ++ S₂) h') :
    ∃ m, Legal h S₁ m ∧ Legal m S₂ h' := by
  induction S₁ generalizing h with
  | nil => exact ⟨h, .nil h, l⟩
  | cons e S ih =>
    cases l with
    | op s l => obtain ⟨m, h1, h2⟩ := ih l; exact ⟨m, .op s h1, h2⟩
    | other hc l => obtain ⟨m, h1, h2⟩ := ih l; exact ⟨m, .other hc h1, h2⟩

/-- The instant of an operation in a legal sequential execution. -/
theorem Legal.instant {h h' : History} {S : List Entry} (l : Legal h S h') {i : Nat} {op : ClientOp} {resp : ClientResp}
    (hm : Entry.op i op resp ∈ S) : ∃ S₁ S₂ m m', S = S₁ ++ .op i op resp :: S₂ ∧ Legal h S₁ m ∧
      SeqStep m op resp m' ∧ Legal m' S₂ h' := by
  obtain ⟨S₁, S₂, rfl⟩ := List.append_of_mem hm
  obtain ⟨m, h1, h2⟩ := l.split
  cases h2 with
  | op s h3 => exact ⟨S₁, S₂, m, _, rfl, h1, s, h3⟩

/-- A successful write in a legal sequential execution: the commit it made, and the state of its key just before. -/
theorem Legal.wrote {h h' : History} {S : List Entry} (l : Legal h S h') (w : h.Wf) {i : Nat} {op : ClientOp}
    {resp : TxnResp} (hm : Entry.op i op (.txn resp) ∈ S) (hs : resp.succeeded = true) :
    h.top < resp.header ∧ resp.header ≤ h'.top ∧ ∃ key rev wr, op.asWrite = some (key, rev, wr) ∧
      ⟨resp.header, key, wr⟩ ∈ h' ∧ (∀ c ∈ h', c.rev = resp.header → c = ⟨resp.header, key, wr⟩) ∧
      ((h'.at (resp.header - 1) key = none ∧ rev = 0) ∨ ∃ kv, h'.at (resp.header - 1) key = some kv ∧ kv.modRev = rev) ∧
      h'.at resp.header key = Commit.applyTo ⟨resp.header, key, wr⟩ (h'.at (resp.header - 1) key) := by
  obtain ⟨S₁, S₂, m, m', rfl, h1, s, h2⟩ := l.instant hm
  obtain ⟨w1, t1, _⟩ := h1.ext w
  obtain ⟨w2, t2, _⟩ := s.ext w1
  obtain ⟨w3, t3, u, hu⟩ := h2.ext w2
  cases s with
  | failure _ _ _ _ _ _ _ hf => rw [hf] at hs; cases hs
  | success _ key rev wr _ hop hrev _ hhdr =>
    rw [top_snoc] at t3 t2
    simp only at t3
    have hmem : (⟨resp.header, key, wr⟩ : Commit) ∈ h' := by rw [hu, hhdr]; simp
    refine ⟨by omega, by omega, key, rev, wr, hop, hmem, fun c hc he => Wf_rev_inj w3 hc hmem he, ?_⟩
    have hb : h'.at (resp.header - 1) key = m.now key := by
      have e : h' = m ++ (⟨m.top + 1, key, wr⟩ :: u) := by rw [hu]; simp
      have e2 : resp.header - 1 = m.top := by omega
      rw [e2, e, at_ext (by rw [← e]; exact w3) (Int.le_refl _)]
      exact now_eq_at fun c hc => le_top w1 hc
    have ha : h'.at resp.header key = Commit.applyTo ⟨resp.header, key, wr⟩ (m.now key) := by
      rw [hu, hhdr, at_ext (by rw [← hu]; exact w3) (by rw [top_snoc]; exact Int.le_refl _),
        now_eq_at fun c hc => by have := le_top w2 hc; rwa [top_snoc] at this, now_snoc]
      simp
    rw [hb]
    refine ⟨?_, ha⟩
    unfold Etcd.modRev at hrev
    split at hrev
    · rename_i kv hkv
      exact Or.inr ⟨kv, hkv, hrev⟩
    · rename_i hkv
      exact Or.inl ⟨hkv, hrev.symm⟩

/-- Two successful writes have different revisions. -/
theorem Legal.headers {h h' : History} {S : List Entry} (l : Legal h S h') (w : h.Wf) {i j : Nat} {op op' : ClientOp}
    {resp resp' : TxnResp} (hi : Entry.op i op (.txn resp) ∈ S) (hj : Entry.op j op' (.txn resp') ∈ S) (hne : i ≠ j)
    (hs : resp.succeeded = true) (hs' : resp'.succeeded = true) : resp.header ≠ resp'.header := by
  obtain ⟨S₁, S₂, m, m', rfl, h1, s, h2⟩ := l.instant hi
  obtain ⟨w1, t1, _⟩ := h1.ext w
  obtain ⟨w2, t2, _⟩ := s.ext w1
  have hm : m.top < resp.header ∧ resp.header = m'.top := by
    cases s with
    | failure _ _ _ _ _ _ _ hf => rw [hf] at hs; cases hs
    | success _ key rev wr _ hop hrev _ hhdr => rw [top_snoc]; simp only; omega
  rcases List.mem_append.1 hj with h3 | h3
  · have := (h1.wrote w h3 hs').2.1; omega
  · rcases List.mem_cons.1 h3 with h3 | h3
    · cases h3; exact absurd rfl hne
    · have := (h2.wrote w2 h3 hs').1; omega

/-! ## What a client is shown is real -/

/-- The key-values an answer shows: those of a read, or those of the else branch of a failed transaction. -/
def ClientResp.shown : ClientResp → List KV
  | .read r => r.kvs
  | .txn r => r.responses.flatMap fun
    | .range rr => rr.kvs
    | _ => []

/-- Some client has been shown `kv`. -/
def Saw (H : List CEv) (kv : KV) : Prop := ∃ i op resp, AnsweredIn H i op resp ∧ kv ∈ resp.shown

theorem elseRange_shown {v1 : Bool} {key : Bytes} {rev : Int} {w w' : World} {t : List Obs} {resp : TxnResp}
    (f : Facts w t w') (h : Path (Limited.elseRange v1 key rev) t (.ok resp)) {kv : KV}
    (hk : kv ∈ (ClientResp.txn resp).shown) : ∃ q, q ≤ w'.hist.top ∧ w'.hist.at q kv.key = some kv := by
  obtain ⟨t₁, t₂, ⟨hdr, kvs⟩, rfl, h1, h2⟩ := path_andThen_ok h
  obtain ⟨e1, e2⟩ := path_ret h2
  subst e1
  cases e2
  rw [List.append_nil] at f
  obtain ⟨_, a2, _⟩ := list_header f h1
  refine ⟨effRev rev hdr, ?_, ((list_sound f h1).2 kv (by simpa [ClientResp.shown] using hk)).2⟩
  unfold effRev
  split <;> omega

theorem op_shown {op : ClientOp} {v1 : Bool} {w w' : World} {t : List Obs} {resp : ClientResp} (f : Facts w t w')
    (h : Path (op.prog v1) t (.ok resp)) {kv : KV} (hk : kv ∈ resp.shown) :
    ∃ q, q ≤ w'.hist.top ∧ w'.hist.at q kv.key = some kv := by
  have fin : ∀ {st : Prog (Except ApiErr (Int × Bool))} {mk : Int → RespOp} {p : Int → Prog (Except ApiErr TxnResp)}
      {q : Prog (Except ApiErr TxnResp)} (_ : ∀ r kvs, mk r ≠ .range kvs)
      (_ : ∀ rev w₁ t r, Facts w₁ t w' → Path (p rev) t (.ok r) → kv ∈ (ClientResp.txn r).shown →
        ∃ q, q ≤ w'.hist.top ∧ w'.hist.at q kv.key = some kv)
      (_ : q = st.andThen fun (rev', succeeded) =>
        if succeeded then .ret (.ok { header := rev', succeeded := true, responses := [mk rev'] })
        else p rev') (_ : Path (q.map (Except.map ClientResp.txn)) t (.ok resp)),
      ∃ q, q ≤ w'.hist.top ∧ w'.hist.at q kv.key = some kv := by
    intro st mk p q hmk hp eq h
    obtain ⟨x, hx, h'⟩ := path_map h
    cases x with
    | error e => cases hx
    | ok r =>
      cases hx
      rw [eq] at h'
      obtain ⟨t₁, t₂, ⟨rev', ok⟩, rfl, h1, h2⟩ := path_andThen_ok h'
      cases ok with
      | false =>
        simp only [Bool.false_eq_true, ↓reduceIte] at h2
        exact hp _ _ _ _ f.append_right h2 hk
      | true =>
        simp only [↓reduceIte] at h2
        obtain ⟨_, e2⟩ := path_ret h2
        cases e2
        simp only [ClientResp.shown, List.flatMap_cons, List.flatMap_nil, List.append_nil] at hk
        split at hk
        · rename_i kvs he
          exact absurd he (hmk _ _)
        · cases hk
  cases op with
  | read k e =>
    obtain ⟨x, hx, h'⟩ := path_map h
    cases x with
    | error e => cases hx
    | ok r =>
      cases hx
      obtain ⟨_, q, _, _, hq, hr⟩ := range_sound f h'
      have := (range_spec f h').2.2.1
      exact ⟨q, by omega, (hr kv hk).2⟩
  | create k v l =>
    exact fin (mk := RespOp.put) (p := fun rev => .ret (.ok { header := rev, succeeded := false }))
      (fun _ _ h => by cases h)
      (fun _ _ _ _ _ h hk => by obtain ⟨_, e⟩ := path_ret h; cases e; simp [ClientResp.shown] at hk)
      (txn_create_eq v1 _ v l) h
  | update k r v l =>
    exact fin (mk := RespOp.put) (p := Limited.elseRange v1 k) (fun _ _ h => by cases h)
      (fun _ _ _ _ f h hk => elseRange_shown f h hk) (txn_update_eq v1 k v r l) h
  | delete k r =>
    exact fin (mk := fun h => .deleteRange h) (p := Limited.elseRange v1 k) (fun _ _ h => by cases h)
      (fun _ _ _ _ f h hk => elseRange_shown f h hk) (txn_delete_eq v1 k r) h

theorem saw_real {H : List CEv} {m : MSys} (r : MRun (fun _ => True) MSys.init H m) {kv : KV} (h : Saw H kv) :
    ∃ q, m.world.hist.at q kv.key = some kv := by
  obtain ⟨i, op, resp, ⟨A, B, C, w, w', hl⟩, hk⟩ := h
  obtain ⟨l, c, hr, rfl, hw⟩ := C81_batching_is_invisible r
  obtain ⟨A', B', C', hl'⟩ := filter_two hl
  obtain ⟨_, _, _, cf⟩ := completed_parts hr hl'
  obtain ⟨v1, hp⟩ := cf.path
  obtain ⟨q, h1, h2⟩ := op_shown cf.facts hp hk
  exact ⟨q, by rw [← hw, cf.last.at h1]; exact h2⟩

/-! ## Executions that meet the hypotheses

Calls one after the other, on any nodes, every statement executed; the theorems above speak of all executions. -/

theorem Prog.mrun_alone {P : Outcome → Prop} (hP : P .ok) : ∀ (p : Prog (Except ApiErr ClientResp)) (m : MSys) (i n : Nat),
    m.calls i = some (n, .run p) → ∃ m', m'.world = (p.alone m.world).2 ∧ m'.up = m.up ∧ m'.next = m.next ∧
      ∀ l m'', MRun P m' l m'' → MRun P m (.ret i (p.alone m.world).1 (p.alone m.world).2 :: l) m''
  | .ret a, m, i, n, h => ⟨{ m with calls := upd m.calls i none }, rfl, rfl, rfl, fun _ _ r => .ret i n a h r⟩
  | .stmt eff k, m, i, n, h => by
    obtain ⟨m', h1, h2, h3, h4⟩ := Prog.mrun_alone hP (k .ok m.world.db)
      { m with world := m.world.exec eff .ok, nodes := upd m.nodes n (m.node n),
               calls := upd m.calls i (some (n, .run (k .ok m.world.db))) } i n (by simp [upd])
    exact ⟨m', h1, h2, h3, fun l m'' r => .client i n _ _ _ _ h (.direct _ _ _ _ _ hP) (h4 l m'' r)⟩

instance : DecidablePred ClientOp.allowed := fun op => by cases op <;> simp only [ClientOp.allowed] <;> infer_instance

/-- The record of the calls. -/
def seqLog : List (Nat × ClientOp) → Nat → World → List CEv
  | [], _, _ => []
  | (_, op) :: ops, i, w =>
    .call i op w :: .ret i ((op.prog true).alone w).1 ((op.prog true).alone w).2 ::
      seqLog ops (i + 1) ((op.prog true).alone w).2

/-- The store after the calls. -/
def seqWorld : List (Nat × ClientOp) → World → World
  | [], w => w
  | (_, op) :: ops, w => seqWorld ops ((op.prog true).alone w).2

theorem seq_run {P : Outcome → Prop} (hP : P .ok) : ∀ (ops : List (Nat × ClientOp)) (m : MSys),
    (∀ x ∈ ops, x.2.allowed) → (∀ n, m.up n = true) →
    ∃ m', MRun P m (seqLog ops m.next m.world) m' ∧ m'.world = seqWorld ops m.world
  | [], m, _, _ => ⟨m, .done _, rfl⟩
  | (n, op) :: ops, m, ha, hu => by
    obtain ⟨m₁, h1, h2, h3, h4⟩ := Prog.mrun_alone hP (op.prog true)
      { m with calls := upd m.calls m.next (some (n, .run (op.prog true))), next := m.next + 1 } m.next n (by simp [upd])
    obtain ⟨m', r, hw⟩ := seq_run hP ops m₁ (fun x hx => ha x (List.mem_cons_of_mem _ hx)) (by rw [h2]; exact hu)
    rw [h1, h3] at r
    rw [h1] at hw
    exact ⟨m', .call n (hu n) true op (ha _ (List.mem_cons_self ..)) (h4 _ _ r), hw⟩

/-- What call `i` of the sequence is told. -/
def seqAnswer : List (Nat × ClientOp) → World → Nat → Option (ClientOp × Except ApiErr ClientResp)
  | [], _, _ => none
  | (_, op) :: _, w, 0 => some (op, ((op.prog true).alone w).1)
  | (_, op) :: ops, w, i + 1 => seqAnswer ops ((op.prog true).alone w).2 i

theorem seq_answered : ∀ {ops : List (Nat × ClientOp)} {i₀ : Nat} {w : World} {i : Nat} {op : ClientOp} {resp : ClientResp},
    seqAnswer ops w i = some (op, .ok resp) → AnsweredIn (seqLog ops i₀ w) (i₀ + i) op resp
  | (_, op) :: ops, i₀, w, 0, _, _, h => by
    simp only [seqAnswer, Option.some.injEq, Prod.mk.injEq] at h
    obtain ⟨rfl, h⟩ := h
    exact ⟨[], [], _, _, _, by simp only [seqLog, h]; rfl⟩
  | (_, op) :: ops, i₀, w, i + 1, _, _, h => by
    obtain ⟨A, B, C, x, y, e⟩ := seq_answered (ops := ops) (i₀ := i₀ + 1) (w := ((op.prog true).alone w).2) (i := i) h
    have : i₀ + (i + 1) = i₀ + 1 + i := by omega
    rw [this]
    exact ⟨.call i₀ op w :: .ret i₀ _ _ :: A, B, C, x, y, by simp only [seqLog, e]; rfl⟩

theorem seq_answer_inv : ∀ {ops : List (Nat × ClientOp)} {i₀ : Nat} {w : World} {i : Nat} {op : ClientOp}
    {resp : ClientResp}, AnsweredIn (seqLog ops i₀ w) i op resp →
    ∃ j, i = i₀ + j ∧ seqAnswer ops w j = some (op, .ok resp)
  | [], _, _, _, _, _, ⟨A, B, C, _, _, h⟩ => by simp [seqLog] at h
  | (n, op') :: ops, i₀, w, i, op, resp, ⟨A, B, C, x, y, h⟩ => by
    have tail : ∀ {A' B' C'}, seqLog ops (i₀ + 1) ((op'.prog true).alone w).2 =
        A' ++ .call i op x :: B' ++ .ret i (.ok resp) y :: C' →
        ∃ j, i = i₀ + j ∧ seqAnswer ((n, op') :: ops) w j = some (op, .ok resp) := by
      intro A' B' C' e
      obtain ⟨j, h1, h2⟩ := seq_answer_inv ⟨A', B', C', x, y, e⟩
      exact ⟨j + 1, by omega, h2⟩
    match A with
    | [] =>
      simp only [seqLog, List.nil_append, List.cons_append, List.cons.injEq, CEv.call.injEq] at h
      obtain ⟨⟨h1, h2, _⟩, h3⟩ := h
      cases B with
      | nil =>
        simp only [List.nil_append, List.cons.injEq, CEv.ret.injEq] at h3
        subst h2
        exact ⟨0, by omega, by simp [seqAnswer, h3.1.2.1]⟩
      | cons b B =>
        simp only [List.cons_append, List.cons.injEq] at h3
        have hm : CEv.ret i (.ok resp) y ∈ seqLog ops (i₀ + 1) ((op'.prog true).alone w).2 := by rw [h3.2]; simp
        have := seq_ids hm
        simp only [CEv.id] at this
        omega
    | [a] =>
      simp only [seqLog, List.cons_append, List.nil_append, List.cons.injEq] at h
      cases h.2.1
    | a :: b :: A =>
      simp only [seqLog, List.cons_append, List.cons.injEq] at h
      exact tail (by simpa using h.2.2)
where
  seq_ids : ∀ {ops : List (Nat × ClientOp)} {i₀ : Nat} {w : World} {e : CEv}, e ∈ seqLog ops i₀ w → i₀ ≤ e.id
    | [], _, _, _, h => by simp [seqLog] at h
    | (_, op) :: ops, i₀, w, e, h => by
      simp only [seqLog, List.mem_cons] at h
      rcases h with rfl | rfl | h
      · exact Nat.le_refl _
      · exact Nat.le_refl _
      · have := seq_ids h; omega

theorem seq_before : ∀ {ops : List (Nat × ClientOp)} {i₀ : Nat} {w : World} {i j : Nat}, i < j → j < ops.length →
    ReturnedBefore (seqLog ops i₀ w) (i₀ + i) (i₀ + j)
  | (_, op) :: ops, i₀, w, i + 1, j + 1, h, hj => by
    obtain ⟨A, B, C, x, y, z, u, e⟩ := seq_before (i₀ := i₀ + 1) (w := ((op.prog true).alone w).2) (i := i) (j := j)
      (by omega) (by simpa using hj)
    have e1 : i₀ + (i + 1) = i₀ + 1 + i := by omega
    have e2 : i₀ + (j + 1) = i₀ + 1 + j := by omega
    rw [e1, e2]
    exact ⟨.call i₀ op w :: .ret i₀ _ _ :: A, B, C, x, y, z, u, by simp only [seqLog, e]; rfl⟩
  | (_, op) :: ops, i₀, w, 0, j + 1, _, hj => by
    obtain ⟨B, C, z, u, e⟩ := seq_called (i₀ := i₀ + 1) (w := ((op.prog true).alone w).2) (j := j) (by simpa using hj)
    have e2 : i₀ + (j + 1) = i₀ + 1 + j := by omega
    rw [e2]
    exact ⟨[.call i₀ op w], B, C, _, _, z, u, by simp only [seqLog, e]; rfl⟩
where
  seq_called : ∀ {ops : List (Nat × ClientOp)} {i₀ : Nat} {w : World} {j : Nat}, j < ops.length →
      ∃ B C op u, seqLog ops i₀ w = B ++ .call (i₀ + j) op u :: C
    | (_, op) :: ops, i₀, w, 0, _ => ⟨[], _, op, w, rfl⟩
    | (_, op) :: ops, i₀, w, j + 1, h => by
      obtain ⟨B, C, z, u, e⟩ := seq_called (i₀ := i₀ + 1) (w := ((op.prog true).alone w).2) (j := j) (by simpa using h)
      have e2 : i₀ + (j + 1) = i₀ + 1 + j := by omega
      rw [e2]
      exact ⟨.call i₀ op w :: .ret i₀ _ _ :: B, C, z, u, by simp only [seqLog, e]; rfl⟩

/-! ## C82 Optimistic concurrency loses no update -/

theorem seen_unique {h : History} (w : h.Wf) {kv kv' : KV} {q q' : Int} (h1 : h.at q kv.key = some kv)
    (h2 : h.at q' kv.key = some kv') (he : kv'.modRev = kv.modRev) : kv' = kv := by
  have key : ∀ {x : KV} {p : Int}, h.at p kv.key = some x → h.at x.modRev kv.key = some x := by
    intro x p hx
    obtain ⟨_, a2, _, _, a5⟩ := at_some_inv w hx
    rw [← hx]
    refine (at_eq_of_no_between a2 ?_).symm
    intro c hc hk hlt
    have := a5 c hc hk
    omega
  have e1 := key h1
  have e2 := key h2
  rw [he, e1] at e2
  cases e2
  rfl

/-- An update guarded by the mod revision of a version that some client was shown (by a read or by a failed
transaction) and answered with success was applied to exactly that version: no other write came in between, and the key
now has the new value as the next version of the same incarnation. -/
theorem C82_update_applies_to_what_was_read {H : List CEv} {m : MSys} (r : MRun (fun _ => True) MSys.init H m) {kv : KV}
    (hsaw : Saw H kv) {i : Nat} {v : Bytes} {l : Int} {resp : TxnResp}
    (ha : AnsweredIn H i (.update kv.key kv.modRev v l) (.txn resp)) (hs : resp.succeeded = true) :
    m.world.hist.at (resp.header - 1) kv.key = some kv ∧
    m.world.hist.at resp.header kv.key = some ⟨kv.key, v, l, kv.createRev, resp.header⟩ := by
  obtain ⟨S, hl, h2, _⟩ := C81_linearizable r
  obtain ⟨q, hq⟩ := saw_real r hsaw
  have w := (hl.ext .nil).1
  obtain ⟨_, _, key, rev, wr, hop, _, _, hb, hat⟩ := hl.wrote .nil ((h2 _ _ _).2 ha) hs
  cases hop
  have hb : m.world.hist.at (resp.header - 1) kv.key = some kv := by
    rcases hb with ⟨_, h0⟩ | ⟨kv', h3, h4⟩
    · have := (at_some_inv w hq).2.2.1; omega
    · rw [h3, seen_unique w hq h3 h4]
  refine ⟨hb, ?_⟩
  rw [hat, hb]
  rfl

/-- The calls in a sequential execution that successfully updated key `k`. -/
def updaters (k : Bytes) (S : List Entry) : List Nat :=
  S.filterMap fun
    | .op i (.update k' _ _ _) (.txn resp) => if k' = k ∧ resp.succeeded = true then some i else none
    | _ => none

theorem mem_updaters {k : Bytes} {S : List Entry} {i : Nat} : i ∈ updaters k S ↔
    ∃ rev v l resp, Entry.op i (.update k rev v l) (.txn resp) ∈ S ∧ resp.succeeded = true := by
  unfold updaters
  rw [List.mem_filterMap]
  constructor
  · rintro ⟨e, he, hx⟩
    split at hx
    · split at hx
      · rename_i h
        cases hx
        obtain ⟨rfl, h2⟩ := h
        exact ⟨_, _, _, _, he, h2⟩
      · cases hx
    · cases hx
  · rintro ⟨rev, v, l, resp, he, hs⟩
    exact ⟨_, he, by simp [hs]⟩

theorem now_other {h : History} {c : Commit} {k : Bytes} (hc : c.key ≠ k) : (h ++ [c]).now k = h.now k := by
  rw [now_snoc]
  simp [hc]

theorem Legal.counter {h h' : History} {S : List Entry} (l : Legal h S h') {k v0 : Bytes} {f : Bytes → Bytes}
    {P : KV → Prop} (hP : ∀ kv kv', P kv → kv.key = k → (∃ m, m.now k = some kv' ∧ ∃ t, h' = m ++ t) →
      kv'.modRev = kv.modRev → kv' = kv) (hpos : ∀ kv, P kv → 0 < kv.modRev) (w : h.Wf)
    (hoth : ∀ c, Entry.other c ∈ S → c.key ≠ k)
    (hops : ∀ i op resp rev wr, Entry.op i op (.txn resp) ∈ S → resp.succeeded = true →
      op.asWrite = some (k, rev, wr) →
      (∃ l, op = .create k v0 l) ∨ ∃ kv l, P kv ∧ kv.key = k ∧ op = .update k kv.modRev (f kv.value) l) (n : Nat)
    (hn : (h.now k = none ∧ n = 0) ∨ ∃ kv, h.now k = some kv ∧ kv.value = Nat.repeat f n v0) :
    (h'.now k = none ∧ n + (updaters k S).length = 0) ∨
      ∃ kv, h'.now k = some kv ∧ kv.value = Nat.repeat f (n + (updaters k S).length) v0 := by
  induction l generalizing n with
  | nil h => simpa [updaters] using hn
  | @other h h'' c S hc l ih =>
    have e : updaters k (.other c :: S) = updaters k S := rfl
    rw [e]
    refine ih hP (Wf_snoc w hc) (fun c hc => hoth c (by simp [hc]))
      (fun i op resp rev wr hm => hops i op resp rev wr (by simp [hm])) n ?_
    rw [now_other (hoth c (by simp))]
    exact hn
  | @op h h₁ h'' i op resp S s l ih =>
    have ih' := ih hP (s.ext w).1 (fun c hc => hoth c (by simp [hc]))
      (fun i op resp rev wr hm => hops i op resp rev wr (by simp [hm]))
    cases s with
    | read key re rr =>
      have e : updaters k (.op i (.read key re) (.read rr) :: S) = updaters k S := rfl
      rw [e]
      exact ih' n hn
    | failure _ _ _ _ rr hop hrev hf =>
      have e : updaters k (.op i op (.txn rr) :: S) = updaters k S := by
        unfold updaters
        rw [List.filterMap_cons]
        cases op with
        | update k' _ _ _ => simp [hf]
        | _ => rfl
      rw [e]
      exact ih' n hn
    | success _ key rev wr rr hop hrev hs hhdr =>
      by_cases hk : key = k
      · subst hk
        rcases hops i op rr rev wr (by simp) hs hop with ⟨l', rfl⟩ | ⟨kv, l', hp, hkk, rfl⟩
        · cases hop
          have e : updaters key (.op i (.create key v0 l') (.txn rr) :: S) = updaters key S := rfl
          rw [e]
          have hz : h.now key = none := by
            cases hx : h.now key with
            | none => rfl
            | some kv =>
              unfold Etcd.modRev at hrev
              rw [hx] at hrev
              have := (at_some_inv w (r := h.top) (k := key) (kv := kv)
                (by rw [now_eq_at fun c hc => le_top w hc]; exact hx)).2.2.1
              simp only at hrev
              omega
          rcases hn with ⟨_, rfl⟩ | ⟨kv, h3, _⟩
          · refine ih' 0 (Or.inr ⟨⟨key, v0, l', h.top + 1, h.top + 1⟩, ?_, rfl⟩)
            rw [now_snoc, hz]
            simp [Commit.applyTo]
          · rw [hz] at h3; cases h3
        · cases hop
          have e : (updaters key (.op i (.update key kv.modRev (f kv.value) l') (.txn rr) :: S)).length
              = 1 + (updaters key S).length := by
            unfold updaters
            rw [List.filterMap_cons]
            simp [hs, Nat.add_comm]
          rw [e, ← Nat.add_assoc]
          have hpz := hpos kv hp
          cases hx : h.now key with
          | none =>
            unfold Etcd.modRev at hrev
            rw [hx] at hrev
            simp only at hrev
            omega
          | some kv' =>
            have hmr : kv'.modRev = kv.modRev := by
              unfold Etcd.modRev at hrev
              rw [hx] at hrev
              exact hrev
            obtain ⟨_, _, u, hu⟩ := l.ext (Wf_snoc w (by simp only; omega))
            have hkv : kv' = kv := hP kv kv' hp hkk ⟨h, hx, _, by rw [hu, List.append_assoc]⟩ hmr
            subst hkv
            rcases hn with ⟨h3, _⟩ | ⟨kv₂, h3, h4⟩
            · rw [hx] at h3; cases h3
            · rw [hx] at h3
              cases h3
              refine ih' (n + 1) (Or.inr ⟨⟨key, f kv'.value, l', kv'.createRev, h.top + 1⟩, ?_, ?_⟩)
              · rw [now_snoc, hx]
                simp [Commit.applyTo]
              · simp only [Nat.repeat, h4]
      · have e : updaters k (.op i op (.txn rr) :: S) = updaters k S := by
          unfold updaters
          rw [List.filterMap_cons]
          cases op with
          | update k' _ _ _ => cases hop; simp [hk]
          | _ => rfl
        rw [e]
        refine ih' n ?_
        rw [now_other (by simpa using hk)]
        exact hn

/-- Read-modify-write. Key `k` is created with value `v0`, and otherwise only written by updates that apply `f` to a
value some client was shown, guarded by the mod revision it was shown with; everything written to `k` was written by
calls that were answered. Then however the clients interleave and whichever nodes they use, the value is `f` applied to
`v0` exactly once for each update that was answered with success. -/
theorem C82_no_lost_updates {H : List CEv} {m : MSys} (r : MRun (fun _ => True) MSys.init H m) {k v0 : Bytes}
    {f : Bytes → Bytes}
    (hall : ∀ c ∈ m.world.hist, c.key = k →
      ∃ i op resp, AnsweredIn H i op (.txn resp) ∧ resp.succeeded = true ∧ resp.header = c.rev)
    (hops : ∀ i op resp rev wr, AnsweredIn H i op (.txn resp) → resp.succeeded = true →
      op.asWrite = some (k, rev, wr) →
      (∃ l, op = .create k v0 l) ∨ ∃ kv l, Saw H kv ∧ kv.key = k ∧ op = .update k kv.modRev (f kv.value) l) :
    ∃ incs : List Nat, incs.Nodup ∧
      (∀ i, i ∈ incs ↔ ∃ rev v l resp, AnsweredIn H i (.update k rev v l) (.txn resp) ∧ resp.succeeded = true) ∧
      ((m.world.hist.now k = none ∧ incs = []) ∨
        ∃ kv, m.world.hist.now k = some kv ∧ kv.value = Nat.repeat f incs.length v0) := by
  obtain ⟨S, hl, h2, _, h4, _⟩ := C81_linearizable r
  have w := (hl.ext .nil).1
  refine ⟨updaters k S, ?_, ?_, ?_⟩
  · unfold updaters
    rw [List.Nodup, List.pairwise_filterMap]
    refine h4.imp ?_
    intro e e' hp i hi j hj hij
    subst hij
    split at hi
    · split at hi
      · split at hj
        · split at hj
          · cases hi; cases hj
            exact hp _ _ _ _ _ rfl rfl
          · cases hj
        · cases hj
      · cases hi
    · cases hi
  · intro i
    rw [mem_updaters]
    simp only [h2]
  · have hoth : ∀ c, Entry.other c ∈ S → c.key ≠ k := by
      intro c hc hk
      obtain ⟨S₁, S₂, rfl⟩ := List.append_of_mem hc
      obtain ⟨m₁, a1, a2⟩ := hl.split
      cases a2 with
      | other htop a3 =>
        obtain ⟨w1, t1, _⟩ := a1.ext .nil
        have w2 := Wf_snoc w1 htop
        obtain ⟨w3, t3, u, hu⟩ := a3.ext w2
        obtain ⟨i, op, resp, b1, b2, b3⟩ := hall c (by rw [hu]; simp) hk
        rcases List.mem_append.1 ((h2 _ _ _).2 b1) with h | h
        · have := (a1.wrote .nil h b2).2.1; omega
        · rcases List.mem_cons.1 h with h | h
          · cases h
          · have := (a3.wrote w2 h b2).1
            rw [top_snoc] at this
            omega
    have := hl.counter (k := k) (v0 := v0) (f := f) (P := fun kv => Saw H kv) ?_ ?_ .nil hoth ?_ 0 (Or.inl ⟨rfl, rfl⟩)
    · rcases this with ⟨h5, h6⟩ | ⟨kv, h5, h6⟩
      · exact Or.inl ⟨h5, List.length_eq_zero_iff.1 (by omega)⟩
      · exact Or.inr ⟨kv, h5, by rw [h6, Nat.zero_add]⟩
    · intro kv kv' hsaw hkey ⟨m₁, hm₁, t, ht⟩ hmr
      obtain ⟨q, hq⟩ := saw_real r hsaw
      have w1 : History.Wf m₁ := by rw [ht] at w; exact w.left
      have : m.world.hist.at m₁.top kv.key = some kv' := by
        rw [ht, at_ext (by rw [← ht]; exact w) (Int.le_refl _), now_eq_at fun c hc => le_top w1 hc, hkey]
        exact hm₁
      exact seen_unique w hq this hmr
    · intro kv hsaw
      obtain ⟨q, hq⟩ := saw_real r hsaw
      exact (at_some_inv w hq).2.2.1
    · intro i op resp rev wr hm
      exact hops i op resp rev wr ((h2 _ _ _).1 hm)

/-- Two clients of two nodes read a counter, both update it from what they read, the second one is refused, is shown the
new version, and tries again. -/
def raceOps : List (Nat × ClientOp) :=
  [(0, .create Demo.ka [1] 0), (0, .read Demo.ka []), (1, .read Demo.ka []), (0, .update Demo.ka 1 [2] 0),
   (1, .update Demo.ka 1 [2] 0), (1, .update Demo.ka 2 [3] 0)]

/-- The answers of the race. -/
def raceAnswers : List ClientResp :=
  [.txn { header := 1, succeeded := true, responses := [.put 1] },
   .read { header := 1, kvs := [⟨Demo.ka, [1], 0, 1, 1⟩] },
   .read { header := 1, kvs := [⟨Demo.ka, [1], 0, 1, 1⟩] },
   .txn { header := 2, succeeded := true, responses := [.put 2] },
   .txn { header := 0, succeeded := false, responses := [.range { header := 2, kvs := [⟨Demo.ka, [2], 0, 1, 2⟩] }] },
   .txn { header := 3, succeeded := true, responses := [.put 3] }]

theorem race_answers : (List.range 6).map (seqAnswer raceOps World.init) =
    List.zipWith (fun o a => some (o.2, .ok a)) raceOps raceAnswers := by
  decide +kernel

theorem race_answer {i : Nat} {op : ClientOp} {resp : ClientResp}
    (h : AnsweredIn (seqLog raceOps 0 World.init) i op resp) :
    ∃ n, raceOps[i]? = some (n, op) ∧ raceAnswers[i]? = some resp := by
  obtain ⟨j, h1, h2⟩ := seq_answer_inv h
  have : i = j := by omega
  subst this
  by_cases hj : i < 6
  · have e := congrArg (fun l => l[i]?) race_answers
    simp only [List.getElem?_map, List.getElem?_range hj, Option.map_some, List.getElem?_zipWith] at e
    rw [h2] at e
    cases ho : raceOps[i]? with
    | none => rw [ho] at e; simp at e
    | some o =>
      cases ha : raceAnswers[i]? with
      | none => rw [ho, ha] at e; simp at e
      | some a =>
        rw [ho, ha] at e
        simp only [Option.some.injEq, Prod.mk.injEq, Except.ok.injEq] at e
        exact ⟨o.1, by rw [e.1], by rw [e.2]⟩
  · exfalso
    have : seqAnswer raceOps World.init i = none := by
      match i, hj with
      | i + 6, _ => rfl
      | 0, h | 1, h | 2, h | 3, h | 4, h | 5, h => omega
    rw [this] at h2
    cases h2

example : ∃ H m, MRun (fun _ => True) MSys.init H m ∧ Saw H ⟨Demo.ka, [2], 0, 1, 2⟩ ∧
    AnsweredIn H 5 (.update Demo.ka 2 [3] 0) (.txn { header := 3, succeeded := true, responses := [.put 3] }) ∧
    (∀ c ∈ m.world.hist, c.key = Demo.ka →
      ∃ i op resp, AnsweredIn H i op (.txn resp) ∧ resp.succeeded = true ∧ resp.header = c.rev) ∧
    (∀ i op resp rev wr, AnsweredIn H i op (.txn resp) → resp.succeeded = true →
      op.asWrite = some (Demo.ka, rev, wr) →
      (∃ l, op = .create Demo.ka [1] l) ∨
      ∃ kv l, Saw H kv ∧ kv.key = Demo.ka ∧ op = .update Demo.ka kv.modRev (kv.value.map (· + 1)) l) ∧
    m.world.hist.now Demo.ka = some ⟨Demo.ka, [3], 0, 1, 3⟩ := by
  obtain ⟨m, r, hw⟩ := seq_run (P := fun _ => True) trivial raceOps MSys.init (by decide +kernel) (fun _ => rfl)
  have h0 := seq_answered (ops := raceOps) (i₀ := 0) (w := World.init) (i := 0) (op := .create Demo.ka [1] 0)
    (resp := .txn { header := 1, succeeded := true, responses := [.put 1] }) (by decide +kernel)
  have h1 := seq_answered (ops := raceOps) (i₀ := 0) (w := World.init) (i := 1) (op := .read Demo.ka [])
    (resp := .read { header := 1, kvs := [⟨Demo.ka, [1], 0, 1, 1⟩] }) (by decide +kernel)
  have h3 := seq_answered (ops := raceOps) (i₀ := 0) (w := World.init) (i := 3) (op := .update Demo.ka 1 [2] 0)
    (resp := .txn { header := 2, succeeded := true, responses := [.put 2] }) (by decide +kernel)
  have h4 := seq_answered (ops := raceOps) (i₀ := 0) (w := World.init) (i := 4) (op := .update Demo.ka 1 [2] 0)
    (resp := .txn { header := 0, succeeded := false, responses := [.range { header := 2, kvs := [⟨Demo.ka, [2], 0, 1, 2⟩] }] })
    (by decide +kernel)
  have h5 := seq_answered (ops := raceOps) (i₀ := 0) (w := World.init) (i := 5) (op := .update Demo.ka 2 [3] 0)
    (resp := .txn { header := 3, succeeded := true, responses := [.put 3] }) (by decide +kernel)
  have s1 : Saw (seqLog raceOps 0 World.init) ⟨Demo.ka, [1], 0, 1, 1⟩ := ⟨_, _, _, h1, by decide +kernel⟩
  have s2 : Saw (seqLog raceOps 0 World.init) ⟨Demo.ka, [2], 0, 1, 2⟩ := ⟨_, _, _, h4, by decide +kernel⟩
  have hh : m.world.hist = [⟨1, Demo.ka, some ([1], 0)⟩, ⟨2, Demo.ka, some ([2], 0)⟩, ⟨3, Demo.ka, some ([3], 0)⟩] := by
    rw [hw]; decide +kernel
  refine ⟨_, m, r, s2, h5, ?_, ?_, by rw [hh]; decide +kernel⟩
  · rw [hh]
    intro c hc _
    simp only [List.mem_cons, List.not_mem_nil, or_false] at hc
    rcases hc with rfl | rfl | rfl
    · exact ⟨_, _, _, h0, rfl, rfl⟩
    · exact ⟨_, _, _, h3, rfl, rfl⟩
    · exact ⟨_, _, _, h5, rfl, rfl⟩
  · intro i op resp rev wr ha hs hop
    obtain ⟨n, e1, e2⟩ := race_answer ha
    match i, e1, e2 with
    | 0, e1, _ => cases e1; exact Or.inl ⟨0, rfl⟩
    | 1, _, e2 => cases e2
    | 2, _, e2 => cases e2
    | 3, e1, _ => cases e1; exact Or.inr ⟨_, 0, s1, rfl, rfl⟩
    | 4, _, e2 => cases e2; cases hs
    | 5, e1, _ => cases e1; exact Or.inr ⟨_, 0, s2, rfl, rfl⟩
    | i + 6, e1, _ => cases e1

/-! ## C83 A key is a lock -/

/-- Between two successful creates of one key the key was deleted. -/
theorem C83_one_holder {H : List CEv} {m : MSys} (r : MRun (fun _ => True) MSys.init H m) {k : Bytes} {i j : Nat}
    {v v' : Bytes} {l l' : Int} {resp resp' : TxnResp} (hi : AnsweredIn H i (.create k v l) (.txn resp))
    (hj : AnsweredIn H j (.create k v' l') (.txn resp')) (hs : resp.succeeded = true) (hs' : resp'.succeeded = true)
    (hne : i ≠ j) :
    ∃ c ∈ m.world.hist, c.key = k ∧ c.write = none ∧
      (resp.header < c.rev ∧ c.rev < resp'.header ∨ resp'.header < c.rev ∧ c.rev < resp.header) := by
  obtain ⟨S, hl, h2, _⟩ := C81_linearizable r
  have w := (hl.ext .nil).1
  have hd := hl.headers .nil ((h2 _ _ _).2 hi) ((h2 _ _ _).2 hj) hne hs hs'
  have key : ∀ {i j : Nat} {v v' : Bytes} {l l' : Int} {resp resp' : TxnResp},
      AnsweredIn H i (.create k v l) (.txn resp) → AnsweredIn H j (.create k v' l') (.txn resp') →
      resp.succeeded = true → resp'.succeeded = true → resp.header < resp'.header →
      ∃ c ∈ m.world.hist, c.key = k ∧ c.write = none ∧ resp.header < c.rev ∧ c.rev < resp'.header := by
    intro i j v v' l l' resp resp' hi hj hs hs' hlt
    obtain ⟨_, _, _, _, _, hop, hm, _, _⟩ := hl.wrote .nil ((h2 _ _ _).2 hi) hs
    cases hop
    obtain ⟨_, _, _, _, _, hop', _, _, hb, _⟩ := hl.wrote .nil ((h2 _ _ _).2 hj) hs'
    cases hop'
    have hb : m.world.hist.at (resp'.header - 1) k = none := by
      rcases hb with h | ⟨kv, h3, h4⟩
      · exact h.1
      · have := (at_some_inv w h3).2.2.1; omega
    rcases exists_last (h := m.world.hist) (resp'.header - 1) k with hn | ⟨c, hc, hk, hr, hlast⟩
    · exact absurd (by simp only; omega) (hn _ hm rfl)
    · refine ⟨c, hc, hk, ?_, ?_, by omega⟩
      · exact at_none_last w hb hc hk hr hlast
      · have h1 := hlast _ hm rfl (by simp only; omega)
        simp only at h1
        rcases Int.lt_or_eq_of_le h1 with h | h
        · exact h
        · have := Wf_rev_inj w hm hc h
          have hcw := at_none_last w hb hc hk hr hlast
          rw [← this] at hcw
          cases hcw
  rcases Int.lt_or_gt_of_ne hd with h | h
  · obtain ⟨c, h1, h3, h4, h5⟩ := key hi hj hs hs' h
    exact ⟨c, h1, h3, h4, Or.inl h5⟩
  · obtain ⟨c, h1, h3, h4, h5⟩ := key hj hi hs' hs h
    exact ⟨c, h1, h3, h4, Or.inr h5⟩

/-- While the lock is not deleted, every create called after the holder's returned is refused (if it is answered). -/
theorem C83_held_lock_refuses {H : List CEv} {m : MSys} (r : MRun (fun _ => True) MSys.init H m) {k : Bytes} {i j : Nat}
    {v v' : Bytes} {l l' : Int} {resp resp' : TxnResp} (hi : AnsweredIn H i (.create k v l) (.txn resp))
    (hj : AnsweredIn H j (.create k v' l') (.txn resp')) (hs : resp.succeeded = true) (hne : i ≠ j)
    (hb : ReturnedBefore H i j)
    (hheld : ∀ c ∈ m.world.hist, c.key = k → resp.header < c.rev → c.write ≠ none) : resp'.succeeded = false := by
  cases hs' : resp'.succeeded with
  | false => rfl
  | true =>
    exfalso
    obtain ⟨S, hl, h2, _, _, h5⟩ := C81_linearizable r
    obtain ⟨S₁, S₂, S₃, rfl⟩ := h5 _ _ _ _ _ _ hb ((h2 _ _ _).2 hi) ((h2 _ _ _).2 hj)
    obtain ⟨m₁, a1, a2⟩ := hl.split
    obtain ⟨w1, _⟩ := a1.ext .nil
    have x1 := (a1.wrote .nil (i := i) (op := .create k v l) (by simp) hs).2.1
    have x2 := (a2.wrote w1 (i := j) (op := .create k v' l') (by simp) hs').1
    obtain ⟨c, hc, hk, hw, h6 | h6⟩ := C83_one_holder r hi hj hs hs' hne
    · exact hheld c hc hk h6.1 hw
    · omega

/-- Releasing is fenced: a successful delete guarded by revision `rev` removed the version `rev` and no other. So a
client whose lock was lost cannot release the lock of the next holder. -/
theorem C83_release_is_fenced {H : List CEv} {m : MSys} (r : MRun (fun _ => True) MSys.init H m) {k : Bytes} {i : Nat}
    {rev : Int} {resp : TxnResp} (hi : AnsweredIn H i (.delete k rev) (.txn resp)) (hs : resp.succeeded = true)
    (h0 : rev ≠ 0) :
    (∃ kv, m.world.hist.at (resp.header - 1) k = some kv ∧ kv.modRev = rev) ∧
    m.world.hist.at resp.header k = none ∧
    ∀ j v l resp', AnsweredIn H j (.create k v l) (.txn resp') → resp'.succeeded = true → rev < resp'.header →
      resp.header < resp'.header := by
  obtain ⟨S, hl, h2, _⟩ := C81_linearizable r
  have w := (hl.ext .nil).1
  obtain ⟨_, _, _, _, _, hop, hm, hu, hb, hat⟩ := hl.wrote .nil ((h2 _ _ _).2 hi) hs
  cases hop
  have hb : ∃ kv, m.world.hist.at (resp.header - 1) k = some kv ∧ kv.modRev = rev := by
    rcases hb with ⟨_, h⟩ | h
    · exact absurd h h0
    · exact h
  refine ⟨hb, hat, ?_⟩
  intro j v l resp' hj hs' hlt
  obtain ⟨_, _, _, _, _, hop', hm', _⟩ := hl.wrote .nil ((h2 _ _ _).2 hj) hs'
  cases hop'
  obtain ⟨kv, h3, h4⟩ := hb
  have h5 := (at_some_inv w h3).2.2.2.2 _ hm' rfl
  simp only at h5
  apply Classical.byContradiction
  intro hle
  rcases Int.lt_or_eq_of_le (Int.not_lt.1 hle) with h | h
  · have := h5 (by omega); omega
  · have := hu _ hm' h
    simp only [Commit.mk.injEq] at this
    cases this.2.2

/-- A lock is taken, refused to a second client, released, and taken by the second client; the first one tries to
release it again and is refused. -/
def lockOps : List (Nat × ClientOp) :=
  [(0, .create Demo.ka [1] 0), (1, .create Demo.ka [2] 0), (0, .delete Demo.ka 1), (1, .create Demo.ka [2] 0),
   (0, .delete Demo.ka 1)]

/-- One execution meets the hypotheses of all three theorems; without the delete the lock is held. -/
example : ∃ H m, MRun (fun _ => True) MSys.init H m ∧
    AnsweredIn H 0 (.create Demo.ka [1] 0) (.txn { header := 1, succeeded := true, responses := [.put 1] }) ∧
    AnsweredIn H 1 (.create Demo.ka [2] 0) (.txn { header := 0, succeeded := false }) ∧
    AnsweredIn H 2 (.delete Demo.ka 1) (.txn { header := 2, succeeded := true, responses := [.deleteRange 2] }) ∧
    AnsweredIn H 3 (.create Demo.ka [2] 0) (.txn { header := 3, succeeded := true, responses := [.put 3] }) ∧
    AnsweredIn H 4 (.delete Demo.ka 1) (.txn { header := 0, succeeded := false, responses := [.range { header := 3, kvs := [⟨Demo.ka, [2], 0, 3, 3⟩] }] }) := by
  obtain ⟨m, r, _⟩ := seq_run (P := fun _ => True) trivial lockOps MSys.init (by decide +kernel) (fun _ => rfl)
  exact ⟨_, m, r, seq_answered (i := 0) (by decide +kernel), seq_answered (i := 1) (by decide +kernel),
    seq_answered (i := 2) (by decide +kernel), seq_answered (i := 3) (by decide +kernel),
    seq_answered (i := 4) (by decide +kernel)⟩

example : ∃ H m, MRun (fun _ => True) MSys.init H m ∧ ReturnedBefore H 0 1 ∧
    AnsweredIn H 0 (.create Demo.ka [1] 0) (.txn { header := 1, succeeded := true, responses := [.put 1] }) ∧
    AnsweredIn H 1 (.create Demo.ka [2] 0) (.txn { header := 0, succeeded := false }) ∧
    ∀ c ∈ m.world.hist, c.key = Demo.ka → 1 < c.rev → c.write ≠ none := by
  obtain ⟨m, r, hw⟩ := seq_run (P := fun _ => True) trivial (lockOps.take 2) MSys.init (by decide +kernel) (fun _ => rfl)
  exact ⟨_, m, r, seq_before (i := 0) (j := 1) (by omega) (by decide), seq_answered (i := 0) (by decide +kernel),
    seq_answered (i := 1) (by decide +kernel), by rw [hw]; decide +kernel⟩

/-! ## C84 Answers never go back in time -/

/-- The revision an answer speaks of: that of the snapshot of a read, or that of the write that was made. -/
def ClientResp.revision : ClientResp → Option Int
  | .read r => some r.header
  | .txn r => if r.succeeded = true then some r.header else none

theorem op_revision {op : ClientOp} (ok : op.allowed) {v1 : Bool} {w w' : World} {t : List Obs} {resp : ClientResp}
    (f : Facts w t w') (h : Path (op.prog v1) t (.ok resp)) {a : Int} (ha : resp.revision = some a) :
    w.hist.top ≤ a ∧ a ≤ w'.hist.top ∧ (resp.wrote = true → w.hist.top < a) := by
  cases hop : op.asWrite with
  | none =>
    cases op with
    | read k e =>
      obtain ⟨x, hx, h'⟩ := path_map h
      cases x with
      | error e => cases hx
      | ok r =>
        cases hx
        cases ha
        obtain ⟨_, h1, h2, _⟩ := range_spec f h'
        exact ⟨h1, h2, nofun⟩
    | _ => cases hop
  | some x =>
    obtain ⟨key, rev, wr⟩ := x
    obtain ⟨r, rfl, ob, hob, hs⟩ := (op_write ok hop f h).1 resp rfl
    have hok : r.succeeded = true := by
      unfold ClientResp.revision at ha
      split at ha
      · rename_i he
        cases he
      · rename_i he
        cases he
        split at ha
        · assumption
        · cases ha
    have hra : r.header = a := by
      unfold ClientResp.revision at ha
      simp only [hok, ↓reduceIte, Option.some.injEq] at ha
      exact ha
    rw [hok, if_pos rfl] at hs
    generalize hpost : ob.post.hist = hp at hs
    have a1 := (f.pre ob hob).top
    have a2 := (f.post ob hob).top
    cases hs with
    | success _ _ _ _ _ _ _ _ hh =>
      rw [hpost, top_snoc] at a2
      simp only at a2
      exact ⟨by omega, by omega, fun _ => by omega⟩
    | failure _ _ _ _ _ _ _ hf => rw [hf] at hok; cases hok

theorem only_ret {l : List CEv} {c : Conc} (r : CRun Conc.init l c) {i : Nat} {op : ClientOp} {a b : Except ApiErr ClientResp}
    {w w' v : World} {A B C : List CEv} (hl : l = A ++ .call i op w :: B ++ .ret i a w' :: C) (hm : CEv.ret i b v ∈ l) :
    v = w' := by
  obtain ⟨h1, h2, h3, _⟩ := completed_parts r hl
  rw [hl] at hm
  simp only [List.append_assoc, List.cons_append, List.mem_append, List.mem_cons] at hm
  rcases hm with h | h | h | h | h
  · exact absurd rfl (h1 _ h)
  · cases h
  · exact absurd h (h2 _ _)
  · cases h; rfl
  · exact absurd rfl (h3 _ h)

theorem only_call {l : List CEv} {c : Conc} (r : CRun Conc.init l c) {i : Nat} {op op' : ClientOp}
    {a : Except ApiErr ClientResp} {w w' v : World} {A B C D E : List CEv}
    (hl : l = A ++ .call i op w :: B ++ .ret i a w' :: C) (hm : l = D ++ .call i op' v :: E) : v = w := by
  obtain ⟨h1, _⟩ := completed_parts r hl
  have hr := r
  rw [hm] at hr
  obtain ⟨n, h4, h5⟩ := crun_split hr
  obtain ⟨_, _, _, _, _, _, _, _, hge⟩ := crun_call (crun_facts h4 CInv.init).2 h5
  have hid := (crun_id_lt h4 CInv.init).2
  have hD : ∀ e ∈ D, e.id ≠ i := fun e he hx => by have := hid e he; omega
  have h : A ++ .call i op w :: (B ++ .ret i a w' :: C) = D ++ .call i op' v :: E := by
    rw [← hm, hl]; simp
  obtain ⟨_, h6, _⟩ := split_unique (P := fun e => e.id = i) h h1 hD rfl rfl
  cases h6
  rfl

/-- If call `j` is made after call `i` has returned, on whichever nodes: the answer of `j` speaks of a revision not before
that of `i`, and of a later one if `j` wrote. (Reads of one client are monotonic, its writes are ordered, its writes
follow its reads.) -/
theorem C84_never_back_in_time {H : List CEv} {m : MSys} (r : MRun (fun _ => True) MSys.init H m) {i j : Nat}
    {op op' : ClientOp} {resp resp' : ClientResp} (hb : ReturnedBefore H i j) (hi : AnsweredIn H i op resp)
    (hj : AnsweredIn H j op' resp') {a b : Int} (ha : resp.revision = some a) (hb' : resp'.revision = some b) :
    a ≤ b ∧ (resp'.wrote = true → a < b) := by
  obtain ⟨l, c, hr, rfl, hw⟩ := C81_batching_is_invisible r
  obtain ⟨A, B, C, x, w, opj, w', hl⟩ := hb
  obtain ⟨A, B, C, hl⟩ := filter_two hl
  obtain ⟨A₁, B₁, C₁, v, v', hl₁⟩ := hi
  obtain ⟨A₁, B₁, C₁, hl₁⟩ := filter_two hl₁
  obtain ⟨A₂, B₂, C₂, u, u', hl₂⟩ := hj
  obtain ⟨A₂, B₂, C₂, hl₂⟩ := filter_two hl₂
  obtain ⟨_, _, _, cf⟩ := completed_parts hr hl₁
  obtain ⟨_, _, _, cg⟩ := completed_parts hr hl₂
  obtain ⟨v1, hp⟩ := cf.path
  obtain ⟨v1', hp'⟩ := cg.path
  obtain ⟨_, h1, _⟩ := op_revision cf.allowed cf.facts hp ha
  obtain ⟨h2, _, h3⟩ := op_revision cg.allowed cg.facts hp' hb'
  have e1 : w = v' := only_ret hr hl₁ (b := x) (by rw [hl]; simp)
  have e2 : w' = u := only_call hr hl₂ (D := A ++ .ret i x w :: B) (E := C) (op' := opj) (by rw [hl])
  have f := (crun_facts hr CInv.init).1
  rw [hl] at f
  have hx := (facts_order (A := A ++ CEv.ret i x w :: B) (B := CEv.call j opj w' :: C) f (e := CEv.ret i x w)
    (e' := CEv.call j opj w') (by simp) (by simp)).top
  simp only [CEv.obs] at hx
  rw [e1, e2] at hx
  exact ⟨by omega, fun hw => by have := h3 hw; omega⟩

/-- Read your writes: a read called after a successful write has returned shows what was written, unless the key was
written again. (As in C64: no cursor breaks, and the answer is not overtaken by a compaction.) -/
theorem C84_read_your_writes {H : List CEv} {m : MSys} (r : MRun (fun o => ∀ n, o ≠ .trunc n) MSys.init H m) {i j : Nat}
    {op : ClientOp} {k key re : Bytes} {rev : Int} {wr : Option (Bytes × Int)} {resp : TxnResp} {rr : RangeResp}
    {A B C : List CEv} {w w' : World} (hb : ReturnedBefore H i j) (hi : AnsweredIn H i op (.txn resp))
    (hs : resp.succeeded = true) (hop : op.asWrite = some (k, rev, wr))
    (hj : H = A ++ .call j (.read key re) w :: B ++ .ret j (.ok (.read rr)) w' :: C)
    (hc : w'.db.compactRev ≤ rr.header) (hwant : Wanted key re k)
    (hno : ∀ c ∈ m.world.hist, c.key = k → resp.header < c.rev → rr.header < c.rev) :
    (∀ v l, wr = some (v, l) → ∃ kv ∈ rr.kvs, kv.key = k ∧ kv.value = v ∧ kv.lease = l ∧ kv.modRev = resp.header) ∧
    (wr = none → ∀ kv ∈ rr.kvs, kv.key ≠ k) := by
  obtain ⟨S, hl, h2, _, h4, _, h6⟩ := C81_linearizable_reads r
  have m1 := (h2 _ _ _).2 hi
  have m2 := h4 _ _ _ _ _ _ _ _ hj hc
  obtain ⟨S₁, S₂, S₃, rfl⟩ := h6 _ _ _ _ _ _ hb m1 m2
  have w3 := (hl.ext .nil).1
  obtain ⟨_, _, key', rev', wr', hop', hmem, _, _, hat⟩ := hl.wrote .nil m1 hs
  rw [hop] at hop'
  cases hop'
  obtain ⟨m₁, a1, a2⟩ := hl.split
  obtain ⟨w1, _, u, hu⟩ := a1.ext .nil
  have x1 := (a1.wrote .nil (i := i) (op := op) (by simp) hs).2.1
  cases a2 with
  | op s a3 =>
    cases s with
    | read _ _ _ e1 e2 _ _ =>
      obtain ⟨_, _, t, ht⟩ := a3.ext w1
      have hstate : m₁.at m₁.top k = m.world.hist.at resp.header k := by
        have hm : ∀ q, q ≤ m₁.top → m.world.hist.at q k = m₁.at q k := by
          intro q hq
          rw [ht, at_ext (by rw [← ht]; exact w3) hq]
        rw [← hm _ (Int.le_refl _)]
        refine at_eq_of_no_between x1 ?_
        intro c hc hk hle
        apply Classical.byContradiction
        intro hgt
        have := hno c hc hk (by omega)
        omega
      rw [hat] at hstate
      refine ⟨?_, ?_⟩
      · intro v l hwr
        subst hwr
        simp only [Commit.applyTo] at hstate
        obtain ⟨kv, hkv, p1, p2, p3, p4⟩ : ∃ kv, m₁.at m₁.top k = some kv ∧ kv.key = k ∧ kv.value = v ∧ kv.lease = l ∧
            kv.modRev = resp.header := by
          rw [hstate]
          exact ⟨_, rfl, rfl, rfl, rfl, rfl⟩
        subst p1
        exact ⟨kv, (e2.2 kv).2 ⟨hwant, hkv⟩, rfl, p2, p3, p4⟩
      · intro hwr kv hkv hk
        subst hwr
        have := ((e2.2 kv).1 hkv).2
        rw [hk, hstate] at this
        cases this

/-- A write on one node, then a read on another one: the hypotheses of the two theorems. -/
example : ∃ H m, MRun (fun o => ∀ n, o ≠ .trunc n) MSys.init H m ∧ ReturnedBefore H 0 1 ∧
    AnsweredIn H 0 (.create Demo.ka [1] 0) (.txn { header := 1, succeeded := true, responses := [.put 1] }) ∧
    AnsweredIn H 1 (.read Demo.ka []) (.read { header := 1, kvs := [⟨Demo.ka, [1], 0, 1, 1⟩] }) ∧
    (ClientResp.txn { header := 1, succeeded := true, responses := [.put 1] }).revision = some 1 ∧
    (ClientResp.read { header := 1, kvs := [⟨Demo.ka, [1], 0, 1, 1⟩] }).revision = some 1 ∧
    (∃ A B C w w', H = A ++ .call 1 (.read Demo.ka []) w :: B ++
      .ret 1 (.ok (.read { header := 1, kvs := [⟨Demo.ka, [1], 0, 1, 1⟩] })) w' :: C ∧ w'.db.compactRev ≤ 1) ∧
    Wanted Demo.ka [] Demo.ka ∧ ∀ c ∈ m.world.hist, c.key = Demo.ka → 1 < c.rev → 1 < c.rev := by
  obtain ⟨m, r, hw⟩ := seq_run (P := fun o => ∀ n, o ≠ .trunc n) (fun _ h => by cases h)
    [(0, .create Demo.ka [1] 0), (1, .read Demo.ka [])] MSys.init (by decide +kernel) (fun _ => rfl)
  have ha := seq_answered (ops := [(0, .create Demo.ka [1] 0), (1, .read Demo.ka [])]) (i₀ := 0) (w := World.init)
    (i := 1) (op := .read Demo.ka []) (resp := .read { header := 1, kvs := [⟨Demo.ka, [1], 0, 1, 1⟩] })
    (by decide +kernel)
  refine ⟨_, m, r, seq_before (i := 0) (j := 1) (by omega) (by decide), seq_answered (i := 0) (by decide +kernel),
    ha, rfl, rfl, ?_, rfl, fun _ _ _ h => h⟩
  refine ⟨[_, _], [], [], _, _, rfl, ?_⟩
  decide +kernel

/-- A read of the latest state that starts after an event was sent on a watch is at least as new as the event. -/
theorem C84_read_after_event {a : SSys} (h : SReachable a) {id : Int} {e : Event} (he : e ∈ eventsFor a.stream.out id)
    {s' : Sys} {v1 : Bool} {req : RangeReq} {t : List Obs} {resp : RangeResp} (h0 : req.revision = 0)
    (hr : Run a.base.sys (Bridge.range v1 req) t (.ok resp) s') :
    e.kv.modRev ≤ resp.header ∧
    ∃ q, e.kv.modRev ≤ q ∧ ∀ kv ∈ resp.kvs, Wanted req.key req.rangeEnd kv.key ∧ s'.world.hist.at q kv.key = some kv := by
  obtain ⟨hn, g, hg, hi⟩ := h.inv
  have hsent : e ∈ sentTo (g.received ++ g.queue) id := by
    rw [sentTo_append, hi.sent id]; simp [he]
  obtain ⟨u, hu, hx⟩ := List.mem_flatMap.1 hsent
  obtain ⟨p, hp, hep⟩ := List.mem_flatMap.1 hx
  obtain ⟨c, hc, hd⟩ := (C31_faithful_partial hn (List.mem_of_getElem? hg)).1 u hu p (List.mem_filter.1 hp).1 e hep
  have inv := hn.ninv.sys
  have hle := le_top inv.inv.wf hc
  have hrev : e.kv.modRev = c.rev := hd.1
  obtain ⟨hpth, f, _⟩ := run_facts hr inv (safe_range inv.inv v1 _)
  have h1 := (range_spec f hpth).2.1
  obtain ⟨_, q, hq, _, _, hk⟩ := range_sound f hpth
  exact ⟨by omega, q, by have := hq h0; omega, hk⟩

/-- The delete of `/b` at revision 8 is sent on watch 1; a read of `/b` afterwards is at revision 8 and shows it gone. -/
example : ∃ (a : SSys) (e : Event) (t : List Obs) (s' : Sys), SReachable a ∧ e ∈ eventsFor a.stream.out 1 ∧ e.kv.modRev = 8 ∧
    Run a.base.sys (Bridge.range true { key := Demo.kb }) t (.ok { header := 8, kvs := [] }) s' := by
  obtain ⟨w, n, st, h, hP⟩ := (SScenario.mk streamDemo.node (streamDemo.acts ++ [.sendUpdates])).check
    (fun w _ st => (eventsFor st.out 1).any (fun e => decide (e.kv.modRev = 8)) &&
      decide (answerOf [.me .ok, .me .ok] (Bridge.range true { key := Demo.kb }) w = some (.ok { header := 8, kvs := [] })))
    (by decide +kernel)
  simp only [Bool.and_eq_true, List.any_eq_true, decide_eq_true_eq] at hP
  obtain ⟨⟨e, he, h8⟩, hr⟩ := hP
  obtain ⟨t, hr⟩ := answerOf_run hr
  exact ⟨_, e, t, _, h, he, h8, hr⟩

end Verif
