import Verif.Lemmas.Routed
import Verif.Props.Linear
/-!
# C81 Batching writes is invisible to clients
-/

namespace Verif

/-- Take any execution of the whole system with a write batcher on every node: any number of clients on any nodes,
background work, queues of any length executed in one transaction with any fate, databases being closed, nodes crashing
at any point, and transactions of crashed nodes completed late. Then there is an execution of the system without any
batcher, in which every statement is executed on its own, with exactly the same calls and exactly the same answers at
the same instants (the record contains the history of the store at every call and every return), leaving the same
database. -/
theorem C81_batching_is_invisible {H : List CEv} {m : MSys} (r : MRun (fun _ => True) MSys.init H m) :
    ∃ l c, CRun Conc.init l c ∧ l.filter CEv.visible = H ∧ c.world = m.world := by
  obtain ⟨l, c, g, own, hr, hv, _, hs⟩ := r.simulate (fun _ _ => trivial) MOk.init Sim.init
  exact ⟨l, c, hr, hv.1, hs.world⟩

/-- So the database of the system with batchers is always one of the reachable ones, of which the theorems about the
store speak. -/
theorem C81_database_reachable {H : List CEv} {m : MSys} (r : MRun (fun _ => True) MSys.init H m) :
    ∃ s, Reachable s ∧ s.world = m.world := by
  obtain ⟨l, c, hr, _, hw⟩ := C81_batching_is_invisible r
  obtain ⟨s, h1, h2⟩ := hr.reachable
  exact ⟨s, h1, h2.trans hw⟩

/-- In record `H` of the clients, call `i` asked for `op` and was answered `resp`. -/
def AnsweredIn (H : List CEv) (i : Nat) (op : ClientOp) (resp : ClientResp) : Prop :=
  ∃ A B C w w', H = A ++ .call i op w :: B ++ .ret i (.ok resp) w' :: C

theorem filter_two {α : Type} {p : α → Bool} {l A B C : List α} {x y : α} (h : l.filter p = A ++ x :: B ++ y :: C) :
    ∃ A' B' C', l = A' ++ x :: B' ++ y :: C' := by
  obtain ⟨l1, l2, rfl, h1, h2⟩ := List.filter_eq_append_iff.1 h
  obtain ⟨l3, l4, rfl, _, h4⟩ := List.filter_eq_append_iff.1 h1
  obtain ⟨l5, l6, rfl, _⟩ := List.filter_eq_cons_iff.1 h2
  obtain ⟨l7, l8, rfl, _⟩ := List.filter_eq_cons_iff.1 h4
  exact ⟨l3 ++ l7, l8 ++ l5, l6, by simp⟩

theorem filter_two_rev {α : Type} {p : α → Bool} {l A B C : List α} {x y : α} (h : l = A ++ x :: B ++ y :: C)
    (hx : p x = true) (hy : p y = true) :
    l.filter p = A.filter p ++ x :: B.filter p ++ y :: C.filter p := by
  subst h
  simp [List.filter_append, hx, hy]

theorem linearize {P : Outcome → Prop} (hP : ∀ o, o.Whole → P o) {H : List CEv} {m : MSys} (r : MRun P MSys.init H m) :
    ∃ S : List Entry, Legal [] S m.world.hist ∧
      (∀ i op resp, Entry.op i op (.txn resp) ∈ S ↔ AnsweredIn H i op (.txn resp)) ∧
      (∀ i op resp, Entry.op i op resp ∈ S → AnsweredIn H i op resp) ∧
      ((∀ o, P o → o.Whole) → ∀ i op resp A B C w w', H = A ++ .call i op w :: B ++ .ret i (.ok (.read resp)) w' :: C →
        w'.db.compactRev ≤ resp.header → Entry.op i op (.read resp) ∈ S) ∧
      S.Pairwise (fun e e' => ∀ i op resp op' resp', e = .op i op resp → e' ≠ .op i op' resp') ∧
      (∀ i j op resp op' resp', ReturnedBefore H i j → Entry.op i op resp ∈ S → Entry.op j op' resp' ∈ S →
        ∃ S₁ S₂ S₃, S = S₁ ++ .op i op resp :: S₂ ++ .op j op' resp' :: S₃) := by
  obtain ⟨l, c, g, own, hr, ⟨rfl, hout⟩, _, hs⟩ := r.simulate hP MOk.init Sim.init
  obtain ⟨S, h1, h2, h3, h4⟩ := C74_linearizable hr
  rw [hs.world] at h1
  have hto : ∀ i op resp, Entry.op i op resp ∈ S → AnsweredIn (l.filter CEv.visible) i op resp := by
    intro i op resp h
    obtain ⟨t, w, w', ⟨A, B, C, hl, _⟩, _⟩ := (h2 i op resp).1 h
    exact ⟨_, _, _, w, w', filter_two_rev hl rfl rfl⟩
  refine ⟨S, h1, fun i op resp => ⟨hto i op _, ?_⟩, hto, ?_, h3, ?_⟩
  · rintro ⟨A, B, C, w, w', hl⟩
    obtain ⟨A', B', C', hl'⟩ := filter_two hl
    exact (h2 i op _).2 ⟨_, w, w', ⟨A', B', C', hl', rfl⟩, trivial⟩
  · intro hw i op resp A B C w w' hl hc
    obtain ⟨A', B', C', hl'⟩ := filter_two hl
    refine (h2 i op _).2 ⟨_, w, w', ⟨A', B', C', hl', rfl⟩, ?_, hc⟩
    intro ob hob n he
    obtain ⟨ev, hev, hx⟩ := List.mem_filterMap.1 hob
    cases ev with
    | stmt j ob' =>
      simp only at hx
      split at hx
      · cases hx
        exact hw _ (hout j ob (by rw [hl']; simp [hev])) n he
      · cases hx
    | call _ _ _ => cases hx
    | ret _ _ _ => cases hx
  · intro i j op resp op' resp' ⟨A, B, C, a, w, opj, w', hl⟩ hi hj
    obtain ⟨A', B', C', hl'⟩ := filter_two hl
    exact h4 i j op resp op' resp' ⟨A', B', C', a, w, opj, w', hl'⟩ hi hj

/-- Linearizability with the batchers in place, in terms of what clients see: there is one sequential execution of the
store, legal step by step, ending in the actual history, which contains every answered write exactly once with exactly
the answer its client got, contains otherwise only answered reads (each at most once, with its answer), and orders any
operation that returned before another was called before it. -/
theorem C81_linearizable {H : List CEv} {m : MSys} (r : MRun (fun _ => True) MSys.init H m) :
    ∃ S : List Entry, Legal [] S m.world.hist ∧
      (∀ i op resp, Entry.op i op (.txn resp) ∈ S ↔ AnsweredIn H i op (.txn resp)) ∧
      (∀ i op resp, Entry.op i op resp ∈ S → AnsweredIn H i op resp) ∧
      S.Pairwise (fun e e' => ∀ i op resp op' resp', e = .op i op resp → e' ≠ .op i op' resp') ∧
      (∀ i j op resp op' resp', ReturnedBefore H i j → Entry.op i op resp ∈ S → Entry.op j op' resp' ∈ S →
        ∃ S₁ S₂ S₃, S = S₁ ++ .op i op resp :: S₂ ++ .op j op' resp' :: S₃) := by
  obtain ⟨S, h1, h2, h3, _, h5, h6⟩ := linearize (fun _ _ => trivial) r
  exact ⟨S, h1, h2, h3, h5, h6⟩

/-- If no cursor breaks, this sequential execution contains every answered read as well, except those that were
overtaken by a compaction while they were running (the store's compact revision at the return is beyond the revision
of the answer). -/
theorem C81_linearizable_reads {H : List CEv} {m : MSys} (r : MRun (fun o => ∀ n, o ≠ .trunc n) MSys.init H m) :
    ∃ S : List Entry, Legal [] S m.world.hist ∧
      (∀ i op resp, Entry.op i op (.txn resp) ∈ S ↔ AnsweredIn H i op (.txn resp)) ∧
      (∀ i op resp, Entry.op i op resp ∈ S → AnsweredIn H i op resp) ∧
      (∀ i op resp A B C w w', H = A ++ .call i op w :: B ++ .ret i (.ok (.read resp)) w' :: C →
        w'.db.compactRev ≤ resp.header → Entry.op i op (.read resp) ∈ S) ∧
      S.Pairwise (fun e e' => ∀ i op resp op' resp', e = .op i op resp → e' ≠ .op i op' resp') ∧
      (∀ i j op resp op' resp', ReturnedBefore H i j → Entry.op i op resp ∈ S → Entry.op j op' resp' ∈ S →
        ∃ S₁ S₂ S₃, S = S₁ ++ .op i op resp :: S₂ ++ .op j op' resp' :: S₃) := by
  obtain ⟨S, h1, h2, h3, h4, h5, h6⟩ := linearize (fun _ h => h) r
  exact ⟨S, h1, h2, h3, h4 (fun _ h => h), h5, h6⟩

/-- The model of the composition fits the programs: every statement of a client's call and of the background work is a
query, a write of the form the batcher accepts, or the transaction of a compaction (which bypasses the batcher). -/
theorem C81_writes_fit_the_batcher : (∀ v1 op, Routed (ClientOp.prog v1 op)) ∧ ∀ c : Call, Routed c.prog :=
  ⟨routed_op, routed_call⟩

/-- What a create does with the answer of `ExecContext`. -/
def createNext (key value : Bytes) (lease : Int) (r : Except DbErr ExecResult) : Prog (Except ApiErr ClientResp) :=
  (((executeNext (fun db => createSQL db key lease value) 499 r).andThen fun r => .ret (.ok (writeResult r))).andThen
    fun (rev, created) =>
      if created then .ret (.ok { header := rev, succeeded := true, responses := [.put rev] })
      else .ret (.ok { header := rev, succeeded := false })).map (Except.map ClientResp.txn)

theorem isExec_create (v1 : Bool) (key value : Bytes) (lease : Int) :
    ∃ eff k₀, ClientOp.prog v1 (.create key value lease) = .stmt eff k₀ ∧
      IsExec (fun db => createSQL db key lease value) (createNext key value lease) eff k₀ :=
  ⟨_, _, rfl, rfl, fun o _ => by cases o <;> rfl⟩

/-- A run: two clients of one node create the same key at the same time; both writes are executed in one transaction;
the second one loses. -/
theorem composed_demo : ∃ H m, MRun (fun _ => True) MSys.init H m ∧
    AnsweredIn H 0 (.create Demo.ka [1] 0) (.txn { header := 1, succeeded := true, responses := [.put 1] }) ∧
    AnsweredIn H 1 (.create Demo.ka [2] 0) (.txn { header := 0, succeeded := false }) ∧
    ((m.nodes 0).batches.map fun b => b.1.map (·.id)) = [[0, 1]] ∧
    m.world.hist = [⟨1, Demo.ka, some ([1], 0)⟩] :=
  have hk : Demo.ka ≠ compactRevKey := by decide +kernel
  ⟨_, _,
    .call 0 rfl true (.create Demo.ka [1] 0) hk <| .call 0 rfl true (.create Demo.ka [2] 0) hk <|
    .client 0 0 _ _ _ _ rfl (.submit _ _ _ _ (fun db => createSQL db Demo.ka 0 [1]) (createNext Demo.ka [1] 0)
      ⟨rfl, fun o _ => by cases o <;> rfl⟩) <|
    .client 1 0 _ _ _ _ rfl (.submit _ _ _ _ (fun db => createSQL db Demo.ka 0 [2]) (createNext Demo.ka [2] 0)
      ⟨rfl, fun o _ => by cases o <;> rfl⟩) <|
    .batch 0 rfl .worker _ (Or.inl rfl) (.start _ rfl) <|
    .batch 0 rfl .worker _ (Or.inl rfl) (.exec _ _ none .ok [⟨none, none⟩, ⟨none, none⟩] rfl rfl) <|
    .batch 0 rfl .worker _ (Or.inl rfl) (.next _ _ rfl) <|
    .batch 0 rfl .waiter _ (Or.inr rfl) (.wake _ [_] [] _ rfl) <|
    .batch 0 rfl .waiter _ (Or.inr rfl) (.wake _ [] [] _ rfl) <|
    .client 0 0 _ _ _ _ rfl (.resume _ _ _ _ _ _ (List.mem_cons_of_mem _ (List.mem_cons_self ..))) <|
    .client 1 0 _ _ _ _ rfl (.resume _ _ _ _ _ _ (List.mem_cons_self ..)) <|
    .ret 0 0 _ rfl <| .ret 1 0 _ rfl <| .done _,
    ⟨[], [_], [_], _, _, rfl⟩, ⟨[_], [_], [], _, _, rfl⟩, rfl, by decide +kernel⟩

/-- A node that has crashed does nothing more: it takes no calls, starts no background work, and answers nobody. -/
theorem C81_crashed {P : Outcome → Prop} {m m' : MSys} {H : List CEv} {n : Nat} (r : MRun P m H m')
    (hup : m.up n = false) (hc : ∀ i e, m.calls i ≠ some (n, e)) (hb : ∀ i e, m.bgs i ≠ some (n, e)) :
    m'.up n = false ∧ (∀ i e, m'.calls i ≠ some (n, e)) ∧ (∀ i e, m'.bgs i ≠ some (n, e)) := by
  have put : ∀ {β : Type} {f : Nat → Option (Nat × β)} {i k : Nat} {x : β}, k ≠ n → (∀ j e, f j ≠ some (n, e)) →
      ∀ j e, upd f i (some (k, x)) j ≠ some (n, e) := by
    intro β f i k x hk hf j e
    unfold upd
    split
    · rintro ⟨⟩; exact hk rfl
    · exact hf j e
  induction r with
  | done => exact ⟨hup, hc, hb⟩
  | call k hn _ _ _ _ ih => exact ih hup (put (by rintro rfl; simp [hup] at hn) hc) hb
  | spawn k hn _ _ _ ih => exact ih hup hc (put (by rintro rfl; simp [hup] at hn) hb)
  | client i k _ _ _ _ h _ _ ih => exact ih hup (put (by rintro rfl; exact hc _ _ h) hc) hb
  | bg i k _ _ _ _ h _ _ ih => exact ih hup hc (put (by rintro rfl; exact hb _ _ h) hb)
  | batch _ _ _ _ _ _ _ ih => exact ih hup hc hb
  | close _ _ _ ih => exact ih hup hc hb
  | ret i k a h _ ih =>
    refine ih hup ?_ hb
    intro j e
    show upd _ _ _ _ ≠ _
    unfold upd
    split
    · nofun
    · exact hc j e
  | crash k _ ih =>
    refine ih ?_ ?_ ?_
    · show upd _ _ _ _ = _
      unfold upd
      split
      · rfl
      · exact hup
    · intro j e h
      exact hc j e (Option.filter_eq_some_iff.mp h).1
    · intro j e h
      exact hb j e (Option.filter_eq_some_iff.mp h).1
  | late _ _ _ _ _ _ _ _ _ ih => exact ih hup hc hb

/-- That is how a crash leaves the node. -/
theorem C81_crash {P : Outcome → Prop} {m m' : MSys} {H : List CEv} {n : Nat}
    (r : MRun P { m with up := upd m.up n false, calls := fun i => (m.calls i).filter fun x => x.1 != n,
                         bgs := fun i => (m.bgs i).filter fun x => x.1 != n } H m') :
    MRun P m H m' ∧ m'.up n = false ∧ (∀ i e, m'.calls i ≠ some (n, e)) ∧ (∀ i e, m'.bgs i ≠ some (n, e)) := by
  refine ⟨.crash n r, C81_crashed r ?_ ?_ ?_⟩
  · show upd _ _ _ _ = _
    unfold upd
    simp
  · intro i e h
    simpa using (Option.filter_eq_some_iff.mp h).2
  · intro i e h
    simpa using (Option.filter_eq_some_iff.mp h).2

/-- A run: a node crashes while its batcher executes a create; its client is never answered, but the database completes the
transaction, and a client of another node finds the key. Meanwhile that node does background work. -/
theorem composed_crash_demo : ∃ H m resp, MRun (fun _ => True) MSys.init H m ∧ m.up 0 = false ∧
    (∀ r, ¬ AnsweredIn H 0 (.create Demo.ka [1] 0) r) ∧
    AnsweredIn H 1 (.read Demo.ka []) (.read resp) ∧ resp.header = 1 ∧ resp.kvs.map (·.value) = [[1]] ∧
    m.world.hist = [⟨1, Demo.ka, some ([1], 0)⟩] ∧ m.nextBg = 1 :=
  have hk : Demo.ka ≠ compactRevKey := by decide +kernel
  ⟨_, _, _,
    .call 0 rfl true (.create Demo.ka [1] 0) hk <|
    .client 0 0 _ _ _ _ rfl (.submit _ _ _ _ (fun db => createSQL db Demo.ka 0 [1]) (createNext Demo.ka [1] 0)
      ⟨rfl, fun o _ => by cases o <;> rfl⟩) <|
    .batch 0 rfl .worker _ (Or.inl rfl) (.start _ rfl) <|
    .crash 0 <|
    .spawn 1 rfl (.poll 0 10) trivial <|
    .bg 0 1 _ _ _ _ rfl (.direct _ _ _ _ .ok trivial) <|
    .late 0 rfl _ none .ok [⟨none, none⟩] rfl rfl <|
    .call 1 rfl true (.read Demo.ka []) trivial <|
    .client 1 1 _ _ _ _ rfl (.direct _ _ _ _ .ok trivial) <|
    .client 1 1 _ _ _ _ rfl (.direct _ _ _ _ .ok trivial) <|
    .ret 1 1 _ rfl <| .done _,
    rfl, (by
      rintro r ⟨A, B, C, w, w', h⟩
      have hm : CEv.ret 0 (.ok r) w' ∈ A ++ .call 0 (.create Demo.ka [1] 0) w :: B ++ .ret 0 (.ok r) w' :: C := by simp
      rw [← h] at hm
      rcases List.mem_cons.mp hm with hm | hm
      · cases hm
      · rcases List.mem_cons.mp hm with hm | hm
        · cases hm
        · rcases List.mem_cons.mp hm with hm | hm
          · injection hm with h1
            exact absurd h1 (by decide)
          · cases hm), ⟨[_], [], [], _, _, rfl⟩, by decide +kernel, by decide +kernel, by decide +kernel, rfl⟩

end Verif
