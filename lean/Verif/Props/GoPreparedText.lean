import Verif.Lemmas.GoPreparedExec
/-!
# C107, C108 What the text of `prepared.go` does, run by any number of goroutines

`PcReachable c`: any number of calls of the methods of `/repo/pkg/database/prepared.go` are made, each by a goroutine that runs the text of the method
(`Model/GoTextPrepared.lean`), action by action in any order; `c` is a state they get to. `c.ts[i]? = some (op, .ret vs)` means: call number `i`, which
was `op`, has returned `vs`. `c.mem` has what happened at the database: the statements prepared, executed and closed.
-/

namespace Verif.Go

variable {c : Pc}

/-! ### Where the goroutines are -/

theorem tree_ret {op : POp} {l : Lo} {vs : List V} (hf : op.fits l = true) (h : op.tree l = .ret vs) : l = .ret vs := by
  cases l with
  | ret ws => cases h; rfl
  | p10 s =>
    cases op with
    | run query q args => cases h
    | txRun query t q args => cases h
    | _ => cases hf
  | c2 l errs => cases l <;> cases h
  | d1 => cases op <;> cases h
  | _ => cases h

theorem tree_panic {op : POp} {l : Lo} (hf : op.fits l = true) (h : op.tree l = .panic) : l = .panic := by
  cases l with
  | panic => rfl
  | p10 s =>
    cases op with
    | run query q args => cases h
    | txRun query t q args => cases h
    | _ => cases hf
  | c2 l errs => cases l <;> cases h
  | d1 => cases op <;> cases h
  | _ => cases h

theorem tree_stuck {op : POp} {l : Lo} (hf : op.fits l = true) : op.tree l ≠ .stuck := by
  intro h
  cases l with
  | p10 s =>
    cases op with
    | run query q args => cases h
    | txRun query t q args => cases h
    | _ => cases hf
  | c2 l errs => cases l <;> cases h
  | d1 =>
    cases op with
    | prepare q => cases h
    | conn => cases h
    | begin_ => cases h
    | _ => cases hf
  | _ => cases h

theorem treesOf_get {ls : List (POp × Lo)} {i : Nat} {op : POp} {t : Pt} (h : (treesOf ls)[i]? = some (op, t)) : ∃ l, ls[i]? = some (op, l) ∧ t = op.tree l := by
  unfold treesOf at h
  rw [List.getElem?_map] at h
  obtain ⟨⟨op', l⟩, hi, he⟩ := Option.map_eq_some_iff.1 h
  cases he
  exact ⟨l, hi, rfl⟩

/-- A goroutine is somewhere. -/
theorem PcReachable.at (h : PcReachable c) : ∃ ls : List (POp × Lo), Good c.mem ls ∧ (∀ i : Nat, (c.ts[i]?).isSome = (ls[i]?).isSome) ∧ (∀ (i : Nat) (op : POp) (l : Lo), ls[i]? = some (op, l) → c.ts[i]? = some (op, op.tree l)) ∧
    ∀ (i : Nat) (op : POp) (t : Pt), c.ts[i]? = some (op, t) → ∃ l, ls[i]? = some (op, l) ∧ t = op.tree l ∧ op.fits l = true ∧ Fact c.mem i op l := by
  obtain ⟨ls, hts, g⟩ := h.good
  refine ⟨ls, g, ?_, ?_, ?_⟩
  · intro i
    rw [hts]
    unfold treesOf
    rw [List.getElem?_map, Option.isSome_map]
  · intro i op l hi
    rw [hts]
    unfold treesOf
    rw [List.getElem?_map, hi]
    rfl
  · intro i op t ht
    rw [hts] at ht
    obtain ⟨l, hi, rfl⟩ := treesOf_get ht
    exact ⟨l, hi, rfl, g.fits i _ hi, g.fact i _ hi⟩

theorem PcReachable.returned (h : PcReachable c) {i : Nat} {op : POp} {vs : List V} (ht : c.ts[i]? = some (op, .ret vs)) : Returned c.mem i op vs := by
  obtain ⟨ls, g, _, _, hat⟩ := h.at
  obtain ⟨l, hi, ht, hf, hfact⟩ := hat i op _ ht
  rw [tree_ret hf ht.symm] at hfact
  exact hfact

/-- Whatever the writer does, no text has been prepared twice. -/
theorem Stage.distinct {k : Core} {w : Option (POp × Lo)} (h : Stage k w) : k.distinct := by
  cases w with
  | none => exact h.elim (·.distinct) (·.distinct)
  | some x =>
    obtain ⟨op, l⟩ := x
    cases l with
    | p4 => exact Or.elim h (·.distinct) (·.distinct)
    | p5 => exact Core.Open.distinct h
    | p6 => exact h.1.distinct
    | p7 => exact h.1.distinct
    | p8 s => exact Core.Pending.distinct h
    | p9 a => exact Or.elim h (·.distinct) (·.distinct)
    | c1 => exact Or.elim h (·.distinct) (·.distinct)
    | c2 l errs => exact Or.elim h (·.distinct) (·.1.distinct)
    | c4 errs => exact Or.elim h (·.distinct) (·.distinct)
    | c5 errs => exact Core.Drained.distinct h
    | c6 errs => exact Core.Drained.distinct h
    | c7 errs => exact h.1.distinct
    | panic => exact Core.Shut.distinct h
    | _ => exact h.elim

/-- Whatever the writer does: what has been closed. -/
theorem Stage.closed {k : Core} {w : Option (POp × Lo)} (h : Stage k w) :
    (∃ rest, (k.closed ++ rest).Perm (k.made.map (·.2))) ∧ k.dbCloses ≤ 1 ∧ (k.opened = false → k.Shut) := by
  have hO : k.Open → (∃ rest, (k.closed ++ rest).Perm (k.made.map (·.2))) ∧ k.dbCloses ≤ 1 ∧ (k.opened = false → k.Shut) := by
    intro o
    refine ⟨⟨k.made.map (·.2), ?_⟩, by rw [o.live]; exact Nat.zero_le _, fun h => absurd (o.opened.symm.trans h) (by decide)⟩
    rw [o.closed]
    exact .refl _
  have hS : k.Shut → (∃ rest, (k.closed ++ rest).Perm (k.made.map (·.2))) ∧ k.dbCloses ≤ 1 ∧ (k.opened = false → k.Shut) := by
    intro o
    exact ⟨⟨[], by rw [List.append_nil]; exact o.closed⟩, by rw [o.closes]; exact Nat.le_refl _, fun _ => o⟩
  have hC : ∀ l errs, k.Closing l errs → (∃ rest, (k.closed ++ rest).Perm (k.made.map (·.2))) ∧ k.dbCloses ≤ 1 ∧ (k.opened = false → k.Shut) := by
    intro l errs o
    exact ⟨⟨_, o.closed⟩, by rw [o.live]; exact Nat.zero_le _, fun h => absurd (o.opened.symm.trans h) (by decide)⟩
  have hD : ∀ n errs, n ≤ 1 → k.Drained n errs → (∃ rest, (k.closed ++ rest).Perm (k.made.map (·.2))) ∧ k.dbCloses ≤ 1 ∧ (k.opened = false → k.Shut) := by
    intro n errs hn o
    exact ⟨⟨[], by rw [List.append_nil]; exact o.closed⟩, by rw [o.closes]; exact hn, fun h => absurd (o.opened.symm.trans h) (by decide)⟩
  cases w with
  | none => exact Or.elim h hO hS
  | some x =>
    obtain ⟨op, l⟩ := x
    cases l with
    | p4 => exact Or.elim h hO hS
    | p5 => exact hO h
    | p6 => exact hO h.1
    | p7 => exact hO h.1
    | p8 s =>
      have o : k.Pending op.text s := h
      refine ⟨⟨k.made.map (·.2), ?_⟩, by rw [o.live]; exact Nat.zero_le _, fun h => absurd (o.opened.symm.trans h) (by decide)⟩
      rw [o.closed]
      exact .refl _
    | p9 a => exact Or.elim h hO hS
    | c1 => exact Or.elim h hO hS
    | c2 l errs => exact Or.elim h (hC l errs) fun h => hS h.1
    | c4 errs => exact Or.elim h (hD 0 errs (by decide)) hS
    | c5 errs => exact hD 0 errs (by decide) h
    | c6 errs => exact hD 1 errs (by decide) h
    | c7 errs => exact hS h.1
    | panic => exact hS h
    | _ => exact h.elim

theorem has_iff {m : PMem} {q : List UInt8} {s : Nat} : m.has q s ↔ ∃ j, m.prepared[s]? = some ⟨j, false, q⟩ := by
  unfold PMem.has PMem.made
  rw [mem_madeFrom]
  exact ⟨fun h => h.2, fun h => ⟨Nat.zero_le _, h⟩⟩

/-! ## C107 -/

/-- The texts are in the fragment of Go that the model knows: no goroutine ever gets stuck. -/
theorem C107_defined (h : PcReachable c) {i : Nat} {op : POp} : c.ts[i]? ≠ some (op, .stuck) := by
  intro ht
  obtain ⟨ls, g, _, _, hat⟩ := h.at
  obtain ⟨l, hi, ht, hf, _⟩ := hat i op _ ht
  exact tree_stuck hf ht.symm

/-- Whatever the schedule, the cache never prepares the same text twice. -/
theorem C107_prepared_once (h : PcReachable c) {s s' i i' : Nat} {q : List UInt8} (h1 : c.mem.prepared[s]? = some ⟨i, false, q⟩)
    (h2 : c.mem.prepared[s']? = some ⟨i', false, q⟩) : s = s' := by
  obtain ⟨ls, g, _⟩ := h.at
  have hd : (c.mem.made.map (·.1)).Nodup := Stage.distinct g.stage
  have m1 : (q, s) ∈ c.mem.made := has_iff.2 ⟨i, h1⟩
  have m2 : (q, s') ∈ c.mem.made := has_iff.2 ⟨i', h2⟩
  obtain ⟨a, ha, ea⟩ := List.getElem_of_mem m1
  obtain ⟨b, hb, eb⟩ := List.getElem_of_mem m2
  have hab : a = b := by
    refine (List.getElem_inj (xs := c.mem.made.map (·.1)) (h₀ := by rw [List.length_map]; exact ha) (h₁ := by rw [List.length_map]; exact hb) hd).1 ?_
    rw [List.getElem_map, List.getElem_map, ea, eb]
  subst hab
  rw [ea] at eb
  exact (Prod.mk.inj eb).2

/-- A call of `ExecContext` or `QueryContext`, of the database (`tx = none`) or of a transaction, that has returned, has returned an error and no
result; or the result of an execution, in the same transaction and with its own arguments, of the statement that the cache has prepared for its own
text. -/
theorem C107_own_statement (h : PcReachable c) {i : Nat} {op : POp} {query : Bool} {tx : Option Nat} {q : List UInt8} {args vs : List V}
    (hop : op = .run query q args ∧ tx = none ∨ ∃ t, op = .txRun query t q args ∧ tx = some t) (ht : c.ts[i]? = some (op, .ret vs)) :
    (∃ e, vs = [.nil, .ext e]) ∨
    (∃ a s j, vs = [.ext (.prep (.answer a)), .nil] ∧ c.mem.executed[a]? = some ⟨i, query, tx, s, args⟩ ∧ c.mem.prepared[s]? = some ⟨j, false, q⟩) := by
  have hr := h.returned ht
  have err : IsError vs → ∃ e, vs = [.nil, .ext e] := by
    rintro (rfl | ⟨e, rfl⟩)
    · exact ⟨_, rfl⟩
    · exact ⟨_, rfl⟩
  rcases hop with ⟨rfl, rfl⟩ | ⟨t, rfl, rfl⟩
  · rcases hr with ⟨a, s, h1, h2, h3⟩ | hr
    · obtain ⟨j, hj⟩ := has_iff.1 h3
      exact .inr ⟨a, s, j, h1, h2, hj⟩
    · exact .inl (err hr)
  · rcases hr with ⟨a, s, h1, h2, h3⟩ | hr
    · obtain ⟨j, hj⟩ := has_iff.1 h3
      exact .inr ⟨a, s, j, h1, h2, hj⟩
    · exact .inl (err hr)

/-- Every execution is that of a call that has returned its result; no call executes two statements. -/
theorem C107_executed_once (h : PcReachable c) {a : Nat} {e : Exec} (ha : c.mem.executed[a]? = some e) :
    (∃ op, c.ts[e.by_]? = some (op, .ret [.ext (.prep (.answer a)), .nil])) ∧
    ∀ b e', c.mem.executed[b]? = some e' → e'.by_ = e.by_ → b = a := by
  obtain ⟨ls, g, _, hto, _⟩ := h.at
  refine ⟨?_, ?_⟩
  · obtain ⟨o, ho⟩ := g.ran a e ha
    exact ⟨o, hto _ _ _ ho⟩
  · intro b e' hb he
    obtain ⟨ha1, ha2⟩ := List.getElem?_eq_some_iff.1 ha
    obtain ⟨hb1, hb2⟩ := List.getElem?_eq_some_iff.1 hb
    refine (List.getElem_inj (xs := c.mem.executed.map (·.by_)) (h₀ := by rw [List.length_map]; exact hb1) (h₁ := by rw [List.length_map]; exact ha1) g.once).1 ?_
    rw [List.getElem_map, List.getElem_map, ha2, hb2, he]

/-- `PrepareContext` of a transaction returns an error, or the statement of the transaction made from the one the cache has prepared for the text;
`PrepareContext` of the database returns an error or a statement it has prepared for the caller. -/
theorem C107_prepare (h : PcReachable c) {i : Nat} {q : List UInt8} {vs : List V} :
    (∀ t, c.ts[i]? = some (.txPrepare t q, .ret vs) →
      (∃ e, vs = [.nil, .ext e]) ∨ ∃ s j, vs = [.ext (.prep (.txStmt t s)), .nil] ∧ c.mem.prepared[s]? = some ⟨j, false, q⟩) ∧
    (c.ts[i]? = some (.prepare q, .ret vs) →
      (∃ e, vs = [.nil, .ext e]) ∨ ∃ s, vs = [.ext (.prep (.stmt s)), .nil] ∧ c.mem.prepared[s]? = some ⟨i, true, q⟩) := by
  have err : IsError vs → ∃ e, vs = [.nil, .ext e] := by
    rintro (rfl | ⟨e, rfl⟩)
    · exact ⟨_, rfl⟩
    · exact ⟨_, rfl⟩
  refine ⟨fun t ht => ?_, fun ht => ?_⟩
  · rcases h.returned ht with ⟨s, h1, h2⟩ | hr
    · obtain ⟨j, hj⟩ := has_iff.1 h2
      exact .inr ⟨s, j, h1, hj⟩
    · exact .inl (err hr)
  · rcases h.returned ht with ⟨s, h1, h2⟩ | hr
    · exact .inr ⟨s, h1, h2⟩
    · exact .inl (err hr)

/-- No statement is closed twice, only statements of the cache are closed by it, and the database is closed at most once. -/
theorem C107_closed_once (h : PcReachable c) :
    c.mem.closed.Nodup ∧ (∀ s ∈ c.mem.closed, ∃ j q, c.mem.prepared[s]? = some ⟨j, false, q⟩) ∧ c.mem.dbCloses ≤ 1 := by
  obtain ⟨ls, g, _⟩ := h.at
  obtain ⟨⟨rest, hp⟩, h2, _⟩ := Stage.closed g.stage
  have hp : (c.mem.closed ++ rest).Perm (c.mem.made.map (·.2)) := hp
  refine ⟨?_, ?_, h2⟩
  · have := hp.nodup_iff.2 (madeFrom_nodup 0 c.mem.prepared)
    exact (List.nodup_append.1 this).1
  · intro s hs
    have := hp.subset (List.mem_append_left _ hs)
    obtain ⟨⟨q, s'⟩, hm, rfl⟩ := List.mem_map.1 this
    obtain ⟨j, hj⟩ := has_iff.1 hm
    exact ⟨j, q, hj⟩

theorem PcReachable.shut (h : PcReachable c) (ho : c.mem.opened = false) : c.mem.core.Shut := by
  obtain ⟨ls, g, _⟩ := h.at
  exact (Stage.closed g.stage).2.2 ho

/-- When `Close` has returned, every statement the cache has ever prepared has been closed, the database has been closed, and the answer is nil if and
only if nothing of this has failed. -/
theorem C107_close_releases (h : PcReachable c) {i : Nat} {vs : List V} (ht : c.ts[i]? = some (.close, .ret vs)) :
    (∀ s j q, c.mem.prepared[s]? = some ⟨j, false, q⟩ → s ∈ c.mem.closed) ∧ c.mem.dbCloses = 1 ∧
    ∃ v, vs = [v] ∧ (v = .nil ↔ c.mem.failures = []) := by
  obtain ⟨ho, hv⟩ := h.returned ht
  have st := h.shut ho
  refine ⟨?_, st.closes, _, hv, ?_⟩
  · intro s j q hs
    have hm : (q, s) ∈ c.mem.made := has_iff.2 ⟨j, hs⟩
    exact st.closed.symm.subset (List.mem_map.2 ⟨_, hm, rfl⟩)
  · cases c.mem.failures with
    | nil => exact ⟨fun _ => rfl, fun _ => rfl⟩
    | cons e l => exact ⟨(fun h => by cases h), (fun h => by cases h)⟩

/-- Nothing leaks: when no call is under way, every statement of the cache can be found in it, or has been closed. -/
theorem C107_no_leak (h : PcReachable c) (idle : ∀ (i : Nat) (op : POp) (t : Pt), c.ts[i]? = some (op, t) → ∃ vs, t = .ret vs) {s j : Nat} {q : List UInt8}
    (hs : c.mem.prepared[s]? = some ⟨j, false, q⟩) : (∃ l, c.mem.cache = some l ∧ (q, s) ∈ l) ∨ s ∈ c.mem.closed := by
  obtain ⟨ls, g, _, hto, _⟩ := h.at
  have hm : (q, s) ∈ c.mem.made := has_iff.2 ⟨j, hs⟩
  have hw : c.mem.writer = none := by
    cases hw : c.mem.writer with
    | none => rfl
    | some k =>
      obtain ⟨⟨op, l⟩, hk, hx⟩ := (g.wr k).1 hw
      obtain ⟨vs, hv⟩ := idle k op _ (hto k op l hk)
      have hl : l = .ret vs := tree_ret (g.fits k _ hk) hv
      rw [hl] at hx
      rw [holdsW_ret] at hx
      cases hx
  rcases g.stageNone hw with o | o
  · exact .inl ⟨_, o.cache, hm⟩
  · exact .inr (o.closed.symm.subset (List.mem_map.2 ⟨_, hm, rfl⟩))

/-- Once the database has been given up, no statement is prepared, no transaction begun, and no statement executed outside of a transaction. -/
theorem C107_nothing_after_close (h : PcReachable c) {d : Pc} (ho : c.mem.opened = false) (st : PcStep c d) :
    d.mem.opened = false ∧ d.mem.prepared = c.mem.prepared ∧ d.mem.txs = c.mem.txs ∧
    ∃ es, d.mem.executed = c.mem.executed ++ es ∧ ∀ e ∈ es, e.tx ≠ none := by
  have hs := h.shut ho
  have h1 : c.mem.dbCloses = 1 := hs.closes
  have nil : ∃ es, c.mem.executed = c.mem.executed ++ es ∧ ∀ e ∈ es, e.tx ≠ none := ⟨[], (List.append_nil _).symm, fun e he => nomatch he⟩
  cases st with
  | call op => exact ⟨ho, rfl, rfl, nil⟩
  | thread i op t t' m' ht hst =>
    cases hst with
    | prepare _ _ _ h0 => rw [h1] at h0; cases h0
    | begin_ _ _ h0 => rw [h1] at h0; cases h0
    | exec query tx s args ok er hx =>
      refine ⟨ho, rfl, rfl, [_], rfl, ?_⟩
      intro e he
      rw [List.mem_singleton.1 he]
      intro hn
      have := (hx hn).2
      rw [h1] at this
      cases this
    | dropUnder => exact ⟨rfl, rfl, rfl, nil⟩
    | _ => exact ⟨ho, rfl, rfl, nil⟩

/-- Any number of steps. -/
inductive PcSteps : Pc → Pc → Prop where
  | refl (c : Pc) : PcSteps c c
  | tail {a b d : Pc} : PcSteps a b → PcStep b d → PcSteps a d

theorem PcSteps.reachable {a b : Pc} (h : PcReachable a) (s : PcSteps a b) : PcReachable b := by
  induction s with
  | refl => exact h
  | tail _ st ih => exact .step ih st

/-- Where a call is that began after `Close`. -/
def Lo.late : Lo → Prop
  | .p0 => True
  | .p1 => True
  | .p2 o => o = none
  | .p3 => True
  | .p4 => True
  | .p9 a => a = .closed
  | .ret vs => vs = [.nil, closedErrV]
  | _ => False

/-- A call that uses the cache and begins after the database was given up (`Close` has returned) can only return `errDBClosed`: also inside of a
transaction that was begun before. -/
theorem C107_refused_after_close (h : PcReachable c) (ho : c.mem.opened = false) {d : Pc} (s : PcSteps c d) {i : Nat} (hi : c.ts.length ≤ i)
    {op : POp} {vs : List V} (hop : (∃ query q args, op = .run query q args) ∨ (∃ query t q args, op = .txRun query t q args) ∨ ∃ t q, op = .txPrepare t q)
    (ht : d.ts[i]? = some (op, .ret vs)) : vs = [.nil, .ext (.db .errClosed)] := by
  have hc : op.cached = true := by
    rcases hop with ⟨_, _, _, rfl⟩ | ⟨_, _, _, _, rfl⟩ | ⟨_, _, rfl⟩ <;> rfl
  have key : d.mem.opened = false ∧ ∀ t, d.ts[i]? = some (op, t) → ∃ l, op.fits l = true ∧ t = op.tree l ∧ l.late := by
    clear ht
    induction s with
    | refl =>
      refine ⟨ho, fun t ht => ?_⟩
      have := (List.getElem?_eq_some_iff.1 ht).1
      omega
    | tail s st ih =>
      rename_i b d
      obtain ⟨hb, ih⟩ := ih
      have hr := PcSteps.reachable h s
      refine ⟨(C107_nothing_after_close hr hb st).1, fun t ht => ?_⟩
      cases st with
      | call op' =>
        rcases getElem?_append_one ht with ht | ⟨_, he⟩
        · exact ih t ht
        · cases he
          refine ⟨op.start, (start_tree op).2, (start_tree op).1, ?_⟩
          unfold POp.start
          rw [hc]
          trivial
      | thread j op' t0 t' m' ht' hst =>
        rcases getElem?_set_cases ht with ⟨rfl, he⟩ | ⟨_, ht⟩
        · cases he
          obtain ⟨l, hf, rfl, hl⟩ := ih t0 ht'
          obtain ⟨l', rfl, hf', ls⟩ := hst.place hf
          refine ⟨l', hf', rfl, ?_⟩
          cases ls with
          | rlock => trivial
          | look =>
            have : b.mem.cache = none := (hr.shut hb).cache
            show cacheGet b.mem.cache _ = none
            rw [this]
            rfl
          | hit s => cases hl
          | miss => trivial
          | lock => trivial
          | opened h => rw [hb] at h; cases h
          | refused => exact rfl
          | unlock a =>
            have : a = .closed := hl
            subst this
            exact rfl
          | _ => exact hl.elim
        · exact ih t ht
  obtain ⟨l, hf, he, hl⟩ := key.2 _ ht
  rw [tree_ret hf he.symm] at hl
  exact hl

/-- What a goroutine that waits for no lock can do. -/
theorem canAct {m : PMem} {i : Nat} {op : POp} {l : Lo} (hf : op.fits l = true) (hl : l.finished = false)
    (h1 : l = .p0 → m.writer = none) (h2 : l = .p3 ∨ l = .c0 → m.writer = none ∧ m.readers = []) :
    ∃ m' t', PtStep i op.direct m (op.tree l) m' t' := by
  cases l with
  | p0 => exact ⟨_, _, .rlock _ _ (h1 rfl)⟩
  | p1 => exact ⟨_, _, .lookup _ _ _⟩
  | p2 o => exact ⟨_, _, .runlock _ _⟩
  | p3 => exact ⟨_, _, .lock _ _ (h2 (.inl rfl)).1 (h2 (.inl rfl)).2⟩
  | p4 => exact ⟨_, _, .getUnder _ _⟩
  | p5 => exact ⟨_, _, .lookup _ _ _⟩
  | p6 => exact ⟨_, _, .getUnder _ _⟩
  | p7 => exact ⟨_, _, .prepareFails _ _ _ _ .unsupported⟩
  | p8 s =>
    cases hc : m.cache with
    | none => exact ⟨_, _, .storeNil _ _ _ _ hc⟩
    | some l => exact ⟨_, _, .store _ _ _ _ _ hc⟩
  | p9 a => exact ⟨_, _, .unlock _ _⟩
  | p10 s =>
    cases op with
    | run query q args => exact ⟨_, _, .execFails _ _ _ _ _ _ _ .unsupported⟩
    | txRun query t q args => exact ⟨_, _, .execFails _ _ _ _ _ _ _ .unsupported⟩
    | _ => cases hf
  | c0 => exact ⟨_, _, .lock _ _ (h2 (.inr rfl)).1 (h2 (.inr rfl)).2⟩
  | c1 => exact ⟨_, _, .entries _ _ _ (.refl _)⟩
  | c2 l errs =>
    cases l with
    | nil => exact ⟨_, _, .dropCache _ _⟩
    | cons p l => exact ⟨_, _, .closeStmt _ _ _ _⟩
  | c4 errs => exact ⟨_, _, .getUnder _ _⟩
  | c5 errs => exact ⟨_, _, .closeDb _ _ _⟩
  | c6 errs => exact ⟨_, _, .dropUnder _ _⟩
  | c7 errs => exact ⟨_, _, .unlock _ _⟩
  | d0 => exact ⟨_, _, .getUnder _ _⟩
  | d1 =>
    cases op with
    | prepare q => exact ⟨_, _, .prepareFails _ _ _ _ .unsupported⟩
    | conn => exact ⟨_, _, .connFails _ _ _ .unsupported⟩
    | begin_ => exact ⟨_, _, .beginFails _ _ _ .unsupported⟩
    | _ => cases hf
  | ret vs => cases hl
  | panic => cases hl

/-- No deadlock: as long as no call has panicked and some call has not returned, some call can go on. -/
theorem C107_no_deadlock (h : PcReachable c) (calm : ∀ (i : Nat) (op : POp), c.ts[i]? ≠ some (op, Pt.panic)) {i : Nat} {op : POp} {t : Pt}
    (ht : c.ts[i]? = some (op, t)) (hn : ∀ vs, t ≠ .ret vs) :
    ∃ j op' u u' m', c.ts[j]? = some (op', u) ∧ PtStep j op'.direct c.mem u m' u' := by
  obtain ⟨ls, g, _, hto, hat⟩ := h.at
  have busy : ∀ {j : Nat} {op' : POp} {l : Lo}, ls[j]? = some (op', l) → l.finished = true → ∃ vs, l = .ret vs := by
    intro j op' l hj hl
    cases l with
    | ret vs => exact ⟨vs, rfl⟩
    | panic => exact absurd (hto j op' _ hj) (calm j op')
    | _ => cases hl
  have go : ∀ {j : Nat} {op' : POp} {l : Lo}, ls[j]? = some (op', l) → l.finished = false → (l = .p0 → c.mem.writer = none) →
      (l = .p3 ∨ l = .c0 → c.mem.writer = none ∧ c.mem.readers = []) →
      ∃ j op' u u' m', c.ts[j]? = some (op', u) ∧ PtStep j op'.direct c.mem u m' u' := by
    intro j op' l hj hl h1 h2
    obtain ⟨m', t', hs⟩ := canAct (i := j) (g.fits j _ hj) hl h1 h2
    exact ⟨j, op', _, _, _, hto j op' l hj, hs⟩
  cases hw : c.mem.writer with
  | some j =>
    obtain ⟨⟨op', l⟩, hj, hx⟩ := (g.wr j).1 hw
    have hl : l.finished = false := by
      cases hf : l.finished with
      | false => rfl
      | true =>
        obtain ⟨vs, rfl⟩ := busy hj hf
        rw [holdsW_ret] at hx
        cases hx
    refine go hj hl (fun e => ?_) (fun e => ?_)
    · subst e; cases op' <;> cases hx
    · rcases e with rfl | rfl <;> (cases op' <;> cases hx)
  | none =>
    cases hr : c.mem.readers with
    | cons j rs =>
      obtain ⟨⟨op', l⟩, hj, hx⟩ := (g.rd j).1 (by rw [hr]; exact List.mem_cons_self ..)
      cases l with
      | p1 => exact go hj rfl (fun e => nomatch e) (fun e => by rcases e with e | e <;> cases e)
      | p2 o => exact go hj rfl (fun e => nomatch e) (fun e => by rcases e with e | e <;> cases e)
      | _ => cases hx
    | nil =>
      obtain ⟨l, hi, rfl, hf, _⟩ := hat i op t ht
      have hl : l.finished = false := by
        cases hf : l.finished with
        | false => rfl
        | true =>
          obtain ⟨vs, rfl⟩ := busy hi hf
          exact absurd rfl (hn vs)
      exact go hi hl (fun _ => hw) (fun _ => ⟨hw, hr⟩)

/-! ## C108 -/

/-- A call of `ExecContext`, `QueryContext` (of the database or of a transaction) or of `PrepareContext` of a transaction never crashes the process;
nor does any other call while the database has not been given up. Missing: `BeginTx`, `Conn`, `PrepareContext` and a second `Close` do, afterwards. -/
theorem C108_panic_partial (h : PcReachable c) {i : Nat} {op : POp} (ht : c.ts[i]? = some (op, .panic)) :
    c.mem.opened = false ∧ ((∃ q, op = .prepare q) ∨ op = .conn ∨ op = .begin_ ∨ op = .close) := by
  obtain ⟨ls, g, _, _, hat⟩ := h.at
  obtain ⟨l, hi, ht, hf, hfact⟩ := hat i op _ ht
  rw [tree_panic hf ht.symm] at hfact
  refine ⟨hfact.2, ?_⟩
  have hc := hfact.1
  cases op with
  | prepare q => exact .inl ⟨q, rfl⟩
  | conn => exact .inr (.inl rfl)
  | begin_ => exact .inr (.inr (.inl rfl))
  | close => exact .inr (.inr (.inr rfl))
  | _ => cases hc

/-! ### Races -/

/-- The next action accesses the map of statements. -/
def Pt.usesCache : Pt → Bool
  | .lookup _ _ => true
  | .store _ _ _ => true
  | .entries _ => true
  | .dropCache _ => true
  | _ => false

/-- It changes the map. -/
def Pt.changesCache : Pt → Bool
  | .store _ _ _ => true
  | .dropCache _ => true
  | _ => false

/-- The next action accesses the field that has the database. -/
def Pt.usesUnder : Pt → Bool
  | .getUnder _ => true
  | .dropUnder _ => true
  | _ => false

theorem usesCache_lock {op : POp} {l : Lo} (hf : op.fits l = true) (h : (op.tree l).usesCache = true) : l.reads = true ∨ l.writes = true := by
  cases l with
  | p1 => exact .inl rfl
  | p2 o => exact .inl rfl
  | p10 s =>
    cases op with
    | run query q args => cases h
    | txRun query t q args => cases h
    | _ => cases hf
  | d1 =>
    cases op with
    | prepare q => cases h
    | conn => cases h
    | begin_ => cases h
    | _ => cases hf
  | p0 => cases h
  | p3 => cases h
  | c0 => cases h
  | d0 => cases h
  | ret vs => cases h
  | panic => cases h
  | _ => exact .inr rfl

theorem changesCache_lock {op : POp} {l : Lo} (hf : op.fits l = true) (h : (op.tree l).changesCache = true) : l.writes = true := by
  cases l with
  | p10 s =>
    cases op with
    | run query q args => cases h
    | txRun query t q args => cases h
    | _ => cases hf
  | d1 =>
    cases op with
    | prepare q => cases h
    | conn => cases h
    | begin_ => cases h
    | _ => cases hf
  | p0 => cases h
  | p1 => cases h
  | p2 o => cases h
  | p3 => cases h
  | c0 => cases h
  | d0 => cases h
  | ret vs => cases h
  | panic => cases h
  | _ => rfl

theorem holdsW_writes {op : POp} {l : Lo} (h : l.writes = true) : holdsW (op, l) = true := by
  unfold holdsW
  rw [h]
  rfl

/-- No two goroutines access the map of statements at the same time, one of them changing it. -/
theorem C107_no_race (h : PcReachable c) {i j : Nat} {op op' : POp} {t u : Pt} (hi : c.ts[i]? = some (op, t)) (hj : c.ts[j]? = some (op', u))
    (ht : t.changesCache = true) (hu : u.usesCache = true) : i = j := by
  obtain ⟨ls, g, _, _, hat⟩ := h.at
  obtain ⟨l, hl, rfl, hf, _⟩ := hat i op t hi
  obtain ⟨l', hl', rfl, hf', _⟩ := hat j op' u hj
  have hw : c.mem.writer = some i := (g.wr i).2 ⟨_, hl, holdsW_writes (changesCache_lock hf ht)⟩
  rcases usesCache_lock hf' hu with hr | hr
  · have := (g.rd j).2 ⟨_, hl', hr⟩
    rw [g.excl (by rw [hw]; exact nofun)] at this
    cases this
  · have hw' : c.mem.writer = some j := (g.wr j).2 ⟨_, hl', holdsW_writes hr⟩
    exact Option.some.inj (hw.symm.trans hw')

theorem usesUnder_lock {op : POp} {l : Lo} (hf : op.fits l = true) (h : (op.tree l).usesUnder = true) :
    l.writes = true ∨ (∃ q, op = .prepare q) ∨ op = .conn ∨ op = .begin_ := by
  cases l with
  | p10 s =>
    cases op with
    | run query q args => cases h
    | txRun query t q args => cases h
    | _ => cases hf
  | d0 =>
    cases op with
    | prepare q => exact .inr (.inl ⟨q, rfl⟩)
    | conn => exact .inr (.inr (.inl rfl))
    | begin_ => exact .inr (.inr (.inr rfl))
    | _ => cases hf
  | d1 =>
    cases op with
    | prepare q => exact .inr (.inl ⟨q, rfl⟩)
    | conn => exact .inr (.inr (.inl rfl))
    | begin_ => exact .inr (.inr (.inr rfl))
    | _ => cases hf
  | p0 => cases h
  | p1 => cases h
  | p2 o => cases h
  | p3 => cases h
  | c0 => cases h
  | ret vs => cases h
  | panic => cases h
  | _ => exact .inl rfl

theorem dropUnder_close {op : POp} {l : Lo} {k : Pt} (hf : op.fits l = true) (h : op.tree l = .dropUnder k) : l.writes = true ∧ op = .close := by
  cases l with
  | p10 s =>
    cases op with
    | run query q args => cases h
    | txRun query t q args => cases h
    | _ => cases hf
  | d1 =>
    cases op with
    | prepare q => cases h
    | conn => cases h
    | begin_ => cases h
    | _ => cases hf
  | c2 l errs => cases l <;> cases h
  | c6 errs =>
    cases op with
    | close => exact ⟨rfl, rfl⟩
    | _ => cases hf
  | _ => cases h

/-- Only `Close` changes the field that has the database, and no `ExecContext`, `QueryContext`, `PrepareContext` of a transaction or other `Close`
accesses it at that time. Missing: `BeginTx`, `Conn` and `PrepareContext` of the database (`C108_race_counterexample`). -/
theorem C108_race_partial (h : PcReachable c) {i j : Nat} {op op' : POp} {k u : Pt} (hi : c.ts[i]? = some (op, .dropUnder k))
    (hj : c.ts[j]? = some (op', u)) (hu : u.usesUnder = true) :
    op = .close ∧ (i = j ∨ (∃ q, op' = .prepare q) ∨ op' = .conn ∨ op' = .begin_) := by
  obtain ⟨ls, g, _, _, hat⟩ := h.at
  obtain ⟨l, hl, ht, hf, _⟩ := hat i op _ hi
  obtain ⟨l', hl', rfl, hf', _⟩ := hat j op' u hj
  obtain ⟨hw, rfl⟩ := dropUnder_close hf ht.symm
  refine ⟨rfl, ?_⟩
  rcases usesUnder_lock hf' hu with hr | hr
  · have h1 : c.mem.writer = some i := (g.wr i).2 ⟨_, hl, holdsW_writes hw⟩
    have h2 : c.mem.writer = some j := (g.wr j).2 ⟨_, hl', holdsW_writes hr⟩
    exact .inl (Option.some.inj (h1.symm.trans h2))
  · exact .inr hr

/-! ## Cases that meet the hypotheses -/

/-- The answer of a call. -/
def Pc.answer (c : Pc) (i : Nat) : Option (List V) :=
  match c.ts[i]? with
  | some (_, .ret vs) => some vs
  | _ => none

/-- Has the call panicked? -/
def Pc.panicked (c : Pc) (i : Nat) : Bool :=
  match c.ts[i]? with
  | some (_, .panic) => true
  | _ => false

/-- The call has returned the result of execution `a`. -/
def Pc.gave (c : Pc) (i a : Nat) : Bool :=
  match c.answer i with
  | some [.ext (.prep (.answer b)), .nil] => a == b
  | _ => false

/-- The call has returned `errDBClosed`. -/
def Pc.refused (c : Pc) (i : Nat) : Bool :=
  match c.answer i with
  | some [.nil, .ext (.db .errClosed)] => true
  | _ => false

/-- Two goroutines look for the same text, both miss it; one prepares it, the other one finds it then; both execute it: the second one in a
transaction. A third call, for another text, prepares its own. -/
def raceSchedule : List PAct :=
  [.call .begin_] ++ goes 0 2 ++ [.call (.run false [1] [.int 7]), .call (.txRun true 0 [1] [.int 8])] ++ goes 1 3 ++ goes 2 3 ++ goes 1 8 ++ goes 2 5 ++
    [.call (.run true [2] [])] ++ goes 3 11

example : ∃ c, PcReachable c ∧ (c.gave 1 0 && c.gave 2 1 && c.gave 3 2 && decide (c.mem.prepared = [⟨1, false, [1]⟩, ⟨3, false, [2]⟩])
    && decide (c.mem.executed.map (fun e => (e.by_, e.query, e.tx, e.stmt)) = [(1, false, none, 0), (2, true, some 0, 0), (3, true, none, 1)])
    && decide (c.mem.cache = some [([1], 0), ([2], 1)])) = true :=
  prepCheck_reach (as := raceSchedule) (by decide +kernel)

/-- Then `Close`: closing one of the two statements fails, and so `Close` reports an error; everything has been closed. A call made afterwards is
refused, also in the transaction. -/
def closeSchedule : List PAct :=
  raceSchedule ++ [.call .close] ++ goes 4 3 ++ [.fails 4 .unsupported] ++ goes 4 5 ++
    [.call (.run false [1] []), .call (.txRun false 0 [1] []), .call (.txPrepare 0 [3])] ++ goes 5 6 ++ goes 6 6 ++ goes 7 6

example : ∃ c, PcReachable c ∧ (decide (c.mem.closed = [0, 1]) && decide (c.mem.dbCloses = 1) && !c.mem.opened && decide (c.mem.failures.length = 1)
    && (match c.answer 4 with | some [.ext (.err .unsupported)] => true | _ => false) && c.refused 5 && c.refused 6 && c.refused 7) = true :=
  prepCheck_reach (as := closeSchedule) (by decide +kernel)

/-- `PrepareContext` of the database and of a transaction. -/
def prepareSchedule : List PAct :=
  [.call .begin_] ++ goes 0 2 ++ [.call (.prepare [1])] ++ goes 1 2 ++ [.call (.txPrepare 0 [1])] ++ goes 2 10 ++ [.call .conn] ++ goes 3 2

example : ∃ c, PcReachable c ∧ (decide (c.mem.prepared = [⟨1, true, [1]⟩, ⟨2, false, [1]⟩])
    && (match c.answer 0 with | some [.ext (.prep (.ptx 0)), .nil] => true | _ => false)
    && (match c.answer 1 with | some [.ext (.prep (.stmt 0)), .nil] => true | _ => false)
    && (match c.answer 2 with | some [.ext (.prep (.txStmt 0 1)), .nil] => true | _ => false)
    && (match c.answer 3 with | some [.ext (.prep .conn), .nil] => true | _ => false)) = true :=
  prepCheck_reach (as := prepareSchedule) (by decide +kernel)

/-- `Close` is not atomic: a call that found its statement in the cache executes it although another statement has been closed, and fails if its own
has been. -/
def midCloseSchedule : List PAct :=
  [.call (.run false [1] [])] ++ goes 0 11 ++ [.call (.run false [2] [])] ++ goes 1 11 ++
    [.call (.run false [1] []), .call (.run false [2] [])] ++ goes 2 3 ++ goes 3 3 ++ [.call .close] ++ goes 4 3 ++ goes 3 1 ++ [.fails 2 .unsupported]

theorem C107_close_not_atomic : ∃ c, PcReachable c ∧ (c.gave 3 2 && decide (c.mem.closed = [0]) && decide (c.mem.writer = some 4)
    && (match c.answer 2 with | some [.nil, .ext (.err .unsupported)] => true | _ => false)) = true :=
  prepCheck_reach (as := midCloseSchedule) (by decide +kernel)

/-- A second `Close` that waits for the first one panics: it reads `underlying` after the first one has set it to nil. -/
theorem C108_second_close_counterexample : ∃ c, PcReachable c ∧ (c.panicked 1 && decide (c.mem.dbCloses = 1) && decide (c.mem.writer = some 1)) = true :=
  prepCheck_reach (as := [.call .close, .call .close] ++ goes 0 7 ++ goes 1 4) (by decide +kernel)

/-- So do `BeginTx`, `Conn` and `PrepareContext`; `BeginTx` was called before `Close`. -/
theorem C108_begin_counterexample : ∃ c, PcReachable c ∧ (c.panicked 0 && c.panicked 2 && c.panicked 3) = true :=
  prepCheck_reach (as := [.call .begin_, .call .close] ++ goes 1 6 ++ goes 0 1 ++ [.call .conn, .call (.prepare [1])] ++ goes 2 1 ++ goes 3 1) (by decide +kernel)

/-- `Close` sets `underlying` to nil while `BeginTx` reads it, without the mutex: a data race. -/
theorem C108_race_counterexample : ∃ c, PcReachable c ∧ (match (c.ts[0]? : Option (POp × Pt)), (c.ts[1]? : Option (POp × Pt)) with
    | some (.begin_, .getUnder _), some (.close, .dropUnder _) => true
    | _, _ => false) = true :=
  prepCheck_reach (as := [.call .begin_, .call .close] ++ goes 1 5) (by decide +kernel)

/-- While a statement is stored in the map, another goroutine waits. -/
example : ∃ c, PcReachable c ∧ (match (c.ts[0]? : Option (POp × Pt)), (c.ts[1]? : Option (POp × Pt)) with
    | some (_, .store _ _ _), some (_, .lock _) => true
    | _, _ => false) = true :=
  prepCheck_reach (as := [.call (.run false [1] []), .call (.run false [1] [])] ++ goes 0 3 ++ goes 1 3 ++ goes 0 5) (by decide +kernel)

end Verif.Go
