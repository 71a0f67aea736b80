import Verif.Lemmas.GoPreparedInv
/-!
# Goroutines running the text of `/repo/pkg/database/prepared.go`: the invariant is kept
-/

namespace Verif.Go

variable {m m' : PMem} {ls : List (POp × Lo)} {i : Nat} {op : POp} {l l' : Lo}

theorem cacheGet_some {c : List (List UInt8 × Nat)} {q : List UInt8} {s : Nat} (h : cacheGet (some c) q = some s) : (q, s) ∈ c := by
  unfold cacheGet at h
  cases hf : c.find? fun p => p.1 == q with
  | none => rw [Option.getD_some, hf] at h; cases h
  | some x =>
    rw [Option.getD_some, hf] at h
    have h1 := List.mem_of_find?_eq_some hf
    have h2 := List.find?_some hf
    have e : x.1 = q := eq_of_beq h2
    cases h
    rw [← e]
    exact h1

theorem cacheGet_none {c : List (List UInt8 × Nat)} {q : List UInt8} (h : cacheGet (some c) q = none) : q ∉ c.map (·.1) := by
  unfold cacheGet at h
  cases hf : c.find? fun p => p.1 == q with
  | some x => rw [Option.getD_some, hf] at h; cases h
  | none =>
    intro hm
    obtain ⟨x, hx, he⟩ := List.mem_map.1 hm
    have := List.find?_eq_none.1 hf x hx
    exact this (beq_iff_eq.2 he)

theorem cacheSet_new {c : List (List UInt8 × Nat)} {q : List UInt8} {s : Nat} (h : q ∉ c.map (·.1)) : cacheSet c q s = c ++ [(q, s)] := by
  unfold cacheSet
  rw [if_neg]
  intro hx
  obtain ⟨x, hx, he⟩ := List.any_eq_true.1 hx
  exact h (List.mem_map.2 ⟨x, hx, eq_of_beq he⟩)

theorem holdsW_after (op : POp) (a : PrepAns) : holdsW (op, op.after a) = false := by
  cases op <;> cases a <;> rfl

theorem reads_after (op : POp) (a : PrepAns) : (op.after a).reads = false := by
  cases op <;> cases a <;> rfl

theorem holdsW_ret (op : POp) (vs : List V) : holdsW (op, .ret vs) = false := by
  cases op <;> rfl

theorem Grows.same (h1 : m'.prepared = m.prepared) (h2 : m'.executed = m.executed) (h3 : m'.txs = m.txs)
    (h4 : m.opened = false → m'.opened = false ∧ m'.failures = m.failures) : Grows m m' :=
  ⟨h1 ▸ List.prefix_refl _, h2 ▸ List.prefix_refl _, Nat.le_of_eq h3.symm, h4⟩

theorem Good.writerI (g : Good m ls) (hi : ls[i]? = some (op, l)) : m.writer = some i ↔ holdsW (op, l) = true := by
  rw [g.wr i]
  constructor
  · rintro ⟨x, h, hx⟩; rw [hi] at h; cases h; exact hx
  · intro h; exact ⟨_, hi, h⟩

theorem Good.readerI (g : Good m ls) (hi : ls[i]? = some (op, l)) : i ∈ m.readers ↔ l.reads = true := by
  rw [g.rd i]
  constructor
  · rintro ⟨x, h, hx⟩; rw [hi] at h; cases h; exact hx
  · intro h; exact ⟨_, hi, h⟩

/-- The writer's stage. -/
theorem Good.stageI (g : Good m ls) (hi : ls[i]? = some (op, l)) (h : holdsW (op, l) = true) : Stage m.core (some (op, l)) := by
  have := g.stage
  rw [(g.writerI hi).2 h] at this
  have e : (some i).bind (fun j => ls[j]?) = some (op, l) := hi
  rw [e] at this
  exact this

/-- Readers exclude the writer. -/
theorem Good.noWriter (g : Good m ls) (hi : ls[i]? = some (op, l)) (h : l.reads = true) : m.writer = none := by
  by_cases hm : m.writer = none
  · exact hm
  · have := (g.readerI hi).2 h
    rw [g.excl hm] at this
    cases this

theorem Good.stageNone (g : Good m ls) (h : m.writer = none) : m.core.Open ∨ m.core.Shut := by
  have := g.stage
  rw [h] at this
  exact this

/-- After `prepare`. -/
theorem Good.factAfter {a : PrepAns} (hc : op.cached = true) (h : ∀ s, a = .ok s → m.has op.text s) : Fact m i op (op.after a) := by
  cases a with
  | ok s =>
    have := h s rfl
    cases op with
    | run query q args => exact this
    | txRun query t q args => exact this
    | txPrepare t q => exact .inl ⟨s, rfl, this⟩
    | prepare q => cases hc
    | conn => cases hc
    | begin_ => cases hc
    | close => cases hc
  | closed =>
    cases op with
    | run query q args => exact .inr (.inl rfl)
    | txRun query t q args => exact .inr (.inl rfl)
    | txPrepare t q => exact .inr (.inl rfl)
    | prepare q => cases hc
    | conn => cases hc
    | begin_ => cases hc
    | close => cases hc
  | failed e =>
    cases op with
    | run query q args => exact .inr (.inr ⟨e, rfl⟩)
    | txRun query t q args => exact .inr (.inr ⟨e, rfl⟩)
    | txPrepare t q => exact .inr (.inr ⟨e, rfl⟩)
    | prepare q => cases hc
    | conn => cases hc
    | begin_ => cases hc
    | close => cases hc

/-- A reader leaves. -/
theorem Good.dropRead (g : Good m ls) (hi : ls[i]? = some (op, l)) (hr : l.reads = true) (hl : l.finished = false) (hf : op.fits l' = true)
    (hw' : holdsW (op, l') = false) (hr' : l'.reads = false) (fact : Fact m i op l') :
    Good { m with readers := m.readers.erase i } (ls.set i (op, l')) := by
  have hm := g.noWriter hi hr
  have gr : Grows m { m with readers := m.readers.erase i } := .same rfl rfl rfl fun h => ⟨h, rfl⟩
  refine g.update hi hl hf (fun j _ => Iff.rfl) ?_ (fun j hj => ?_) ?_ (g.rdn.erase i) (fun h => absurd hm h) gr (gr.fact fact) ?_ (.inl rfl)
  · show m.writer = some i ↔ _
    rw [hm, hw']
    constructor <;> intro h <;> cases h
  · exact List.mem_erase_of_ne hj
  · rw [hr']
    constructor
    · intro h; exact absurd h (List.Nodup.not_mem_erase g.rdn)
    · intro h; cases h
  · have := g.stage
    show Stage m.core (m.writer.bind _)
    rw [hm] at this ⊢
    exact this

/-- The write lock is taken. -/
theorem Good.takeWrite (g : Good m ls) (hi : ls[i]? = some (op, l)) (hl : l.finished = false) (_hrl : l.reads = false) (hf : op.fits l' = true)
    (free : m.writer = none) (none_ : m.readers = []) (hw' : holdsW (op, l') = true) (hr' : l'.reads = false) (fact : Fact m i op l')
    (st : m.core.Open ∨ m.core.Shut → Stage m.core (some (op, l'))) :
    Good { m with writer := some i } (ls.set i (op, l')) := by
  have gr : Grows m { m with writer := some i } := .same rfl rfl rfl fun h => ⟨h, rfl⟩
  refine g.update hi hl hf (fun j hj => ?_) ?_ (fun j hj => Iff.rfl) ?_ g.rdn (fun _ => none_) gr (gr.fact fact) ?_ (.inl rfl)
  · show some i = some j ↔ _
    rw [free]
    constructor
    · intro h; exact absurd (Option.some.inj h).symm hj
    · intro h; cases h
  · exact ⟨fun _ => hw', fun _ => rfl⟩
  · show i ∈ m.readers ↔ _
    rw [none_, hr']
    constructor <;> intro h <;> cases h
  · have := g.stageNone free
    show Stage m.core ((some i).bind _)
    have e : (some i).bind (fun j => (ls.set i (op, l'))[j]?) = some (op, l') := getElem?_set_here hi
    rw [e]
    exact st this

/-- The write lock is released. -/
theorem Good.dropWrite (g : Good m ls) (hi : ls[i]? = some (op, l)) (hl : l.finished = false) (hf : op.fits l' = true)
    (hw : holdsW (op, l) = true) (hw' : holdsW (op, l') = false) (hr' : l'.reads = false) (fact : Fact m i op l')
    (st : Stage m.core (some (op, l)) → m.core.Open ∨ m.core.Shut) :
    Good { m with writer := none } (ls.set i (op, l')) := by
  have hm := (g.writerI hi).2 hw
  have hno := g.excl (by rw [hm]; exact Option.some_ne_none _)
  have gr : Grows m { m with writer := none } := .same rfl rfl rfl fun h => ⟨h, rfl⟩
  refine g.update hi hl hf (fun j hj => ?_) ?_ (fun j hj => Iff.rfl) ?_ g.rdn (fun h => absurd rfl h) gr (gr.fact fact) ?_ (.inl rfl)
  · show none = some j ↔ _
    rw [hm]
    constructor
    · intro h; cases h
    · intro h; exact absurd (Option.some.inj h).symm hj
  · show none = some i ↔ _
    rw [hw']
    constructor <;> intro h <;> cases h
  · show i ∈ m.readers ↔ _
    rw [hno, hr']
    constructor <;> intro h <;> cases h
  · exact st (g.stageI hi hw)

theorem Grows.refl (m : PMem) : Grows m m := .same rfl rfl rfl fun h => ⟨h, rfl⟩

/-- Reading. -/
theorem Good.peek (g : Good m ls) (hi : ls[i]? = some (op, l)) (hl : l.finished = false) (hf : op.fits l' = true)
    (hwl : holdsW (op, l') = holdsW (op, l)) (hrl : l'.reads = l.reads) (fact : Fact m i op l')
    (stage : (holdsW (op, l) = true ∧ (Stage m.core (some (op, l)) → Stage m.core (some (op, l')))) ∨ holdsW (op, l) = false) :
    Good m (ls.set i (op, l')) :=
  g.quiet hi hl hf rfl rfl hwl hrl (.refl m) fact (stage.imp id fun h => ⟨h, rfl⟩) (.inl rfl)

theorem fits_cached {s : Lo} (h : op.fits s = true) (hs : s = .p1 ∨ s = .p3 ∨ s = .p4 ∨ s = .p5 ∨ s = .p6 ∨ s = .p7 ∨ s = .p0 ∨ (∃ o, s = .p2 o) ∨
    (∃ o, s = .p8 o) ∨ ∃ a, s = .p9 a) : op.cached = true := by
  rcases hs with rfl | rfl | rfl | rfl | rfl | rfl | rfl | ⟨o, rfl⟩ | ⟨o, rfl⟩ | ⟨o, rfl⟩ <;> exact h

/-- A new statement of the cache. -/
theorem core_prepare (m : PMem) (q : List UInt8) (d : Bool) :
    (PMem.core { m with prepared := m.prepared ++ [⟨i, d, q⟩] }) = { m.core with made := m.made ++ bif d then [] else [(q, m.prepared.length)] } := by
  unfold PMem.core PMem.made
  rw [madeFrom_append, Nat.zero_add]

theorem nodup_new {c : List (List UInt8 × Nat)} {q : List UInt8} {s : Nat} (h : (c.map (·.1)).Nodup) (hq : q ∉ c.map (·.1)) :
    ((c ++ [(q, s)]).map (·.1)).Nodup := by
  rw [List.map_append]
  refine List.nodup_append.2 ⟨h, by simp, ?_⟩
  intro a ha b hb hab
  rw [List.map_singleton, List.mem_singleton] at hb
  exact hq ((hab.trans hb : a = q) ▸ ha)

theorem after_fits {op : POp} (h : op.cached = true) (a : PrepAns) : op.fits (op.after a) = true := (after_tree h a).2

/-- The invariant is kept. -/
theorem Good.step (g : Good m ls) (hi : ls[i]? = some (op, l)) (hf' : op.fits l' = true) (h : LStep i op m l m' l') : Good m' (ls.set i (op, l')) := by
  have hf := g.fits i _ hi
  have hfact := g.fact i _ hi
  cases h with
  | rlock free =>
    have gr : Grows m { m with readers := i :: m.readers } := .same rfl rfl rfl fun h => ⟨h, rfl⟩
    have hni : i ∉ m.readers := fun h => nomatch (g.readerI hi).1 h
    refine g.update hi rfl hf' (fun j _ => Iff.rfl) ?_ (fun j hj => ?_) ?_ (List.nodup_cons.2 ⟨hni, g.rdn⟩) (fun h => absurd free h) gr trivial ?_ (.inl rfl)
    · show m.writer = some i ↔ _
      rw [free, show holdsW (op, Lo.p1) = false from by cases op <;> rfl]
      constructor <;> intro h <;> cases h
    · exact ⟨fun h => (List.mem_cons.1 h).resolve_left hj, fun h => List.mem_cons_of_mem _ h⟩
    · exact ⟨fun _ => rfl, fun _ => List.mem_cons_self ..⟩
    · have := g.stage
      show Stage m.core (m.writer.bind _)
      rw [free] at this ⊢
      exact this
  | look =>
    refine g.peek hi rfl hf' (by cases op <;> rfl) rfl ?_ (.inr (by cases op <;> rfl))
    cases hc : cacheGet m.cache op.text with
    | none => trivial
    | some s =>
      rcases g.stageNone (g.noWriter hi rfl) with o | o
      · have : m.cache = some m.made := o.cache
        rw [this] at hc
        exact cacheGet_some hc
      · have : m.cache = none := o.cache
        rw [this] at hc
        cases hc
  | hit s =>
    exact g.dropRead hi rfl rfl hf' (holdsW_after _ _) (reads_after _ _) (Good.factAfter hf fun s' e => by cases e; exact hfact)
  | miss => exact g.dropRead hi rfl rfl hf' (by cases op <;> rfl) rfl trivial
  | lock free none_ => exact g.takeWrite hi rfl rfl hf' free none_ (by cases op <;> rfl) rfl trivial id
  | opened h =>
    refine g.peek hi rfl hf' (by cases op <;> rfl) rfl trivial (.inl ⟨by cases op <;> rfl, ?_⟩)
    rintro (o | o)
    · exact o
    · exact absurd (h.symm.trans o.opened) (by decide)
  | refused h => exact g.peek hi rfl hf' (by cases op <;> rfl) rfl trivial (.inl ⟨by cases op <;> rfl, id⟩)
  | hit2 s h =>
    have st : m.core.Open := g.stageI hi (by cases op <;> rfl)
    refine g.peek hi rfl hf' (by cases op <;> rfl) rfl ?_ (.inl ⟨by cases op <;> rfl, fun _ => .inl st⟩)
    have : m.cache = some m.made := st.cache
    rw [this] at h
    exact cacheGet_some h
  | miss2 h =>
    refine g.peek hi rfl hf' (by cases op <;> rfl) rfl trivial (.inl ⟨by cases op <;> rfl, fun st => ⟨st, ?_⟩⟩)
    have : m.cache = some m.made := Core.Open.cache st
    rw [this] at h
    exact cacheGet_none h
  | opened2 h => exact g.peek hi rfl hf' (by cases op <;> rfl) rfl trivial (.inl ⟨by cases op <;> rfl, id⟩)
  | panic2 h =>
    have st : m.core.Open ∧ _ := g.stageI hi (by cases op <;> rfl)
    exact absurd (st.1.opened.symm.trans h) (by decide)
  | prepare h =>
    have hd : op.direct = false := by cases op <;> first | rfl | cases hf
    rw [hd]
    refine g.quiet hi rfl hf' rfl rfl (by cases op <;> rfl) rfl ⟨⟨_, rfl⟩, List.prefix_refl _, Nat.le_refl _, fun h => ⟨h, rfl⟩⟩ trivial
      (.inl ⟨by cases op <;> rfl, ?_⟩) (.inl rfl)
    rintro ⟨st, hq⟩
    rw [core_prepare]
    exact ⟨st.opened, st.live, ⟨m.made, st.cache, rfl⟩, st.closed, st.failures, nodup_new st.distinct hq⟩
  | prepareFails e => exact g.peek hi rfl hf' (by cases op <;> rfl) rfl trivial (.inl ⟨by cases op <;> rfl, fun st => .inl st.1⟩)
  | store s l hl =>
    have st : m.core.Pending op.text s := g.stageI hi (by cases op <;> rfl)
    obtain ⟨l', hl', hm⟩ := st.cache
    have : m.cache = some l' := hl'
    rw [hl] at this
    cases this
    have hq : op.text ∉ l.map (·.1) := by
      have := st.distinct
      unfold Core.distinct at this
      rw [hm, List.map_append] at this
      intro h
      exact (List.nodup_append.1 this).2.2 _ h _ (by simp) rfl
    refine g.quiet hi rfl hf' rfl rfl (by cases op <;> rfl) rfl (.same rfl rfl rfl fun h => ⟨h, rfl⟩) ?_
      (.inl ⟨by cases op <;> rfl, fun _ => .inl ⟨st.opened, st.live, ?_, st.closed, st.failures, st.distinct⟩⟩) (.inl rfl)
    · show (op.text, s) ∈ m.core.made
      rw [hm]
      exact List.mem_append_right _ (List.mem_singleton.2 rfl)
    · show some (cacheSet l op.text s) = some m.core.made
      rw [cacheSet_new hq, hm]
  | storeNil s h =>
    have st : m.core.Pending op.text s := g.stageI hi (by cases op <;> rfl)
    obtain ⟨l', hl', hm⟩ := st.cache
    have : m.cache = some l' := hl'
    rw [h] at this
    cases this
  | unlock a =>
    refine g.dropWrite hi rfl hf' (by cases op <;> rfl) (holdsW_after _ _) (reads_after _ _) (Good.factAfter hf fun s e => ?_) id
    subst e
    exact hfact
  | exec s h =>
    refine g.quiet hi rfl hf' rfl rfl (by cases op <;> rfl) rfl ⟨List.prefix_refl _, ⟨_, rfl⟩, Nat.le_refl _, fun h => ⟨h, rfl⟩⟩ ?_
      (.inr ⟨by cases op <;> rfl, rfl⟩) (.inr ⟨rfl, op.execOf i s, by cases op <;> rfl, rfl⟩)
    have hx : (m.executed ++ [op.execOf i s])[m.executed.length]? = some (op.execOf i s) := List.getElem?_concat_length
    cases op with
    | run query q args => exact .inl ⟨_, s, rfl, hx, hfact⟩
    | txRun query t q args => exact .inl ⟨_, s, rfl, hx, hfact⟩
    | txPrepare t q => cases hf
    | prepare q => cases hf
    | conn => cases hf
    | begin_ => cases hf
    | close => cases hf
  | execFails s e =>
    refine g.peek hi rfl hf' (by cases op <;> rfl) rfl ?_ (.inr (by cases op <;> rfl))
    cases op with
    | run query q args => exact .inr (.inr ⟨e, rfl⟩)
    | txRun query t q args => exact .inr (.inr ⟨e, rfl⟩)
    | txPrepare t q => cases hf
    | prepare q => cases hf
    | conn => cases hf
    | begin_ => cases hf
    | close => cases hf
  | cLock free none_ => exact g.takeWrite hi rfl rfl hf' free none_ (by cases op <;> rfl) rfl trivial id
  | cEntries l p =>
    refine g.peek hi rfl hf' (by cases op <;> rfl) rfl trivial (.inl ⟨by cases op <;> rfl, ?_⟩)
    rintro (o | o)
    · have hc : m.cache = some m.made := o.cache
      have h0 : m.closed = [] := o.closed
      rw [hc, Option.getD_some] at p
      refine .inl ⟨o.opened, o.live, ?_, o.failures, o.distinct⟩
      show (m.closed ++ l.map (·.2)).Perm (m.made.map (·.2))
      rw [h0, List.nil_append]
      exact p.map _
    · have hc : m.cache = none := o.cache
      rw [hc, Option.getD_none] at p
      exact .inr ⟨o, p.eq_nil⟩
  | cStmt p l errs =>
    have st : m.core.Closing (p :: l) errs := (g.stageI hi (by cases op <;> rfl)).resolve_right fun h => nomatch h.2
    refine g.quiet hi rfl hf' rfl rfl (by cases op <;> rfl) rfl (.same rfl rfl rfl fun h => ⟨h, rfl⟩) trivial
      (.inl ⟨by cases op <;> rfl, fun _ => .inl ⟨st.opened, st.live, ?_, st.failures, st.distinct⟩⟩) (.inl rfl)
    have := st.closed
    rw [List.map_cons] at this
    show ((m.closed ++ [p.2]) ++ l.map (·.2)).Perm _
    rw [List.append_assoc]
    exact this
  | cStmtFails p l errs e =>
    have st : m.core.Closing (p :: l) errs := (g.stageI hi (by cases op <;> rfl)).resolve_right fun h => nomatch h.2
    refine g.quiet hi rfl hf' rfl rfl (by cases op <;> rfl) rfl (.same rfl rfl rfl fun h => absurd (st.opened.symm.trans h) (by decide)) trivial
      (.inl ⟨by cases op <;> rfl, fun _ => .inl ⟨st.opened, st.live, ?_, ?_, st.distinct⟩⟩) (.inl rfl)
    · have := st.closed
      rw [List.map_cons] at this
      show ((m.closed ++ [p.2]) ++ l.map (·.2)).Perm _
      rw [List.append_assoc]
      exact this
    · exact congrArg (· ++ [e]) st.failures
  | cDrop errs =>
    refine g.quiet hi rfl hf' rfl rfl (by cases op <;> rfl) rfl (.same rfl rfl rfl fun h => ⟨h, rfl⟩) trivial (.inl ⟨by cases op <;> rfl, ?_⟩) (.inl rfl)
    rintro (st | ⟨st, _⟩)
    · have := st.closed
      rw [List.map_nil, List.append_nil] at this
      exact .inl ⟨st.opened, st.live, rfl, this, st.failures, st.distinct⟩
    · exact .inr ⟨st.opened, st.closes, rfl, st.closed, st.distinct⟩
  | cOpened errs h =>
    refine g.peek hi rfl hf' (by cases op <;> rfl) rfl trivial (.inl ⟨by cases op <;> rfl, ?_⟩)
    rintro (st | st)
    · exact st
    · exact absurd (h.symm.trans st.opened) (by decide)
  | cPanic errs h =>
    have ho : op = .close := by cases op <;> first | rfl | cases hf
    subst ho
    refine g.peek hi rfl hf' rfl rfl ⟨rfl, h⟩ (.inl ⟨rfl, ?_⟩)
    rintro (st | st)
    · exact absurd (st.opened.symm.trans h) (by decide)
    · exact st
  | cDb errs =>
    refine g.quiet hi rfl hf' rfl rfl (by cases op <;> rfl) rfl (.same rfl rfl rfl fun h => ⟨h, rfl⟩) trivial (.inl ⟨by cases op <;> rfl, fun st => ?_⟩)
      (.inl rfl)
    obtain ⟨h1, h2, h3, h4, h5, h6⟩ : Core.Drained _ _ _ := st
    exact ⟨h1, congrArg (· + 1) h2, h3, h4, h5, h6⟩
  | cDbFails errs e =>
    have st : m.core.Drained 0 errs := g.stageI hi (by cases op <;> rfl)
    obtain ⟨h1, h2, h3, h4, h5, h6⟩ := st
    refine g.quiet hi rfl hf' rfl rfl (by cases op <;> rfl) rfl (.same rfl rfl rfl fun h => absurd (h1.symm.trans h) (by decide)) trivial
      (.inl ⟨by cases op <;> rfl, fun _ => ?_⟩) (.inl rfl)
    exact ⟨h1, congrArg (· + 1) h2, h3, h4, congrArg (· ++ [e]) h5, h6⟩
  | cUnder errs =>
    have st : m.core.Drained 1 errs := g.stageI hi (by cases op <;> rfl)
    obtain ⟨h1, h2, h3, h4, h5, h6⟩ := st
    refine g.quiet hi rfl hf' rfl rfl (by cases op <;> rfl) rfl (.same rfl rfl rfl fun h => ⟨rfl, rfl⟩) trivial
      (.inl ⟨by cases op <;> rfl, fun _ => ⟨⟨rfl, h2, h3, h4, h6⟩, h5⟩⟩) (.inl rfl)
  | cUnlock errs =>
    have ho : op = .close := by cases op <;> first | rfl | cases hf
    subst ho
    have st : m.core.Shut ∧ m.core.failures = errs := g.stageI hi rfl
    refine g.dropWrite hi rfl hf' rfl rfl rfl ⟨st.1.opened, ?_⟩ fun _ => .inr st.1
    rw [show m.failures = errs from st.2]
  | dOpened h => exact g.peek hi rfl hf' (by cases op <;> rfl) rfl trivial (.inr (by cases op <;> rfl))
  | dPanic h =>
    cases op with
    | prepare q => exact g.peek hi rfl hf' rfl rfl ⟨rfl, h⟩ (.inr rfl)
    | conn => exact g.peek hi rfl hf' rfl rfl ⟨rfl, h⟩ (.inr rfl)
    | begin_ => exact g.peek hi rfl hf' rfl rfl ⟨rfl, h⟩ (.inr rfl)
    | run query q args => cases hf
    | txRun query t q args => cases hf
    | txPrepare t q => cases hf
    | close => cases hf
  | dFails e =>
    refine g.peek hi rfl hf' (by cases op <;> rfl) rfl ?_ (.inr (by cases op <;> rfl))
    cases op with
    | prepare q => exact .inr (.inr ⟨e, rfl⟩)
    | conn => exact .inr (.inr ⟨e, rfl⟩)
    | begin_ => exact .inr (.inr ⟨e, rfl⟩)
    | run query q args => cases hf
    | txRun query t q args => cases hf
    | txPrepare t q => cases hf
    | close => cases hf
  | dPrepare q ho h =>
    subst ho
    refine g.quiet hi rfl hf' rfl rfl rfl rfl ⟨⟨_, rfl⟩, List.prefix_refl _, Nat.le_refl _, fun h => ⟨h, rfl⟩⟩ ?_ (.inr ⟨rfl, ?_⟩) (.inl rfl)
    · exact .inl ⟨_, rfl, List.getElem?_concat_length⟩
    · rw [core_prepare, cond_true, List.append_nil]
      rfl
  | dConn ho h =>
    subst ho
    exact g.peek hi rfl hf' rfl rfl (.inl rfl) (.inr rfl)
  | dBegin ho h =>
    subst ho
    refine g.quiet hi rfl hf' rfl rfl rfl rfl ⟨List.prefix_refl _, List.prefix_refl _, Nat.le_succ _, fun h => ⟨h, rfl⟩⟩ ?_ (.inr ⟨rfl, rfl⟩) (.inl rfl)
    exact .inl ⟨m.txs, Nat.lt_succ_self _, rfl⟩

/-- Where the goroutines are. -/
def treesOf (ls : List (POp × Lo)) : List (POp × Pt) := ls.map fun x => (x.1, x.1.tree x.2)

/-- The invariant holds wherever the goroutines get to. -/
theorem PcReachable.good {c : Pc} (h : PcReachable c) : ∃ ls, c.ts = treesOf ls ∧ Good c.mem ls := by
  induction h with
  | init => exact ⟨[], rfl, .init⟩
  | step _ st ih =>
    obtain ⟨ls, hts, g⟩ := ih
    cases st with
    | call op =>
      refine ⟨ls ++ [(op, op.start)], ?_, g.call op⟩
      show _ ++ [_] = _
      rw [hts, (start_tree op).1]
      unfold treesOf
      rw [List.map_append]
      rfl
    | thread i op t t' m' ht hs =>
      rw [hts] at ht
      unfold treesOf at ht
      rw [List.getElem?_map] at ht
      obtain ⟨⟨op', l⟩, hi, he⟩ := Option.map_eq_some_iff.1 ht
      cases he
      obtain ⟨l', rfl, hf', hl⟩ := hs.place (g.fits i _ hi)
      refine ⟨ls.set i (op', l'), ?_, g.step hi hf' hl⟩
      show List.set _ _ _ = _
      rw [hts]
      unfold treesOf
      rw [List.map_set]

end Verif.Go
