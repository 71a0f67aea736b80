import Verif.Lemmas.GoPrepared
/-!
# Goroutines running the text of `/repo/pkg/database/prepared.go`: where they are, and an invariant
-/

namespace Verif.Go

/-- The text of a statement. -/
def POp.text : POp → List UInt8
  | .run _ q _ => q
  | .txRun _ _ q _ => q
  | .txPrepare _ q => q
  | .prepare q => q
  | _ => []

/-- The calls that use the cache. -/
def POp.cached : POp → Bool
  | .run _ _ _ => true
  | .txRun _ _ _ _ => true
  | .txPrepare _ _ => true
  | _ => false

/-- What follows `prepare`. -/
def POp.kont : POp → PrepAns → Pt
  | .run query _ args => execT query none args
  | .txRun query t _ args => execT query (some t) args
  | .txPrepare t _ => txStmtT t .ret
  | _ => fun _ => .stuck

/-- Where a goroutine is: in `prepare` and after it, in `Close`, or in one of the others. -/
inductive Lo where
  | p0 | p1 | p2 (o : Option Nat) | p3 | p4 | p5 | p6 | p7 | p8 (s : Nat) | p9 (a : PrepAns) | p10 (s : Nat)
  | c0 | c1 | c2 (l : List (List UInt8 × Nat)) (errs : List ApiErr) | c4 (errs : List ApiErr) | c5 (errs : List ApiErr)
  | c6 (errs : List ApiErr) | c7 (errs : List ApiErr)
  | d0 | d1
  | ret (vs : List V)
  | panic

/-- It holds the read lock. -/
def Lo.reads : Lo → Bool
  | .p1 => true
  | .p2 _ => true
  | _ => false

/-- It holds the write lock (a panic of `Close` keeps it). -/
def Lo.writes : Lo → Bool
  | .p4 => true | .p5 => true | .p6 => true | .p7 => true | .p8 _ => true | .p9 _ => true
  | .c1 => true | .c2 _ _ => true | .c4 _ => true | .c5 _ => true | .c6 _ => true | .c7 _ => true
  | _ => false

/-- It has ended. -/
def Lo.finished : Lo → Bool
  | .ret _ => true
  | .panic => true
  | _ => false

/-- Which goroutines can be there. -/
def POp.fits (op : POp) : Lo → Bool
  | .p0 => op.cached | .p1 => op.cached | .p2 _ => op.cached | .p3 => op.cached | .p4 => op.cached | .p5 => op.cached | .p6 => op.cached
  | .p7 => op.cached | .p8 _ => op.cached | .p9 _ => op.cached
  | .p10 _ => match op with | .run _ _ _ => true | .txRun _ _ _ _ => true | _ => false
  | .c0 => match op with | .close => true | _ => false
  | .c1 => match op with | .close => true | _ => false
  | .c2 _ _ => match op with | .close => true | _ => false
  | .c4 _ => match op with | .close => true | _ => false
  | .c5 _ => match op with | .close => true | _ => false
  | .c6 _ => match op with | .close => true | _ => false
  | .c7 _ => match op with | .close => true | _ => false
  | .d0 => match op with | .prepare _ => true | .conn => true | .begin_ => true | _ => false
  | .d1 => match op with | .prepare _ => true | .conn => true | .begin_ => true | _ => false
  | .ret _ => true
  | .panic => true

/-- Under the write lock, at the second lookup. -/
def secondT (q : List UInt8) (k : PrepAns → Pt) : Pt :=
  .lookup q fun o => (match o with
    | some s => .unlock (k (.ok s))
    | none => prepMissT q k)

/-- Under the write lock. -/
def underLockT (q : List UInt8) (k : PrepAns → Pt) : Pt := .getUnder fun b => bif b then secondT q k else .unlock (k .closed)

/-- After the first lookup. -/
def firstT (q : List UInt8) (k : PrepAns → Pt) : Option Nat → Pt
  | some s => k (.ok s)
  | none => .lock (underLockT q k)

/-- The others, given the database. -/
def POp.directT : POp → Pt
  | .prepare q => .prepare q (fun s => .ret [prepV (.stmt s), .nil]) fun e => .ret [.nil, prepErrV e]
  | .conn => .conn (.ret [prepV .conn, .nil]) fun e => .ret [.nil, prepErrV e]
  | .begin_ => .begin_ (fun t => .ret [prepV (.ptx t), .nil]) fun e => .ret [.nil, prepErrV e]
  | _ => .stuck

/-- What it does from there. -/
def POp.tree (op : POp) : Lo → Pt
  | .p0 => prepareT op.text op.kont
  | .p1 => .lookup op.text fun o => .runlock (firstT op.text op.kont o)
  | .p2 o => .runlock (firstT op.text op.kont o)
  | .p3 => .lock (underLockT op.text op.kont)
  | .p4 => underLockT op.text op.kont
  | .p5 => secondT op.text op.kont
  | .p6 => prepMissT op.text op.kont
  | .p7 => .prepare op.text (fun s => .store op.text s (.unlock (op.kont (.ok s)))) (fun e => .unlock (op.kont (.failed e)))
  | .p8 s => .store op.text s (.unlock (op.kont (.ok s)))
  | .p9 a => .unlock (op.kont a)
  | .p10 s => op.kont (.ok s)
  | .c0 => .lock (.entries fun l => closeStmtsT l [])
  | .c1 => .entries fun l => closeStmtsT l []
  | .c2 l errs => closeStmtsT l (errs.map prepErrV)
  | .c4 errs => underT (.closeDb (.dropUnder (.unlock (.ret [joinV (errs.map prepErrV)])))
      fun e => .dropUnder (.unlock (.ret [joinV (errs.map prepErrV ++ [prepErrV e])])))
  | .c5 errs => .closeDb (.dropUnder (.unlock (.ret [joinV (errs.map prepErrV)])))
      fun e => .dropUnder (.unlock (.ret [joinV (errs.map prepErrV ++ [prepErrV e])]))
  | .c6 errs => .dropUnder (.unlock (.ret [joinV (errs.map prepErrV)]))
  | .c7 errs => .unlock (.ret [joinV (errs.map prepErrV)])
  | .d0 => underT op.directT
  | .d1 => op.directT
  | .ret vs => .ret vs
  | .panic => .panic

/-- After `prepare`. -/
def POp.after (op : POp) : PrepAns → Lo
  | .ok s =>
    match op with
    | .txPrepare t _ => .ret [prepV (.txStmt t s), .nil]
    | _ => .p10 s
  | .closed => .ret [.nil, closedErrV]
  | .failed e => .ret [.nil, prepErrV e]

theorem after_tree {op : POp} (h : op.cached = true) (a : PrepAns) : op.kont a = op.tree (op.after a) ∧ op.fits (op.after a) = true := by
  cases op <;> first | (cases a <;> exact ⟨rfl, rfl⟩) | (exact absurd h (by decide)) | cases h

theorem firstT_tree {op : POp} (h : op.cached = true) (s : Nat) : firstT op.text op.kont (some s) = op.tree (op.after (.ok s)) := (after_tree h _).1

/-- Where a goroutine starts. -/
def POp.start (op : POp) : Lo := bif op.cached then .p0 else match op with | .close => .c0 | _ => .d0

theorem start_tree (op : POp) : op.go = op.tree op.start ∧ op.fits op.start = true := by
  cases op with
  | run query q args => exact ⟨run_tree query q args, rfl⟩
  | txRun query t q args => exact ⟨txRun_tree query t q args, rfl⟩
  | txPrepare t q => exact ⟨txPrepare_tree t q, rfl⟩
  | prepare q => exact ⟨directPrepare_tree q, rfl⟩
  | conn => exact ⟨conn_tree, rfl⟩
  | begin_ => exact ⟨begin_tree, rfl⟩
  | close => exact ⟨close_tree_p, rfl⟩

/-- What a `run` executes. -/
def POp.execOf (i : Nat) (op : POp) (s : Nat) : Exec :=
  match op with
  | .run query _ args => ⟨i, query, none, s, args⟩
  | .txRun query t _ args => ⟨i, query, some t, s, args⟩
  | _ => ⟨i, false, none, s, []⟩

/-- Steps from place to place. -/
inductive LStep (i : Nat) (op : POp) : PMem → Lo → PMem → Lo → Prop where
  | rlock (m : PMem) (free : m.writer = none) : LStep i op m .p0 { m with readers := i :: m.readers } .p1
  | look (m : PMem) : LStep i op m .p1 m (.p2 (cacheGet m.cache op.text))
  | hit (m : PMem) (s : Nat) : LStep i op m (.p2 (some s)) { m with readers := m.readers.erase i } (op.after (.ok s))
  | miss (m : PMem) : LStep i op m (.p2 none) { m with readers := m.readers.erase i } .p3
  | lock (m : PMem) (free : m.writer = none) (none_ : m.readers = []) : LStep i op m .p3 { m with writer := some i } .p4
  | opened (m : PMem) (h : m.opened = true) : LStep i op m .p4 m .p5
  | refused (m : PMem) (h : m.opened = false) : LStep i op m .p4 m (.p9 .closed)
  | hit2 (m : PMem) (s : Nat) (h : cacheGet m.cache op.text = some s) : LStep i op m .p5 m (.p9 (.ok s))
  | miss2 (m : PMem) (h : cacheGet m.cache op.text = none) : LStep i op m .p5 m .p6
  | opened2 (m : PMem) (h : m.opened = true) : LStep i op m .p6 m .p7
  | panic2 (m : PMem) (h : m.opened = false) : LStep i op m .p6 m .panic
  | prepare (m : PMem) (h : m.dbCloses = 0) : LStep i op m .p7 { m with prepared := m.prepared ++ [⟨i, op.direct, op.text⟩] } (.p8 m.prepared.length)
  | prepareFails (m : PMem) (e : ApiErr) : LStep i op m .p7 m (.p9 (.failed e))
  | store (m : PMem) (s : Nat) (l : List (List UInt8 × Nat)) (h : m.cache = some l) :
      LStep i op m (.p8 s) { m with cache := some (cacheSet l op.text s) } (.p9 (.ok s))
  | storeNil (m : PMem) (s : Nat) (h : m.cache = none) : LStep i op m (.p8 s) m .panic
  | unlock (m : PMem) (a : PrepAns) : LStep i op m (.p9 a) { m with writer := none } (op.after a)
  | exec (m : PMem) (s : Nat) (h : (op.execOf i s).tx = none → s ∉ m.closed ∧ m.dbCloses = 0) :
      LStep i op m (.p10 s) { m with executed := m.executed ++ [op.execOf i s] } (.ret [prepV (.answer m.executed.length), .nil])
  | execFails (m : PMem) (s : Nat) (e : ApiErr) : LStep i op m (.p10 s) m (.ret [.nil, prepErrV e])
  | cLock (m : PMem) (free : m.writer = none) (none_ : m.readers = []) : LStep i op m .c0 { m with writer := some i } .c1
  | cEntries (m : PMem) (l : List (List UInt8 × Nat)) (p : l.Perm (m.cache.getD [])) : LStep i op m .c1 m (.c2 l [])
  | cStmt (m : PMem) (p : List UInt8 × Nat) (l : List (List UInt8 × Nat)) (errs : List ApiErr) :
      LStep i op m (.c2 (p :: l) errs) { m with closed := m.closed ++ [p.2] } (.c2 l errs)
  | cStmtFails (m : PMem) (p : List UInt8 × Nat) (l : List (List UInt8 × Nat)) (errs : List ApiErr) (e : ApiErr) :
      LStep i op m (.c2 (p :: l) errs) { m with closed := m.closed ++ [p.2], failures := m.failures ++ [e] } (.c2 l (errs ++ [e]))
  | cDrop (m : PMem) (errs : List ApiErr) : LStep i op m (.c2 [] errs) { m with cache := none } (.c4 errs)
  | cOpened (m : PMem) (errs : List ApiErr) (h : m.opened = true) : LStep i op m (.c4 errs) m (.c5 errs)
  | cPanic (m : PMem) (errs : List ApiErr) (h : m.opened = false) : LStep i op m (.c4 errs) m .panic
  | cDb (m : PMem) (errs : List ApiErr) : LStep i op m (.c5 errs) { m with dbCloses := m.dbCloses + 1 } (.c6 errs)
  | cDbFails (m : PMem) (errs : List ApiErr) (e : ApiErr) :
      LStep i op m (.c5 errs) { m with dbCloses := m.dbCloses + 1, failures := m.failures ++ [e] } (.c6 (errs ++ [e]))
  | cUnder (m : PMem) (errs : List ApiErr) : LStep i op m (.c6 errs) { m with opened := false } (.c7 errs)
  | cUnlock (m : PMem) (errs : List ApiErr) : LStep i op m (.c7 errs) { m with writer := none } (.ret [joinV (errs.map prepErrV)])
  | dOpened (m : PMem) (h : m.opened = true) : LStep i op m .d0 m .d1
  | dPanic (m : PMem) (h : m.opened = false) : LStep i op m .d0 m .panic
  | dFails (m : PMem) (e : ApiErr) : LStep i op m .d1 m (.ret [.nil, prepErrV e])
  | dPrepare (m : PMem) (q : List UInt8) (ho : op = .prepare q) (h : m.dbCloses = 0) :
      LStep i op m .d1 { m with prepared := m.prepared ++ [⟨i, true, q⟩] } (.ret [prepV (.stmt m.prepared.length), .nil])
  | dConn (m : PMem) (ho : op = .conn) (h : m.dbCloses = 0) : LStep i op m .d1 m (.ret [prepV .conn, .nil])
  | dBegin (m : PMem) (ho : op = .begin_) (h : m.dbCloses = 0) : LStep i op m .d1 { m with txs := m.txs + 1 } (.ret [prepV (.ptx m.txs), .nil])

theorem closing_tree (op : POp) (l : List (List UInt8 × Nat)) (errs : List ApiErr) (e : ApiErr) :
    closeStmtsT l (errs.map prepErrV ++ [prepErrV e]) = op.tree (.c2 l (errs ++ [e])) := by
  show _ = closeStmtsT l ((errs ++ [e]).map prepErrV)
  rw [List.map_append]
  rfl

/-- The actions of a goroutine are these steps. -/
theorem PtStep.place {i : Nat} {op : POp} {m m' : PMem} {l : Lo} {t' : Pt} (h : PtStep i op.direct m (op.tree l) m' t') (hf : op.fits l = true) :
    ∃ l', t' = op.tree l' ∧ op.fits l' = true ∧ LStep i op m l m' l' := by
  cases l with
  | p0 =>
    cases h with
    | rlock _ free => exact ⟨.p1, rfl, hf, .rlock m free⟩
  | p1 =>
    cases h with
    | lookup => exact ⟨.p2 _, rfl, hf, .look m⟩
  | p2 o =>
    cases h with
    | runlock =>
      cases o with
      | some s => exact ⟨_, firstT_tree hf s, (after_tree hf _).2, .hit m s⟩
      | none => exact ⟨.p3, rfl, hf, .miss m⟩
  | p3 =>
    cases h with
    | lock _ free none_ => exact ⟨.p4, rfl, hf, .lock m free none_⟩
  | p4 =>
    cases h with
    | getUnder =>
      cases ho : m.opened with
      | true => exact ⟨.p5, rfl, hf, .opened m ho⟩
      | false => exact ⟨.p9 .closed, rfl, hf, .refused m ho⟩
  | p5 =>
    cases h with
    | lookup =>
      cases ho : cacheGet m.cache op.text with
      | some s => exact ⟨.p9 (.ok s), rfl, hf, .hit2 m s ho⟩
      | none => exact ⟨.p6, rfl, hf, .miss2 m ho⟩
  | p6 =>
    cases h with
    | getUnder =>
      cases ho : m.opened with
      | true => exact ⟨.p7, rfl, hf, .opened2 m ho⟩
      | false => exact ⟨.panic, rfl, rfl, .panic2 m ho⟩
  | p7 =>
    cases h with
    | prepare _ _ _ h0 => exact ⟨.p8 _, rfl, hf, .prepare m h0⟩
    | prepareFails _ _ _ e => exact ⟨.p9 (.failed e), rfl, hf, .prepareFails m e⟩
  | p8 s =>
    cases h with
    | store _ _ _ l hl => exact ⟨.p9 (.ok s), rfl, hf, .store m s l hl⟩
    | storeNil _ _ _ hl => exact ⟨.panic, rfl, rfl, .storeNil m s hl⟩
  | p9 a =>
    cases h with
    | unlock => exact ⟨_, (after_tree hf a).1, (after_tree hf a).2, .unlock m a⟩
  | p10 s =>
    cases op with
    | run query q args =>
      cases h with
      | exec _ _ _ _ _ _ hx => exact ⟨.ret _, rfl, rfl, .exec m s hx⟩
      | execFails _ _ _ _ _ _ e => exact ⟨.ret _, rfl, rfl, .execFails m s e⟩
    | txRun query t q args =>
      cases h with
      | exec _ _ _ _ _ _ hx => exact ⟨.ret _, rfl, rfl, .exec m s hx⟩
      | execFails _ _ _ _ _ _ e => exact ⟨.ret _, rfl, rfl, .execFails m s e⟩
    | txPrepare t q => cases hf
    | prepare q => cases hf
    | conn => cases hf
    | begin_ => cases hf
    | close => cases hf
  | c0 =>
    cases h with
    | lock _ free none_ => exact ⟨.c1, rfl, hf, .cLock m free none_⟩
  | c1 =>
    cases h with
    | entries _ l p => exact ⟨.c2 l [], rfl, hf, .cEntries m l p⟩
  | c2 l errs =>
    cases l with
    | nil =>
      cases h with
      | dropCache => exact ⟨.c4 errs, rfl, hf, .cDrop m errs⟩
    | cons p l =>
      cases h with
      | closeStmt => exact ⟨.c2 l errs, rfl, hf, .cStmt m p l errs⟩
      | closeStmtFails _ _ _ e => exact ⟨.c2 l (errs ++ [e]), closing_tree op l errs e, hf, .cStmtFails m p l errs e⟩
  | c4 errs =>
    cases h with
    | getUnder =>
      cases ho : m.opened with
      | true => exact ⟨.c5 errs, rfl, hf, .cOpened m errs ho⟩
      | false => exact ⟨.panic, rfl, rfl, .cPanic m errs ho⟩
  | c5 errs =>
    cases h with
    | closeDb => exact ⟨.c6 errs, rfl, hf, .cDb m errs⟩
    | closeDbFails _ _ e =>
      refine ⟨.c6 (errs ++ [e]), ?_, hf, .cDbFails m errs e⟩
      show _ = Pt.dropUnder (.unlock (.ret [joinV ((errs ++ [e]).map prepErrV)]))
      rw [List.map_append]
      rfl
  | c6 errs =>
    cases h with
    | dropUnder => exact ⟨.c7 errs, rfl, hf, .cUnder m errs⟩
  | c7 errs =>
    cases h with
    | unlock => exact ⟨.ret _, rfl, rfl, .cUnlock m errs⟩
  | d0 =>
    cases h with
    | getUnder =>
      cases ho : m.opened with
      | true => exact ⟨.d1, rfl, hf, .dOpened m ho⟩
      | false => exact ⟨.panic, rfl, rfl, .dPanic m ho⟩
  | d1 =>
    cases op with
    | prepare q =>
      cases h with
      | prepare _ _ _ h0 => exact ⟨.ret _, rfl, rfl, .dPrepare m q rfl h0⟩
      | prepareFails _ _ _ e => exact ⟨.ret _, rfl, rfl, .dFails m e⟩
    | conn =>
      cases h with
      | conn _ _ h0 => exact ⟨.ret _, rfl, rfl, .dConn m rfl h0⟩
      | connFails _ _ e => exact ⟨.ret _, rfl, rfl, .dFails m e⟩
    | begin_ =>
      cases h with
      | begin_ _ _ h0 => exact ⟨.ret _, rfl, rfl, .dBegin m rfl h0⟩
      | beginFails _ _ e => exact ⟨.ret _, rfl, rfl, .dFails m e⟩
    | run query q args => cases hf
    | txRun query t q args => cases hf
    | txPrepare t q => cases hf
    | close => cases hf
  | ret vs => cases h
  | panic => cases h

/-! ### The statements of the cache -/

/-- The statements the cache has prepared, the first of them with this number. -/
def madeFrom : Nat → List Prep → List (List UInt8 × Nat)
  | _, [] => []
  | n, p :: l => bif p.direct then madeFrom (n + 1) l else (p.text, n) :: madeFrom (n + 1) l

theorem madeFrom_append (n : Nat) (l : List Prep) (p : Prep) :
    madeFrom n (l ++ [p]) = madeFrom n l ++ bif p.direct then [] else [(p.text, n + l.length)] := by
  induction l generalizing n with
  | nil =>
    show madeFrom n [p] = _
    unfold madeFrom
    cases p.direct <;> rfl
  | cons x l ih =>
    show madeFrom n (x :: (l ++ [p])) = _
    unfold madeFrom
    have e : n + 1 + l.length = n + (x :: l).length := by rw [List.length_cons]; omega
    rw [ih, e]
    cases x.direct <;> rfl

theorem mem_madeFrom {n : Nat} {l : List Prep} {q : List UInt8} {s : Nat} :
    (q, s) ∈ madeFrom n l ↔ n ≤ s ∧ ∃ i, l[s - n]? = some ⟨i, false, q⟩ := by
  induction l generalizing n with
  | nil => simp [madeFrom]
  | cons x l ih =>
    unfold madeFrom
    have key : (n + 1 ≤ s ∧ ∃ i, l[s - (n + 1)]? = some ⟨i, false, q⟩) ↔ (n < s ∧ ∃ i, (x :: l)[s - n]? = some ⟨i, false, q⟩) := by
      constructor
      · rintro ⟨h, i, hi⟩
        refine ⟨h, i, ?_⟩
        rw [show s - n = (s - (n + 1)) + 1 by omega]
        exact hi
      · rintro ⟨h, i, hi⟩
        refine ⟨h, i, ?_⟩
        rw [show s - n = (s - (n + 1)) + 1 by omega] at hi
        exact hi
    obtain ⟨b, d, t⟩ := x
    cases d with
    | true =>
      rw [cond_true, ih, key]
      constructor
      · rintro ⟨h, hi⟩; exact ⟨by omega, hi⟩
      · rintro ⟨h, i, hi⟩
        refine ⟨?_, i, hi⟩
        by_cases hs : s = n
        · subst hs; rw [Nat.sub_self] at hi; cases hi
        · omega
    | false =>
      rw [cond_false, List.mem_cons, ih, key]
      constructor
      · rintro (h | ⟨h, hi⟩)
        · cases h; exact ⟨Nat.le_refl _, b, by rw [Nat.sub_self]; rfl⟩
        · exact ⟨by omega, hi⟩
      · rintro ⟨h, i, hi⟩
        by_cases hs : s = n
        · subst hs
          rw [Nat.sub_self] at hi
          cases hi
          exact .inl rfl
        · exact .inr ⟨by omega, i, hi⟩

theorem madeFrom_nodup (n : Nat) (l : List Prep) : ((madeFrom n l).map (·.2)).Nodup := by
  induction l generalizing n with
  | nil => exact List.nodup_nil
  | cons x l ih =>
    unfold madeFrom
    cases x.direct with
    | true => exact ih (n + 1)
    | false =>
      rw [cond_false, List.map_cons, List.nodup_cons]
      refine ⟨fun h => ?_, ih (n + 1)⟩
      obtain ⟨⟨q, s⟩, hx, he⟩ := List.mem_map.1 h
      have := (mem_madeFrom.1 hx).1
      change s = n at he
      omega

/-- The statements the cache has prepared, with their texts. -/
def PMem.made (m : PMem) : List (List UInt8 × Nat) := madeFrom 0 m.prepared

/-- What the cache is about. -/
structure Core where
  opened : Bool
  cache : Option (List (List UInt8 × Nat))
  made : List (List UInt8 × Nat)
  closed : List Nat
  dbCloses : Nat
  failures : List ApiErr

/-- The same of a memory. -/
def PMem.core (m : PMem) : Core := ⟨m.opened, m.cache, m.made, m.closed, m.dbCloses, m.failures⟩

/-- No text twice. -/
def Core.distinct (c : Core) : Prop := (c.made.map (·.1)).Nodup

/-- In use: the map has all the statements. -/
structure Core.Open (c : Core) : Prop where
  opened : c.opened = true
  live : c.dbCloses = 0
  cache : c.cache = some c.made
  closed : c.closed = []
  failures : c.failures = []
  distinct : c.distinct

/-- A statement has been prepared and is not yet in the map. -/
structure Core.Pending (c : Core) (q : List UInt8) (s : Nat) : Prop where
  opened : c.opened = true
  live : c.dbCloses = 0
  cache : ∃ l, c.cache = some l ∧ c.made = l ++ [(q, s)]
  closed : c.closed = []
  failures : c.failures = []
  distinct : c.distinct

/-- `Close` is closing the statements: `l` are left. -/
structure Core.Closing (c : Core) (l : List (List UInt8 × Nat)) (errs : List ApiErr) : Prop where
  opened : c.opened = true
  live : c.dbCloses = 0
  closed : (c.closed ++ l.map (·.2)).Perm (c.made.map (·.2))
  failures : c.failures = errs
  distinct : c.distinct

/-- All are closed; the map is gone. -/
structure Core.Drained (c : Core) (n : Nat) (errs : List ApiErr) : Prop where
  opened : c.opened = true
  closes : c.dbCloses = n
  cache : c.cache = none
  closed : c.closed.Perm (c.made.map (·.2))
  failures : c.failures = errs
  distinct : c.distinct

/-- Closed. -/
structure Core.Shut (c : Core) : Prop where
  opened : c.opened = false
  closes : c.dbCloses = 1
  cache : c.cache = none
  closed : c.closed.Perm (c.made.map (·.2))
  distinct : c.distinct

/-- What holds where the writer is. -/
def Stage (c : Core) : Option (POp × Lo) → Prop
  | none => c.Open ∨ c.Shut
  | some (op, l) =>
    match l with
    | .p4 => c.Open ∨ c.Shut
    | .p5 => c.Open
    | .p6 => c.Open ∧ op.text ∉ c.made.map (·.1)
    | .p7 => c.Open ∧ op.text ∉ c.made.map (·.1)
    | .p8 s => c.Pending op.text s
    | .p9 _ => c.Open ∨ c.Shut
    | .c1 => c.Open ∨ c.Shut
    | .c2 l errs => c.Closing l errs ∨ (c.Shut ∧ l = [])
    | .c4 errs => c.Drained 0 errs ∨ c.Shut
    | .c5 errs => c.Drained 0 errs
    | .c6 errs => c.Drained 1 errs
    | .c7 errs => c.Shut ∧ c.failures = errs
    | .panic => c.Shut
    | _ => False

/-- A statement of this text. -/
def PMem.has (m : PMem) (q : List UInt8) (s : Nat) : Prop := (q, s) ∈ m.made

/-- An error as the second result. -/
def IsError (vs : List V) : Prop := vs = [.nil, closedErrV] ∨ ∃ e, vs = [.nil, prepErrV e]

/-- What a goroutine has returned. -/
def Returned (m : PMem) (i : Nat) (op : POp) (vs : List V) : Prop :=
  match op with
  | .run _ q _ => (∃ a s, vs = [prepV (.answer a), .nil] ∧ m.executed[a]? = some (op.execOf i s) ∧ m.has q s) ∨ IsError vs
  | .txRun _ _ q _ => (∃ a s, vs = [prepV (.answer a), .nil] ∧ m.executed[a]? = some (op.execOf i s) ∧ m.has q s) ∨ IsError vs
  | .txPrepare t q => (∃ s, vs = [prepV (.txStmt t s), .nil] ∧ m.has q s) ∨ IsError vs
  | .prepare q => (∃ s, vs = [prepV (.stmt s), .nil] ∧ m.prepared[s]? = some ⟨i, true, q⟩) ∨ IsError vs
  | .conn => vs = [prepV .conn, .nil] ∨ IsError vs
  | .begin_ => (∃ t, t < m.txs ∧ vs = [prepV (.ptx t), .nil]) ∨ IsError vs
  | .close => m.opened = false ∧ vs = [joinV (m.failures.map prepErrV)]

/-- What holds where a goroutine is. -/
def Fact (m : PMem) (i : Nat) (op : POp) : Lo → Prop
  | .p2 (some s) => m.has op.text s
  | .p9 (.ok s) => m.has op.text s
  | .p10 s => m.has op.text s
  | .ret vs => Returned m i op vs
  | .panic => op.cached = false ∧ m.opened = false
  | _ => True

/-- How the memory changes. -/
structure Grows (m m' : PMem) : Prop where
  prepared : m.prepared <+: m'.prepared
  executed : m.executed <+: m'.executed
  txs : m.txs ≤ m'.txs
  shut : m.opened = false → m'.opened = false ∧ m'.failures = m.failures

theorem getElem?_of_prefix {α : Type} {l l' : List α} (h : l <+: l') {i : Nat} {x : α} (hx : l[i]? = some x) : l'[i]? = some x := by
  obtain ⟨r, rfl⟩ := h
  have hi := (List.getElem?_eq_some_iff.1 hx).1
  rw [List.getElem?_append_left hi]
  exact hx

theorem Grows.has {m m' : PMem} (g : Grows m m') {q : List UInt8} {s : Nat} (h : m.has q s) : m'.has q s := by
  obtain ⟨h0, i, hi⟩ := mem_madeFrom.1 h
  exact mem_madeFrom.2 ⟨h0, i, getElem?_of_prefix g.prepared hi⟩

theorem Grows.returned {m m' : PMem} (g : Grows m m') {i : Nat} {op : POp} {vs : List V} (h : Returned m i op vs) : Returned m' i op vs := by
  cases op with
  | run query q args =>
    rcases h with ⟨a, s, h1, h2, h3⟩ | h
    · exact .inl ⟨a, s, h1, getElem?_of_prefix g.executed h2, g.has h3⟩
    · exact .inr h
  | txRun query t q args =>
    rcases h with ⟨a, s, h1, h2, h3⟩ | h
    · exact .inl ⟨a, s, h1, getElem?_of_prefix g.executed h2, g.has h3⟩
    · exact .inr h
  | txPrepare t q =>
    rcases h with ⟨s, h1, h2⟩ | h
    · exact .inl ⟨s, h1, g.has h2⟩
    · exact .inr h
  | prepare q =>
    rcases h with ⟨s, h1, h2⟩ | h
    · exact .inl ⟨s, h1, getElem?_of_prefix g.prepared h2⟩
    · exact .inr h
  | conn => exact h
  | begin_ =>
    rcases h with ⟨t, h1, h2⟩ | h
    · exact .inl ⟨t, Nat.lt_of_lt_of_le h1 g.txs, h2⟩
    · exact .inr h
  | close => exact ⟨(g.shut h.1).1, by rw [(g.shut h.1).2]; exact h.2⟩

theorem Grows.fact {m m' : PMem} (g : Grows m m') {i : Nat} {op : POp} {l : Lo} (h : Fact m i op l) : Fact m' i op l := by
  cases l with
  | p2 o => cases o with | none => trivial | some s => exact g.has h
  | p9 a => cases a with | ok s => exact g.has h | closed => trivial | failed e => trivial
  | p10 s => exact g.has h
  | ret vs => exact g.returned h
  | panic => exact ⟨h.1, (g.shut h.2).1⟩
  | _ => trivial

/-- It holds the write lock; a `Close` that panics keeps it. -/
def holdsW (x : POp × Lo) : Bool :=
  x.2.writes || match x with | (.close, .panic) => true | _ => false

/-- The invariant. -/
structure Good (m : PMem) (ls : List (POp × Lo)) : Prop where
  fits : ∀ (j : Nat) (x : POp × Lo), ls[j]? = some x → x.1.fits x.2 = true
  wr : ∀ j, m.writer = some j ↔ ∃ x : POp × Lo, ls[j]? = some x ∧ holdsW x = true
  rd : ∀ j, j ∈ m.readers ↔ ∃ x : POp × Lo, ls[j]? = some x ∧ x.2.reads = true
  rdn : m.readers.Nodup
  excl : m.writer ≠ none → m.readers = []
  fact : ∀ (j : Nat) (x : POp × Lo), ls[j]? = some x → Fact m j x.1 x.2
  stage : Stage m.core (m.writer.bind fun j => ls[j]?)
  ran : ∀ (a : Nat) (e : Exec), m.executed[a]? = some e → ∃ o : POp, ls[e.by_]? = some (o, Lo.ret [prepV (.answer a), .nil])
  once : (m.executed.map (·.by_)).Nodup

theorem Good.init : Good Pc.init.mem [] where
  fits := fun j x h => by simp at h
  wr := fun j => by simp [Pc.init]
  rd := fun j => by simp [Pc.init]
  rdn := List.nodup_nil
  excl := fun h => absurd rfl h
  fact := fun j x h => by simp at h
  stage := .inl ⟨rfl, rfl, rfl, rfl, rfl, List.nodup_nil⟩
  ran := fun a e h => by simp [Pc.init] at h
  once := List.nodup_nil

variable {m m' : PMem} {ls : List (POp × Lo)} {i : Nat} {op : POp} {l l' : Lo}

theorem getElem?_append_one {α : Type} {l : List α} {a : α} {j : Nat} {x : α} (h : (l ++ [a])[j]? = some x) :
    l[j]? = some x ∨ (j = l.length ∧ x = a) := by
  by_cases hj : j < l.length
  · rw [List.getElem?_append_left hj] at h; exact .inl h
  · have := (List.getElem?_eq_some_iff.1 h).1
    rw [List.length_append, List.length_singleton] at this
    have e : j = l.length := by omega
    subst e
    rw [List.getElem?_concat_length] at h
    exact .inr ⟨rfl, (Option.some.inj h).symm⟩

theorem getElem?_append_old {α : Type} {l : List α} {a : α} {j : Nat} {x : α} (h : l[j]? = some x) : (l ++ [a])[j]? = some x :=
  getElem?_of_prefix ⟨[a], rfl⟩ h

/-- A call begins. -/
theorem Good.call (g : Good m ls) (op : POp) : Good m (ls ++ [(op, op.start)]) := by
  have hw : holdsW (op, op.start) = false := by cases op <;> rfl
  have hr : op.start.reads = false := by cases op <;> rfl
  refine ⟨?_, ?_, ?_, g.rdn, g.excl, ?_, ?_, ?_, g.once⟩
  · intro j x h
    rcases getElem?_append_one h with h | ⟨_, rfl⟩
    · exact g.fits j x h
    · exact (start_tree op).2
  · intro j
    rw [g.wr j]
    constructor
    · rintro ⟨x, h, hx⟩; exact ⟨x, getElem?_append_old h, hx⟩
    · rintro ⟨x, h, hx⟩
      rcases getElem?_append_one h with h | ⟨_, rfl⟩
      · exact ⟨x, h, hx⟩
      · rw [hw] at hx; cases hx
  · intro j
    rw [g.rd j]
    constructor
    · rintro ⟨x, h, hx⟩; exact ⟨x, getElem?_append_old h, hx⟩
    · rintro ⟨x, h, hx⟩
      rcases getElem?_append_one h with h | ⟨_, rfl⟩
      · exact ⟨x, h, hx⟩
      · rw [show (op, op.start).2 = op.start from rfl, hr] at hx; cases hx
  · intro j x h
    rcases getElem?_append_one h with h | ⟨_, rfl⟩
    · exact g.fact j x h
    · cases op <;> exact trivial
  · have := g.stage
    cases hm : m.writer with
    | none => rw [hm] at this; exact this
    | some j =>
      obtain ⟨x, hx, _⟩ := (g.wr j).1 hm
      rw [hm] at this
      have e : (some j).bind (fun j => ls[j]?) = some x := hx
      have e' : (some j).bind (fun j => (ls ++ [(op, op.start)])[j]?) = some x := getElem?_append_old hx
      rw [e] at this
      rw [e']
      exact this
  · intro a e he
    obtain ⟨o, hx⟩ := g.ran a e he
    exact ⟨o, getElem?_append_old hx⟩

theorem getElem?_set_cases {α : Type} {l : List α} {i : Nat} {a : α} {j : Nat} {x : α} (h : (l.set i a)[j]? = some x) :
    (j = i ∧ x = a) ∨ (j ≠ i ∧ l[j]? = some x) := by
  by_cases hj : j = i
  · subst hj
    have hl := (List.getElem?_eq_some_iff.1 h).1
    rw [List.length_set] at hl
    rw [List.getElem?_set_self hl] at h
    exact .inl ⟨rfl, (Option.some.inj h).symm⟩
  · rw [List.getElem?_set_ne (Ne.symm hj)] at h
    exact .inr ⟨hj, h⟩

theorem getElem?_set_here {α : Type} {l : List α} {i : Nat} {a x : α} (h : l[i]? = some x) : (l.set i a)[i]? = some a :=
  List.getElem?_set_self (List.getElem?_eq_some_iff.1 h).1

/-- A goroutine moves on. -/
theorem Good.update (g : Good m ls) (hi : ls[i]? = some (op, l)) (hl : l.finished = false) (hf : op.fits l' = true)
    (hw : ∀ j, j ≠ i → (m'.writer = some j ↔ m.writer = some j)) (hwi : m'.writer = some i ↔ holdsW (op, l') = true)
    (hr : ∀ j, j ≠ i → (j ∈ m'.readers ↔ j ∈ m.readers)) (hri : i ∈ m'.readers ↔ l'.reads = true) (hrn : m'.readers.Nodup)
    (hx : m'.writer ≠ none → m'.readers = []) (gr : Grows m m') (fact : Fact m' i op l')
    (stage : Stage m'.core (m'.writer.bind fun j => (ls.set i (op, l'))[j]?))
    (ex : m'.executed = m.executed ∨ (l' = .ret [prepV (.answer m.executed.length), .nil] ∧ ∃ e : Exec, e.by_ = i ∧ m'.executed = m.executed ++ [e])) :
    Good m' (ls.set i (op, l')) := by
  have old : ∀ e ∈ m.executed, e.by_ ≠ i := by
    intro e he h
    obtain ⟨a, ha⟩ := List.getElem?_of_mem he
    obtain ⟨o, hx⟩ := g.ran a e ha
    rw [h, hi] at hx
    cases hx
    cases hl
  refine ⟨?_, ?_, ?_, hrn, hx, ?_, stage, ?_, ?_⟩
  · intro j x h
    rcases getElem?_set_cases h with ⟨_, rfl⟩ | ⟨_, h⟩
    · exact hf
    · exact g.fits j x h
  · intro j
    by_cases hj : j = i
    · subst hj
      rw [hwi]
      constructor
      · intro h; exact ⟨_, getElem?_set_here hi, h⟩
      · rintro ⟨x, h, hx⟩
        rw [getElem?_set_here hi] at h
        cases h
        exact hx
    · rw [hw j hj, g.wr j, List.getElem?_set_ne (Ne.symm hj)]
  · intro j
    by_cases hj : j = i
    · subst hj
      rw [hri]
      constructor
      · intro h; exact ⟨_, getElem?_set_here hi, h⟩
      · rintro ⟨x, h, hx⟩
        rw [getElem?_set_here hi] at h
        cases h
        exact hx
    · rw [hr j hj, g.rd j, List.getElem?_set_ne (Ne.symm hj)]
  · intro j x h
    rcases getElem?_set_cases h with ⟨rfl, rfl⟩ | ⟨_, h⟩
    · exact fact
    · exact gr.fact (g.fact j x h)
  · intro a e he
    have go : m.executed[a]? = some e → ∃ o, (ls.set i (op, l'))[e.by_]? = some (o, .ret [prepV (.answer a), .nil]) := by
      intro he
      obtain ⟨o, hx⟩ := g.ran a e he
      exact ⟨o, by rw [List.getElem?_set_ne (Ne.symm (old e (List.mem_of_getElem? he)))]; exact hx⟩
    rcases ex with ex | ⟨hl', e', he', ex⟩
    · rw [ex] at he; exact go he
    · rw [ex] at he
      rcases getElem?_append_one he with he | ⟨rfl, rfl⟩
      · exact go he
      · rw [he']
        exact ⟨op, by rw [getElem?_set_here hi, hl']⟩
  · rcases ex with ex | ⟨hl', e', he', ex⟩
    · rw [ex]; exact g.once
    · rw [ex, List.map_append]
      refine List.nodup_append.2 ⟨g.once, by simp, ?_⟩
      intro a ha b hb hab
      obtain ⟨e, he, rfl⟩ := List.mem_map.1 ha
      rw [List.map_singleton, List.mem_singleton, he'] at hb
      exact old e he (hab.trans hb)

/-- Without the mutex changing hands. -/
theorem Good.quiet (g : Good m ls) (hi : ls[i]? = some (op, l)) (hl : l.finished = false) (hf : op.fits l' = true)
    (hw : m'.writer = m.writer) (hr : m'.readers = m.readers) (hwl : holdsW (op, l') = holdsW (op, l)) (hrl : l'.reads = l.reads)
    (gr : Grows m m') (fact : Fact m' i op l')
    (stage : (holdsW (op, l) = true ∧ (Stage m.core (some (op, l)) → Stage m'.core (some (op, l')))) ∨ (holdsW (op, l) = false ∧ m'.core = m.core))
    (ex : m'.executed = m.executed ∨ (l' = .ret [prepV (.answer m.executed.length), .nil] ∧ ∃ e : Exec, e.by_ = i ∧ m'.executed = m.executed ++ [e])) :
    Good m' (ls.set i (op, l')) := by
  have hwi : m.writer = some i ↔ holdsW (op, l) = true := by
    rw [g.wr i]
    constructor
    · rintro ⟨x, h, hx⟩; rw [hi] at h; cases h; exact hx
    · intro h; exact ⟨_, hi, h⟩
  have hri : i ∈ m.readers ↔ l.reads = true := by
    rw [g.rd i]
    constructor
    · rintro ⟨x, h, hx⟩; rw [hi] at h; cases h; exact hx
    · intro h; exact ⟨_, hi, h⟩
  refine g.update hi hl hf (fun j _ => by rw [hw]) (by rw [hw, hwl]; exact hwi) (fun j _ => by rw [hr]) (by rw [hr, hrl]; exact hri)
    (by rw [hr]; exact g.rdn) (by rw [hw, hr]; exact g.excl) gr fact ?_ ex
  rcases stage with ⟨h, st⟩ | ⟨h, hc⟩
  · have hm := hwi.2 h
    have := g.stage
    rw [hm] at this
    rw [hw, hm]
    have e : (some i).bind (fun j => ls[j]?) = some (op, l) := hi
    have e' : (some i).bind (fun j => (ls.set i (op, l'))[j]?) = some (op, l') := getElem?_set_here hi
    rw [e] at this
    rw [e']
    exact st this
  · have := g.stage
    rw [hc, hw]
    cases hm : m.writer with
    | none => rw [hm] at this; exact this
    | some j =>
      have hj : j ≠ i := by
        rintro rfl
        rw [hwi.1 hm] at h
        cases h
      rw [hm] at this
      have e : (some j).bind (fun j => (ls.set i (op, l'))[j]?) = (some j).bind fun j => ls[j]? := List.getElem?_set_ne (Ne.symm hj)
      rw [e]
      exact this

end Verif.Go
