import Verif.Lemmas.SqlAst
import Verif.Lemmas.Sql
/-!
# Evaluating the statements of the driver
-/

namespace Verif.SqlLang

open Verif

/-! ## How the table is stored -/

/-- How the two nullable BLOB columns are stored: an empty byte string is stored as NULL or as the empty blob. -/
structure Enc where
  val : Row → Val
  old : Row → Val

/-- The stored values stand for the bytes of the rows. -/
structure Enc.Valid (E : Enc) (db : DB) : Prop where
  val : ∀ r ∈ db.rows, E.val r = .blob r.value ∨ (r.value = [] ∧ E.val r = .null)
  old : ∀ r ∈ db.rows, E.old r = .blob r.oldValue ∨ (r.oldValue = [] ∧ E.old r = .null)

/-- A stored row. -/
def rowVals (E : Enc) (r : Row) : List Val :=
  [.int r.id, .text r.name, .ofBool r.created, .ofBool r.deleted, .int r.createRevision, .int r.prevRevision,
   .int r.lease, E.val r, E.old r]

/-- The stored table. -/
def phys (E : Enc) (db : DB) : Tables := { rows := db.rows.map (rowVals E), seq := db.seq }

/-- A stored row as a frame. -/
def fr (E : Enc) (a : Ident) (r : Row) : Frame := mkFrame (some a) (kineCols.map some) (rowVals E r)

/-- The value of a column. -/
def rowGet (E : Enc) (r : Row) : Ident → Val
  | .id => .int r.id
  | .name => .text r.name
  | .created => .ofBool r.created
  | .deleted => .ofBool r.deleted
  | .create_revision => .int r.createRevision
  | .prev_revision => .int r.prevRevision
  | .lease => .int r.lease
  | .value => E.val r
  | .old_value => E.old r
  | _ => .null

theorem get_fr (E : Enc) (a : Ident) (r : Row) (o : Frame) (t : Option Ident) (c : Ident) (ht : t = none ∨ t = some a)
    (hc : c ∈ kineCols) : (fr E a r ++ o).get t c = rowGet E r c := by
  simp only [kineCols, List.mem_cons, List.not_mem_nil, or_false] at hc
  rcases hc with rfl | rfl | rfl | rfl | rfl | rfl | rfl | rfl | rfl <;>
    simp [fr, mkFrame, kineCols, rowVals, Frame.get, ht, rowGet]

theorem get_fr' (E : Enc) (a : Ident) (r : Row) (t : Option Ident) (c : Ident) (ht : t = none ∨ t = some a)
    (hc : c ∈ kineCols) : (fr E a r).get t c = rowGet E r c := by
  have := get_fr E a r [] t c ht hc
  rwa [List.append_nil] at this

@[simp] theorem cols_none (E : Enc) (a : Ident) (r : Row) :
    Frame.get none .id (fr E a r) = .int r.id ∧
    Frame.get none .name (fr E a r) = .text r.name ∧
    Frame.get none .created (fr E a r) = .ofBool r.created ∧
    Frame.get none .deleted (fr E a r) = .ofBool r.deleted ∧
    Frame.get none .create_revision (fr E a r) = .int r.createRevision ∧
    Frame.get none .prev_revision (fr E a r) = .int r.prevRevision ∧
    Frame.get none .lease (fr E a r) = .int r.lease ∧
    Frame.get none .value (fr E a r) = E.val r ∧
    Frame.get none .old_value (fr E a r) = E.old r := by
  refine ⟨?_, ?_, ?_, ?_, ?_, ?_, ?_, ?_, ?_⟩ <;> apply get_fr' <;> simp [kineCols]

@[simp] theorem cols_some (E : Enc) (a : Ident) (r : Row) :
    Frame.get (some a) .id (fr E a r) = .int r.id ∧
    Frame.get (some a) .name (fr E a r) = .text r.name ∧
    Frame.get (some a) .created (fr E a r) = .ofBool r.created ∧
    Frame.get (some a) .deleted (fr E a r) = .ofBool r.deleted ∧
    Frame.get (some a) .create_revision (fr E a r) = .int r.createRevision ∧
    Frame.get (some a) .prev_revision (fr E a r) = .int r.prevRevision ∧
    Frame.get (some a) .lease (fr E a r) = .int r.lease ∧
    Frame.get (some a) .value (fr E a r) = E.val r ∧
    Frame.get (some a) .old_value (fr E a r) = E.old r := by
  refine ⟨?_, ?_, ?_, ?_, ?_, ?_, ?_, ?_, ?_⟩ <;> apply get_fr' <;> simp [kineCols]

@[simp] theorem cols_none_app (E : Enc) (a : Ident) (r : Row) (o : Frame) :
    Frame.get none .id (fr E a r ++ o) = .int r.id ∧
    Frame.get none .name (fr E a r ++ o) = .text r.name ∧
    Frame.get none .created (fr E a r ++ o) = .ofBool r.created ∧
    Frame.get none .deleted (fr E a r ++ o) = .ofBool r.deleted ∧
    Frame.get none .create_revision (fr E a r ++ o) = .int r.createRevision ∧
    Frame.get none .prev_revision (fr E a r ++ o) = .int r.prevRevision ∧
    Frame.get none .lease (fr E a r ++ o) = .int r.lease ∧
    Frame.get none .value (fr E a r ++ o) = E.val r ∧
    Frame.get none .old_value (fr E a r ++ o) = E.old r := by
  refine ⟨?_, ?_, ?_, ?_, ?_, ?_, ?_, ?_, ?_⟩ <;> apply get_fr <;> simp [kineCols]

@[simp] theorem cols_some_app (E : Enc) (a : Ident) (r : Row) (o : Frame) :
    Frame.get (some a) .id (fr E a r ++ o) = .int r.id ∧
    Frame.get (some a) .name (fr E a r ++ o) = .text r.name ∧
    Frame.get (some a) .created (fr E a r ++ o) = .ofBool r.created ∧
    Frame.get (some a) .deleted (fr E a r ++ o) = .ofBool r.deleted ∧
    Frame.get (some a) .create_revision (fr E a r ++ o) = .int r.createRevision ∧
    Frame.get (some a) .prev_revision (fr E a r ++ o) = .int r.prevRevision ∧
    Frame.get (some a) .lease (fr E a r ++ o) = .int r.lease ∧
    Frame.get (some a) .value (fr E a r ++ o) = E.val r ∧
    Frame.get (some a) .old_value (fr E a r ++ o) = E.old r := by
  refine ⟨?_, ?_, ?_, ?_, ?_, ?_, ?_, ?_, ?_⟩ <;> apply get_fr <;> simp [kineCols]

/-! ## Plans -/

theorem perm_map_inv {α β : Type} (g : α → β) {l : List α} {m : List β} (h : m.Perm (l.map g)) :
    ∃ l' : List α, l'.Perm l ∧ m = l'.map g := by
  generalize e : l.map g = n at h
  induction h generalizing l with
  | nil => exact ⟨[], by simp_all, rfl⟩
  | cons x _ ih =>
    cases l with
    | nil => simp at e
    | cons a as =>
      simp only [List.map_cons, List.cons.injEq] at e
      obtain ⟨l', p, rfl⟩ := ih e.2
      exact ⟨a :: l', p.cons a, by simp [e.1]⟩
  | swap x y _ =>
    match l, e with
    | a :: b :: as, e =>
      simp only [List.map_cons, List.cons.injEq] at e
      exact ⟨b :: a :: as, List.Perm.swap a b as, by simp [e]⟩
  | trans _ _ ih1 ih2 =>
    obtain ⟨l₁, p₁, e₁⟩ := ih2 e
    obtain ⟨l₂, p₂, e₂⟩ := ih1 e₁.symm
    exact ⟨l₂, p₂.trans p₁, e₂⟩

theorem plan_map {p : List Nat → List Frame → List Frame} (hp : IsPlan p) (s : List Nat) {α : Type} (g : α → Frame)
    (l : List α) : ∃ l' : List α, l'.Perm l ∧ p s (l.map g) = l'.map g := perm_map_inv g (hp s _)

/-! ## Values -/

@[simp] theorem cmp_int (op : CmpOp) (a b : Int) :
    op.eval (.int a) (.int b) = .ofBool (match op with
      | .eq => a == b | .ne => !(a == b) | .lt => decide (a < b) | .le => decide (a ≤ b)
      | .gt => decide (b < a) | .ge => decide (b ≤ a)) := by
  cases op <;> simp [CmpOp.eval, CmpOp.holds, Val.le, Val.ofBool] <;> try (by_cases h : a = b <;> simp [h])

@[simp] theorem cmp_text (op : CmpOp) (a b : Bytes) :
    op.eval (.text a) (.text b) = .ofBool (match op with
      | .eq => a == b | .ne => !(a == b) | .lt => blt a b | .le => ble a b
      | .gt => blt b a | .ge => ble b a) := by
  cases op <;> simp [CmpOp.eval, CmpOp.holds, Val.le, Val.ofBool, ble] <;> try (by_cases h : a = b <;> simp [h])

@[simp] theorem truthy_ofBool (b : Bool) : (Val.ofBool b).truthy = b := by cases b <;> rfl

@[simp] theorem truthy_int (n : Int) : (Val.int n).truthy = !(n == 0) := by
  by_cases h : n = 0 <;> simp [Val.truthy, h]

@[simp] theorem and_ofBool (a b : Bool) : (Val.ofBool a).and (.ofBool b) = .ofBool (a && b) := by
  cases a <;> cases b <;> rfl

@[simp] theorem or_ofBool (a b : Bool) : (Val.ofBool a).or (.ofBool b) = .ofBool (a || b) := by
  cases a <;> cases b <;> rfl

@[simp] theorem castText_blob (b : Bytes) : (Val.blob b).castText = .text b := rfl

theorem ofBool_eq (b : Bool) : Val.ofBool b = .int (if b then 1 else 0) := rfl

/-! ## ORDER BY -/

theorem insertBy_map {α β : Type} (g : α → β) (le : β → β → Bool) (x : α) (l : List α) :
    insertBy le (g x) (l.map g) = (insertBy (fun a b => le (g a) (g b)) x l).map g := by
  induction l with
  | nil => rfl
  | cons y ys ih =>
    simp only [List.map_cons, insertBy]
    split
    · rfl
    · rw [ih]; rfl

theorem orderBy_map {α β : Type} (g : α → β) (le : β → β → Bool) (l : List α) :
    orderBy le (l.map g) = (orderBy (fun a b => le (g a) (g b)) l).map g := by
  induction l with
  | nil => rfl
  | cons x xs ih => simp only [List.map_cons, orderBy, ih, insertBy_map]

/-- Sorting by an order in which no two elements of the list are equivalent does not depend on the initial order. -/
theorem orderBy_congr {α : Type} {le : α → α → Bool} (tot : ∀ a b, le a b = false → le b a = true)
    (trans : ∀ a b c, le a b = true → le b c = true → le a c = true) {l₁ l₂ : List α} (h : l₁.Perm l₂)
    (anti : ∀ a ∈ l₁, ∀ b ∈ l₁, le a b = true → le b a = true → a = b) : orderBy le l₁ = orderBy le l₂ := by
  have hp : (orderBy le l₁).Perm (orderBy le l₂) := ((orderBy_perm le l₁).trans h).trans (orderBy_perm le l₂).symm
  have s₁ := orderBy_sorted tot trans l₁
  have s₂ := orderBy_sorted tot trans l₂
  exact hp.eq_of_pairwise (fun a b ha _ h1 h2 => anti a (mem_orderBy.1 ha) b
    ((orderBy_perm le l₁).mem_iff.1 (hp.mem_iff.2 (by assumption))) h1 h2) s₁ s₂

theorem idLe_total (a b : Row) (h : idLe a b = false) : idLe b a = true := by
  simp [idLe] at *; omega

theorem idLe_trans (a b c : Row) (h₁ : idLe a b = true) (h₂ : idLe b c = true) : idLe a c = true := by
  simp [idLe] at *; omega

theorem applyLimit_int {α : Type} (n : Int) (l : List α) (h : 0 < n) : applyLimit [.int n] l = limitBy n l := by
  simp only [applyLimit, limitBy]
  rw [if_neg (by omega), if_pos (by omega)]

/-! ## Shapes of SELECT -/

variable {p : List Nat → List Frame → List Frame} {E : Enc} {db : DB}

theorem scan_kine (hp : IsPlan p) (args : List Val) (cs : Ident → Option (List (Option Ident) × List (List Val)))
    (hcs : cs .kine = none) (a : Ident) (s : List Nat) (o : Frame) :
    ∃ l : List Row, l.Perm db.rows ∧
      evalS (.table .kine a) { (phys E db).ctx p args with ctes := cs } s o = l.map (fr E a) := by
  simp only [evalS, Tables.ctx, phys, List.map_map, if_true, hcs]
  exact plan_map hp s (fr E a) db.rows

theorem filter_true {α : Type} (l : List α) : l.filter (fun _ => true) = l := by simp

/-- SELECT without aggregates, GROUP BY and ORDER BY. -/
theorem select_plain {c : Ctx} {items : Items} {src : Source} {whr : Expr} {lim : Exprs} {s : List Nat} {o : Frame}
    {α : Type} {l : List α} {g : α → Frame} {P : α → Bool} (hs : evalS src c (0 :: s) o = l.map g)
    (ha : items.isAgg = false) (hP : ∀ x ∈ l, (evalE whr c (1 :: s) (g x ++ o) []).truthy = P x) :
    evalQ (.select items src whr .nil (.lit (.int 1)) .nil lim) c s o =
      applyLimit (evalEs lim c (7 :: s) o [])
        ((l.filter P).map fun x => evalItems items c (4 :: s) (g x ++ o) []) := by
  simp only [evalQ, hs, Exprs.isNil, ha, evalE, List.filter_map, List.map_map]
  rw [List.filter_congr (q := P) (by simpa using hP)]
  simp [Function.comp_def, filter_true]

/-- SELECT without aggregates and GROUP BY, with ORDER BY. -/
theorem select_ordered {c : Ctx} (hp : IsPlan c.plan) {items : Items} {src : Source} {whr : Expr} {ord lim : Exprs}
    {s : List Nat} {o : Frame}
    {α : Type} {l : List α} {g : α → Frame} {P : α → Bool} (hs : evalS src c (0 :: s) o = l.map g)
    (ha : items.isAgg = false) (ho : ord.isNil = false)
    (hP : ∀ x ∈ l, (evalE whr c (1 :: s) (g x ++ o) []).truthy = P x) :
    ∃ l' : List α, l'.Perm (l.filter P) ∧
    evalQ (.select items src whr .nil (.lit (.int 1)) ord lim) c s o =
      applyLimit (evalEs lim c (7 :: s) o [])
        ((orderBy (fun x y => keysLe (evalEs ord c (6 :: s) (g x ++ o) []) (evalEs ord c (6 :: s) (g y ++ o) []))
          l').map fun x => evalItems items c (4 :: s) (g x ++ o) []) := by
  obtain ⟨l', hl', e'⟩ := plan_map hp (2 :: s) g (l.filter P)
  refine ⟨l', hl', ?_⟩
  have hn : Exprs.nil.isNil = true := rfl
  simp only [evalQ, hs, hn, ha, ho, evalE, List.filter_map]
  rw [List.filter_congr (q := P) (by simpa using hP), e']
  have h1 : ∀ l : List (Frame × List Frame), l.filter (fun _ => (Val.int 1).truthy) = l := by simp [filter_true]
  simp only [h1, List.map_map, Bool.false_eq_true, if_false, Function.comp_def, Bool.true_eq_false]
  rw [orderBy_map (fun x => (g x ++ o, ([] : List Frame))), List.map_map]
  rfl

/-- Aggregate without GROUP BY: exactly one row. -/
theorem select_agg {c : Ctx} (hp : IsPlan c.plan) {items : Items} {src : Source} {whr : Expr}
    {s : List Nat} {o : Frame}
    {α : Type} {l : List α} {g : α → Frame} {P : α → Bool} (hs : evalS src c (0 :: s) o = l.map g)
    (ha : items.isAgg = true)
    (hP : ∀ x ∈ l, (evalE whr c (1 :: s) (g x ++ o) []).truthy = P x) :
    ∃ l' : List α, l'.Perm (l.filter P) ∧
    evalQ (.select items src whr .nil (.lit (.int 1)) .nil .nil) c s o =
      [evalItems items c (4 :: s) ((pickRow items c (4 :: s) (l'.map fun x => g x ++ o)).getD o)
        (l'.map fun x => g x ++ o)] := by
  obtain ⟨l', hl', e'⟩ := plan_map hp (2 :: s) g (l.filter P)
  refine ⟨l', hl', ?_⟩
  simp only [evalQ, hs, Exprs.isNil, ha, evalE, List.filter_map]
  rw [List.filter_congr (q := P) (by simpa using hP), e']
  simp [Function.comp_def, evalEs, applyLimit]

/-- GROUP BY. -/
theorem select_group {c : Ctx} (hp : IsPlan c.plan) {items : Items} {src : Source} {whr hav : Expr} {grp ord : Exprs}
    {s : List Nat} {o : Frame}
    {α : Type} {l : List α} {g : α → Frame} {P : α → Bool} (hs : evalS src c (0 :: s) o = l.map g)
    (hg : grp.isNil = false)
    (hP : ∀ x ∈ l, (evalE whr c (1 :: s) (g x ++ o) []).truthy = P x) :
    ∃ l' : List α, l'.Perm (l.filter P) ∧
    evalQ (.select items src whr grp hav ord .nil) c s o =
      (let units := ((distinct (l'.map fun x => evalEs grp c (3 :: s) (g x ++ o) [])).map fun k =>
          let gr := (l'.filter fun x => evalEs grp c (3 :: s) (g x ++ o) [] == k).map fun x => g x ++ o
          ((pickRow items c (4 :: s) gr).getD o, gr)).filter fun u => (evalE hav c (5 :: s) u.1 u.2).truthy
       let units := if ord.isNil then units
         else orderBy (fun u v => keysLe (evalEs ord c (6 :: s) u.1 u.2) (evalEs ord c (6 :: s) v.1 v.2)) units
       units.map fun u => evalItems items c (4 :: s) u.1 u.2) := by
  obtain ⟨l', hl', e'⟩ := plan_map hp (2 :: s) g (l.filter P)
  refine ⟨l', hl', ?_⟩
  simp only [evalQ, hs, hg, List.filter_map]
  rw [List.filter_congr (q := P) (by simpa using hP), e']
  simp [Function.comp_def, evalEs, applyLimit, List.filter_map]

/-! ## Groups and maxima -/

theorem unique_perm {l l' : List Row} (h : l.Perm l') (u : l'.Pairwise fun a b => a.id ≠ b.id) :
    l.Pairwise fun a b => a.id ≠ b.id := (h.pairwise_iff (fun h => h.symm)).2 u

theorem maxRow_perm {l l' : List Row} (h : l.Perm l') (u : l'.Pairwise fun a b => a.id ≠ b.id) :
    maxRow l = maxRow l' := by
  cases e : maxRow l' with
  | none =>
    rw [maxRow_none] at e ⊢
    subst e; exact h.eq_nil
  | some m =>
    obtain ⟨h1, h2⟩ := maxRow_some e
    exact (maxRow_eq_some (unique_perm h u)).2 ⟨h.mem_iff.2 h1, fun r hr => h2 r (h.mem_iff.1 hr)⟩

theorem maxId_perm {l l' : List Row} (h : l.Perm l') : maxId l = maxId l' := by
  cases e : maxId l' with
  | none => rw [maxId_none] at e ⊢; subst e; exact h.eq_nil
  | some i =>
    rw [maxId_eq_some] at e ⊢
    exact ⟨by obtain ⟨⟨m, hm, hi⟩, _⟩ := e; exact ⟨m, h.mem_iff.2 hm, hi⟩, fun r hr => e.2 r (h.mem_iff.1 hr)⟩

theorem groupNames_perm {l l' : List Row} (h : l.Perm l') : (groupNames l).Perm (groupNames l') := by
  rw [List.perm_ext_iff_of_nodup (nodup_groupNames l) (nodup_groupNames l')]
  intro n
  rw [mem_groupNames, mem_groupNames]
  exact ⟨fun ⟨r, hr, e⟩ => ⟨r, h.mem_iff.1 hr, e⟩, fun ⟨r, hr, e⟩ => ⟨r, h.mem_iff.2 hr, e⟩⟩

theorem distinct_names (l : List Row) :
    distinct (l.map fun r => [Val.text r.name]) = (groupNames l).map fun n => [.text n] := by
  induction l with
  | nil => rfl
  | cons r rs ih =>
    simp only [List.map_cons, distinct, groupNames, ih]
    have : ((groupNames rs).map fun n => [Val.text n]).contains [.text r.name] = (groupNames rs).contains r.name := by
      rw [Bool.eq_iff_iff, List.contains_iff_mem, List.contains_iff_mem]
      simp
    rw [this]
    split <;> simp

/-- An optional integer as a value. -/
def optInt : Option Int → Val
  | none => .null
  | some n => .int n

theorem maxAll_ids (l : List Row) : Val.maxAll (l.map fun r => .int r.id) = optInt (maxId l) := by
  induction l with
  | nil => rfl
  | cons r rs ih =>
    simp only [List.map_cons, Val.maxAll, ih, maxId, maxRow]
    cases maxRow rs with
    | none => simp [optInt]
    | some m =>
      simp only [Option.map_some, optInt, reduceCtorEq, if_false, Val.le, decide_eq_true_eq]
      by_cases h : m.id < r.id
      · rw [if_pos (by omega), if_pos h]; rfl
      · rw [if_neg h]
        by_cases h' : m.id ≤ r.id
        · rw [if_pos h']; simp; omega
        · rw [if_neg h']; rfl

theorem maxAll_prevs (l : List Row) : Val.maxAll (l.map fun r => .int r.prevRevision) = optInt (maxPrev l) := by
  induction l with
  | nil => rfl
  | cons r rs ih =>
    simp only [List.map_cons, Val.maxAll, ih, maxPrev]
    cases maxPrev rs with
    | none => simp [optInt]
    | some m =>
      simp only [optInt, reduceCtorEq, if_false, Val.le, decide_eq_true_eq]
      by_cases h : m < r.prevRevision
      · rw [if_pos (by omega), if_pos h]
      · rw [if_neg h]
        by_cases h' : m ≤ r.prevRevision
        · rw [if_pos h']; simp; omega
        · rw [if_neg h']

theorem pickMax_ids {l : List Row} (u : l.Pairwise fun a b => a.id ≠ b.id) (g : Row → Frame) :
    pickMax (l.map fun r => (g r, .int r.id)) = (maxRow l).map g := by
  simp only [pickMax, List.map_map, Function.comp_def, maxAll_ids, List.find?_map, Option.map_map]
  cases e : maxRow l with
  | none => rw [maxRow_none] at e; subst e; simp [maxId, maxRow]
  | some m =>
    obtain ⟨h1, h2⟩ := maxRow_some e
    have hf : l.find? (fun x => Val.int x.id == optInt (maxId l)) = some m := by
      have hm : maxId l = some m.id := by simp [maxId, e]
      rw [hm]
      cases ef : l.find? (fun x => Val.int x.id == optInt (some m.id)) with
      | none =>
        rw [List.find?_eq_none] at ef
        exact absurd (by simp [optInt]) (ef m h1)
      | some x =>
        have hx := List.find?_some ef
        have hxm := List.mem_of_find?_eq_some ef
        simp [optInt] at hx
        rw [unique_id u hxm h1 hx]
    rw [hf]

/-- The newest row of every name. -/
def heads (l : List Row) : List Row := (groupNames l).filterMap fun n => maxRow (l.filter fun r => r.name == n)

theorem names_heads {β : Type} (l : List Row) (f : Bytes → β) (h : Row → β)
    (hf : ∀ n m, maxRow (l.filter fun r => r.name == n) = some m → f n = h m) :
    (groupNames l).map f = (heads l).map h := by
  have aux : ∀ ns : List Bytes, (∀ n ∈ ns, n ∈ groupNames l) →
      ns.map f = (ns.filterMap fun n => maxRow (l.filter fun r => r.name == n)).map h := by
    intro ns
    induction ns with
    | nil => intro _; rfl
    | cons n ns ih =>
      intro hn
      obtain ⟨r, hr, e⟩ := mem_groupNames.1 (hn n (by simp))
      obtain ⟨m, hm⟩ := maxRow_exists (rs := l.filter fun r => r.name == n) (r := r) (by simp [hr, e])
      simp only [List.map_cons, List.filterMap_cons, hm, hf n m hm, ih fun x hx => hn x (by simp [hx])]
  exact aux _ fun _ h => h

theorem groupMaxIds_eq (l : List Row) : groupMaxIds l = (heads l).map (·.id) := by
  simp only [groupMaxIds, heads, List.map_filterMap, maxId]

theorem heads_perm {l l' : List Row} (h : l.Perm l') (u : l'.Pairwise fun a b => a.id ≠ b.id) :
    (heads l).Perm (heads l') := by
  have : ∀ n, maxRow (l.filter fun r => r.name == n) = maxRow (l'.filter fun r => r.name == n) := fun n =>
    maxRow_perm (h.filter _) (UniqueIds.filter u _)
  simp only [heads, this]
  exact (groupNames_perm h).filterMap _

theorem mem_heads {l : List Row} {m : Row} (h : m ∈ heads l) : m ∈ l ∧ maxRow (l.filter fun r => r.name == m.name) = some m := by
  simp only [heads, List.mem_filterMap] at h
  obtain ⟨n, _, e⟩ := h
  obtain ⟨h1, _⟩ := maxRow_some e
  simp only [List.mem_filter, beq_iff_eq] at h1
  refine ⟨h1.1, ?_⟩
  rw [h1.2]; exact e

/-- The groups of `SELECT MAX(id) … GROUP BY name`. -/
theorem units_eq {l : List Row} (u : l.Pairwise fun a b => a.id ≠ b.id) (F : Row → Frame) (o : Frame)
    (pick : List Frame → Option Frame) (key : Frame → List Val) (hk : ∀ r, key (F r) = [.text r.name])
    (hpick : ∀ l' : List Row, (l'.Pairwise fun a b => a.id ≠ b.id) → pick (l'.map F) = (maxRow l').map F) :
    ((distinct (l.map fun x => key (F x))).map fun k =>
      ((pick ((l.filter fun x => key (F x) == k).map F)).getD o, (l.filter fun x => key (F x) == k).map F)) =
    (heads l).map fun m => (F m, (l.filter fun x => x.name == m.name).map F) := by
  simp only [hk, distinct_names, List.map_map, Function.comp_def]
  apply names_heads
  intro n m hm
  have e : (l.filter fun x => [Val.text x.name] == [Val.text n]) = l.filter fun x => x.name == n := by
    apply List.filter_congr
    intro x _
    rw [Bool.eq_iff_iff]; simp
  have hn : m.name = n := by
    have := (maxRow_some hm).1
    simp only [List.mem_filter, beq_iff_eq] at this
    exact this.2
  simp only [e, hpick _ (UniqueIds.filter u _), hm, Option.map_some, Option.getD_some, hn]

end Verif.SqlLang
