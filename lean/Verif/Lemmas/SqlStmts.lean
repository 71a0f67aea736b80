import Verif.Lemmas.SqlEval
/-!
# The meaning of each statement text is the model's function
-/

namespace Verif.SqlLang

open Verif

variable {p : List Nat → List Frame → List Frame} {E : Enc} {db : DB}

/-- `SELECT kv.id, name, CASE … END, lease, value`. -/
def listVals (E : Enc) (r : Row) : List Val :=
  [.int r.id, .text r.name, .int (createRevisionOf r), .int r.lease, E.val r]

/-- `SELECT kv.id, name, lease`. -/
def ttlVals (r : Row) : List Val := [.int r.id, .text r.name, .int r.lease]

/-! ## after -/

theorem orderBy_idLe {l l' : List Row} (h : l.Perm l') (u : l'.Pairwise fun a b => a.id ≠ b.id) :
    orderBy idLe l = orderBy idLe l' := by
  refine orderBy_congr idLe_total idLe_trans h fun a ha b hb h1 h2 => ?_
  simp [idLe] at h1 h2
  exact unique_id u (h.mem_iff.1 ha) (h.mem_iff.1 hb) (by omega)

theorem keysLe_id (a b : Row) : keysLe [.int a.id] [.int b.id] = idLe a b := by
  simp only [keysLe, Val.int.injEq, Val.le, idLe]
  by_cases h : a.id = b.id
  · simp [h]
  · simp [h]

theorem eval_eventItems (c : Ctx) (s : List Nat) (r : Row) (g : List Frame) :
    evalItems SqlAst.eventItems c s (fr E .kine r) g = rowVals E r := by
  simp [SqlAst.eventItems, evalItems, evalE, rowVals]

/-- `afterSQL` and `afterSQLPrefix` up to their conditions. -/
theorem eval_events (hp : IsPlan p) (u : db.UniqueIds) (args : List Val) (whr : Expr) (lim : Exprs) (P : Row → Bool)
    (hP : ∀ r, (evalE whr ((phys E db).ctx p args) [1] (fr E .kine r) []).truthy = P r) :
    evalQ (.select SqlAst.eventItems (.table .kine .kine) whr .nil SqlAst.always (.cons (.col none .id) .nil) lim)
        ((phys E db).ctx p args) [] [] =
      applyLimit (evalEs lim ((phys E db).ctx p args) [7] [] [])
        ((orderBy idLe (db.rows.filter P)).map (rowVals E)) := by
  obtain ⟨l, hl, e⟩ := scan_kine (E := E) (db := db) hp args (fun _ => none) rfl .kine [0] []
  obtain ⟨l', hl', e'⟩ := select_ordered (c := (phys E db).ctx p args) hp (whr := whr)
    (ord := .cons (.col none .id) .nil) (lim := lim) (s := []) (o := []) (items := SqlAst.eventItems)
    (g := fr E .kine) (l := l) (P := P) e rfl rfl (by intro r _; rw [List.append_nil]; exact hP r)
  rw [e']
  simp only [List.append_nil, eval_eventItems, evalEs, evalE, cols_none, keysLe_id]
  rw [orderBy_idLe (hl'.trans (hl.filter _)) (UniqueIds.filter u _)]

theorem eval_after (hp : IsPlan p) (u : db.UniqueIds) (rev : Int) :
    exec (.query (SqlAst.afterSQLQ .nil)) (phys E db) p [.int rev] =
      (phys E db, 0, (afterSQL db rev 0).map (rowVals E)) := by
  simp only [exec, SqlAst.afterSQLQ]
  rw [eval_events hp u _ _ _ (fun r => decide (r.id > rev)) (by intro r; simp [evalE, Tables.ctx])]
  simp [evalEs, applyLimit, afterSQL, limitBy]

theorem eval_after_limit (hp : IsPlan p) (u : db.UniqueIds) (rev n : Int) (hn : 0 < n) :
    exec (.query (SqlAst.afterSQLQ (.cons (.param 1) .nil))) (phys E db) p [.int rev, .int n] =
      (phys E db, 0, (afterSQL db rev n).map (rowVals E)) := by
  simp only [exec, SqlAst.afterSQLQ]
  rw [eval_events hp u _ _ _ (fun r => decide (r.id > rev)) (by intro r; simp [evalE, Tables.ctx])]
  simp only [evalEs, evalE, Tables.ctx, List.getD_cons_succ, List.getD_cons_zero, afterSQL]
  rw [applyLimit_int _ _ hn]
  simp [limitBy, hn]

theorem eval_inRange {c : Ctx} {lo hi : Bytes} {rest : List Val} (hc : c.params = .blob lo :: .blob hi :: rest)
    (s : List Nat) (f : Frame) (g : List Frame) (t : Option Ident) (n : Bytes) (hn : f.get t .name = .text n) :
    evalE (SqlAst.inRangeE t) c s f g = .ofBool (inRange lo hi n) := by
  simp [SqlAst.inRangeE, evalE, hc, hn, inRange]

theorem eval_afterPrefix (hp : IsPlan p) (u : db.UniqueIds) (lo hi : Bytes) (start stop : Int) :
    exec SqlAst.afterSQLPrefix (phys E db) p [.blob lo, .blob hi, .int start, .int stop] =
      (phys E db, 0, (afterSQLPrefix db lo hi start stop).map (rowVals E)) := by
  simp only [exec, SqlAst.afterSQLPrefix]
  rw [eval_events hp u _ _ _
    (fun r => inRange lo hi r.name && decide (start < r.id) && decide (r.id ≤ stop))
    (by
      intro r
      simp only [evalE]
      rw [eval_inRange rfl _ _ _ _ r.name (by simp)]
      simp [Tables.ctx])]
  simp [evalEs, applyLimit, afterSQLPrefix]

/-! ## list and count -/

theorem pickRow_id (c : Ctx) (s : List Nat) (a : Ident) (t as : Option Ident) (ht : t = none ∨ t = some a) (o : Frame)
    (rest : Items) (l : List Row) (u : l.Pairwise fun a b => a.id ≠ b.id) :
    pickRow (.cons (.aggMax (.col t .id)) as rest) c s (l.map fun r => fr E a r ++ o) =
      (maxRow l).map fun r => fr E a r ++ o := by
  simp only [pickRow, List.map_map, Function.comp_def, evalE]
  rw [← pickMax_ids u]
  congr 1
  apply List.map_congr_left
  intro r _
  rw [get_fr E a r o t .id ht (by simp [kineCols])]
  rfl

theorem evalMax_id (c : Ctx) (s : List Nat) (a : Ident) (t : Option Ident) (ht : t = none ∨ t = some a) (o f : Frame)
    (l : List Row) :
    evalE (.aggMax (.col t .id)) c s f (l.map fun r => fr E a r ++ o) = optInt (maxId l) := by
  rw [← maxAll_ids]
  simp only [evalE, List.map_map, Function.comp_def]
  congr 1
  apply List.map_congr_left
  intro r _
  rw [get_fr E a r o t .id ht (by simp [kineCols])]
  rfl

/-- Grouped queries over `kine`. -/
theorem eval_grouped {c : Ctx} (hp : IsPlan c.plan) (u : db.UniqueIds) (s : List Nat) (o : Frame) (a : Ident)
    (hscan : ∃ l : List Row, l.Perm db.rows ∧ evalS (.table .kine a) c (0 :: s) o = l.map (fr E a))
    (t as : Option Ident) (ht : t = none ∨ t = some a) (whr hav : Expr) (ord : Exprs) (P : Row → Bool)
    (hP : ∀ r, (evalE whr c (1 :: s) (fr E a r ++ o) []).truthy = P r) :
    ∃ l : List Row, l.Perm (db.rows.filter P) ∧
      evalQ (.select (.cons (.aggMax (.col t .id)) as .nil) (.table .kine a) whr (.cons (.col t .name) .nil) hav ord
          .nil) c s o =
        (let units := ((heads l).map fun m =>
            (fr E a m ++ o, (l.filter fun x => x.name == m.name).map fun r => fr E a r ++ o)).filter
              fun u => (evalE hav c (5 :: s) u.1 u.2).truthy
         let units := if ord.isNil then units
           else orderBy (fun u v => keysLe (evalEs ord c (6 :: s) u.1 u.2) (evalEs ord c (6 :: s) v.1 v.2)) units
         units.map fun u => evalItems (.cons (.aggMax (.col t .id)) as .nil) c (4 :: s) u.1 u.2) := by
  obtain ⟨l, hl, e⟩ := hscan
  obtain ⟨l', hl', e'⟩ := select_group hp (items := .cons (.aggMax (.col t .id)) as .nil) (whr := whr) (hav := hav)
    (grp := .cons (.col t .name) .nil) (ord := ord) (P := P) e rfl (fun r _ => hP r)
  refine ⟨l', hl'.trans (hl.filter _), ?_⟩
  rw [e']
  have u' := unique_perm (hl'.trans (hl.filter _)) (UniqueIds.filter u _)
  have := units_eq u' (fun r => fr E a r ++ o) o
    (pickRow (.cons (.aggMax (.col t .id)) as .nil) c (4 :: s))
    (fun f => evalEs (.cons (.col t .name) .nil) c (3 :: s) f [])
    (by
      intro r
      simp only [evalEs, evalE]
      rw [get_fr E a r o t .name ht (by simp [kineCols])]
      rfl)
    (fun l'' hu => pickRow_id c _ a t as ht o .nil l'' hu)
  simp only [this]

/-- The value of `MAX(id)` in a group. -/
theorem item_group (c : Ctx) (s : List Nat) (a : Ident) (t as : Option Ident) (ht : t = none ∨ t = some a) (o f : Frame)
    {l : List Row} {m : Row} (hm : m ∈ heads l) :
    evalItems (.cons (.aggMax (.col t .id)) as .nil) c s f
      ((l.filter fun x => x.name == m.name).map fun r => fr E a r ++ o) = [.int m.id] := by
  simp only [evalItems, evalMax_id c _ a t ht]
  simp [maxId, (mem_heads hm).2, optInt]

theorem eval_maxSub (hp : IsPlan p) (u : db.UniqueIds) (args : List Val) (s : List Nat) (whr : Expr) (P : Row → Bool)
    (hP : ∀ r, (evalE whr ((phys E db).ctx p args) (1 :: s) (fr E .mkv r) []).truthy = P r) :
    ∃ l : List Row, l.Perm (db.rows.filter P) ∧
      evalQ (SqlAst.maxSub whr) ((phys E db).ctx p args) s [] = (groupMaxIds l).map fun i => [.int i] := by
  obtain ⟨l, hl, e⟩ := eval_grouped (E := E) (c := (phys E db).ctx p args) hp u s [] .mkv
    (scan_kine (E := E) (db := db) hp args (fun _ => none) rfl .mkv (0 :: s) [])
    (some .mkv) (some .id) (Or.inr rfl) whr SqlAst.always .nil P (by intro r; rw [List.append_nil]; exact hP r)
  refine ⟨l, hl, ?_⟩
  rw [SqlAst.maxSub, e]
  have h1 : ∀ l : List (Frame × List Frame), l.filter (fun _ => (Val.int 1).truthy) = l := by simp [filter_true]
  simp only [evalE, h1, Exprs.isNil, if_true, List.map_map, groupMaxIds_eq, Function.comp_def]
  apply List.map_congr_left
  intro m hm
  exact item_group _ _ _ _ _ (Or.inr rfl) _ _ hm

/-- A row of the join of `kine AS kv` with `maxkv`. -/
def joinFr (E : Enc) (r : Row) : Frame := fr E .kv r ++ [(some .maxkv, some .id, .int r.id)]

@[simp] theorem joinFr_kv (E : Enc) (r : Row) :
    (joinFr E r).get (some .kv) .id = .int r.id ∧ (joinFr E r).get (some .kv) .name = .text r.name ∧
    (joinFr E r).get (some .kv) .deleted = .ofBool r.deleted ∧ (joinFr E r).get (some .kv) .lease = .int r.lease ∧
    (joinFr E r).get none .name = .text r.name ∧ (joinFr E r).get none .lease = .int r.lease ∧
    (joinFr E r).get none .value = E.val r ∧ (joinFr E r).get (some .kv) .created = .ofBool r.created ∧
    (joinFr E r).get (some .kv) .create_revision = .int r.createRevision := by
  simp [joinFr]

theorem filter_flatMap {α β : Type} (l : List α) (f : α → List β) (q : β → Bool) :
    (l.flatMap f).filter q = l.flatMap fun x => (f x).filter q := by
  induction l with
  | nil => rfl
  | cons a as ih => simp [List.flatMap_cons, List.filter_append, ih]

theorem eval_joinMax (hp : IsPlan p) (u : db.UniqueIds) (args : List Val) (s : List Nat) (whr : Expr) (P : Row → Bool)
    (hP : ∀ r, (evalE whr ((phys E db).ctx p args) (1 :: 0 :: 1 :: s) (fr E .mkv r) []).truthy = P r) :
    ∃ l : List Row, l.Perm (joinIds db (groupMaxIds (db.rows.filter P))) ∧
      evalS (SqlAst.joinMax whr) ((phys E db).ctx p args) s [] = l.map (joinFr E) := by
  obtain ⟨l₁, hl₁, e₁⟩ := scan_kine (E := E) (db := db) hp args (fun _ => none) rfl .kv (0 :: s) []
  obtain ⟨l₂, hl₂, e₂⟩ := eval_maxSub (E := E) hp u args (0 :: 1 :: s) whr P hP
  have e₁' : evalS (.table .kine .kv) ((phys E db).ctx p args) (0 :: s) [] = l₁.map (fr E .kv) := e₁
  have key : ((l₁.map (fr E .kv)).flatMap fun x => (((groupMaxIds l₂).map fun i => [Val.int i]).map
        (mkFrame (some .maxkv) (SqlAst.maxSub whr).cols)).map fun y => x ++ y).filter
      (fun f => (evalE SqlAst.onIds ((phys E db).ctx p args) (2 :: s) (f ++ []) []).truthy) =
      (joinIds { db with rows := l₁ } (groupMaxIds l₂)).map (joinFr E) := by
    simp only [filter_flatMap, joinIds, List.map_flatMap, List.flatMap_map, List.map_map, List.filter_map]
    congr 1
    funext r
    simp only [Function.comp_def, SqlAst.maxSub, Query.cols, Items.cols, mkFrame, List.append_nil]
    have : ∀ i : Int, (evalE SqlAst.onIds ((phys E db).ctx p args) (2 :: s)
        (fr E .kv r ++ [(some .maxkv, some .id, .int i)]) []).truthy = (i == r.id) := by
      intro i
      have h1 : Frame.get (some .maxkv) .id (fr E .kv r ++ [(some .maxkv, some .id, .int i)]) = .int i := by
        simp [fr, mkFrame, kineCols, rowVals, Frame.get]
      simp [SqlAst.onIds, evalE, h1]
    simp only [this]
    apply List.map_congr_left
    intro i hi
    simp only [List.mem_filter, beq_iff_eq] at hi
    simp [joinFr, hi.2]
  obtain ⟨l₃, hl₃, e₃⟩ := plan_map hp s (joinFr E) (joinIds { db with rows := l₁ } (groupMaxIds l₂))
  refine ⟨l₃, hl₃.trans ?_, ?_⟩
  · have u₂ := unique_perm hl₂ (UniqueIds.filter u _)
    rw [joinIds_eq_filter _ (nodup_groupMaxIds u₂), joinIds_eq_filter _ (nodup_groupMaxIds (UniqueIds.filter u _))]
    refine (hl₁.filter _).trans (List.Perm.of_eq (List.filter_congr ?_))
    intro r _
    rw [Bool.eq_iff_iff, decide_eq_true_iff, decide_eq_true_iff, groupMaxIds_eq, groupMaxIds_eq]
    exact ((heads_perm hl₂ (UniqueIds.filter u _)).map _).mem_iff
  · rw [← e₃, ← key]
    simp only [SqlAst.joinMax, evalS, e₂]
    simp only [evalS] at e₁'
    rw [e₁']
    rfl

theorem eval_kvLive (c : Ctx) (s : List Nat) (r : Row) (g : List Frame) :
    evalE SqlAst.kvLive c s (joinFr E r) g = .ofBool (!r.deleted) := by
  simp only [SqlAst.kvLive, evalE, joinFr_kv, ofBool_eq, cmp_int]
  cases r.deleted <;> rfl

theorem eval_listItems (c : Ctx) (s : List Nat) (r : Row) (g : List Frame) :
    evalItems SqlAst.listItems c s (joinFr E r) g = listVals E r := by
  simp only [SqlAst.listItems, evalItems, evalE, joinFr_kv, listVals, createRevisionOf, truthy_ofBool]
  cases r.created <;> rfl

theorem keysLe_row (a b : Row) : keysLe [.text a.name, .int a.id] [.text b.name, .int b.id] = rowLe a b := by
  simp only [keysLe, Val.int.injEq, Val.text.injEq, Val.le, rowLe, beq_iff_eq]
  by_cases h : a.name = b.name <;> by_cases h' : a.id = b.id <;> simp [h, h']

theorem orderBy_rowLe {l l' : List Row} (h : l.Perm l') (u : l'.Pairwise fun a b => a.id ≠ b.id) :
    orderBy rowLe l = orderBy rowLe l' := by
  refine orderBy_congr rowLe_total rowLe_trans h fun a ha b hb h1 h2 => ?_
  have hn : a.name = b.name := by
    by_cases hn : a.name = b.name
    · exact hn
    · have hn' : ¬ b.name = a.name := fun e => hn e.symm
      simp [rowLe, hn, hn'] at h1 h2
      exact ble_antisymm h1 h2
  simp [rowLe, hn] at h1 h2
  exact unique_id u (h.mem_iff.1 ha) (h.mem_iff.1 hb) (by omega)

theorem unique_joinIds (u : db.UniqueIds) {ids : List Int} (hn : ids.Nodup) :
    (joinIds db ids).Pairwise fun a b => a.id ≠ b.id := by
  rw [joinIds_eq_filter _ hn]; exact UniqueIds.filter u _

theorem eval_rangeWhere {c : Ctx} {lo hi : Bytes} {rev : Int} {rest : List Val}
    (hc : c.params = .blob lo :: .blob hi :: .int rev :: rest) (s : List Nat) (f : Frame) (g : List Frame)
    (t : Option Ident) (r : Row) (hn : f.get t .name = .text r.name) (hi' : f.get t .id = .int r.id) :
    (evalE (SqlAst.rangeWhere t) c s f g).truthy = (inRange lo hi r.name && decide (r.id ≤ rev)) := by
  simp only [SqlAst.rangeWhere, evalE]
  rw [eval_inRange hc _ _ _ _ r.name hn, hi', hc]
  simp

theorem eval_listQ (hp : IsPlan p) (u : db.UniqueIds) (lo hi : Bytes) (rev : Int) (rest : List Val) (lim : Exprs) :
    evalQ (SqlAst.listSQLQ lim) ((phys E db).ctx p (.blob lo :: .blob hi :: .int rev :: rest)) [] [] =
      applyLimit (evalEs lim ((phys E db).ctx p (.blob lo :: .blob hi :: .int rev :: rest)) [7] [] [])
        ((listSQL db lo hi rev 0).map (listVals E)) := by
  obtain ⟨l, hl, e⟩ := eval_joinMax (E := E) hp u (.blob lo :: .blob hi :: .int rev :: rest) [0]
    (SqlAst.rangeWhere (some .mkv)) (fun r => inRange lo hi r.name && decide (r.id ≤ rev))
    (fun r => eval_rangeWhere rfl _ _ _ _ r (by simp) (by simp))
  obtain ⟨l', hl', e'⟩ := select_ordered (c := (phys E db).ctx p (.blob lo :: .blob hi :: .int rev :: rest)) hp
    (whr := SqlAst.kvLive) (ord := .cons (.col (some .kv) .name) (.cons (.col (some .kv) .id) .nil)) (lim := lim)
    (s := []) (o := []) (items := SqlAst.listItems) (g := joinFr E) (l := l) (P := fun r => !r.deleted) e rfl rfl
    (by intro r _; rw [List.append_nil, eval_kvLive, truthy_ofBool])
  rw [SqlAst.listSQLQ, e']
  simp only [List.append_nil, eval_listItems, evalEs, evalE, joinFr_kv, keysLe_row]
  congr 2
  simp only [listSQL, limitBy, Int.lt_irrefl, gt_iff_lt, if_false, rangeRows]
  apply orderBy_rowLe (hl'.trans (hl.filter _))
  exact UniqueIds.filter (unique_joinIds u (nodup_groupMaxIds (UniqueIds.filter u _))) _

theorem eval_list (hp : IsPlan p) (u : db.UniqueIds) (lo hi : Bytes) (rev : Int) :
    exec (.query (SqlAst.listSQLQ .nil)) (phys E db) p [.blob lo, .blob hi, .int rev] =
      (phys E db, 0, (listSQL db lo hi rev 0).map (listVals E)) := by
  simp only [exec]; rw [eval_listQ hp u lo hi rev [] .nil]; simp [evalEs, applyLimit]

theorem limit_zero (db : DB) (lo hi : Bytes) (rev n : Int) : limitBy n (listSQL db lo hi rev 0) = listSQL db lo hi rev n := by
  simp [listSQL, limitBy]

theorem limitBy_map' {α β : Type} (f : α → β) (n : Int) (l : List α) : limitBy n (l.map f) = (limitBy n l).map f := by
  simp only [limitBy]; split <;> simp

theorem eval_list_limit (hp : IsPlan p) (u : db.UniqueIds) (lo hi : Bytes) (rev n : Int) (hn : 0 < n) :
    exec (.query (SqlAst.listSQLQ (.cons (.param 3) .nil))) (phys E db) p [.blob lo, .blob hi, .int rev, .int n] =
      (phys E db, 0, (listSQL db lo hi rev n).map (listVals E)) := by
  simp only [exec]
  rw [eval_listQ hp u lo hi rev [.int n] _]
  simp only [evalEs, evalE, Tables.ctx, List.getD_cons_succ, List.getD_cons_zero]
  rw [applyLimit_int _ _ hn, limitBy_map', limit_zero]

theorem eval_count (hp : IsPlan p) (u : db.UniqueIds) (lo hi : Bytes) (rev : Int) :
    exec SqlAst.countRevisionSQL (phys E db) p [.blob lo, .blob hi, .int rev] =
      (phys E db, 0, [[.int (countRevisionSQL db lo hi rev)]]) := by
  obtain ⟨l, hl, e⟩ := eval_joinMax (E := E) hp u [.blob lo, .blob hi, .int rev] [0]
    (SqlAst.rangeWhere (some .mkv)) (fun r => inRange lo hi r.name && decide (r.id ≤ rev))
    (fun r => eval_rangeWhere rfl _ _ _ _ r (by simp) (by simp))
  obtain ⟨l', hl', e'⟩ := select_agg (c := (phys E db).ctx p [.blob lo, .blob hi, .int rev]) hp
    (whr := SqlAst.kvLive) (s := []) (o := []) (items := .cons .countStar none .nil) (g := joinFr E) (l := l)
    (P := fun r => !r.deleted) e rfl (by intro r _; rw [List.append_nil, eval_kvLive, truthy_ofBool])
  simp only [exec, SqlAst.countRevisionSQL]
  rw [e']
  simp only [evalItems, evalE, List.length_map, countRevisionSQL, rangeRows]
  rw [(hl'.trans (hl.filter _)).length_eq]

theorem eval_ttl (hp : IsPlan p) (u : db.UniqueIds) (rev : Int) :
    ∃ l : List Row, l.Perm (ttlSQL db rev) ∧
      exec SqlAst.ttlSQL (phys E db) p [.int rev] = (phys E db, 0, l.map ttlVals) := by
  obtain ⟨l, hl, e⟩ := eval_joinMax (E := E) hp u [.int rev] [0]
    (.cmp .le (.col (some .mkv) .id) (.param 0)) (fun r => decide (r.id ≤ rev))
    (fun r => by simp [evalE, Tables.ctx])
  refine ⟨l.filter fun r => !r.deleted && decide (r.lease ≠ 0), hl.filter _, ?_⟩
  simp only [exec, SqlAst.ttlSQL]
  rw [select_plain (c := (phys E db).ctx p [.int rev]) (s := []) (o := []) (g := joinFr E) (l := l)
    (P := fun r => !r.deleted && decide (r.lease ≠ 0)) e rfl (by
      intro r _
      simp only [List.append_nil, evalE, eval_kvLive, joinFr_kv, cmp_int, and_ofBool, truthy_ofBool]
      by_cases h : r.lease = 0 <;> simp [h])]
  simp [evalEs, applyLimit, evalItems, evalE, ttlVals]

/-! ## The new schema's list and count -/

theorem eval_live (c : Ctx) (s : List Nat) (r : Row) (o : Frame) (g : List Frame) :
    evalE SqlAst.live c s (fr E .kine r ++ o) g = .ofBool (!r.deleted) := by
  simp only [SqlAst.live, evalE, cols_none_app, ofBool_eq, cmp_int]
  cases r.deleted <;> rfl

/-- Order of rows by name. -/
def nameLe (a b : Row) : Bool := ble a.name b.name

theorem keysLe_name (a b : Row) : keysLe [.text a.name] [.text b.name] = nameLe a b := by
  simp only [keysLe, Val.text.injEq, Val.le, nameLe]
  by_cases h : a.name = b.name
  · simp [h, ble_refl]
  · simp [h]

theorem heads_name_inj {l : List Row} {a b : Row} (ha : a ∈ heads l) (hb : b ∈ heads l) (h : a.name = b.name) : a = b := by
  have h1 := (mem_heads ha).2
  rw [h, (mem_heads hb).2] at h1
  exact (Option.some.inj h1).symm

theorem maxkvV1_perm (db : DB) (lo hi : Bytes) (rev : Int) :
    ((heads (rangeRows db lo hi rev)).filter fun m => !m.deleted).Perm (maxkvV1 db lo hi rev) := by
  unfold maxkvV1 heads
  exact ((orderBy_perm _ _).symm.filterMap _).filter _

theorem orderBy_heads (u : db.UniqueIds) {lo hi : Bytes} {rev : Int} {l : List Row}
    (hl : l.Perm (rangeRows db lo hi rev)) :
    orderBy nameLe ((heads l).filter fun m => !m.deleted) = maxkvV1 db lo hi rev := by
  have hp := ((heads_perm hl (UniqueIds.filter u _)).filter fun m => !m.deleted).trans (maxkvV1_perm db lo hi rev)
  rw [orderBy_congr (le := nameLe)
    (fun a b h => by
      simp only [nameLe] at *
      rcases ble_total a.name b.name with h' | h'
      · rw [h] at h'; cases h'
      · exact h')
    (fun a b c => ble_trans) hp
    (fun a ha b hb h1 h2 => heads_name_inj (List.mem_filter.1 ha).1 (List.mem_filter.1 hb).1 (ble_antisymm h1 h2))]
  exact orderBy_of_sorted ((maxkvV1_sorted db lo hi rev).imp fun h => ble_of_blt h)

theorem eval_maxLive (hp : IsPlan p) (u : db.UniqueIds) (lo hi : Bytes) (rev : Int) (rest : List Val) (s : List Nat)
    (as : Option Ident) (ord : Exprs) :
    ∃ l : List Row, l.Perm (rangeRows db lo hi rev) ∧
      evalQ (SqlAst.maxLive as ord) ((phys E db).ctx p (.blob lo :: .blob hi :: .int rev :: rest)) s [] =
      (let units := ((heads l).filter fun m => !m.deleted).map fun m =>
            (fr E .kine m, (l.filter fun x => x.name == m.name).map fun r => fr E .kine r)
         let units := if ord.isNil then units
           else orderBy (fun u v =>
             keysLe (evalEs ord ((phys E db).ctx p (.blob lo :: .blob hi :: .int rev :: rest)) (6 :: s) u.1 u.2)
               (evalEs ord ((phys E db).ctx p (.blob lo :: .blob hi :: .int rev :: rest)) (6 :: s) v.1 v.2)) units
         units.map fun u => evalItems (.cons (.aggMax (.col none .id)) as .nil)
          ((phys E db).ctx p (.blob lo :: .blob hi :: .int rev :: rest)) (4 :: s) u.1 u.2) := by
  obtain ⟨l, hl, e⟩ := eval_grouped (E := E) (c := (phys E db).ctx p (.blob lo :: .blob hi :: .int rev :: rest)) hp u s
    [] .kine (scan_kine (E := E) (db := db) hp _ (fun _ => none) rfl .kine (0 :: s) [])
    none as (Or.inl rfl) (SqlAst.rangeWhere none) SqlAst.live ord
    (fun r => inRange lo hi r.name && decide (r.id ≤ rev))
    (fun r => eval_rangeWhere rfl _ _ _ _ r (by simp) (by simp))
  refine ⟨l, hl, ?_⟩
  rw [SqlAst.maxLive, e]
  have hlive : ∀ (c : Ctx) (s : List Nat) (r : Row) (g : List Frame),
      evalE SqlAst.live c s (fr E .kine r) g = .ofBool (!r.deleted) := by
    intro c s r g
    have := eval_live (E := E) c s r [] g
    rwa [List.append_nil] at this
  simp only [List.filter_map, Function.comp_def, hlive, truthy_ofBool, List.append_nil]

theorem eval_maxLive_sorted (hp : IsPlan p) (u : db.UniqueIds) (lo hi : Bytes) (rev : Int) (rest : List Val)
    (s : List Nat) :
    evalQ (SqlAst.maxLive (some .id) (.cons (.col none .name) .nil))
      ((phys E db).ctx p (.blob lo :: .blob hi :: .int rev :: rest)) s [] =
      (maxkvV1 db lo hi rev).map fun m => [.int m.id] := by
  obtain ⟨l, hl, e⟩ := eval_maxLive (E := E) hp u lo hi rev rest s (some .id) (.cons (.col none .name) .nil)
  rw [e]
  simp only [Exprs.isNil, Bool.false_eq_true, if_false]
  rw [orderBy_map, List.map_map]
  simp only [evalEs, evalE, cols_none, keysLe_name]
  rw [← orderBy_heads u hl]
  apply List.map_congr_left
  intro m hm
  have hm' : m ∈ heads l := (List.mem_filter.1 (mem_orderBy.1 hm)).1
  have := item_group (E := E) ((phys E db).ctx p (.blob lo :: .blob hi :: .int rev :: rest)) (4 :: s) .kine none (some .id)
    (Or.inl rfl) [] (fr E .kine m) hm'
  simp only [List.append_nil] at this
  exact this

theorem flatMap_eq_map {α β : Type} {l : List α} {f : α → List β} {g : α → β} (h : ∀ a ∈ l, f a = [g a]) :
    l.flatMap f = l.map g := by
  induction l with
  | nil => rfl
  | cons x xs ih => simp [List.flatMap_cons, h x (by simp), ih fun a ha => h a (by simp [ha])]

/-- A row of the cross join of `maxkv` with `kine kv`. -/
def crossFr (E : Enc) (r : Row) : Frame := (some .maxkv, some .id, .int r.id) :: fr E .kv r

theorem crossFr_kv (E : Enc) (r : Row) :
    (crossFr E r).get (some .kv) .id = .int r.id ∧
    (crossFr E r).get none .name = .text r.name ∧ (crossFr E r).get none .lease = .int r.lease ∧
    (crossFr E r).get none .value = E.val r ∧ (crossFr E r).get (some .kv) .created = .ofBool r.created ∧
    (crossFr E r).get (some .kv) .create_revision = .int r.createRevision := by
  simp [crossFr, Frame.get]

theorem eval_listV1Q (hp : IsPlan p) (u : db.UniqueIds) (lo hi : Bytes) (rev : Int) (rest : List Val) (lim : Exprs) :
    ∃ c : Ctx, c.params = .blob lo :: .blob hi :: .int rev :: rest ∧
    evalQ (SqlAst.listSqlV1_0Q lim) ((phys E db).ctx p (.blob lo :: .blob hi :: .int rev :: rest)) [] [] =
      applyLimit (evalEs lim c [7, 1] [] []) ((listSqlV1_0 db lo hi rev 0).map (listVals E)) := by
  rw [SqlAst.listSqlV1_0Q, evalQ, eval_maxLive_sorted hp u]
  generalize hcs : (fun x : Ident => if x = .maxkv then some ((SqlAst.maxLive (some .id) (.cons (.col none .name) .nil)).cols,
    (maxkvV1 db lo hi rev).map fun m => [Val.int m.id]) else
    ((phys E db).ctx p (.blob lo :: .blob hi :: .int rev :: rest)).ctes x) = cs
  obtain ⟨l, hl, e⟩ := scan_kine (E := E) (db := db) hp (.blob lo :: .blob hi :: .int rev :: rest) cs
    (by rw [← hcs]; rfl) .kv [1, 0, 1] []
  refine ⟨{ (phys E db).ctx p (.blob lo :: .blob hi :: .int rev :: rest) with ctes := cs }, rfl, ?_⟩
  have es : evalS (.cross (.table .maxkv .maxkv) (.table .kine .kv) SqlAst.onIds)
      { (phys E db).ctx p (.blob lo :: .blob hi :: .int rev :: rest) with ctes := cs } [0, 1] [] =
      (maxkvV1 db lo hi rev).map (crossFr E) := by
    rw [evalS, e]
    have em : evalS (.table .maxkv .maxkv) { (phys E db).ctx p (.blob lo :: .blob hi :: .int rev :: rest) with ctes := cs }
        [0, 0, 1] [] = (maxkvV1 db lo hi rev).map fun m => [(some .maxkv, some .id, .int m.id)] := by
      simp only [evalS, ← hcs, if_true, SqlAst.maxLive, Query.cols, Items.cols, List.map_map]
      rfl
    rw [em]
    simp only [filter_flatMap, List.flatMap_map, List.map_map, List.filter_map]
    have ul := unique_perm hl u
    have : ∀ m ∈ maxkvV1 db lo hi rev, (l.filter (fun r : Row => r.id == m.id)) = [m] := fun m hm =>
      filter_id_singleton ul (hl.mem_iff.2 (mem_rangeRows.1 ((mem_maxkvV1 u).1 hm).1).1)
    apply flatMap_eq_map
    intro m hm
    rw [show [crossFr E m] = [m].map fun r => (some .maxkv, some .id, .int m.id) :: fr E .kv r from rfl,
      ← this m hm]
    simp only [Function.comp_def, List.append_nil]
    congr 1
    apply List.filter_congr
    intro r _
    have h1 : Frame.get (some .maxkv) .id ([(some .maxkv, some .id, Val.int m.id)] ++ fr E .kv r) = .int m.id := by
      simp [Frame.get]
    have h2 : Frame.get (some .kv) .id ([(some .maxkv, some .id, Val.int m.id)] ++ fr E .kv r) = .int r.id := by
      simp [Frame.get]
    simp only [SqlAst.onIds, evalE, h1, h2, cmp_int, truthy_ofBool]
    rw [Bool.eq_iff_iff]; simp only [beq_iff_eq]; exact ⟨fun h => h.symm, fun h => h.symm⟩
  rw [select_plain (P := fun _ => true) es rfl (by intro r _; simp [evalE])]
  rw [filter_true, listSqlV1_0_eq u]
  simp only [limitBy, Int.lt_irrefl, gt_iff_lt, if_false, List.append_nil]
  congr 1
  apply List.map_congr_left
  intro r _
  simp only [SqlAst.listItems, evalItems, evalE, crossFr_kv, listVals, createRevisionOf, truthy_ofBool]
  cases r.created <;> rfl

theorem eval_listV1 (hp : IsPlan p) (u : db.UniqueIds) (lo hi : Bytes) (rev : Int) :
    exec (.query (SqlAst.listSqlV1_0Q .nil)) (phys E db) p [.blob lo, .blob hi, .int rev] =
      (phys E db, 0, (listSqlV1_0 db lo hi rev 0).map (listVals E)) := by
  obtain ⟨c, hc, e⟩ := eval_listV1Q (E := E) hp u lo hi rev [] .nil
  simp only [exec]; rw [e]; simp [evalEs, applyLimit]

theorem eval_listV1_limit (hp : IsPlan p) (u : db.UniqueIds) (lo hi : Bytes) (rev n : Int) (hn : 0 < n) :
    exec (.query (SqlAst.listSqlV1_0Q (.cons (.param 3) .nil))) (phys E db) p [.blob lo, .blob hi, .int rev, .int n] =
      (phys E db, 0, (listSqlV1_0 db lo hi rev n).map (listVals E)) := by
  obtain ⟨c, hc, e⟩ := eval_listV1Q (E := E) hp u lo hi rev [.int n] (.cons (.param 3) .nil)
  simp only [exec]
  rw [e]
  simp only [evalEs, evalE, hc, List.getD_cons_succ, List.getD_cons_zero]
  rw [applyLimit_int _ _ hn, limitBy_map']
  simp [listSqlV1_0, limitBy]

theorem eval_countV1 (hp : IsPlan p) (u : db.UniqueIds) (lo hi : Bytes) (rev : Int) :
    exec SqlAst.countRevisionSQLV1_0 (phys E db) p [.blob lo, .blob hi, .int rev] =
      (phys E db, 0, [[.int (countRevisionSQLV1_0 db lo hi rev)]]) := by
  obtain ⟨l, hl, e⟩ := eval_maxLive (E := E) hp u lo hi rev [] [0, 0] none .nil
  simp only [Exprs.isNil, if_true, List.map_map] at e
  have es : evalS (.sub (SqlAst.maxLive none .nil) none) ((phys E db).ctx p [.blob lo, .blob hi, .int rev]) [0] [] =
      ((heads l).filter fun m => !m.deleted).map fun m =>
        mkFrame none (SqlAst.maxLive none .nil).cols (evalItems (.cons (.aggMax (.col none .id)) none .nil)
          ((phys E db).ctx p [.blob lo, .blob hi, .int rev]) [4, 0, 0] (fr E .kine m)
            ((l.filter fun x => x.name == m.name).map fun r => fr E .kine r)) := by
    rw [evalS, e, List.map_map]; rfl
  obtain ⟨l', hl', e'⟩ := select_agg (c := (phys E db).ctx p [.blob lo, .blob hi, .int rev]) hp
    (whr := SqlAst.always) (s := []) (o := []) (items := .cons .countStar none .nil)
    (P := fun _ => true) es rfl (by intro r _; simp [evalE])
  simp only [exec, SqlAst.countRevisionSQLV1_0]
  rw [e']
  simp only [evalItems, evalE, List.length_map, countV1_eq]
  rw [hl'.length_eq, filter_true, (((heads_perm hl (UniqueIds.filter u _)).filter fun m => !m.deleted).trans
    (maxkvV1_perm db lo hi rev)).length_eq]

/-! ## Revisions -/

theorem eval_rev (hp : IsPlan p) :
    exec SqlAst.revSQL (phys E db) p [] = (phys E db, 0, [[optInt (revSQL db)]]) := by
  obtain ⟨l, hl, e⟩ := scan_kine (E := E) (db := db) hp [] (fun _ => none) rfl .kine [0] []
  obtain ⟨l', hl', e'⟩ := select_agg (c := (phys E db).ctx p []) hp
    (whr := SqlAst.always) (s := []) (o := []) (items := .cons (.aggMax (.col none .id)) (some .id) .nil)
    (P := fun _ => true) (g := fr E .kine) (l := l) e rfl (by intro r _; simp [evalE])
  simp only [exec, SqlAst.revSQL]
  rw [e', evalItems, evalMax_id _ _ _ _ (Or.inl rfl), evalItems, revSQL]
  rw [filter_true] at hl'
  rw [maxId_perm (hl'.trans hl)]

theorem maxPrev_perm {l l' : List Row} (h : l.Perm l') : maxPrev l = maxPrev l' := by
  induction h with
  | nil => rfl
  | cons x _ ih => simp only [maxPrev, ih]
  | swap x y l =>
    simp only [maxPrev]
    cases maxPrev l with
    | none => simp only; congr 1; split <;> split <;> omega
    | some m => simp only; congr 1; repeat' split
                all_goals omega
  | trans _ _ ih1 ih2 => exact ih1.trans ih2

theorem eval_interval (hp : IsPlan p) :
    exec SqlAst.revisionIntervalSQL (phys E db) p [] =
      (phys E db, 0, [[optInt (revisionIntervalSQL db).1, optInt (revisionIntervalSQL db).2]]) := by
  simp only [exec, SqlAst.revisionIntervalSQL]
  rw [select_plain (l := [()]) (g := fun _ => []) (P := fun _ => true) rfl rfl (by intro r _; simp [evalE])]
  obtain ⟨l₁, hl₁, e₁⟩ := scan_kine (E := E) (db := db) hp [] (fun _ => none) rfl .kine [0, 0, 0, 4] []
  obtain ⟨l₁', hl₁', e₁'⟩ := select_agg (c := (phys E db).ctx p []) hp
    (whr := .cmp .eq (.col none .name) (.lit (.text compactRevKey))) (s := [0, 0, 4]) (o := [])
    (items := .cons (.aggMax (.col none .prev_revision)) none .nil)
    (P := fun r => r.name == compactRevKey) (g := fr E .kine) (l := l₁) e₁ rfl (by intro r _; simp [evalE])
  obtain ⟨l₂, hl₂, e₂⟩ := scan_kine (E := E) (db := db) hp [] (fun _ => none) rfl .kine [0, 0, 0, 1, 4] []
  obtain ⟨l₂', hl₂', e₂'⟩ := select_agg (c := (phys E db).ctx p []) hp
    (whr := SqlAst.always) (s := [0, 0, 1, 4]) (o := []) (items := .cons (.aggMax (.col none .id)) none .nil)
    (P := fun _ => true) (g := fr E .kine) (l := l₂) e₂ rfl (by intro r _; simp [evalE])
  rw [filter_true] at hl₂'
  have h1 : Val.maxAll ((l₁'.map fun x => fr E .kine x).map fun x => x.get none .prev_revision) =
      optInt (maxPrev (db.rows.filter fun r => r.name == compactRevKey)) := by
    rw [← maxPrev_perm (hl₁'.trans (hl₁.filter _)), ← maxAll_prevs, List.map_map]
    simp [Function.comp_def]
  have h2 := evalMax_id (E := E) ((phys E db).ctx p []) [0, 4, 0, 0, 1, 4] .kine none (Or.inl rfl) []
    ((pickRow (.cons (.aggMax (.col none .id)) none .nil) ((phys E db).ctx p []) (4 :: [0, 0, 1, 4])
        (l₂'.map fun x => fr E .kine x ++ [])).getD []) l₂'
  rw [maxId_perm (hl₂'.trans hl₂)] at h2
  simp [evalItems, evalE, e₁', e₂', evalEs, applyLimit, revisionIntervalSQL] at h1 h2 ⊢
  exact ⟨h1, h2⟩

/-! ## Deletes and updates in place -/

theorem truthy_and (a b : Val) : (a.and b).truthy = (a.truthy && b.truthy) := by
  unfold Val.and
  by_cases ha : a = .null
  · subst ha
    by_cases hb : b = .null
    · subst hb; rfl
    · cases hb' : b.truthy <;> simp [hb, hb', Val.truthy]
  · by_cases hb : b = .null
    · subst hb
      cases ha' : a.truthy <;> simp [ha, ha', Val.truthy]
    · cases ha' : a.truthy <;> cases hb' : b.truthy <;> simp [ha, ha', hb, hb', Val.truthy]

theorem truthy_or (a b : Val) : (a.or b).truthy = (a.truthy || b.truthy) := by
  unfold Val.or
  cases ha : a.truthy <;> cases hb : b.truthy <;>
    simp only [Bool.false_eq_true, or_false, or_true, or_self, if_true, if_false, Bool.or_self, Bool.or_true, Bool.or_false]
  · by_cases h : a = .null ∨ b = .null
    · rw [if_pos h]; rfl
    · rw [if_neg h]; rfl
  all_goals rfl

theorem rowMatches_eq (c : Ctx) (whr : Expr) (r : Row) :
    rowMatches whr c (rowVals E r) = (evalE whr c [] (fr E .kine r) []).truthy := rfl

theorem eval_deleteRev (rev : Int) :
    exec SqlAst.deleteRevSQL (phys E db) p [.int rev] =
      (phys E (deleteRevSQL db rev).1, (deleteRevSQL db rev).2.rowsAffected, []) := by
  have h : ∀ r, rowMatches (.cmp .eq (.col none .id) (.param 0)) ((phys E db).ctx p [.int rev]) (rowVals E r) =
      (r.id == rev) := by
    intro r; rw [rowMatches_eq]; simp [evalE, Tables.ctx]
  simp only [exec, SqlAst.deleteRevSQL, phys, List.filter_map, Function.comp_def, deleteRevSQL, List.length_map]
  simp only [phys] at h
  simp only [h]

theorem eval_tombstones (start stop : Int) :
    (exec SqlAst.compactTombstones (phys E db) p [.int start, .int stop]).1 =
      phys E (compactTombstonesSQL db start stop) := by
  have h : ∀ r, rowMatches (.and (.and (.cmp .eq (.col none .deleted) (.lit (.int 1)))
      (.cmp .lt (.param 0) (.col none .id))) (.cmp .le (.col none .id) (.param 1)))
      ((phys E db).ctx p [.int start, .int stop]) (rowVals E r) =
      (r.deleted && decide (start < r.id) && decide (r.id ≤ stop)) := by
    intro r; rw [rowMatches_eq]
    simp only [evalE, truthy_and, cols_none, Tables.ctx, List.getD_cons_succ, List.getD_cons_zero, cmp_int,
      ofBool_eq r.deleted, truthy_ofBool]
    cases r.deleted <;> simp
  simp only [exec, SqlAst.compactTombstones, phys, List.filter_map, Function.comp_def, compactTombstonesSQL]
  simp only [phys] at h
  simp only [h]

theorem inList_ints (n : Int) (l : List Int) : ((Val.int n).inList (l.map .int)).truthy = l.contains n := by
  unfold Val.inList
  by_cases hl : l = []
  · subst hl; rfl
  · have h0 : l.map Val.int ≠ [] := by simpa using hl
    have h1 : (l.map Val.int).contains (.int n) = l.contains n := by
      rw [Bool.eq_iff_iff, List.contains_iff_mem, List.contains_iff_mem]; simp
    have h2 : (l.map Val.int).contains .null = false := by
      rw [Bool.eq_false_iff]; intro h; rw [List.contains_iff_mem] at h; simp at h
    rw [if_neg h0, if_neg (by simp), h1, h2]
    cases l.contains n <;> rfl

theorem eval_superseded (hp : IsPlan p) (start stop : Int) :
    (exec SqlAst.compactSuperseded (phys E db) p [.int start, .int stop]).1 =
      phys E (compactSupersededSQL db start stop) := by
  have h : ∀ r, rowMatches (.inQuery (.col none .id) (.select (.cons (.col none .prev_revision) none .nil)
      (.table .kine .kine)
      (.and (.and (.and (.and (.cmp .ne (.col none .name) (.lit (.text compactRevKey)))
      (.cmp .eq (.col none .created) (.lit (.int 0)))) (.cmp .ne (.col none .prev_revision) (.lit (.int 0))))
      (.cmp .lt (.param 0) (.col none .id))) (.cmp .le (.col none .id) (.param 1))) .nil SqlAst.always .nil .nil))
      ((phys E db).ctx p [.int start, .int stop]) (rowVals E r) =
      ((db.rows.filter fun r =>
      !(r.name == compactRevKey) && !r.created && !(r.prevRevision == 0)
        && decide (start < r.id) && decide (r.id ≤ stop)).map (·.prevRevision)).contains r.id := by
    intro r
    rw [rowMatches_eq, evalE]
    obtain ⟨l, hl, e⟩ := scan_kine (E := E) (db := db) hp [.int start, .int stop] (fun _ => none) rfl .kine [0, 1]
      (fr E .kine r)
    rw [select_plain (c := (phys E db).ctx p [.int start, .int stop]) (s := [1]) (g := fr E .kine) (l := l)
      (P := fun r => !(r.name == compactRevKey) && !r.created && !(r.prevRevision == 0)
        && decide (start < r.id) && decide (r.id ≤ stop)) e rfl (by
          intro x _
          simp only [evalE, truthy_and, cols_none_app, cmp_int, cmp_text, truthy_ofBool, Tables.ctx,
            List.getD_cons_succ, List.getD_cons_zero, ofBool_eq x.created]
          cases x.created <;> simp)]
    simp only [evalEs, applyLimit, List.map_map, Function.comp_def, evalItems, evalE, cols_none, cols_none_app,
      List.headD_cons]
    rw [show (fun x : Row => Val.int x.prevRevision) = Val.int ∘ (·.prevRevision) from rfl, ← List.map_map, inList_ints]
    rw [Bool.eq_iff_iff, List.contains_iff_mem, List.contains_iff_mem]
    exact ((hl.filter _).map _).mem_iff
  simp only [exec, SqlAst.compactSuperseded, phys, List.filter_map, Function.comp_def, compactSupersededSQL]
  simp only [phys] at h
  simp only [h]

/-- The stored values follow the row when its `prev_revision` changes. -/
def Enc.agree (E E' : Enc) (f : Row → Row) (db : DB) : Prop :=
  ∀ r ∈ db.rows, E'.val (f r) = E.val r ∧ E'.old (f r) = E.old r

theorem eval_updateCompact (u : db.UniqueIds) (rev : Int) :
    ∃ E' : Enc, (∀ r ∈ (updateCompactSQL db rev).rows, ∃ q ∈ db.rows, q.id = r.id ∧ E'.val r = E.val q ∧ E'.old r = E.old q) ∧
    (exec SqlAst.updateCompactSQL (phys E db) p [.int rev]).1 = phys E' (updateCompactSQL db rev) := by
  let orig : Row → Row := fun r => (db.rows.find? fun q => q.id == r.id).getD r
  have ho : ∀ q ∈ db.rows, ∀ r : Row, r.id = q.id → orig r = q := by
    intro q hq r hr
    show (db.rows.find? fun x => x.id == r.id).getD r = q
    cases ef : db.rows.find? fun x => x.id == r.id with
    | none =>
      rw [List.find?_eq_none] at ef
      exact absurd (by simp [hr]) (ef q hq)
    | some x =>
      have hx := List.find?_some ef
      have hxm := List.mem_of_find?_eq_some ef
      simp only [beq_iff_eq] at hx
      show x = q
      exact unique_id u hxm hq (by omega)
  refine ⟨{ val := fun r => E.val (orig r), old := fun r => E.old (orig r) }, ?_, ?_⟩
  · intro r hr
    simp only [updateCompactSQL, List.mem_map] at hr
    obtain ⟨q, hq, e⟩ := hr
    have hid : r.id = q.id := by rw [← e]; split <;> rfl
    exact ⟨q, hq, hid.symm, by show E.val (orig r) = _; rw [ho q hq r hid], by show E.old (orig r) = _; rw [ho q hq r hid]⟩
  · have h : ∀ r, rowMatches (.cmp .eq (.col none .name) (.lit (.text compactRevKey)))
        ((phys E db).ctx p [.int rev]) (rowVals E r) = (r.name == compactRevKey) := by
      intro r; rw [rowMatches_eq]; simp [evalE]
    have hmax : ∀ r : Row, evalE (.max2 (.col none .prev_revision) (.param 0)) ((phys E db).ctx p [.int rev]) []
        (mkFrame (some .kine) (kineCols.map some) (rowVals E r)) [] = .int (max r.prevRevision rev) := by
      intro r
      show evalE _ _ _ (fr E .kine r) _ = _
      simp only [evalE, cols_none, Tables.ctx, List.getD_cons_zero, Val.max2, Val.le, reduceCtorEq, or_self,
        if_false, decide_eq_true_eq]
      rcases Int.le_total r.prevRevision rev with hle | hle
      · rw [if_pos hle, Int.max_eq_right hle]
      · rw [Int.max_eq_left hle]
        split
        · congr 1; omega
        · rfl
    simp only [exec, SqlAst.updateCompactSQL]
    simp only [phys, updateCompactSQL, List.map_map, Tables.mk.injEq, and_true] at h hmax ⊢
    apply List.map_congr_left
    intro r hr
    simp only [Function.comp_def, h, hmax]
    by_cases hn : r.name == compactRevKey
    · simp [hn, setCol, kineCols, rowVals, ho r hr _ rfl]
      constructor
      · rw [ho r hr]; rfl
      · rw [ho r hr]; rfl
    · simp [hn, rowVals, ho r hr r rfl]

/-! ## Inserts -/

theorem phys_nextId : (phys E db).nextId = db.nextId := by
  have h : ((phys E db).rows.map fun r => r.headD .null) = db.rows.map fun r => .int r.id := by
    simp [phys, rowVals]
  simp only [Tables.nextId, h, maxAll_ids, DB.nextId]
  cases maxId db.rows <;> rfl

/-- Storage after an INSERT. -/
def Enc.put (E : Enc) (i : Int) (v o : Val) : Enc :=
  { val := fun r => if r.id = i then v else E.val r, old := fun r => if r.id = i then o else E.old r }

theorem nextId_fresh {r : Row} (h : r ∈ db.rows) : r.id ≠ db.nextId := by
  obtain ⟨m, hm⟩ := maxRow_exists h
  have h1 := (maxRow_some hm).2 r h
  simp only [DB.nextId, maxId, hm, Option.map_some, Option.getD_some]
  omega

theorem phys_insert (vals : List Val) (r : Row) (v o : Val)
    (hv : vals = [.text r.name, .ofBool r.created, .ofBool r.deleted, .int r.createRevision, .int r.prevRevision,
      .int r.lease, v, o]) :
    (phys E db).insertRow SqlAst.insertCols vals = phys (E.put db.nextId v o) (db.insert r) := by
  subst hv
  simp only [Tables.insertRow, phys_nextId, DB.insert]
  simp only [phys, Tables.mk.injEq, and_true, List.map_append, List.map_cons, List.map_nil]
  congr 1
  · apply List.map_congr_left
    intro x hx
    simp [rowVals, Enc.put, nextId_fresh hx]
  · simp [insertVal, SqlAst.insertCols, kineCols, rowVals, Enc.put]

theorem eval_maxOf (hp : IsPlan p) (args : List Val) (n : Nat) (key : Bytes) (hk : args.getD n .null = .blob key)
    (s : List Nat) (o : Frame) :
    evalQ (SqlAst.maxOf n) ((phys E db).ctx p args) s o =
      [[optInt (maxId (db.rows.filter fun q => q.name == key))]] := by
  obtain ⟨l, hl, e⟩ := scan_kine (E := E) (db := db) hp args (fun _ => none) rfl .kine (0 :: s) o
  obtain ⟨l', hl', e'⟩ := select_agg (c := (phys E db).ctx p args) hp
    (whr := .cmp .eq (.col none .name) (.castText (.param n))) (s := s) (o := o)
    (items := .cons (.aggMax (.col none .id)) none .nil)
    (P := fun r => r.name == key) (g := fr E .kine) (l := l) e rfl
    (by
      intro r _
      simp only [evalE, Tables.ctx, hk]; simp)
  rw [SqlAst.maxOf, e', evalItems, evalMax_id _ _ _ _ (Or.inl rfl), evalItems, maxId_perm (hl'.trans (hl.filter _))]

theorem eval_casWhere (hp : IsPlan p) (args : List Val) (i j : Nat) (key : Bytes) (rev : Int)
    (hk : args.getD i .null = .blob key) (hr : args.getD j .null = .int rev) (s : List Nat) (r : Row) :
    (evalE (SqlAst.casWhere i j) ((phys E db).ctx p args) s (fr E .kine r ++ []) []).truthy =
      ((some r.id == maxId (db.rows.filter fun q => q.name == key)) && !r.deleted && (r.id == rev)) := by
  simp only [SqlAst.casWhere, evalE, truthy_and, eval_live, truthy_ofBool]
  rw [eval_maxOf hp args i key hk]
  simp only [Tables.ctx, hr, cols_none_app, cmp_int, truthy_ofBool]
  congr 2
  simp only [List.head?_cons, Option.getD_some, List.headD_cons]
  cases maxId (db.rows.filter fun q => q.name == key) with
  | none => simp [optInt, CmpOp.eval, Val.truthy]
  | some m => simp [optInt]

theorem casRows_cases (u : db.UniqueIds) (key : Bytes) (rev : Int) : casRows db key rev = [] ∨ ∃ r ∈ db.rows, casRows db key rev = [r] := by
  cases h : casRows db key rev with
  | nil => exact Or.inl rfl
  | cons a t =>
    right
    have ha : a ∈ casRows db key rev := by rw [h]; simp
    simp only [casRows, List.mem_filter, Bool.and_eq_true, beq_iff_eq] at ha
    refine ⟨a, ha.1, ?_⟩
    cases t with
    | nil => rfl
    | cons b t =>
      have hb : b ∈ casRows db key rev := by rw [h]; simp
      simp only [casRows, List.mem_filter, Bool.and_eq_true, beq_iff_eq] at hb
      have hu : (casRows db key rev).Pairwise fun a b => a.id ≠ b.id := UniqueIds.filter u _
      rw [h, List.pairwise_cons] at hu
      exact absurd (ha.2.2.trans hb.2.2.symm) (hu.1 b (by simp))

theorem perm_small {l m : List Row} (h : l.Perm m) (hm : m = [] ∨ ∃ r ∈ db.rows, m = [r]) : l = m := by
  rcases hm with rfl | ⟨r, _, rfl⟩
  · exact h.eq_nil
  · exact List.perm_singleton.1 h

/-- The SELECT of `deleteSQL` / `updateSQL`. -/
theorem eval_cas (hp : IsPlan p) (u : db.UniqueIds) (args : List Val) (i j : Nat) (key : Bytes) (rev : Int)
    (hk : args.getD i .null = .blob key) (hr : args.getD j .null = .int rev) (items : Items)
    (ha : items.isAgg = false) :
    evalQ (.select items (.table .kine .kine) (SqlAst.casWhere i j) .nil SqlAst.always .nil .nil)
      ((phys E db).ctx p args) [] [] =
      (casRows db key rev).map fun r => evalItems items ((phys E db).ctx p args) [4] (fr E .kine r) [] := by
  obtain ⟨l, hl, e⟩ := scan_kine (E := E) (db := db) hp args (fun _ => none) rfl .kine [0] []
  rw [select_plain (c := (phys E db).ctx p args) (s := []) (o := []) (g := fr E .kine) (l := l) e ha
    (fun r _ => eval_casWhere hp args i j key rev hk hr [1] r)]
  simp only [evalEs, applyLimit, List.append_nil]
  rw [show (l.filter fun r => (some r.id == maxId (db.rows.filter fun q => q.name == key)) && !r.deleted && (r.id == rev)) =
    casRows db key rev from perm_small (hl.filter _) (casRows_cases u key rev)]

/-- What the storage looks like after a write: old rows are stored as before. -/
structure Wrote (E E' : Enc) (db db' : DB) : Prop where
  keep : ∀ r ∈ db.rows, r ∈ db'.rows → E'.val r = E.val r ∧ E'.old r = E.old r
  valid : E.Valid db → E'.Valid db'

theorem wrote_insert (r : Row) (v o : Val) (hv : v = .blob r.value ∨ (r.value = [] ∧ v = .null))
    (ho : E.Valid db → o = .blob r.oldValue ∨ (r.oldValue = [] ∧ o = .null)) :
    Wrote E (E.put db.nextId v o) db (db.insert r) where
  keep x hx _ := by simp [Enc.put, nextId_fresh hx]
  valid h := by
    constructor
    · intro x hx
      simp only [DB.insert, List.mem_append, List.mem_singleton] at hx
      rcases hx with hx | rfl
      · simpa [Enc.put, nextId_fresh hx] using h.val x hx
      · simpa [Enc.put] using hv
    · intro x hx
      simp only [DB.insert, List.mem_append, List.mem_singleton] at hx
      rcases hx with hx | rfl
      · simpa [Enc.put, nextId_fresh hx] using h.old x hx
      · simpa [Enc.put] using ho h

theorem wrote_refl : Wrote E E db db := ⟨fun _ _ _ => ⟨rfl, rfl⟩, id⟩

theorem eval_crev (c : Ctx) (s : List Nat) (r : Row) (g : List Frame) :
    evalE SqlAst.crev c s (fr E .kine r) g = .int (createRevisionOf r) := by
  simp only [SqlAst.crev, evalE, cols_none, cols_some, truthy_ofBool, createRevisionOf]
  cases r.created <;> rfl

theorem eval_delete (hp : IsPlan p) (u : db.UniqueIds) (key : Bytes) (rev : Int) :
    ∃ E', Wrote E E' db (deleteSQL db key rev).1 ∧
      exec SqlAst.deleteSQL (phys E db) p [.blob key, .int rev] =
        (phys E' (deleteSQL db key rev).1, (deleteSQL db key rev).2.rowsAffected, []) := by
  simp only [exec, SqlAst.deleteSQL]
  rw [eval_cas hp u [.blob key, .int rev] 0 1 key rev rfl rfl SqlAst.deleteItems rfl]
  rcases casRows_cases u key rev with h | ⟨r, hr, h⟩
  · refine ⟨E, ?_, ?_⟩ <;> simp only [deleteSQL, h, List.map_nil, DB.insertSelect, DB.insertAll]
    · exact wrote_refl
    · rfl
  · refine ⟨E.put db.nextId .null (E.val r), ?_, ?_⟩ <;>
      simp only [deleteSQL, h, List.map_cons, List.map_nil, DB.insertSelect, DB.insertAll, List.foldl_cons,
        List.foldl_nil]
    · exact wrote_insert _ _ _ (Or.inr ⟨rfl, rfl⟩) fun hE => hE.val r hr
    · rw [phys_insert]
      · rfl
      · simp [SqlAst.deleteItems, evalItems, eval_crev, evalE, Val.ofBool]

theorem eval_update (hp : IsPlan p) (u : db.UniqueIds) (key : Bytes) (lease : Int) (value : Bytes) (rev : Int) (v : Val)
    (hv : v = .blob value ∨ (value = [] ∧ v = .null)) :
    ∃ E', Wrote E E' db (updateSQL db key lease value rev).1 ∧
      exec SqlAst.updateSQL (phys E db) p [.blob key, .int lease, v, .blob key, .int rev] =
        (phys E' (updateSQL db key lease value rev).1, (updateSQL db key lease value rev).2.rowsAffected, []) := by
  simp only [exec, SqlAst.updateSQL]
  rw [eval_cas hp u [.blob key, .int lease, v, .blob key, .int rev] 3 4 key rev rfl rfl SqlAst.updateItems rfl]
  rcases casRows_cases u key rev with h | ⟨r, hr, h⟩
  · refine ⟨E, ?_, ?_⟩ <;> simp only [updateSQL, h, List.map_nil, DB.insertSelect, DB.insertAll]
    · exact wrote_refl
    · rfl
  · refine ⟨E.put db.nextId v (E.val r), ?_, ?_⟩ <;>
      simp only [updateSQL, h, List.map_cons, List.map_nil, DB.insertSelect, DB.insertAll, List.foldl_cons,
        List.foldl_nil]
    · exact wrote_insert _ _ _ hv fun hE => hE.val r hr
    · rw [phys_insert]
      · rfl
      · simp [SqlAst.updateItems, evalItems, eval_crev, evalE, Val.ofBool, Tables.ctx]

theorem eval_createSub (hp : IsPlan p) (u : db.UniqueIds) (args : List Val) (key : Bytes)
    (hk : args.getD 3 .null = .blob key) (s : List Nat) :
    evalQ SqlAst.createSub ((phys E db).ctx p args) s [] =
      [match maxRow (db.rows.filter fun q => q.name == key) with
       | none => [.null, .null]
       | some m => [.int m.id, .ofBool m.deleted]] := by
  obtain ⟨l, hl, e⟩ := scan_kine (E := E) (db := db) hp args (fun _ => none) rfl .kine (0 :: s) []
  obtain ⟨l', hl', e'⟩ := select_agg (c := (phys E db).ctx p args) hp
    (whr := .cmp .eq (.col none .name) (.castText (.param 3))) (s := s) (o := [])
    (items := .cons (.aggMax (.col none .id)) (some .id) (.cons (.col none .deleted) none .nil))
    (P := fun r => r.name == key) (g := fr E .kine) (l := l) e rfl
    (by
      intro r _
      simp only [evalE, Tables.ctx, hk]; simp)
  have hperm := hl'.trans (hl.filter _)
  rw [SqlAst.createSub, e', pickRow_id _ _ _ _ _ (Or.inl rfl) _ _ _ (unique_perm hperm (UniqueIds.filter u _)),
    evalItems, evalMax_id _ _ _ _ (Or.inl rfl), evalItems, evalItems, maxId,
    maxRow_perm hperm (UniqueIds.filter u _)]
  cases maxRow (db.rows.filter fun q => q.name == key) with
  | none => simp [optInt, evalE, Frame.get]
  | some m => simp [optInt, evalE]

/-- The frame of the sub-select of `createSQL`. -/
def maxFr (m : Option Row) : Frame :=
  [(some .maxkv, some .id, optInt (m.map (·.id))), (some .maxkv, some .deleted, m.elim .null fun x => .ofBool x.deleted)]

/-- The SELECT of `createSQL`. -/
theorem eval_createSel (hp : IsPlan p) (u : db.UniqueIds) (key : Bytes) (lease : Int) (v : Val) :
    exec SqlAst.createSQL (phys E db) p [.blob key, .int lease, v, .blob key] =
      (let m := maxRow (db.rows.filter fun q => q.name == key)
       if m.elim true (fun x => x.deleted) then
         ((phys E db).insertRow SqlAst.insertCols [.text key, .int 1, .int 0, .int 0, .int ((m.map (·.id)).getD 0), .int lease, v, .null], 1, [])
       else (phys E db, 0, [])) := by
  simp only [exec, SqlAst.createSQL]
  generalize hm : maxRow (db.rows.filter fun q => q.name == key) = m
  have es : evalS (.sub SqlAst.createSub (some .maxkv)) ((phys E db).ctx p [.blob key, .int lease, v, .blob key]) [0] [] =
      [m].map maxFr := by
    rw [evalS, eval_createSub hp u _ key rfl, hm]
    cases m <;> rfl
  rw [select_plain (c := (phys E db).ctx p [.blob key, .int lease, v, .blob key]) (s := []) (o := [])
    (P := fun m => m.elim true fun x => x.deleted) es rfl (by
      intro x _
      simp only [evalE, truthy_or, List.append_nil, maxFr]
      cases x with
      | none => simp [Frame.get, optInt, CmpOp.eval, Val.truthy, Val.ofBool]
      | some m => cases hd : m.deleted <;> simp [Frame.get, optInt, Val.ofBool, hd, CmpOp.eval, CmpOp.holds])]
  simp only [evalEs, applyLimit]
  by_cases hd : (m.elim true fun x => x.deleted) = true
  · simp only [List.filter_cons, hd, if_true, List.filter_nil, List.map_cons, List.map_nil, List.foldl_cons, List.foldl_nil]
    cases m <;> simp [SqlAst.createItems, evalItems, evalE, Tables.ctx, Frame.get, optInt, maxFr]
  · simp only [List.filter_cons, hd, List.filter_nil, if_false, List.map_nil, List.foldl_nil]; rfl

theorem eval_create (hp : IsPlan p) (u : db.UniqueIds) (key : Bytes) (lease : Int) (value : Bytes) (v : Val)
    (hv : v = .blob value ∨ (value = [] ∧ v = .null)) :
    ∃ E', Wrote E E' db (createSQL db key lease value).1 ∧
      exec SqlAst.createSQL (phys E db) p [.blob key, .int lease, v, .blob key] =
        (phys E' (createSQL db key lease value).1, (createSQL db key lease value).2.rowsAffected, []) := by
  rw [eval_createSel hp u]
  simp only [createSQL]
  cases maxRow (db.rows.filter fun q => q.name == key) with
  | none =>
    simp only [DB.insertSelect, DB.insertAll, Option.elim, if_true, List.length_cons, List.length_nil]
    refine ⟨E.put db.nextId v .null, wrote_insert _ _ _ hv fun _ => Or.inr ⟨rfl, rfl⟩, ?_⟩
    rw [phys_insert]; rfl
  | some m =>
    cases hd : m.deleted with
    | false =>
      simp only [DB.insertSelect, DB.insertAll, Option.elim, hd, Bool.false_eq_true, if_false, List.length_nil]
      exact ⟨E, wrote_refl, rfl⟩
    | true =>
      simp only [DB.insertSelect, DB.insertAll, Option.elim, hd, if_true, List.length_cons, List.length_nil]
      refine ⟨E.put db.nextId v .null, wrote_insert _ _ _ hv fun _ => Or.inr ⟨rfl, rfl⟩, ?_⟩
      rw [phys_insert]; rfl

/-- INSERT, column by column. -/
theorem insertRow_vals (a b c d e f g h : Val) :
    (phys E db).insertRow SqlAst.insertCols [a, b, c, d, e, f, g, h] =
      { rows := db.rows.map (rowVals E) ++ [[.int db.nextId, a, b, c, d, e, f, g, h]], seq := db.nextId } := by
  rw [Tables.insertRow, phys_nextId]
  simp [insertVal, SqlAst.insertCols, kineCols, phys]

end Verif.SqlLang
