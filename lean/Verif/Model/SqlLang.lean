import Verif.Model.Sql
/-!
# A small SQL: syntax and meaning

The subset of SQLite's language used by the statements of `/repo/pkg/backend/sqlite/driver.go:87-275,647-667`
(except `getSizeSQL`), with its meaning over rows of dynamically typed values.  `Verif.Model.SqlParse` parses the
statement texts of the driver (copied in `Verif.Model.SqlText`) into this syntax.

The meaning is parametrised by a *plan*: wherever SQL leaves the order of rows open (the scan of a table, the
result of a join, the rows given to GROUP BY or ORDER BY) the plan may permute them in any way.  A statement
about all plans is a statement about everything SQLite's planner may choose.

Trusted reading of SQLite (https://sqlite.org/lang_select.html, quirks of `MAX`):
* three-valued logic; storage classes order NULL < INTEGER < TEXT < BLOB; BINARY collation;
* a bare column next to one `MAX(e)` is taken from a row attaining the maximum (any of them), also in HAVING and
  ORDER BY; an aggregate without GROUP BY yields exactly one row, with NULLs when there is no input row;
* a subquery or common table expression with ORDER BY delivers its rows in that order and
  `a CROSS JOIN b` is a loop over `a` outside a loop over `b` (the comment in `driver.go:111-127` relies on it).

Simplifications: no column affinity conversions (the arguments bound by the driver have the types of the columns
they are compared with); TEXT and BLOB values are never true; ORDER BY looks at source columns only.
-/

namespace Verif.SqlLang

/-- A dynamically typed SQLite value (REAL does not occur). -/
inductive Val where
  | null
  | int (n : Int)
  | text (b : Bytes)
  | blob (b : Bytes)
deriving DecidableEq, Repr

/-- The identifiers that occur in the statements: columns (`schema.go:58-68`), output names, the table and its
aliases (`driver.go:87-275`). -/
inductive Ident where
  | id | name | created | deleted | create_revision | prev_revision | lease | value | old_value
  | low | high
  | kine | kv | mkv | maxkv
deriving DecidableEq, Repr

/-- Comparison operators. -/
inductive CmpOp where
  | eq | ne | lt | le | gt | ge
deriving DecidableEq, Repr

mutual
/-- Expressions. -/
inductive Expr where
  | lit (v : Val)
  /-- The n-th `?`. -/
  | param (n : Nat)
  | col (table : Option Ident) (column : Ident)
  | castText (e : Expr)
  | cmp (op : CmpOp) (a b : Expr)
  | and (a b : Expr)
  | or (a b : Expr)
  | isNull (e : Expr)
  | caseWhen (c t e : Expr)
  | coalesce (a b : Expr)
  /-- Scalar `max(a, b)`. -/
  | max2 (a b : Expr)
  /-- Aggregate `MAX(e)`. -/
  | aggMax (e : Expr)
  | countStar
  | scalar (q : Query)
  | inQuery (e : Expr) (q : Query)
/-- Lists of expressions (GROUP BY, ORDER BY … ASC, LIMIT). -/
inductive Exprs where
  | nil
  | cons (e : Expr) (es : Exprs)
/-- The result columns of a SELECT, with their names. -/
inductive Items where
  | nil
  | cons (e : Expr) (as : Option Ident) (rest : Items)
/-- FROM clauses. -/
inductive Source where
  /-- No FROM clause: one row without columns. -/
  | unit
  | table (tbl : Ident) (as : Ident)
  | sub (q : Query) (as : Option Ident)
  | join (a b : Source) (on : Expr)
  | cross (a b : Source) (on : Expr)
/-- Queries. A missing WHERE or HAVING is the literal 1. -/
inductive Query where
  | select (items : Items) (src : Source) (whr : Expr) (grp : Exprs) (hav : Expr) (ord : Exprs) (lim : Exprs)
  | withCte (cte : Ident) (q body : Query)
end

deriving instance DecidableEq for Expr, Exprs, Items, Source, Query

/-- Statements. -/
inductive Stmt where
  | query (q : Query)
  | insert (cols : List Ident) (q : Query)
  | delete (whr : Expr)
  | update (col : Ident) (e : Expr) (whr : Expr)
deriving DecidableEq

/-! ## Values -/

/-- Order of storage classes. -/
def Val.cls : Val → Nat
  | .null => 0
  | .int _ => 1
  | .text _ => 2
  | .blob _ => 3

/-- The order used by comparisons, MAX and ORDER BY. -/
def Val.le : Val → Val → Bool
  | .int a, .int b => decide (a ≤ b)
  | .text a, .text b => ble a b
  | .blob a, .blob b => ble a b
  | a, b => decide (a.cls ≤ b.cls)

/-- SQL truth values are integers. -/
def Val.ofBool (b : Bool) : Val := .int (if b then 1 else 0)

/-- A condition holds when it is neither NULL nor 0. -/
def Val.truthy : Val → Bool
  | .int n => decide (n ≠ 0)
  | _ => false

/-- Comparison of two non-NULL values. -/
def CmpOp.holds : CmpOp → Val → Val → Bool
  | .eq, a, b => a == b
  | .ne, a, b => !(a == b)
  | .lt, a, b => !(b.le a)
  | .le, a, b => a.le b
  | .gt, a, b => !(a.le b)
  | .ge, a, b => b.le a

/-- Comparison; NULL if an operand is NULL. -/
def CmpOp.eval (op : CmpOp) (a b : Val) : Val :=
  if a = .null ∨ b = .null then .null else .ofBool (op.holds a b)

/-- Three-valued conjunction. -/
def Val.and (a b : Val) : Val :=
  if (a ≠ .null ∧ a.truthy = false) ∨ (b ≠ .null ∧ b.truthy = false) then .int 0
  else if a = .null ∨ b = .null then .null else .int 1

/-- Three-valued disjunction. -/
def Val.or (a b : Val) : Val :=
  if a.truthy || b.truthy then .int 1
  else if a = .null ∨ b = .null then .null else .int 0

/-- `CAST(v AS TEXT)`: a no-op on the bytes of a blob. -/
def Val.castText : Val → Val
  | .null => .null
  | .int n => .text ((toString n).toList.map fun c => c.toNat.toUInt8)
  | .text b => .text b
  | .blob b => .text b

/-- Scalar `max`. -/
def Val.max2 (a b : Val) : Val :=
  if a = .null ∨ b = .null then .null else if a.le b then b else a

/-- Aggregate `MAX`: NULLs are ignored. -/
def Val.maxAll : List Val → Val
  | [] => .null
  | v :: vs =>
    let m := Val.maxAll vs
    if v = .null then m else if m = .null then v else if m.le v then v else m

/-- `v IN (…)`. -/
def Val.inList (v : Val) (vs : List Val) : Val :=
  if vs = [] then .int 0
  else if v = .null then .null
  else if vs.contains v then .int 1
  else if vs.contains .null then .null else .int 0

/-! ## Rows -/

/-- The columns visible in an expression: table alias (if any), column name (if any) and value. -/
abbrev Frame := List (Option Ident × Option Ident × Val)

/-- Column lookup, innermost scope first; unqualified names match any table. -/
def Frame.get (t : Option Ident) (c : Ident) : Frame → Val
  | [] => .null
  | (a, n, v) :: f => if n = some c ∧ (t = none ∨ t = a) then v else Frame.get t c f

/-- A row of a table or subquery as a frame. -/
def mkFrame (as : Option Ident) : List (Option Ident) → List Val → Frame
  | c :: cs, v :: vs => (as, c, v) :: mkFrame as cs vs
  | _, _ => []

/-- The columns of table `kine` (`schema.go:58-68`). -/
def kineCols : List Ident :=
  [.id, .name, .created, .deleted, .create_revision, .prev_revision, .lease, .value, .old_value]

/-- What a query is evaluated in: bound arguments, the rows of table `kine`, the common table expressions in
scope, and the plan. -/
structure Ctx where
  params : List Val
  kine : List (List Val)
  ctes : Ident → Option (List (Option Ident) × List (List Val))
  plan : List Nat → List Frame → List Frame

/-- Plans only reorder. -/
def IsPlan (p : List Nat → List Frame → List Frame) : Prop := ∀ site l, (p site l).Perm l

/-- Lexicographic order of sort keys. -/
def keysLe : List Val → List Val → Bool
  | a :: as, b :: bs => if a = b then keysLe as bs else a.le b
  | _, _ => true

/-- Group keys, each once. -/
def distinct : List (List Val) → List (List Val)
  | [] => []
  | k :: ks => if (distinct ks).contains k then distinct ks else k :: distinct ks

/-- The first row whose value is the maximum. -/
def pickMax (rows : List (Frame × Val)) : Option Frame :=
  (rows.find? fun p => p.2 == Val.maxAll (rows.map (·.2))).map (·.1)

/-! ## Static information -/

/-- Does an item list aggregate (without looking into subqueries)? Only top-level aggregates occur. -/
def Items.isAgg : Items → Bool
  | .nil => false
  | .cons (.aggMax _) _ _ => true
  | .cons .countStar _ _ => true
  | .cons _ _ rest => rest.isAgg

/-- Names of the result columns. -/
def Items.cols : Items → List (Option Ident)
  | .nil => []
  | .cons _ (some a) rest => some a :: rest.cols
  | .cons (.col _ c) none rest => some c :: rest.cols
  | .cons _ none rest => none :: rest.cols

/-- Names of the result columns. -/
def Query.cols : Query → List (Option Ident)
  | .select items .. => items.cols
  | .withCte _ _ body => body.cols

/-- Is there any expression in the list? -/
def Exprs.isNil : Exprs → Bool
  | .nil => true
  | .cons .. => false

/-- `LIMIT`: a negative limit is no limit. -/
def applyLimit {α : Type} (lim : List Val) (l : List α) : List α :=
  match lim with
  | .int n :: _ => if n < 0 then l else l.take n.toNat
  | _ => l

/-! ## Evaluation -/

mutual
/-- Value of an expression in a row; aggregates range over the group. -/
def evalE : Expr → Ctx → List Nat → Frame → List Frame → Val
  | .lit v, _, _, _, _ => v
  | .param n, c, _, _, _ => c.params.getD n .null
  | .col t n, _, _, f, _ => f.get t n
  | .castText e, c, s, f, g => (evalE e c (0 :: s) f g).castText
  | .cmp op a b, c, s, f, g => op.eval (evalE a c (0 :: s) f g) (evalE b c (1 :: s) f g)
  | .and a b, c, s, f, g => (evalE a c (0 :: s) f g).and (evalE b c (1 :: s) f g)
  | .or a b, c, s, f, g => (evalE a c (0 :: s) f g).or (evalE b c (1 :: s) f g)
  | .isNull e, c, s, f, g => .ofBool (evalE e c (0 :: s) f g == .null)
  | .caseWhen w t e, c, s, f, g =>
    if (evalE w c (0 :: s) f g).truthy then evalE t c (1 :: s) f g else evalE e c (2 :: s) f g
  | .coalesce a b, c, s, f, g =>
    let v := evalE a c (0 :: s) f g
    if v = .null then evalE b c (1 :: s) f g else v
  | .max2 a b, c, s, f, g => (evalE a c (0 :: s) f g).max2 (evalE b c (1 :: s) f g)
  | .aggMax e, c, s, _, g => Val.maxAll (g.map fun x => evalE e c (0 :: s) x [])
  | .countStar, _, _, _, g => .int g.length
  | .scalar q, c, s, f, _ => ((evalQ q c (0 :: s) f).head?.getD []).headD .null
  | .inQuery e q, c, s, f, g =>
    (evalE e c (0 :: s) f g).inList ((evalQ q c (1 :: s) f).map fun r => r.headD .null)
/-- Values of a list of expressions. -/
def evalEs : Exprs → Ctx → List Nat → Frame → List Frame → List Val
  | .nil, _, _, _, _ => []
  | .cons e es, c, s, f, g => evalE e c (0 :: s) f g :: evalEs es c (1 :: s) f g
/-- A result row. -/
def evalItems : Items → Ctx → List Nat → Frame → List Frame → List Val
  | .nil, _, _, _, _ => []
  | .cons e _ rest, c, s, f, g => evalE e c (0 :: s) f g :: evalItems rest c (1 :: s) f g
/-- The row of a group that bare columns are taken from: a row attaining the `MAX`, or any row (the first). -/
def pickRow : Items → Ctx → List Nat → List Frame → Option Frame
  | .cons (.aggMax e) _ _, c, s, g => pickMax (g.map fun x => (x, evalE e c (0 :: s) x []))
  | .cons _ _ rest, c, s, g => pickRow rest c (1 :: s) g
  | .nil, _, _, g => g.head?
/-- The rows of a FROM clause; `o` are the columns of enclosing queries. -/
def evalS : Source → Ctx → List Nat → Frame → List Frame
  | .unit, _, _, _ => [[]]
  | .table n a, c, s, _ =>
    match c.ctes n with
    | some (cols, rows) => rows.map (mkFrame (some a) cols)
    | none =>
      if n = .kine then c.plan s (c.kine.map (mkFrame (some a) (kineCols.map some))) else []
  | .sub q a, c, s, o => (evalQ q c (0 :: s) o).map (mkFrame a q.cols)
  | .join a b on, c, s, o =>
    c.plan s (((evalS a c (0 :: s) o).flatMap fun x => (evalS b c (1 :: s) o).map fun y => x ++ y).filter
      fun f => (evalE on c (2 :: s) (f ++ o) []).truthy)
  | .cross a b on, c, s, o =>
    ((evalS a c (0 :: s) o).flatMap fun x => (evalS b c (1 :: s) o).map fun y => x ++ y).filter
      fun f => (evalE on c (2 :: s) (f ++ o) []).truthy
/-- The result of a query. -/
def evalQ : Query → Ctx → List Nat → Frame → List (List Val)
  | .withCte n q body, c, s, o =>
    let rows := evalQ q c (0 :: s) o
    evalQ body { c with ctes := fun x => if x = n then some (q.cols, rows) else c.ctes x } (1 :: s) o
  | .select items src whr grp hav ord lim, c, s, o =>
    let rows := (evalS src c (0 :: s) o).filter fun f => (evalE whr c (1 :: s) (f ++ o) []).truthy
    -- the rows or groups, each with the row its columns are taken from
    let units : List (Frame × List Frame) :=
      if grp.isNil = false then
        let rows := (c.plan (2 :: s) rows).map fun f => f ++ o
        (distinct (rows.map fun f => evalEs grp c (3 :: s) f [])).map fun k =>
          let g := rows.filter fun f => evalEs grp c (3 :: s) f [] == k
          ((pickRow items c (4 :: s) g).getD o, g)
      else if items.isAgg then
        let rows := (c.plan (2 :: s) rows).map fun f => f ++ o
        [((pickRow items c (4 :: s) rows).getD o, rows)]
      else
        (if ord.isNil then rows else c.plan (2 :: s) rows).map fun f => (f ++ o, [])
    let units := units.filter fun u => (evalE hav c (5 :: s) u.1 u.2).truthy
    let units :=
      if ord.isNil then units
      else orderBy (fun u v => keysLe (evalEs ord c (6 :: s) u.1 u.2) (evalEs ord c (6 :: s) v.1 v.2)) units
    applyLimit (evalEs lim c (7 :: s) o []) (units.map fun u => evalItems items c (4 :: s) u.1 u.2)
end

/-! ## Statements -/

/-- The rows and `sqlite_sequence` entry of table `kine`. -/
structure Tables where
  rows : List (List Val)
  seq : Int
deriving DecidableEq, Repr

/-- The evaluation context of a statement. -/
def Tables.ctx (t : Tables) (plan : List Nat → List Frame → List Frame) (args : List Val) : Ctx :=
  { params := args, kine := t.rows, ctes := fun _ => none, plan := plan }

/-- AUTOINCREMENT (`schema.go:58`): one more than the largest id ever used. -/
def Tables.nextId (t : Tables) : Int :=
  match Val.maxAll (t.rows.map fun r => r.headD .null) with
  | .int n => max t.seq n + 1
  | _ => max t.seq 0 + 1

/-- The value an INSERT gives to a column; columns not listed become NULL. -/
def insertVal (cols : List Ident) (vals : List Val) (c : Ident) : Val :=
  ((cols.zip vals).find? fun p => p.1 == c).elim .null (·.2)

/-- Insert one row, the id is assigned by the database. -/
def Tables.insertRow (t : Tables) (cols : List Ident) (vals : List Val) : Tables :=
  { rows := t.rows ++ [.int t.nextId :: kineCols.tail.map (insertVal cols vals)], seq := t.nextId }

/-- Replace the value of one column. -/
def setCol (c : Ident) (v : Val) : List Ident → List Val → List Val
  | n :: ns, x :: xs => (if n = c then v else x) :: setCol c v ns xs
  | _, xs => xs

/-- Does the WHERE clause of a DELETE or UPDATE hold for this row? -/
def rowMatches (whr : Expr) (c : Ctx) (r : List Val) : Bool :=
  (evalE whr c [] (mkFrame (some .kine) (kineCols.map some) r) []).truthy

/-- Execute a statement: new tables, affected rows, result rows. -/
def exec (st : Stmt) (t : Tables) (plan : List Nat → List Frame → List Frame) (args : List Val) :
    Tables × Nat × List (List Val) :=
  let c := t.ctx plan args
  match st with
  | .query q => (t, 0, evalQ q c [] [])
  | .insert cols q =>
    let sel := evalQ q c [] []
    (sel.foldl (fun t vals => t.insertRow cols vals) t, sel.length, [])
  | .delete whr =>
    ({ t with rows := t.rows.filter fun r => !rowMatches whr c r }, (t.rows.filter (rowMatches whr c)).length, [])
  | .update col e whr =>
    ({ t with rows := t.rows.map fun r =>
        if rowMatches whr c r then
          setCol col (evalE e c [] (mkFrame (some .kine) (kineCols.map some) r) []) kineCols r
        else r },
     (t.rows.filter (rowMatches whr c)).length, [])

end Verif.SqlLang
