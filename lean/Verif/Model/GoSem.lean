import Verif.Model.GoSyntax
/-!
# Meaning of the fragment of Go

An interpreter in continuation passing style over the trees of `Model/GoSyntax.lean`. What is outside of the text (other functions,
libraries, the database) is a `Host`: a handler for calls, and values of names that are not local. The result type `R` is the host's
choice; `stuck : R` is the result of everything the fragment does not define: panics (index out of range, nil dereference), types that
do not fit, unknown names, exhausted fuel (`Host.fuel` bounds the iterations of one loop).

Semantics kept: scoping and shadowing, `:=` that reuses variables of the same block, variables captured by reference, named results,
`defer` in reverse order with effect on named results, short-circuit operators, zero values, pointers to variables, to allocated structs
and to their fields, order of evaluation from left to right, `break`, `continue`, `return` out of loops.
A slice is the list of its elements, nil slices are empty ones (comparing an empty slice with nil is stuck).
Goroutines, channels and objects that are shared between goroutines are the host's: `go`, sending, receiving and `select`, fields of objects
(`Host.field`, `Host.setField`) and their allocation are handed to it; most hosts have none (stuck).
`range` over a map of the host takes its entries when it begins; a deferred call of a variable that holds a function of the host is a method `()`
of it.
Simplifications: integers are unbounded (`|` is that of 64 bits); numbers with a point are of no interest; a goroutine gets a copy of the variables it captures; a variable of a block that
contains neither a function literal nor takes the address of a variable it declares is removed when the block ends; slices are values (no sharing between slices).
-/

namespace Verif.Go

/-- Where a pointer points: a variable or an allocated struct. -/
inductive Root where
  | var (n : Nat)
  | obj (n : Nat)

/-- Scopes, innermost first; a variable is an index into the store. -/
abbrev Env := List (List (Nm × Nat))

/-- Values. `X` is what the host adds. -/
inductive GV (X : Type) where
  | int (n : Int)
  | bool (b : Bool)
  /-- strings and byte slices -/
  | bytes (b : List UInt8)
  /-- every nil -/
  | nil
  /-- slices of anything but bytes -/
  | list (vs : List (GV X))
  /-- a struct and the name of its type -/
  | struct (ty : Nm) (fs : List (Nm × GV X))
  /-- a pointer to something that is not written to -/
  | imm (v : GV X)
  | ptr (r : Root) (path : List Nm)
  | clos (ps : List (Nm × Ty)) (rs : List (Nm × Ty)) (body : Stmts) (env : Env)
  /-- a function that is not local -/
  | fn (n : Nm)
  /-- something of no interest: contexts, spans, attributes -/
  | tok
  | ext (x : X)

/-- A deferred call: of a function literal, or of a method with evaluated receiver and arguments. -/
inductive Dfr (X : Type) where
  | clos (f : GV X) (args : List (GV X))
  | meth (recv : GV X) (m : Nm) (args : List (GV X))
  | func (pkg m : Nm) (args : List (GV X))

/-- Variables, allocated structs, deferred calls of the running function (last first). -/
structure Store (X : Type) where
  vars : List (GV X) := []
  objs : List (GV X) := []
  defers : List (Dfr X) := []

/-- A loop as a function of what an iteration does: condition, body with its continuations for the next iteration and for leaving, what
comes after the loop, fuel, store. -/
abbrev LoopK (X R : Type) :=
  (Store X → (GV X → Store X → R) → R) → (Store X → (Store X → R) → (Store X → R) → R) → (Store X → R) → Nat → Store X → R

/-- The same for `range` over a list of values. -/
abbrev RangeK (X R : Type) :=
  (Nat → GV X → Store X → (Store X → R) → (Store X → R) → R) → (Store X → R) → List (GV X) → Nat → Store X → R

/-- Loops and getting stuck. There is one meaning of loops, `Control.std`; they are a parameter only so that proofs can stop the evaluation of
a program at its loops. -/
structure Control (X R : Type) where
  stuck : R
  loop : LoopK X R
  range : RangeK X R

/-- `for cond { body }`. -/
def loopStd {X R : Type} (stuck : R) (cond : Store X → (GV X → Store X → R) → R) (body : Store X → (Store X → R) → (Store X → R) → R)
    (k : Store X → R) : Nat → Store X → R
  | 0, _ => stuck
  | n + 1, s => cond s fun c s =>
    match c with
    | .bool b => bif b then body s (fun s => loopStd stuck cond body k n s) k else k s
    | _ => stuck

/-- `for i, v := range`. -/
def rangeStd {X R : Type} (body : Nat → GV X → Store X → (Store X → R) → (Store X → R) → R) (k : Store X → R) :
    List (GV X) → Nat → Store X → R
  | [], _, s => k s
  | v :: vs, i, s => body i v s (fun s => rangeStd body k vs (i + 1) s) k

/-- The meaning of loops. -/
def Control.std {X R : Type} (stuck : R) : Control X R :=
  { stuck := stuck, loop := loopStd stuck, range := rangeStd }

/-- A case of `select`. -/
inductive Comm (X : Type) where
  | recv (ch : GV X)
  | send (ch v : GV X)
  | dflt

/-- The world outside of the text. -/
structure Host (X R : Type) where
  ctl : Control X R
  /-- `recv.m(args)` -/
  meth : GV X → Nm → List (GV X) → Store X → (List (GV X) → Store X → R) → R
  /-- `pkg.f(args)`, or `f(args)` with package 0 -/
  func : Nm → Nm → List (GV X) → Store X → (List (GV X) → Store X → R) → R
  /-- names that are not local -/
  glob : Nm → Nm → Option (GV X)
  /-- zero values of named types -/
  zero : Nm → Nm → Option (GV X)
  /-- iterations of one loop -/
  fuel : Nat
  /-- read a field of an object of the host -/
  field : X → Nm → Store X → (GV X → Store X → R) → R := fun _ _ _ _ => ctl.stuck
  /-- write it -/
  setField : X → Nm → GV X → Store X → (Store X → R) → R := fun _ _ _ _ _ => ctl.stuck
  /-- `&T{…}`: the host's, or in the store -/
  alloc : GV X → Option ((GV X → R) → R) := fun _ => none
  /-- `go`: what the goroutine does, given what comes after it -/
  go : (Store X → (Store X → R) → R) → Store X → (Store X → R) → R := fun _ _ _ => ctl.stuck
  /-- communication: which case, and for a case that receives the value and whether the channel was open -/
  select : List (Comm X) → Store X → (Nat → List (GV X) → Store X → R) → R := fun _ _ _ => ctl.stuck
  /-- `m[k] = v` for a map of the host -/
  setIdx : X → GV X → GV X → Store X → (Store X → R) → R := fun _ _ _ _ _ => ctl.stuck
  /-- `m[k]` for a map of the host -/
  idx : X → GV X → Store X → (GV X → Store X → R) → R := fun _ _ _ _ => ctl.stuck
  /-- the entries of a map of the host, as pairs; `none` for channels -/
  entries : X → Option ((List (GV X) → R) → R) := fun _ => none
  /-- `make(chan T, n)` -/
  mkChan : Int → Option (GV X) := fun _ => none
  /-- functions of libraries that are given functions: how they are called is the second argument -/
  hof : Nm → Nm → Option (List (GV X) → (GV X → Store X → (List (GV X) → Store X → R) → R) → Store X → (List (GV X) → Store X → R) → R) := fun _ _ => none

variable {X R : Type}

/-- Lookup in an association list. -/
def assoc {α : Type} (n : Nm) : List (Nm × α) → Option α
  | [] => none
  | (m, a) :: l => if m == n then some a else assoc n l

/-- Replace in an association list. -/
def assocSet {α : Type} (n : Nm) (a : α) : List (Nm × α) → Option (List (Nm × α))
  | [] => none
  | (m, b) :: l => if m == n then some ((m, a) :: l) else (assocSet n a l).map fun l' => (m, b) :: l'

/-- The variable of a name. -/
def Env.get (n : Nm) : Env → Option Nat
  | [] => none
  | s :: e =>
    match assoc n s with
    | some i => some i
    | none => Env.get n e

/-- Bind a name in the innermost scope. -/
def Env.push (n : Nm) (i : Nat) : Env → Env
  | [] => [[(n, i)]]
  | s :: e => ((n, i) :: s) :: e

/-- Element of a list. -/
def nth {α : Type} : List α → Nat → Option α
  | [], _ => none
  | a :: _, 0 => some a
  | _ :: l, n + 1 => nth l n

/-- Replace an element. -/
def setNth {α : Type} (a : α) : List α → Nat → Option (List α)
  | [], _ => none
  | _ :: l, 0 => some (a :: l)
  | b :: l, n + 1 => (setNth a l n).map fun l' => b :: l'

/-- Read a field of a field … of a struct. -/
def GV.getPath : GV X → List Nm → Option (GV X)
  | v, [] => some v
  | .struct _ fs, f :: p => (assoc f fs).bind fun v => v.getPath p
  | _, _ :: _ => none
termination_by structural _ p => p

/-- Write it. -/
def GV.setPath (w : GV X) : GV X → List Nm → Option (GV X)
  | _, [] => some w
  | .struct t fs, f :: p =>
    (assoc f fs).bind fun v => (GV.setPath w v p).bind fun v' => (assocSet f v' fs).map fun fs' => .struct t fs'
  | _, _ :: _ => none
termination_by structural _ p => p

/-- Read what a pointer points to. -/
def Store.load (s : Store X) (r : Root) (p : List Nm) : Option (GV X) :=
  match r with
  | .var n => (nth s.vars n).bind fun v => v.getPath p
  | .obj n => (nth s.objs n).bind fun v => v.getPath p

/-- Write through a pointer. -/
def Store.save (s : Store X) (r : Root) (p : List Nm) (w : GV X) : Option (Store X) :=
  match r with
  | .var n => (nth s.vars n).bind fun v => (GV.setPath w v p).bind fun v' => (setNth v' s.vars n).map fun vs => { s with vars := vs }
  | .obj n => (nth s.objs n).bind fun v => (GV.setPath w v p).bind fun v' => (setNth v' s.objs n).map fun os => { s with objs := os }

/-- A new variable. -/
def Store.newVar (s : Store X) (v : GV X) : Store X := { s with vars := s.vars ++ [v] }

/-- `v.f`. -/
def selV (s : Store X) (v : GV X) (f : Nm) : Option (GV X) :=
  match v with
  | .struct _ fs => assoc f fs
  | .imm (.struct _ fs) => assoc f fs
  | .ptr r p => s.load r (p ++ [f])
  | _ => none

/-- Equality. Whether an empty slice is nil is not known. -/
def eqV (a b : GV X) : Option Bool :=
  match a, b with
  | .int m, .int n => some (decide (m = n))
  | .bool m, .bool n => some (m == n)
  | .bytes m, .bytes n => some (decide (m = n))
  | .nil, .nil => some true
  | .imm _, .nil => some false
  | .ptr _ _, .nil => some false
  | .fn _, .nil => some false
  | .clos _ _ _ _, .nil => some false
  | .ext _, .nil => some false
  | .tok, .nil => some false
  | .list (_ :: _), .nil => some false
  | .bytes (_ :: _), .nil => some false
  | _, _ => none

/-- `|` of integers of up to 64 bits. -/
def orInt (m n : Int) : Int := (BitVec.ofInt 64 m ||| BitVec.ofInt 64 n).toInt

/-- Operators on values. -/
def binV (o : Nm) (a b : GV X) : Option (GV X) :=
  if o == n!"==" then (eqV a b).map .bool
  else if o == n!"!=" then (eqV a b).map fun x => .bool (!x)
  else
    match a, b with
    | .int m, .int n =>
      if o == n!"<" then some (.bool (decide (m < n)))
      else if o == n!">" then some (.bool (decide (n < m)))
      else if o == n!"<=" then some (.bool (decide (m ≤ n)))
      else if o == n!">=" then some (.bool (decide (n ≤ m)))
      else if o == n!"+" then some (.int (m + n))
      else if o == n!"-" then some (.int (m - n))
      else if o == n!"*" then some (.int (m * n))
      else if o == n!"/" then (if n = 0 then none else some (.int (m.tdiv n)))
      else if o == n!"<<" then (if 0 ≤ n then some (.int (m * 2 ^ n.toNat)) else none)
      else if o == n!">>" then (if 0 ≤ n then some (.int (m / 2 ^ n.toNat)) else none)
      else if o == n!"|" then some (.int (orInt m n))
      else none
    | .bytes m, .bytes n => if o == n!"+" then some (.bytes (m ++ n)) else none
    | _, _ => none

/-- `len`. -/
def lenV : GV X → Option Int
  | .bytes b => some b.length
  | .list l => some l.length
  | _ => none

/-- The elements of a slice (other than bytes). -/
def GV.elems : GV X → Option (List (GV X))
  | .list l => some l
  | _ => none

/-- `v[i]`. -/
def idxV (v i : GV X) : Option (GV X) :=
  match v, i with
  | .list l, .int n => if 0 ≤ n then nth l n.toNat else none
  | _, _ => none

/-- `v[lo:hi]`: whether the bounds are in range, and the value. -/
def sliceV (v : GV X) (lo hi : Int) : Option (Bool × GV X) :=
  match v with
  | .list l => some (decide (0 ≤ lo ∧ lo ≤ hi ∧ hi ≤ l.length), .list ((l.take hi.toNat).drop lo.toNat))
  | .bytes l => some (decide (0 ≤ lo ∧ lo ≤ hi ∧ hi ≤ l.length), .bytes ((l.take hi.toNat).drop lo.toNat))
  | _ => none

/-- `append(v, ws...)`. -/
def appendV (v : GV X) (ws : List (GV X)) : Option (GV X) :=
  match v, ws with
  | .bytes b, [.int n] => some (.bytes (b ++ [UInt8.ofNat n.toNat]))
  | .list l, _ => some (.list (l ++ ws))
  | _, _ => none

/-- The nil slice of a type of elements. -/
def nilSlice : Ty → GV X
  | .name 0 n => if n == n!"byte" then .bytes [] else .list []
  | _ => .list []

/-- `nil` as a value of a type: a slice without elements, or nil. -/
def convV (t : Ty) (v : GV X) : GV X :=
  match t, v with
  | .slice u, .nil => nilSlice u
  | _, v => v

/-- Arguments as values of the types of the parameters; the last parameter of a variadic function gets the rest. -/
def packArgs : List (Nm × Ty) → List (GV X) → Option (List (GV X))
  | [], vs => match vs with | [] => some [] | _ => none
  | (_, t) :: ps, vs =>
    match t with
    | .variadic _ => some [.list vs]
    | t =>
      match vs with
      | [] => none
      | v :: vs => (packArgs ps vs).map fun ws => convV t v :: ws

/-- Zero values. -/
def zeroV (H : Host X R) : Ty → Option (GV X)
  | .name 0 n =>
    if elemNm n [n!"int", n!"int64", n!"int32", n!"uint32", n!"uint64"] then some (.int 0)
    else if n == n!"bool" then some (.bool false)
    else if n == n!"string" then some (.bytes [])
    else if n == n!"error" then some .nil
    else H.zero 0 n
  | .name p n => H.zero p n
  | .struct fs => zeroFields fs
  | .slice t => some (nilSlice t)
  | _ => some .nil
where
  /-- Zero values of the fields of a struct type. -/
  zeroFields (fs : List (Nm × Ty)) : Option (GV X) :=
    match fs with
    | [] => some (.struct 0 [])
    | (n, .name p t) :: fs =>
      match (if elemNm t [n!"int64"] then some (.int 0) else if t == n!"bool" then some (.bool false) else H.zero p t), zeroFields fs with
      | some v, some (.struct _ vs) => some (.struct 0 ((n, v) :: vs))
      | _, _ => none
    | _ => none

/-- Assign to the fields of a literal. -/
def setFields (v : GV X) : List (Nm × GV X) → Option (GV X)
  | [] => some v
  | (f, w) :: l => (GV.setPath w v [f]).bind fun v' => setFields v' l

/-- The variable that a selection begins with. -/
def Expr.root : Expr → Option Nm
  | .var n => some n
  | .sel e _ => e.root
  | _ => none

mutual
/-- The variables a statement declares, in blocks of it too. -/
def Stmt.declares : Stmt → List Nm
  | .define ns _ => ns
  | .decl ns _ _ => ns
  | .const ns _ => ns
  | .if_ i _ t e => i.declares ++ t.declares ++ e.declares
  | .for_ i _ p b => i.declares ++ p.declares ++ b.declares
  | .range k v _ b => k :: v :: b.declares
  | .switch i _ cs => i.declares ++ cs.declares
  | .select cs => cs.declares
  | .block ss => ss.declares
  | .group ss => ss.declares
  | _ => []
/-- Same. -/
def Stmts.declares : Stmts → List Nm
  | .nil => []
  | .cons s ss => s.declares ++ ss.declares
/-- Same. -/
def Cases.declares : Cases → List Nm
  | .nil => []
  | .cons _ c b cs => c.declares ++ b.declares ++ cs.declares
end

mutual
/-- Does the expression take an address of one of these variables or contain a function literal? -/
def Expr.escapes (ns : List Nm) : Expr → Bool
  | .un o a => (o == n!"&" && !(match a with | .lit _ _ => true | a => match a.root with | some n => !elemNm n ns | none => false)) || a.escapes ns
  | .func _ _ _ => true
  | .sel e _ => e.escapes ns
  | .idx e i => e.escapes ns || i.escapes ns
  | .slice e lo hi => e.escapes ns || lo.escapes ns || hi.escapes ns
  | .call f as _ => f.escapes ns || as.escapes ns
  | .bin _ a b => a.escapes ns || b.escapes ns
  | .lit _ fs => fs.escapes ns
  | .assert e _ => e.escapes ns
  | _ => false
/-- Same, for lists. -/
def Exprs.escapes (ns : List Nm) : Exprs → Bool
  | .nil => false
  | .cons e es => e.escapes ns || es.escapes ns
/-- Same, for elements. -/
def Fields.escapes (ns : List Nm) : Fields → Bool
  | .nil => false
  | .cons k v fs => k.escapes ns || v.escapes ns || fs.escapes ns
/-- Same, for statements. -/
def Stmt.escapes (ns : List Nm) : Stmt → Bool
  | .expr e => e.escapes ns
  | .define _ rs => rs.escapes ns
  | .assign ls rs => ls.escapes ns || rs.escapes ns
  | .opAssign _ l r => l.escapes ns || r.escapes ns
  | .send c e => c.escapes ns || e.escapes ns
  | .decl _ _ rs => rs.escapes ns
  | .const _ rs => rs.escapes ns
  | .if_ i c t e => i.escapes ns || c.escapes ns || t.escapes ns || e.escapes ns
  | .for_ i c p b => i.escapes ns || c.escapes ns || p.escapes ns || b.escapes ns
  | .range _ _ e b => e.escapes ns || b.escapes ns
  | .switch i t cs => i.escapes ns || t.escapes ns || cs.escapes ns
  | .select cs => cs.escapes ns
  | .ret es => es.escapes ns
  | .defer e => e.escapes ns
  | .go e => e.escapes ns
  | .block ss => ss.escapes ns
  | .group ss => ss.escapes ns
  | .brk => false
  | .cont => false
/-- Same. -/
def Stmts.escapes (ns : List Nm) : Stmts → Bool
  | .nil => false
  | .cons s ss => s.escapes ns || ss.escapes ns
/-- Same. -/
def Cases.escapes (ns : List Nm) : Cases → Bool
  | .nil => false
  | .cons es c b cs => es.escapes ns || c.escapes ns || b.escapes ns || cs.escapes ns
end

/-- Can a variable of the block be used after it? -/
def Stmts.leaks (ss : Stmts) : Bool := ss.escapes ss.declares

/-- Same, with variables declared before it. -/
def Stmts.leaksIn (ss : Stmts) (ns : List Nm) : Bool := ss.escapes (ns ++ ss.declares)

/-- Same. -/
def Cases.leaks (cs : Cases) : Bool := cs.escapes cs.declares

/-- Same, for a statement with blocks. -/
def Stmt.leaks (s : Stmt) : Bool := s.escapes s.declares

/-- The end of a block that began with `n` variables. -/
def Store.leave (s : Store X) (esc : Bool) (n : Nat) : Store X := if esc then s else { s with vars := s.vars.take n }

/-- How a statement can end: going on, returning, `break`, `continue`. -/
structure Ctl (X R : Type) where
  ret : List (GV X) → Store X → R
  brk : Store X → R
  cont : Store X → R

/-- Calls of closures. -/
abbrev CallC (X R : Type) := GV X → List (GV X) → Store X → (List (GV X) → Store X → R) → R

/-- Options in continuation passing style. -/
def opt {α : Type} (H : Host X R) (o : Option α) (k : α → R) : R :=
  match o with
  | some a => k a
  | none => H.ctl.stuck

/-- A condition. -/
def branch (H : Host X R) (v : GV X) (t e : R) : R :=
  match v with
  | .bool b => bif b then t else e
  | _ => H.ctl.stuck

/-- The bytes of a literal. -/
def litBytes (s : List Nat) : List UInt8 := s.map UInt8.ofNat

/-- One value of a call. -/
def one (H : Host X R) (k : GV X → Store X → R) : List (GV X) → Store X → R
  | [v], s => k v s
  | _, _ => H.ctl.stuck

/-- Builtin functions and conversions. -/
def builtin (f : Nm) (args : List (GV X)) : Option (GV X) :=
  if f == n!"append" then
    match args with
    | a :: rest => appendV a rest
    | [] => none
  else
    match args with
    | [a] =>
      if f == n!"len" then (lenV a).map .int
      else if f == n!"string" then some a
      else if f == n!"int64" then some a
      else if f == n!"int" then some a
      else none
    | _ => none

/-- Is it the name of a builtin function or conversion? -/
def isBuiltin (f : Nm) : Bool := elemNm f [n!"len", n!"string", n!"int64", n!"int", n!"append"]

/-- `append(v, w...)` -/
def spreadArgs : List (GV X) → Bool → Option (List (GV X))
  | vs, false => some vs
  | [], true => none
  | [v], true => v.elems
  | v :: vs, true => (spreadArgs vs true).map fun ws => v :: ws

/-- New variables for names (0 and `_` have none). -/
def bindNew : List Nm → List (GV X) → Env → Store X → Option (Env × Store X)
  | [], [], e, s => some (e, s)
  | n :: ns, v :: vs, e, s => if n == n!"_" || n == 0 then bindNew ns vs e s else bindNew ns vs (e.push n s.vars.length) (s.newVar v)
  | _, _, _, _ => none

/-- `ns := vs`: names of the innermost scope are assigned to, others are new. -/
def defineV : List Nm → List (GV X) → Env → Store X → Option (Env × Store X)
  | [], [], e, s => some (e, s)
  | n :: ns, v :: vs, e, s =>
    if n == n!"_" then defineV ns vs e s
    else
      match assoc n (e.headD []) with
      | some i => (s.save (.var i) [] v).bind fun s' => defineV ns vs e s'
      | none => defineV ns vs (e.push n s.vars.length) (s.newVar v)
  | _, _, _, _ => none

/-- Targets of an assignment. -/
inductive Target (X : Type) where
  | blank
  | at (r : Root) (p : List Nm)
  /-- a field of an object of the host -/
  | ext (x : X) (f : Nm)

/-- Assign to targets. -/
def assignK (H : Host X R) : List (Target X) → List (GV X) → Store X → (Store X → R) → R
  | [], [], s, k => k s
  | .blank :: ts, _ :: vs, s, k => assignK H ts vs s k
  | .at r p :: ts, v :: vs, s, k =>
    match s.save r p v with
    | some s' => assignK H ts vs s' k
    | none => H.ctl.stuck
  | .ext x f :: ts, v :: vs, s, k => H.setField x f v s fun s' => assignK H ts vs s' k
  | _, _, _, _ => H.ctl.stuck

/-- `v.f`, in the store or of an object of the host. -/
def selK (H : Host X R) (s : Store X) (v : GV X) (f : Nm) (k : GV X → Store X → R) : R :=
  match v with
  | .ext x => H.field x f s k
  | v =>
    match selV s v f with
    | some w => k w s
    | none => H.ctl.stuck

/-- `v[w]`, of a slice or of a map of the host. -/
def idxK (H : Host X R) (v w : GV X) (s : Store X) (k : GV X → Store X → R) : R :=
  match v with
  | .ext x => H.idx x w s k
  | v => opt H (idxV v w) fun x => k x s

/-- Does a value have the type of a type assertion? Pointers to structs only; objects of the host, among them its errors, have none of the types
that are asked for. -/
def assertV (v : GV X) (t : Ty) : Bool :=
  match v, t with
  | .imm (.struct n _), .ptr (.name _ m) => n == m
  | _, _ => false

/-- Type of the elements of a slice type. -/
def Ty.elem : Ty → Ty
  | .slice t => t
  | t => t

/-- Name of a type, for structs. -/
def Ty.nm : Ty → Nm
  | .name _ n => n
  | _ => 0

/-- Places. -/
def evalL (H : Host X R) : Expr → Env → Store X → (Target X → Store X → R) → R
  | .var n, e, s, k => if n == n!"_" then k .blank s else opt H (e.get n) fun i => k (.at (.var i) []) s
  | .sel a f, e, s, k =>
    evalL H a e s fun t s =>
      match t with
      | .blank => H.ctl.stuck
      | .ext x g => H.field x g s fun v s => match v with | .ext y => k (.ext y f) s | _ => H.ctl.stuck
      | .at r p =>
        match s.load r p with
        | some (.ptr r' p') => k (.at r' (p' ++ [f])) s
        | some (.struct _ _) => k (.at r (p ++ [f])) s
        | some (.ext x) => k (.ext x f) s
        | _ => H.ctl.stuck
  | _, _, _, _ => H.ctl.stuck

/-- A bound of a slice expression, given how to evaluate it if it is there. -/
def boundK (H : Host X R) (a : Expr) (d : Option Int) (ev : (GV X → Store X → R) → R) (s : Store X) (k : Int → Store X → R) : R :=
  match a with
  | .absent => opt H d fun n => k n s
  | _ => ev fun w s => match w with | .int l => k l s | _ => H.ctl.stuck

/-- An element whose type is left out: a struct, or a pointer to a new one. -/
def elemK (H : Host X R) (t : Ty) (l : List (Nm × GV X)) (s : Store X) (k : GV X → Store X → R) : R :=
  match t with
  | .ptr u => opt H ((zeroV H u).bind fun z => setFields z l) fun v => k (.ptr (.obj s.objs.length) []) { s with objs := s.objs ++ [v] }
  | u => opt H ((zeroV H u).bind fun z => setFields z l) fun v => k v s

mutual
/-- Expressions. -/
def evalE (H : Host X R) (C : CallC X R) : Expr → Env → Store X → (GV X → Store X → R) → R
  | .absent, _, _, _ => H.ctl.stuck
  | .var n, e, s, k =>
    match e.get n with
    | some i => opt H (nth s.vars i) fun v => k v s
    | none =>
      if n == n!"nil" then k .nil s
      else if n == n!"true" then k (.bool true) s
      else if n == n!"false" then k (.bool false) s
      else opt H (H.glob 0 n) fun v => k v s
  | .num n, _, s, k => k (.int n) s
  | .flt _ _, _, s, k => k .tok s
  | .str b, _, s, k => k (.bytes (litBytes b)) s
  | .sel a f, e, s, k =>
    match a with
    | .var p =>
      match e.get p with
      | some i => opt H (nth s.vars i) fun v => selK H s v f k
      | none => opt H (H.glob p f) fun v => k v s
    | _ => evalE H C a e s fun v s => selK H s v f k
  | .idx a i, e, s, k => evalE H C a e s fun v s => evalE H C i e s fun w s => idxK H v w s k
  | .slice a lo hi, e, s, k =>
    evalE H C a e s fun v s => boundK H lo (some 0) (evalE H C lo e s) s fun l s => boundK H hi (lenV v) (evalE H C hi e s) s fun h s =>
      opt H (sliceV v l h) fun x => bif x.1 then k x.2 s else H.ctl.stuck
  | .call f as sp, e, s, k =>
    match f, as with
    | .var n, .cons (.ty (.chan _)) (.cons c .nil) =>
      if n == n!"make" then evalE H C c e s fun v s => match v with | .int i => opt H (H.mkChan i) fun v => k v s | _ => H.ctl.stuck else H.ctl.stuck
    | f, as => evalCall H C f (evalEs H C as e) sp e s (one H k)
  | .bin o a b, e, s, k =>
    if o == n!"&&" then evalE H C a e s fun v s => branch H v (evalE H C b e s k) (k (.bool false) s)
    else if o == n!"||" then evalE H C a e s fun v s => branch H v (k (.bool true) s) (evalE H C b e s k)
    else evalE H C a e s fun v s => evalE H C b e s fun w s => opt H (binV o v w) fun x => k x s
  | .un o a, e, s, k =>
    if o == n!"&" then
      match a with
      | .lit _ _ => evalE H C a e s fun v s =>
        match H.alloc v with
        | some al => al fun p => k p s
        | none => k (.ptr (.obj s.objs.length) []) { s with objs := s.objs ++ [v] }
      | _ => evalL H a e s fun t s => match t with | .at r p => k (.ptr r p) s | _ => H.ctl.stuck
    else if o == n!"!" then evalE H C a e s fun v s => match v with | .bool b => k (.bool (!b)) s | _ => H.ctl.stuck
    else if o == n!"-" then evalE H C a e s fun v s => match v with | .int n => k (.int (-n)) s | _ => H.ctl.stuck
    else if o == n!"*" then evalE H C a e s fun v s =>
      match v with | .imm w => k w s | .ptr r p => opt H (s.load r p) fun w => k w s | _ => H.ctl.stuck
    else if o == n!"<-" then evalE H C a e s fun v s => H.select [.recv v] s fun _ vs s =>
      match vs with | w :: _ => k w s | [] => H.ctl.stuck
    else H.ctl.stuck
  | .lit t fs, e, s, k =>
    match t with
    | .slice t => evalElems H C t fs e s fun vs s => k (.list vs) s
    | _ => evalFields H C fs e s fun l s => opt H ((zeroV H t).bind fun z => setFields z l) fun v => k v s
  | .func ps rs b, e, s, k => k (.clos ps rs b e) s
  | .ty _, _, _, _ => H.ctl.stuck
  | .assert _ _, _, _, _ => H.ctl.stuck
/-- The elements of a slice literal. -/
def evalElems (H : Host X R) (C : CallC X R) : Ty → Fields → Env → Store X → (List (GV X) → Store X → R) → R
  | _, .nil, _, s, k => k [] s
  | t, .cons _ (.lit .elided gs) fs, e, s, k =>
    evalFields H C gs e s fun l s => elemK H t l s fun v s => evalElems H C t fs e s fun vs s => k (v :: vs) s
  | t, .cons _ v fs, e, s, k => evalE H C v e s fun v s => evalElems H C t fs e s fun vs s => k (v :: vs) s
/-- The fields of a struct literal. Entries of a map literal with strings as keys have the name 0; only maps whose contents are of no interest have it. -/
def evalFields (H : Host X R) (C : CallC X R) : Fields → Env → Store X → (List (Nm × GV X) → Store X → R) → R
  | .nil, _, s, k => k [] s
  | .cons key v fs, e, s, k =>
    match key with
    | .var f => evalE H C v e s fun w s => evalFields H C fs e s fun l s => k ((f, w) :: l) s
    | .str _ => evalE H C v e s fun w s => evalFields H C fs e s fun l s => k ((0, w) :: l) s
    | _ => H.ctl.stuck
/-- Calls, with any number of results. `as` evaluates the arguments. -/
def evalCall (H : Host X R) (C : CallC X R) : Expr → (Store X → (List (GV X) → Store X → R) → R) → Bool → Env → Store X → (List (GV X) → Store X → R) → R
  | .var f, as, sp, e, s, k =>
    match e.get f with
    | some i => as s fun vs s => opt H (spreadArgs vs sp) fun vs => opt H (nth s.vars i) fun g =>
        match g with
        | .fn n => H.func 0 n vs s k
        | g => C g vs s k
    | none =>
      if f == n!"make" then k [.list []] s
      else as s fun vs s => opt H (spreadArgs vs sp) fun vs =>
        if isBuiltin f then match builtin f vs with | some v => k [v] s | none => H.func 0 f vs s k else H.func 0 f vs s k
  | .ty _, as, _, _, s, k => as s k
  | .sel (.var p) m, as, sp, e, s, k =>
    match e.get p with
    | some i => opt H (nth s.vars i) fun v => as s fun vs s => opt H (spreadArgs vs sp) fun vs => H.meth v m vs s k
    | none => as s fun vs s => opt H (spreadArgs vs sp) fun vs =>
      match H.hof p m with
      | some h => h vs (fun f s k => C f [] s k) s k
      | none => H.func p m vs s k
  | .sel a m, as, sp, e, s, k => evalE H C a e s fun v s => as s fun vs s => opt H (spreadArgs vs sp) fun vs => H.meth v m vs s k
  | .func ps rs b, as, sp, e, s, k => as s fun vs s => opt H (spreadArgs vs sp) fun vs => C (.clos ps rs b e) vs s k
  | _, _, _, _, _, _ => H.ctl.stuck
/-- Lists of expressions. -/
def evalEs (H : Host X R) (C : CallC X R) : Exprs → Env → Store X → (List (GV X) → Store X → R) → R
  | .nil, _, s, k => k [] s
  | .cons a as, e, s, k => evalE H C a e s fun v s => evalEs H C as e s fun vs s => k (v :: vs) s
end

/-- The values on the right of an assignment or `return`: a single call may have many, a type assertion has two (with one, which may panic, it is
stuck). -/
def evalRhs (H : Host X R) (C : CallC X R) (es : Exprs) (e : Env) (s : Store X) (k : List (GV X) → Store X → R) : R :=
  match es with
  | .cons (.call f as sp) .nil => evalCall H C f (evalEs H C as e) sp e s k
  | .cons (.assert a t) .nil => evalE H C a e s fun v s => bif assertV v t then k [v, .bool true] s else k [.nil, .bool false] s
  | es => evalEs H C es e s k

/-- Places of a list. -/
def evalLs (H : Host X R) : Exprs → Env → Store X → (List (Target X) → Store X → R) → R
  | .nil, _, s, k => k [] s
  | .cons a as, e, s, k => evalL H a e s fun t s => evalLs H as e s fun ts s => k (t :: ts) s

/-- `defer` and the call it is given. -/
def deferCall (H : Host X R) (C : CallC X R) (a : Expr) (e : Env) (s : Store X) (k : Store X → R) : R :=
  match a with
  | .call (.func ps rs b) as _ => evalEs H C as e s fun vs s => k { s with defers := .clos (.clos ps rs b e) vs :: s.defers }
  | .call (.sel (.var p) m) as _ =>
    match e.get p with
    | some i => opt H (nth s.vars i) fun v => evalEs H C as e s fun vs s => k { s with defers := .meth v m vs :: s.defers }
    | none => evalEs H C as e s fun vs s => k { s with defers := .func p m vs :: s.defers }
  | .call (.sel a m) as _ => evalE H C a e s fun v s => evalEs H C as e s fun vs s => k { s with defers := .meth v m vs :: s.defers }
  | .call (.var f) as _ => opt H ((e.get f).bind (nth s.vars)) fun v => evalEs H C as e s fun vs s => k { s with defers := .meth v n!"()" vs :: s.defers }
  | _ => H.ctl.stuck

/-- `go` and the call it is given. -/
def goStmt (H : Host X R) (C : CallC X R) (a : Expr) (e : Env) (s : Store X) (k : Store X → R) : R :=
  match a with
  | .call (.func ps rs b) as _ => evalEs H C as e s fun vs s => H.go (fun s' k' => C (.clos ps rs b e) vs s' fun _ s => k' s) s k
  | .call (.sel a m) as _ => evalE H C a e s fun v s => evalEs H C as e s fun vs s => H.go (fun s' k' => H.meth v m vs s' fun _ s => k' s) s k
  | .call (.var f) as _ => opt H ((e.get f).bind (nth s.vars)) fun g => evalEs H C as e s fun vs s => H.go (fun s' k' => C g vs s' fun _ s => k' s) s k
  | _ => H.ctl.stuck

/-- The channels and values of the cases of a `select`. -/
def evalComms (H : Host X R) (C : CallC X R) : Cases → Env → Store X → (List (Comm X) → Store X → R) → R
  | .nil, _, s, k => k [] s
  | .cons _ c _ cs, e, s, k =>
    match c with
    | .nil => evalComms H C cs e s fun ms s => k (.dflt :: ms) s
    | .cons (.expr (.un _ a)) .nil => evalE H C a e s fun v s => evalComms H C cs e s fun ms s => k (.recv v :: ms) s
    | .cons (.define _ (.cons (.un _ a) .nil)) .nil => evalE H C a e s fun v s => evalComms H C cs e s fun ms s => k (.recv v :: ms) s
    | .cons (.send ch a) .nil =>
      evalE H C ch e s fun v s => evalE H C a e s fun w s => evalComms H C cs e s fun ms s => k (.send v w :: ms) s
    | _ => H.ctl.stuck

/-- The variables of a case that receives. -/
def commBind (c : Stmts) (vs : List (GV X)) (e : Env) (s : Store X) : Option (Env × Store X) :=
  match c with
  | .cons (.define ns _) .nil => bindNew ns (vs.take ns.length) e s
  | _ => some (e, s)

mutual
/-- Statements. -/
def exec (H : Host X R) (C : CallC X R) (K : Ctl X R) : Stmt → Env → Store X → (Env → Store X → R) → R
  | .expr a, e, s, k =>
    match a with
    | .call f as sp => evalCall H C f (evalEs H C as e) sp e s fun _ s => k e s
    | _ => H.ctl.stuck
  | .define ns rs, e, s, k => evalRhs H C rs e s fun vs s => opt H (defineV ns vs e s) fun x => k x.1 x.2
  | .assign ls rs, e, s, k =>
    match ls with
    | .cons (.idx a i) .nil => evalE H C a e s fun m s => evalE H C i e s fun w s => evalRhs H C rs e s fun vs s =>
      match m, vs with
      | .ext x, [v] => H.setIdx x w v s fun s => k e s
      | _, _ => H.ctl.stuck
    | ls => evalLs H ls e s fun ts s => evalRhs H C rs e s fun vs s => assignK H ts vs s fun s => k e s
  | .opAssign o l r, e, s, k =>
    evalL H l e s fun t s => evalE H C r e s fun w s =>
      match t with
      | .at p q => opt H (s.load p q) fun v => opt H (binV o v w) fun x => opt H (s.save p q x) fun s => k e s
      | .ext x f => H.field x f s fun v s => opt H (binV o v w) fun y => H.setField x f y s fun s => k e s
      | .blank => H.ctl.stuck
  | .send c a, e, s, k => evalE H C c e s fun v s => evalE H C a e s fun w s => H.select [.send v w] s fun _ _ s => k e s
  | .decl ns t rs, e, s, k =>
    match rs with
    | .nil => opt H (zeroV H t) fun z => opt H (bindNew ns (ns.map fun _ => z) e s) fun x => k x.1 x.2
    | rs => evalRhs H C rs e s fun vs s => opt H (bindNew ns vs e s) fun x => k x.1 x.2
  | .const ns rs, e, s, k => evalRhs H C rs e s fun vs s => opt H (bindNew ns vs e s) fun x => k x.1 x.2
  | .if_ i c t f, e, s, k =>
    execs H C K i ([] :: e) s fun e' s' => evalE H C c e' s' fun v s' =>
      branch H v
        (execs H C K t ([] :: e') s' fun _ s'' =>
          k e (s''.leave (Stmt.if_ i c t f).leaks s.vars.length))
        (execs H C K f ([] :: e') s' fun _ s'' =>
          k e (s''.leave (Stmt.if_ i c t f).leaks s.vars.length))
  | .for_ i c p b, e, s, k =>
    execs H C K i ([] :: e) s fun e' s' =>
      H.ctl.loop (fun s k => match c with | .absent => k (.bool true) s | c => evalE H C c e' s k)
        (fun s kc kb =>
          execs H C
            { ret := K.ret
              brk := fun s' => kb (s'.leave b.leaks s.vars.length)
              cont := fun s' => execs H C K p e' (s'.leave b.leaks s.vars.length) fun _ s' => kc s' } b ([] :: e') s
            fun _ s' => execs H C K p e' (s'.leave b.leaks s.vars.length) fun _ s' => kc s')
        (fun s' => k e (s'.leave (Stmt.for_ i c p b).leaks s.vars.length)) H.fuel s'
  | .range kn vn a b, e, s, k =>
    evalE H C a e s fun v s => match v with
    | .ext x =>
      match H.entries x with
      | some es => es fun vs =>
        H.ctl.range
          (fun _ w s kc kb =>
            match w with
            | .list [a, b'] =>
              opt H (bindNew [kn, vn] [a, b'] ([] :: e) s) fun x =>
                execs H C
                  { ret := K.ret
                    brk := fun s' => kb (s'.leave (b.leaksIn [kn, vn]) s.vars.length)
                    cont := fun s' => kc (s'.leave (b.leaksIn [kn, vn]) s.vars.length) } b ([] :: x.1) x.2
                  fun _ s' => kc (s'.leave (b.leaksIn [kn, vn]) s.vars.length)
            | _ => H.ctl.stuck)
          (fun s => k e s) vs 0 s
      | none =>
      H.ctl.loop (fun s k => k (.bool true) s)
        (fun s kc kb => H.select [.recv v] s fun _ rs s =>
          match rs with
          | [w, .bool ok] => bif ok then
              (opt H (bindNew [kn] [w] ([] :: e) s) fun x =>
                execs H C
                  { ret := K.ret
                    brk := fun s' => kb (s'.leave (b.leaksIn [kn, vn]) s.vars.length)
                    cont := fun s' => kc (s'.leave (b.leaksIn [kn, vn]) s.vars.length) } b ([] :: x.1) x.2
                  fun _ s' => kc (s'.leave (b.leaksIn [kn, vn]) s.vars.length))
            else kb s
          | _ => H.ctl.stuck)
        (fun s => k e s) H.fuel s
    | v => opt H v.elems fun vs =>
      H.ctl.range
        (fun i w s kc kb =>
          opt H (bindNew [kn, vn] [.int i, w] ([] :: e) s) fun x =>
            execs H C
              { ret := K.ret
                brk := fun s' => kb (s'.leave (b.leaksIn [kn, vn]) s.vars.length)
                cont := fun s' => kc (s'.leave (b.leaksIn [kn, vn]) s.vars.length) } b ([] :: x.1) x.2
              fun _ s' => kc (s'.leave (b.leaksIn [kn, vn]) s.vars.length))
        (fun s => k e s) vs 0 s
  | .switch _ _ _, _, _, _ => H.ctl.stuck
  | .select cs, e, s, k => evalComms H C cs e s fun ms s' => H.select ms s' fun i vs s' =>
      execCase H C { K with brk := fun s'' => k e (s''.leave cs.leaks s.vars.length) } cs i vs ([] :: e) s' fun s'' =>
        k e (s''.leave cs.leaks s.vars.length)
  | .ret es, e, s, _ => evalRhs H C es e s K.ret
  | .defer a, e, s, k => deferCall H C a e s fun s => k e s
  | .go a, e, s, k => goStmt H C a e s fun s => k e s
  | .block ss, e, s, k => execs H C K ss ([] :: e) s fun _ s' => k e (s'.leave ss.leaks s.vars.length)
  | .group ss, e, s, k => execs H C K ss e s k
  | .brk, _, s, _ => K.brk s
  | .cont, _, s, _ => K.cont s
/-- Lists of statements. -/
def execs (H : Host X R) (C : CallC X R) (K : Ctl X R) : Stmts → Env → Store X → (Env → Store X → R) → R
  | .nil, e, s, k => k e s
  | .cons a as, e, s, k => exec H C K a e s fun e s => execs H C K as e s k
/-- The chosen case of a `select`, with what was received. -/
def execCase (H : Host X R) (C : CallC X R) (K : Ctl X R) : Cases → Nat → List (GV X) → Env → Store X → (Store X → R) → R
  | .nil, _, _, _, _, _ => H.ctl.stuck
  | .cons _ c b cs, i, vs, e, s, k =>
    match i with
    | 0 => opt H (commBind c vs e s) fun x => execs H C K b ([] :: x.1) x.2 fun _ s => k s
    | i + 1 => execCase H C K cs i vs e s k
end

/-- The deferred calls, last first. -/
def runDefers (H : Host X R) (C : CallC X R) : List (Dfr X) → Store X → (Store X → R) → R
  | [], s, k => k s
  | .clos f as :: ds, s, k => C f as s fun _ s => runDefers H C ds s k
  | .meth v m as :: ds, s, k => H.meth v m as s fun _ s => runDefers H C ds s k
  | .func p m as :: ds, s, k => H.func p m as s fun _ s => runDefers H C ds s k

/-- Values of the named results. -/
def readVars (s : Store X) : List Nat → Option (List (GV X))
  | [] => some []
  | i :: is => (nth s.vars i).bind fun v => (readVars s is).map fun vs => v :: vs

/-- Zero values of results. -/
def zerosV (H : Host X R) : List (Nm × Ty) → Option (List (GV X))
  | [] => some []
  | (_, t) :: l => (zeroV H t).bind fun v => (zerosV H l).map fun vs => v :: vs

/-- Results: a name for every result, `res0` and so on for those that have none (0 or `_`), so that `return` can set them. -/
def resultNames : List (Nm × Ty) → Nat → List Nm
  | [], _ => []
  | (n, _) :: l, i => (if n == 0 || n == n!"_" then n!"res " + i else n) :: resultNames l (i + 1)

/-- The body of a function with its parameters: results are variables, `return` sets them, then the deferred calls run, then the
results are read. -/
def runBody (H : Host X R) (C : CallC X R) (ps rs : List (Nm × Ty)) (body : Stmts) (env : Env) (args : List (GV X)) (s : Store X)
    (k : List (GV X) → Store X → R) : R :=
  opt H (packArgs ps args) fun args =>
  opt H (bindNew (ps.map (·.1)) args ([] :: env) s) fun x =>
  opt H (zerosV H rs) fun zs =>
  opt H (bindNew (resultNames rs 0) zs x.1 x.2) fun y =>
    let slots := (List.range rs.length).map fun i => x.2.vars.length + i
    let finish := fun (s' : Store X) =>
      runDefers H C s'.defers { s' with defers := [] } fun s'' =>
        opt H (readVars s'' slots) fun vs => k vs { s'' with defers := s.defers }
    let ret := fun (vs : List (GV X)) (s' : Store X) =>
      match vs with
      | [] => finish s'
      | vs => opt H (packArgs rs vs) fun vs => assignK H (slots.map fun i => .at (.var i) []) vs s' finish
    execs H C { ret := ret, brk := fun _ => H.ctl.stuck, cont := fun _ => H.ctl.stuck } body y.1 { y.2 with defers := [] } fun _ s' =>
      if rs.length == 0 then finish s' else H.ctl.stuck

/-- Calls of closures, nested at most `n` deep. -/
def callClos (H : Host X R) : Nat → CallC X R
  | 0 => fun _ _ _ _ => H.ctl.stuck
  | n + 1 => fun f args s k =>
    match f with
    | .clos ps rs b env => runBody H (callClos H n) ps rs b env args s k
    | .ext x => H.meth (.ext x) n!"()" args s k
    | _ => H.ctl.stuck

/-- A function applied to its receiver and arguments. -/
def FuncDecl.run (f : FuncDecl) (H : Host X R) (args : List (GV X)) (k : List (GV X) → Store X → R) : R :=
  runBody H (callClos H 3) (f.recv ++ f.params) f.results f.body [] args {} k

end Verif.Go
