import Verif.Model.Bytes
/-!
# Syntax of a fragment of Go: tokens, trees, lexer and parser

Used to read functions of `/repo` from their source text (`Model/GoText.lean`). The lexer inserts semicolons as the Go specification
says; the parser is recursive descent with Go's five levels of operators. What it does not know is a parse error. Identifiers and
operators are numbers, the base-256 value of their text, because the kernel compares numbers fast; `n!"…"` is the number of a text.
Not in the fragment: runes, floats, labels, type declarations, generic instantiation in expressions other than composite literals; a type argument `[T]` of a type is dropped.
-/

namespace Verif.Go

/-- A name: the base-256 number of its text. -/
abbrev Nm := Nat

open Lean in
/-- The number of a text. -/
macro:max "n!" s:str : term =>
  return Syntax.mkNumLit (toString (s.getString.toList.foldl (fun n c => 256 * n + c.toNat) 0))

/-- Tokens. Keywords are `id`. -/
inductive Tok where
  | id (n : Nm)
  | num (n : Nat)
  /-- `m / 10^e` -/
  | flt (m e : Nat)
  | str (s : List Nat)
  | op (n : Nm)
  | nl
deriving DecidableEq, Repr

/-- Types. -/
inductive Ty where
  /-- `pkg.name`; `pkg = 0` without package -/
  | name (pkg : Nm) (n : Nm)
  | ptr (t : Ty)
  | slice (t : Ty)
  | map (k v : Ty)
  | chan (t : Ty)
  | func
  | struct (fields : List (Nm × Ty))
  | iface
  /-- the last parameter of a variadic function -/
  | variadic (t : Ty)
  /-- the type left out inside a composite literal -/
  | elided
deriving Repr

mutual
/-- Expressions. -/
inductive Expr where
  /-- left out, as in `a[:n]` -/
  | absent
  | var (n : Nm)
  | num (n : Nat)
  /-- `m / 10^e` -/
  | flt (m e : Nat)
  | str (s : List Nat)
  | sel (e : Expr) (f : Nm)
  | idx (e i : Expr)
  | slice (e lo hi : Expr)
  | call (f : Expr) (args : Exprs) (spread : Bool)
  | bin (op : Nm) (a b : Expr)
  | un (op : Nm) (a : Expr)
  | lit (t : Ty) (fs : Fields)
  | func (params results : List (Nm × Ty)) (body : Stmts)
  /-- a type where an expression can be, as in `[]byte(x)` and `make(T)` -/
  | ty (t : Ty)
  | assert (e : Expr) (t : Ty)
/-- Lists of expressions. -/
inductive Exprs where
  | nil
  | cons (e : Expr) (es : Exprs)
/-- The elements of a composite literal; the key may be `absent`. -/
inductive Fields where
  | nil
  | cons (k v : Expr) (fs : Fields)
/-- Statements. -/
inductive Stmt where
  | expr (e : Expr)
  | define (lhs : List Nm) (rhs : Exprs)
  | assign (lhs rhs : Exprs)
  /-- `a += b` and so on; `a++` is `a += 1` -/
  | opAssign (op : Nm) (lhs rhs : Expr)
  | send (c e : Expr)
  | decl (ns : List Nm) (t : Ty) (rhs : Exprs)
  | const (ns : List Nm) (rhs : Exprs)
  | if_ (init : Stmts) (cond : Expr) (thn els : Stmts)
  | for_ (init : Stmts) (cond : Expr) (post : Stmts) (body : Stmts)
  | range (k v : Nm) (e : Expr) (body : Stmts)
  | switch (init : Stmts) (tag : Expr) (cases : Cases)
  | select (cases : Cases)
  | ret (es : Exprs)
  | defer (e : Expr)
  | go (e : Expr)
  | block (ss : Stmts)
  /-- declarations in parentheses -/
  | group (ss : Stmts)
  | brk
  | cont
/-- Lists of statements. -/
inductive Stmts where
  | nil
  | cons (s : Stmt) (ss : Stmts)
/-- The cases of `switch` (conditions) and `select` (one statement). `default` has neither. -/
inductive Cases where
  | nil
  | cons (es : Exprs) (comm : Stmts) (body : Stmts) (cs : Cases)
end

deriving instance Repr for Expr, Exprs, Fields, Stmt, Stmts, Cases

/-- A function or method. -/
structure FuncDecl where
  name : Nm
  recv : List (Nm × Ty)
  params : List (Nm × Ty)
  results : List (Nm × Ty)
  body : Stmts
deriving Repr

/-! ## Lexer -/

/-- Is the code between two others? -/
def between (lo hi c : Nat) : Bool := Nat.ble lo c && Nat.ble c hi

/-- Digits. -/
def isDigit (c : Nat) : Bool := between 48 57 c

/-- Letters, digits and `_`. -/
def isWordCode (c : Nat) : Bool := between 97 122 c || between 65 90 c || isDigit c || c == 95

/-- The operators of more than one character, and their beginnings. -/
def longOps : List Nm :=
  [n!":=", n!"==", n!"!=", n!"<=", n!">=", n!"&&", n!"||", n!"++", n!"--", n!"+=", n!"-=", n!"*=", n!"<<", n!">>", n!"<-", n!"..", n!"...",
   n!"|=", n!"&=", n!"//", n!"/*"]

/-- Operators of one character. -/
def shortOps : List Nm :=
  [n!"+", n!"-", n!"*", n!"/", n!"%", n!"&", n!"|", n!"<", n!">", n!"=", n!"!", n!"(", n!")", n!"[", n!"]", n!"{", n!"}", n!",",
   n!";", n!".", n!":"]

/-- Member of a list of numbers. -/
def elemNm (n : Nm) : List Nm → Bool
  | [] => false
  | m :: ms => m == n || elemNm n ms

/-- What the lexer is in. -/
inductive LexSt where
  | none
  | word (acc : Nm)
  | num (n : Nat)
  /-- after the point of a number with one -/
  | flt (m e : Nat)
  /-- in `"…"`; the text is kept backwards -/
  | str (acc : List Nat)
  /-- after a backslash -/
  | esc (acc : List Nat)
  /-- in `\x..`; `k` digits are missing -/
  | hex (acc : List Nat) (k v : Nat)
  | raw (acc : List Nat)
  | op (acc : Nm)
  | line
  | block
  | blockStar

/-- One code outside of any lexeme. -/
def lexStart (c : Nat) : Option (LexSt × List Tok) :=
  if c == 32 || c == 9 then some (.none, [])
  else if c == 10 then some (.none, [.nl])
  else if isDigit c then some (.num (c - 48), [])
  else if isWordCode c then some (.word c, [])
  else if c == 34 then some (.str [], [])
  else if c == 96 then some (.raw [], [])
  else if elemNm c shortOps then some (.op c, [])
  else none

/-- A lexeme has ended before `c`. -/
def lexNext (t : Tok) (c : Nat) : Option (LexSt × List Tok) :=
  (lexStart c).map fun x => (x.1, t :: x.2)

/-- Escape sequences. -/
def escOf (c : Nat) : Option Nat :=
  if c == 110 then some 10 else if c == 116 then some 9 else if c == 34 then some 34 else if c == 92 then some 92 else none

/-- Hexadecimal digits. -/
def hexOf (c : Nat) : Option Nat :=
  if isDigit c then some (c - 48) else if between 97 102 c then some (c - 87) else if between 65 70 c then some (c - 55) else none

/-- One code. -/
def lexStep (st : LexSt) (c : Nat) : Option (LexSt × List Tok) :=
  match st with
  | .none => lexStart c
  | .word acc => if isWordCode c then some (.word (256 * acc + c), []) else lexNext (.id acc) c
  | .num n => if isDigit c then some (.num (10 * n + (c - 48)), []) else if isWordCode c then none else if c == 46 then some (.flt n 0, [])
      else lexNext (.num n) c
  | .flt m e => if isDigit c then some (.flt (10 * m + (c - 48)) (e + 1), []) else if isWordCode c then none else lexNext (.flt m e) c
  | .str acc => if c == 34 then some (.none, [.str acc.reverse]) else if c == 92 then some (.esc acc, [])
      else if c == 10 then none else some (.str (c :: acc), [])
  | .esc acc => if c == 120 then some (.hex acc 2 0, []) else (escOf c).map fun x => (.str (x :: acc), [])
  | .hex acc k v => (hexOf c).map fun d => if k == 2 then (.hex acc 1 d, []) else (.str ((16 * v + d) :: acc), [])
  | .raw acc => if c == 96 then some (.none, [.str acc.reverse]) else some (.raw (c :: acc), [])
  | .op acc =>
    if elemNm (256 * acc + c) longOps then
      if 256 * acc + c == n!"//" then some (.line, [])
      else if 256 * acc + c == n!"/*" then some (.block, [])
      else some (.op (256 * acc + c), [])
    else lexNext (.op acc) c
  | .line => if c == 10 then some (.none, [.nl]) else some (.line, [])
  | .block => some (if c == 42 then .blockStar else .block, [])
  | .blockStar => some (if c == 47 then .none else if c == 42 then .blockStar else .block, [])

/-- The lexer. The text has to end with a newline. -/
def lexRaw : List Nat → LexSt → Option (List Tok)
  | [], .none => some []
  | [], _ => none
  | c :: cs, st =>
    match lexStep st c with
    | none => none
    | some (st', ts) => (lexRaw cs st').map fun r => ts ++ r

/-- Keywords that do not end a statement. -/
def openKeywords : List Nm :=
  [n!"case", n!"chan", n!"const", n!"default", n!"defer", n!"else", n!"for", n!"func", n!"go", n!"goto", n!"if", n!"import",
   n!"interface", n!"map", n!"package", n!"range", n!"select", n!"struct", n!"switch", n!"type", n!"var"]

/-- Does a newline after this token end the statement? -/
def Tok.ends : Tok → Bool
  | .id n => !elemNm n openKeywords
  | .num _ => true
  | .flt _ _ => true
  | .str _ => true
  | .op n => n == n!")" || n == n!"]" || n == n!"}" || n == n!"++" || n == n!"--"
  | .nl => false

/-- Automatic semicolons. -/
def semicolons : List Tok → Bool → List Tok
  | [], _ => []
  | .nl :: ts, prev => if prev then .op n!";" :: semicolons ts false else semicolons ts false
  | t :: ts, _ => t :: semicolons ts t.ends

/-- Text to tokens. -/
def lex (cs : List Nat) : Option (List Tok) := (lexRaw cs .none).map fun ts => semicolons ts false

/-! ## Parser -/

/-- Parsers. -/
abbrev P (α : Type) := List Tok → Option (α × List Tok)

/-- Is this operator next? -/
def peekOp (o : Nm) : List Tok → Bool
  | .op n :: _ => n == o
  | _ => false

/-- Is this keyword next? -/
def peekKw (w : Nm) : List Tok → Bool
  | .id n :: _ => n == w
  | _ => false

/-- Expect an operator. -/
def op (o : Nm) : P Unit
  | .op n :: ts => if n == o then some ((), ts) else none
  | _ => none

/-- Expect a keyword. -/
def kw (w : Nm) : P Unit
  | .id n :: ts => if n == w then some ((), ts) else none
  | _ => none

/-- Skip an operator if it is next. -/
def skipOp (o : Nm) (ts : List Tok) : List Tok :=
  match ts with
  | .op n :: r => if n == o then r else ts
  | _ => ts

/-- All keywords. -/
def keywords : List Nm := n!"break" :: n!"continue" :: n!"return" :: n!"fallthrough" :: openKeywords

/-- Expect an identifier. -/
def ident : P Nm
  | .id n :: ts => if elemNm n keywords then none else some (n, ts)
  | _ => none

/-- Entries of a parameter list: a type, or a name and a type. -/
abbrev Entry := Ty × Option Ty

/-- Names and types of a parameter list, backwards: an entry without a type of its own has the type of the next one. -/
def nameEntries : List Entry → List (Nm × Ty) → Option Ty → Option (List (Nm × Ty))
  | [], acc, _ => some acc
  | (.name 0 n, some t) :: es, acc, _ => nameEntries es ((n, t) :: acc) (some t)
  | (.name 0 n, none) :: es, acc, some t => nameEntries es ((n, t) :: acc) (some t)
  | _ :: _, _, _ => none

/-- The parameters of a list of entries (given backwards): named, or types only. -/
def paramsOf (es : List Entry) : Option (List (Nm × Ty)) :=
  if es.any fun e => e.2.isSome then nameEntries es [] none else some (es.reverse.map fun e => (0, e.1))

/-- Operators of a level of precedence. -/
def precOf (o : Nm) : Nat :=
  if o == n!"||" then 1 else if o == n!"&&" then 2
  else if elemNm o [n!"==", n!"!=", n!"<", n!"<=", n!">", n!">="] then 3
  else if elemNm o [n!"+", n!"-", n!"|"] then 4
  else if elemNm o [n!"*", n!"/", n!"%", n!"<<", n!">>", n!"&"] then 5
  else 0

/-- Can a composite literal follow this expression? -/
def Expr.typeLike : Expr → Option Ty
  | .var n => some (.name 0 n)
  | .sel (.var p) n => some (.name p n)
  | .idx (.var n) (.var _) => some (.name 0 n)
  | _ => none

/-- The names on the left of `:=`. -/
def Exprs.names : Exprs → Option (List Nm)
  | .nil => some []
  | .cons (.var n) es => es.names.map fun ns => n :: ns
  | .cons _ _ => none

/-- Is a type (other than a name) next, where an expression is expected? -/
def peekType (ts : List Tok) : Bool :=
  peekOp n!"[" ts || peekKw n!"map" ts || peekKw n!"chan" ts || peekKw n!"struct" ts || peekKw n!"interface" ts

/-- Type arguments are dropped: `[T]` after the name of a type. -/
def skipTypeArg (ts : List Tok) : List Tok :=
  match ts with
  | .op a :: .id _ :: .op b :: r => if a == n!"[" && b == n!"]" then r else ts
  | _ => ts

mutual
/-- Types. -/
def pType : Nat → P Ty
  | 0, _ => none
  | n + 1, ts =>
    if peekOp n!"*" ts then do
      let (_, ts) ← op n!"*" ts
      let (t, ts) ← pType n ts
      return (.ptr t, ts)
    else if peekOp n!"[" ts then do
      let (_, ts) ← op n!"[" ts
      let (_, ts) ← op n!"]" ts
      let (t, ts) ← pType n ts
      return (.slice t, ts)
    else if peekOp n!"<-" ts then do
      let (_, ts) ← op n!"<-" ts
      let (_, ts) ← kw n!"chan" ts
      let (t, ts) ← pType n ts
      return (.chan t, ts)
    else if peekKw n!"chan" ts then do
      let (_, ts) ← kw n!"chan" ts
      let (t, ts) ← pType n (skipOp n!"<-" ts)
      return (.chan t, ts)
    else if peekKw n!"map" ts then do
      let (_, ts) ← kw n!"map" ts
      let (_, ts) ← op n!"[" ts
      let (k, ts) ← pType n ts
      let (_, ts) ← op n!"]" ts
      let (v, ts) ← pType n ts
      return (.map k v, ts)
    else if peekKw n!"func" ts then do
      let (_, ts) ← kw n!"func" ts
      let (_, ts) ← pParams n ts
      let (_, ts) ← pResults n ts
      return (.func, ts)
    else if peekKw n!"interface" ts then do
      let (_, ts) ← kw n!"interface" ts
      let (_, ts) ← op n!"{" ts
      let (_, ts) ← op n!"}" ts
      return (.iface, ts)
    else if peekKw n!"struct" ts then do
      let (_, ts) ← kw n!"struct" ts
      let (_, ts) ← op n!"{" ts
      let (fs, ts) ← pStructFields n ts
      return (.struct fs, ts)
    else do
      let (x, ts) ← ident ts
      if peekOp n!"." ts then
        let (_, ts) ← op n!"." ts
        let (y, ts) ← ident ts
        return (.name x y, ts)
      else return (.name 0 x, skipTypeArg ts)
/-- The fields of a struct type, up to the closing brace. -/
def pStructFields : Nat → P (List (Nm × Ty))
  | 0, _ => none
  | n + 1, ts =>
    if peekOp n!"}" ts then do
      let (_, ts) ← op n!"}" ts
      return ([], ts)
    else do
      let (ns, ts) ← pIdents n ts
      let (t, ts) ← pType n ts
      let (fs, ts) ← pStructFields n (skipOp n!";" ts)
      return ((ns.map fun x => (x, t)) ++ fs, ts)
/-- Identifiers separated by commas. -/
def pIdents : Nat → P (List Nm)
  | 0, _ => none
  | n + 1, ts => do
    let (x, ts) ← ident ts
    if peekOp n!"," ts then
      let (_, ts) ← op n!"," ts
      let (xs, ts) ← pIdents n ts
      return (x :: xs, ts)
    else return ([x], ts)
/-- `( … )` of a function. -/
def pParams : Nat → P (List (Nm × Ty))
  | 0, _ => none
  | n + 1, ts => do
    let (_, ts) ← op n!"(" ts
    let (es, ts) ← pEntries n [] ts
    let ps ← paramsOf es
    return (ps, ts)
/-- The entries of a parameter list, up to the closing parenthesis, backwards. -/
def pEntries : Nat → List Entry → P (List Entry)
  | 0, _, _ => none
  | n + 1, acc, ts =>
    if peekOp n!")" ts then do
      let (_, ts) ← op n!")" ts
      return (acc, ts)
    else do
      let (t, ts) ← pType n ts
      if peekOp n!"," ts then
        let (_, ts) ← op n!"," ts
        pEntries n ((t, none) :: acc) ts
      else if peekOp n!")" ts then pEntries n ((t, none) :: acc) ts
      else
        let (u, ts) ← if peekOp n!"..." ts then (pType n (skipOp n!"..." ts)).map fun x => (.variadic x.1, x.2) else pType n ts
        pEntries n ((t, some u) :: acc) (skipOp n!"," ts)
/-- The results of a function. -/
def pResults : Nat → P (List (Nm × Ty))
  | 0, _ => none
  | n + 1, ts =>
    if peekOp n!"(" ts then pParams n ts
    else if peekOp n!"{" ts || peekOp n!")" ts || peekOp n!"," ts || peekOp n!";" ts then some ([], ts)
    else do
      let (t, ts) ← pType n ts
      return ([(0, t)], ts)
/-- Expressions. `lit`: whether composite literals of named types are allowed here. -/
def pExpr : Nat → Bool → P Expr
  | 0, _, _ => none
  | n + 1, lit, ts => pBin n 1 lit ts
/-- Operators of at least level `p`. -/
def pBin : Nat → Nat → Bool → P Expr
  | 0, _, _, _ => none
  | n + 1, p, lit, ts => do
    let (a, ts) ← pUnary n lit ts
    pBinRest n p lit a ts
/-- The rest of a chain of operators of at least level `p`. -/
def pBinRest : Nat → Nat → Bool → Expr → P Expr
  | 0, _, _, _, _ => none
  | n + 1, p, lit, a, ts =>
    match ts with
    | .op o :: rest =>
      if Nat.ble p (precOf o) && Nat.ble 1 (precOf o) then do
        let (b, ts) ← pBin n (precOf o + 1) lit rest
        pBinRest n p lit (.bin o a b) ts
      else some (a, ts)
    | _ => some (a, ts)
/-- Unary operators. -/
def pUnary : Nat → Bool → P Expr
  | 0, _, _ => none
  | n + 1, lit, ts =>
    match ts with
    | .op o :: rest =>
      if elemNm o [n!"!", n!"-", n!"&", n!"*", n!"<-"] then do
        let (a, ts) ← pUnary n lit rest
        return (.un o a, ts)
      else pPrimary n lit ts
    | _ => pPrimary n lit ts
/-- Operands. -/
def pPrimary : Nat → Bool → P Expr
  | 0, _, _ => none
  | n + 1, lit, ts =>
    match ts with
    | .num k :: ts => pSuffix n lit (.num k) ts
    | .flt m e :: ts => pSuffix n lit (.flt m e) ts
    | .str s :: ts => pSuffix n lit (.str s) ts
    | _ =>
      if peekOp n!"(" ts then do
        let (_, ts) ← op n!"(" ts
        let (e, ts) ← pExpr n true ts
        let (_, ts) ← op n!")" ts
        pSuffix n lit e ts
      else if peekKw n!"func" ts then do
        let (_, ts) ← kw n!"func" ts
        let (ps, ts) ← pParams n ts
        let (rs, ts) ← pResults n ts
        let (b, ts) ← pBlock n ts
        pSuffix n lit (.func ps rs b) ts
      else if peekType ts then do
        let (t, ts) ← pType n ts
        if peekOp n!"{" ts then
          let (_, ts) ← op n!"{" ts
          let (fs, ts) ← pFields n ts
          pSuffix n lit (.lit t fs) ts
        else pSuffix n lit (.ty t) ts
      else do
        let (x, ts) ← ident ts
        pSuffix n lit (.var x) ts
/-- Selectors, indices, calls, literals after an operand. -/
def pSuffix : Nat → Bool → Expr → P Expr
  | 0, _, _, _ => none
  | n + 1, lit, e, ts =>
    if peekOp n!"." ts then do
      let (_, ts) ← op n!"." ts
      if peekOp n!"(" ts then
        let (_, ts) ← op n!"(" ts
        let (t, ts) ← pType n ts
        let (_, ts) ← op n!")" ts
        pSuffix n lit (.assert e t) ts
      else
        let (f, ts) ← ident ts
        pSuffix n lit (.sel e f) ts
    else if peekOp n!"[" ts then do
      let (_, ts) ← op n!"[" ts
      if peekOp n!":" ts then
        let (_, ts) ← op n!":" ts
        let (h, ts) ← pExpr n true ts
        let (_, ts) ← op n!"]" ts
        pSuffix n lit (.slice e .absent h) ts
      else
        let (i, ts) ← pExpr n true ts
        if peekOp n!":" ts then
          let (_, ts) ← op n!":" ts
          if peekOp n!"]" ts then
            let (_, ts) ← op n!"]" ts
            pSuffix n lit (.slice e i .absent) ts
          else
            let (h, ts) ← pExpr n true ts
            let (_, ts) ← op n!"]" ts
            pSuffix n lit (.slice e i h) ts
        else
          let (_, ts) ← op n!"]" ts
          pSuffix n lit (.idx e i) ts
    else if peekOp n!"(" ts then do
      let (_, ts) ← op n!"(" ts
      let (as, sp, ts) ← pArgs n ts
      pSuffix n lit (.call e as sp) ts
    else if lit && peekOp n!"{" ts && e.typeLike.isSome then do
      let t ← e.typeLike
      let (_, ts) ← op n!"{" ts
      let (fs, ts) ← pFields n ts
      pSuffix n lit (.lit t fs) ts
    else some (e, ts)
/-- Arguments, up to the closing parenthesis. -/
def pArgs : Nat → List Tok → Option (Exprs × Bool × List Tok)
  | 0, _ => none
  | n + 1, ts =>
    if peekOp n!")" ts then do
      let (_, ts) ← op n!")" ts
      return (.nil, false, ts)
    else do
      let (e, ts) ← pExpr n true ts
      if peekOp n!"..." ts then
        let (_, ts) ← op n!"..." ts
        let (_, ts) ← op n!")" (skipOp n!"," ts)
        return (.cons e .nil, true, ts)
      else if peekOp n!")" ts then
        let (_, ts) ← op n!")" ts
        return (.cons e .nil, false, ts)
      else
        let (_, ts) ← op n!"," ts
        let (es, sp, ts) ← pArgs n ts
        return (.cons e es, sp, ts)
/-- The elements of a composite literal, up to the closing brace. -/
def pFields : Nat → P Fields
  | 0, _ => none
  | n + 1, ts =>
    if peekOp n!"}" ts then do
      let (_, ts) ← op n!"}" ts
      return (.nil, ts)
    else do
      let (k, ts) ← pElement n ts
      if peekOp n!":" ts then
        let (_, ts) ← op n!":" ts
        let (v, ts) ← pElement n ts
        let (fs, ts) ← pFields n (skipOp n!"," ts)
        return (.cons k v fs, ts)
      else
        let (fs, ts) ← pFields n (skipOp n!"," ts)
        return (.cons .absent k fs, ts)
/-- An element: an expression, or a literal whose type is left out. -/
def pElement : Nat → P Expr
  | 0, _ => none
  | n + 1, ts =>
    if peekOp n!"{" ts then do
      let (_, ts) ← op n!"{" ts
      let (fs, ts) ← pFields n ts
      return (.lit .elided fs, ts)
    else pExpr n true ts
/-- Expressions separated by commas. -/
def pExprs : Nat → Bool → P Exprs
  | 0, _, _ => none
  | n + 1, lit, ts => do
    let (e, ts) ← pExpr n lit ts
    if peekOp n!"," ts then
      let (_, ts) ← op n!"," ts
      let (es, ts) ← pExprs n lit ts
      return (.cons e es, ts)
    else return (.cons e .nil, ts)
/-- Simple statements. -/
def pSimple : Nat → Bool → P Stmt
  | 0, _, _ => none
  | n + 1, lit, ts => do
    let (ls, ts) ← pExprs n lit ts
    if peekOp n!":=" ts then
      let (_, ts) ← op n!":=" ts
      let ns ← ls.names
      let (rs, ts) ← pExprs n lit ts
      return (.define ns rs, ts)
    else if peekOp n!"=" ts then
      let (_, ts) ← op n!"=" ts
      let (rs, ts) ← pExprs n lit ts
      return (.assign ls rs, ts)
    else
      match ls with
      | .cons l .nil =>
        if peekOp n!"++" ts then
          let (_, ts) ← op n!"++" ts
          return (.opAssign n!"+" l (.num 1), ts)
        else if peekOp n!"--" ts then
          let (_, ts) ← op n!"--" ts
          return (.opAssign n!"-" l (.num 1), ts)
        else if peekOp n!"+=" ts then
          let (_, ts) ← op n!"+=" ts
          let (r, ts) ← pExpr n lit ts
          return (.opAssign n!"+" l r, ts)
        else if peekOp n!"-=" ts then
          let (_, ts) ← op n!"-=" ts
          let (r, ts) ← pExpr n lit ts
          return (.opAssign n!"-" l r, ts)
        else if peekOp n!"<-" ts then
          let (_, ts) ← op n!"<-" ts
          let (r, ts) ← pExpr n lit ts
          return (.send l r, ts)
        else return (.expr l, ts)
      | _ => none
/-- `{ … }`. -/
def pBlock : Nat → P Stmts
  | 0, _ => none
  | n + 1, ts => do
    let (_, ts) ← op n!"{" ts
    let (ss, ts) ← pStmts n ts
    let (_, ts) ← op n!"}" ts
    return (ss, ts)
/-- Statements, up to a closing brace or the next case. -/
def pStmts : Nat → P Stmts
  | 0, _ => none
  | n + 1, ts =>
    if peekOp n!"}" ts || peekKw n!"case" ts || peekKw n!"default" ts then some (.nil, ts)
    else if peekOp n!";" ts then pStmts n (skipOp n!";" ts)
    else do
      let (s, ts) ← pStmt n ts
      if peekOp n!"}" ts then return (.cons s .nil, ts)
      else
        let (_, ts) ← op n!";" ts
        let (ss, ts) ← pStmts n ts
        return (.cons s ss, ts)
/-- One statement. -/
def pStmt : Nat → P Stmt
  | 0, _ => none
  | n + 1, ts =>
    if peekKw n!"return" ts then do
      let (_, ts) ← kw n!"return" ts
      if peekOp n!";" ts || peekOp n!"}" ts then return (.ret .nil, ts)
      else
        let (es, ts) ← pExprs n true ts
        return (.ret es, ts)
    else if peekKw n!"if" ts then pIf n ts
    else if peekKw n!"for" ts then do
      let (_, ts) ← kw n!"for" ts
      pFor n ts
    else if peekKw n!"switch" ts then do
      let (_, ts) ← kw n!"switch" ts
      if peekOp n!"{" ts then
        let (_, ts) ← op n!"{" ts
        let (cs, ts) ← pCases n false ts
        return (.switch .nil .absent cs, ts)
      else
        let (e, ts) ← pExpr n false ts
        let (_, ts) ← op n!"{" ts
        let (cs, ts) ← pCases n false ts
        return (.switch .nil e cs, ts)
    else if peekKw n!"select" ts then do
      let (_, ts) ← kw n!"select" ts
      let (_, ts) ← op n!"{" ts
      let (cs, ts) ← pCases n true ts
      return (.select cs, ts)
    else if peekKw n!"defer" ts then do
      let (_, ts) ← kw n!"defer" ts
      let (e, ts) ← pExpr n true ts
      return (.defer e, ts)
    else if peekKw n!"go" ts then do
      let (_, ts) ← kw n!"go" ts
      let (e, ts) ← pExpr n true ts
      return (.go e, ts)
    else if peekKw n!"break" ts then do
      let (_, ts) ← kw n!"break" ts
      return (.brk, ts)
    else if peekKw n!"continue" ts then do
      let (_, ts) ← kw n!"continue" ts
      return (.cont, ts)
    else if peekKw n!"const" ts then do
      let (_, ts) ← kw n!"const" ts
      let (ns, ts) ← pIdents n ts
      let (_, ts) ← op n!"=" ts
      let (es, ts) ← pExprs n true ts
      return (.const ns es, ts)
    else if peekKw n!"var" ts then do
      let (_, ts) ← kw n!"var" ts
      if peekOp n!"(" ts then
        let (_, ts) ← op n!"(" ts
        let (ss, ts) ← pVars n ts
        return (.group ss, ts)
      else pVar n ts
    else if peekOp n!"{" ts then do
      let (ss, ts) ← pBlock n ts
      return (.block ss, ts)
    else pSimple n true ts
/-- One declaration after `var`. -/
def pVar : Nat → P Stmt
  | 0, _ => none
  | n + 1, ts => do
    let (ns, ts) ← pIdents n ts
    if peekOp n!"=" ts then
      let (_, ts) ← op n!"=" ts
      let (es, ts) ← pExprs n true ts
      return (.decl ns .elided es, ts)
    else
      let (t, ts) ← pType n ts
      if peekOp n!"=" ts then
        let (_, ts) ← op n!"=" ts
        let (es, ts) ← pExprs n true ts
        return (.decl ns t es, ts)
      else return (.decl ns t .nil, ts)
/-- Grouped declarations, up to the closing parenthesis. -/
def pVars : Nat → P Stmts
  | 0, _ => none
  | n + 1, ts =>
    if peekOp n!")" ts then do
      let (_, ts) ← op n!")" ts
      return (.nil, ts)
    else do
      let (s, ts) ← pVar n ts
      let (ss, ts) ← pVars n (skipOp n!";" ts)
      return (.cons s ss, ts)
/-- `if`, with its `else`. -/
def pIf : Nat → P Stmt
  | 0, _ => none
  | n + 1, ts => do
    let (_, ts) ← kw n!"if" ts
    let (s, ts) ← pSimple n false ts
    if peekOp n!";" ts then
      let (_, ts) ← op n!";" ts
      let (c, ts) ← pExpr n false ts
      let (b, ts) ← pBlock n ts
      let (e, ts) ← pElse n ts
      return (.if_ (.cons s .nil) c b e, ts)
    else
      match s with
      | .expr c =>
        let (b, ts) ← pBlock n ts
        let (e, ts) ← pElse n ts
        return (.if_ .nil c b e, ts)
      | _ => none
/-- `else`. -/
def pElse : Nat → P Stmts
  | 0, _ => none
  | n + 1, ts =>
    if peekKw n!"else" ts then do
      let (_, ts) ← kw n!"else" ts
      if peekKw n!"if" ts then
        let (s, ts) ← pIf n ts
        return (.cons s .nil, ts)
      else pBlock n ts
    else some (.nil, ts)
/-- What follows `for`. -/
def pFor : Nat → P Stmt
  | 0, _ => none
  | n + 1, ts =>
    if peekOp n!"{" ts then do
      let (b, ts) ← pBlock n ts
      return (.for_ .nil .absent .nil b, ts)
    else if peekKw n!"range" ts then do
      let (_, ts) ← kw n!"range" ts
      let (e, ts) ← pExpr n false ts
      let (b, ts) ← pBlock n ts
      return (.range 0 0 e b, ts)
    else if peekOp n!";" ts then do
      let (_, ts) ← op n!";" ts
      let (c, ts) ← pExpr n false ts
      let (_, ts) ← op n!";" ts
      let (p, ts) ← pSimple n false ts
      let (b, ts) ← pBlock n ts
      return (.for_ .nil c (.cons p .nil) b, ts)
    else
      match pRangeHead n ts with
      | some (k, v, e, ts) => do
        let (b, ts) ← pBlock n ts
        return (.range k v e b, ts)
      | none => do
        let (s, ts) ← pSimple n false ts
        if peekOp n!";" ts then
          let (_, ts) ← op n!";" ts
          let (c, ts) ← pExpr n false ts
          let (_, ts) ← op n!";" ts
          let (p, ts) ← pSimple n false ts
          let (b, ts) ← pBlock n ts
          return (.for_ (.cons s .nil) c (.cons p .nil) b, ts)
        else
          match s with
          | .expr c =>
            let (b, ts) ← pBlock n ts
            return (.for_ .nil c .nil b, ts)
          | _ => none
/-- `k, v := range e` or `k := range e`. -/
def pRangeHead : Nat → List Tok → Option (Nm × Nm × Expr × List Tok)
  | 0, _ => none
  | n + 1, ts => do
    let (ns, ts) ← pIdents n ts
    let (_, ts) ← op n!":=" ts
    let (_, ts) ← kw n!"range" ts
    let (e, ts) ← pExpr n false ts
    match ns with
    | [k] => return (k, 0, e, ts)
    | [k, v] => return (k, v, e, ts)
    | _ => none
/-- The cases of `switch` or (`comm`) `select`, up to the closing brace. -/
def pCases : Nat → Bool → P Cases
  | 0, _, _ => none
  | n + 1, comm, ts =>
    if peekOp n!"}" ts then do
      let (_, ts) ← op n!"}" ts
      return (.nil, ts)
    else if peekKw n!"default" ts then do
      let (_, ts) ← kw n!"default" ts
      let (_, ts) ← op n!":" ts
      let (b, ts) ← pStmts n ts
      let (cs, ts) ← pCases n comm ts
      return (.cons .nil .nil b cs, ts)
    else do
      let (_, ts) ← kw n!"case" ts
      if comm then
        let (s, ts) ← pSimple n true ts
        let (_, ts) ← op n!":" ts
        let (b, ts) ← pStmts n ts
        let (cs, ts) ← pCases n comm ts
        return (.cons .nil (.cons s .nil) b cs, ts)
      else
        let (es, ts) ← pExprs n true ts
        let (_, ts) ← op n!":" ts
        let (b, ts) ← pStmts n ts
        let (cs, ts) ← pCases n comm ts
        return (.cons es .nil b cs, ts)
end

/-- Skip `[T any]` after the name of a generic function. -/
def skipTypeParams : List Tok → List Tok
  | .op o :: .id a :: .id b :: .op c :: ts => if o == n!"[" && c == n!"]" then ts else .op o :: .id a :: .id b :: .op c :: ts
  | ts => ts

/-- A function declaration, and nothing else. -/
def pFunc (n : Nat) (ts : List Tok) : Option FuncDecl := do
  let (_, ts) ← kw n!"func" ts
  let (recv, ts) ← if peekOp n!"(" ts then pParams n ts else some ([], ts)
  let (name, ts) ← ident ts
  let (ps, ts) ← pParams n (skipTypeParams ts)
  let (rs, ts) ← pResults n ts
  let (b, ts) ← pBlock n ts
  match skipOp n!";" ts with
  | [] => return { name := name, recv := recv, params := ps, results := rs, body := b }
  | _ => none

/-- Text to tree. -/
def parseFunc (text : List Nat) : Option FuncDecl := (lex text).bind fun ts => pFunc 120 ts

end Verif.Go
