import Verif.Model.SqlLang
/-!
# Parser for the SQL subset

Turns a statement text into the syntax of `Verif.Model.SqlLang`.  Recursive descent; precedences as in SQLite for
the operators that occur (OR, AND, comparisons / IS NULL / IN).  The parser is evaluated by the kernel on the
statement texts of the driver.  An unknown word is a parse error.
-/

namespace Verif.SqlLang

/-- Tokens; words are lower-cased (SQL keywords and identifiers are case-insensitive). -/
inductive Tok where
  | word (w : List Char)
  | str (s : List Char)
  | num (n : Nat)
  /-- The n-th `?`. -/
  | param (n : Nat)
  | lpar | rpar | comma | dot | star
  | op (o : CmpOp)
deriving DecidableEq, Repr

/-- Word characters. -/
def isWordChar (c : Char) : Bool := c.isAlpha || c.isDigit || c == '_'

/-- A lexeme in progress. -/
inductive LexSt where
  | none
  | word (acc : List Char)
  | num (n : Nat)
  | str (acc : List Char)
  | lt | gt | bang

/-- One step outside of any lexeme. -/
def lexStart (c : Char) (params : Nat) : Option (LexSt × Nat × List Tok) :=
  if c == ' ' || c == '\t' || c == '\n' then some (.none, params, [])
  else if c.isDigit then some (.num (c.toNat - 48), params, [])
  else if isWordChar c then some (.word [c.toLower], params, [])
  else if c == '\'' then some (.str [], params, [])
  else if c == '?' then some (.none, params + 1, [.param params])
  else if c == '(' then some (.none, params, [.lpar])
  else if c == ')' then some (.none, params, [.rpar])
  else if c == ',' then some (.none, params, [.comma])
  else if c == '.' then some (.none, params, [.dot])
  else if c == '*' then some (.none, params, [.star])
  else if c == '=' then some (.none, params, [.op .eq])
  else if c == '<' then some (.lt, params, [])
  else if c == '>' then some (.gt, params, [])
  else if c == '!' then some (.bang, params, [])
  else none

/-- Finish a lexeme with tokens `ts` and continue with character `c`. -/
def lexNext (ts : List Tok) (c : Char) (params : Nat) : Option (LexSt × Nat × List Tok) :=
  (lexStart c params).map fun (st, p, ts') => (st, p, ts ++ ts')

/-- One character. -/
def lexStep (st : LexSt) (params : Nat) (c : Char) : Option (LexSt × Nat × List Tok) :=
  match st with
  | .none => lexStart c params
  | .word acc =>
    if isWordChar c then some (.word (c.toLower :: acc), params, []) else lexNext [.word acc.reverse] c params
  | .num n =>
    if c.isDigit then some (.num (10 * n + (c.toNat - 48)), params, [])
    else if isWordChar c then none else lexNext [.num n] c params
  | .str acc => if c == '\'' then some (.none, params, [.str acc.reverse]) else some (.str (c :: acc), params, [])
  | .lt => if c == '=' then some (.none, params, [.op .le]) else lexNext [.op .lt] c params
  | .gt => if c == '=' then some (.none, params, [.op .ge]) else lexNext [.op .gt] c params
  | .bang => if c == '=' then some (.none, params, [.op .ne]) else none

/-- The lexer. -/
def lex : List Char → LexSt → Nat → Option (List Tok)
  | [], st, _ =>
    match st with
    | .none => some []
    | .word acc => some [.word acc.reverse]
    | .num n => some [.num n]
    | _ => none
  | c :: cs, st, params =>
    match lexStep st params c with
    | none => none
    | some (st', p, ts) => (lex cs st' p).map fun r => ts ++ r

/-- Identifiers. -/
def identOf (w : List Char) : Option Ident :=
  if w = ['i', 'd'] then some .id
  else if w = ['n', 'a', 'm', 'e'] then some .name
  else if w = ['c', 'r', 'e', 'a', 't', 'e', 'd'] then some .created
  else if w = ['d', 'e', 'l', 'e', 't', 'e', 'd'] then some .deleted
  else if w = ['c', 'r', 'e', 'a', 't', 'e', '_', 'r', 'e', 'v', 'i', 's', 'i', 'o', 'n'] then some .create_revision
  else if w = ['p', 'r', 'e', 'v', '_', 'r', 'e', 'v', 'i', 's', 'i', 'o', 'n'] then some .prev_revision
  else if w = ['l', 'e', 'a', 's', 'e'] then some .lease
  else if w = ['v', 'a', 'l', 'u', 'e'] then some .value
  else if w = ['o', 'l', 'd', '_', 'v', 'a', 'l', 'u', 'e'] then some .old_value
  else if w = ['l', 'o', 'w'] then some .low
  else if w = ['h', 'i', 'g', 'h'] then some .high
  else if w = ['k', 'i', 'n', 'e'] then some .kine
  else if w = ['k', 'v'] then some .kv
  else if w = ['m', 'k', 'v'] then some .mkv
  else if w = ['m', 'a', 'x', 'k', 'v'] then some .maxkv
  else none

/-- Parsers. -/
abbrev P (α : Type) := List Tok → Option (α × List Tok)

/-- Expect a keyword. -/
def kw (s : List Char) : P Unit
  | .word w :: ts => if w = s then some ((), ts) else none
  | _ => none

/-- Expect a token. -/
def tok (t : Tok) : P Unit
  | t' :: ts => if t' = t then some ((), ts) else none
  | _ => none

/-- Expect an identifier. -/
def ident : P Ident
  | .word w :: ts => (identOf w).map fun i => (i, ts)
  | _ => none

/-- Is the next token this keyword? -/
def peekKw (s : List Char) (ts : List Tok) : Bool := (kw s ts).isSome

/-- Is this the next token? -/
def peek (t : Tok) (ts : List Tok) : Bool := (tok t ts).isSome

/-- `[AS] alias`, optional. -/
def optAlias (ts : List Tok) : Option (Option Ident × List Tok) := do
  if peekKw ['a', 's'] ts then
    let (_, ts) ← kw ['a', 's'] ts
    let (i, ts) ← ident ts
    return (some i, ts)
  else
    match ident ts with
    | some (i, ts) => return (some i, ts)
    | none => return (none, ts)

/-- The bytes of a string literal (ASCII). -/
def strBytes (s : List Char) : Bytes := s.map fun c => c.toNat.toUInt8

mutual
/-- `a OR b OR …`. -/
def pExpr : Nat → P Expr
  | 0, _ => none
  | n + 1, ts => do
    let (a, ts) ← pAnd n ts
    pOrRest n a ts
/-- The rest of a disjunction. -/
def pOrRest : Nat → Expr → P Expr
  | 0, _, _ => none
  | n + 1, a, ts =>
    if peekKw ['o', 'r'] ts then do
      let (_, ts) ← kw ['o', 'r'] ts
      let (b, ts) ← pAnd n ts
      pOrRest n (.or a b) ts
    else some (a, ts)
/-- `a AND b AND …`. -/
def pAnd : Nat → P Expr
  | 0, _ => none
  | n + 1, ts => do
    let (a, ts) ← pCmp n ts
    pAndRest n a ts
/-- The rest of a conjunction. -/
def pAndRest : Nat → Expr → P Expr
  | 0, _, _ => none
  | n + 1, a, ts =>
    if peekKw ['a', 'n', 'd'] ts then do
      let (_, ts) ← kw ['a', 'n', 'd'] ts
      let (b, ts) ← pCmp n ts
      pAndRest n (.and a b) ts
    else some (a, ts)
/-- `a op b`, `a IS NULL`, `a IN (query)` or `a`. -/
def pCmp : Nat → P Expr
  | 0, _ => none
  | n + 1, ts => do
    let (a, ts) ← pPrim n ts
    match ts with
    | .op o :: ts =>
      let (b, ts) ← pPrim n ts
      return (.cmp o a b, ts)
    | _ =>
      if peekKw ['i', 's'] ts then
        let (_, ts) ← kw ['i', 's'] ts
        let (_, ts) ← kw ['n', 'u', 'l', 'l'] ts
        return (.isNull a, ts)
      else if peekKw ['i', 'n'] ts then
        let (_, ts) ← kw ['i', 'n'] ts
        let (_, ts) ← tok .lpar ts
        let (q, ts) ← pQuery n ts
        let (_, ts) ← tok .rpar ts
        return (.inQuery a q, ts)
      else return (a, ts)
/-- Literals, parameters, columns, function calls, parentheses. -/
def pPrim : Nat → P Expr
  | 0, _ => none
  | n + 1, ts =>
    match ts with
    | .param i :: ts => some (.param i, ts)
    | .num k :: ts => some (.lit (.int k), ts)
    | .str s :: ts => some (.lit (.text (strBytes s)), ts)
    | .lpar :: ts =>
      if peekKw ['s', 'e', 'l', 'e', 'c', 't'] ts then do
        let (q, ts) ← pQuery n ts
        let (_, ts) ← tok .rpar ts
        return (.scalar q, ts)
      else do
        let (e, ts) ← pExpr n ts
        let (_, ts) ← tok .rpar ts
        return (e, ts)
    | .word w :: ts =>
      if w = ['n', 'u', 'l', 'l'] then some (.lit .null, ts)
      else if w = ['c', 'a', 's', 't'] then do
        let (_, ts) ← tok .lpar ts
        let (e, ts) ← pExpr n ts
        let (_, ts) ← kw ['a', 's'] ts
        let (_, ts) ← kw ['t', 'e', 'x', 't'] ts
        let (_, ts) ← tok .rpar ts
        return (.castText e, ts)
      else if w = ['c', 'a', 's', 'e'] then do
        let (_, ts) ← kw ['w', 'h', 'e', 'n'] ts
        let (c, ts) ← pExpr n ts
        let (_, ts) ← kw ['t', 'h', 'e', 'n'] ts
        let (a, ts) ← pExpr n ts
        let (_, ts) ← kw ['e', 'l', 's', 'e'] ts
        let (b, ts) ← pExpr n ts
        let (_, ts) ← kw ['e', 'n', 'd'] ts
        return (.caseWhen c a b, ts)
      else if w = ['c', 'o', 'a', 'l', 'e', 's', 'c', 'e'] then do
        let (_, ts) ← tok .lpar ts
        let (a, ts) ← pExpr n ts
        let (_, ts) ← tok .comma ts
        let (b, ts) ← pExpr n ts
        let (_, ts) ← tok .rpar ts
        return (.coalesce a b, ts)
      else if w = ['m', 'a', 'x'] then do
        let (_, ts) ← tok .lpar ts
        let (a, ts) ← pExpr n ts
        if peek .comma ts then
          let (_, ts) ← tok .comma ts
          let (b, ts) ← pExpr n ts
          let (_, ts) ← tok .rpar ts
          return (.max2 a b, ts)
        else
          let (_, ts) ← tok .rpar ts
          return (.aggMax a, ts)
      else if w = ['c', 'o', 'u', 'n', 't'] then do
        let (_, ts) ← tok .lpar ts
        let (_, ts) ← tok .star ts
        let (_, ts) ← tok .rpar ts
        return (.countStar, ts)
      else do
        let i ← identOf w
        if peek .dot ts then
          let (_, ts) ← tok .dot ts
          let (c, ts) ← ident ts
          return (.col (some i) c, ts)
        else return (.col none i, ts)
    | _ => none
/-- Expressions separated by commas, each optionally followed by ASC. -/
def pExprs : Nat → P Exprs
  | 0, _ => none
  | n + 1, ts => do
    let (e, ts) ← pExpr n ts
    let ts := if peekKw ['a', 's', 'c'] ts then ts.tail else ts
    if peek .comma ts then
      let (_, ts) ← tok .comma ts
      let (es, ts) ← pExprs n ts
      return (.cons e es, ts)
    else return (.cons e .nil, ts)
/-- Result columns. -/
def pItems : Nat → P Items
  | 0, _ => none
  | n + 1, ts => do
    let (e, ts) ← pExpr n ts
    let (a, ts) ← (if peekKw ['a', 's'] ts then do
        let (_, ts) ← kw ['a', 's'] ts
        let (i, ts) ← ident ts
        return (some i, ts)
      else return (none, ts))
    if peek .comma ts then
      let (_, ts) ← tok .comma ts
      let (rest, ts) ← pItems n ts
      return (.cons e a rest, ts)
    else return (.cons e a .nil, ts)
/-- A table or subquery in a FROM clause. -/
def pTable : Nat → P Source
  | 0, _ => none
  | n + 1, ts =>
    if peek .lpar ts then do
      let (_, ts) ← tok .lpar ts
      let (q, ts) ← pQuery n ts
      let (_, ts) ← tok .rpar ts
      let (a, ts) ← optAlias ts
      return (.sub q a, ts)
    else do
      let (t, ts) ← ident ts
      let (a, ts) ← optAlias ts
      return (.table t (a.getD t), ts)
/-- The rest of a FROM clause: joins. -/
def pJoins : Nat → Source → P Source
  | 0, _, _ => none
  | n + 1, a, ts =>
    if peekKw ['j', 'o', 'i', 'n'] ts then do
      let (_, ts) ← kw ['j', 'o', 'i', 'n'] ts
      let (b, ts) ← pTable n ts
      let (_, ts) ← kw ['o', 'n'] ts
      let (e, ts) ← pExpr n ts
      pJoins n (.join a b e) ts
    else if peekKw ['c', 'r', 'o', 's', 's'] ts then do
      let (_, ts) ← kw ['c', 'r', 'o', 's', 's'] ts
      let (_, ts) ← kw ['j', 'o', 'i', 'n'] ts
      let (b, ts) ← pTable n ts
      let (_, ts) ← kw ['o', 'n'] ts
      let (e, ts) ← pExpr n ts
      pJoins n (.cross a b e) ts
    else some (a, ts)
/-- An optional clause that starts with a keyword; 1 if it is missing. -/
def pOptExpr : Nat → List Char → P Expr
  | 0, _, _ => none
  | n + 1, k, ts =>
    if peekKw k ts then do
      let (_, ts) ← kw k ts
      pExpr n ts
    else some (.lit (.int 1), ts)
/-- An optional `GROUP BY …` / `ORDER BY …`. -/
def pOptBy : Nat → List Char → P Exprs
  | 0, _, _ => none
  | n + 1, k, ts =>
    if peekKw k ts then do
      let (_, ts) ← kw k ts
      let (_, ts) ← kw ['b', 'y'] ts
      pExprs n ts
    else some (.nil, ts)
/-- Queries. -/
def pQuery : Nat → P Query
  | 0, _ => none
  | n + 1, ts =>
    if peekKw ['w', 'i', 't', 'h'] ts then do
      let (_, ts) ← kw ['w', 'i', 't', 'h'] ts
      let (i, ts) ← ident ts
      let (_, ts) ← kw ['a', 's'] ts
      let (_, ts) ← tok .lpar ts
      let (q, ts) ← pQuery n ts
      let (_, ts) ← tok .rpar ts
      let (b, ts) ← pQuery n ts
      return (.withCte i q b, ts)
    else do
      let (_, ts) ← kw ['s', 'e', 'l', 'e', 'c', 't'] ts
      let (items, ts) ← pItems n ts
      let (src, ts) ← (if peekKw ['f', 'r', 'o', 'm'] ts then do
          let (_, ts) ← kw ['f', 'r', 'o', 'm'] ts
          let (t, ts) ← pTable n ts
          pJoins n t ts
        else return (.unit, ts))
      let (whr, ts) ← pOptExpr n ['w', 'h', 'e', 'r', 'e'] ts
      let (grp, ts) ← pOptBy n ['g', 'r', 'o', 'u', 'p'] ts
      let (hav, ts) ← pOptExpr n ['h', 'a', 'v', 'i', 'n', 'g'] ts
      let (ord, ts) ← pOptBy n ['o', 'r', 'd', 'e', 'r'] ts
      let (lim, ts) ← (if peekKw ['l', 'i', 'm', 'i', 't'] ts then do
          let (_, ts) ← kw ['l', 'i', 'm', 'i', 't'] ts
          let (e, ts) ← pExpr n ts
          return (Exprs.cons e .nil, ts)
        else return (Exprs.nil, ts))
      return (.select items src whr grp hav ord lim, ts)
end

/-- A list of column names in parentheses. -/
def pIdents : Nat → P (List Ident)
  | 0, _ => none
  | n + 1, ts => do
    let (i, ts) ← ident ts
    if peek .comma ts then
      let (_, ts) ← tok .comma ts
      let (is, ts) ← pIdents n ts
      return (i :: is, ts)
    else return ([i], ts)

/-- Statements; only table `kine` may be changed. -/
def pStmt (n : Nat) (ts : List Tok) : Option (Stmt × List Tok) :=
  if peekKw ['i', 'n', 's', 'e', 'r', 't'] ts then do
    let (_, ts) ← kw ['i', 'n', 's', 'e', 'r', 't'] ts
    let (_, ts) ← kw ['i', 'n', 't', 'o'] ts
    let (_, ts) ← kw ['k', 'i', 'n', 'e'] ts
    let (_, ts) ← tok .lpar ts
    let (cols, ts) ← pIdents n ts
    let (_, ts) ← tok .rpar ts
    let (q, ts) ← pQuery n ts
    return (.insert cols q, ts)
  else if peekKw ['d', 'e', 'l', 'e', 't', 'e'] ts then do
    let (_, ts) ← kw ['d', 'e', 'l', 'e', 't', 'e'] ts
    let (_, ts) ← kw ['f', 'r', 'o', 'm'] ts
    let (_, ts) ← kw ['k', 'i', 'n', 'e'] ts
    let (_, ts) ← kw ['w', 'h', 'e', 'r', 'e'] ts
    let (e, ts) ← pExpr n ts
    return (.delete e, ts)
  else if peekKw ['u', 'p', 'd', 'a', 't', 'e'] ts then do
    let (_, ts) ← kw ['u', 'p', 'd', 'a', 't', 'e'] ts
    let (_, ts) ← kw ['k', 'i', 'n', 'e'] ts
    let (_, ts) ← kw ['s', 'e', 't'] ts
    let (c, ts) ← ident ts
    let (_, ts) ← tok (.op .eq) ts
    let (e, ts) ← pExpr n ts
    let (_, ts) ← kw ['w', 'h', 'e', 'r', 'e'] ts
    let (w, ts) ← pExpr n ts
    return (.update c e w, ts)
  else do
    let (q, ts) ← pQuery n ts
    return (.query q, ts)

/-- Parse a whole text. -/
def parse (text : List Char) : Option Stmt := do
  let ts ← lex text .none 0
  let (st, rest) ← pStmt 60 ts
  if rest.isEmpty then some st else none

end Verif.SqlLang
