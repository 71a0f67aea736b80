import Lean.Elab.Tactic.Basic
import Verif.Model.GoSyntax
/-!
# From a text to its tree

`go_func f r#"…"#` defines `f_text`, the text, `f`, its tree, and proves `f_parse`: the parser of `Model/GoSyntax.lean` maps the text to the
tree. The macro computes the tree by running the parser; that it is the right one is then checked by the kernel (`f_parse`), so the macro is
not trusted. `f_chars` is the text as a list of characters, because the kernel decodes string literals slowly.
-/

namespace Verif.Go

open Lean

/-- The codes of a text. -/
def codesOf (s : String) : List Nat := s.toList.map Char.toNat

private abbrev T := TSyntax `term

private def app (f : Name) (as : Array T) : T := Syntax.mkApp (mkCIdent f) as

private def qList (l : List T) : T := l.foldr (fun a b => app ``List.cons #[a, b]) (mkCIdent ``List.nil)

private partial def qTy : Ty → T
  | .name p n => app ``Ty.name #[quote p, quote n]
  | .ptr t => app ``Ty.ptr #[qTy t]
  | .slice t => app ``Ty.slice #[qTy t]
  | .map k v => app ``Ty.map #[qTy k, qTy v]
  | .chan t => app ``Ty.chan #[qTy t]
  | .func => mkCIdent ``Ty.func
  | .struct fs => app ``Ty.struct #[qList (fs.map fun f => app ``Prod.mk #[quote f.1, qTy f.2])]
  | .iface => mkCIdent ``Ty.iface
  | .variadic t => app ``Ty.variadic #[qTy t]
  | .elided => mkCIdent ``Ty.elided

private def qPs (ps : List (Nm × Ty)) : T := qList (ps.map fun p => app ``Prod.mk #[quote p.1, qTy p.2])

mutual
private partial def qE : Expr → T
  | .absent => mkCIdent ``Expr.absent
  | .var n => app ``Expr.var #[quote n]
  | .num n => app ``Expr.num #[quote n]
  | .flt m e => app ``Expr.flt #[quote m, quote e]
  | .str s => app ``Expr.str #[qList (s.map quote)]
  | .sel e f => app ``Expr.sel #[qE e, quote f]
  | .idx e i => app ``Expr.idx #[qE e, qE i]
  | .slice e l h => app ``Expr.slice #[qE e, qE l, qE h]
  | .call f a s => app ``Expr.call #[qE f, qEs a, quote s]
  | .bin o a b => app ``Expr.bin #[quote o, qE a, qE b]
  | .un o a => app ``Expr.un #[quote o, qE a]
  | .lit t fs => app ``Expr.lit #[qTy t, qFs fs]
  | .func ps rs b => app ``Expr.func #[qPs ps, qPs rs, qSs b]
  | .ty t => app ``Expr.ty #[qTy t]
  | .assert e t => app ``Expr.assert #[qE e, qTy t]
private partial def qEs : Exprs → T
  | .nil => mkCIdent ``Exprs.nil
  | .cons e es => app ``Exprs.cons #[qE e, qEs es]
private partial def qFs : Fields → T
  | .nil => mkCIdent ``Fields.nil
  | .cons k v fs => app ``Fields.cons #[qE k, qE v, qFs fs]
private partial def qS : Stmt → T
  | .expr e => app ``Stmt.expr #[qE e]
  | .define l r => app ``Stmt.define #[qList (l.map quote), qEs r]
  | .assign l r => app ``Stmt.assign #[qEs l, qEs r]
  | .opAssign o l r => app ``Stmt.opAssign #[quote o, qE l, qE r]
  | .send c e => app ``Stmt.send #[qE c, qE e]
  | .decl ns t r => app ``Stmt.decl #[qList (ns.map quote), qTy t, qEs r]
  | .const ns r => app ``Stmt.const #[qList (ns.map quote), qEs r]
  | .if_ i c t e => app ``Stmt.if_ #[qSs i, qE c, qSs t, qSs e]
  | .for_ i c p b => app ``Stmt.for_ #[qSs i, qE c, qSs p, qSs b]
  | .range k v e b => app ``Stmt.range #[quote k, quote v, qE e, qSs b]
  | .switch i t c => app ``Stmt.switch #[qSs i, qE t, qCs c]
  | .select c => app ``Stmt.select #[qCs c]
  | .ret es => app ``Stmt.ret #[qEs es]
  | .defer e => app ``Stmt.defer #[qE e]
  | .go e => app ``Stmt.go #[qE e]
  | .block ss => app ``Stmt.block #[qSs ss]
  | .group ss => app ``Stmt.group #[qSs ss]
  | .brk => mkCIdent ``Stmt.brk
  | .cont => mkCIdent ``Stmt.cont
private partial def qSs : Stmts → T
  | .nil => mkCIdent ``Stmts.nil
  | .cons s ss => app ``Stmts.cons #[qS s, qSs ss]
private partial def qCs : Cases → T
  | .nil => mkCIdent ``Cases.nil
  | .cons es c b cs => app ``Cases.cons #[qEs es, qSs c, qSs b, qCs cs]
end

private def qF (f : FuncDecl) : T := app ``FuncDecl.mk #[quote f.name, qPs f.recv, qPs f.params, qPs f.results, qSs f.body]

/-- Close an equation by reflexivity and leave all of the checking to the kernel. -/
elab "kernel_rfl" : tactic => do
  let g ← Elab.Tactic.getMainGoal
  let t ← Meta.whnfR (← instantiateMVars (← g.getType))
  let some (_, lhs, rhs) := t.eq? | throwError "not an equation"
  match Kernel.isDefEq (← getEnv) (← g.getDecl).lctx lhs rhs with
  | .ok true => pure ()
  | _ => throwError "not equal by definition"
  g.assign (← Meta.mkEqRefl lhs)

/-- A list literal. -/
private def qLits (l : List T) : MacroM T := do
  let a : Syntax.TSepArray `term "," := .ofElems l.toArray
  `([$a,*])

/-- A function of `/repo`, from its text. -/
macro doc:docComment "go_func " f:ident s:str : command => do
  let text := s.getString
  let some d := parseFunc (codesOf text) | Macro.throwErrorAt s "not in the fragment"
  let id (suffix : String) : Ident := mkIdent (f.getId.appendAfter suffix)
  let chars ← qLits (text.toList.map quote)
  `(/-- Source text. -/
    def $(id "_text") : String := $s
    set_option maxRecDepth 200000 in
    /-- Its characters. -/
    def $(id "_chars") : List Char := $chars
    set_option maxRecDepth 200000 in
    $doc:docComment
    def $f : FuncDecl := $(qF d)
    set_option maxRecDepth 200000 in
    theorem $(id "_parse") : parseFunc (codesOf $(id "_text")) = some $f := by
      have h : String.toList $(id "_text") = $(id "_chars") :=
        (congrArg String.toList (by kernel_rfl : $(id "_text") = String.ofList $(id "_chars"))).trans String.toList_ofList
      unfold codesOf
      rw [h]
      kernel_rfl)

end Verif.Go
