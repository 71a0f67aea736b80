import Lean.Elab.Tactic.Basic
import Lean.Elab.Tactic.ElabTerm
import Verif.Model.GoSem
import Verif.Model.GoQuote
/-!
# Running a program in a proof

`go_nf` replaces the left side of an equation by what it computes to, as far as the computation goes without knowing the variables of the
context. The work is done by the kernel's evaluator, and the kernel checks that the two sides are equal by definition.
-/

namespace Verif.Go

open Lean Meta Elab Tactic

/-- The kernel's evaluator. -/
private def kwhnf (e : Lean.Expr) : MetaM Lean.Expr := do
  let e ← instantiateMVars e
  match Kernel.whnf (← getEnv) (← getLCtx) e with
  | .ok e => return e
  | .error _ => return e

/-- Is the head of the term a variable, or a field of one? -/
private partial def neutralHead (na : Lean.Expr → MetaM Lean.Expr) (f : Lean.Expr) : MetaM (Option Lean.Expr) := do
  match f with
  | .fvar _ => return some f
  | .proj S i b =>
    let b ← kwhnf b
    match ← neutralHead na b.getAppFn with
    | none => return none
    | some h =>
      let b' := mkAppN h (← b.getAppArgs.mapM na)
      let some info := getStructureInfo? (← getEnv) S | return none
      let some p := info.getProjFn? i | return none
      return some (← mkAppM p #[b'])
  | _ => return none

/-- Types whose values are evaluated to constructors. -/
private def dataTypes : List Name := [``GV, ``List, ``Prod, ``Store, ``Option, ``Root, ``Dfr]

mutual
private partial def nf (R0 : Lean.Expr) (e : Lean.Expr) : MetaM Lean.Expr := do
  let w ← kwhnf e
  let args := w.getAppArgs
  match ← neutralHead (nfArg R0) w.getAppFn with
  | some h => return mkAppN h (← args.mapM (nfArg R0))
  | none =>
    match w.getAppFn with
    | .const ``Bool.rec _ =>
      if h : args.size = 4 then
        let t ← nf R0 args[2]
        let e ← nf R0 args[1]
        mkAppM ``cond #[args[3], t, e]
      else throwError "stuck: {w}"
    | .const ``Option.rec _ =>
      if h : args.size = 5 then mkAppM ``Option.elim #[args[4], args[2], args[3]]
      else throwError "stuck: {w}"
    | .const n _ =>
      match (← getEnv).find? n with
      | some (.recInfo i) =>
        if h : i.getMajorIdx < args.size then throwError "stuck on {args[i.getMajorIdx]}" else throwError "stuck: {w}"
      | some (.ctorInfo _) => return w
      | _ => throwError "stuck: {w}"
    | .proj S i b =>
      let b ← kwhnf b
      unless b.getAppFn.isConstOf ``Bool.rec do throwError "stuck on field of {b}"
      let some info := getStructureInfo? (← getEnv) S | throwError "stuck on field of {b}"
      let some p := info.getProjFn? i | throwError "stuck on field of {b}"
      return mkAppN (← mkAppM p #[← nf R0 b]) (← args.mapM (nfArg R0))
    | _ => throwError "stuck: {w}"
private partial def nfArg (R0 : Lean.Expr) (a : Lean.Expr) : MetaM Lean.Expr := do
  let t ← whnfR (← inferType a)
  if t == R0 || t.getAppFn.isConstOf (Name.mkStr `Verif.Go "SProg") then return ← nf R0 a
  match t with
  | .forallE .. =>
    forallTelescope t fun xs _ => do
      let mut store := false
      for x in xs do
        if (← whnfR (← x.fvarId!.getType)).getAppFn.isConstOf ``Store then store := true
      if store then return a
      else try
        let b ← nfArg R0 (mkAppN a xs).headBeta
        if b.getAppFn.isConstOf ``Option.elim then return a else mkLambdaFVars xs b
      catch _ => return a
  | _ =>
    match t.getAppFn with
    | .const n _ =>
      if dataTypes.contains n then
        let w ← kwhnf a
        match w.getAppFn with
        | .const c _ =>
          match (← getEnv).find? c with
          | some (.ctorInfo i) =>
            let as := w.getAppArgs
            let mut out := as
            for k in [i.numParams:as.size] do
              out := out.set! k (← nfArg R0 as[k]!)
            return mkAppN w.getAppFn out
          | _ => return a
        | _ => return a
      else if n == ``Nat then
        let w ← kwhnf a
        if w.isRawNatLit || w.isConstOf ``Nat.zero then return mkNatLit (w.rawNatLit?.getD 0) else return a
      else return a
    | _ => return a
end

/-- Have the kernel check a proof by itself, as a theorem of its own. -/
private def separately (t h : Lean.Expr) : MetaM Lean.Expr := do
  let t ← instantiateMVars t
  let h ← instantiateMVars h
  if t.hasExprMVar || h.hasExprMVar then return mkExpectedPropHint h t else mkAuxTheorem t h

/-- Evaluate the left side of the goal. -/
elab "go_nf" : tactic => do
  let g ← getMainGoal
  g.withContext do
    let t ← whnfR (← instantiateMVars (← g.getType))
    let some (ty, lhs, rhs) := t.eq? | throwError "not an equation"
    let lhs' ← nf (← whnfR ty) lhs
    let g' ← mkFreshExprSyntheticOpaqueMVar (← mkEq lhs' rhs) (← g.getTag)
    let u ← getLevel ty
    let h := mkApp2 (.const ``Eq.refl [u]) ty lhs
    let h ← separately (← mkEq lhs lhs') h
    g.assign (← mkEqTrans h g')
    replaceMainGoal [g'.mvarId!]

/-- Scopes, stores and values, not yet evaluated, in the left side of the goal. -/
private partial def envs (e : Lean.Expr) : StateRefT (Std.HashSet Lean.Expr × Array Lean.Expr) MetaM Unit := do
  if (← get).1.contains e then return
  modify fun (a, b) => (a.insert e, b)
  let cand := !e.hasLooseBVars && match e with | .app .. | .proj .. | .letE .. => true | _ => false
  if cand then
    let t ← try some <$> whnfR (← inferType e) catch _ => pure none
    if let some t := t then
      let isData := t.getAppFn.isConstOf ``Store || (t.isAppOf ``List && (t.getArg! 0).isAppOf ``List && ((t.getArg! 0).getArg! 0).isAppOf ``Prod)
      if isData then
        modify fun (a, b) => (a, b.push e)
        return
  match e with
  | .app f a => envs f; envs a
  | .lam _ t b _ => envs t; envs b
  | .forallE _ t b _ => envs t; envs b
  | .letE _ t v b _ => envs t; envs v; envs b
  | .mdata _ b => envs b
  | .proj _ _ b => envs b
  | _ => return

/-- Evaluate the scopes and stores in the left side of the goal. -/
elab "go_env" : tactic => do
  let g ← getMainGoal
  g.withContext do
    let t ← whnfR (← instantiateMVars (← g.getType))
    let some (ty, lhs, rhs) := t.eq? | throwError "not an equation"
    let (_, _, es) ← (envs lhs).run ({}, #[])
    let R0 ← whnfR ty
    let u ← getLevel ty
    let mut e := lhs
    let mut pf? : Option Lean.Expr := none
    for d in es do
      let d' ← nfArg R0 d
      if d == d' then continue
      let dt ← inferType d
      let v ← getLevel dt
      let b := e.replace fun x => if x == d then some (.fvar ⟨`goEnvVar⟩) else none
      let m := Lean.Expr.lam `x dt (b.abstract #[.fvar ⟨`goEnvVar⟩]) .default
      let e' := b.replace fun x => if x == .fvar ⟨`goEnvVar⟩ then some d' else none
      let h := mkExpectedPropHint (mkApp2 (.const ``Eq.refl [v]) dt d) (← mkEq d d')
      let h := mkApp6 (.const ``congrArg [v, u]) dt ty d d' m h
      let h := mkExpectedPropHint h (← mkEq e e')
      pf? := some (match pf? with
        | none => h
        | some pf => mkApp6 (.const ``Eq.trans [u]) ty lhs e e' pf h)
      e := e'
    let some pf := pf? | return
    let g' ← mkFreshExprSyntheticOpaqueMVar (← mkEq e rhs) (← g.getTag)
    g.assign (mkApp6 (.const ``Eq.trans [u]) ty lhs e rhs pf g')
    replaceMainGoal [g'.mvarId!]

/-- Apply the functions that are applied to arguments in the goal. -/
elab "go_beta" : tactic => do
  let g ← getMainGoal
  g.withContext do
    let t ← instantiateMVars (← g.getType)
    replaceMainGoal [← g.replaceTargetDefEq (← Core.betaReduce t)]

/-- Name the functions among the arguments of the left side, or of the program with a cursor that is run there (the bodies of loops and what comes after them): `go_name F k` adds variables
`F`, `k` and equations `hF`, `hk`. -/
elab "go_name" xs:(ppSpace colGt ident)* : tactic => do
  let g ← getMainGoal
  g.withContext do
    let t ← whnfR (← instantiateMVars (← g.getType))
    let some (_, lhs0, rhs) := t.eq? | throwError "not an equation"
    let wrapped := lhs0.getAppFn.isConstOf (Name.mkStr `Verif.Go.SProg "run") && lhs0.getAppNumArgs == 3
    let lhs := if wrapped then lhs0.getArg! 1 else lhs0
    let wrap (e : Lean.Expr) : Lean.Expr := if wrapped then mkAppN lhs0.getAppFn (lhs0.getAppArgs.set! 1 e) else e
    let mut args := lhs.getAppArgs
    let mut names := xs.toList
    let mut found : Array (Nat × Name) := #[]
    for i in [0:args.size] do
      match names with
      | [] => break
      | n :: ns =>
        if (← whnfR (← inferType args[i]!)).isForall then
          found := found.push (i, n.getId)
          names := ns
    let rec go (j : Nat) (args : Array Lean.Expr) : MetaM Lean.Expr := do
      if h : j < found.size then
        let (i, n) := found[j]
        let a := args[i]!
        withLocalDeclD n (← inferType a) fun x => do
          withLocalDeclD (Name.mkSimple ("h" ++ n.toString)) (← mkEq x a) fun hx => do
            mkForallFVars #[x, hx] (← go (j + 1) (args.set! i x))
      else mkEq (wrap (mkAppN lhs.getAppFn args)) rhs
    let t' ← go 0 args
    let g' ← mkFreshExprSyntheticOpaqueMVar t' (← g.getTag)
    let mut as : Array Lean.Expr := #[]
    for (i, _) in found do
      as := as.push args[i]! |>.push (← mkEqRefl args[i]!)
    g.assign (mkAppN g' as)
    let (_, g'') ← g'.mvarId!.introNP (2 * found.size)
    replaceMainGoal [g'']

/-- All elements of the list are pointers to data that is not written to. -/
class Imms {X : Type} (l : List (GV X)) : Prop where
  imm : ∀ v ∈ l, ∃ w, v = .imm w

theorem map_imms {X : Type} (f : GV X → GV X) (l : List (GV X)) [hl : Imms l] (h : ∀ v, f (.imm v) = .imm v) : l.map f = l := by
  have h' : ∀ v ∈ l, f v = v := by
    intro v hv
    obtain ⟨w, rfl⟩ := hl.imm v hv
    exact h w
  rw [List.map_congr_left (g := id) h', List.map_id]

instance {X : Type} (l : List (GV X)) [hl : Imms l] (n : Nat) : Imms (l.take n) := ⟨fun v hv => hl.imm v (List.mem_of_mem_take hv)⟩

instance {X : Type} (l : List (GV X)) [hl : Imms l] (n : Nat) : Imms (l.drop n) := ⟨fun v hv => hl.imm v (List.mem_of_mem_drop hv)⟩

/-- Resolving pointers changes nothing in lists of data: replace `l.map f` by `l` where `Imms l` and `f` keeps pointers to data. -/
elab "go_map" : tactic => do
  let g ← getMainGoal
  g.withContext do
    let mut g := g
    let mut again := true
    let mut any := false
    let mut bad : List Lean.Expr := []
    while again do
      again := false
      let t ← instantiateMVars (← g.getType)
      let bad' := bad
      let some m := t.find? (fun e => e.isAppOfArity ``List.map 4 && !e.hasLooseBVars && !bad'.contains e)
        | break
      again := true
      let f := m.getArg! 2
      let l := m.getArg! 3
      let T ← whnfR (m.getArg! 0)
      unless T.isAppOf ``GV && T == (← whnfR (m.getArg! 1)) do bad := m :: bad; continue
      let some inst ← (try some <$> synthInstance (← mkAppM ``Imms #[l]) catch _ => pure none) | bad := m :: bad; continue
      let X := T.getArg! 0
      let v := mkApp (.const ``GV.imm []) X
      let hTy ← withLocalDeclD `v (← mkAppM ``GV #[X]) fun x => do mkForallFVars #[x] (← mkEq (mkApp f (mkApp v x)) (mkApp v x))
      let h ← withLocalDeclD `v (← mkAppM ``GV #[X]) fun x => do mkLambdaFVars #[x] (← mkEqRefl (mkApp v x))
      let h := mkExpectedPropHint h hTy
      let eq := mkApp5 (.const ``map_imms []) X f l inst h
      let motive ← withLocalDeclD `x (← inferType m) fun x => do
        mkLambdaFVars #[x] (t.replace fun e => if e == m then some x else none)
      let t' := (motive.beta #[l])
      let g' ← mkFreshExprSyntheticOpaqueMVar t' (← g.getTag)
      g.assign (← mkEqMPR (← mkCongrArg motive eq) g')
      g := g'.mvarId!
      any := true
    unless any do throwError "nothing to resolve"
    replaceMainGoal [g]

end Verif.Go
