import Verif.Model.GoHost
import Verif.Model.GoTextLife
/-!
# Goroutines running the texts of `Start`, `Stop`, `Close` and `startWatch` (`/repo/pkg/backend/internal/backend/backend.go:85-134,263-304`)

The texts, and those of the goroutines they start, run as trees (`Lf`) of what they do to the mutex, the wait group, the contexts and the fields of the
backend; every action is a step of its own (`LfStep`).

Simplifications: what the database answers is arbitrary (requests are `ask` and `revision`); `poll` and the goroutine that `ttl` starts may return at any
time; `ttl` itself adds one to the wait group and starts that goroutine (its text is that of C109); a ticker may tick at any time and its interval is positive (C69).
-/

namespace Verif.Go

open Verif.GoText.Life

/-- Requests of which only the error is of interest. -/
inductive LfOp where
  | create (key value : Bytes) (lease : Int)
  | compactStart
  | doCompact
  | closeDriver
deriving DecidableEq

/-- What a goroutine does, and what it does next. -/
inductive Lf where
  | stuck
  /-- more iterations of a loop than are looked at -/
  | out
  | ret (vs : List V)
  | spawn (t : Lf) (k : Lf)
  /-- the mutex, and the fields `started` and `stop` -/
  | lock (k : Lf)
  | unlock (k : Lf)
  | getStarted (k : Bool → Lf)
  | setStarted (b : Bool) (k : Lf)
  | setStop (g : Option Nat) (k : Lf)
  /-- call the function in the field `stop` -/
  | callStop (k : Lf)
  /-- `context.WithCancel`, and the function it returns -/
  | withCancel (k : Nat → Lf)
  | cancel (g : Nat) (k : Lf)
  /-- requests to the database -/
  | ask (o : LfOp) (ok : Lf) (er : ApiErr → Lf)
  | revision (ok : Int → Lf) (er : ApiErr → Lf)
  | setPoll (n : Int) (k : Lf)
  /-- the wait group -/
  | add (n : Nat) (k : Lf)
  | done (k : Lf)
  | wait (k : Lf)
  /-- `select` of the end of a context and a ticker -/
  | tick (g : Nat) (ended ticked : Lf)
  /-- calls that return in the end -/
  | poll (g : Nat) (k : Lf)
  | ttl (g : Nat) (k : Lf)
  | work (g : Nat) (k : Lf)

/-- `for cond { body }`, at most so many times. -/
def loopF (cond : Store Ext → (V → Store Ext → Lf) → Lf) (body : Store Ext → (Store Ext → Lf) → (Store Ext → Lf) → Lf)
    (k : Store Ext → Lf) : Nat → Store Ext → Lf
  | 0, _ => .out
  | n + 1, s => cond s fun c s =>
    match c with
    | .bool b => bif b then body s (fun s => loopF cond body k n s) k else k s
    | _ => .stuck

/-- The meaning of loops for goroutines. -/
def ctlF : Control Ext Lf := { stuck := .stuck, loop := loopF, range := rangeStd }

/-- An object. -/
def lifeV (o : LifeObj) : V := .ext (.life o)

/-- An error. -/
def lifeErrV (e : ApiErr) : V := .ext (.err e)

/-- `errors.Join` of two. -/
def joinTwo : V → V → V
  | .nil, e => e
  | e, _ => e

/-- Methods of objects. -/
def methF (L : Calls Lf) (x : LifeObj) (m : Nm) (as : List V) (s : Store Ext) (k : List V → Store Ext → Lf) : Lf :=
  match x with
  | .mu =>
    if m == n!"Lock" then .lock (k [] s)
    else if m == n!"Unlock" then .unlock (k [] s)
    else .stuck
  | .wg =>
    if m == n!"Add" then
      match as with
      | [.int n] => .add n.toNat (k [] s)
      | _ => .stuck
    else if m == n!"Done" then .done (k [] s)
    else if m == n!"Wait" then .wait (k [] s)
    else .stuck
  | .stop g => if m == n!"()" then .cancel g (k [] s) else .stuck
  | .ctx g => if m == n!"Done" then k [lifeV (.ctxDone g)] s else .stuck
  | .driver =>
    if m == n!"GetCompactRevision" then .revision (fun n => k [.int n, .tok, .nil] s) fun e => k [.int 0, .int 0, lifeErrV e] s
    else if m == n!"Close" then .ask .closeDriver (k [.nil] s) fun e => k [lifeErrV e] s
    else .stuck
  | .backend =>
    if m == n!"stop" then .callStop (k [] s)
    else if m == n!"Create" then
      match as with
      | [_, .bytes key, .bytes value, .int lease] =>
        .ask (.create key value lease) (k [.tok, .tok, .nil] s) fun e => k [.tok, .tok, lifeErrV e] s
      | _ => .stuck
    else if m == n!"compactStart" then .ask .compactStart (k [.nil] s) fun e => k [lifeErrV e] s
    else if m == n!"DoCompact" then .ask .doCompact (k [.nil] s) fun e => k [lifeErrV e] s
    else if m == n!"poll" then
      match as with
      | [.ext (.life (.ctx g))] => .poll g (k [] s)
      | _ => .stuck
    else if m == n!"ttl" then
      match as with
      | [.ext (.life (.ctx g))] => .ttl g (k [] s)
      | _ => .stuck
    else L n!"Backend" m (lifeV .backend :: as) fun vs => k vs s
  | _ => .stuck

/-- Functions of libraries. -/
def funcF (p m : Nm) (as : List V) (s : Store Ext) (k : List V → Store Ext → Lf) : Lf :=
  if p == n!"context" && m == n!"Background" then k [.tok] s
  else if p == n!"context" && m == n!"WithCancel" then .withCancel fun g => k [lifeV (.ctx g), lifeV (.stop g)] s
  else if p == n!"time" && m == n!"NewTicker" then k [lifeV .ticker] s
  else if p == n!"errors" && m == n!"Join" then
    match as with
    | [a, b] => k [joinTwo a b] s
    | _ => .stuck
  else
    match quietFunc p m as with
    | some vs => k vs s
    | none => .stuck

/-- Fields (`backend.go:68-83`). -/
def fieldF (x : LifeObj) (f : Nm) (k : V → Lf) : Lf :=
  match x with
  | .backend =>
    if f == n!"mu" then k (lifeV .mu)
    else if f == n!"wg" then k (lifeV .wg)
    else if f == n!"Driver" then k (lifeV .driver)
    else if f == n!"Config" then k (lifeV .config)
    else if f == n!"started" then .getStarted fun b => k (.bool b)
    else .stuck
  | .config => if f == n!"CompactInterval" then k .tok else .stuck
  | .ticker => if f == n!"C" then k (lifeV .tick) else .stuck
  | _ => .stuck

/-- Writes of fields. -/
def setFieldF (x : LifeObj) (f : Nm) (v : V) (k : Lf) : Lf :=
  match x with
  | .backend =>
    if f == n!"started" then match v with | .bool b => .setStarted b k | _ => .stuck
    else if f == n!"stop" then
      match v with
      | .nil => .setStop none k
      | .ext (.life (.stop g)) => .setStop (some g) k
      | _ => .stuck
    else if f == n!"pollRevision" then match v with | .int n => .setPoll n k | _ => .stuck
    else .stuck
  | _ => .stuck

/-- The communications. -/
def selectF (cs : List (Comm Ext)) (k : Nat → List V → Lf) : Lf :=
  match cs with
  | [.recv (.ext (.life (.ctxDone g))), .recv (.ext (.life .tick))] => .tick g (k 0 [.nil, .bool false]) (k 1 [.tok, .bool true])
  | _ => .stuck

/-- What the texts find around them; `ct` is the meaning of loops, `N` bounds the iterations of each. -/
def lifeHost (ct : Control Ext Lf) (N : Nat) (L : Calls Lf) : Host Ext Lf :=
  { ctl := ct
    fuel := N
    zero := fun _ _ => none
    glob := fun _ _ => none
    meth := fun v m as s k =>
      match v with
      | .ext (.life x) => methF L x m as s k
      | .tok => if quiet m then k [.tok] s else .stuck
      | _ => .stuck
    func := funcF
    field := fun x f s k =>
      match x with
      | .life x => fieldF x f fun v => k v s
      | _ => .stuck
    setField := fun x f v s k =>
      match x with
      | .life x => setFieldF x f v (k s)
      | _ => .stuck
    go := fun body s k => .spawn (body { s with defers := [] } fun _ => .ret []) (k s)
    select := fun cs s k => selectF cs fun i vs => k i vs s }

/-- The texts. -/
def lifeFuncs : List FuncDecl := [f_Start, f_Stop, f_Backend_Close, f_startWatch]

/-- Calls of functions of the package. -/
def lifeCalls (ct : Control Ext Lf) (N : Nat) : Nat → Calls Lf := textCalls .stuck (lifeHost ct N) lifeFuncs

/-- `Start(ctx)`. -/
def startGo (N : Nat) : Lf := f_Start.run (lifeHost ctlF N (lifeCalls ctlF N 2)) [lifeV .backend, .tok] (Go.done .ret)
/-- `Stop()`. -/
def stopGo (N : Nat) : Lf := f_Stop.run (lifeHost ctlF N (lifeCalls ctlF N 2)) [lifeV .backend] (Go.done .ret)
/-- `Close()`. -/
def closeGo (N : Nat) : Lf := f_Backend_Close.run (lifeHost ctlF N (lifeCalls ctlF N 2)) [lifeV .backend] (Go.done .ret)

/-! ### Goroutines together -/

/-- What they share: the mutex, the fields, the wait group, how many contexts were made and which of them have not ended. -/
structure LfSh where
  locked : Bool := false
  started : Bool := false
  stop : Option Nat := none
  poll : Int := 0
  wg : Nat := 0
  made : Nat := 0
  alive : List Nat := []

/-- End a context. -/
def LfSh.cancel (s : LfSh) (g : Nat) : LfSh := { s with alive := s.alive.filter fun h => h ≠ g }

/-- What the environment chooses in a step: the error or the revision that is answered, and whether a `select` takes its first case. -/
structure LfChoice where
  err : Option ApiErr := none
  n : Int := 0
  first : Bool := false

/-- One action: what is left to do, what is shared after it, the goroutine that is new. A panic leaves `stuck`; `none` if it waits, or has ended. -/
def Lf.act (c : LfChoice) : Lf → LfSh → Option (Lf × LfSh × List Lf)
  | .stuck, _ => none
  | .out, _ => none
  | .ret _, _ => none
  | .spawn t k, s => some (k, s, [t])
  | .lock k, s => bif s.locked then none else some (k, { s with locked := true }, [])
  | .unlock k, s => bif s.locked then some (k, { s with locked := false }, []) else some (.stuck, s, [])
  | .getStarted k, s => some (k s.started, s, [])
  | .setStarted b k, s => some (k, { s with started := b }, [])
  | .setStop g k, s => some (k, { s with stop := g }, [])
  | .callStop k, s =>
    match s.stop with
    | some g => some (k, s.cancel g, [])
    | none => some (.stuck, s, [])
  | .withCancel k, s => some (k s.made, { s with made := s.made + 1, alive := s.made :: s.alive }, [])
  | .cancel g k, s => some (k, s.cancel g, [])
  | .ask _ ok er, s =>
    match c.err with
    | none => some (ok, s, [])
    | some e => some (er e, s, [])
  | .revision ok er, s =>
    match c.err with
    | none => some (ok c.n, s, [])
    | some e => some (er e, s, [])
  | .setPoll n k, s => some (k, { s with poll := n }, [])
  | .add n k, s => some (k, { s with wg := s.wg + n }, [])
  | .done k, s =>
    match s.wg with
    | 0 => some (.stuck, s, [])
    | n + 1 => some (k, { s with wg := n }, [])
  | .wait k, s =>
    match s.wg with
    | 0 => some (k, s, [])
    | _ + 1 => none
  | .tick g ended ticked, s => bif c.first then (if g ∈ s.alive then none else some (ended, s, [])) else some (ticked, s, [])
  | .poll _ k, s => some (k, s, [])
  | .ttl g k, s => some (k, { s with wg := s.wg + 1 }, [.work g (.done (.ret []))])
  | .work _ k, s => some (k, s, [])

/-- The goroutines, each with whether it is a call of one of the methods or one that was started by them; and what they share. -/
structure LfSys where
  ts : List (Bool × Lf) := []
  sh : LfSh := {}

/-- A call of a method. -/
def lifeMethods (N : Nat) : List Lf := [startGo N, stopGo N, closeGo N]

/-- One step. -/
inductive LfStep (N : Nat) : LfSys → LfSys → Prop where
  | call (s : LfSys) (t : Lf) (h : t ∈ lifeMethods N) : LfStep N s { s with ts := s.ts ++ [(true, t)] }
  | act (s : LfSys) (pre post : List (Bool × Lf)) (b : Bool) (t t' : Lf) (sh : LfSh) (new : List Lf) (c : LfChoice)
      (ht : s.ts = pre ++ (b, t) :: post) (h : t.act c s.sh = some (t', sh, new)) :
      LfStep N s { ts := pre ++ (b, t') :: post ++ new.map fun t => (false, t), sh := sh }

/-- What can be reached from a new backend. -/
inductive LfReach (N : Nat) : LfSys → Prop where
  | init : LfReach N {}
  | step {a b : LfSys} : LfReach N a → LfStep N a b → LfReach N b

/-- A step in which no call of `Stop` or `Close` gets the mutex while the backend is not started. -/
def LfCalm (N : Nat) (a b : LfSys) : Prop :=
  ∀ (i : Nat) (t : Lf), (t = stopGo N ∨ t = closeGo N) → a.ts[i]? = some (true, t) → b.ts[i]? = some (true, t) ∨ a.sh.started = true

/-- What can be reached by such steps. -/
inductive LfGood (N : Nat) : LfSys → Prop where
  | init : LfGood N {}
  | step {a b : LfSys} : LfGood N a → LfStep N a b → LfCalm N a b → LfGood N b

/-- What can be reached from a state. -/
inductive LfPath (N : Nat) (s : LfSys) : LfSys → Prop where
  | refl : LfPath N s s
  | step {a b : LfSys} : LfPath N s a → LfStep N a b → LfPath N s b

/-- A goroutine running alone: it ends, or waits, or the choices run out; with the goroutines it has started. -/
def Lf.solo : List LfChoice → Lf → LfSh → Lf × LfSh × List Lf
  | [], t, s => (t, s, [])
  | c :: cs, t, s =>
    match t.act c s with
    | none => (t, s, [])
    | some (t', s', new) => let r := Lf.solo cs t' s'; (r.1, r.2.1, new ++ r.2.2)

/-- Alone, whatever the database answers, the goroutine unlocks the mutex in so many actions, none of which waits or panics. -/
def Lf.frees : Nat → Lf → LfSh → Prop
  | 0, _, s => s.locked = false
  | n + 1, t, s => s.locked = false ∨ ∀ c, ∃ t' s' new, t.act c s = some (t', s', new) ∧ t' ≠ .stuck ∧ Lf.frees n t' s'

/-- Alone, the goroutine can end in so many actions (or has looked at as many iterations of its loop as are looked at). -/
def Lf.canEnd : Nat → Lf → LfSh → Prop
  | 0, t, _ => t = .ret [] ∨ t = .out
  | n + 1, t, s => t = .ret [] ∨ t = .out ∨ ∃ c t' s' new, t.act c s = some (t', s', new) ∧ Lf.canEnd n t' s'

end Verif.Go
