/-!
# Starting and stopping the backend: `/repo/pkg/backend/internal/backend/backend.go:85-134`

A section under `s.mu` is one step. `Close` is `Stop` followed by the closing of the driver (`backend.go:129-134`) and is
not distinguished from `Stop`. The goroutines counted by `s.wg` (compactor, poller and the two of the TTL loop,
`backend.go:104,279`, `ttl.go:46`) are assumed to end once their context is cancelled; nothing else about them is
modelled here. They are counted when `Start` returns (the one added inside of `ttl` a little later is covered by the one
that adds it).
-/

namespace Verif

/-- A call of `Start`, or of `Stop`/`Close`. -/
inductive LCall where
  | start
  | stop
deriving DecidableEq, Repr

/-- `Backend.mu`, `started`, `wg` (`backend.go:68-83`) and the calls under way. -/
structure LSys where
  /-- the mutex was left locked by a call that has returned -/
  leaked : Bool
  started : Bool
  /-- goroutines of the current `Start` -/
  live : Nat
  /-- goroutines whose context was cancelled -/
  dying : Nat
  /-- calls that want the mutex -/
  waiting : List LCall
  /-- `Stop` calls in `s.wg.Wait()` (`backend.go:125`) -/
  joining : Nat
  /-- ghost: calls that have returned -/
  returned : List LCall
deriving DecidableEq, Repr

/-- A new backend (`/repo/pkg/backend/sqlite/backend.go:22-27`, `/repo/pkg/backend/dqlite/backend.go:22-27`). -/
def LSys.init : LSys :=
  { leaked := false, started := false, live := 0, dying := 0, waiting := [], joining := 0, returned := [] }

/-- `Start` with the mutex (`backend.go:85-113`); `ok` tells whether its database requests succeed. -/
def LSys.runStart (s : LSys) (pre post : List LCall) (ok : Bool) : LSys :=
  if s.started then { s with waiting := pre ++ post, returned := s.returned ++ [.start] }
  else if ok then { s with waiting := pre ++ post, returned := s.returned ++ [.start], started := true, live := 4 }
  else { s with waiting := pre ++ post, returned := s.returned ++ [.start] }

/-- `Stop` with the mutex (`backend.go:115-123`). -/
def LSys.runStop (s : LSys) (pre post : List LCall) : LSys :=
  if s.started then
    { s with waiting := pre ++ post, started := false, dying := s.dying + s.live, live := 0, joining := s.joining + 1 }
  else { s with waiting := pre ++ post, leaked := true, returned := s.returned ++ [.stop] }

/-- The steps. -/
inductive LStep : LSys → LSys → Prop where
  | call (s : LSys) (c : LCall) : LStep s { s with waiting := s.waiting ++ [c] }
  | start (s : LSys) (pre post : List LCall) (ok : Bool) (h : s.waiting = pre ++ .start :: post)
      (hl : s.leaked = false) : LStep s (s.runStart pre post ok)
  | stop (s : LSys) (pre post : List LCall) (h : s.waiting = pre ++ .stop :: post) (hl : s.leaked = false) :
      LStep s (s.runStop pre post)
  /-- a goroutine whose context was cancelled ends -/
  | exit (s : LSys) (h : 0 < s.dying) : LStep s { s with dying := s.dying - 1 }
  /-- `s.wg.Wait()` returns when the counter is zero (`backend.go:125-126`) -/
  | joined (s : LSys) (h : 0 < s.joining) (hz : s.live + s.dying = 0) :
      LStep s { s with joining := s.joining - 1, returned := s.returned ++ [.stop] }

/-- Any number of steps. -/
inductive LSteps : LSys → LSys → Prop where
  | refl (s : LSys) : LSteps s s
  | step {a b c : LSys} : LSteps a b → LStep b c → LSteps a c

/-- Steps in which no `Stop` or `Close` gets the mutex while the backend is not started. -/
inductive LGood : LSys → Prop where
  | init : LGood LSys.init
  | step {a b : LSys} : LGood a → LStep a b →
      (∀ pre post, a.waiting = pre ++ .stop :: post → b = a.runStop pre post → a.started = true) → LGood b

end Verif
