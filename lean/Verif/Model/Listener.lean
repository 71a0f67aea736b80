import Verif.Model.Bytes
/-!
# The instrumented listener of the test tools: `/repo/pkg/instrument/dqlite.go`

`Listen` starts a goroutine that accepts connections and hands them over on the unbuffered channel `AcceptedConns`; `Close` stops
it. `Listen` and `Close` are called by one owner, one after the other. Connections are numbered in the order they arrive. Not modelled: the
SQLite counters (C code), dialling.
-/

namespace Verif

/-- The listening socket (`l.netListener`): `nil`, open, or closed but not yet `nil` (`dqlite.go:88-100`). -/
inductive NetSocket where
  | none
  | opened
  | closed
deriving DecidableEq, Repr

/-- The goroutine of `Listen` (`dqlite.go:46-60`). -/
inductive AcceptPc where
  | gone
  /-- in `Accept` -/
  | accepting
  /-- in `l.AcceptedConns <- conn` -/
  | sending (conn : Nat)
deriving DecidableEq, Repr

/-- The owner. -/
inductive OwnerPc where
  | idle
  /-- in `l.wg.Wait()` of `Close` (`dqlite.go:97`) -/
  | closing
deriving DecidableEq, Repr

/-- The listener. -/
structure LisSys where
  socket : NetSocket
  pc : AcceptPc
  owner : OwnerPc
  ctxDone : Bool
  /-- `AcceptedConns` is closed -/
  chanClosed : Bool
  /-- a goroutine has panicked -/
  panicked : Bool
  /-- ghost: how many connections were accepted -/
  accepted : Nat
  /-- ghost: the connections received from the channel -/
  received : List Nat
  /-- ghost: how often `Close` has returned -/
  closes : Nat
deriving DecidableEq, Repr

/-- `NewListener` (`dqlite.go:27-33`). -/
def LisSys.init : LisSys :=
  { socket := .none, pc := .gone, owner := .idle, ctxDone := false, chanClosed := false, panicked := false, accepted := 0,
    received := [], closes := 0 }

/-- The goroutine, the owner, who receives, and the environment. -/
inductive LisActor where
  | goroutine
  | owner
  | receiver
  | env
deriving DecidableEq, Repr

/-- The steps. -/
inductive LisStep : LisActor → LisSys → LisSys → Prop where
  /-- `Listen` (`dqlite.go:35-62`); when there is a socket already it returns an error and does nothing -/
  | listen (s : LisSys) (hp : s.panicked = false) (ho : s.owner = .idle) (h : s.socket = .none) :
      LisStep .owner s { s with socket := .opened, pc := .accepting, ctxDone := false }
  /-- a connection is accepted (`dqlite.go:49-58`) -/
  | accept (s : LisSys) (hp : s.panicked = false) (h : s.pc = .accepting) (hs : s.socket = .opened) :
      LisStep .goroutine s { s with accepted := s.accepted + 1, pc := if s.ctxDone then .gone else .sending s.accepted }
  /-- accepting fails: because the socket was closed, or for another reason (`dqlite.go:49-57`) -/
  | acceptFails (s : LisSys) (hp : s.panicked = false) (h : s.pc = .accepting) :
      LisStep .goroutine s { s with pc := .gone }
  /-- somebody receives the connection (`dqlite.go:58`) -/
  | receive (s : LisSys) (c : Nat) (hp : s.panicked = false) (h : s.pc = .sending c) (hc : s.chanClosed = false) :
      LisStep .receiver s { s with pc := .accepting, received := s.received ++ [c] }
  /-- sending on the closed channel (`dqlite.go:58`) -/
  | sendClosed (s : LisSys) (c : Nat) (hp : s.panicked = false) (h : s.pc = .sending c) (hc : s.chanClosed = true) :
      LisStep .goroutine s { s with panicked := true }
  /-- `Close` of a listener that is not listening (`dqlite.go:89-91`) -/
  | closeNone (s : LisSys) (hp : s.panicked = false) (ho : s.owner = .idle) (h : s.socket = .none) :
      LisStep .owner s { s with closes := s.closes + 1 }
  /-- `Close` up to the waiting (`dqlite.go:93-97`) -/
  | close (s : LisSys) (hp : s.panicked = false) (ho : s.owner = .idle) (h : s.socket ≠ .none) :
      LisStep .owner s { s with socket := .closed, owner := .closing }
  /-- the goroutine is gone, and `Close` returns (`dqlite.go:97-99`); closing the channel twice panics -/
  | closed (s : LisSys) (hp : s.panicked = false) (ho : s.owner = .closing) (h : s.pc = .gone) :
      LisStep .owner s { s with socket := .none, owner := .idle, chanClosed := true, closes := s.closes + 1,
                                panicked := s.chanClosed }
  /-- the context of `Listen` is done -/
  | ctx (s : LisSys) (hp : s.panicked = false) : LisStep .env s { s with ctxDone := true }

/-- Reachable states. -/
inductive LisReachable : LisSys → Prop where
  | init : LisReachable .init
  | step {a b : LisSys} {k : LisActor} : LisReachable a → LisStep k a b → LisReachable b

/-- Any number of steps of some actors. -/
inductive LisSteps (who : LisActor → Prop) : LisSys → LisSys → Prop where
  | refl (s : LisSys) : LisSteps who s s
  | step {a b c : LisSys} {k : LisActor} : who k → LisStep k a b → LisSteps who b c → LisSteps who a c

end Verif
