/-!
# Starting and stopping the process: `/repo/pkg/server/server.go:418-526`, `/repo/cmd/root.go:145-198`

Everything these functions call outside of themselves (dqlite, `database/sql`, the backend, the endpoint, the operating
system) is an operation whose outcome the environment chooses. A program is the tree of its calls; the process may die
between any two of them. What the operations do inside is modelled elsewhere: `server.New` in `Verif.Model.Server`, set-up of the
schema in `Verif.Model.Schema`, the backend's `Start`/`Stop`/`Close` in `Verif.Model.Lifecycle` and
`Verif.Model.Shutdown`, the endpoint in `Verif.Model.Endpoint`. Logging and profiling are left out.
-/

namespace Verif

/-- The operations. An outcome `true` means success, or "yes". -/
inductive BootOp where
  /-- `server.New` (`root.go:145-161`); opens the dqlite application (`server.go:360`) -/
  | new
  /-- `s.app.Ready` (`server.go:420`) -/
  | ready
  /-- `s.app.Open` (`server.go:495`) -/
  | open
  /-- `db.PingContext` (`server.go:500`) -/
  | ping
  /-- `db.Close` (`server.go:502`) -/
  | closeDb
  /-- wait a second; `false`: the context is done (`server.go:480-484`, `sqlite/driver.go:326-330`) -/
  | sleep
  /-- `setup` of the schema (`sqlite/driver.go:315`) -/
  | setup
  /-- the error of `setup` is `ErrIncompatibleVersion` (`sqlite/driver.go:320`) -/
  | incompatible
  /-- `backend.Start` (`server.go:448`) -/
  | backendStart
  /-- `backend.Close` (`server.go:449,511`): stops it and closes the database -/
  | backendClose
  /-- `endpoint.Listen` (`server.go:455-458`): from here on requests are served -/
  | listen
  /-- `go s.watchAvailableStorageSize` (`server.go:463`) -/
  | watchdog
  /-- a signal, or the watchdog wants to stop (`root.go:168-178`) -/
  | wait
  /-- `cancel()` (`root.go:179`): stops the endpoint and the watchdog -/
  | cancel
  /-- `s.app.Handover` (`server.go:516`) -/
  | handover
  /-- `s.app.Close` (`server.go:520`) -/
  | appClose
  /-- `close(s.mustStopCh)` (`server.go:524`) -/
  | closeStopCh
  /-- `otelShutdown` (`root.go:188-192`) -/
  | otelShutdown
deriving DecidableEq, Repr

/-- A program. -/
inductive BootProg (α : Type) where
  | ret (a : α)
  | call (op : BootOp) (k : Bool → BootProg α)

/-- Sequence. -/
def BootProg.bind {α β : Type} : BootProg α → (α → BootProg β) → BootProg β
  | .ret a, f => f a
  | .call op k, f => .call op fun b => (k b).bind f

/-- A call whose outcome does not matter. -/
def BootProg.run (op : BootOp) : BootProg Unit := .call op fun _ => .ret ()

/-- `openAndTestDb` (`server.go:494-507`); `true`: there is a database. -/
def openAndTestDb : BootProg Bool :=
  .call .open fun ok =>
    if ok then .call .ping fun ok => if ok then .ret true else (BootProg.run .closeDb).bind fun _ => .ret false
    else .ret false

/-- The loop of `robustOpenDb` (`server.go:474-485`), with `n` attempts left. -/
def openLoop : Nat → BootProg Bool
  | 0 => .ret false
  | n + 1 => openAndTestDb.bind fun ok =>
      if ok then .ret true else .call .sleep fun go => if go then openLoop n else .ret false

/-- `robustOpenDb` (`server.go:469-492`). -/
def robustOpenDb : BootProg Bool := openLoop 300

/-- The loop of `sqlite.NewDriver` (`sqlite/driver.go:311-336`), with `n` attempts left (`retryAttempts`, 300: `sqlite/driver.go:294`). -/
def setupLoop : Nat → BootProg Bool
  | 0 => .ret false
  | n + 1 => .call .setup fun ok =>
      if ok then .ret true
      else .call .incompatible fun inc =>
        if inc then .ret false else .call .sleep fun go => if go then setupLoop n else .ret false

/-- `dqlite.NewBackend` (`dqlite/backend.go:16-28`, `dqlite/driver.go:36-53`). -/
def newBackend : BootProg Bool := setupLoop 300

/-- What `Start` leaves in the server: an error or not, and whether `s.backend` is set. -/
structure Started where
  ok : Bool
  backend : Bool
deriving DecidableEq, Repr

/-- `(*Server).Start` (`server.go:418-467`). -/
def Server.start : BootProg Started :=
  .call .ready fun ok => if !ok then .ret ⟨false, false⟩ else
  robustOpenDb.bind fun ok => if !ok then .ret ⟨false, false⟩ else
  newBackend.bind fun ok => if !ok then .ret ⟨false, false⟩ else
  .call .backendStart fun ok =>
    if !ok then (BootProg.run .backendClose).bind fun _ => .ret ⟨false, false⟩ else
  .call .listen fun ok => if !ok then .ret ⟨false, true⟩ else
  (BootProg.run .watchdog).bind fun _ => .ret ⟨true, true⟩

/-- How `Shutdown` ends: with an error or without, or in a `nil` dereference. -/
inductive ShutResult where
  | ok
  | failed
  | panicked
deriving DecidableEq, Repr

/-- `(*Server).Shutdown` (`server.go:509-526`). -/
def Server.shutdown (backend : Bool) : BootProg ShutResult :=
  if !backend then .ret .panicked else
  .call .backendClose fun ok => if !ok then .ret .failed else
  (BootProg.run .handover).bind fun _ =>
  .call .appClose fun ok => if !ok then .ret .failed else
  (BootProg.run .closeStopCh).bind fun _ => .ret .ok

/-- How the process ends by itself. -/
inductive ExitStatus where
  | success
  /-- `logrus.Fatal` -/
  | fatal
  | panicked
deriving DecidableEq, Repr

/-- The command (`root.go:145-198`) after its options were looked at; `otel`: tracing is set up. The metrics server is not
shut down: the variable that is tested (`root.go:193`) is never assigned (`root.go:123-126`). -/
def mainRun (otel : Bool) : BootProg ExitStatus :=
  .call .new fun ok => if !ok then .ret .fatal else
  Server.start.bind fun r => if !r.ok then .ret .fatal else
  (BootProg.run .wait).bind fun _ =>
  (BootProg.run .cancel).bind fun _ =>
  (Server.shutdown r.backend).bind fun s =>
    match s with
    | .panicked => .ret .panicked
    | .failed => .ret .fatal
    | .ok => if otel then (BootProg.run .otelShutdown).bind fun _ => .ret .success else .ret .success

/-- The calls made, with their outcomes. -/
abbrev BootLog := List (BootOp × Bool)

/-- `BootPath p l r`: executing `p` makes the calls `l`; then it returns (`r = some …`), or the process dies (`r = none`). -/
inductive BootPath {α : Type} : BootProg α → BootLog → Option α → Prop where
  | ret (a : α) : BootPath (.ret a) [] (some a)
  | died (p : BootProg α) : BootPath p [] none
  | call (op : BootOp) (k : Bool → BootProg α) (b : Bool) {l : BootLog} {r : Option α} (h : BootPath (k b) l r) :
      BootPath (.call op k) ((op, b) :: l) r

end Verif
