import Verif.Model.Batched
import Verif.Model.Prepared
/-!
# Stopping a serving node: `/repo/pkg/backend/internal/backend/backend.go:85-134`, `/repo/pkg/database/batched.go`, `/repo/pkg/database/prepared.go`

The batcher (`Verif.Model.Batched`) on top of the statement cache (`Verif.Model.Prepared`), as composed at
`/repo/pkg/server/server.go:433`, used by requests and background goroutines, and closed by `Backend.Close`.

Requests may be under way, and even begin, at any time: `grpcServer.Stop` (`/repo/pkg/endpoint/endpoint.go:73`) does not wait for
their handlers, and neither does `Shutdown` (`/repo/pkg/server/server.go:511-526`). The same holds for the goroutines
that expire leases (`ttl.go:71,97`), which are not counted by the wait group. All of these only issue queries and writes
(`C91_only_compaction_uses_transactions`).
-/

namespace Verif

/-- How far the shutdown is: not requested; `Stop` waits for the background goroutines (`backend.go:122-125`); the batcher is
being closed (`batched.go:163-178`); the database is closed (`batched.go:178`, `prepared.go:124-142`). -/
inductive DownPhase where
  | serving
  | stopping
  | closing
  | closed
deriving DecidableEq, Repr

/-- A node. -/
structure DownSys (S : Type) where
  prep : PSys
  bat : BSys S
  /-- the goroutine that compacts is running (`backend.go:281-295`) -/
  compactor : Bool
  phase : DownPhase

/-- `NewBatched(NewPrepared(db))` (`server.go:433`). -/
def DownSys.init {S : Type} (s : S) : DownSys S :=
  { prep := .init, bat := .init s, compactor := false, phase := .serving }

/-- The steps. `true`: a step that needs no new request, and no new compaction. -/
inductive DownStep {S : Type} : Bool → DownSys S → DownSys S → Prop where
  /-- anybody begins a query, or executes a statement on behalf of the batcher or in a transaction -/
  | query (d : DownSys S) (q : Bytes) : DownStep false d { d with prep := { d.prep with calls := d.prep.calls ++ [.start q] } }
  | fast (d : DownSys S) (pre post : List PCall) (q : Bytes) (h : d.prep.calls = pre ++ .start q :: post) :
      DownStep true d { d with prep := d.prep.fast pre post q }
  | slow (d : DownSys S) (pre post : List PCall) (q : Bytes) (ok : Bool) (h : d.prep.calls = pre ++ .slow q :: post) :
      DownStep true d { d with prep := d.prep.slow pre post q ok }
  | run (d : DownSys S) (pre post : List PCall) (q : Bytes) (s : Nat) (h : d.prep.calls = pre ++ .have_ q s :: post) :
      DownStep true d { d with prep := d.prep.run pre post q s }
  /-- anybody begins a write -/
  | write (d : DownSys S) (st : BStmt S) : DownStep false d { d with bat := d.bat.submit st }
  | waiter (d : DownSys S) (b : BSys S) (h : BStep .waiter d.bat b) : DownStep true d { d with bat := b }
  | worker (d : DownSys S) (b : BSys S) (h : BStep .worker d.bat b) : DownStep true d { d with bat := b }
  /-- the worker begins the transaction of a batch of several writes (`batched.go:129-133`) -/
  | batch (d : DownSys S) (q : List (BJob S)) (h : d.bat.worker = .executing q) (hl : 1 < q.length) :
      DownStep true d { d with prep := d.prep.direct }
  /-- the compactor begins a transaction (`/repo/pkg/backend/sqlite/driver.go:625`) -/
  | compact (d : DownSys S) (h : d.compactor = true) : DownStep false d { d with prep := d.prep.direct }
  /-- `Start` succeeds (`backend.go:85-113`); when it fails no goroutine has been started -/
  | start (d : DownSys S) (h : d.phase = .serving) : DownStep false d { d with compactor := true }
  /-- `Stop` cancels the context of the background goroutines (`backend.go:115-123`) -/
  | stop (d : DownSys S) (h : d.phase = .serving) : DownStep false d { d with phase := .stopping }
  /-- the compactor ends (`backend.go:288-289`) -/
  | exit (d : DownSys S) (h : d.phase = .stopping) (hc : d.compactor = true) : DownStep true d { d with compactor := false }
  /-- `s.wg.Wait()` returns (`backend.go:125`); then the batcher is closed (`backend.go:131`, `driver.go:810-812`,
  `batched.go:163-172`) -/
  | closeBat (d : DownSys S) (h : d.phase = .stopping) (hc : d.compactor = false) :
      DownStep true d { d with phase := .closing, bat := { d.bat with closed := true, close := .awake } }
  /-- the batcher has waited for its worker; the database is closed (`batched.go:174-178`) -/
  | closePrep (d : DownSys S) (h : d.phase = .closing) (hb : d.bat.close = .done) :
      DownStep true d { d with phase := .closed, prep := d.prep.close }

/-- Reachable from a fresh node. -/
inductive DownReachable {S : Type} : DownSys S → Prop where
  | init (s : S) : DownReachable (DownSys.init s)
  | step {k : Bool} {a b : DownSys S} : DownReachable a → DownStep k a b → DownReachable b

/-- Steps that need no new request. -/
inductive DownRuns {S : Type} : DownSys S → DownSys S → Prop where
  | refl (d : DownSys S) : DownRuns d d
  | step {a b c : DownSys S} : DownRuns a b → DownStep true b c → DownRuns a c

end Verif
