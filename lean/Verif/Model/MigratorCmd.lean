import Verif.Model.Bytes
/-!
# The command `k8s-dqlite migrator`: `/repo/cmd/migrator.go`

Which of the four operations of `/repo/pkg/migrator/migrator.go` runs, and with what status the process ends. The operations themselves
are in `Model/Client.lean`. Not modelled: parsing of the flags (by cobra), logging.
-/

namespace Verif

/-- The four operations (`/repo/pkg/migrator/migrator.go:26,90,53,117`). -/
inductive MigOp where
  | backupEtcd
  | backupDqlite
  | restoreToDqlite
  | restoreToEtcd
deriving DecidableEq, Repr

/-- What a run did: the operations that were called, with endpoint and directory, and the status of the process. -/
structure MigRun where
  calls : List (MigOp × Bytes × Bytes)
  status : Nat
deriving DecidableEq, Repr

/-- One arm of the `switch`: the operation is called; `logrus.Fatal` ends the process with status 1 (`cmd/migrator.go:35-37`). -/
def migArm (ok : MigOp → Bytes → Bytes → Bool) (op : MigOp) (endpoint dir : Bytes) : MigRun :=
  { calls := [(op, endpoint, dir)], status := if ok op endpoint dir then 0 else 1 }

/-- `Run` of the command (`cmd/migrator.go:26-51`). `ok` says whether an operation returns without an error. -/
def migratorRun (ok : MigOp → Bytes → Bytes → Bool) (mode : String) (endpoint dir : Bytes) : MigRun :=
  if mode = "backup" ∨ mode = "backup-etcd" then migArm ok .backupEtcd endpoint dir
  else if mode = "restore" ∨ mode = "restore-to-dqlite" ∨ mode = "restore-dqlite" then migArm ok .restoreToDqlite endpoint dir
  else if mode = "backup-dqlite" then migArm ok .backupDqlite endpoint dir
  else if mode = "restore-to-etcd" ∨ mode = "restore-etcd" then migArm ok .restoreToEtcd endpoint dir
  else { calls := [], status := 0 }

end Verif
