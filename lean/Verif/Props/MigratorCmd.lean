import Verif.Model.MigratorCmd
/-!
# C99 The migrator does what its mode says
-/

namespace Verif

/-- The modes of the help text (`/repo/cmd/migrator.go:23`), the aliases, and what each asks for. -/
inductive Asks : String → MigOp → Prop where
  | backupEtcd : Asks "backup-etcd" .backupEtcd
  | restoreEtcd : Asks "restore-etcd" .restoreToEtcd
  | backupDqlite : Asks "backup-dqlite" .backupDqlite
  | restoreDqlite : Asks "restore-dqlite" .restoreToDqlite
  | backup : Asks "backup" .backupEtcd
  | restore : Asks "restore" .restoreToDqlite
  | restoreToDqlite : Asks "restore-to-dqlite" .restoreToDqlite
  | restoreToEtcd : Asks "restore-to-etcd" .restoreToEtcd

/-- **C99** (what does hold). With a mode that asks for an operation, exactly that operation is called, once, with the endpoint and the
directory given; and the process ends with status 0 exactly if it returned no error. -/
theorem C99_mode_partial {mode : String} {op : MigOp} (h : Asks mode op) (ok : MigOp → Bytes → Bytes → Bool) (endpoint dir : Bytes) :
    (migratorRun ok mode endpoint dir).calls = [(op, endpoint, dir)] ∧
    ((migratorRun ok mode endpoint dir).status = 0 ↔ ok op endpoint dir = true) := by
  have arm : ∀ o, (migArm ok o endpoint dir).calls = [(o, endpoint, dir)] ∧
      ((migArm ok o endpoint dir).status = 0 ↔ ok o endpoint dir = true) := by
    intro o
    refine ⟨rfl, ?_⟩
    simp only [migArm]
    cases ok o endpoint dir <;> simp
  cases h <;> simp only [migratorRun] <;>
    first
      | (rw [if_pos (by decide +kernel)]; exact arm _)
      | (rw [if_neg (by decide +kernel), if_pos (by decide +kernel)]; exact arm _)
      | (rw [if_neg (by decide +kernel), if_neg (by decide +kernel), if_pos (by decide +kernel)]; exact arm _)
      | (rw [if_neg (by decide +kernel), if_neg (by decide +kernel), if_neg (by decide +kernel), if_pos (by decide +kernel)]
         exact arm _)

/-- No other mode does anything. -/
theorem C99_other_modes {mode : String} (h : ∀ op, ¬ Asks mode op) (ok : MigOp → Bytes → Bytes → Bool) (endpoint dir : Bytes) :
    (migratorRun ok mode endpoint dir).calls = [] := by
  simp only [migratorRun]
  rw [if_neg, if_neg, if_neg, if_neg]
  · rintro (rfl | rfl)
    · exact h _ .restoreToEtcd
    · exact h _ .restoreEtcd
  · rintro rfl; exact h _ .backupDqlite
  · rintro (rfl | rfl | rfl)
    · exact h _ .restore
    · exact h _ .restoreToDqlite
    · exact h _ .restoreDqlite
  · rintro (rfl | rfl)
    · exact h _ .backup
    · exact h _ .backupEtcd

/-- **C99** (the English property does not hold). A mode that does not exist ends with status 0, although nothing was done. -/
theorem C99_mode_counterexample : ∃ mode, (∀ op, ¬ Asks mode op) ∧ ∀ ok endpoint dir,
    migratorRun ok mode endpoint dir = { calls := [], status := 0 } := by
  refine ⟨"backup-to-dqlite", ?_, fun ok endpoint dir => rfl⟩
  have : ∀ mode op, Asks mode op → mode ≠ "backup-to-dqlite" := by
    intro mode op h
    cases h <;> decide +kernel
  exact fun op h => this _ _ h rfl

/-- A failed restore. -/
example (endpoint dir : Bytes) : migratorRun (fun _ _ _ => false) "restore-etcd" endpoint dir =
    { calls := [(.restoreToEtcd, endpoint, dir)], status := 1 } := rfl

end Verif
