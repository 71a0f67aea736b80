import Verif.Lemmas.GoSchemaRun
/-!
# C111: starting a node with the text of the code

`runSu E (newDriverGo cfg) { db := d }` runs the text of `NewDriver`, with the texts of `setup` and of `schema.go` for the functions they call, on the database `d`.
-/

namespace Verif

open Verif.Go Verif.GoText.Schema

/-- Specification: what the text of a function of versions answers. -/
def VersionText (f : List V → (List V → Su) → Su) (as : List Int) (r : V) : Prop := ∀ K, f (as.map .int) K = K [r]

/-- The texts of `NewSchemaVersion`, `Major`, `Minor`, `CompatibleWith` on all integers of 32 and 16 bits. -/
theorem C111_versions (ct : Control Ext Su) (N : Nat) (v : BitVec 32) (major minor : BitVec 16) :
    VersionText (schemaCalls ct N 2 n!"SchemaVersion" n!"Major") [v.toInt] (.int (versionMajor v).toInt) ∧
    VersionText (schemaCalls ct N 2 n!"SchemaVersion" n!"Minor") [v.toInt] (.int (versionMinor v).toInt) ∧
    VersionText (schemaCalls ct N 2 0 n!"NewSchemaVersion") [major.toInt, minor.toInt] (.int (packVersion major minor).toInt) ∧
    VersionText (schemaCalls ct N 2 n!"SchemaVersion" n!"CompatibleWith") [v.toInt, currentVersion.toInt]
      (if versionCompatible v currentVersion then .nil else schV .incompatible) := by
  refine ⟨fun K => ?_, fun K => ?_, fun K => ?_, fun K => ?_⟩
  · refine Eq.trans (b := K [.int (majorI v.toInt)]) (by kernel_rfl) ?_
    rw [major_toInt]
  · refine Eq.trans (b := K [.int (minorI v.toInt)]) (by kernel_rfl) ?_
    rw [minor_toInt]
  · refine Eq.trans (b := K [.int (packI major.toInt minor.toInt)]) (by kernel_rfl) ?_
    rw [pack_toInt32]
  · refine Eq.trans (b := compT v.toInt (K [.nil]) (K [schV .incompatible])) (by unfold compT; kernel_rfl) ?_
    rw [comp_toInt]
    cases versionCompatible v currentVersion <;> rfl

/-- Specification: what `setup` and `NewDriver` answer; `cfg` is the configuration that `NewDriver` was given. -/
def setupAnswer : Except SetupErr (BitVec 32) → List V → Prop
  | .ok v, as => as = [.int v.toInt, .nil]
  | .error .incompatible, as => ∃ v, as = [.int v, schV .incompatible]
  | .error (.db e), as => ∃ v, as = [.int v, schErrV e]

/-- Same. -/
def driverAnswer (cfg : V) : Except SetupErr (BitVec 32) → List V
  | .ok v => [.imm (.struct n!"Driver" [(n!"config", cfg), (n!"currentSchemaVersion", .int v.toInt)]), .nil]
  | .error .incompatible => [.nil, schV .incompatible]
  | .error (.db e) => [.nil, schErrV e]

/-- The text of `setup` on any database with any failures: it ends, gives back the connection and ends the transaction, leaves the database that the
model says and answers what the model says; if it commits, it is the complete migration of a database without a version. -/
theorem C111_setup (E : SuEnv) (d : SchemaDB) :
    let o := setup (E.seen 0) (E.faults 0) (E.between 0 d)
    ∃ s as, runSu E setupGo { db := d } = some (s, as) ∧ setupAnswer o.2 as ∧ s.db = o.1 ∧ s.work = none ∧ s.conns = 0 ∧
      (s.commits = [] ∧ o.1 = E.between 0 d ∨
        (E.between 0 d).version = 0 ∧ o.1 = migrated (E.between 0 d) ∧ s.commits = [migrated (E.between 0 d)]) := by
  intro o
  rw [setupGo_eq]
  obtain ⟨n, cs, hcs, v, h⟩ := run_setup E (fun v => .ret [.int v, .nil]) (.ret [.int 0, schV .incompatible]) (fun v e => .ret [.int v, schErrV e])
    { db := d } rfl
  rw [h]
  change (cs = [] ∧ o.1 = _ ∨ _ ∧ o.1 = _ ∧ _) at hcs
  change ∃ s as, runSu E (match o.2 with | .ok v => _ | .error .incompatible => _ | .error (.db e) => _) { db := o.1, n := n, tries := 1, commits := [] ++ cs } = some (s, as) ∧ _
  rcases o with ⟨d', r⟩
  cases r with
  | ok v => exact ⟨_, _, rfl, rfl, rfl, rfl, rfl, hcs⟩
  | error e =>
    cases e with
    | incompatible => exact ⟨_, _, rfl, ⟨_, rfl⟩, rfl, rfl, rfl, hcs⟩
    | db e => exact ⟨_, _, rfl, ⟨_, rfl⟩, rfl, rfl, rfl, hcs⟩

/-- The text of `NewDriver` with any failures in all its attempts, and with other nodes that do anything between them: it ends after at most 300
attempts with the answer and the database of the model, no connection is left open, no transaction is left unfinished, and what it writes are complete
migrations of databases without a version. -/
theorem C111_newDriver (E : SuEnv) (retry : Bool) (d : SchemaDB) :
    let o := newDriver E.seen E.faults E.between E.ctxDone 300 0 d
    ∃ s, runSu E (newDriverGo (schV (.config true retry))) { db := d } = some (s, driverAnswer (schV (.config true retry)) o.2.1) ∧
      s.db = o.1 ∧ s.work = none ∧ s.conns = 0 ∧ s.tries = o.2.2 ∧ s.tries ≤ 300 ∧
      ∀ c ∈ s.commits, ∃ d' : SchemaDB, d'.version = 0 ∧ c = migrated d' := by
  intro o
  rw [newDriverGo_eq]
  obtain ⟨s, h1, h2, h3, h4, h5, cs, h6, h7, _⟩ := run_attempts E (schV (.config true retry)) 300 0 none { db := d } rfl rfl (by decide)
  refine ⟨s, h1.trans ?_, h2, h3, h4, h5, ?_, fun c hc => h7 c (by rw [h6] at hc; exact hc)⟩
  · show some (s, driverAns _ o.2.1) = _
    cases o.2.1 with
    | ok v => rfl
    | error e => cases e <;> rfl
  · rw [h5]
    exact Nat.le_trans (C46_bounded_attempts E.seen E.faults E.between E.ctxDone 300 0 d).1 (by decide)

/-- A node alone, the text of `NewDriver` and any failures: the file is as it was, or it had no version and is completely migrated, and it was written
once. So it keeps its rows, and a file with a version keeps all of it. -/
theorem C111_alone (E : SuEnv) (hE : ∀ i x, E.between i x = x) (retry : Bool) (d : SchemaDB) :
    ∃ s as, runSu E (newDriverGo (schV (.config true retry))) { db := d } = some (s, as) ∧
      (s.commits = [] ∧ s.db = d ∨ d.version = 0 ∧ s.commits = [migrated d] ∧ s.db = migrated d) ∧
      s.db.kine.getD DB.empty = d.kine.getD DB.empty ∧ (d.version ≠ 0 → s.db = d) := by
  rw [newDriverGo_eq]
  obtain ⟨s, h1, _, _, _, _, cs, h6, _, h8⟩ := run_attempts E (schV (.config true retry)) 300 0 none { db := d } rfl rfl (by decide)
  have h8 := h8 hE
  have h6 : s.commits = cs := h6
  refine ⟨s, _, h1, by rw [h6]; exact h8, ?_, ?_⟩
  · rcases h8 with ⟨_, h⟩ | ⟨_, _, h⟩
    · rw [h]
    · rw [h]
      rfl
  · intro hv
    rcases h8 with ⟨_, h⟩ | ⟨h0, _, _⟩
    · exact h
    · exact absurd h0 hv

/-- Without a configuration, or without a database in it, `NewDriver` touches nothing. -/
theorem C111_refused (retry : Bool) : (∃ e, newDriverGo .nil = .ret [.nil, e] ∧ e ≠ .nil) ∧ ∃ e, newDriverGo (schV (.config false retry)) = .ret [.nil, e] ∧ e ≠ .nil := by
  refine ⟨⟨schV (.errText (litBytes [99, 111, 110, 102, 105, 103, 32, 99, 97, 110, 110, 111, 116, 32, 98, 101, 32, 110, 105, 108])), by kernel_rfl, nofun⟩,
    ⟨schV (.errText (litBytes [100, 98, 32, 99, 97, 110, 110, 111, 116, 32, 98, 101, 32, 110, 105, 108])), ?_, nofun⟩⟩
  cases retry <;> kernel_rfl

/-! Not empty: a fresh file; a file with rows and the old indexes, where the fourth statement of the first attempt fails; a file of a later version. -/

/-- No failures. -/
def noFaults : SetupFaults := { conn := none, read := none, begin := none, read2 := none, stmts := fun _ => none, commit := .ok }

/-- The second failure is a lost answer to the commit. -/
def demoEnv : SuEnv :=
  { seen := fun _ => 0
    faults := fun i => if i = 0 then { noFaults with stmts := fun n => if n = 3 then some .other else none } else if i = 1 then { noFaults with commit := .lost .other } else noFaults
    between := fun _ d => d
    ctxDone := fun _ => false }

/-- Has `NewDriver` answered with a driver whose version is `v`? -/
def answeredVersion (v : Int) : List V → Bool
  | [.imm (.struct _ [_, (_, .int w)]), .nil] => decide (w = v)
  | _ => false

/-- A file with rows and the old indexes. -/
def legacyFile : SchemaDB := { version := 0, kine := some DB.empty, indexes := [.name, .prevRevision] }

example : (match runSu demoEnv (newDriverGo (schV (.config true false))) { db := { version := 0, kine := none, indexes := [] } } with
    | some (s, as) => answeredVersion 65536 as && decide (s.tries = 3 ∧ s.commits.length = 1 ∧ s.db.version = 65536 ∧ s.db.indexes = [.nameDel])
    | none => false) = true := by decide +kernel

example : (match runSu demoEnv (newDriverGo (schV (.config true true))) { db := legacyFile } with
    | some (s, as) => answeredVersion 65536 as && decide (s.tries = 3 ∧ s.db = migrated legacyFile)
    | none => false) = true := by decide +kernel

example : (match runSu { demoEnv with seen := fun _ => packVersion 2 0 } (newDriverGo (schV (.config true true))) { db := { version := packVersion 2 0, kine := none, indexes := [] } } with
    | some (s, as) => answeredVersion 131072 as && decide (s.tries = 1 ∧ s.commits = [])
    | none => false) = true := by decide +kernel

end Verif
