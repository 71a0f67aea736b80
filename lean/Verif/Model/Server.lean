/-!
# The server: `/repo/pkg/server/server.go`, `/repo/pkg/server/util.go`, `/repo/pkg/server/types.go`

Three pieces that do not touch the database:

* the connection pool options (`server.go:62-91`);
* `New` up to and including the call of `app.New` (`server.go:111-363`), as a program over the storage directory with
  a crash possible around every file operation;
* the disk-space watchdog (`server.go:379-416`, `util.go:46-55`), together with the part of `main` that waits for it
  (`/repo/cmd/root.go:163-187`) and `Shutdown` (`server.go:510-526`).
-/

namespace Verif

/-! ## Connection pool -/

/-- The two limits of `ConnectionPoolConfig` that interact (`server.go:62-67`); the two durations are passed on
unchanged (`server.go:89-90`) and left out. -/
structure PoolConfig where
  maxIdle : Int
  maxOpen : Int
deriving DecidableEq, Repr

/-- The fields of `sql.DB` set by `SetMaxIdleConns` and `SetMaxOpenConns` (Go standard library, `database/sql/sql.go`):
`idle` is `maxIdleCount` (0 means the default of 2, negative means none), `open` is `maxOpen` (0 means no limit). -/
structure SqlPool where
  idle : Int
  openLimit : Int
deriving DecidableEq, Repr

/-- A new `sql.DB`: both fields zero. -/
def SqlPool.fresh : SqlPool := ⟨0, 0⟩

/-- `DB.maxIdleConnsLocked`: the number of idle connections that are kept. -/
def SqlPool.keepsIdle (p : SqlPool) : Int :=
  if p.idle = 0 then 2 else if p.idle < 0 then 0 else p.idle

/-- `DB.SetMaxIdleConns`: "If n <= 0, no idle connections are retained"; the result is clipped to the open limit. -/
def SqlPool.setMaxIdle (p : SqlPool) (n : Int) : SqlPool :=
  let idle := if n > 0 then n else -1
  let p := { p with idle := idle }
  if p.openLimit > 0 ∧ p.keepsIdle > p.openLimit then { p with idle := p.openLimit } else p

/-- `DB.SetMaxOpenConns`: a negative limit becomes 0; if the idle limit is now above it, it is set as well. -/
def SqlPool.setMaxOpen (p : SqlPool) (n : Int) : SqlPool :=
  let p := { p with openLimit := if n < 0 then 0 else n }
  if p.openLimit > 0 ∧ p.keepsIdle > p.openLimit then p.setMaxIdle n else p

/-- `ConnectionPoolConfig.apply` (`server.go:69-91`). The local variable `maxIdle` computed at `server.go:73-78` is
only logged; what is passed on is `conf.MaxIdle` (`server.go:87-88`). -/
def PoolConfig.apply (c : PoolConfig) (p : SqlPool) : SqlPool :=
  (p.setMaxIdle c.maxIdle).setMaxOpen c.maxOpen

/-! ## Snapshot tuning -/

/-- `tuning.Snapshot` (`types.go:26-30`). -/
structure SnapshotCfg where
  threshold : UInt64
  trailing : UInt64
  strategy : List Char
deriving DecidableEq, Repr

/-- `dqlite.TrailingStrategyStatic` / `TrailingStrategyDynamic`. -/
inductive TrailingStrategy where
  | static
  | dynamic
deriving DecidableEq, Repr

/-- `dqlite.SnapshotParams` (`server.go:289-293`). -/
structure SnapshotParams where
  threshold : UInt64
  trailing : UInt64
  strategy : TrailingStrategy
deriving DecidableEq, Repr

/-- `defaultThreshold`, `defaultTrailing` (`server.go:103-108,289-293`). -/
def SnapshotParams.default : SnapshotParams := ⟨512, 4096, .dynamic⟩

/-- `strings.EqualFold` on one character, for the letters of "static": Unicode simple folding relates each ASCII letter
with its upper case, and `s` with U+017F as well. -/
def foldChar (c : Char) : Char :=
  if c = Char.ofNat 0x17f then 's' else c.toLower

/-- `strings.EqualFold(v.Strategy, "static")` (`server.go:324`). -/
def isStatic (s : List Char) : Bool := s.map foldChar == ['s', 't', 'a', 't', 'i', 'c']

/-- The adjustment of the snapshot parameters (`server.go:302-332`); the arithmetic is `uint64` arithmetic and wraps. -/
def adjustSnapshot : Option SnapshotCfg → SnapshotParams
  | none => SnapshotParams.default
  | some v =>
    -- server.go:308-311
    let trailing := if v.trailing < 512 then 512 else v.trailing
    -- server.go:312-318
    let threshold :=
      if v.threshold = 0 then v.trailing * 3 / 4 else if v.threshold < 384 then 384 else v.threshold
    -- server.go:319-322
    let threshold := if v.threshold > v.trailing then v.trailing else threshold
    ⟨threshold, trailing, if isStatic v.strategy then .static else .dynamic⟩

/-! ## `New` -/

/-- The contents of a file. The parser and the printer are abstract (`Yaml`), so a file is just a list of symbols. -/
abbrev Text := List Nat

/-- `client.NodeInfo` of go-dqlite: what is stored in `info.yaml`. -/
structure NodeInfo where
  id : Nat
  address : String
  role : Nat
deriving DecidableEq, Repr

/-- `InitConfiguration` (`types.go:5-11`). -/
structure InitCfg where
  address : String
  cluster : List String
deriving DecidableEq, Repr

/-- `TuningConfiguration` (`types.go:22-41`); durations are `int64` nanoseconds. -/
structure TuningCfg where
  snapshot : Option SnapshotCfg
  latency : Option Int
  compactInterval : Option Int
  pollInterval : Option Int
deriving DecidableEq, Repr

/-- `gopkg.in/yaml.v2`: one parser per type read by `fileUnmarshal` (`util.go:14-23`), one printer per value written by
`fileMarshal` (`util.go:25-34`). The two laws are the only facts about YAML that are used: printing then parsing
gives the value back, and an empty document leaves the zero value (without an error). -/
structure Yaml where
  init : Text → Option InitCfg
  update : Text → Option String
  info : Text → Option NodeInfo
  domain : Text → Option UInt64
  tuning : Text → Option TuningCfg
  printInfo : NodeInfo → Text
  printCluster : List NodeInfo → Text
  info_print : ∀ i, info (printInfo i) = some i
  info_empty : info [] = some ⟨0, "", 0⟩

/-- The TLS options handed to go-dqlite (`server.go:255-284`): the size of the client session cache (0: none) and the
minimum version (`0x0301` … `0x0304`). -/
structure TlsOpts where
  cache : Nat
  minVersion : Nat
deriving DecidableEq, Repr

/-- The options of the call `app.New(dir, options...)` (`server.go:360`). -/
structure AppOpts where
  /-- `WithAddress`, `WithCluster` (`server.go:180`) -/
  init : Option InitCfg
  /-- `WithFailureDomain` (`server.go:235`) -/
  domain : UInt64
  /-- `WithTLS` (`server.go:284`) -/
  tls : Option TlsOpts
  /-- `WithSnapshotParams` (`server.go:349`) -/
  snapshot : SnapshotParams
  /-- `WithNetworkLatency` (`server.go:336`) -/
  latency : Option Int
  /-- `WithDiskMode` (`server.go:353`) -/
  diskMode : Bool
deriving DecidableEq, Repr

/-- The arguments of `New` that matter before `app.New` (`server.go:111-124`). -/
structure NewArgs where
  tls : Bool
  diskMode : Bool
  cache : Nat
  minTls : String
  action : String
  /-- `--watch-query-timeout` (`/repo/cmd/root.go:237`) -/
  queryTimeout : Int
  /-- `--watch-progress-notify-interval` (`/repo/cmd/root.go:238`) -/
  notify : Int
deriving DecidableEq, Repr

/-- The intervals of `ServerConfig` (`server.go:51-60,134-141,340-345`), in nanoseconds. -/
structure Intervals where
  compact : Int
  poll : Int
  queryTimeout : Int
  notify : Int
deriving DecidableEq, Repr

/-- `lowAvailableStorageAction` is one of the supported values (`server.go:143-147`). -/
def actionOk (a : String) : Bool := a == "none" || a == "handover" || a == "terminate"

/-- The switch on `minTLSVersion` (`server.go:265-277`). -/
def minVersion (s : String) : Option Nat :=
  if s = "tls10" then some 0x0301 else if s = "tls11" then some 0x0302
  else if s = "" ∨ s = "tls12" then some 0x0303 else if s = "tls13" then some 0x0304 else none

/-- `expectedFilesDuringInitialization` (`server.go:95-101`). -/
def expectedFiles : List String := ["cluster.crt", "cluster.key", "init.yaml", "failure-domain", "tuning.yaml"]

/-- A program over the storage directory. Each operation is given the continuation for its result; a result of `none` or
`false` is an error. -/
inductive FProg (α : Type) where
  | ret (a : α)
  /-- `fileExists` (`util.go:36-44`) -/
  | exists? (name : String) (k : Option Bool → FProg α)
  /-- `os.ReadDir` (`server.go:156`) -/
  | readDir (k : Option (List String) → FProg α)
  /-- `os.ReadFile` (`util.go:15`) -/
  | read (name : String) (k : Option Text → FProg α)
  /-- `os.Remove` (`server.go:174,220`) -/
  | remove (name : String) (k : Bool → FProg α)
  /-- `os.WriteFile` (`util.go:30`) -/
  | write (name : String) (t : Text) (k : Bool → FProg α)
  /-- `dqlite.ReconfigureMembershipExt` (`server.go:207`) -/
  | reconfigure (nodes : List NodeInfo) (k : Bool → FProg α)
  /-- `tls.LoadX509KeyPair`, `os.ReadFile`, `AppendCertsFromPEM` on `cluster.crt`, `cluster.key` (`server.go:242-253`):
  reads only; whether it succeeds is left open -/
  | loadCerts (k : Bool → FProg α)
  /-- `app.New` (`server.go:360`) -/
  | appNew (o : AppOpts) (k : Bool → FProg α)

/-- Sequencing. -/
def FProg.bind {α β : Type} : FProg α → (α → FProg β) → FProg β
  | .ret a, f => f a
  | .exists? n k, f => .exists? n fun r => (k r).bind f
  | .readDir k, f => .readDir fun r => (k r).bind f
  | .read n k, f => .read n fun r => (k r).bind f
  | .remove n k, f => .remove n fun r => (k r).bind f
  | .write n t k, f => .write n t fun r => (k r).bind f
  | .reconfigure ns k, f => .reconfigure ns fun r => (k r).bind f
  | .loadCerts k, f => .loadCerts fun r => (k r).bind f
  | .appNew o k, f => .appNew o fun r => (k r).bind f

/-- An error of `New`, by the place where it is returned. -/
inductive NewErr where
  | badAction
  | checkInit
  | listDir
  | existingState (file : String)
  | readInit
  | emptyInitAddress
  | removeInit
  | checkUpdate
  | readUpdate
  | emptyUpdateAddress
  | readInfo
  | reconfigure
  | writeInfo
  | writeCluster
  | removeUpdate
  | checkDomain
  | readDomain
  | certs
  | badTlsVersion
  | checkTuning
  | readTuning
  | app
deriving DecidableEq, Repr

/-- The part of `New` that consumes `init.yaml` (`server.go:152-180`). -/
def handleInit (y : Yaml) : FProg (Except NewErr (Option InitCfg)) :=
  .readDir fun
  | none => .ret (.error .listDir)
  | some files =>
    match files.find? (fun f => !expectedFiles.contains f) with
    | some f => .ret (.error (.existingState f))
    | none =>
      .read "init.yaml" fun t =>
        match t.bind y.init with
        | none => .ret (.error .readInit)
        | some c =>
          if c.address = "" then .ret (.error .emptyInitAddress)
          else .remove "init.yaml" fun ok =>
            if ok then .ret (.ok (some c)) else .ret (.error .removeInit)

/-- The part of `New` that consumes `update.yaml` (`server.go:184-222`). -/
def handleUpdate (y : Yaml) : FProg (Except NewErr (Option InitCfg)) :=
  .read "update.yaml" fun t =>
    match t.bind y.update with
    | none => .ret (.error .readUpdate)
    | some address =>
      if address = "" then .ret (.error .emptyUpdateAddress)
      else .read "info.yaml" fun t =>
        match t.bind y.info with
        | none => .ret (.error .readInfo)
        | some old =>
          let info := { old with address := address }
          .reconfigure [info] fun ok =>
            if ok then
              .write "info.yaml" (y.printInfo info) fun ok =>
                if ok then
                  .write "cluster.yaml" (y.printCluster [info]) fun ok =>
                    if ok then
                      .remove "update.yaml" fun ok =>
                        if ok then .ret (.ok none) else .ret (.error .removeUpdate)
                    else .ret (.error .writeCluster)
                else .ret (.error .writeInfo)
            else .ret (.error .reconfigure)

/-- `init.yaml` and `update.yaml` (`server.go:149-223`). -/
def handleFiles (y : Yaml) : FProg (Except NewErr (Option InitCfg)) :=
  .exists? "init.yaml" fun
  | none => .ret (.error .checkInit)
  | some true => handleInit y
  | some false =>
    .exists? "update.yaml" fun
    | none => .ret (.error .checkUpdate)
    | some true => handleUpdate y
    | some false => .ret (.ok none)

/-- `failure-domain` (`server.go:225-235`). -/
def handleDomain (y : Yaml) : FProg (Except NewErr UInt64) :=
  .exists? "failure-domain" fun
  | none => .ret (.error .checkDomain)
  | some false => .ret (.ok 0)
  | some true =>
    .read "failure-domain" fun t =>
      match t.bind y.domain with
      | none => .ret (.error .readDomain)
      | some d => .ret (.ok d)

/-- TLS (`server.go:237-285`). -/
def handleTls (a : NewArgs) : FProg (Except NewErr (Option TlsOpts)) :=
  if a.tls then
    .loadCerts fun ok =>
      if ok then
        match minVersion a.minTls with
        | none => .ret (.error .badTlsVersion)
        | some v => .ret (.ok (some ⟨a.cache, v⟩))
      else .ret (.error .certs)
  else .ret (.ok none)

/-- `tuning.yaml` (`server.go:287-346`). -/
def handleTuning (y : Yaml) : FProg (Except NewErr (Option TuningCfg)) :=
  .exists? "tuning.yaml" fun
  | none => .ret (.error .checkTuning)
  | some false => .ret (.ok none)
  | some true =>
    .read "tuning.yaml" fun t =>
      match t.bind y.tuning with
      | none => .ret (.error .readTuning)
      | some c => .ret (.ok (some c))

/-- Continue unless an error was returned. -/
def FProg.andThen {α β : Type} (p : FProg (Except NewErr α)) (f : α → FProg (Except NewErr β)) :
    FProg (Except NewErr β) :=
  p.bind fun
  | .error e => .ret (.error e)
  | .ok a => f a

/-- `CompactInterval: 5 * time.Minute`, `PollInterval: 1 * time.Second`, changed by `tuning.yaml`; the other two are
arguments (`server.go:137-140,340-345`). -/
def intervals (a : NewArgs) (t : Option TuningCfg) : Intervals :=
  ⟨(t.bind (·.compactInterval)).getD 300000000000, (t.bind (·.pollInterval)).getD 1000000000, a.queryTimeout, a.notify⟩

/-- `time.NewTicker` panics if the interval is not positive (Go standard library): the compactor
(`/repo/pkg/backend/internal/backend/backend.go:284`), the poller (`watcher.go:186`) and, for each watch stream, the
progress loop (`/repo/pkg/limited/watch.go:116`) each start one. -/
def Intervals.tickersOk (i : Intervals) : Prop := 0 < i.compact ∧ 0 < i.poll ∧ 0 < i.notify

/-- `New` (`server.go:111-377`). -/
def newServer (y : Yaml) (a : NewArgs) : FProg (Except NewErr Intervals) :=
  if !actionOk a.action then .ret (.error .badAction)
  else
    (handleFiles y).andThen fun init =>
    (handleDomain y).andThen fun domain =>
    (handleTls a).andThen fun tls =>
    (handleTuning y).andThen fun tuning =>
      .appNew ⟨init, domain, tls, adjustSnapshot (tuning.bind (·.snapshot)), tuning.bind (·.latency), a.diskMode⟩ fun ok =>
        if ok then .ret (.ok (intervals a tuning)) else .ret (.error .app)

/-- The storage directory, and the membership recorded in the raft log (which is stored there, too). -/
structure Disk where
  files : String → Option Text
  members : List NodeInfo

/-- A directory with one file replaced (`none`: removed). -/
def Disk.set (d : Disk) (name : String) (t : Option Text) : Disk :=
  { d with files := fun n => if n = name then t else d.files n }

/-- How a run of a program ends: with a crash (or a power failure), or with a result. -/
inductive FOut (α : Type) where
  | crashed
  | returned (a : α)
deriving DecidableEq, Repr

/-- What a write of `t` that does not complete can leave behind: `os.WriteFile` truncates the file and then writes, so
any proper prefix of the data (`util.go:30`). -/
def Torn (t t' : Text) : Prop := ∃ rest, rest ≠ [] ∧ t' ++ rest = t

/-- Runs of a program: `FRun torn p d log out d'` says that `p`, started on the directory `d`, may end in `out` leaving
`d'`; `log` has the calls of `app.New`, each with the options and the directory at that moment. Any operation can fail, and the process can die around any
operation. `torn` says whether an interrupted (or failed) write may leave a part of the data. `ReconfigureMembershipExt`
is taken to be atomic. `app.New` may do anything to the directory. -/
inductive FRun {α : Type} (torn : Bool) : FProg α → Disk → List (AppOpts × Disk) → FOut α → Disk → Prop
  | ret (a : α) (d : Disk) : FRun torn (.ret a) d [] (.returned a) d
  | crash (p : FProg α) (d : Disk) : FRun torn p d [] .crashed d
  | exists? {n k d l o d'} (h : FRun torn (k (some (d.files n).isSome)) d l o d') : FRun torn (.exists? n k) d l o d'
  | existsErr {n k d l o d'} (h : FRun torn (k none) d l o d') : FRun torn (.exists? n k) d l o d'
  | readDir {k d l o d'} (names : List String) (hn : ∀ n, n ∈ names ↔ (d.files n).isSome)
      (h : FRun torn (k (some names)) d l o d') : FRun torn (.readDir k) d l o d'
  | readDirErr {k d l o d'} (h : FRun torn (k none) d l o d') : FRun torn (.readDir k) d l o d'
  | read {n k d l o d'} (h : FRun torn (k (d.files n)) d l o d') : FRun torn (.read n k) d l o d'
  | readErr {n k d l o d'} (h : FRun torn (k none) d l o d') : FRun torn (.read n k) d l o d'
  | remove {n k d l o d'} (hp : (d.files n).isSome) (h : FRun torn (k true) (d.set n none) l o d') :
      FRun torn (.remove n k) d l o d'
  | removeErr {n k d l o d'} (h : FRun torn (k false) d l o d') : FRun torn (.remove n k) d l o d'
  | write {n t k d l o d'} (h : FRun torn (k true) (d.set n (some t)) l o d') : FRun torn (.write n t k) d l o d'
  | writeErr {n t k d l o d'} (h : FRun torn (k false) d l o d') : FRun torn (.write n t k) d l o d'
  | writeTornErr {n t t' k d l o d'} (ht : torn = true) (hp : Torn t t')
      (h : FRun torn (k false) (d.set n (some t')) l o d') : FRun torn (.write n t k) d l o d'
  | writeTornCrash {n t t' k d} (ht : torn = true) (hp : Torn t t') :
      FRun torn (.write n t k) d [] .crashed (d.set n (some t'))
  | reconfigure {ns k d l o d'} (h : FRun torn (k true) { d with members := ns } l o d') :
      FRun torn (.reconfigure ns k) d l o d'
  | reconfigureErr {ns k d l o d'} (h : FRun torn (k false) d l o d') : FRun torn (.reconfigure ns k) d l o d'
  | loadCerts {k d l o d'} (ok : Bool) (h : FRun torn (k ok) d l o d') : FRun torn (.loadCerts k) d l o d'
  | appNew {opts k d l o d'} (ok : Bool) (d₁ : Disk) (h : FRun torn (k ok) d₁ l o d') :
      FRun torn (.appNew opts k) d ((opts, d) :: l) o d'
  | appCrash {opts k d} (d₁ : Disk) : FRun torn (.appNew opts k) d [(opts, d)] .crashed d₁

/-! ## The disk-space watchdog -/

/-- The result of `unix.Statfs`: an error, or the two fields used (`util.go:47-51`). -/
inductive StatFs where
  | err
  | ok (bavail bsize : UInt64)
deriving DecidableEq, Repr

/-- `checkAvailableStorageSize` returns an error (`util.go:46-55`); the product is a `uint64` product. -/
def lowDisk (minBytes : UInt64) : StatFs → Bool
  | .err => true
  | .ok bavail bsize => bavail * bsize < minBytes

/-- What a check can lead to (`server.go:396-407`). -/
inductive DiskAction where
  | handover
  | terminate
deriving DecidableEq, Repr

/-- `switch s.actionOnLowDisk` (`server.go:396-407`). -/
def diskAction (action : String) : Option DiskAction :=
  if action = "none" then none else if action = "handover" then some .handover
  else if action = "terminate" then some .terminate else none

/-- Where `main` is (`cmd/root.go:175-187`) -/
inductive MainPc where
  /-- in the `select` of `cmd/root.go:175` -/
  | waiting
  /-- received something; `cancel()` next (`cmd/root.go:179`) -/
  | leaving
  /-- in `Shutdown`, before `close(s.mustStopCh)` (`server.go:511-522`) -/
  | stopping
  /-- `Shutdown` has returned nil (`server.go:524-525`) -/
  | done
deriving DecidableEq, Repr

/-- Where the goroutine of `watchAvailableStorageSize` is (`server.go:388-410`). -/
inductive DogPc where
  /-- in the `select` -/
  | idle
  /-- in `checkAvailableStorageSize` -/
  | checking
  /-- about to send on `mustStopCh` -/
  | sending
  /-- returned -/
  | gone
deriving DecidableEq, Repr

/-- The watchdog together with `main`. -/
structure Dog where
  action : String
  minBytes : UInt64
  interval : Int
  pc : DogPc
  main : MainPc
  /-- `ctx` is cancelled -/
  cancelled : Bool
  /-- tokens in `mustStopCh` (capacity 1, `server.go:375`) -/
  tokens : Nat
  /-- `mustStopCh` is closed -/
  closed : Bool
  /-- a goroutine has panicked: the process is gone -/
  panicked : Bool
  /-- ghost: the results of the checks so far, oldest first, each with the action taken after it -/
  log : List (StatFs × Option DiskAction)
deriving DecidableEq, Repr

/-- After `Start` (`server.go:463`): the goroutine returns at once if the interval is not positive
(`server.go:382-385`). -/
def Dog.start (action : String) (minBytes : UInt64) (interval : Int) : Dog :=
  { action := action, minBytes := minBytes, interval := interval, pc := if interval ≤ 0 then .gone else .idle,
    main := .waiting, cancelled := false, tokens := 0, closed := false, panicked := false, log := [] }

/-- Steps of the watchdog and of `main`. -/
inductive DogStep : Dog → Dog → Prop
  /-- `case <-ctx.Done()` (`server.go:390-391`) -/
  | exit {s} (hp : s.panicked = false) (h : s.pc = .idle) (hc : s.cancelled = true) :
      DogStep s { s with pc := .gone }
  /-- `case <-time.After(...)` (`server.go:392`); `select` may choose it although the context is cancelled -/
  | tick {s} (hp : s.panicked = false) (h : s.pc = .idle) : DogStep s { s with pc := .checking }
  /-- the check succeeds (`server.go:393`) -/
  | fine {s} (r : StatFs) (hp : s.panicked = false) (h : s.pc = .checking) (hr : lowDisk s.minBytes r = false) :
      DogStep s { s with pc := .idle, log := s.log ++ [(r, none)] }
  /-- the check fails and the action is not to terminate (`server.go:396-403`) -/
  | low {s} (r : StatFs) (hp : s.panicked = false) (h : s.pc = .checking) (hr : lowDisk s.minBytes r = true)
      (ha : diskAction s.action ≠ some .terminate) :
      DogStep s { s with pc := .idle, log := s.log ++ [(r, diskAction s.action)] }
  /-- the check fails and the server must terminate (`server.go:404-405`) -/
  | lowTerm {s} (r : StatFs) (hp : s.panicked = false) (h : s.pc = .checking) (hr : lowDisk s.minBytes r = true)
      (ha : diskAction s.action = some .terminate) :
      DogStep s { s with pc := .sending, log := s.log ++ [(r, some .terminate)] }
  /-- `s.mustStopCh <- struct{}{}` with room in the channel (`server.go:406`) -/
  | send {s} (hp : s.panicked = false) (h : s.pc = .sending) (hc : s.closed = false) (ht : s.tokens < 1) :
      DogStep s { s with pc := .idle, tokens := s.tokens + 1 }
  /-- the same on the closed channel: a panic -/
  | sendClosed {s} (hp : s.panicked = false) (h : s.pc = .sending) (hc : s.closed = true) :
      DogStep s { s with panicked := true }
  /-- a signal arrives (`cmd/root.go:176`) -/
  | signal {s} (hp : s.panicked = false) (h : s.main = .waiting) : DogStep s { s with main := .leaving }
  /-- `case <-instance.MustStop()` (`cmd/root.go:177`) -/
  | mustStop {s} (hp : s.panicked = false) (h : s.main = .waiting) (ht : 0 < s.tokens) :
      DogStep s { s with main := .leaving, tokens := s.tokens - 1 }
  /-- `cancel()` (`cmd/root.go:179`) -/
  | cancel {s} (hp : s.panicked = false) (h : s.main = .leaving) :
      DogStep s { s with main := .stopping, cancelled := true }
  /-- `close(s.mustStopCh)` (`server.go:524`) -/
  | close {s} (hp : s.panicked = false) (h : s.main = .stopping) :
      DogStep s { s with main := .done, closed := true }

/-- Executions. -/
inductive DogReach (s₀ : Dog) : Dog → Prop
  | refl : DogReach s₀ s₀
  | step {s s'} (h : DogReach s₀ s) (st : DogStep s s') : DogReach s₀ s'

end Verif
