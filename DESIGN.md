# Formal model of canonical/k8s-dqlite in Lean 4 — design

Layout (all under `lean/Verif/`):

* `Model/*`  — executable model of the Go code, function by function, each definition cites file and lines.
* `Spec/*`   — small specifications that know nothing about the model: an etcd-like history of commits and
  what a read/watch/transaction must answer on it.
* `Lemmas/*` — helper lemmas and invariants.
* `Props/*`  — the property theorems (`C01_…`), with non-vacuity examples beside them, and counterexample
  theorems (`…_counterexample`) where the code violates the English property.

## Modelling approach

* **Table**: `DB = { rows : List Row, seq : Int }`, the `kine` table plus its AUTOINCREMENT counter. Each SQL
  statement of `driver.go` is a total function on `DB` written as relational algebra (filter / group-by-max /
  join / order-by / limit), so the statement text can be compared with the definition.
* **Requests as programs**: a Go call that issues several SQL statements is a `Prog α`, a tree of *atomic*
  statements. Each statement execution has an `Outcome` chosen by the environment: `ok`, `trunc n` (the row
  cursor dies after n rows), `fail e` (error, not applied), `lost e` (applied, but an error is reported).
  The retry loops (`query`, `execute`, `Compact`) are modelled with their real bound of 500.
* **Concurrency**: `Sys` holds the database and any number of in-flight programs (client calls, TTL deletes,
  compactors, start-up). A step runs one statement of one program, starts a new call, or kills a program
  (crash). `Run` runs one designated call to completion with arbitrary `Sys` steps in between. Properties
  quantify over all `Run`s from all reachable `Sys`.
* **Ghost history**: the world carries the list of all commits ever made (derived from rows inserted). The
  specification `History.at h r k` replays it. The central invariant `Inv` relates table and history.
* **Watch layer**: state machine of poller, watcher groups, watchers and channels over the same world;
  `Stream` adds the three goroutines of a gRPC watch stream.
* Other cores (batching, prepared cache, schema version, tuning, start-up files, migrator, TTL, lifecycle) are
  separate small state machines.

## Per property plan

| id | what is modelled | how proved |
|----|------------------|-----------|
| C01 | AUTOINCREMENT ids, all SQL writes, Sys | invariant over Sys steps |
| C02–C04 | createSQL/updateSQL/deleteSQL + Txn handlers | refinement to history spec, linearisation point in Run |
| C05–C07, C10–C12 | list/count queries, backend List/Count | refinement: query result = declarative listing of history |
| C08, C09 | list.go limit logic | list lemmas on top of C05; induction over pages |
| C13–C18 | tryCompact/Compact/DoCompact | invariant preservation for any bounds the code can produce |
| C19 | Sys crash steps | same invariant |
| C20, C25 | CAS + retry loops | history linearity |
| C21–C23 | list/update/delete programs under interleaving | Run rely/guarantee; C23 is false of the code: counterexample |
| C24 | create_revision columns | from refinement + spec lemma |
| C26, C27 | Txn classification | case analysis; refinement to etcd spec |
| C28–C34, C37 | watch state machine | invariants over all schedules; C29, C30 boundary, C37 timeouts: counterexamples |
| C35, C36 | Stream | false of the code: counterexamples + partial theorems |
| C38–C40, C55 | TTL scheduling | invariant + C04 |
| C41–C44 | batched.go, prepared.go | state machines |
| C45–C46 | schema version (BitVec 32), setup | bit-vector arithmetic / state machine |
| C47–C49, C56, C57 | server.go decision logic and file steps | case analysis, crash-point induction |
| C50, C51 | client + migrator over the Txn model | refinement |
| C52 | retry loops | induction on attempts |
| C53 | lifecycle lock | state machine; false of the code: counterexample |
| C54 | bridge Range checks | case analysis |
| C58 | rows invariant | invariant |
| C59 | stream ids | invariant |
| C60, C61 | compact txn, compactStart | evaluation; C61 counterexample |
| C62–C64 | reads under every schedule/fault | rely/guarantee on `Run`; C63, C64 false: counterexamples + what holds |
| C65 | watch stream end | false of the code: counterexample + what holds |
| C66, C67 | batched/prepared faults, use after Close | state machines; counterexamples + what holds |
| C68, C69 | server signal path, timer settings | case analysis; counterexamples + what holds |
| C70, C71 | client wrappers | refinement to the Txn/Range theorems |
| C72 | create + retry loop | false of the code: counterexamples + what holds |
| C73 | the SQL texts themselves: lexer, parser, evaluator with an arbitrary row order at every scan, join and grouping | each text parses to an AST (kernel computation), each AST evaluates to the function of `Model/Sql` for every plan and storage |
| C74 | recorded executions of any number of client calls over the system model (`Model/Conc`), sequential specification `Spec/Linear` | each covered call gets a linearization point inside its interval (a commit or the statement that decided its answer); sorting by point gives the sequential execution; invariant over the recorded run |
| C75, C76 | transaction matchers (`Model/Limited`) over the store | what holds for the key actually used + counterexamples where compare and operation name different keys, or options are ignored |
| C77 | a client as an inductive relation over `Run` (the list) and `NReachable` (each watch segment) | induction over segments, using the watch invariant (C28) and C22 |
| C78 | all methods (`Model/Rpc`) | all-statements analysis over `Run` |
| C79 | transactions over the store | all-statements analysis; counterexample for the reserved key |
| C80 | Model/Server.lean (New as a program over a failing directory) | Props/Options.lean: case analysis of every run; `Within` shows which files the earlier parts touch |
| C81 | Model/Composed: nodes with one BSys (Model/Batched) each over the shared World, goroutines waiting in ExecContext, crashes, late transactions | forward simulation onto Model/Conc (Lemmas/Composed): a waiting caller is before its statement until the worker has executed its queue; then C74 and reachability carry over |
| C82 | record of calls and answers of `MRun` (Model/Composed) | linearization of C81, induction over the sequential execution |
| C83 | record of calls and answers of `MRun` | linearization of C81; deletion between two creates from `History.at` |
| C84 | record of calls and answers of `MRun`; stream model for events | revision bounds of each call from its statements, composed by the order of the record |
| C85 | infinite executions `Nat → SSys` of the stream model with state-based fairness | a ranking argument on (commit revision − poll revision) for the poller (a query published after the second completed poll was executed after the commit), then on the number of updates still in the channel; parameters of an answered watch are invariant |
| C86 | infinite executions `Nat → TSys` of a node with its TTL loop, state-based fairness | the version is listed (C39) or its commit becomes a due event of the loop's watch (ranking as in C85); the timer's delete statement leaves no such version, and versions never come back (`Ext.now_back`); fair executions are built round by round, timers scheduled by `Nat.unpair` |
| C87 | stream model with the ghost list `asked` of the client's requests | invariant `QInv` over all stream executions; counterexamples by concrete runs and by a universal statement over all responses |
| C88 | stream model: cancel is the step `unwatch` followed by `closed` | invariants `Gone` (nobody has the number; what was ever published for it is fixed) and `Off` (progress flag) over every continuation |
| C89 | stream model; watchers of the group are kept with their buffers | answers are matched to announced numbers (`QInv.named`); invariant `Stuck`; concrete leaks by executed scenarios |
| C90 | Pool: connections, cache mutex, calls and transactions of database/sql under arbitrary interleaving | invariant (one mutex holder, at most two transaction owners, in use ≤ limit) ⇒ some step is enabled; concrete deadlocks by executed runs |
| C91 | Shutdown: composition of Batched and Prepared with the compactor and the order of Close | invariant over the composition; completion by a decreasing measure of the batcher |
| C92 | Process: Start, Shutdown, their loops and the command as trees of calls with arbitrary outcomes; the process may die after any call | shape of all executions by induction on the loops; order by the last element of cut executions |
| C93 | Endpoint: address parsing on bytes; start-up as steps (remove, bind, listen, chmod) interleaved with connecting clients | induction over the address; invariant of the start-up; counterexample |
| C94 | Tracing: span processors, batch queue with its capacity, export and shutdown as steps | structural; invariant of the queue; counterexample |
| C95 | Errors: errors as wrapped values with kind, code and text; substring search; the retry loop over arbitrary answers | structural induction; occurrences of a text around `: `; refinement of the loops of Prog |
| C96 | Errors: counts made by each operation | case analysis; counterexample |
| C97 | Cursor: each operation as a tree of calls on the cursor with arbitrary outcomes | induction on the tree; counterexample |
| C98 | Listener: the accept goroutine, the owner, receivers and the environment as a transition system | invariants over all schedules; counterexamples |
| C99 | MigratorCmd: the dispatch | case analysis; counterexample |
| C100 | the Go texts themselves: lexer, parser, an interpreter for the fragment of Go they use (GoSyntax, GoSem, GoHost, GoText*) | each text parses to its tree (kernel computation); running the tree on an arbitrary request is evaluated symbolically by the kernel and equals the model's function |
| C101 | the Go texts of the backend, parsed and interpreted (GoTextBackend, GoBackend, GoSem) | each text parses to its tree (kernel computation); symbolic evaluation by the kernel, induction over cursor rows and compaction batches |
| C102 | the Go texts of handlers, backend and driver on one database (GoTextDriver, GoTextDqlite, GoDriver) | link of every driver function to the model, retry loops by induction; composition of the three layers by rewriting; statements by C73 |
| C103 | the Go text of batched.go run by any number of goroutines (GoText, GoBatched, GoBatchedSys: lock sections and queue executions are steps; a goroutine that touches the batcher without the mutex is stuck) | each text evaluates (kernel) to a tree of memory accesses; simulation relation between goroutines and the state machine of C41–C43 (GoBatchedSim, GoBatchedRefine); a budget invariant shows that nobody gets stuck; independence of lock sections from results being written |
| C104 | the Go text of watcher.go run by any number of goroutines (GoTextWatch, GoWatch, GoWatchSys: a goroutine runs until it waits for a mutex, the database or a channel; one that touches guarded memory without its mutex is stuck; maps are iterated over in any order) | each text evaluates (kernel) to a tree of memory accesses (GoWatch); for each stream a simulation relation between the goroutines and the model of C28–C34 with that stream alone (GoWatchRel, GoWatchInv, GoWatchClient, GoWatchPoll, GoWatchPublish, GoWatchSim); then the theorems of the model |
| C105 | the Go text of watch.go run by the goroutines of a stream (GoTextStream, GoStream, GoStreamSys: every access to memory, every lock operation, every receive and send is a step of its own) | each text evaluates (kernel) to a tree of actions (GoStream); a simulation relation with the model of C35, C36, C59, C87, C88 that says for each goroutine where it is and what it still has to send (GoStreamRel, GoStreamSim, GoStreamRun); then the theorems of the model, carried over to the messages as Go values |
| C106 | as C105, with the errgroup: which goroutines have returned to it and its first error | from the phases of ServeProgress (it returns only when the gRPC context has ended or a Send failed) and an invariant on the errgroup; concrete schedules run in the kernel |
| C107 | the Go text of prepared.go run by any number of goroutines (GoTextPrepared, GoPrepared: every lock operation, access to a field or map and operation of the database is a step of its own) | each text evaluates (kernel) to a tree of actions; an invariant over the places in the trees (who holds the lock, what is prepared, cached and closed) by induction on the steps; concrete schedules run in the kernel |
| C108 | as C107, with panics of methods of nil | as C107; counterexamples are concrete schedules run in the kernel |
| C109 | the Go text of ttl.go run by its goroutines (GoTextTtl, GoTtl: queries, group, watch, updates, random numbers, waits, deletions, pauses are steps of their own) | the text evaluates (kernel) to a tree of actions for every bound on the loops; simulation of the model Ttl (TtlRel) by induction on the steps, C38/C39 carried over; concrete schedules run in the kernel |
| C110 | as C109 | C39 carried over along the simulation TtlRel; counterexample: one failed query ends the loop (concrete schedule run in the kernel) |
| C111 | Texts of schema.go, setup and NewDriver (GoTextSchema) run by the interpreter as trees (GoSchema); runSu runs a tree on a file with failures. | setup_run: the text is the tree setupT (kernel evaluation); loop of NewDriver by induction on attempts left; runSu of the tree = setup/newDriver of the model by case analysis on failures and induction on statements. |
| C112 | Texts of client.go and migrator.go (GoTextClient) run by the interpreter as trees of requests and file operations (GoClient); runCl runs a tree as a program of the database. | Each text equals its tree by kernel evaluation; putKey by its five attempts; the run of the tree equals the program of Model/Client for every fate. |
| C113 | As C112; directories and etcd servers as in Model/Client; runEt runs a tree against an etcd server given by its history. | Loops by induction on the directory or the answer; round trip from C50_roundtrip. |
| C114 | Texts of Start, Stop, Close, startWatch (GoTextLife) run by the interpreter as trees of actions on mutex, wait group, contexts, fields and database (GoLife); any number of goroutines, one action a step. | Each text equals its tree by kernel evaluation; a position for each tree; invariant over the list of positions (who holds the mutex, what is owed to the wait group, which context is handed over), by induction over executions; the mutex by a decreasing count of the holder's actions. |
| C115 | Texts of query, execute, dqliteRetry, the closure in NewDriver and the functions of metrics.go run by the interpreter as trees of questions and counts (GoErrors); runEr runs a tree against any sequence of answers. | Each text equals its tree by kernel evaluation, the loop by induction on the attempts that are left; the run of the tree by induction, then by the first answer that stops the loop. |
| C116 | Texts of the four functions run by the interpreter, with the texts of query and the functions that count (GoErrors, GoErrorsRow); runEr runs a tree against any sequence of answers and any outcome of the row. | Each text equals the tree of query followed by a tree for the row: kernel evaluation around the theorem about query (C115); a congruence by induction on the attempts; then the run of C115. |
| C117 | Text of Compact run by the interpreter as a tree: one look at the answer of GetCompactRevision, one question per transaction, each counted with its two revisions (GoErrorsCompact). | The text equals the tree by kernel evaluation and induction on the attempts that are left; the run of the tree by induction, then by the first answer that stops the loop (lemmas of C115). |

## Trusted base

1. **Lean's kernel** (4.33.0). `lake build` elaborates, `vcheck` replays every module in the kernel.
2. **Axioms**: only `propext`, `Classical.choice`, `Quot.sound`, which come with Lean/Mathlib. No own axioms, no
   `native_decide`, no `bv_decide`. Concrete runs use `decide +kernel` or `rfl` (kernel reduction).
3. **The reading of the code**: that each definition of `Model/` means what the cited lines of `/repo` do. Nothing
   connects the Go source to Lean mechanically, except for the SQL texts (see `Model/SqlText`, `Model/SqlParse`, `Model/SqlLang`, `Props/SqlTexts` and tools/sqltext.py)
   and the Go texts listed in tools/gotext.py (`Model/GoText*`, byte-for-byte copies; `tools/gotext.py --check` compares them with /repo).
   For those, what is trusted instead is: the parser `Model/GoSyntax` (a wrong reading would have to yield a tree that still proves), the
   meaning of the fragment in `Model/GoSem` (scoping, `:=`, defer, named results, short-circuit, zero values, pointers, loops; integers unbounded, slices
   are values, no goroutines), and the hosts in `Model/GoHost*`: protobuf accessors and zero values, tracing/metrics/logging as calls without
   effect on the answer, encodings of requests and answers. Calls of functions of the same package run the callee's text in a store of its own on resolved
   data, so a callee cannot write through a pointer of its caller (none of the linked functions does). For the backend and the driver (C101, C102) also:
   `CursorOps`/`progCursor` (`database/sql` rows: one open cursor at a time, `Next` ends early where the cursor breaks and only `Err` tells), `scanCol`
   (`convertAssign`), `Control.lim` (a loop means what every sufficient number of iterations gives; stuck if none suffices), `DbOps`/`progDb` (one
   transaction at a time; an error before its commit leaves nothing behind), SQL constants known by their names (tied to their texts by `C102_queries`,
   `C102_writes` and to /repo by tools/sqltext.py), `fmt.Errorf` with `%w` keeps the wrapped error, `sql.ErrNoRows` is some error that is not retried,
   `notifyWatcherPoll` has no effect on the answer, methods of the embedded `*sqlite.Driver` are promoted in `dqlite.Driver`.
   For batched.go (C103): `batchedHost` (which Go operation is which access to memory, mutex, condition variable, database or context), a lock section
   is one step because the mutex excludes the other goroutines and none of them touches the batcher without it (`C103_never_stuck`), the execution of a queue is
   one step because nobody else depends on what it writes meanwhile (`C103_no_race`) and the database serialises transactions; contexts that are done stay done.
   For watcher.go (C104): `watchHost` (which Go operation is which access to memory, mutex, channel, database or context), the order of iteration over a
   map is any permutation of its entries; a goroutine runs without interruption between two waits, because what it touches is guarded by a mutex it holds
   (`C104_never_stuck`) except for fields used in tracing only and for `pollRevision`, which the poller reads without the mutex and alone writes; clients call
   `Watch` and `Unwatch` of one stream one at a time, with new ids, as pkg/limited/watch.go and ttl.go do.
   For pkg/limited/watch.go (C105): `streamHost` (which Go operation is which action), every action is a step of its own and nothing is assumed of the
   mutex but that it excludes; `Watch`, `Unwatch` and the channel of the group are those of the model of watcher.go (C104 ties it to its text); after a
   failed `Send` later ones fail too; `errgroup` keeps the first error and waits for all; gRPC's `Recv` fails at any time.
   For prepared.go (C107, C108): `prepHost` (which Go operation is which action), reading the field `cache` and accessing the map are one action;
   `database/sql`: statements can be prepared, transactions begun and connections taken until the database is closed, a statement executed until it or
   the database is closed (inside of a transaction always), any of them may fail at any time; `Close` of a statement or database that reports an error
   has closed it; `errors.Join` is nil exactly if there are no errors (the first one stands for all); a panic ends its goroutine without deferred calls
   (in the process it ends everything).
   For ttl.go (C109, C110): `ttlHost` (which Go operation is which action); the two queries, the group, its watch and its updates are those of the models
   Backend and Watch (C101, C102 and C104 tie these to their texts); `rows.Scan` does not fail, a broken cursor ends the rows (the loop does not look at
   `rows.Err`); a deletion may be answered anything (what it does is C38's `Backend.delete`, started as a call of its own); `rand.Intn(n)` gives any number
   below n; `backoff.Retry` calls its function until it gives nil or the context ends; the context may end at any time for any goroutine; the wait group and
   logging have no effect.
   For schema.go, `setup` and `NewDriver` (C111): `schemaHost` and `runSu` (which Go operation is which action, where it may fail); a statement is recognised
   by its text and means what `SchemaStmt` says; `QueryRowContext` fails in `Scan` only, scanning an integer does not fail by itself; after a commit, failed
   or not, `Rollback` does nothing; conversions to `int16`/`int32` wrap around; the closure `Retry` is stored, not called.
   For the client library and the migrator (C112, C113): `clientHost`, `runCl`, `runEt` (which Go operation is which request or file operation),
   `clientv3`'s builders of requests (`OpGet`, `WithPrefix`, `WithSort`, `If`/`Then`/`Else`), a connection is made or not, `fmt.Sprintf` with the index
   gives a different file name for each index, `fmt.Errorf` gives back the error it wraps.
   For starting and stopping the backend (C114): `lifeHost` and `Lf.act` (mutex, wait group, contexts, fields); the database may answer anything; `poll` and
   the goroutine of `ttl` may return at any time; a loop is looked at for N iterations, N arbitrary; the ticker's interval is positive; that a wait group
   must not be used again before its `Wait` has returned is not modelled.
   For retrying and counting (C115): `erHost` and `runEr` (an answer of the database is success or an error of Model/Errors; what `errors.As`, `errors.Is`,
   `strings.Contains` and `fmt.Errorf` with `%d` and `%w` do to such errors; what `Inc` and `Observe` count; the time passed has no effect). In C117 a call of tryCompact is one question, GetCompactRevision one look at its answer. For reading a row (C116) also: `Next`, `Err`, `Scan` and `Close` of rows with at most one row.
4. **Assumed behaviour of the environment**
   * SQLite/dqlite: each single statement and each transaction is atomic and serialisable; AUTOINCREMENT gives
     `max(sqlite_sequence, max rowid)+1`; bare columns next to `MAX(x)` come from a row attaining the maximum;
     BINARY collation on TEXT; a statement may fail without effect, or take effect and report an error.
   * The SQL fragment is given meaning by `Model/SqlLang` (three-valued logic, aggregates, GROUP BY/HAVING with bare
     columns, scalar and IN subqueries, CTE, CROSS JOIN keeping the order of its left side, ORDER BY, LIMIT).
   * Go runtime: mutexes, channels (buffered/unbuffered, `select` picks any ready case), `context` as an
     environment-chosen cancellation; gRPC delivers the messages of one stream in order.
   * Clocks: only used where the code uses them (TTL, tickers); a timer fires at an arbitrary time not before its due
     time.

### Modelled

| /repo | Model |
|---|---|
| pkg/backend/sqlite/driver.go (all statements, retry loops, Compact, List/Count/After/TTL/Create/Update/Delete) | Sql, Driver, Prog, System; statement texts: SqlText, SqlParse, SqlLang; source texts: GoTextDriver, GoTextDqlite (GoDriver) |
| pkg/backend/sqlite/schema.go, driver.go setup and NewDriver, schema version | Schema; source text: GoTextSchema, GoSchema |
| pkg/backend/internal/backend/backend.go | Backend, System, Lifecycle; source texts: GoTextBackend (GoBackend), GoTextLife (GoLife) |
| pkg/backend/internal/backend/{watcher.go,utils.go} | Watch; source text of watcher.go with goroutines: GoTextWatch, GoWatch, GoWatchSys |
| pkg/backend/internal/backend/ttl.go | Ttl; source text with goroutines: GoTextTtl, GoTtl |
| pkg/limited/{create,update,delete,get,list,compact,lease,limited}.go | Limited; source texts: GoTextLimited (GoSyntax, GoSem, GoHost) |
| pkg/limited/watch.go | Stream; source text with goroutines: GoTextStream, GoStream, GoStreamSys |
| pkg/limited/{server,lease,maintenance,dbsize}.go: all other methods | Rpc |
| pkg/database/{batched,prepared}.go | Batched, Prepared; with the connection pool of `database/sql`: Pool; source texts with goroutines: GoTextBatched, GoBatched, GoBatchedSys; GoTextPrepared, GoPrepared |
| pkg/server/server.go Start/Shutdown/robustOpenDb, cmd/root.go order of start and stop | Process |
| shutting down a node's database (server.go Shutdown → backend Close/Stop → database Close) | Shutdown |
| pkg/server/{server,util,types}.go decision logic and file steps; cmd/root.go option handling | Server |
| pkg/backend/dqlite/driver.go dqliteRetry, the default Retry, counters of sqlite/metrics.go | Errors; source texts: GoTextErrors, GoTextDriver (GoErrors, GoErrorsRow, GoErrorsCompact) |
| closing of query cursors (utils.go, driver.go, ttl.go) | Cursor |
| pkg/instrument/dqlite.go Listener | Listener |
| cmd/migrator.go | MigratorCmd |
| pkg/endpoint/endpoint.go (address, socket permissions) | Endpoint |
| cmd/tracing.go (filters, batch export, shutdown) | Tracing |
| pkg/client, pkg/migrator | Client; source texts: GoTextClient, GoClient |
| clients calling all of the above concurrently (calls and answers recorded) | Conc |

### Not modelled

dqlite replication and Raft (assumed to implement a serialisable SQLite), TLS, meters, the contents of spans,
logging, latencies, gRPC encoding, the size pragma (an arbitrary function of the database), performance, memory, 64-bit wrap of
revisions (revisions are unbounded integers; reaching 2^63 rows is out of scope), BackupEtcd's use of a real etcd.

### Simplifications worth knowing

* `NULL` and the empty blob are the same `[]` in `Row`; `created`/`deleted` are `Bool`.
* A call of the driver is a tree of atomic statements; Go code between them is deterministic and local.
* Context deadlines appear as statement failures chosen by the environment, except in the watch model where
  `DeadlineExceeded` is a distinguished error.

## Findings: where the code does not do what a user expects

Each has a kernel-checked counterexample theorem (`…_counterexample`) unless marked (read).

* Watch requests: a cancel request is never confirmed, and a create request that fails is answered with watch id 0 and
  `Created=false`, which no client can match to its request (C87); a refused watch stays registered and buffers all
  events of its range until the stream ends (C89).
* Reads: the header of a *limited* list comes from a later count query (C23); a paginated read that starts at
  revision 0 is not one snapshot (C63); `rows.Err()` is ignored and compaction may remove rows between the two
  queries of one read, so keys can be dropped silently (C64); a single-key read never sets Count (C08).
* Writes: after a lost acknowledgement a retried create reports "exists" for its own write, or applies twice (C72).
  Deleting an absent key with revision 0 fails where etcd succeeds (C27). The transaction matchers ignore some fields
  (C26/C27). Create and delete never look at the compare's key and update never at the put's key, and range ends are
  dropped, so a guarded write can be guarded by nothing (C75); update/delete/else-branch options are ignored, so an
  update with `ignore_value` erases the value (C76).
* Compaction: with duplicate markers none of which has a previous revision, all of them are deleted, and the compact
  revision can go back (C61).
* Reserved key: any client can update `compact_rev_key`, which moves the compact revision without compaction and makes old
  revisions unreadable (C79).
* Watch: events are not filtered by start revision, so a client that lists on one node and watches on a lagging one is
  taken back in time (C29); start = compact revision is accepted although its tombstone
  may be gone, and a compaction that overtakes the poller loses events (C30, C33); PrevKv carries the new lease (C31);
  progress notifications can run ahead of events (C35) and stop after the first event of a watch (C36); the poller
  exits for ever on DeadlineExceeded (C37); a stream whose watcher was dropped stays open (C65).
* Data races without consequences: `WatcherGroup` reads `pollRevision` and `publish` reads `len(w.watchers)`, both for tracing, without
  the mutex that guards them (read; made explicit in `Model/GoWatchSys`).
* TTL: keys ≥ 0xff, a failing Watch, and broken cursors leave leased keys without timer (C39), one failed start-up query ends expiry on the node for good (C110); leases above
  9223372036 s overflow (C55).
* Database wrappers: one cancelled job fails its whole batch (C66); use after Close dereferences nil (C67).
* Connection pool: preparing a statement for a transaction takes a second connection while the cache mutex is held. With
  `--datastore-max-open-connections=1` the first compaction, or the first batch of two writes with a new text, hangs the
  node for ever, and no compaction ever succeeds; with 2 a batch and a compaction can block each other. The default (5)
  is safe (C90). The blocked goroutines wait for a mutex, not for a context, so stopping the node hangs too (read).
* Backend: `Stop` on a backend that is not started returns with the mutex locked (C53, C114).
* Server: snapshot threshold can be below 384 or wrap (C47); crash between removing init.yaml and starting dqlite, or
  during the in-place write of info.yaml, loses the node's identity (C49); `MaxIdle=0` keeps no idle connection (C56);
  a failing `statfs` or a wrapping product counts as low disk space (C57); a signal after the low-space stop panics
  with a send on a closed channel (C68); zero or negative intervals are accepted and panic (C69).
* Package `server`: a `Start` that fails can leave the database open or the backend running, and `Shutdown` after a
  failed `Start` dereferences nil (C92; the command exits before). Signals are handled only after `Start`, which may take
  minutes; one that arrives earlier kills the process at once (read).
* Endpoint: the permissions of a Unix socket are restricted only after it listens, so with an open umask anybody can get in
  before, and never for `unixpacket://` (C93). A failing chmod hides the listen error and leaks the listener; abstract
  sockets (`unix://@…`) cannot be used because of the chmod (read).
* Tracing: the trace provider is never shut down, so the last spans are lost (C94); if the meter exporter fails, the trace
  file is closed while the tracer stays installed (read). The metrics server is shadowed and never shut down (read).
* Errors: the texts that ask for a retry are not looked at in errors that come from dqlite, so "cannot start a transaction within
  a transaction" (code 1) and "database is locked" with code 6 are not retried (C95).
* Counters: reading the compact revision counts twice, an unreadable row counts as success, compaction transactions are not
  counted (C96, with the source text C116); latencies are truncated to whole seconds and the gauge of current operations never changes (read).
* Cursors: reading the leases at start leaves the cursor, and so a connection, open if a row cannot be decoded (C97).
* Test tools: `Close` of the instrumented listener hangs if nobody receives the last connection, and using the listener again
  afterwards panics (C98).
* Watch stream: an error of one goroutine (a watch id chosen by the client, a closed channel, a half-closed stream) is not told to the client while it
  is connected, because `ServeProgress` waits for the gRPC context and `eg.Wait` for it (watch.go:33-38, 116-129); `ws.revision` is written
  without the mutex that its readers hold (watch.go:88) (C106).
* Statement cache: `BeginTx`, `Conn` and `PrepareContext` read `underlying` without the mutex and do not check it for nil, so that they race with
  `Close` and crash the process if it comes first; so does a second `Close` (prepared.go:67-69, 108-142) (C108).
* The migrator accepts a mode that does not exist, does nothing and ends with status 0 (C99).
* Client/migrator: `Put` on an absent key always fails (C51); restore swallows errors of single keys, restores stale
  files, drops leases and keys outside "/" (C50). A backup whose list fails leaves its connection open (C113).
* Schema: a negative minor corrupts the major version (C45).
