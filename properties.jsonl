{"id": "C01", "title": "Revisions are unique and strictly increasing", "statement": "Every write that the server reports as successful returns a revision strictly greater than every revision assigned to any write before it, and the current revision reported by reads never goes backwards, across compactions, failed writes and restarts.", "quantifier": "every reachable history of creates, updates, deletes, TTL expiries and compactions by any number of concurrent clients, with crashes at any statement boundary", "why_tests_cant": "A test sees a handful of histories; a revision could be re-used only after one specific deletion/compaction/crash order.", "anchors": ["pkg/backend/sqlite/driver.go: createSQL, updateSQL, deleteSQL, revSQL, Create, Update, Delete", "pkg/backend/sqlite/schema.go: applySchemaV0_1 (AUTOINCREMENT)"]}
{"id": "C02", "title": "Create succeeds exactly when the key is absent", "statement": "As long as no acknowledgement of the database is lost (see C72 for that): a create transaction succeeds if and only if the key does not exist at the instant the write takes effect; on success the key holds exactly the given value and lease with create revision = mod revision = the returned revision and nothing else changes; on a failure or an error nothing changes at all.", "quantifier": "every store state reachable by any history (including deleted, compacted and re-created keys) and every key, value and lease", "why_tests_cant": "Depends on the whole past of the key (tombstones, compacted tombstones) and on interleaving with other writers.", "anchors": ["pkg/backend/sqlite/driver.go: createSQL, Create", "pkg/limited/create.go: isCreate, create", "pkg/backend/internal/backend/backend.go: Create"]}
{"id": "C03", "title": "Update is compare-and-swap on the mod revision", "statement": "An update transaction with expected revision r succeeds only if the key exists and its current mod revision is r at the instant the write takes effect; on success value and lease are replaced, the create revision is kept, the mod revision is the new revision and nothing else changes. If it reports failure, the key did not have mod revision r at some instant of the call, and (unless the acknowledgement of its own write was lost) it has changed nothing. Expected revision 0 means that the key must be absent.", "quantifier": "every reachable store state, key, value, lease and expected revision (including 0, stale, future and negative ones)", "why_tests_cant": "Requires all histories of a key; optimistic concurrency bugs show only for particular stale revisions.", "anchors": ["pkg/backend/sqlite/driver.go: updateSQL, Update", "pkg/limited/update.go: isUpdate, update", "pkg/backend/internal/backend/backend.go: Update"]}
{"id": "C04", "title": "Delete is compare-and-delete on the mod revision", "statement": "A delete transaction with expected revision r succeeds only if the key exists with mod revision r at the instant the write takes effect; on success the key is absent from all later reads until re-created and the deletion itself gets a new revision. If it reports failure, the key did not have mod revision r at some instant of the call, and (unless the acknowledgement of its own write was lost) it has changed nothing.", "quantifier": "every reachable store state, key and expected revision", "why_tests_cant": "As C03.", "anchors": ["pkg/backend/sqlite/driver.go: deleteSQL, Delete", "pkg/limited/delete.go: isDelete, delete", "pkg/backend/internal/backend/backend.go: Delete"]}
{"id": "C05", "title": "A read at revision r returns exactly the store as of r", "statement": "A successful range read at any revision r at which compaction has not overtaken it, and whose result sets are delivered completely (C62 and C64 say what happens otherwise), returns exactly the keys in [key, rangeEnd) that existed at revision r, each with the value, lease, create revision and mod revision it had at r, in ascending byte order of keys, no key twice.", "quantifier": "every reachable store, every range, every non-compacted revision r", "why_tests_cant": "Quantifies over all histories x all past revisions x all byte-string ranges.", "anchors": ["pkg/backend/sqlite/driver.go: listSQL, listSqlV1_0, List", "pkg/backend/internal/backend/backend.go: List", "pkg/backend/internal/backend/utils.go: scanKeyValue", "pkg/limited/list.go: list", "pkg/limited/get.go: get"]}
{"id": "C06", "title": "Revision 0 and future revisions read the latest state", "statement": "A read with revision 0 or with a revision beyond the current one returns the latest state and reports the current revision in its header.", "quantifier": "every reachable store, range and requested revision", "why_tests_cant": "All values of the requested revision relative to all store states.", "anchors": ["pkg/backend/internal/backend/backend.go: List, Count"]}
{"id": "C07", "title": "Compacted revisions are refused, never served wrong", "statement": "A read at a revision below the compact revision fails with the 'compacted' error and returns no data; a read at or above it never fails with that error.", "quantifier": "every reachable store and every requested revision", "why_tests_cant": "Boundary between compacted/not compacted moves with history.", "anchors": ["pkg/backend/internal/backend/backend.go: List, Count", "pkg/limited/types.go: ErrCompacted"]}
{"id": "C08", "title": "Limits, More and Count are exact", "statement": "A range with limit n>0 returns the first n keys of the unlimited answer; More is true exactly when keys were cut off; Count is always the total number of keys in the range at that revision.", "quantifier": "every reachable store, range, revision and limit", "why_tests_cant": "Boundary n = number of matches for all sizes.", "anchors": ["pkg/limited/list.go: list", "pkg/backend/internal/backend/backend.go: List, Count"]}
{"id": "C09", "title": "Pagination reassembles the full listing", "statement": "Reading page by page at one fixed revision, each page starting just after the last key of the previous page, yields exactly the keys of one unlimited read at that revision, in order, no duplicates, no omissions, even though other clients write in between.", "quantifier": "every history, every page size, every number of pages, every write between pages", "why_tests_cant": "Any number of pages and any interleaved writes.", "anchors": ["pkg/limited/list.go: list", "pkg/backend/internal/backend/backend.go: List", "pkg/backend/sqlite/driver.go: List"]}
{"id": "C10", "title": "Count agrees with List", "statement": "A count-only range returns the number of keys the same range read returns at the same revision.", "quantifier": "every reachable store, range and revision", "why_tests_cant": "Two different SQL queries must agree on all tables.", "anchors": ["pkg/backend/sqlite/driver.go: countRevisionSQL, countRevisionSQLV1_0, Count", "pkg/backend/internal/backend/backend.go: Count", "pkg/limited/list.go: list"]}
{"id": "C11", "title": "A single-key read never sees a neighbour", "statement": "A read without range end returns the requested key or nothing, for every byte string, including keys with NUL bytes and keys that are prefixes of others.", "quantifier": "every pair of byte-string keys", "why_tests_cant": "All byte strings.", "anchors": ["pkg/backend/sqlite/driver.go: List (append(key,0))", "pkg/limited/get.go: get", "pkg/limited/limited.go: Range"]}
{"id": "C12", "title": "Old-schema and new-schema queries are equivalent", "statement": "The list and count queries used on an un-migrated schema return the same rows in the same order as the ones used on the current schema version.", "quantifier": "every table content reachable, every range, revision and limit", "why_tests_cant": "The driver silently runs one or the other; equivalence is over all tables.", "anchors": ["pkg/backend/sqlite/driver.go: listSQL, listSqlV1_0, countRevisionSQL, countRevisionSQLV1_0, List, Count, setup"]}
{"id": "C13", "title": "Compaction is invisible at and above the compact revision", "statement": "Running compaction never changes the answer of any read at a revision at or above the new compact revision.", "quantifier": "every reachable store, compaction bound, range and revision >= compact revision", "why_tests_cant": "All histories and all revisions at once.", "anchors": ["pkg/backend/sqlite/driver.go: tryCompact, Compact, updateCompactSQL", "pkg/backend/internal/backend/backend.go: DoCompact"]}
{"id": "C14", "title": "Compaction never resurrects a deleted key", "statement": "A key that is deleted stays absent at every later revision until it is explicitly re-created, whatever compactions run.", "quantifier": "every reachable history with any number of compactions", "why_tests_cant": "Zombie keys appear only when a tombstone is removed before its predecessor in a particular order.", "anchors": ["pkg/backend/sqlite/driver.go: tryCompact"]}
{"id": "C15", "title": "Compaction is safe under any interleaving and stale bounds", "statement": "Several nodes may compact concurrently, with bounds read earlier than they are applied, interleaved arbitrarily with client writes; stored data at non-compacted revisions is never lost.", "quantifier": "every interleaving of any number of compactors and writers at SQL-transaction granularity, every crash point", "why_tests_cant": "Schedules cannot be enumerated by tests.", "anchors": ["pkg/backend/sqlite/driver.go: Compact, tryCompact", "pkg/backend/dqlite/driver.go: Compact", "pkg/backend/internal/backend/backend.go: DoCompact"]}
{"id": "C16", "title": "Compact revision only advances and keeps the last 100 revisions", "statement": "The compact revision never decreases and always stays at least 100 behind the current revision, so the last 100 revisions are always readable.", "quantifier": "every reachable history and schedule", "why_tests_cant": "Invariant over all schedules.", "anchors": ["pkg/backend/internal/backend/backend.go: DoCompact, SupersededCount", "pkg/backend/sqlite/driver.go: updateCompactSQL"]}
{"id": "C17", "title": "Compaction reclaims everything it may", "statement": "After a compaction run on the leader completes, the compact revision is the current revision minus 100 (if that is ahead), and at or below it the table keeps exactly one row for each key that was alive at that revision and nothing else.", "quantifier": "every reachable store", "why_tests_cant": "Needs all garbage shapes.", "anchors": ["pkg/backend/internal/backend/backend.go: DoCompact, compactBatchSize", "pkg/backend/sqlite/driver.go: Compact, tryCompact"]}
{"id": "C18", "title": "Rows written by the old create bug do not harm compaction", "statement": "Rows of newly created keys whose previous-revision column holds an arbitrary number (written by older peers) never make compaction remove another key's data.", "quantifier": "every value of the previous-revision column of created rows", "why_tests_cant": "Arbitrary legacy data.", "anchors": ["pkg/backend/sqlite/driver.go: tryCompact (created = 0 condition)"]}
{"id": "C19", "title": "Crash safety: committed writes survive, half-done calls leave a consistent store", "statement": "If the server dies between any two SQL transactions of any request, every acknowledged write is still readable, no partial write is visible, and all read guarantees hold after restart.", "quantifier": "every request mix, every crash point at statement/transaction boundaries, any number of crashes", "why_tests_cant": "Crash points x histories.", "anchors": ["pkg/backend/sqlite/driver.go", "pkg/backend/internal/backend/backend.go: Start, startWatch, compactStart, DoCompact"]}
{"id": "C20", "title": "At most one winner per expected revision", "statement": "Of all update/delete transactions on one key that carry the same expected revision, at most one ever succeeds, however they are interleaved.", "quantifier": "every set of concurrent clients and every schedule", "why_tests_cant": "Race outcomes.", "anchors": ["pkg/backend/sqlite/driver.go: updateSQL, deleteSQL", "pkg/limited/update.go: update", "pkg/limited/delete.go: delete"]}
{"id": "C21", "title": "A failed compare-and-swap answers with a real, different version", "statement": "When an update or delete transaction reports failure, the key-value in its else-branch answer (if any) is a version of that same key that existed during the call, and its mod revision differs from the expected revision if that one had been assigned before the call.", "quantifier": "every schedule of other requests between the failed write and the follow-up read", "why_tests_cant": "The follow-up read is a separate query; schedules matter.", "anchors": ["pkg/limited/update.go: update", "pkg/limited/delete.go: delete", "pkg/backend/internal/backend/backend.go: List"]}
{"id": "C22", "title": "An unlimited list is a consistent snapshot at its header revision", "statement": "The answer of an unlimited range read at the latest revision is exactly the state at the revision in its header, and that revision lies between the current revisions at call and return.", "quantifier": "every interleaving of other requests with the queries of the read", "why_tests_cant": "Separate SQL queries; schedules matter.", "anchors": ["pkg/backend/internal/backend/backend.go: List", "pkg/limited/list.go: list"]}
{"id": "C23", "title": "A limited list is a consistent snapshot at its header revision", "statement": "The answer of a limited range read at the latest revision, including Count, is exactly the state at the revision in its header.", "quantifier": "every interleaving of other requests with the queries of the read", "why_tests_cant": "Separate SQL queries; schedules matter.", "anchors": ["pkg/limited/list.go: list (resp.Header = txnHeader(rev) after Count)", "pkg/backend/internal/backend/backend.go: Count"]}
{"id": "C24", "title": "Create revision identifies the incarnation", "statement": "All versions of a key from one creation up to its deletion report the same create revision, equal to the revision of that creation; a re-creation after deletion reports a new one.", "quantifier": "every history of a key, with compaction", "why_tests_cant": "All histories; the creating row may have been compacted away.", "anchors": ["pkg/backend/sqlite/driver.go: createSQL, updateSQL, deleteSQL, listSQL", "pkg/backend/internal/backend/utils.go: scanEvent, scanKeyValue"]}
{"id": "C25", "title": "Lost acknowledgements never duplicate an update or delete", "statement": "If the database reports a retryable error although the statement took effect, the automatic retry of an update or delete never applies it a second time.", "quantifier": "every pattern of lost acknowledgements, failures and interleaved writes during the up to 500 attempts", "why_tests_cant": "Fault patterns.", "anchors": ["pkg/backend/sqlite/driver.go: execute, Update, Delete, maxRetries", "pkg/backend/dqlite/driver.go: dqliteRetry"]}
{"id": "C26", "title": "Every transaction request is classified unambiguously or refused", "statement": "A transaction request matches at most one of the supported shapes (create, delete, update, compact); a request that matches none is refused and changes nothing.", "quantifier": "every transaction request", "why_tests_cant": "All protobuf shapes.", "anchors": ["pkg/limited/limited.go: Txn", "pkg/limited/create.go: isCreate", "pkg/limited/delete.go: isDelete", "pkg/limited/update.go: isUpdate", "pkg/limited/compact.go: isCompact"]}
{"id": "C27", "title": "Kubernetes-shaped transactions behave as in etcd", "statement": "For create/update/delete transactions in which compare, then and else branches name the same key, the answer and the effect are those of the etcd transaction semantics.", "quantifier": "every reachable store and every such request", "why_tests_cant": "All states x requests.", "anchors": ["pkg/limited/limited.go: Txn", "pkg/limited/create.go", "pkg/limited/update.go", "pkg/limited/delete.go"]}
{"id": "C28", "title": "A watch delivers every event from its start revision exactly once, in order", "statement": "A watcher registered on a range with start revision s receives every committed event on that range with revision >= s exactly once and in increasing revision order, as long as its stream keeps up, compaction does not overtake the poller, and compaction has not reached s when the initial query of the watch runs (with its result set delivered completely); whatever happens, it never receives an event twice or out of order.", "quantifier": "every interleaving of commits, polls, registrations and publications; every number of watchers and groups", "why_tests_cant": "Registration races with the poller.", "anchors": ["pkg/backend/internal/backend/watcher.go: Watch, publish, update, initialEvents, poll, publishEvents, getLatestEvents, WatcherGroup"]}
{"id": "C29", "title": "A watch never delivers events older than its start revision", "statement": "A watcher registered with start revision s never receives an event with a revision below s.", "quantifier": "every interleaving of commits, polls and registrations", "why_tests_cant": "Depends on poll lag at registration.", "anchors": ["pkg/backend/internal/backend/watcher.go: Watch, update", "pkg/backend/internal/backend/utils.go: appendEvents"]}
{"id": "C30", "title": "A watch from a compacted revision is refused, otherwise complete", "statement": "A watch whose start revision lies below the compact revision is answered with the compacted error; a watch that is accepted misses no event from its start revision on because of compaction done before.", "quantifier": "every reachable store and start revision", "why_tests_cant": "Boundary start = compact revision.", "anchors": ["pkg/backend/internal/backend/watcher.go: Watch", "pkg/limited/watch.go: Create"]}
{"id": "C31", "title": "Watch events describe the change faithfully", "statement": "Each event carries the right type, key, value, lease, create and mod revision, and its previous key-value is the version the write replaced (absent for creations).", "quantifier": "every committed write of every history, after any compaction", "why_tests_cant": "All histories; the replaced row may be compacted away already.", "anchors": ["pkg/backend/internal/backend/utils.go: scanEvent", "pkg/backend/sqlite/driver.go: afterSQL, afterSQLPrefix, updateSQL, deleteSQL"]}
{"id": "C32", "title": "List then watch reconstructs the store", "statement": "Applying the events of a watch started at revision R+1 to the result of a list at R gives exactly the state at every later revision.", "quantifier": "every history and every R", "why_tests_cant": "Induction over all histories.", "anchors": ["pkg/backend/internal/backend/watcher.go: Watch", "pkg/backend/internal/backend/backend.go: List"]}
{"id": "C33", "title": "The poller never skips or repeats a committed write", "statement": "Successive polls hand each committed event to the watchers exactly once, in revision order, whatever the batch boundaries, as long as compaction does not overtake the poller.", "quantifier": "every sequence of commits, polls, query failures and batch sizes", "why_tests_cant": "Schedules and batch boundaries.", "anchors": ["pkg/backend/internal/backend/watcher.go: poll, getLatestEvents, publishEvents", "pkg/backend/sqlite/driver.go: afterSQL, After"]}
{"id": "C34", "title": "A slow or cancelled watch stream is closed exactly once", "statement": "The update channel of a watcher group is closed at most once, never written after being closed, and a group whose buffer overflows is removed, under any interleaving of overflow and cancellation.", "quantifier": "every interleaving of publish, overflow and context cancellation", "why_tests_cant": "Panics only in rare schedules.", "anchors": ["pkg/backend/internal/backend/watcher.go: publishEvents, publish, WatcherGroup"]}
{"id": "C35", "title": "Progress notifications are truthful", "statement": "When a progress notification with revision R is sent on a stream, every event with revision <= R for the watchers it concerns has been sent before.", "quantifier": "every interleaving of updates, progress requests, ticks and registrations on a stream", "why_tests_cant": "Schedules of three goroutines.", "anchors": ["pkg/limited/watch.go: ServeUpdates, sendUpdates, sendProgress, RequestProgress, Create"]}
{"id": "C36", "title": "Idle watchers keep receiving progress notifications", "statement": "A watcher that received no event during a full notify interval receives a progress notification at its end.", "quantifier": "every history of events and ticks of a stream", "why_tests_cant": "Requires all event/tick sequences.", "anchors": ["pkg/limited/watch.go: sendProgress, sendUpdates"]}
{"id": "C37", "title": "The event poller survives failures", "statement": "After any failing event query (other than shutdown) polling continues and events committed meanwhile are delivered later.", "quantifier": "every sequence of query outcomes, including query timeouts", "why_tests_cant": "Fault sequences.", "anchors": ["pkg/backend/internal/backend/watcher.go: poll, getLatestEvents", "docs/configuration.md: --watch-query-timeout", "cmd/root.go: watch-query-timeout"]}
{"id": "C38", "title": "Lease expiry never removes a newer version", "statement": "When the TTL of a version of a key expires, the key is deleted only if that version is still the current one; a key updated or re-created since is untouched.", "quantifier": "every interleaving of expiry timers and writes, any number of nodes", "why_tests_cant": "Timers race with renewals.", "anchors": ["pkg/backend/internal/backend/ttl.go: ttl (run)", "pkg/backend/internal/backend/backend.go: Delete", "pkg/backend/sqlite/driver.go: deleteSQL"]}
{"id": "C39", "title": "Every leased key is scheduled for expiry", "statement": "Every live version of a key written with a positive lease, before or after the TTL loop started, gets an expiry timer for exactly that version.", "quantifier": "every history and every start point of the TTL loop", "why_tests_cant": "Boundary between the initial scan and the watch.", "anchors": ["pkg/backend/internal/backend/ttl.go: ttl", "pkg/backend/sqlite/driver.go: ttlSQL, ListTTL"]}
{"id": "C40", "title": "Keys without lease never expire", "statement": "A version written with lease 0 is never deleted by the TTL machinery.", "quantifier": "every history", "why_tests_cant": "All histories.", "anchors": ["pkg/backend/internal/backend/ttl.go: ttl", "pkg/backend/sqlite/driver.go: ttlSQL"]}
{"id": "C41", "title": "Batched writes are all-or-nothing and ordered", "statement": "Writes executed together in one batch either all take effect in submission order or none does, and then every one of them reports an error.", "quantifier": "every queue of jobs and every failure point (begin, each statement, commit, cancelled jobs)", "why_tests_cant": "Failure points x queues.", "anchors": ["pkg/database/batched.go: execQueue, exec"]}
{"id": "C42", "title": "Each batched call returns its own result, after its execution", "statement": "A batched write returns only after its own job has been executed in exactly one batch, and returns that job's own result.", "quantifier": "every interleaving of callers and the worker", "why_tests_cant": "Wake-up bookkeeping across runs.", "anchors": ["pkg/database/batched.go: ExecContext, run, execQueue"]}
{"id": "C43", "title": "Batched database shuts down cleanly", "statement": "After Close no new write is accepted, writes queued before are all answered, and Close returns only when the worker is idle.", "quantifier": "every interleaving of callers, worker and Close", "why_tests_cant": "Schedules.", "anchors": ["pkg/database/batched.go: Close, ExecContext, run"]}
{"id": "C44", "title": "Prepared-statement cache prepares each query once and releases everything", "statement": "For every interleaving of calls each distinct query text is prepared at most once successfully, every call uses the statement prepared for its own text, and Close closes every cached statement; after Close new preparations are refused.", "quantifier": "every sequence of concurrent prepare/close calls", "why_tests_cant": "Schedules of the double-checked lock.", "anchors": ["pkg/database/prepared.go: prepare, Close"]}
{"id": "C45", "title": "Schema version packing round-trips", "statement": "Packing a major version and a non-negative minor version (int16 each) and extracting them again returns the same pair, and packed versions order like the pairs.", "quantifier": "every pair of 16-bit major and minor versions", "why_tests_cant": "2^32 pairs.", "anchors": ["pkg/backend/sqlite/schema.go: NewSchemaVersion, Major, Minor, CompatibleWith"]}
{"id": "C46", "title": "Schema setup is safe and idempotent", "statement": "Setting up the schema keeps all stored rows, ends at the current schema version for a fresh or unversioned database, leaves an incompatible database untouched, changes nothing when repeated, and a failure or crash midway leaves the database as it was.", "quantifier": "every initial schema state, version number and failure point", "why_tests_cant": "Versions and failure points.", "anchors": ["pkg/backend/sqlite/driver.go: setup, NewDriver", "pkg/backend/sqlite/schema.go: applySchemaV0_1, applySchemaV1_0, hasTable"]}
{"id": "C47", "title": "Snapshot tuning is always within safe bounds", "statement": "Whatever the tuning file contains, the effective raft trailing is at least 512, the effective threshold is at least 384 and the threshold does not exceed the trailing.", "quantifier": "every pair of 64-bit threshold and trailing values (with wrap-around)", "why_tests_cant": "2^128 inputs.", "anchors": ["pkg/server/server.go: New (tuning), minThreshold, minTrailing"]}
{"id": "C48", "title": "Initialisation never runs over existing state", "statement": "With init.yaml present the server starts only if the directory contains nothing but the expected files; otherwise it refuses before changing anything.", "quantifier": "every directory content", "why_tests_cant": "All directory listings.", "anchors": ["pkg/server/server.go: New, expectedFilesDuringInitialization"]}
{"id": "C49", "title": "Node configuration steps survive a crash", "statement": "If the server dies at any point while applying init.yaml or update.yaml, the next complete start applies the same configuration.", "quantifier": "every crash point in the sequence of file operations", "why_tests_cant": "Crash points.", "anchors": ["pkg/server/server.go: New (init.yaml, update.yaml)", "pkg/server/util.go: fileMarshal"]}
{"id": "C50", "title": "Backup and restore round-trip", "statement": "Backing up a store to a directory and restoring the directory into another store makes every backed-up key hold its backed-up value there, leaving other keys alone.", "quantifier": "every store content, target content and directory content", "why_tests_cant": "All contents.", "anchors": ["pkg/migrator/migrator.go: BackupDqlite, BackupEtcd, RestoreToDqlite, RestoreToEtcd", "pkg/migrator/util.go: putKey", "pkg/client/client.go"]}
{"id": "C51", "title": "Client Put writes the key", "statement": "The client library's Put leaves the key with the given value, whether or not it existed before.", "quantifier": "every store content and key", "why_tests_cant": "All states.", "anchors": ["pkg/client/client.go: Put, Get, Create, Update"]}
{"id": "C52", "title": "Database retries are bounded and stop at the first success or permanent error", "statement": "Each statement is attempted at most 500 times, and is not attempted again after a success or a non-retryable error.", "quantifier": "every sequence of statement outcomes", "why_tests_cant": "All outcome sequences.", "anchors": ["pkg/backend/sqlite/driver.go: query, execute, maxRetries"]}
{"id": "C53", "title": "Starting and stopping the backend never wedges it", "statement": "Any sequence of Start, Stop and Close calls leaves the backend usable: each call returns and releases the backend lock.", "quantifier": "every sequence of lifecycle calls", "why_tests_cant": "Call sequences.", "anchors": ["pkg/backend/internal/backend/backend.go: Start, Stop, Close"]}
{"id": "C54", "title": "Unsupported range options are refused", "statement": "A range request that uses an option the server does not implement (keys-only, sort, serializable, min/max revisions) is refused; it is never answered as if the option were absent.", "quantifier": "every range request", "why_tests_cant": "All option combinations.", "anchors": ["pkg/limited/server.go: Range", "pkg/limited/limited.go: Range", "pkg/limited/list.go: list"]}
{"id": "C55", "title": "A granted lease expires keys after the requested TTL", "statement": "The lease id returned for a TTL of 1 to 9223372035 seconds makes a key written with it expire that many seconds, plus less than one second, after the write is observed.", "quantifier": "every TTL", "why_tests_cant": "All TTL values.", "anchors": ["pkg/limited/lease.go: LeaseGrant", "pkg/backend/internal/backend/ttl.go: ttl"]}
{"id": "C56", "title": "Connection pool options mean what the help says", "statement": "An idle-connection limit of 0 selects the database default, a negative one disables reuse and a positive one is applied as given.", "quantifier": "every configured value", "why_tests_cant": "All ints.", "anchors": ["pkg/server/server.go: ConnectionPoolConfig.apply", "cmd/root.go: datastore-max-idle-connections"]}
{"id": "C57", "title": "Low disk space triggers exactly the configured action", "statement": "When the file system can be queried and has less than 2^64 bytes free: if the available space is below the minimum the configured action and no other is performed; otherwise none is. Unknown actions are refused at start, a non-positive interval disables the check.", "quantifier": "every sequence of disk checks and every configured action", "why_tests_cant": "Sequences.", "anchors": ["pkg/server/server.go: watchAvailableStorageSize, New", "pkg/server/util.go: checkAvailableStorageSize"]}
{"id": "C58", "title": "Key histories never fork", "statement": "No two stored versions of one key ever have the same predecessor, so the unique index of the old schema never rejects a legitimate write.", "quantifier": "every reachable history with compaction", "why_tests_cant": "Invariant over histories.", "anchors": ["pkg/backend/sqlite/driver.go: createSQL, updateSQL, deleteSQL", "pkg/backend/sqlite/schema.go: kine_name_prev_revision_uindex"]}
{"id": "C59", "title": "Watch ids are fresh and announced before use", "statement": "Each accepted watch request on a stream gets an id never used before on that stream, and the client sees the 'created' answer before any event for that id.", "quantifier": "every sequence of requests and updates on a stream", "why_tests_cant": "Schedules.", "anchors": ["pkg/limited/watch.go: ServeRequests, Create, sendUpdates"]}
{"id": "C60", "title": "Client compaction requests change nothing", "statement": "Neither the Compact call nor the API server's compaction transaction changes any stored data or the compact revision; the transaction reports failure.", "quantifier": "every store and request", "why_tests_cant": "All states.", "anchors": ["pkg/limited/compact.go: isCompact, compact", "pkg/limited/server.go: Compact"]}
{"id": "C61", "title": "Duplicate compaction markers are repaired without losing the compact revision", "statement": "If the database contains several compaction marker rows, start-up keeps one that records the highest compact revision.", "quantifier": "every set of marker rows", "why_tests_cant": "All marker contents.", "anchors": ["pkg/backend/internal/backend/backend.go: compactStart"]}
{"id": "C62", "title": "Returned key-values are never wrong, whatever happens during the read", "statement": "Whatever faults, broken result sets and concurrent compactions happen during a range read, every key-value it returns lies in the requested range and is exactly the version that key had at one revision that is the requested one (or, for revision 0, one that was current during the call); the keys are strictly ascending; and the read changes nothing.", "quantifier": "every reachable store, every range request, every interleaving with writes, compactions and crashes, every fault of the database", "why_tests_cant": "Needs all schedules of faults and compactions inside the read.", "anchors": ["pkg/limited/list.go: list", "pkg/limited/get.go: get", "pkg/backend/internal/backend/backend.go: List, Count", "pkg/backend/sqlite/driver.go: List"]}
{"id": "C63", "title": "Pagination that starts with a latest read is one snapshot", "statement": "Reading the first page with revision 0 and all further pages at the revision in the header of the first page yields exactly the state at that revision.", "quantifier": "every reachable store, every page size, every interleaving with writes", "why_tests_cant": "Depends on a write landing between two particular queries of the first page.", "anchors": ["pkg/limited/list.go: list"]}
{"id": "C64", "title": "A read fails rather than silently dropping keys", "statement": "A successful range read at a revision that is not compacted when the call starts never omits a key that existed at that revision (apart from the limit, which sets More).", "quantifier": "every reachable store, every fault of the database, every interleaving with compaction", "why_tests_cant": "Depends on a fault while rows are fetched, or on a compaction between two particular statements.", "anchors": ["pkg/backend/internal/backend/utils.go: ScanAll", "pkg/backend/internal/backend/backend.go: List"]}
{"id": "C65", "title": "A stream that can no longer be served is ended", "statement": "When the server stops delivering events on a watch stream (because the client was too slow), the stream is ended or its watches are cancelled, so that the client can resume; it does not stay open while missing events.", "quantifier": "every schedule of polls, reads and requests on a stream", "why_tests_cant": "Requires all schedules and all continuations after the overflow.", "anchors": ["pkg/limited/watch.go: Watch, ServeUpdates", "pkg/backend/internal/backend/watcher.go: publish, publishEvents"]}
{"id": "C66", "title": "A cancelled request does not disturb other requests", "statement": "When one client cancels its write (or its deadline passes), the writes of other clients are executed and answered as if that write had never been submitted.", "quantifier": "every batch of concurrent writes, every subset of them cancelled at any point", "why_tests_cant": "which writes share a batch depends on the schedule; a test exercises a few batches", "anchors": ["pkg/database/batched.go: execQueue, exec"]}
{"id": "C67", "title": "Using the database after Close fails cleanly", "statement": "Every operation on the database wrapper after (or concurrently with) Close returns an error or a result; none of them crashes the process.", "quantifier": "every interleaving of operations with Close", "why_tests_cant": "the failing calls depend on the order in which Close and the call are scheduled", "anchors": ["pkg/database/prepared.go: Close, BeginTx, Conn, PrepareContext"]}
{"id": "C68", "title": "A signal never crashes the server", "statement": "Whenever an exit signal arrives, the server shuts down and the process ends normally.", "quantifier": "every moment at which a signal can arrive relative to the disk-space checks", "why_tests_cant": "the schedule of the watchdog against the shutdown", "anchors": ["pkg/server/server.go: watchAvailableStorageSize, Shutdown", "cmd/root.go"]}
{"id": "C69", "title": "Accepted timer settings are usable", "statement": "Every configuration accepted at start yields a server whose periodic tasks run; settings for which they cannot run are refused.", "quantifier": "every tuning file and every command-line interval", "why_tests_cant": "all interval values", "anchors": ["pkg/server/server.go: New", "pkg/backend/internal/backend/backend.go: startWatch", "pkg/backend/internal/backend/watcher.go: poll", "pkg/limited/watch.go: ServeProgress"]}
{"id": "C70", "title": "Client List returns exactly the keys with the prefix", "statement": "The client library's List(prefix, 0) returns exactly the live keys that start with the prefix, with value and mod revision, in key order, as of one revision that was current during the call (prefix not made of 0xff bytes only; no broken cursor, compaction does not overtake the call).", "quantifier": "every prefix, store content, interleaving and network fault", "why_tests_cant": "All prefixes (including ones ending in 0xff) and all interleavings.", "anchors": ["pkg/client/client.go: List", "pkg/limited/list.go: list"]}
{"id": "C71", "title": "Client Create, Update and Delete report what they did", "statement": "A client Create, Update or Delete that returns no error has made exactly one write, on a key that was absent (Create) or at the given revision (Update, Delete); ErrKeyExists means the key existed during the call.", "quantifier": "every store content, interleaving, retry and network fault", "why_tests_cant": "All schedules and faults.", "anchors": ["pkg/client/client.go: Create, Update, Delete"]}
{"id": "C72", "title": "A create is applied at most once and answered truthfully", "statement": "If the database reports a retryable error although a create took effect, the automatic retry never applies the create a second time, and the client is not told that the key already existed.", "quantifier": "all reachable stores, all interleavings with other clients, all patterns of lost acknowledgements during one create call", "why_tests_cant": "needs every position of a lost acknowledgement and every interleaving of other writers between the attempts", "anchors": ["pkg/backend/sqlite/driver.go:execute", "pkg/backend/sqlite/driver.go:Create", "pkg/backend/dqlite/driver.go:dqliteRetry"]}
{"id": "C73", "title": "Results do not depend on the database's query plan", "statement": "Whatever plan the database chooses (the order in which it visits rows in every scan, join, grouping and unordered result), whichever physical order the rows have and whether an empty value is stored as NULL or as an empty blob: a range read returns exactly the live keys of the range at the revision once each in key order and cut at the limit, a count their number, the event poll and the watch catch-up every matching change once in revision order, the lease scan every live leased key once; the conditional create, update and delete statements append one row or none, exactly when the key is absent or live at the expected revision; a compaction transaction removes the same rows. This is a statement about the SQL texts in the source, parsed and evaluated, not about a hand translation of them.", "quantifier": "all table contents, all row orders, all query plans, all arguments, both schema versions' statement texts", "why_tests_cant": "A test runs one SQLite version with one set of statistics and sees one plan; bare columns next to MAX, HAVING on a bare column, missing ORDER BY and CROSS JOIN ordering only misbehave under other plans or contents.", "anchors": ["pkg/backend/sqlite/driver.go: revSQL, listSQL, listSqlV1_0, revisionIntervalSQL, countRevisionSQL, countRevisionSQLV1_0, afterSQLPrefix, afterSQL, ttlSQL, deleteRevSQL, updateCompactSQL, deleteSQL, createSQL, updateSQL, Driver.List, Driver.After, Driver.tryCompact"]}
{"id": "C74", "title": "Concurrent clients see one sequential store (linearizability)", "statement": "Take any execution in which any number of clients call latest reads (single key or whole range), creates, updates and deletes on any number of nodes, interleaved with compaction, TTL expiry, node starts, crashes and failing statements. There is one sequential order of all answered operations (plus the commits of unanswered calls and background work) in which every operation, executed alone, gives exactly the answer its client got, which ends in the store that really exists, and in which an operation that returned before another was called comes first. An answered call has no other effect on the store than the one announced, unless a database acknowledgement was lost. Reads are covered when no cursor breaks and no compaction overtakes them (the ways in which C64 fails).", "quantifier": "all numbers of clients, calls, nodes, interleavings, failures and crash points", "why_tests_cant": "the claim is the existence of an order for every interleaving of an unbounded number of calls; a test sees a few interleavings and cannot search all orders", "anchors": ["pkg/limited/server.go:Range,Txn", "pkg/limited/{get,list,create,update,delete}.go", "pkg/backend/internal/backend/backend.go:Create,Update,Delete,List", "pkg/backend/sqlite/driver.go:query,execute"]}
{"id": "C75", "title": "A transaction compares and writes the keys it names", "statement": "When a transaction reports success, its compare held of the key the compare names, at the instant of the write, and the write went to the key (or range) the operation names and to no other.", "quantifier": "all transaction requests, including those whose compare and operation name different keys or ranges, all stores and schedules", "why_tests_cant": "every combination of keys, ranges and concurrent writers; tests use the requests of one well-behaved client", "anchors": ["pkg/limited/create.go:isCreate", "pkg/limited/delete.go:isDelete", "pkg/limited/update.go:isUpdate"]}
{"id": "C76", "title": "Unsupported write options are refused, not ignored", "statement": "A transaction that uses an option the server does not implement (previous value, keep value, keep lease, another range in the else branch) is refused and changes nothing; it is never executed as if the option were absent.", "quantifier": "all transaction requests and options", "why_tests_cant": "all combinations of options and shapes; a missing check is invisible to tests that do not use the option", "anchors": ["pkg/limited/create.go:create", "pkg/limited/update.go:isUpdate,update", "pkg/limited/delete.go:isDelete"]}
{"id": "C77", "title": "A list-and-watch client that reconnects always holds a true copy", "statement": "A client lists a range once (latest revision, no limit) and then watches it from the next revision, through any nodes; whenever the connection breaks, after any event, it resumes on any node from the revision after the last event it got, ignoring events it already has. At every moment its copy is exactly the part of the store in that range as of the revision it believes to be at, and that revision never goes back. (Excluded: the compaction races of C30/C33 and the broken cursors of C64.)", "quantifier": "all stores, ranges, numbers of reconnects, cut points, nodes, writers and schedules", "why_tests_cant": "the claim is an induction over any number of interrupted watch segments under all interleavings; tests see a few reconnects at a few points", "anchors": ["pkg/limited/server.go:Range", "pkg/limited/list.go:list", "pkg/limited/watch.go:Watch", "pkg/backend/internal/backend/watcher.go:Watch,publish"]}
{"id": "C78", "title": "Only transactions write; everything not implemented is refused", "statement": "Of all requests of the KV, Lease and Maintenance services, only create, update and delete transactions change the store, whatever happens during the call. Every method the server does not implement (put, delete-range, lease revoke/keep-alive/time-to-live/list, alarm, defragment, hash, hash-kv, snapshot, move-leader, downgrade) answers with an error at once. A status answer carries the size of the database at one instant of the call.", "quantifier": "all requests, arguments, stores, schedules and faults", "why_tests_cant": "absence of an effect under every argument, interleaving and fault cannot be observed by examples", "anchors": ["pkg/limited/server.go", "pkg/limited/lease.go", "pkg/limited/maintenance.go"]}
{"id": "C79", "title": "Client writes never disturb the store's bookkeeping", "statement": "No client transaction moves the compact revision or removes or changes a stored version; it adds at most one new version of its own key.", "quantifier": "all transactions on all keys, all stores, schedules and faults", "why_tests_cant": "every key, including the reserved one, and every interleaving; tests do not write the reserved key", "anchors": ["pkg/limited/limited.go:Txn", "pkg/backend/sqlite/driver.go:revisionIntervalSQL,Create,Update,Delete"]}
{"id": "C80", "title": "The node runs with the configuration that was given", "statement": "Whenever the server starts dqlite (at most once per run of New), TLS is on exactly when asked for, with the documented protocol version for the given name (default 1.2) and the given session cache size; disk mode is as asked for; the failure domain and the network latency, snapshot settings and poll/compact intervals are those of the files failure-domain and tuning.yaml, or the defaults when the file does not exist. A file that cannot be read or parsed, or an unknown TLS version, stops the server before dqlite is started; nothing falls back to a default silently.", "quantifier": "every set of arguments, every content of the storage directory, every failure of a file operation, and a crash at any point", "why_tests_cant": "the combinations of files, arguments and failing operations are unbounded; a test sees a few directories", "anchors": ["/repo/pkg/server/server.go: New", "/repo/pkg/server/util.go: fileExists, fileUnmarshal", "/repo/cmd/root.go: flags"]}
{"id": "C81", "title": "Batching writes is invisible to clients", "statement": "Executing the writes of a node in batches (one transaction for all writes queued meanwhile) changes nothing a client can observe: whatever the calls, the nodes they are made on, the lengths and fates of the batches, and the crashes, the calls get answers they could have got if every statement had been executed on its own, and the answered writes are linearizable.", "quantifier": "all executions of any number of nodes, each with its own batcher, on one database: all calls, interleavings, batch boundaries, failures of begin, statement and commit, cancelled requests, closing of the database, crashes of nodes and late completion of their transactions", "why_tests_cant": "A test fixes a schedule; that a batch never mixes up results, reorders writes around a read, or lets an answered write disappear must hold for every interleaving of callers, workers and crashes.", "anchors": ["pkg/database/batched.go: ExecContext, run, execQueue, Close", "pkg/server/server.go: NewBatched(NewPrepared(db))", "pkg/backend/sqlite/driver.go: execute, query"]}
{"id": "C82", "title": "Optimistic concurrency loses no update", "statement": "An update guarded by the mod revision of a version that some client was shown (by a read, or by the range in the answer of a failed transaction) and answered with success is applied to exactly that version: the key had that version immediately before the write's revision, and has the new value with the same create revision at it. Hence, if a key is created with v0 and otherwise only written by such updates that write f(value shown), then after any number of concurrent clients on any nodes the value is f applied to v0 exactly once per update answered with success.", "quantifier": "all executions of any number of clients on any number of nodes with their batchers, all interleavings of statements, failures, compactions and crashes, all values and functions f", "why_tests_cant": "A lost update needs a particular interleaving of two clients' statements and batches; the claim is about all of them and about unboundedly many updates.", "anchors": ["pkg/limited/update.go: update", "pkg/limited/server.go: Txn", "pkg/backend/sqlite/driver.go: Update, updateSQL", "pkg/database/batched.go: ExecContext, run"]}
{"id": "C83", "title": "A key is a lock: one holder at a time, fenced release", "statement": "Between two creates of one key that were both answered with success, the key was deleted: there is a commit deleting it with a revision strictly between the two revisions. While the key is not deleted after a successful create, every create called after that create returned is refused if it is answered. A delete guarded by a revision and answered with success removed exactly the version of that revision, so a client whose lock was lost cannot release the lock of a later holder.", "quantifier": "all executions of any number of clients on any number of nodes with their batchers, all interleavings, failures and crashes", "why_tests_cant": "Mutual exclusion fails only in particular interleavings; tests run a few of them on one node.", "anchors": ["pkg/limited/create.go: create", "pkg/limited/delete.go: delete", "pkg/backend/sqlite/driver.go: Create, Delete, createSQL, deleteSQL", "pkg/database/batched.go: ExecContext, run"]}
{"id": "C84", "title": "Answers to a client never go back in time", "statement": "If a call is made after another one has returned, on whichever nodes: the revision its answer speaks of (the header of a read of the latest state, the revision of a successful write) is not before that of the earlier answer, and strictly later if it wrote. A read of the latest state called after a successful write returned shows what was written, unless the key was written again. A read of the latest state started after an event was sent on a watch is at a revision not before the event's.", "quantifier": "all executions of any number of clients on any number of nodes sharing one database, all keys, ranges and interleavings", "why_tests_cant": "The claim relates answers of different calls on different nodes over all interleavings.", "anchors": ["pkg/limited/get.go: get", "pkg/limited/list.go: list", "pkg/limited/server.go: Txn", "pkg/limited/watch.go: Watch", "pkg/backend/sqlite/driver.go: List, currentRev"]}
{"id": "C85", "title": "Every due event is eventually delivered", "statement": "If a watch has been established and keeps being served (not cancelled, its stream keeps up and is not closed, its node is not overtaken by compaction), then for every commit that is due on it the client is eventually sent an event describing that commit, provided the node's polls keep completing and the stream's update goroutine keeps receiving and sending.", "quantifier": "all infinite executions of a node and a stream with arbitrary interleavings of writes, compactions, polls that fail or break, other streams and the stream's own requests, that are fair in the stated sense; all watches and all commits", "why_tests_cant": "Liveness: a test can only look at finitely many steps of one schedule; here nothing may postpone the delivery for ever under any fair schedule.", "anchors": ["pkg/backend/internal/backend/watcher.go: poll, publishEvents, publish, update", "pkg/limited/watch.go: ServeUpdates, sendUpdates"]}
{"id": "C86", "title": "Every leased key eventually expires", "statement": "Once a node's TTL loop has finished its start-up listing (cursor not broken) and its watch is established with a complete backlog, and while it goes on being served by the poller, every current version of a key in [0x00, 0xff) that was written with a positive lease (before or after the loop started) is eventually gone for good: deleted by expiry or replaced by a newer version.", "quantifier": "all infinite executions of a node with its TTL loop, with arbitrary interleavings of writes by any client, compactions, failing polls and other watch streams, that are fair (polls keep completing, the loop keeps receiving, a started timer eventually fires and its retried deletion is eventually executed); all keys, versions and leases", "why_tests_cant": "Liveness over unbounded schedules: the version may be seen by the listing or by the watch, be overtaken by writes and compactions at any point; a test samples one schedule and a finite time.", "anchors": ["pkg/backend/internal/backend/ttl.go: ttl, run", "pkg/backend/internal/backend/watcher.go: poll, publishEvents, Watch", "pkg/backend/sqlite/driver.go: ListTTL, Delete"]}
{"id": "C87", "title": "Every request on a watch stream is answered, in order", "statement": "On one watch stream the server answers every request of the client exactly once: the k-th create request is answered by the k-th creation answer, which gives the watch the number k or says that the watch is refused; each progress request is answered by one progress response; each cancel request by one cancellation response for that watch. Every watch that exists is one the client asked for, with the requested range and start revision.", "quantifier": "all executions of a stream: any sequence of create, cancel and progress requests interleaved with commits, polls, ticks, failing queries, compactions and other streams", "why_tests_cant": "The correspondence of requests and answers must survive every interleaving of three goroutines sharing the stream and every failure of a query inside Create; tests issue a few requests in one order.", "anchors": ["pkg/limited/watch.go: ServeRequests, Create, Close, RequestProgress", "pkg/backend/internal/backend/watcher.go: Watch"]}
{"id": "C88", "title": "A cancelled watch stops", "statement": "After the client cancelled a watch, it is sent only events that were already published for it at that moment, in order; no later commit is reported to it; once the request has been served no progress notification is sent for it, and once the updates under way are delivered its number is never mentioned again on the stream. Other watches of the stream are not affected.", "quantifier": "all executions of a stream, all watches whose number was handed out, every point at which the cancel request arrives, every continuation", "why_tests_cant": "Cancellation races with the poller filling the update channel, the sender and the progress ticker; the claim is about every later moment of every interleaving.", "anchors": ["pkg/limited/watch.go: Close, sendUpdates, sendProgress", "pkg/backend/internal/backend/watcher.go: Unwatch, publish"]}
{"id": "C89", "title": "A refused watch leaves nothing behind", "statement": "A create request that is refused (compacted start revision or failing query) has no further effect: the client is never sent anything for it, and the server keeps no state and buffers no events for it.", "quantifier": "all executions of a stream in which a create request is refused, every later moment", "why_tests_cant": "The absence of effects and of leaked state concerns every continuation after the refusal.", "anchors": ["pkg/backend/internal/backend/watcher.go: Watch", "pkg/limited/watch.go: Create"]}
{"id": "C90", "title": "Requests never wait for each other for ever", "statement": "As long as the database answers, some request under way can always make progress: the connection pool and the statement cache never deadlock, for every number of open connections the operator may configure, every mix of queries, write batches and compactions, and every order in which they start.", "quantifier": "all reachable states of the pool, cache mutex and calls under way; all connection limits; all statement texts", "why_tests_cant": "A deadlock needs a particular interleaving of a batch, a compaction and a first use of a statement text; tests run with the default limit and a few schedules.", "anchors": ["pkg/database/prepared.go: prepare, preparedTx", "pkg/database/batched.go: run, execQueue", "pkg/server/server.go: New (MaxOpen)", "pkg/backend/sqlite/driver.go: Compact, compact"]}
{"id": "C91", "title": "Stopping a node is safe and finishes", "statement": "Whatever requests, write batches and compactions are under way when a node is stopped: the process never crashes on the closed database; the database is closed only after all background work on it has ended and every accepted write was executed or refused; afterwards no statement is executed; and shutting down always can come to its end with every write answered.", "quantifier": "all interleavings of requests, the batch worker, the compactor and the shutdown, at any moment", "why_tests_cant": "The claim concerns every point at which the stop may overtake a request or a batch.", "anchors": ["pkg/server/server.go: Shutdown", "pkg/backend/internal/backend/backend.go: Close, Stop", "pkg/database/batched.go: Close", "pkg/database/prepared.go: Close"]}
{"id": "C92", "title": "Starting and stopping are done in order", "statement": "The process serves requests only once dqlite is ready, the database answers, its schema is set up and the backend was started; at every moment at most one database is open, and opening and setting up are tried at most 300 times each. On a stop request the endpoint is told to stop, then the backend and database are closed, then the leadership is handed over (a failure of which is ignored), and only then dqlite is closed. The process ends successfully only if all that was done; it never crashes on the way; after serving it ends with a failure only if closing failed.", "quantifier": "all outcomes of all calls to dqlite, database, backend, endpoint and operating system, and every point at which the process may die", "why_tests_cant": "The claims range over every combination of failures and every crash point of a start with hundreds of attempts.", "anchors": ["pkg/server/server.go: Start, robustOpenDb, openAndTestDb, Shutdown", "pkg/backend/sqlite/driver.go: NewDriver", "cmd/root.go: rootCmd.Run"]}
{"id": "C93", "title": "The listening address and who can connect", "statement": "The listen option is split at its first \"://\" into network and address; network and address so written are understood as meant whatever the address contains. Only this server's user can connect to its Unix socket. What is at the address beforehand is removed for Unix sockets only, and otherwise listening fails and leaves it alone.", "quantifier": "all addresses, umasks, files that exist beforehand, and all interleavings of start-up with clients that connect", "why_tests_cant": "Addresses are unbounded, and the window between listening and restricting the permissions is a race that a test does not hit.", "anchors": ["pkg/endpoint/endpoint.go: Listen, networkAndAddress"]}
{"id": "C94", "title": "Exactly the selected spans are exported", "statement": "A span is exported exactly if its name matches the configured pattern, if any, and it lasted at least the configured minimum, if any; each at most once, in the order they end. An invalid pattern disables tracing, an invalid duration means 10 ms. Every selected span that ended before an orderly stop is exported.", "quantifier": "all options, spans, and interleavings of ending spans, exports and the stop", "why_tests_cant": "Selected spans can be lost depending on when the export runs relative to the stop, and filters range over all names and durations.", "anchors": ["cmd/tracing.go: setupOTelSDK, newTraceProvider, NameFilter, DurationFilter", "cmd/root.go: rootCmd.Run"]}
{"id": "C95", "title": "Exactly the transient database errors are retried", "statement": "With dqlite a failed statement is tried again exactly if the error is (or wraps) a dqlite error with code busy, or contains no dqlite error and is SQLite's busy or locked or its text names one of four transient conditions; with plain SQLite exactly if the code is busy. Wrapping an error changes neither this nor whether it counts as cancellation or exceeded deadline. A statement is tried at most 500 times, again only after such errors, and the answer of the last attempt is the answer of the operation.", "quantifier": "all errors (kinds, codes, texts, depths of wrapping) and all sequences of answers of the database", "why_tests_cant": "Texts and wrappings are unbounded, and the sequence of answers is chosen by the database.", "anchors": ["pkg/backend/dqlite/driver.go: dqliteRetry", "pkg/backend/sqlite/driver.go: NewDriver, query, execute, Compact"]}
{"id": "C96", "title": "Every database operation is counted once, with its result", "statement": "Each operation on the database increases the operation counter and the transaction counter of its name exactly once, with result success exactly if it returns no error, and no other counter.", "quantifier": "all operations and all sequences of answers of the database", "why_tests_cant": "The counts depend on the number of attempts and on errors that occur while the result is read.", "anchors": ["pkg/backend/sqlite/metrics.go: recordOpResult, recordTxResult", "pkg/backend/sqlite/driver.go: query, execute, GetCompactRevision, tryCompact"]}
{"id": "C97", "title": "Every query gives its connection back", "statement": "Whatever a query returns and wherever it breaks, when the operation that issued it has returned, its cursor is closed, so that the connection is back in the pool.", "quantifier": "every operation that reads rows (list, the watch poll and its initial events, the compaction markers, count, current revision, compact revision, size, the leases at start), every number of rows, every pattern of failures of the query, of fetching and of decoding a row", "why_tests_cant": "A leak needs a failure at one particular row, and shows only as an exhausted pool much later; a test reads rows that decode", "anchors": ["pkg/backend/internal/backend/utils.go:ScanAll", "pkg/backend/sqlite/driver.go:Count", "pkg/backend/internal/backend/ttl.go"]}
{"id": "C98", "title": "The instrumented listener hands over connections in order and can be closed", "statement": "Connections accepted by the listener of the test tools are handed over in the order they arrive, each once, and none is skipped while the listener is in use; Close returns, and the listener can be used again.", "quantifier": "every interleaving of connections, receivers, cancellation, Listen and Close", "why_tests_cant": "Whether Close returns depends on whether a connection is under way at that moment", "anchors": ["pkg/instrument/dqlite.go:Listen", "pkg/instrument/dqlite.go:Close"]}
{"id": "C99", "title": "The migrator does what its mode says", "statement": "The migrator command performs exactly the operation its mode names, once, on the endpoint and directory given, and ends with status 0 exactly if that succeeded; a mode that does not exist is refused.", "quantifier": "every mode string, endpoint, directory and outcome of the operations", "why_tests_cant": "The mode is an arbitrary string", "anchors": ["cmd/migrator.go:migratorCmd"]}
{"id": "C100", "title": "The source text of the request handlers answers every request as specified", "statement": "For every etcd Txn, Range, Put, DeleteRange, Compact and LeaseGrant request, running the handlers' Go source text (with the functions of the package it calls) issues exactly the backend operations, in the same order, and returns exactly the response or error that the specification of the request layer gives; no request makes a handler panic, whatever the database answers.", "quantifier": "every request message, every outcome of every backend operation", "why_tests_cant": "Requests are unbounded, and the claim is about all of them and about every failure of the store", "anchors": ["pkg/limited/server.go:Txn", "pkg/limited/server.go:Range", "pkg/limited/limited.go:Txn", "pkg/limited/create.go:create", "pkg/limited/update.go:update", "pkg/limited/delete.go:delete", "pkg/limited/get.go:get", "pkg/limited/list.go:list", "pkg/limited/compact.go:compact", "pkg/limited/lease.go:LeaseGrant"]}
{"id": "C101", "title": "The source text of the backend does what its specification says", "statement": "For every key, value, lease, revision, range and limit, running the Go source text of the backend's Create, Update, Delete, List, Count and DoCompact (with the scanning and compaction helpers they call) issues exactly the driver operations, in the same order, and returns exactly the revision, success flag, key-values or error the specification gives, for every outcome of every driver operation, including cursors that break half way; the event filter keeps exactly the events of the range, in order.", "quantifier": "every argument, every database content, every outcome of every statement, every sequence of leader answers", "why_tests_cant": "Arguments, result sizes, numbers of compaction batches and points of failure are unbounded", "anchors": ["pkg/backend/internal/backend/backend.go:DoCompact", "pkg/backend/internal/backend/backend.go:List", "pkg/backend/internal/backend/backend.go:Count", "pkg/backend/internal/backend/utils.go:ScanAll", "pkg/backend/internal/backend/utils.go:appendEvents"]}
{"id": "C102", "title": "From request to SQL statement, the source texts do what the specification says", "statement": "For every Txn and Range request, running the Go source texts of the request handlers, the backend and the driver together sends exactly the SQL statements the specification gives, in the same order and with the same retries, and returns exactly the specified response or error, for every outcome of every statement; nothing panics. A compaction transaction, with an error at any point, is all or nothing. Each statement constant passed to the database means, for every query plan and every storage of empty values, what the specification says it selects or writes.", "quantifier": "every request, every database content, every outcome of every statement (errors, retries, broken cursors, lost answers), every fault point of a transaction, every query plan", "why_tests_cant": "The space of requests, histories, failures and query plans is infinite", "anchors": ["pkg/backend/sqlite/driver.go:query", "pkg/backend/sqlite/driver.go:execute", "pkg/backend/sqlite/driver.go:List", "pkg/backend/sqlite/driver.go:tryCompact", "pkg/backend/sqlite/driver.go:Compact", "pkg/backend/dqlite/driver.go:Compact", "pkg/backend/dqlite/driver.go:isLocalNodeLeader"]}
{"id": "C103", "title": "Goroutines running the source text of the write batcher give every write its own result, once", "statement": "Any number of goroutines run the Go source text of the batched database: calls of ExecContext, calls of Close, and the worker goroutines these start. In every interleaving, whatever the database and the contexts answer: the statements are executed in rounds, each a single statement or a transaction that is all or nothing; no call's statement is in two rounds; if nobody else writes, the database is exactly what the rounds made of it; a call returns the 'closed' error only when the batcher is closed and then its statement is never executed; any other call returns the error or the result (rows affected, last insert id) of its own statement in its own round, and the result stays the same for ever. Nobody touches a field of the batcher without the mutex, nobody blocks or gets stuck while holding it; whenever somebody sleeps there is a worker that can go on and will wake everybody; there is at most one worker; Close returns only when the worker is over and the queue is empty; while the worker executes a queue without the mutex nobody else depends on the results it is about to write.", "quantifier": "all numbers of goroutines, all statements, arguments and contexts, all interleavings of lock sections, queue executions and changes by others, all errors and cancellations, every number of loop iterations", "why_tests_cant": "Tests run a few of the infinitely many schedules; lost wakeups, double executions, swapped results and races show only in particular interleavings of submission, execution, failure and shutdown.", "anchors": ["pkg/database/batched.go:ExecContext", "pkg/database/batched.go:run", "pkg/database/batched.go:execQueue", "pkg/database/batched.go:Close", "pkg/database/batched.go:exec", "pkg/database/batched.go:RowsAffected", "pkg/database/batched.go:LastInsertId"]}
{"id": "C104", "title": "Goroutines running the source text of the watch machinery deliver every event once, in order", "statement": "Any number of goroutines run the Go source text of watcher.go: the poller, calls of WatcherGroup, Watch and Unwatch of any number of streams, and the functions that run when the context of a stream ends, while anything else uses the database. In every interleaving, whatever the database answers and in whatever order maps are iterated over: once Watch(id, key, rangeEnd, start) has returned nil, the values sent on the channel of the stream for id, together with what waits for the next publish, are exactly one event for every commit on the range from the start revision to the revision the stream has reached, in order, each describing its commit, as long as the stream keeps up, compaction has not overtaken the poller or the initial query, and the cursor of that query did not break; in any case they are in strictly increasing revision order, on the range, and describe commits. A stream that does not keep up is closed, and what it got before has no gap. Watch from below the compact revision is refused, and the compacted error is returned only then. A channel is closed exactly once, when the stream is no longer served; nothing is sent after that. No goroutine touches a guarded field without the mutex that guards it, none gets stuck, and whoever holds the backend's mutex can go on.", "quantifier": "all numbers of streams and watches, all ids, ranges and start revisions, all interleavings of lock sections, statements, receives, cancellations and other activity on the database, all faults, every order of iteration over maps, every number of iterations of the poller", "why_tests_cant": "Lost, repeated and reordered events, sends on closed channels and data races show only in particular interleavings of polling, registration, initial queries, compaction, cancellation and overflow; tests run a few of them.", "anchors": ["pkg/backend/internal/backend/watcher.go:poll", "pkg/backend/internal/backend/watcher.go:publishEvents", "pkg/backend/internal/backend/watcher.go:publish", "pkg/backend/internal/backend/watcher.go:update", "pkg/backend/internal/backend/watcher.go:Watch", "pkg/backend/internal/backend/watcher.go:Unwatch", "pkg/backend/internal/backend/watcher.go:WatcherGroup", "pkg/backend/internal/backend/watcher.go:initialEvents", "pkg/backend/internal/backend/watcher.go:getLatestEvents", "pkg/backend/internal/backend/watcher.go:appendEvents"]}
{"id": "C105", "title": "Goroutines running the source text of a watch stream answer, forward and cancel as asked", "statement": "A client calls Watch; the handler and its three goroutines run the Go source text of watch.go, interleaved action by action with each other, the client and the rest of the node. In every interleaving: ids announced to the client ascend and are positive, and no event is sent for an id before it is announced; every event sent describes a commit; the events of a watch are in strictly increasing revision order, on the keys its create request asked for, and are those received from the channel of the stream, in that order, with nothing kept back; every create and progress request is answered exactly once and in order; after a watch was removed no event is sent for it that was not published before; two goroutines never send, or touch the progress flags, at the same time; no goroutine panics.", "quantifier": "all interleavings of the single memory accesses, lock operations, receives and sends of the goroutines, all messages of the client, all states and activities of the node, failing sends at any time, any order of iteration over the flags, any number of iterations of the loops", "why_tests_cant": "The goroutines share a mutex, one field without it, and a gRPC stream; wrong answers, interleaved sends and lost events show only in particular interleavings; a silent stream looks like an idle one.", "anchors": ["pkg/limited/watch.go:Watch", "pkg/limited/watch.go:ServeRequests", "pkg/limited/watch.go:ServeUpdates", "pkg/limited/watch.go:sendUpdates", "pkg/limited/watch.go:ServeProgress", "pkg/limited/watch.go:sendProgress", "pkg/limited/watch.go:Create", "pkg/limited/watch.go:Close", "pkg/limited/watch.go:RequestProgress"]}
{"id": "C106", "title": "A watch stream that cannot go on ends with its error, and its goroutines do not race", "statement": "When one of the goroutines of a watch stream fails (a request is refused as unsupported, the channel of the stream was closed because the client did not keep up, the client closed its side), the stream ends and the client is told the error; the stream ends only then or when the client is gone, and the error is one that occurred. No variable of the stream is written by one goroutine while another accesses it without a mutex that both hold.", "quantifier": "all interleavings of the single actions of the goroutines of a stream, all messages of the client, failing sends and receives at any time, all states and activities of the node", "why_tests_cant": "A stream that is silent because it has failed looks to a test like one without events; races need particular schedules.", "anchors": ["pkg/limited/watch.go:Watch", "pkg/limited/watch.go:ServeProgress", "pkg/limited/watch.go:ServeRequests", "pkg/limited/watch.go:ServeUpdates"]}
{"id": "C107", "title": "Goroutines running the source text of the statement cache share statements safely and release them all", "statement": "Any number of callers use the prepared-statement database at once, each running the Go source text of its method. In every interleaving of their single actions: a text is prepared for the cache at most once; an ExecContext or QueryContext that returns a result returns that of one execution, with its own arguments and in its own transaction, of the statement prepared for its own text, and a call executes at most one statement; the PrepareContext of a transaction returns the statement for its text; no statement is closed twice, nor the database; when Close has returned, every cached statement and the database have been closed, and Close answers nil exactly if none of that failed; between calls no statement is lost from the cache without having been closed; after Close nothing is prepared, begun or executed outside of an open transaction, and calls that begin then are refused with the error for a closed database; the map of statements is never changed while another goroutine accesses it; and as long as nothing panicked some unfinished call can go on.", "quantifier": "all interleavings of the single lock operations, reads, writes and database operations of any number of calls, any texts and arguments, failing database operations at any time, any order of iteration over the map", "why_tests_cant": "Double preparation, use of a foreign statement, leaks and deadlocks depend on the interleaving of lookups, preparations and Close; a test sees a few schedules.", "anchors": ["pkg/database/prepared.go:prepare", "pkg/database/prepared.go:ExecContext", "pkg/database/prepared.go:QueryContext", "pkg/database/prepared.go:Close", "pkg/database/prepared.go:preparedTx"]}
{"id": "C108", "title": "Using the database while or after it is closed is refused, not a crash", "statement": "Calls that come while the prepared-statement database is being closed, or afterwards, are answered with an error: none of them crashes the process, and none races with Close for a variable.", "quantifier": "all interleavings of the single actions of any number of calls, failing database operations at any time", "why_tests_cant": "The window between reading the field and its reset is a few instructions.", "anchors": ["pkg/database/prepared.go:BeginTx", "pkg/database/prepared.go:Conn", "pkg/database/prepared.go:PrepareContext", "pkg/database/prepared.go:Close"]}
{"id": "C109", "title": "Goroutines running the source text of ttl.go expire exactly the leased versions, not early", "statement": "Goroutines run the Go source text of ttl.go (the loop and the function run it starts for every leased version), together with everything else on the node and on the others. In every interleaving: a goroutine asks for the deletion of one key at one revision only, a version that was written with a nonzero lease (or the deletion of one); before it asks it has waited, for at least as many seconds as the lease says and less than one second longer (leases of up to 292 years); whenever the deletion runs it changes nothing or removes exactly that version; and a goroutine does not give up: when it returns, its deletion was done or the context has ended.", "quantifier": "all interleavings of the single actions of the goroutines of ttl.go with every step of the node and of any other callers, any failures of queries and deletions, any random numbers, any end of the context", "why_tests_cant": "Timers of many keys race with writes of the same keys and with each other; the retry loop is unbounded.", "anchors": ["pkg/backend/internal/backend/ttl.go: ttl"]}
{"id": "C110", "title": "The source text of ttl.go starts a goroutine for every leased key", "statement": "Every live version of a key written with a positive lease, before or after the TTL loop started, gets a goroutine that runs the text of ttl.go for exactly this key, revision and lease: it waits for the deletion of that version, or has asked for it.", "quantifier": "all interleavings of the single actions of the goroutines of ttl.go with every step of the node and of any other callers, any failures", "why_tests_cant": "Boundary between listing and watch, failures of the start-up queries.", "anchors": ["pkg/backend/internal/backend/ttl.go: ttl"]}
{"id": "C111", "title": "The text of NewDriver and setup migrates the database file once and completely or not at all", "statement": "Running the text of NewDriver (with the texts of setup and schema.go for the functions it calls) on any database file, with any failures of connections, reads, transactions, statements and commits in every attempt and any actions of other nodes between them, ends after at most 300 attempts with the same answer and the same file as the model of C45/C46; no connection stays open and no transaction unfinished; whatever is written to the file is the complete migration of a file that had no version. A node that starts alone leaves the file as it was or migrates it once, keeps its rows, and does not touch a file that has a version. The texts of NewSchemaVersion, Major, Minor and CompatibleWith compute the packing, unpacking and compatibility of versions for all 32 and 16 bit integers.", "quantifier": "all database files, all versions, all failures in all attempts, all actions of other nodes, all 2^32 versions", "why_tests_cant": "failures at every statement of every attempt and their combinations cannot be enumerated; tests start from two or three files", "anchors": ["pkg/backend/sqlite/schema.go:NewSchemaVersion", "pkg/backend/sqlite/schema.go:SchemaVersion.CompatibleWith", "pkg/backend/sqlite/schema.go:applySchemaV0_1", "pkg/backend/sqlite/schema.go:applySchemaV1_0", "pkg/backend/sqlite/schema.go:hasTable", "pkg/backend/sqlite/driver.go:NewDriver", "pkg/backend/sqlite/driver.go:setup"]}
{"id": "C112", "title": "The text of the client library sends what the model says and answers what the model answers", "statement": "Running the texts of List, Get, Put, Create, Update, Delete of the client library and putKey of the migrator (with the texts of what they call) for any key, value and revision (List: any key but the empty one), with the network delivering, losing or losing the answer of each request as it likes, sends exactly the requests of the model of C50/C51 and answers exactly what the model answers: values with key, data and modification revision, the found or not found error, and the library's errors when a guard fails; putKey tries at most five times.", "quantifier": "all keys, values, revisions, all fates of all requests, all databases and concurrent calls", "why_tests_cant": "each lost answer leaves another state, and keys and values are unbounded; tests only run against a server that answers", "anchors": ["pkg/client/client.go:client.List", "pkg/client/client.go:client.Get", "pkg/client/client.go:client.Put", "pkg/client/client.go:client.Create", "pkg/client/client.go:client.Update", "pkg/client/client.go:client.Delete", "pkg/migrator/migrator.go:putKey"]}
{"id": "C113", "title": "The text of the migrator backs up and restores as the model says, and what it backed up it restores", "statement": "Running the texts of BackupDqlite, RestoreToDqlite, BackupEtcd and RestoreToEtcd (with keyFileName, dataFileName, List, putKey, Put) on any directory of any length, with any fate of each request and each file, does exactly what the model of C50 does: writes key i and data i in the order of the answer until the first file that fails, reads them back in order until a key file is missing, and answers nil or the error of that file. Without a connection nothing happens. The connection is closed at the end. Without faults a backup followed by a restore answers nil twice and copies every key under / and touches no other.", "quantifier": "all stores, all directories, all fates of all requests and files, all endpoints", "why_tests_cant": "directories and stores are unbounded and every request and file may fail on its own; tests run one small store without faults", "anchors": ["pkg/migrator/migrator.go:BackupDqlite", "pkg/migrator/migrator.go:RestoreToDqlite", "pkg/migrator/migrator.go:BackupEtcd", "pkg/migrator/migrator.go:RestoreToEtcd", "pkg/migrator/util.go:keyFileName", "pkg/migrator/util.go:dataFileName"]}
{"id": "C114", "title": "Starting and stopping the backend, with the text of the code, leaves no goroutine untold and no mutex locked", "statement": "Let any number of goroutines call Start, Stop and Close of one backend at any times, their texts and the goroutines these start running action by action in any order with any answers of the database. Then nothing panics; whenever the mutex is free the backend is started exactly when it has a function to stop it, and every context of a goroutine that has not ended is the one this function ends, so none is left when it is stopped; when Wait in Stop returns every goroutine ever started has ended; once told, each goroutine can end without waiting for anybody; and the mutex, when locked, is unlocked by some call that waits for nobody. Start answers the error of the health key or of the watch and leaves no context behind; a second Start does nothing.", "quantifier": "all numbers and orders of calls, all interleavings, all answers of the database", "why_tests_cant": "the interleavings of concurrent calls and goroutines are unbounded; tests start and stop once", "anchors": ["pkg/backend/internal/backend/backend.go:Backend.Start", "pkg/backend/internal/backend/backend.go:Backend.Stop", "pkg/backend/internal/backend/backend.go:Backend.Close", "pkg/backend/internal/backend/backend.go:Backend.startWatch"]}
{"id": "C115", "title": "The text of the driver tries again exactly after the errors that are worth it, at most 500 times, answers the last error and counts once", "statement": "Running the texts of query and execute on any sequence of answers of the database: after n answers that are errors worth another try (n < 500) success is answered if the next answer is success, after n + 1 questions; the next error, if it is not worth another try, is answered wrapped with the text 'query (try: n): ' or 'exec (try: n): '; if 500 answers are errors worth another try the last of them is answered after 500 questions. In each case one transaction, one latency and one operation are counted, under the given name, as success exactly if no error is answered. The texts of dqliteRetry and of the function NewDriver uses by default say that an error is worth another try exactly when the specification of C95 says so.", "quantifier": "all sequences of answers, all errors with any wrapping, codes and texts, all names, statements and arguments, any function Retry", "why_tests_cant": "sequences of answers and wrapped errors are unbounded; tests never see a busy database 500 times", "anchors": ["pkg/backend/sqlite/driver.go:Driver.query", "pkg/backend/sqlite/driver.go:Driver.execute", "pkg/backend/sqlite/driver.go:NewDriver", "pkg/backend/sqlite/metrics.go:errorToResultLabel", "pkg/backend/sqlite/metrics.go:recordTxResult", "pkg/backend/sqlite/metrics.go:recordOpResult", "pkg/backend/dqlite/driver.go:dqliteRetry"]}
{"id": "C116", "title": "The text of GetCompactRevision, CurrentRevision, GetSize and Count answers the row, closes the rows once and counts what it answers", "statement": "Running the texts of GetCompactRevision, CurrentRevision, GetSize and Count on any sequence of answers of the database and any outcome of reading the row: when the query succeeds (after n errors worth another try, n < 500) the numbers of the row are answered, or zeros and the error of Scan, of rows.Err, or the function's own error if there is no row; the rows are closed exactly once if they were opened and never otherwise; when the query fails zeros and its error are answered. The counters say success exactly if no error is answered.", "quantifier": "all sequences of answers, all errors, all rows (two integers, no row, an error of Next or Scan), any function Retry, all keys, range ends, revisions and schema versions for Count", "why_tests_cant": "sequences of answers are unbounded and tests have no database whose rows cannot be read", "anchors": ["pkg/backend/sqlite/driver.go:Driver.GetCompactRevision", "pkg/backend/sqlite/driver.go:Driver.CurrentRevision", "pkg/backend/sqlite/driver.go:Driver.GetSize", "pkg/backend/sqlite/driver.go:Driver.Count", "pkg/backend/sqlite/driver.go:Driver.query", "pkg/backend/sqlite/metrics.go:recordOpResult"]}
{"id": "C117", "title": "The text of Compact tries its transaction again exactly after the errors that are worth it, at most 500 times, always for the same revisions", "statement": "Running the text of the sqlite driver's Compact: if GetCompactRevision fails its error is answered without a transaction; if the compact revision is not below the revision asked for, nil is answered without a transaction; otherwise transactions are tried, each from the compact revision to the smaller of the revision asked for and the current one: after n < 500 failures with errors worth another try the next success answers nil, the next error not worth another try is answered as it is, after n + 1 transactions; if 500 fail with errors worth another try the last error is answered after 500.", "quantifier": "all answers of GetCompactRevision, all revisions, all sequences of answers to the transactions, all errors, any function Retry", "why_tests_cant": "sequences of answers are unbounded; tests never see a busy database 500 times", "anchors": ["pkg/backend/sqlite/driver.go:Driver.Compact", "pkg/backend/sqlite/driver.go:Driver.tryCompact", "pkg/backend/sqlite/driver.go:Driver.GetCompactRevision"]}
