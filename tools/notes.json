{
 "C08": {
  "note": "Range reads: proved in full. Single-key reads: count is always 0 (counterexample), the rest is proved (partial)."
 },
 "C23": {
  "note": "False: the header of a limited list comes from a later count query (counterexample). Partial: what does hold."
 },
 "C63": {
  "note": "False for the code (counterexample). Partial: it holds if nothing commits while the first page is read."
 },
 "C64": {
  "note": "False for the code (two counterexamples: broken cursor, compaction between the two queries). Partial: with complete result sets and the revision still uncompacted at return nothing is omitted."
 },
 "C39": {
  "note": "False in full (counterexamples: keys >= 0xff, failed Watch only logged, broken cursor). Partial: everything listed or seen by a healthy watch has a timer."
 },
 "C55": {
  "status": "proved",
  "note": "C55_overflow_counterexample shows that the bound on the TTL is needed (int64 overflow)."
 },
 "C47": {
  "note": "Trailing >= 512 and threshold <= trailing: proved for all inputs. Threshold >= 384 is false (counterexamples); its exact domain is proved (partial)."
 },
 "C49": {
  "note": "False in full: init.yaml is removed before dqlite starts; info.yaml is overwritten in place. Partial: update.yaml with whole writes, for every number of crashes and failures."
 },
 "C56": {
  "note": "Negative and positive values proved; zero is false (counterexample: no idle connections instead of the default)."
 },
 "C57": {
  "status": "proved",
  "note": "C57_wrap_counterexample shows that both conditions in the statement are needed: a failing statfs, and a product that wraps, count as low space."
 },
 "C68": {
  "note": "False for action=terminate (counterexample); proved otherwise."
 },
 "C69": {
  "note": "False: zero and negative intervals are accepted (counterexample). Partial: positive settings."
 },
 "C50": {
  "note": "Proved: what a successful backup records, what a restore writes (any schedule), the fault-free round trip, restore to etcd. False in full (counterexamples): errors of single keys are swallowed, stale files of an older backup are restored, keys outside / and leases are lost. BackupEtcd's listing of a real etcd server is not modelled."
 },
 "C51": {
  "note": "Put that returns nil is proved to have made exactly that write, and succeeds alone on an existing key. False for absent keys: Put always fails there (counterexample for every reachable store)."
 },
 "C70": {
  "status": "proved",
  "note": "The counterexample shows that the condition on 0xff prefixes is needed."
 },
 "C33": {
  "status": "proved",
  "note": "Proved under the condition named in the statement; C33_overtaken_counterexample only shows that the condition is necessary."
 },
 "C45": {
  "note": "C45_negative_minor_excluded shows why negative minors are excluded from the statement."
 },
 "C72": {
  "note": "False in full (two counterexamples). Partial: each attempt takes effect only on an absent key; at most 500 attempts; success names a revision made by this call."
 },
 "C25": {
  "note": "For creates see C72 (false)."
 },
 "C27": {
  "note": "Success answers and effects equal etcd's (partial: proved part). False in full: deleting an absent key with revision 0 fails (etcd succeeds); a failed compare and its else-read are two statements, not one atomic step (counterexamples)."
 },
 "C29": {
  "note": "False for start revisions in the future: the code does not filter by revision (counterexample). Proved for start revisions up to the group's revision + 1, plus the exact bound that holds for every watch."
 },
 "C30": {
  "note": "Refusal below the compact revision: proved. Completeness of accepted watches is false in two cases (counterexamples: start equal to the compact revision; compaction between check and query) and proved otherwise."
 },
 "C31": {
  "note": "Everything but the lease inside prevKv is proved; that one is the lease of the new version (counterexample)."
 },
 "C35": {
  "note": "False in two windows (counterexamples: revision published before the events of the update are sent; backlog of a new watch). Proved outside of them."
 },
 "C36": {
  "note": "False: after its first event a watch never gets another progress notification (proved for every execution). Until its first event it gets one at every tick (proved)."
 },
 "C37": {
  "note": "False for query timeouts: the poller ends for ever (counterexample). Proved for every other error."
 },
 "C53": {
  "note": "False: Stop on a backend that is not started leaves the mutex locked (counterexamples); proved for executions in which Stop and Close only get the lock while started."
 },
 "C61": {
  "note": "False when no marker row carries a previous revision (counterexample: all markers are deleted) and the compact revision can go back (counterexample). Proved otherwise."
 },
 "C65": {
  "note": "False for the code (counterexample). Partial: a stream that stops being served never skips events; what the client has is always an initial part of the exact sequence."
 },
 "C66": {
  "note": "False: one cancelled job fails the whole batch (counterexample). Proved: without cancelled or failing jobs in its batch a job is unaffected."
 },
 "C67": {
  "note": "False for a second Close, BeginTx, Conn and PrepareContext after Close (counterexample: nil dereference); proved for executing and querying."
 },
 "C28": {
  "note": "Hypotheses lossy/overtaken/dropped are ghost flags that record exactly the exceptions named in the statement."
 },
 "C73": {
  "note": "SQL texts copied verbatim (tools/sqltext.py --check), parsed and evaluated in Lean; semantics of the SQL fragment (Model/SqlLang) is trusted. CROSS JOIN is taken to keep the order of its left operand, as SQLite documents, and so is an ORDER BY inside the CTE it scans. UniqueIds holds in every reachable store (C73_reachable)."
 },
 "C74": {
  "note": "Textbook linearizability over recorded executions (Model/Conc.lean) against the sequential specification Spec/Linear.lean; covers every write answer and every read answer without broken cursor or overtaking compaction (those are the counterexamples of C64). The content of the else branch of a failed update or delete is not part of the sequential specification (C21, C27)."
 },
 "C75": {
  "note": "True when compare and operation name the same single key, and the general theorem says exactly which key is used otherwise; the full property fails when they differ (create and delete ignore the compare key, update ignores the put key) or when a range end is given."
 },
 "C76": {
  "note": "Create refuses; update, delete and the else branch ignore the options (counterexamples)."
 },
 "C77": {
  "note": "Full proof for clients that ignore events they already have; a client that does not (as in C29) can be taken back in time by a lagging node (C29_lagging_node_counterexample)."
 },
 "C79": {
  "note": "Proved for every key but compact_rev_key; the reserved key is not protected (counterexample: two client updates of it make old revisions unreadable)."
 },
 "C80": {
  "note": "C80_started_as_configured: the options of every call of app.New, for every run (errors and crashes included). C80_intervals: the intervals of every returned server. YAML parsing is a parameter; certificates are only loaded or not."
 },
 "C81": {
  "note": "Composition of the batcher model with the concurrent system; forward simulation. Reads whose cursor broke or which a compaction overtook are only required to be absent or correct (see C64). That errors may be handed to calls of other clients in the same batch is C66."
 },
 "C82": {
  "note": "Theorems about the composed system MRun (clients, batchers of all nodes, one database). Saw: the version was in the answer to some call of the record. In C82_no_lost_updates every commit of the key must stem from an answered call (hypothesis hall): an update whose answer was lost may or may not have been applied."
 },
 "C83": {
  "note": "Theorems about the composed system MRun. Expiry of a lease is a delete too: the store does not know whether the holder is gone. Deletes guarded by revision 0 are excluded from ClientOp (C27)."
 },
 "C84": {
  "note": "One shared database: dqlite queries are executed by the leader. C84_read_your_writes excludes broken cursors and answers overtaken by a compaction, as C64 (with them the read can miss the key). The header of a failed transaction is 0 in this implementation and so speaks of no revision."
 },
 "C85": {
  "note": "Liveness over infinite executions, with fairness stated about the states only (polls keep completing, updates received are eventually sent, a non-empty channel is eventually read). C85_fair_executions_exist shows that fair executions exist from every quiet state of a served stream; C85_concrete is a complete instance. What breaks when a hypothesis fails is in C33 (the poller stops after a timeout) and C65 (a slow stream is closed silently)."
 },
 "C86": {
  "note": "C86_leased_versions_expire is the liveness theorem; C86_fair_executions_exist constructs a fair serving execution from every quiet moment, C86_concrete instantiates it for three leased keys. Time is not modelled: 'eventually' replaces 'after the TTL'; that a deletion is not issued early is C55."
 },
 "C87": {
  "note": "Proved for create and progress requests, and for the identity of the watches. The rest is false of the code, shown by counterexample theorems: a cancel request is never confirmed (no response ever says canceled for a numbered watch), and a create request whose query fails is answered with watch id 0 and Created=false, which an etcd client cannot match to a request."
 },
 "C88": {
  "note": "Proved."
 },
 "C89": {
  "note": "Proved: nothing is ever sent for a refused watch. The rest is false: after a failed compact-revision query and after a compacted start revision the watcher stays registered and buffers all events of its range; it is never initialised and its buffer is never freed while it is registered (theorem over all continuations)."
 },
 "C90": {
  "note": "Partial because the code violates it: with a limit of 1 the first compaction or batch blocks for ever and no compaction ever succeeds, with 2 a batch and a compaction can block each other (counterexamples; for 1 a theorem over all executions). Proved: with no limit or at least 3 connections some call can always proceed; and with any limit once all transaction texts are in the cache."
 },
 "C91": {
  "note": "Composition of the batched and the prepared model with the order of shutdown. The reduction that only compactions use transactions of their own is proved over all programs of all requests."
 },
 "C92": {
  "note": "Proved for the command. Users of the package `server` get less (counterexamples): a Start that fails can leave the database open or the backend running, and Shutdown after a failed Start dereferences nil.",
  "status": "proved"
 },
 "C93": {
  "note": "Partial: the permissions are restricted only after the socket listens, and never for unixpacket (C93_private_counterexample); proved: private once the server listens, and always with a umask that removes group and other write permission."
 },
 "C94": {
  "note": "Partial: the trace provider is never shut down (the variable the shutdown function tests is never assigned), so the spans since the last flush are lost (C94_lost_counterexample)."
 },
 "C95": {
  "note": "C95_abstraction links the classification to the error classes that the rest of the model uses. C95_text_ignored_counterexample shows a consequence of the definition: dqlite errors with one of the texts but another code are not retried.",
  "status": "proved"
 },
 "C96": {
  "note": "Partial: holds for single statements; reading the compact revision counts twice, failures to read the row count as successes, compaction transactions are not counted (C96_counters_counterexample)."
 },
 "C97": {
  "note": "Holds for all operations except reading the leases when the TTL loop starts, which leaves the cursor open exactly if a row cannot be decoded."
 },
 "C98": {
  "note": "The order holds. Close hangs if a connection is under way that nobody receives, and a listener used again after Close crashes the process."
 },
 "C99": {
  "note": "Holds for all documented modes and aliases; a mode that does not exist does nothing and ends with status 0."
 },
 "C101": {
  "note": "The backend's Go texts (byte-for-byte copies) are parsed and interpreted in Lean; waking the poller is treated as having no effect on the answer."
 },
 "C102": {
  "note": "Handlers, backend and driver all run by their Go texts; the SQL constants by their SQL texts (C73)."
 },
 "C103": {
  "note": "About the source text of batched.go, parsed and interpreted; refinement of the text by the model of C41-C43 and consequences stated on the goroutines."
 },
 "C104": {
  "note": "About the source text (GoTextWatch), for every number of loop iterations followed. What compaction, broken cursors and slow streams may take away is stated as hypotheses (s.overtaken, s.lossy, dropped), as in C28 and C30."
 },
 "C105": {
  "note": "About the source text of watch.go (GoTextStream), every action of a goroutine a step of its own, for every number of loop iterations followed. After a failed Send nothing more is sent; what was sent before satisfies the theorems."
 },
 "C106": {
  "note": "partial: the handler returns only when all goroutines have, with an error one of them returned (C106_returns_their_error_partial), and only ServeUpdates writes the revision (C106_one_writer_partial). The rest fails: C106_never_told_counterexample (the handler of a connected client never returns unless a Send fails), C106_refused_in_silence_counterexample, C106_race_counterexample. Witness C106_example."
 },
 "C107": {
  "note": "About the source text of prepared.go (GoTextPrepared), every action of a goroutine a step of its own. Close itself is not atomic (C107_close_not_atomic)."
 },
 "C108": {
  "note": "partial: executions and queries never crash, nor does any call before the database is given up (C108_panic_partial), and they do not race with Close (C108_race_partial). BeginTx, Conn, PrepareContext and a second Close do crash afterwards, also if called before Close (C108_begin_counterexample, C108_second_close_counterexample), and read the field without the mutex (C108_race_counterexample)."
 },
 "C109": {
  "note": "About the text itself: GoTextTtl is the source of ttl.go, ttl_tree evaluates it (kernel) to the tree of actions the goroutines run."
 },
 "C110": {
  "note": "Partial because the code does not do it: the loop is not started again when a start-up query fails or its watch is dropped (C110_never_restarted_counterexample), and the watch does not cover keys from 0xff on (C39_high_keys_counterexample). Proved: everything that was live when the listing ran (C110_listed, result set complete) and everything in [0x00, 0xff) the node has seen while the loop's watch is served (C110_scheduled_partial)."
 },
 "C111": {
  "note": "The text runs as a tree of its database operations; statements are recognised by their texts and mean what SchemaStmt says; the Retry closure is not called here."
 },
 "C112": {
  "note": "List is proved for non-empty keys; New (TLS, addresses) is a connection that is made or not; clientv3 calls are builders of requests."
 },
 "C113": {
  "note": "The connection is not closed if List or Get fails in a backup (C113_backup_leak_counterexample); everything else of the statement is proved."
 },
 "C114": {
  "note": "Partial because the code violates the part about the mutex: Stop or Close of a backend that is not started returns with the mutex locked, after which no Start ever returns (C114_leak_counterexample). All other parts are proved for every reachable state; the mutex part (C114_mutex_partial) for executions in which no Stop or Close gets the mutex while the backend is not started."
 },
 "C115": {
  "note": "Full statement, proved with the texts of the code. C115_model says that the model of C95 and C96 is what the text does."
 },
 "C116": {
  "note": "Partial because the code violates the part about counting: a row that cannot be read is answered as an error and counted as success (twice, for GetCompactRevision), as in C96 (C116_counterexample). Results, questions and Close are proved in full; counting (C116_counted_partial) if the rows can be read. C116_model says that the model of C96 is what the text does."
 },
 "C117": {
  "note": "Full statement, proved with the text of Compact. GetCompactRevision (its text: C116) and tryCompact (C102) are answers here. C117_model says that the model of C95 is what the text does."
 }
}