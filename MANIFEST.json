{
 "claims": [
  {
   "property": "C01",
   "status": "proved",
   "theorems": [
    "Verif.C01_history_strictly_increasing",
    "Verif.C01_write_returns_new_revision",
    "Verif.C01_later_write_is_newer",
    "Verif.C01_read_header_is_current",
    "Verif.C01_read_header_monotone"
   ],
   "note": ""
  },
  {
   "property": "C02",
   "status": "proved",
   "theorems": [
    "Verif.C02_create",
    "Verif.C02_create_error"
   ],
   "note": ""
  },
  {
   "property": "C03",
   "status": "proved",
   "theorems": [
    "Verif.C03_update",
    "Verif.C03_update_error",
    "Verif.C03_update_zero"
   ],
   "note": ""
  },
  {
   "property": "C04",
   "status": "proved",
   "theorems": [
    "Verif.C04_delete",
    "Verif.C04_delete_error",
    "Verif.C04_deleted_until_recreated"
   ],
   "note": ""
  },
  {
   "property": "C05",
   "status": "proved",
   "theorems": [
    "Verif.C05_read_at_revision",
    "Verif.C05_state_at_revision_is_fixed"
   ],
   "note": ""
  },
  {
   "property": "C06",
   "status": "proved",
   "theorems": [
    "Verif.C06_latest",
    "Verif.C06_latest_quiet",
    "Verif.C06_future"
   ],
   "note": ""
  },
  {
   "property": "C07",
   "status": "proved",
   "theorems": [
    "Verif.C07_compacted_never_served",
    "Verif.C07_compacted_only_if_compacted"
   ],
   "note": ""
  },
  {
   "property": "C08",
   "status": "partial",
   "theorems": [
    "Verif.C08_limit_more_count",
    "Verif.C08_single_key_count_counterexample",
    "Verif.C08_single_key_partial"
   ],
   "note": "Range reads: proved in full. Single-key reads: count is always 0 (counterexample), the rest is proved (partial)."
  },
  {
   "property": "C09",
   "status": "proved",
   "theorems": [
    "Verif.C09_pagination"
   ],
   "note": ""
  },
  {
   "property": "C10",
   "status": "proved",
   "theorems": [
    "Verif.C10_count_agrees"
   ],
   "note": ""
  },
  {
   "property": "C11",
   "status": "proved",
   "theorems": [
    "Verif.C11_single_key"
   ],
   "note": ""
  },
  {
   "property": "C12",
   "status": "proved",
   "theorems": [
    "Verif.C12_list_queries_agree",
    "Verif.C12_count_queries_agree",
    "Verif.C12_any_table"
   ],
   "note": ""
  },
  {
   "property": "C13",
   "status": "proved",
   "theorems": [
    "Verif.C13_same_answer",
    "Verif.C13_compaction_commits_nothing"
   ],
   "note": ""
  },
  {
   "property": "C14",
   "status": "proved",
   "theorems": [
    "Verif.C14_no_resurrection"
   ],
   "note": ""
  },
  {
   "property": "C15",
   "status": "proved",
   "theorems": [
    "Verif.C15_nothing_lost",
    "Verif.C15_stale_bounds"
   ],
   "note": ""
  },
  {
   "property": "C16",
   "status": "proved",
   "theorems": [
    "Verif.C16_only_advances",
    "Verif.C16_at_least_100_behind",
    "Verif.C16_last_100_readable"
   ],
   "note": ""
  },
  {
   "property": "C17",
   "status": "proved",
   "theorems": [
    "Verif.C17_target_reached",
    "Verif.C17_follower_does_not_compact",
    "Verif.C17_only_live_rows"
   ],
   "note": ""
  },
  {
   "property": "C18",
   "status": "proved",
   "theorems": [
    "Verif.C18_prev_of_created_ignored",
    "Verif.C18_old_peers_harmless"
   ],
   "note": ""
  },
  {
   "property": "C19",
   "status": "proved",
   "theorems": [
    "Verif.C19_consistent_after_crash",
    "Verif.C19_no_torn_write",
    "Verif.C19_committed_stays",
    "Verif.C19_acknowledged_write_survives",
    "Verif.C19_interrupted_update",
    "Verif.C19_interrupted_delete"
   ],
   "note": ""
  },
  {
   "property": "C20",
   "status": "proved",
   "theorems": [
    "Verif.C20_at_most_one_winner"
   ],
   "note": ""
  },
  {
   "property": "C21",
   "status": "proved",
   "theorems": [
    "Verif.C21_failed_answer_is_real"
   ],
   "note": ""
  },
  {
   "property": "C22",
   "status": "proved",
   "theorems": [
    "Verif.C22_unlimited_list_is_snapshot"
   ],
   "note": ""
  },
  {
   "property": "C23",
   "status": "partial",
   "theorems": [
    "Verif.C23_limited_list_header_counterexample",
    "Verif.C23_limited_list_partial"
   ],
   "note": "False: the header of a limited list comes from a later count query (counterexample). Partial: what does hold."
  },
  {
   "property": "C24",
   "status": "proved",
   "theorems": [
    "Verif.C24_create_revision"
   ],
   "note": ""
  },
  {
   "property": "C25",
   "status": "proved",
   "theorems": [
    "Verif.C25_update_at_most_once",
    "Verif.C25_delete_at_most_once"
   ],
   "note": "For creates see C72 (false)."
  },
  {
   "property": "C26",
   "status": "proved",
   "theorems": [
    "Verif.C26_shapes_exclusive",
    "Verif.C26_others_refused",
    "Verif.C26_plain_writes_refused"
   ],
   "note": ""
  },
  {
   "property": "C27",
   "status": "partial",
   "theorems": [
    "Verif.C27_success_partial",
    "Verif.C27_failure_partial",
    "Verif.C27_delete_absent_counterexample",
    "Verif.C27_not_atomic_counterexample"
   ],
   "note": "Success answers and effects equal etcd's (partial: proved part). False in full: deleting an absent key with revision 0 fails (etcd succeeds); a failed compare and its else-read are two statements, not one atomic step (counterexamples)."
  },
  {
   "property": "C28",
   "status": "proved",
   "theorems": [
    "Verif.C28_exactly_once",
    "Verif.C28_without_start_revision",
    "Verif.C28_slow_stream_no_gap",
    "Verif.C28_ordered",
    "Verif.C28_publish_flushes"
   ],
   "note": "Hypotheses lossy/overtaken/dropped are ghost flags that record exactly the exceptions named in the statement."
  },
  {
   "property": "C29",
   "status": "partial",
   "theorems": [
    "Verif.C29_not_older_partial",
    "Verif.C29_bound_partial",
    "Verif.C29_future_start_counterexample",
    "Verif.C29_lagging_node_counterexample"
   ],
   "note": "False for start revisions in the future: the code does not filter by revision (counterexample). Proved for start revisions up to the group's revision + 1, plus the exact bound that holds for every watch."
  },
  {
   "property": "C30",
   "status": "partial",
   "theorems": [
    "Verif.C30_compacted_is_refused",
    "Verif.C30_start_at_compact_revision_counterexample",
    "Verif.C30_race_counterexample",
    "Verif.C30_accepted_is_complete_partial"
   ],
   "note": "Refusal below the compact revision: proved. Completeness of accepted watches is false in two cases (counterexamples: start equal to the compact revision; compaction between check and query) and proved otherwise."
  },
  {
   "property": "C31",
   "status": "partial",
   "theorems": [
    "Verif.C31_faithful_partial",
    "Verif.C31_prev_lease_counterexample"
   ],
   "note": "Everything but the lease inside prevKv is proved; that one is the lease of the new version (counterexample)."
  },
  {
   "property": "C32",
   "status": "proved",
   "theorems": [
    "Verif.C32_list_then_watch",
    "Verif.C32_range_call_then_watch"
   ],
   "note": ""
  },
  {
   "property": "C33",
   "status": "proved",
   "theorems": [
    "Verif.C33_published_exactly_once",
    "Verif.C33_never_repeats",
    "Verif.C33_catches_up",
    "Verif.C33_overtaken_counterexample"
   ],
   "note": "Proved under the condition named in the statement; C33_overtaken_counterexample only shows that the condition is necessary."
  },
  {
   "property": "C34",
   "status": "proved",
   "theorems": [
    "Verif.C34_closed_once",
    "Verif.C34_nothing_after_close",
    "Verif.C34_overflow_closes",
    "Verif.C34_cancel_closes"
   ],
   "note": ""
  },
  {
   "property": "C35",
   "status": "partial",
   "theorems": [
    "Verif.C35_truthful_partial",
    "Verif.C35_truthful_idle_partial",
    "Verif.C35_window_counterexample",
    "Verif.C35_backlog_counterexample"
   ],
   "note": "False in two windows (counterexamples: revision published before the events of the update are sent; backlog of a new watch). Proved outside of them."
  },
  {
   "property": "C36",
   "status": "partial",
   "theorems": [
    "Verif.C36_until_first_event_partial",
    "Verif.C36_never_after_event_counterexample",
    "Verif.C36_idle_counterexample"
   ],
   "note": "False: after its first event a watch never gets another progress notification (proved for every execution). Until its first event it gets one at every tick (proved)."
  },
  {
   "property": "C37",
   "status": "partial",
   "theorems": [
    "Verif.C37_survives_partial",
    "Verif.C37_timeout_counterexample"
   ],
   "note": "False for query timeouts: the poller ends for ever (counterexample). Proved for every other error."
  },
  {
   "property": "C38",
   "status": "proved",
   "theorems": [
    "Verif.C38_expiry_exact",
    "Verif.C38_renewed_is_safe",
    "Verif.C38_expired_is_gone"
   ],
   "note": ""
  },
  {
   "property": "C39",
   "status": "partial",
   "theorems": [
    "Verif.C39_listed",
    "Verif.C39_scheduled_partial",
    "Verif.C39_high_keys_counterexample",
    "Verif.C39_failed_watch_counterexample",
    "Verif.C39_broken_list_counterexample"
   ],
   "note": "False in full (counterexamples: keys >= 0xff, failed Watch only logged, broken cursor). Partial: everything listed or seen by a healthy watch has a timer."
  },
  {
   "property": "C40",
   "status": "proved",
   "theorems": [
    "Verif.C40_timers_leased",
    "Verif.C40_only_leased_expire"
   ],
   "note": ""
  },
  {
   "property": "C41",
   "status": "proved",
   "theorems": [
    "Verif.C41_all_or_nothing",
    "Verif.C41_refines_single_statements",
    "Verif.C41_submission_order"
   ],
   "note": ""
  },
  {
   "property": "C42",
   "status": "proved",
   "theorems": [
    "Verif.C42_own_result",
    "Verif.C42_one_answer"
   ],
   "note": ""
  },
  {
   "property": "C43",
   "status": "proved",
   "theorems": [
    "Verif.C43_rejects_after_close",
    "Verif.C43_rejected_never_executed",
    "Verif.C43_close_waits",
    "Verif.C43_terminates",
    "Verif.C43_stops_only_when_done",
    "Verif.C43_bounded_waiting"
   ],
   "note": ""
  },
  {
   "property": "C44",
   "status": "proved",
   "theorems": [
    "Verif.C44_prepared_once",
    "Verif.C44_own_statement",
    "Verif.C44_close_releases",
    "Verif.C44_refused_after_close"
   ],
   "note": ""
  },
  {
   "property": "C45",
   "status": "proved",
   "theorems": [
    "Verif.C45_roundtrip",
    "Verif.C45_order",
    "Verif.C45_negative_minor_excluded"
   ],
   "note": "C45_negative_minor_excluded shows why negative minors are excluded from the statement."
  },
  {
   "property": "C46",
   "status": "proved",
   "theorems": [
    "Verif.C46_all_or_nothing",
    "Verif.C46_rows_kept",
    "Verif.C46_failure_changes_nothing",
    "Verif.C46_success",
    "Verif.C46_incompatible_untouched",
    "Verif.C46_idempotent",
    "Verif.C46_concurrent",
    "Verif.C46_no_failure",
    "Verif.C46_bounded_attempts",
    "Verif.C46_attempts"
   ],
   "note": ""
  },
  {
   "property": "C47",
   "status": "partial",
   "theorems": [
    "Verif.C47_trailing_min",
    "Verif.C47_threshold_le_trailing",
    "Verif.C47_valid_kept",
    "Verif.C47_threshold_min_partial",
    "Verif.C47_threshold_min_moderate_partial",
    "Verif.C47_threshold_min_counterexample",
    "Verif.C47_strategy"
   ],
   "note": "Trailing >= 512 and threshold <= trailing: proved for all inputs. Threshold >= 384 is false (counterexamples); its exact domain is proved (partial)."
  },
  {
   "property": "C48",
   "status": "proved",
   "theorems": [
    "Verif.C48_refuses",
    "Verif.C48_starts_only_if_clean",
    "Verif.C48_actions"
   ],
   "note": ""
  },
  {
   "property": "C49",
   "status": "partial",
   "theorems": [
    "Verif.C49_init_counterexample",
    "Verif.C49_init_error_counterexample",
    "Verif.C49_init_partial",
    "Verif.C49_update_partial",
    "Verif.C49_update_torn_counterexample"
   ],
   "note": "False in full: init.yaml is removed before dqlite starts; info.yaml is overwritten in place. Partial: update.yaml with whole writes, for every number of crashes and failures."
  },
  {
   "property": "C50",
   "status": "partial",
   "theorems": [
    "Verif.C50_backup",
    "Verif.C50_backup_sound",
    "Verif.C50_backup_reads_only",
    "Verif.C50_restore_touches_only_listed",
    "Verif.C50_incomplete_backup_reported",
    "Verif.C50_incomplete_backup_reported_etcd",
    "Verif.C50_restore",
    "Verif.C50_roundtrip",
    "Verif.C50_putKey_writes",
    "Verif.C50_failed_restore_reports_success_counterexample",
    "Verif.C50_stale_files_counterexample",
    "Verif.C50_other_keys_and_leases_counterexample",
    "Verif.C50_restore_etcd"
   ],
   "note": "Proved: what a successful backup records, what a restore writes (any schedule), the fault-free round trip, restore to etcd. False in full (counterexamples): errors of single keys are swallowed, stale files of an older backup are restored, keys outside / and leases are lost. BackupEtcd's listing of a real etcd server is not modelled."
  },
  {
   "property": "C51",
   "status": "partial",
   "theorems": [
    "Verif.C51_put_writes",
    "Verif.C51_put_existing_partial",
    "Verif.C51_put_absent_counterexample"
   ],
   "note": "Put that returns nil is proved to have made exactly that write, and succeeds alone on an existing key. False for absent keys: Put always fails there (counterexample for every reachable store)."
  },
  {
   "property": "C52",
   "status": "proved",
   "theorems": [
    "Verif.C52_query",
    "Verif.C52_execute",
    "Verif.C52_compact",
    "Verif.C52_range",
    "Verif.C52_txn"
   ],
   "note": ""
  },
  {
   "property": "C53",
   "status": "partial",
   "theorems": [
    "Verif.C53_stop_before_start_counterexample",
    "Verif.C53_stop_twice_counterexample",
    "Verif.C53_restart_counterexample",
    "Verif.C53_calls_return_partial"
   ],
   "note": "False: Stop on a backend that is not started leaves the mutex locked (counterexamples); proved for executions in which Stop and Close only get the lock while started."
  },
  {
   "property": "C54",
   "status": "proved",
   "theorems": [
    "Verif.C54_unsupported_refused"
   ],
   "note": ""
  },
  {
   "property": "C55",
   "status": "proved",
   "theorems": [
    "Verif.C55_delay",
    "Verif.C55_overflow_counterexample"
   ],
   "note": "C55_overflow_counterexample shows that the bound on the TTL is needed (int64 overflow)."
  },
  {
   "property": "C56",
   "status": "partial",
   "theorems": [
    "Verif.C56_negative",
    "Verif.C56_positive",
    "Verif.C56_zero_counterexample"
   ],
   "note": "Negative and positive values proved; zero is false (counterexample: no idle connections instead of the default)."
  },
  {
   "property": "C57",
   "status": "proved",
   "theorems": [
    "Verif.C57_action",
    "Verif.C57_no_other_action",
    "Verif.C57_wrap_counterexample",
    "Verif.C57_terminate_delivered",
    "Verif.C57_keeps_checking",
    "Verif.C57_disabled",
    "Verif.C57_unknown_refused"
   ],
   "note": "C57_wrap_counterexample shows that both conditions in the statement are needed: a failing statfs, and a product that wraps, count as low space."
  },
  {
   "property": "C58",
   "status": "proved",
   "theorems": [
    "Verif.C58_no_fork",
    "Verif.C58_updates_never_fork"
   ],
   "note": ""
  },
  {
   "property": "C59",
   "status": "proved",
   "theorems": [
    "Verif.C59_fresh_and_announced"
   ],
   "note": ""
  },
  {
   "property": "C60",
   "status": "proved",
   "theorems": [
    "Verif.C60_compact_txn_changes_nothing",
    "Verif.C60_compact_call_changes_nothing"
   ],
   "note": ""
  },
  {
   "property": "C61",
   "status": "partial",
   "theorems": [
    "Verif.C61_repair_partial",
    "Verif.C61_all_created_counterexample",
    "Verif.C61_goes_back_counterexample"
   ],
   "note": "False when no marker row carries a previous revision (counterexample: all markers are deleted) and the compact revision can go back (counterexample). Proved otherwise."
  },
  {
   "property": "C62",
   "status": "proved",
   "theorems": [
    "Verif.C62_returned_is_right",
    "Verif.C62_reads_change_nothing"
   ],
   "note": ""
  },
  {
   "property": "C63",
   "status": "partial",
   "theorems": [
    "Verif.C63_pagination_from_latest_counterexample",
    "Verif.C63_pagination_from_latest_partial"
   ],
   "note": "False for the code (counterexample). Partial: it holds if nothing commits while the first page is read."
  },
  {
   "property": "C64",
   "status": "partial",
   "theorems": [
    "Verif.C64_broken_cursor_counterexample",
    "Verif.C64_compaction_race_counterexample",
    "Verif.C64_complete_partial"
   ],
   "note": "False for the code (two counterexamples: broken cursor, compaction between the two queries). Partial: with complete result sets and the revision still uncompacted at return nothing is omitted."
  },
  {
   "property": "C65",
   "status": "partial",
   "theorems": [
    "Verif.C65_stays_open_counterexample",
    "Verif.C65_never_skips_partial"
   ],
   "note": "False for the code (counterexample). Partial: a stream that stops being served never skips events; what the client has is always an initial part of the exact sequence."
  },
  {
   "property": "C66",
   "status": "partial",
   "theorems": [
    "Verif.C66_cancel_fails_others_counterexample",
    "Verif.C66_undisturbed_partial"
   ],
   "note": "False: one cancelled job fails the whole batch (counterexample). Proved: without cancelled or failing jobs in its batch a job is unaffected."
  },
  {
   "property": "C67",
   "status": "partial",
   "theorems": [
    "Verif.C67_panic_counterexample",
    "Verif.C67_exec_query_partial"
   ],
   "note": "False for a second Close, BeginTx, Conn and PrepareContext after Close (counterexample: nil dereference); proved for executing and querying."
  },
  {
   "property": "C68",
   "status": "partial",
   "theorems": [
    "Verif.C68_no_panic_partial",
    "Verif.C68_shutdown_counterexample"
   ],
   "note": "False for action=terminate (counterexample); proved otherwise."
  },
  {
   "property": "C69",
   "status": "partial",
   "theorems": [
    "Verif.C69_intervals_partial",
    "Verif.C69_interval_counterexample"
   ],
   "note": "False: zero and negative intervals are accepted (counterexample). Partial: positive settings."
  },
  {
   "property": "C70",
   "status": "proved",
   "theorems": [
    "Verif.C70_list_prefix",
    "Verif.C70_list_at_revision",
    "Verif.C70_prefix_end_ff",
    "Verif.C70_ff_prefix_counterexample"
   ],
   "note": "The counterexample shows that the condition on 0xff prefixes is needed."
  },
  {
   "property": "C71",
   "status": "proved",
   "theorems": [
    "Verif.C71_create",
    "Verif.C71_create_exists",
    "Verif.C71_update",
    "Verif.C71_delete"
   ],
   "note": ""
  },
  {
   "property": "C72",
   "status": "partial",
   "theorems": [
    "Verif.C72_create_only_when_absent_partial",
    "Verif.C72_told_failure_counterexample",
    "Verif.C72_applied_twice_counterexample"
   ],
   "note": "False in full (two counterexamples). Partial: each attempt takes effect only on an absent key; at most 500 attempts; success names a revision made by this call."
  },
  {
   "property": "C73",
   "status": "proved",
   "theorems": [
    "Verif.C73_reachable",
    "Verif.C73_list",
    "Verif.C73_count",
    "Verif.C73_after",
    "Verif.C73_afterPrefix",
    "Verif.C73_ttl",
    "Verif.C73_currentRevision",
    "Verif.C73_interval",
    "Verif.C73_create",
    "Verif.C73_update",
    "Verif.C73_delete",
    "Verif.C73_write_effects",
    "Verif.C73_deleteRev",
    "Verif.C73_compact",
    "Verif.C73_list_plan_independent",
    "Verif.C73_write_plan_independent"
   ],
   "note": "SQL texts copied verbatim (tools/sqltext.py --check), parsed and evaluated in Lean; semantics of the SQL fragment (Model/SqlLang) is trusted. CROSS JOIN is taken to keep the order of its left operand, as SQLite documents, and so is an ORDER BY inside the CTE it scans. UniqueIds holds in every reachable store (C73_reachable)."
  },
  {
   "property": "C74",
   "status": "proved",
   "theorems": [
    "Verif.C74_linearizable",
    "Verif.C74_no_hidden_effects"
   ],
   "note": "Textbook linearizability over recorded executions (Model/Conc.lean) against the sequential specification Spec/Linear.lean; covers every write answer and every read answer without broken cursor or overtaking compaction (those are the counterexamples of C64). The content of the else branch of a failed update or delete is not part of the sequential specification (C21, C27)."
  },
  {
   "property": "C75",
   "status": "partial",
   "theorems": [
    "Verif.C75_success_partial",
    "Verif.C75_same_key_partial",
    "Verif.C75_update_other_key_counterexample",
    "Verif.C75_delete_other_key_counterexample",
    "Verif.C75_create_other_key_counterexample",
    "Verif.C75_delete_range_end_counterexample"
   ],
   "note": "True when compare and operation name the same single key, and the general theorem says exactly which key is used otherwise; the full property fails when they differ (create and delete ignore the compare key, update ignores the put key) or when a range end is given."
  },
  {
   "property": "C76",
   "status": "partial",
   "theorems": [
    "Verif.C76_create_options_partial",
    "Verif.C76_update_ignores_options_counterexample",
    "Verif.C76_else_range_ignored_counterexample"
   ],
   "note": "Create refuses; update, delete and the else branch ignore the options (counterexamples)."
  },
  {
   "property": "C77",
   "status": "proved",
   "theorems": [
    "Verif.C77_resumed_copy_is_exact",
    "Verif.C77_never_goes_back"
   ],
   "note": "Full proof for clients that ignore events they already have; a client that does not (as in C29) can be taken back in time by a lagging node (C29_lagging_node_counterexample)."
  },
  {
   "property": "C78",
   "status": "proved",
   "theorems": [
    "Verif.C78_unimplemented_refused",
    "Verif.C78_only_writes_write",
    "Verif.C78_status",
    "Verif.C78_lease_grant"
   ],
   "note": ""
  },
  {
   "property": "C79",
   "status": "partial",
   "theorems": [
    "Verif.C79_bookkeeping_partial",
    "Verif.C79_reserved_key_counterexample"
   ],
   "note": "Proved for every key but compact_rev_key; the reserved key is not protected (counterexample: two client updates of it make old revisions unreadable)."
  },
  {
   "property": "C80",
   "status": "proved",
   "theorems": [
    "Verif.C80_started_as_configured",
    "Verif.C80_intervals"
   ],
   "note": "C80_started_as_configured: the options of every call of app.New, for every run (errors and crashes included). C80_intervals: the intervals of every returned server. YAML parsing is a parameter; certificates are only loaded or not."
  },
  {
   "property": "C81",
   "status": "proved",
   "theorems": [
    "Verif.C81_batching_is_invisible",
    "Verif.C81_database_reachable",
    "Verif.C81_linearizable",
    "Verif.C81_linearizable_reads",
    "Verif.C81_writes_fit_the_batcher",
    "Verif.C81_crashed",
    "Verif.C81_crash"
   ],
   "note": "Composition of the batcher model with the concurrent system; forward simulation. Reads whose cursor broke or which a compaction overtook are only required to be absent or correct (see C64). That errors may be handed to calls of other clients in the same batch is C66."
  },
  {
   "property": "C82",
   "status": "proved",
   "theorems": [
    "Verif.C82_update_applies_to_what_was_read",
    "Verif.C82_no_lost_updates"
   ],
   "note": "Theorems about the composed system MRun (clients, batchers of all nodes, one database). Saw: the version was in the answer to some call of the record. In C82_no_lost_updates every commit of the key must stem from an answered call (hypothesis hall): an update whose answer was lost may or may not have been applied."
  },
  {
   "property": "C83",
   "status": "proved",
   "theorems": [
    "Verif.C83_one_holder",
    "Verif.C83_held_lock_refuses",
    "Verif.C83_release_is_fenced"
   ],
   "note": "Theorems about the composed system MRun. Expiry of a lease is a delete too: the store does not know whether the holder is gone. Deletes guarded by revision 0 are excluded from ClientOp (C27)."
  },
  {
   "property": "C84",
   "status": "proved",
   "theorems": [
    "Verif.C84_never_back_in_time",
    "Verif.C84_read_your_writes",
    "Verif.C84_read_after_event"
   ],
   "note": "One shared database: dqlite queries are executed by the leader. C84_read_your_writes excludes broken cursors and answers overtaken by a compaction, as C64 (with them the read can miss the key). The header of a failed transaction is 0 in this implementation and so speaks of no revision."
  },
  {
   "property": "C85",
   "status": "proved",
   "theorems": [
    "Verif.C85_due_events_arrive",
    "Verif.C85_fair_executions_exist",
    "Verif.C85_concrete"
   ],
   "note": "Liveness over infinite executions, with fairness stated about the states only (polls keep completing, updates received are eventually sent, a non-empty channel is eventually read). C85_fair_executions_exist shows that fair executions exist from every quiet state of a served stream; C85_concrete is a complete instance. What breaks when a hypothesis fails is in C33 (the poller stops after a timeout) and C65 (a slow stream is closed silently)."
  },
  {
   "property": "C86",
   "status": "proved",
   "theorems": [
    "Verif.C86_leased_versions_expire",
    "Verif.C86_fair_executions_exist",
    "Verif.C86_concrete"
   ],
   "note": "C86_leased_versions_expire is the liveness theorem; C86_fair_executions_exist constructs a fair serving execution from every quiet moment, C86_concrete instantiates it for three leased keys. Time is not modelled: 'eventually' replaces 'after the TTL'; that a deletion is not issued early is C55."
  },
  {
   "property": "C87",
   "status": "partial",
   "theorems": [
    "Verif.C87_answered_in_order_partial",
    "Verif.C87_covers",
    "Verif.C87_answer_comes",
    "Verif.C87_cancel_unanswered_counterexample",
    "Verif.C87_cancel_silent_counterexample",
    "Verif.C87_failed_create_counterexample"
   ],
   "note": "Proved for create and progress requests, and for the identity of the watches. The rest is false of the code, shown by counterexample theorems: a cancel request is never confirmed (no response ever says canceled for a numbered watch), and a create request whose query fails is answered with watch id 0 and Created=false, which an etcd client cannot match to a request."
  },
  {
   "property": "C88",
   "status": "proved",
   "theorems": [
    "Verif.C88_no_event_after_cancel",
    "Verif.C88_silent_after_cancel"
   ],
   "note": "Proved."
  },
  {
   "property": "C89",
   "status": "partial",
   "theorems": [
    "Verif.C89_refused_gets_nothing_partial",
    "Verif.C89_never_freed_counterexample",
    "Verif.C89_failed_leak_counterexample",
    "Verif.C89_compacted_leak_counterexample"
   ],
   "note": "Proved: nothing is ever sent for a refused watch. The rest is false: after a failed compact-revision query and after a compacted start revision the watcher stays registered and buffers all events of its range; it is never initialised and its buffer is never freed while it is registered (theorem over all continuations)."
  },
  {
   "property": "C90",
   "status": "partial",
   "theorems": [
    "Verif.C90_prepared_once",
    "Verif.C90_progress_partial",
    "Verif.C90_warm_progress_partial",
    "Verif.C90_one_connection_counterexample",
    "Verif.C90_two_connections_counterexample",
    "Verif.C90_one_connection_never_compacts",
    "Verif.C90_compaction_texts"
   ],
   "note": "Partial because the code violates it: with a limit of 1 the first compaction or batch blocks for ever and no compaction ever succeeds, with 2 a batch and a compaction can block each other (counterexamples; for 1 a theorem over all executions). Proved: with no limit or at least 3 connections some call can always proceed; and with any limit once all transaction texts are in the cache."
  },
  {
   "property": "C91",
   "status": "proved",
   "theorems": [
    "Verif.C91_only_compaction_uses_transactions",
    "Verif.C91_no_panic",
    "Verif.C91_closed_when_idle",
    "Verif.C91_refused_afterwards",
    "Verif.C91_completes"
   ],
   "note": "Composition of the batched and the prepared model with the order of shutdown. The reduction that only compactions use transactions of their own is proved over all programs of all requests."
  },
  {
   "property": "C92",
   "status": "proved",
   "theorems": [
    "Verif.C92_serves_when_ready",
    "Verif.C92_one_database",
    "Verif.C92_stop_order",
    "Verif.C92_success",
    "Verif.C92_failures",
    "Verif.C92_handover_may_fail",
    "Verif.C92_start",
    "Verif.C92_failed_start_counterexample",
    "Verif.C92_shutdown_unstarted_counterexample"
   ],
   "note": "Proved for the command. Users of the package `server` get less (counterexamples): a Start that fails can leave the database open or the backend running, and Shutdown after a failed Start dereferences nil."
  },
  {
   "property": "C93",
   "status": "partial",
   "theorems": [
    "Verif.C93_address",
    "Verif.C93_address_roundtrip",
    "Verif.C93_private_partial",
    "Verif.C93_private_counterexample",
    "Verif.C93_removes_only_for_unix",
    "Verif.C93_leak_counterexample"
   ],
   "note": "Partial: the permissions are restricted only after the socket listens, and never for unixpacket (C93_private_counterexample); proved: private once the server listens, and always with a umask that removes group and other write permission."
  },
  {
   "property": "C94",
   "status": "partial",
   "theorems": [
    "Verif.C94_filters",
    "Verif.C94_setup",
    "Verif.C94_exported_partial",
    "Verif.C94_lost_counterexample",
    "Verif.C94_first_flush",
    "Verif.C94_queue_full"
   ],
   "note": "Partial: the trace provider is never shut down (the variable the shutdown function tests is never assigned), so the spans since the last flush are lost (C94_lost_counterexample)."
  },
  {
   "property": "C95",
   "status": "proved",
   "theorems": [
    "Verif.C95_retry",
    "Verif.C95_retry_sqlite",
    "Verif.C95_kinds",
    "Verif.C95_wrapping",
    "Verif.C95_text_ignored_counterexample",
    "Verif.C95_attempts",
    "Verif.C95_abstraction",
    "Verif.C95_abstraction_compact"
   ],
   "note": "C95_abstraction links the classification to the error classes that the rest of the model uses. C95_text_ignored_counterexample shows a consequence of the definition: dqlite errors with one of the texts but another code are not retried."
  },
  {
   "property": "C96",
   "status": "partial",
   "theorems": [
    "Verif.C96_counted_partial",
    "Verif.C96_counters_counterexample"
   ],
   "note": "Partial: holds for single statements; reading the compact revision counts twice, failures to read the row count as successes, compaction transactions are not counted (C96_counters_counterexample)."
  },
  {
   "property": "C97",
   "status": "partial",
   "theorems": [
    "Verif.C97_closed_partial",
    "Verif.C97_leases_partial",
    "Verif.C97_leases_counterexample"
   ],
   "note": "Holds for all operations except reading the leases when the TTL loop starts, which leaves the cursor open exactly if a row cannot be decoded."
  },
  {
   "property": "C98",
   "status": "partial",
   "theorems": [
    "Verif.C98_in_order",
    "Verif.C98_close_partial",
    "Verif.C98_close_counterexample"
   ],
   "note": "The order holds. Close hangs if a connection is under way that nobody receives, and a listener used again after Close crashes the process."
  },
  {
   "property": "C99",
   "status": "partial",
   "theorems": [
    "Verif.C99_mode_partial",
    "Verif.C99_other_modes",
    "Verif.C99_mode_counterexample"
   ],
   "note": "Holds for all documented modes and aliases; a mode that does not exist does nothing and ends with status 0."
  },
  {
   "property": "C100",
   "status": "proved",
   "theorems": [
    "Verif.Go.C100_parsed",
    "Verif.Go.C100_txn",
    "Verif.Go.C100_range",
    "Verif.Go.C100_put",
    "Verif.Go.C100_deleteRange",
    "Verif.Go.C100_compact",
    "Verif.Go.C100_leaseGrant",
    "Verif.Go.C100_no_panic",
    "Verif.Go.C100_stuck_is_seen",
    "Verif.Go.C100_example"
   ],
   "note": ""
  },
  {
   "property": "C101",
   "status": "proved",
   "theorems": [
    "Verif.Go.C101_parsed",
    "Verif.Go.C101_create",
    "Verif.Go.C101_update",
    "Verif.Go.C101_delete",
    "Verif.Go.C101_list",
    "Verif.Go.C101_count",
    "Verif.Go.C101_doCompact",
    "Verif.Go.C101_appendEvents"
   ],
   "note": "The backend's Go texts (byte-for-byte copies) are parsed and interpreted in Lean; waking the poller is treated as having no effect on the answer."
  },
  {
   "property": "C102",
   "status": "proved",
   "theorems": [
    "Verif.Go.C102_parsed",
    "Verif.Go.C102_driver",
    "Verif.Go.C102_tryCompact",
    "Verif.Go.C102_after",
    "Verif.Go.C102_listTTL",
    "Verif.Go.C102_txn",
    "Verif.Go.C102_range",
    "Verif.Go.C102_no_panic",
    "Verif.Go.C102_doCompact",
    "Verif.Go.C102_compact_no_panic",
    "Verif.Go.C102_stuck_is_seen",
    "Verif.Go.C102_example",
    "Verif.Go.C102_queries",
    "Verif.Go.C102_writes",
    "Verif.Go.C102_statements_apply"
   ],
   "note": "Handlers, backend and driver all run by their Go texts; the SQL constants by their SQL texts (C73)."
  },
  {
   "property": "C103",
   "status": "proved",
   "theorems": [
    "Verif.Go.C103_rounds",
    "Verif.Go.C103_close",
    "Verif.Go.C103_refused",
    "Verif.Go.C103_never_stuck",
    "Verif.Go.C103_sleepers_have_a_worker",
    "Verif.Go.C103_one_worker",
    "Verif.Go.C103_worker_wakes",
    "Verif.Go.C103_no_race",
    "Verif.Go.C103_example",
    "Verif.Go.C103_parsed"
   ],
   "note": "About the source text of batched.go, parsed and interpreted; refinement of the text by the model of C41-C43 and consequences stated on the goroutines."
  },
  {
   "property": "C104",
   "status": "proved",
   "theorems": [
    "Verif.Go.C104_parsed",
    "Verif.Go.C104_exactly_once",
    "Verif.Go.C104_ordered",
    "Verif.Go.C104_slow_stream_no_gap",
    "Verif.Go.C104_compacted",
    "Verif.Go.C104_channel",
    "Verif.Go.C104_never_stuck",
    "Verif.Go.C104_no_deadlock",
    "Verif.Go.C104_example"
   ],
   "note": "About the source text (GoTextWatch), for every number of loop iterations followed. What compaction, broken cursors and slow streams may take away is stated as hypotheses (s.overtaken, s.lossy, dropped), as in C28 and C30."
  },
  {
   "property": "C105",
   "status": "proved",
   "theorems": [
    "Verif.Go.C105_simulates",
    "Verif.Go.C105_fresh_and_announced",
    "Verif.Go.C105_events_faithful",
    "Verif.Go.C105_forwards_all",
    "Verif.Go.C105_answered",
    "Verif.Go.C105_cancelled",
    "Verif.Go.C105_mutual_exclusion",
    "Verif.Go.C105_never_stuck",
    "Verif.Go.C105_example",
    "Verif.Go.C105_parsed"
   ],
   "note": "About the source text of watch.go (GoTextStream), every action of a goroutine a step of its own, for every number of loop iterations followed. After a failed Send nothing more is sent; what was sent before satisfies the theorems."
  },
  {
   "property": "C106",
   "status": "partial",
   "theorems": [
    "Verif.Go.C106_never_told_counterexample",
    "Verif.Go.C106_refused_in_silence_counterexample",
    "Verif.Go.C106_race_counterexample",
    "Verif.Go.C106_returns_their_error_partial",
    "Verif.Go.C106_one_writer_partial",
    "Verif.Go.C106_example"
   ],
   "note": "partial: the handler returns only when all goroutines have, with an error one of them returned (C106_returns_their_error_partial), and only ServeUpdates writes the revision (C106_one_writer_partial). The rest fails: C106_never_told_counterexample (the handler of a connected client never returns unless a Send fails), C106_refused_in_silence_counterexample, C106_race_counterexample. Witness C106_example."
  },
  {
   "property": "C107",
   "status": "proved",
   "theorems": [
    "Verif.Go.C107_defined",
    "Verif.Go.C107_prepared_once",
    "Verif.Go.C107_own_statement",
    "Verif.Go.C107_executed_once",
    "Verif.Go.C107_prepare",
    "Verif.Go.C107_closed_once",
    "Verif.Go.C107_close_releases",
    "Verif.Go.C107_no_leak",
    "Verif.Go.C107_nothing_after_close",
    "Verif.Go.C107_refused_after_close",
    "Verif.Go.C107_no_deadlock",
    "Verif.Go.C107_no_race",
    "Verif.Go.C107_close_not_atomic",
    "Verif.Go.C107_parsed"
   ],
   "note": "About the source text of prepared.go (GoTextPrepared), every action of a goroutine a step of its own. Close itself is not atomic (C107_close_not_atomic)."
  },
  {
   "property": "C108",
   "status": "partial",
   "theorems": [
    "Verif.Go.C108_panic_partial",
    "Verif.Go.C108_race_partial",
    "Verif.Go.C108_second_close_counterexample",
    "Verif.Go.C108_begin_counterexample",
    "Verif.Go.C108_race_counterexample"
   ],
   "note": "partial: executions and queries never crash, nor does any call before the database is given up (C108_panic_partial), and they do not race with Close (C108_race_partial). BeginTx, Conn, PrepareContext and a second Close do crash afterwards, also if called before Close (C108_begin_counterexample, C108_second_close_counterexample), and read the field without the mutex (C108_race_counterexample)."
  },
  {
   "property": "C109",
   "status": "proved",
   "theorems": [
    "Verif.Go.C109_parsed",
    "Verif.Go.C109_defined",
    "Verif.Go.C109_waits",
    "Verif.Go.C109_one_version",
    "Verif.Go.C109_exact",
    "Verif.Go.C109_retries"
   ],
   "note": "About the text itself: GoTextTtl is the source of ttl.go, ttl_tree evaluates it (kernel) to the tree of actions the goroutines run."
  },
  {
   "property": "C110",
   "status": "partial",
   "theorems": [
    "Verif.Go.C110_listed",
    "Verif.Go.C110_scheduled_partial",
    "Verif.Go.C110_never_restarted_counterexample"
   ],
   "note": "Partial because the code does not do it: the loop is not started again when a start-up query fails or its watch is dropped (C110_never_restarted_counterexample), and the watch does not cover keys from 0xff on (C39_high_keys_counterexample). Proved: everything that was live when the listing ran (C110_listed, result set complete) and everything in [0x00, 0xff) the node has seen while the loop's watch is served (C110_scheduled_partial)."
  },
  {
   "property": "C111",
   "status": "proved",
   "theorems": [
    "Verif.C111_versions",
    "Verif.C111_setup",
    "Verif.C111_newDriver",
    "Verif.C111_alone",
    "Verif.C111_refused",
    "Verif.Go.C111_parsed"
   ],
   "note": "The text runs as a tree of its database operations; statements are recognised by their texts and mean what SchemaStmt says; the Retry closure is not called here."
  },
  {
   "property": "C112",
   "status": "proved",
   "theorems": [
    "Verif.C112_client",
    "Verif.C112_putKey",
    "Verif.Go.C112_parsed"
   ],
   "note": "List is proved for non-empty keys; New (TLS, addresses) is a connection that is made or not; clientv3 calls are builders of requests."
  },
  {
   "property": "C113",
   "status": "partial",
   "theorems": [
    "Verif.C113_restore",
    "Verif.C113_backup",
    "Verif.C113_backup_model",
    "Verif.C113_roundtrip",
    "Verif.C113_backup_etcd",
    "Verif.C113_restore_etcd",
    "Verif.C113_backup_leak_counterexample"
   ],
   "note": "The connection is not closed if List or Get fails in a backup (C113_backup_leak_counterexample); everything else of the statement is proved."
  },
  {
   "property": "C114",
   "status": "partial",
   "theorems": [
    "Verif.C114_no_panic",
    "Verif.C114_told",
    "Verif.C114_stopped_told",
    "Verif.C114_wait",
    "Verif.C114_mutex_partial",
    "Verif.C114_mutex_example",
    "Verif.C114_goroutines_end",
    "Verif.C114_start",
    "Verif.C114_start_create_fails",
    "Verif.C114_start_watch_fails",
    "Verif.C114_start_twice",
    "Verif.C114_stop",
    "Verif.C114_leak_counterexample",
    "Verif.Go.C114_parsed"
   ],
   "note": "Partial because the code violates the part about the mutex: Stop or Close of a backend that is not started returns with the mutex locked, after which no Start ever returns (C114_leak_counterexample). All other parts are proved for every reachable state; the mutex part (C114_mutex_partial) for executions in which no Stop or Close gets the mutex while the backend is not started."
  },
  {
   "property": "C115",
   "status": "proved",
   "theorems": [
    "Verif.C115_dqlite_retry",
    "Verif.C115_default_retry",
    "Verif.C115_dqlite_retry_iff",
    "Verif.C115_default_retry_iff",
    "Verif.C115_success",
    "Verif.C115_failure",
    "Verif.C115_exhausted",
    "Verif.C115_cases",
    "Verif.C115_model",
    "Verif.C115_example",
    "Verif.Go.C115_parsed"
   ],
   "note": "Full statement, proved with the texts of the code. C115_model says that the model of C95 and C96 is what the text does."
  },
  {
   "property": "C116",
   "status": "partial",
   "theorems": [
    "Verif.C116_read",
    "Verif.C116_failure",
    "Verif.C116_exhausted",
    "Verif.C116_model",
    "Verif.C116_counted_partial",
    "Verif.C116_counterexample",
    "Verif.C116_example"
   ],
   "note": "Partial because the code violates the part about counting: a row that cannot be read is answered as an error and counted as success (twice, for GetCompactRevision), as in C96 (C116_counterexample). Results, questions and Close are proved in full; counting (C116_counted_partial) if the rows can be read. C116_model says that the model of C96 is what the text does."
  },
  {
   "property": "C117",
   "status": "proved",
   "theorems": [
    "Verif.C117_unread",
    "Verif.C117_nothing",
    "Verif.C117_success",
    "Verif.C117_failure",
    "Verif.C117_exhausted",
    "Verif.C117_model",
    "Verif.C117_example"
   ],
   "note": "Full statement, proved with the text of Compact. GetCompactRevision (its text: C116) and tryCompact (C102) are answers here. C117_model says that the model of C95 is what the text does."
  }
 ]
}