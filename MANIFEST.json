{
 "claims": [
  {
   "property": "C01",
   "status": "proved",
   "theorems": [
    "Tork.C01_job_lifecycle",
    "Tork.C01_job_history"
   ],
   "note": "Every interleaving of single operations, faults (failed, lost, half-done operations), crashes, lost and duplicated messages. Assumes Env.WellFormed (fresh job definitions, workers keep task identity) and that the start message of a job is not duplicated; C01/C02 negations show what happens otherwise."
  },
  {
   "property": "C02",
   "status": "proved",
   "theorems": [
    "Tork.C02_completed_outcome_final",
    "Tork.C02_completed_final",
    "Tork.C02_duplicate_start_restarts_completed_job"
   ],
   "note": "As C01. C02_duplicate_start_restarts_completed_job proves the exception."
  },
  {
   "property": "C03",
   "status": "proved",
   "theorems": [
    "Tork.C03_leave_only_by_restart",
    "Tork.C03_stays"
   ],
   "note": "As C01."
  },
  {
   "property": "C04",
   "status": "proved",
   "theorems": [
    "Tork.C04_task_lifecycle",
    "Tork.C04_late_results"
   ],
   "note": "As C01. Scheduler and cancellation writes are unguarded in the code (a cancelled task can be scheduled again); the claim is about late results only."
  },
  {
   "property": "C05",
   "status": "proved",
   "theorems": [
    "Tork.C05_next_task",
    "Tork.C05_position_exact",
    "Tork.C05_task_needs_position",
    "Tork.C05_position_moves",
    "Tork.C05_position_counts"
   ],
   "note": "World-level counting theorems (C05_position_counts for every history; C05_position_exact when no task of the job is skipped) plus the exact effect of one completion."
  },
  {
   "property": "C06",
   "status": "proved",
   "theorems": [
    "Tork.C06_last_task",
    "Tork.C06_completed_tasks",
    "Tork.C06_completed_past_last",
    "Tork.C06_completes_after_all_tasks",
    "Tork.C06_result"
   ],
   "note": "C06_completes_after_all_tasks for every history; C06_completed_tasks counts COMPLETED tasks when none is skipped. C06_result: the result, in every reachable world (proof with the origin logic of C80)."
  },
  {
   "property": "C07",
   "status": "proved",
   "theorems": [
    "Tork.C07_task_progress",
    "Tork.C07_completion_percentage",
    "Tork.C07_completion_monotone",
    "Tork.C07_report"
   ],
   "note": "Floating point modelled by exact rationals; the rounding to two decimals of the code is modelled. Reports that are not a number are outside of this model: C86 has them."
  },
  {
   "property": "C08",
   "status": "proved",
   "theorems": [
    "Tork.C08_attempts_bounded"
   ],
   "note": "Attempts of every row and message stay below the limit in every reachable world."
  },
  {
   "property": "C09",
   "status": "proved",
   "theorems": [
    "Tork.C09_retry",
    "Tork.C09_no_retry",
    "Tork.C09_every_run",
    "Tork.C09_message_every_run",
    "Tork.C09_two_attempts"
   ],
   "note": "Evaluation of the retry's templates assumed to succeed in C09_retry (otherwise the job is lost: C52_retry_defect)."
  },
  {
   "property": "C10",
   "status": "proved",
   "theorems": [
    "Tork.C10_failure_stops_work",
    "Tork.C10_subjob_failure"
   ],
   "note": ""
  },
  {
   "property": "C11",
   "status": "proved",
   "theorems": [
    "Tork.C11_fan_out",
    "Tork.C11_branch",
    "Tork.C11_last_branch_next",
    "Tork.C11_last_branch_end",
    "Tork.C11_counter_exact",
    "Tork.C11_parallel_waits_for_all",
    "Tork.C11_counter_counts_completions"
   ],
   "note": "C11_counter_exact and C11_parallel_waits_for_all hold over every history with duplicates, crashes and losses; the counted events are steps, so a duplicated completion of a SKIPPED branch counts twice, as in the code."
  },
  {
   "property": "C12",
   "status": "proved",
   "theorems": [
    "Tork.C12_fan_out",
    "Tork.C12_bad_list",
    "Tork.FanoutEx.C12_commands_defect",
    "Tork.C12_item",
    "Tork.C12_last_item_next",
    "Tork.C12_last_item_end",
    "Tork.C12_each_waits_for_all"
   ],
   "note": "C12_each_waits_for_all over every history. Command-line templates are excluded in C12_fan_out because of the aliasing defect proved in C12_commands_defect."
  },
  {
   "property": "C13",
   "status": "proved",
   "theorems": [
    "Tork.C13_limit",
    "Tork.Flow.C13_fast_child_fails_job",
    "Tork.C13_release",
    "Tork.C13_limit_whole_system",
    "Tork.C13_limit_with_retries",
    "Tork.C13_failure_reported_twice_exceeds_limit",
    "Tork.C13_crash_during_release_exceeds_limit"
   ],
   "note": "Limit in whole systems (three kinds of restrictions, see Mode in Once.lean), for children without parallel, each and sub-job sections; release of the held-back children in runs where each released child completes once and none is skipped."
  },
  {
   "property": "C14",
   "status": "proved",
   "theorems": [
    "Tork.C14_empty_list",
    "Tork.FanoutEx.C14_empty_list_hangs"
   ],
   "note": "The intended property is false of the code; the theorems prove what the code does instead, for every such task."
  },
  {
   "property": "C15",
   "status": "proved",
   "theorems": [
    "Tork.Seq.C15_skipped_only_if_false",
    "Tork.C15_skipped",
    "Tork.C15_skipped_every_run",
    "Tork.C15_never_scheduled",
    "Tork.C15_otherwise_scheduled"
   ],
   "note": ""
  },
  {
   "property": "C16",
   "status": "proved",
   "theorems": [
    "Tork.C16_subjob_parent_waits",
    "Tork.C16_attached_start",
    "Tork.C16_detached_start",
    "Tork.C16_result",
    "Tork.C16_failure",
    "Tork.C16_cancel_down",
    "Tork.C16_cancel_up",
    "Tork.SubJobsEx.C16_pending_sub_defect"
   ],
   "note": "C16_subjob_parent_waits over every history. Message-level theorems for start, result, failure, cancellation; C16_pending_sub_defect proves the exception."
  },
  {
   "property": "C17",
   "status": "proved",
   "theorems": [
    "Tork.C17_scheduled_with_defaults"
   ],
   "note": ""
  },
  {
   "property": "C18",
   "status": "proved",
   "theorems": [
    "Tork.C18_put_back",
    "Tork.C18_failure",
    "Tork.C18_bound"
   ],
   "note": ""
  },
  {
   "property": "C19",
   "status": "proved",
   "theorems": [
    "Tork.C19_workers_get_plain_tasks",
    "Tork.Registry.C19_counter",
    "Tork.Registry.C19_cancelled_only_by_request",
    "Tork.Registry.C19_cancel_finds",
    "Tork.Registry.C19_duplicate_hides_running",
    "Tork.C19_one_report",
    "Tork.C19_middleware",
    "Tork.C19_swallowed",
    "Tork.C19_every_run"
   ],
   "note": "C19_workers_get_plain_tasks over every history. C19_swallowed proves the middleware exception."
  },
  {
   "property": "C20",
   "status": "proved",
   "theorems": [
    "Tork.C20_next_task",
    "Tork.C20_last_task",
    "Tork.C20_child",
    "Tork.C20_context_changes_only_by_results",
    "Tork.C20_no_result_lost",
    "Tork.C20_inputs_immutable"
   ],
   "note": "C20_context_changes_only_by_results, C20_no_result_lost and C20_inputs_immutable are about every step of every reachable world."
  },
  {
   "property": "C21",
   "status": "proved",
   "theorems": [
    "Tork.C21_expunge",
    "Tork.C21_expunge_logs",
    "Tork.C21_delete_schedule"
   ],
   "note": ""
  },
  {
   "property": "C22",
   "status": "proved",
   "theorems": [
    "Tork.C22_jobs",
    "Tork.C22_scheduled_jobs",
    "Tork.C22_task_log",
    "Tork.C22_job_log",
    "Tork.C22_params",
    "Tork.C22_params_kept",
    "Tork.C22_ties_lose_items",
    "Tork.C22_log_search_totals_wrong"
   ],
   "note": "Distinct creation times needed for jobs (C22_ties_lose_items proves why)."
  },
  {
   "property": "C23",
   "status": "proved",
   "theorems": [
    "Tork.C23_visibility",
    "Tork.C23_scheduled_visibility"
   ],
   "note": ""
  },
  {
   "property": "C24",
   "status": "proved",
   "theorems": [
    "Tork.Wildcard.C24_wildcard_match_iff"
   ],
   "note": ""
  },
  {
   "property": "C25",
   "status": "proved",
   "theorems": [
    "Tork.Redaction.C25_task",
    "Tork.Redaction.C25_job",
    "Tork.Redaction.C25_read_task",
    "Tork.Redaction.C25_logs",
    "Tork.Redaction.C25_default_keys",
    "Tork.Redaction.C25_each_and_sidecars_not_redacted",
    "Tork.Redaction.C25_split_secret_leaks"
   ],
   "note": ""
  },
  {
   "property": "C26",
   "status": "proved",
   "theorems": [
    "Tork.Secrets.C26_round_trip",
    "Tork.Secrets.C26_stored",
    "Tork.Secrets.C26_only_sealed_form",
    "Tork.Secrets.C26_not_disclosed_without_key",
    "Tork.Secrets.C26_plain_round_trip",
    "Tork.Secrets.C26_plain_prefix_lost",
    "Tork.Secrets.C26_context_stored_in_clear"
   ],
   "note": "AES-GCM abstract: only decrypt (encrypt x) = x with the same key is assumed."
  },
  {
   "property": "C27",
   "status": "proved",
   "theorems": [
    "Tork.C27_task_clone_value",
    "Tork.C27_task_clone_equal",
    "Tork.C27_clone_loses_redelivery",
    "Tork.C27_job_clone_equal",
    "Tork.C27_job_clone_loses_deleteAt",
    "Tork.C27_scheduled_job_clone_equal",
    "Tork.C27_node_clone_equal",
    "Tork.C27_user_clone",
    "Tork.C27_clone_independent",
    "Tork.C27_cmd_is_shared"
   ],
   "note": ""
  },
  {
   "property": "C28",
   "status": "proved",
   "theorems": [
    "Tork.C28_plain_text",
    "Tork.C28_template",
    "Tork.C28_template_fails",
    "Tork.C28_task",
    "Tork.C28_task_without_templates"
   ],
   "note": ""
  },
  {
   "property": "C29",
   "status": "proved",
   "theorems": [
    "Tork.Inp.C29_accepts_iff",
    "Tork.Inp.C29_rejected_no_effect"
   ],
   "note": ""
  },
  {
   "property": "C30",
   "status": "proved",
   "theorems": [
    "Tork.Inp.C30_submit"
   ],
   "note": ""
  },
  {
   "property": "C31",
   "status": "proved",
   "theorems": [
    "Tork.Queues.C31_fifo",
    "Tork.Queues.C31_one_at_a_time",
    "Tork.Queues.C31_deliverable",
    "Tork.Queues.C31_settled_after_subscribe",
    "Tork.Queues.C31_first_use_race_loses_message",
    "Tork.Queues.C31_task_payload"
   ],
   "note": "After the first use of the queue settled; first-use race proved as a negation."
  },
  {
   "property": "C32",
   "status": "proved",
   "theorems": [
    "Tork.Topics.C32_in_order_exactly_once",
    "Tork.Topics.C32_reaches_exactly_the_matching",
    "Tork.Topics.C32_not_stuck"
   ],
   "note": ""
  },
  {
   "property": "C33",
   "status": "proved",
   "theorems": [
    "Tork.Locker.C33_inmemory_exclusive",
    "Tork.Locker.C33_inmemory_independent",
    "Tork.Locker.C33_inmemory_double_release_breaks_exclusion",
    "Tork.Locker.C33_inmemory_effects",
    "Tork.Locker.C33_postgres_exclusive",
    "Tork.Locker.C33_postgres_effects"
   ],
   "note": "In-memory: exclusion for histories in which each lock object is released at most once (double release breaks it: theorem C33_inmemory_double_release_breaks_exclusion). Postgres: all histories; a free key can fail to be acquired only on a 64-bit hash collision with a held key."
  },
  {
   "property": "C34",
   "status": "proved",
   "theorems": [
    "Tork.Cache.C34_replies",
    "Tork.Cache.C34_get",
    "Tork.Cache.C34_get_after_set",
    "Tork.Cache.C34_cleanup",
    "Tork.Cache.C34_delete",
    "Tork.Cache.C34_expired_entry_revived",
    "Tork.Cache.C34_list"
   ],
   "note": ""
  },
  {
   "property": "C35",
   "status": "proved",
   "theorems": [
    "Tork.LogShipper.C35_log_prefix",
    "Tork.LogShipper.C35_log_complete",
    "Tork.LogShipper.C35_log_received"
   ],
   "note": "All interleavings of writers and flusher. Bytes of a part whose publish is refused by the broker are lost (code does not retry): receiver completeness under hypothesis all publishes accepted."
  },
  {
   "property": "C36",
   "status": "proved",
   "theorems": [
    "Tork.NodeStore.C36_heartbeat_newest",
    "Tork.NodeStore.C36_heartbeat_monotone",
    "Tork.NodeStore.C36_active_nodes"
   ],
   "note": "All arrival orders, handlers executed one at a time with a non-decreasing clock."
  },
  {
   "property": "C37",
   "status": "proved",
   "theorems": [
    "Tork.Middleware.C37_middleware_nesting",
    "Tork.Middleware.C37_middleware_run",
    "Tork.Middleware.C37_middleware_short_circuit",
    "Tork.Middleware.C37_middleware_handler_runs"
   ],
   "note": ""
  },
  {
   "property": "C38",
   "status": "proved",
   "theorems": [
    "Tork.Webhooks.C38_policy",
    "Tork.Webhooks.C38_success_iff"
   ],
   "note": ""
  },
  {
   "property": "C39",
   "status": "proved",
   "theorems": [
    "Tork.Webhooks.C39_job",
    "Tork.Webhooks.C39_task",
    "Tork.Webhooks.C39_summary_hides",
    "Tork.Webhooks.C39_stale_job"
   ],
   "note": ""
  },
  {
   "property": "C40",
   "status": "proved",
   "theorems": [
    "Tork.Cron.C40_entries",
    "Tork.Cron.C40_overlapping_resume_leaks",
    "Tork.C40_firing",
    "Tork.C40_firing_drops_defaults"
   ],
   "note": "Requests for the same scheduled job do not overlap; overlapping ones leak (proved). Failing calls and invalid cron expressions not modelled."
  },
  {
   "property": "C41",
   "status": "proved",
   "theorems": [
    "Tork.C41_cancel",
    "Tork.C41_restart",
    "Tork.C41_cancel_every_run",
    "Tork.C41_restart_every_run"
   ],
   "note": ""
  },
  {
   "property": "C42",
   "status": "proved",
   "theorems": [
    "Tork.Inp.C42_delete_queue",
    "Tork.Inp.C42_submitted_queues",
    "Tork.Inp.C42_subjob_tasks_unchecked",
    "Tork.Inp.C42_templated_queue"
   ],
   "note": "Sub-job tasks are unchecked and templated names escape the check: both proved as exceptions."
  },
  {
   "property": "C43",
   "status": "proved",
   "theorems": [
    "Tork.C43_restart",
    "Tork.C43_restart_request",
    "Tork.C43_every_run",
    "Tork.C43_refused",
    "Tork.C43_duplicate_fails_job",
    "Tork.RestartEx.C43_duplicate_witness"
   ],
   "note": "Duplicate requests harm the job: proved."
  },
  {
   "property": "C44",
   "status": "proved",
   "theorems": [
    "Tork.C44_refused",
    "Tork.C44_duplicates",
    "Tork.C44_top_level",
    "Tork.DuplicatesEx.C44_skipped_counts_twice",
    "Tork.C44_duplicate_report_fails_job"
   ],
   "note": "SKIPPED tasks are the exception: proved."
  },
  {
   "property": "C45",
   "status": "proved",
   "theorems": [
    "Tork.C45_toplevel_completion_atomic",
    "Tork.C45_subtask_completion_atomic"
   ],
   "note": ""
  },
  {
   "property": "C46",
   "status": "proved",
   "theorems": [
    "Tork.Cleanup.C46_interval_bounded",
    "Tork.Cleanup.C46_delay_bounded"
   ],
   "note": ""
  },
  {
   "property": "C47",
   "status": "proved",
   "theorems": [
    "Tork.Health.C47_health_up_iff",
    "Tork.Health.C47_health_order_irrelevant",
    "Tork.Health.C47_health_registration"
   ],
   "note": ""
  },
  {
   "property": "C48",
   "status": "proved",
   "theorems": [
    "Tork.C48_definitions_immutable"
   ],
   "note": ""
  },
  {
   "property": "C49",
   "status": "proved",
   "theorems": [
    "Tork.C49_parse",
    "Tork.C49_words_unique",
    "Tork.C49_no_term_lost"
   ],
   "note": ""
  },
  {
   "property": "C50",
   "status": "proved",
   "theorems": [
    "Tork.HostEnv.C50_specs",
    "Tork.HostEnv.C50_effect",
    "Tork.HostEnv.C50_only_when_running"
   ],
   "note": "Unset host variables are added as empty strings (as the code does)."
  },
  {
   "property": "C51",
   "status": "proved",
   "theorems": [
    "Tork.Mounter.C51_same_mounter",
    "Tork.Mounter.C51_unmount_possible"
   ],
   "note": ""
  },
  {
   "property": "C52",
   "status": "proved",
   "theorems": [
    "Tork.Calm.C52_no_stuck",
    "Tork.Calm.C52_no_panic",
    "Tork.Calm.C52_no_deadlock",
    "Tork.Calm.C52_retry_defect",
    "Tork.Flow.C52_no_stuck_composite",
    "Tork.Flow.C52_no_panic_composite",
    "Tork.Flow.C52_no_deadlock_composite",
    "Tork.Flow.C52_empty_each_defect"
   ],
   "note": "Regular tasks (C52_no_stuck) and composite tasks of any nesting (C52_no_stuck_composite). Termination of the runs is not claimed: the theorem is about every state of rest, plus absence of panics and deadlocks."
  },
  {
   "property": "C53",
   "status": "proved",
   "theorems": [
    "Tork.Refs.C53_unique",
    "Tork.Refs.C53_parse",
    "Tork.Refs.C53_reject",
    "Tork.Refs.C53_stable"
   ],
   "note": ""
  },
  {
   "property": "C54",
   "status": "proved",
   "theorems": [
    "Tork.C54_create",
    "Tork.C54_password_only_hashed",
    "Tork.C54_names_unique"
   ],
   "note": ""
  },
  {
   "property": "C55",
   "status": "proved",
   "theorems": [
    "Tork.C55_search_narrows"
   ],
   "note": ""
  },
  {
   "property": "C56",
   "status": "proved",
   "theorems": [
    "Tork.C56_cancel"
   ],
   "note": ""
  },
  {
   "property": "C57",
   "status": "proved",
   "theorems": [
    "Tork.C57_started",
    "Tork.C57_late_start"
   ],
   "note": ""
  },
  {
   "property": "C58",
   "status": "proved",
   "theorems": [
    "Tork.Docker.C58_containers_removed",
    "Tork.Docker.C58_volumes_removed",
    "Tork.Docker.C58_directories_removed",
    "Tork.Docker.C58_network_removed",
    "Tork.Docker.C58_containers_first",
    "Tork.Docker.C58_leaks"
   ],
   "note": "C58_leaks is a defect witness: a container whose files cannot be written is never removed, nor is the /tork volume when a limit cannot be parsed."
  },
  {
   "property": "C59",
   "status": "proved",
   "theorems": [
    "Tork.Docker.C59_in_order",
    "Tork.Docker.C59_success",
    "Tork.Docker.C59_stops",
    "Tork.Docker.C59_cause",
    "Tork.Docker.C59_success_clean"
   ],
   "note": ""
  },
  {
   "property": "C60",
   "status": "proved",
   "theorems": [
    "Tork.Docker.C60_files",
    "Tork.Docker.C60_containers",
    "Tork.Docker.C60_bind_policy",
    "Tork.Docker.C60_privileged",
    "Tork.Docker.C60_limits",
    "Tork.Docker.C60_no_limits",
    "Tork.Docker.C60_volume_bypass"
   ],
   "note": "C60_volume_bypass is a defect witness: driver options of a volume mount reach the daemon unchecked."
  },
  {
   "property": "C61",
   "status": "proved",
   "theorems": [
    "Tork.Creds.C61_own_login",
    "Tork.Creds.C61_only_its_registry",
    "Tork.Creds.C61_anonymous",
    "Tork.Creds.C61_file_entry",
    "Tork.Creds.C61_encoded_entry",
    "Tork.Creds.C61_helper",
    "Tork.Creds.C61_unconfigured",
    "Tork.Creds.C61_sent_to_hub",
    "Tork.Creds.C61_identity_token"
   ],
   "note": "C61_sent_to_hub and C61_identity_token are defect witnesses."
  },
  {
   "property": "C62",
   "status": "proved",
   "theorems": [
    "Tork.Images.C62_in_use_kept",
    "Tork.Images.C62_prunes_expired",
    "Tork.Images.C62_verified",
    "Tork.Images.C62_available",
    "Tork.Images.C62_alias",
    "Tork.Images.C62_stale"
   ],
   "note": "C62_alias and C62_stale are defect witnesses: the image table is keyed by name, not by image."
  },
  {
   "property": "C63",
   "status": "proved",
   "theorems": [
    "Tork.Shell.C63_unsupported",
    "Tork.Shell.C63_in_order",
    "Tork.Shell.C63_failures",
    "Tork.Shell.C63_tidy",
    "Tork.Shell.C63_environment",
    "Tork.Shell.C63_identity",
    "Tork.Shell.C63_group_refused"
   ],
   "note": "C63_group_refused is a defect witness. Failure of removal and kill are ignored, as in the code. Names of variables distinct and without = (they are map keys)."
  },
  {
   "property": "C64",
   "status": "proved",
   "theorems": [
    "Tork.Podman.C64_refused",
    "Tork.Podman.C64_failures",
    "Tork.Podman.C64_containers_removed",
    "Tork.Podman.C64_directories_removed",
    "Tork.Podman.C64_volumes_removed",
    "Tork.Podman.C64_options",
    "Tork.Podman.C64_policy",
    "Tork.Podman.C64_success",
    "Tork.Podman.C64_own_ids",
    "Tork.Podman.C64_image_is_an_option",
    "Tork.Podman.C64_same_task_twice"
   ],
   "note": "C64_image_is_an_option and C64_same_task_twice are defect witnesses. Failures of the clean-up calls are ignored, as in the code."
  },
  {
   "property": "C65",
   "status": "proved",
   "theorems": [
    "Tork.Rabbit.C65_kept",
    "Tork.Rabbit.C65_settled",
    "Tork.Rabbit.C65_called",
    "Tork.Rabbit.C65_task_once",
    "Tork.Rabbit.C65_one_holder",
    "Tork.Rabbit.C65_no_subscriber_loses",
    "Tork.Rabbit.C65_redelivered_pending_lost",
    "Tork.Rabbit.C65_wedged",
    "Tork.Rabbit.C65_shutdown_hangs",
    "Tork.Rabbit.C65_shutdown_returns"
   ],
   "note": "C65_no_subscriber_loses, C65_redelivered_pending_lost, C65_wedged and C65_shutdown_hangs are defect theorems. The AMQP server is an assumption of the model (DESIGN.md)."
  },
  {
   "property": "C66",
   "status": "proved",
   "theorems": [
    "Tork.RabbitTopic.C66_delivers",
    "Tork.RabbitTopic.C66_plain",
    "Tork.RabbitTopic.C66_job",
    "Tork.RabbitTopic.C66_job_inmemory",
    "Tork.RabbitTopic.C66_partial_word"
   ],
   "note": "C66_partial_word is a defect witness. The routing rule of topic exchanges is an assumption (AMQP 0-9-1)."
  },
  {
   "property": "C67",
   "status": "proved",
   "theorems": [
    "Tork.DockerLogs.C67_cut",
    "Tork.DockerLogs.C67_log",
    "Tork.DockerLogs.C67_ends",
    "Tork.DockerLogs.C67_error_text",
    "Tork.DockerLogs.C67_error_text_cut",
    "Tork.DockerLogs.C67_memory",
    "Tork.DockerLogs.C67_split_data"
   ],
   "note": ""
  },
  {
   "property": "C68",
   "status": "proved",
   "theorems": [
    "Tork.Engine.C68_started_once",
    "Tork.Engine.C68_stopped",
    "Tork.Engine.C68_stopped_once",
    "Tork.Engine.C68_terminating_unseen",
    "Tork.Engine.C68_terminates",
    "Tork.Engine.C68_terminate_after_signal",
    "Tork.Engine.C68_failed_start_leaks"
   ],
   "note": ""
  },
  {
   "property": "C69",
   "status": "proved",
   "theorems": [
    "Tork.Auth.C69_basic",
    "Tork.Auth.C69_key",
    "Tork.Auth.C69_accepted",
    "Tork.Auth.C69_open",
    "Tork.Auth.C69_health",
    "Tork.Auth.C69_both_lock_out",
    "Tork.Auth.C69_disabled_ignored",
    "Tork.Auth.C69_colon",
    "Tork.Auth.C69_created_user"
   ],
   "note": ""
  },
  {
   "property": "C70",
   "status": "proved",
   "theorems": [
    "Tork.C70_handed_at_most_once",
    "Tork.C70_no_second_message",
    "Tork.C70_scheduling_requested_twice"
   ],
   "note": "Provided the broker does not deliver twice a PENDING message or a message on its way to a worker; the exception is a theorem."
  },
  {
   "property": "C71",
   "status": "proved",
   "theorems": [
    "Tork.Conf.C71_variable_wins",
    "Tork.Conf.C71_file_otherwise",
    "Tork.Conf.C71_failure",
    "Tork.Conf.C71_every_plain_path",
    "Tork.Conf.C71_underscore_unreachable",
    "Tork.Conf.C71_defaults",
    "Tork.Conf.C71_values",
    "Tork.Conf.C71_lists",
    "Tork.Conf.C71_empty_list_defect",
    "Tork.Conf.C71_list_parts",
    "Tork.Conf.C71_unreadable_is_zero",
    "Tork.Conf.C71_clash_at_random"
   ],
   "note": "koanf v2 is not in the repository: its Merge, Unflatten and env provider are modelled from knowledge of that library. Names of variables are ASCII; keys of files contain no dots; parsing of truth values and numbers is a parameter. C71_clash_at_random, C71_underscore_unreachable and C71_unreadable_is_zero are limitations of the code."
  },
  {
   "property": "C72",
   "status": "proved",
   "theorems": [
    "Tork.C72_events_true",
    "Tork.C72_failed_events_final",
    "Tork.C72_not_both",
    "Tork.C72_cancelled_silent",
    "Tork.C72_completed_at_most_once",
    "Tork.C72_completed_exactly_once",
    "Tork.C72_failed_announced_twice"
   ],
   "note": "C72_failed_announced_twice and C72_cancelled_silent are limitations of the code. The delivery of events to subscribers is C07/C66."
  },
  {
   "property": "C73",
   "status": "proved",
   "theorems": [
    "Tork.Wait.C73_responses",
    "Tork.Wait.C73_answered",
    "Tork.Wait.C73_not_missed",
    "Tork.Wait.C73_handler_goes_on",
    "Tork.Wait.C73_wait_ends",
    "Tork.Wait.C73_crash",
    "Tork.Wait.C73_lost_forever",
    "Tork.Wait.C73_early_event_loses_the_job",
    "Tork.Wait.C73_two_failures_crash",
    "Tork.Wait.C73_outcome_for_another_client",
    "Tork.Wait.C73_outcome_true",
    "Tork.Wait.C73_crash_cause",
    "Tork.Wait.C73_crash_happens"
   ],
   "note": "C73_early_event_loses_the_job, C73_two_failures_crash, C73_outcome_for_another_client are defects of the code. Simplifications (sequentially consistent memory, echo's context pool as an assumption) are in the header of Wait.lean."
  },
  {
   "property": "C74",
   "status": "proved",
   "theorems": [
    "Tork.Tx.C74_serialisable",
    "Tork.Tx.C74_only_success_shows",
    "Tork.Tx.C74_no_deadlock",
    "Tork.Tx.C74_transactions_of_the_coordinator",
    "Tork.Tx.C74_database",
    "Tork.Tx.C74_coordinator_ordered",
    "Tork.Tx.C74_parallel_last"
   ],
   "note": "Assumed: READ COMMITTED with row locks of PostgreSQL as stated in the header of TwoPhase.lean. Not covered: completeEachTask, which uses a second connection inside its transaction (see C76); deletions in the relation to DS."
  },
  {
   "property": "C75",
   "status": "proved",
   "theorems": [
    "Tork.Pool.C75_no_deadlock",
    "Tork.Pool.C75_steps_finish",
    "Tork.Pool.C75_deadlock",
    "Tork.Pool.C75_deadlock_one_job"
   ],
   "note": "C75_deadlock and C75_deadlock_one_job are a defect of the code (GetUser is called on the datastore instead of the transaction). completeEachTask uses a second connection in the same way, see C76."
  },
  {
   "property": "C76",
   "status": "proved",
   "theorems": [
    "Tork.EachTx.C76_commits",
    "Tork.EachTx.C76_completed_once",
    "Tork.EachTx.C76_counter",
    "Tork.EachTx.C76_last_told_once",
    "Tork.EachTx.C76_limit",
    "Tork.EachTx.C76_no_deadlock",
    "Tork.EachTx.C76_steps_finish",
    "Tork.EachTx.C76_crash_exceeds_limit",
    "Tork.EachTx.C76_cancelled_child_comes_back",
    "Tork.EachTx.C76_deadlock"
   ],
   "note": "C76_crash_exceeds_limit, C76_cancelled_child_comes_back and C76_deadlock are defects of the code. Simplifications (task states grouped, no retries, children created in one step) are in the header of EachTx.lean."
  },
  {
   "property": "C77",
   "status": "proved",
   "theorems": [
    "Tork.CancelRun.C77_only_when_stopped",
    "Tork.CancelRun.C77_late_start_stopped",
    "Tork.CancelRun.C77_recorded_start_stopped",
    "Tork.CancelRun.C77_missed_for_good",
    "Tork.CancelRun.C77_start_and_stop_miss_each_other",
    "Tork.CancelRun.C77_crash_while_stopping_misses",
    "Tork.CancelRun.C77_second_run_cannot_be_stopped",
    "Tork.CancelRun.C77_wrong_node_told"
   ],
   "note": "C77_late_start_stopped assumes that no worker receives the same task twice and that the handlers of its announcement finish; C77_recorded_start_stopped that every task is received once and that the handlers that stop the job finish. Without these the claim is false, see the defect theorems. Restarting a stopped job and tasks with a sub-job are left out."
  },
  {
   "property": "C78",
   "status": "proved",
   "theorems": [
    "Tork.Ticks.C78_at_most_once",
    "Tork.Ticks.C78_exactly_once",
    "Tork.Ticks.C78_refused_means_taken",
    "Tork.Ticks.C78_clocks_apart_fire_twice",
    "Tork.Ticks.C78_death_fires_twice",
    "Tork.Ticks.C78_slow_run_loses_tick"
   ],
   "note": "gocron is not part of the repository: that it runs the function only while it has the lock is assumed. Mutual exclusion of the lock is C33. C78_clocks_apart_fire_twice, C78_death_fires_twice and C78_slow_run_loses_tick are limits of the code."
  },
  {
   "property": "C79",
   "status": "proved",
   "theorems": [
    "Tork.CancelTree.C79_ends",
    "Tork.CancelTree.C79_completes",
    "Tork.CancelTree.C79_reaches",
    "Tork.CancelTree.C79_echo_undoes_restart"
   ],
   "note": "No faults and nothing but cancellations is handled in the meantime (concurrent starts: C77, C16_pending_sub_defect). The rows are assumed to form a forest (a sub-job's parent task and its job exist; nodes of active tasks exist). C79_echo_undoes_restart is a defect of the code."
  },
  {
   "property": "C80",
   "status": "proved",
   "theorems": [
    "Tork.C80_tasks",
    "Tork.C80_messages",
    "Tork.C80_reports",
    "Tork.C80_jobs",
    "Tork.C80_values",
    "Tork.C80_fixed",
    "Tork.C80_script",
    "Tork.C80_first",
    "Tork.C80_kept",
    "Tork.C80_evaluated_twice_defect",
    "Tork.C80_broken_template_runs_defect",
    "Tork.C80_probe_lost_defect"
   ],
   "note": "C80_fixed and C80_script assume worker middleware that keeps these parts (PreKeeps). Left out of `the same work`: execution record, queue, limits, timeout, retry policy, priority (defaults, C17), the probe (not stored: C80_probe_lost_defect), command words inside a loop body (C12_commands_defect). Two further defects are proved: branches (and retries) are evaluated more than once, so a template in a task's result is evaluated (C80_evaluated_twice_defect); a task whose evaluation fails is run nevertheless (C80_broken_template_runs_defect)."
  },
  {
   "property": "C81",
   "status": "proved",
   "theorems": [
    "Tork.C81_one_at_a_time",
    "Tork.C81_in_order",
    "Tork.C81_made_in_turn",
    "Tork.C81_moves_on",
    "Tork.C81_sequential",
    "Tork.C81_result",
    "Tork.C81_scheduled_again_defect",
    "Tork.C81_failed_twice_defect"
   ],
   "note": "C81_sequential and C81_result are for jobs whose definition has no parallel and each tasks (`Plain`); the other theorems are for all jobs. The exceptional events are hypotheses because they do break the order (C81_scheduled_again_defect, C81_failed_twice_defect, C44_skipped_counts_twice)."
  },
  {
   "property": "C82",
   "status": "proved",
   "theorems": [
    "Tork.C82_results",
    "Tork.C82_own_run",
    "Tork.C82_sub_job"
   ],
   "note": "The result of a parallel or each task and of a task with a detached sub-job is not covered: nothing is run for them."
  },
  {
   "property": "C83",
   "status": "proved",
   "theorems": [
    "Tork.CacheConc.C83_linearizable",
    "Tork.CacheConc.C83_clock",
    "Tork.CacheConc.C83_sequential",
    "Tork.CacheConc.C83_expiration_lost_defect"
   ],
   "note": "List and Iterate (no snapshot of the cache), the eviction callback (Delete and the clean-up give it a value that a Modify in progress may still change) and overlapping unlocked reads are not covered. C83_expiration_lost_defect: with SetExpiration the last sentence fails."
  },
  {
   "property": "C84",
   "status": "proved",
   "theorems": [
    "Tork.Seq.C84_interpreted",
    "Tork.Seq.C84_program",
    "Tork.Seq.C84_deterministic",
    "Tork.Seq.C84_determined"
   ],
   "note": "Jobs with parallel or each tasks or detached sub-jobs are not covered (C11-C16, C80 and C82 are about those), nor are retries and restarts. The histories must be ordinary for the job and each job within it (Quiet); that a job is sequential follows from its definitions being Linear (sequential_of_linear)."
  },
  {
   "property": "C85",
   "status": "proved",
   "theorems": [
    "Tork.Copying.C85_prefix",
    "Tork.Copying.C85_alone",
    "Tork.Copying.C85_whole",
    "Tork.Copying.C85_count",
    "Tork.Copying.C85_rest",
    "Tork.Copying.C85_over",
    "Tork.Copying.C85_twice",
    "Tork.Copying.C85_lost"
   ],
   "note": "A piece is what one read of `dockerLogsReader` returns (C67 relates the pieces to the bytes); the remarks a probe writes are in the model, their text is not."
  },
  {
   "property": "C86",
   "status": "proved",
   "theorems": [
    "Tork.Reports.C86_faithful",
    "Tork.Reports.C86_changes",
    "Tork.Reports.C86_current",
    "Tork.Reports.C86_gone",
    "Tork.Reports.C86_lost",
    "Tork.Reports.C86_percentage",
    "Tork.Reports.C86_rabbit",
    "Tork.Reports.C86_nan",
    "Tork.Reports.C86_blank"
   ],
   "note": "What `strconv.ParseFloat` makes of digits is a parameter; that it reads \"nan\" and \"inf\" (in any case) is taken from its documentation, and that `encoding/json` refuses them."
  },
  {
   "property": "C87",
   "status": "proved",
   "theorems": [
    "Tork.Serving.C87_serving",
    "Tork.Serving.C87_error",
    "Tork.Serving.C87_dynamic",
    "Tork.Serving.C87_own",
    "Tork.Serving.C87_turns",
    "Tork.Serving.C87_another_defect",
    "Tork.Serving.C87_full_defect"
   ],
   "note": "What other processes hold does not change during the start. For a dynamic range the theorem assumes that no other process answers at its ports: otherwise the first exception applies to each of them."
  },
  {
   "property": "C88",
   "status": "proved",
   "theorems": [
    "Tork.Closing.C88_ended",
    "Tork.Closing.C88_silent",
    "Tork.Closing.C88_whole",
    "Tork.Closing.C88_worker_defect",
    "Tork.Closing.C88_second_defect"
   ],
   "note": "Topics are not modelled here, nor the bound of 1000 messages of a queue, nor queues that two goroutines create at the same time (C31 has those)."
  },
  {
   "property": "C89",
   "status": "proved",
   "theorems": [
    "Tork.CpuLimit.C89_exact",
    "Tork.CpuLimit.C89_refused",
    "Tork.CpuLimit.C89_unlimited",
    "Tork.CpuLimit.C89_injective",
    "Tork.CpuLimit.C89_overflow_defect"
   ],
   "note": "`big.Rat.SetString` is a parameter, as is the parsing of memory limits (a library)."
  },
  {
   "property": "C90",
   "status": "proved",
   "theorems": [
    "Tork.Capacity.C90_subscriptions",
    "Tork.Capacity.C90_queues",
    "Tork.Capacity.C90_others",
    "Tork.Capacity.C90_capacity",
    "Tork.Capacity.C90_total",
    "Tork.Capacity.C90_number",
    "Tork.Capacity.C90_sent",
    "Tork.Capacity.C90_silent",
    "Tork.Capacity.C90_second_stop_waits",
    "Tork.Capacity.C90_stop_unstarted_defect"
   ],
   "note": "A middleware runs the task any number of times, but not several times at once. A panic is not modelled."
  },
  {
   "property": "C91",
   "status": "proved",
   "theorems": [
    "Tork.Roles.C91_granted",
    "Tork.Roles.C91_revoked",
    "Tork.Roles.C91_kept",
    "Tork.Roles.C91_refused",
    "Tork.Roles.C91_once",
    "Tork.Roles.C91_access",
    "Tork.Roles.C91_found",
    "Tork.Roles.C91_slug_is_id_defect"
   ],
   "note": "Each operation is one SQL statement. Only an engine's extension can call them (there is no route)."
  },
  {
   "property": "C92",
   "status": "proved",
   "theorems": [
    "Tork.Archive.C92_unchanged",
    "Tork.Archive.C92_refused",
    "Tork.Archive.C92_read",
    "Tork.Archive.C92_readable",
    "Tork.Archive.C92_torkdir",
    "Tork.Archive.C92_workdir",
    "Tork.Archive.C92_unterminated_defect"
   ],
   "note": "How a header is written and read back is a parameter (`Format.Good`), met by a small format in the example. Failures of the disk are not modelled."
  },
  {
   "property": "C93",
   "status": "proved",
   "theorems": [
    "Tork.Metrics.C93_jobs",
    "Tork.Metrics.C93_tasks",
    "Tork.Metrics.C93_nodes",
    "Tork.Metrics.C93_load",
    "Tork.Metrics.C93_percentage",
    "Tork.Metrics.C93_torn_defect"
   ],
   "note": "The loads are exact rationals."
  }
 ]
}