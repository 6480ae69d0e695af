# Axioms

Output of `#print axioms` for every theorem of MANIFEST.json (regenerate with `tools/axioms.py`). Nothing else is used.

| theorem | axioms |
|---|---|
| Tork.C01_job_lifecycle | propext, Classical.choice, Quot.sound |
| Tork.C01_job_history | propext, Classical.choice, Quot.sound |
| Tork.C02_completed_outcome_final | propext, Classical.choice, Quot.sound |
| Tork.C02_completed_final | propext, Classical.choice, Quot.sound |
| Tork.C02_duplicate_start_restarts_completed_job | propext, Classical.choice, Quot.sound |
| Tork.C03_leave_only_by_restart | propext, Classical.choice, Quot.sound |
| Tork.C03_stays | propext, Classical.choice, Quot.sound |
| Tork.C04_task_lifecycle | propext, Classical.choice, Quot.sound |
| Tork.C04_late_results | propext, Classical.choice, Quot.sound |
| Tork.C05_next_task | propext, Classical.choice, Quot.sound |
| Tork.C05_position_exact | propext, Classical.choice, Quot.sound |
| Tork.C05_task_needs_position | propext, Classical.choice, Quot.sound |
| Tork.C05_position_moves | propext, Classical.choice, Quot.sound |
| Tork.C05_position_counts | propext, Classical.choice, Quot.sound |
| Tork.C06_last_task | propext, Classical.choice, Quot.sound |
| Tork.C06_completed_tasks | propext, Classical.choice, Quot.sound |
| Tork.C06_completed_past_last | propext, Classical.choice, Quot.sound |
| Tork.C06_completes_after_all_tasks | propext, Classical.choice, Quot.sound |
| Tork.C06_result | propext, Classical.choice, Quot.sound |
| Tork.C07_task_progress | propext, Classical.choice, Quot.sound |
| Tork.C07_completion_percentage | propext, Classical.choice, Quot.sound |
| Tork.C07_completion_monotone | propext, Classical.choice, Quot.sound |
| Tork.C07_report | propext, Classical.choice, Quot.sound |
| Tork.C08_attempts_bounded | propext, Classical.choice, Quot.sound |
| Tork.C09_retry | propext, Classical.choice, Quot.sound |
| Tork.C09_no_retry | propext, Classical.choice, Quot.sound |
| Tork.C09_every_run | propext, Classical.choice, Quot.sound |
| Tork.C09_message_every_run | propext, Classical.choice, Quot.sound |
| Tork.C09_two_attempts | propext, Classical.choice, Quot.sound |
| Tork.C10_failure_stops_work | propext, Classical.choice, Quot.sound |
| Tork.C10_subjob_failure | propext, Classical.choice, Quot.sound |
| Tork.C11_fan_out | propext, Classical.choice, Quot.sound |
| Tork.C11_branch | propext, Classical.choice, Quot.sound |
| Tork.C11_last_branch_next | propext, Classical.choice, Quot.sound |
| Tork.C11_last_branch_end | propext, Classical.choice, Quot.sound |
| Tork.C11_counter_exact | propext, Classical.choice, Quot.sound |
| Tork.C11_parallel_waits_for_all | propext, Classical.choice, Quot.sound |
| Tork.C11_counter_counts_completions | propext, Classical.choice, Quot.sound |
| Tork.C12_fan_out | propext, Classical.choice, Quot.sound |
| Tork.C12_bad_list | propext, Classical.choice, Quot.sound |
| Tork.FanoutEx.C12_commands_defect | propext, Classical.choice, Quot.sound |
| Tork.C12_item | propext, Classical.choice, Quot.sound |
| Tork.C12_last_item_next | propext, Classical.choice, Quot.sound |
| Tork.C12_last_item_end | propext, Classical.choice, Quot.sound |
| Tork.C12_each_waits_for_all | propext, Classical.choice, Quot.sound |
| Tork.C13_limit | propext, Classical.choice, Quot.sound |
| Tork.Flow.C13_fast_child_fails_job | propext, Classical.choice, Quot.sound |
| Tork.C13_release | propext, Classical.choice, Quot.sound |
| Tork.C13_limit_whole_system | propext, Classical.choice, Quot.sound |
| Tork.C13_limit_with_retries | propext, Classical.choice, Quot.sound |
| Tork.C13_failure_reported_twice_exceeds_limit | propext, Classical.choice, Quot.sound |
| Tork.C13_crash_during_release_exceeds_limit | propext, Classical.choice, Quot.sound |
| Tork.C14_empty_list | propext, Classical.choice, Quot.sound |
| Tork.FanoutEx.C14_empty_list_hangs | propext, Classical.choice, Quot.sound |
| Tork.Seq.C15_skipped_only_if_false | propext, Classical.choice, Quot.sound |
| Tork.C15_skipped | propext, Classical.choice, Quot.sound |
| Tork.C15_skipped_every_run | propext, Classical.choice, Quot.sound |
| Tork.C15_never_scheduled | propext, Classical.choice, Quot.sound |
| Tork.C15_otherwise_scheduled | propext, Classical.choice, Quot.sound |
| Tork.C16_subjob_parent_waits | propext, Classical.choice, Quot.sound |
| Tork.C16_attached_start | propext, Classical.choice, Quot.sound |
| Tork.C16_detached_start | propext, Classical.choice, Quot.sound |
| Tork.C16_result | propext, Classical.choice, Quot.sound |
| Tork.C16_failure | propext, Classical.choice, Quot.sound |
| Tork.C16_cancel_down | propext, Classical.choice, Quot.sound |
| Tork.C16_cancel_up | propext, Classical.choice, Quot.sound |
| Tork.SubJobsEx.C16_pending_sub_defect | propext, Classical.choice, Quot.sound |
| Tork.C17_scheduled_with_defaults | propext, Classical.choice, Quot.sound |
| Tork.C18_put_back | propext, Classical.choice, Quot.sound |
| Tork.C18_failure | propext, Classical.choice, Quot.sound |
| Tork.C18_bound | propext, Classical.choice, Quot.sound |
| Tork.C19_workers_get_plain_tasks | propext, Classical.choice, Quot.sound |
| Tork.Registry.C19_counter | propext, Classical.choice, Quot.sound |
| Tork.Registry.C19_cancelled_only_by_request | propext, Classical.choice, Quot.sound |
| Tork.Registry.C19_cancel_finds | propext, Classical.choice, Quot.sound |
| Tork.Registry.C19_duplicate_hides_running | (none) |
| Tork.C19_one_report | propext, Classical.choice, Quot.sound |
| Tork.C19_middleware | propext, Classical.choice, Quot.sound |
| Tork.C19_swallowed | propext, Classical.choice, Quot.sound |
| Tork.C19_every_run | propext, Classical.choice, Quot.sound |
| Tork.C20_next_task | propext, Classical.choice, Quot.sound |
| Tork.C20_last_task | propext, Classical.choice, Quot.sound |
| Tork.C20_child | propext, Classical.choice, Quot.sound |
| Tork.C20_context_changes_only_by_results | propext, Classical.choice, Quot.sound |
| Tork.C20_no_result_lost | propext, Classical.choice, Quot.sound |
| Tork.C20_inputs_immutable | propext, Classical.choice, Quot.sound |
| Tork.C21_expunge | propext, Classical.choice, Quot.sound |
| Tork.C21_expunge_logs | propext, Quot.sound |
| Tork.C21_delete_schedule | propext, Quot.sound |
| Tork.C22_jobs | propext, Classical.choice, Quot.sound |
| Tork.C22_scheduled_jobs | propext, Classical.choice, Quot.sound |
| Tork.C22_task_log | propext, Classical.choice, Quot.sound |
| Tork.C22_job_log | propext, Classical.choice, Quot.sound |
| Tork.C22_params | propext, Quot.sound |
| Tork.C22_params_kept | propext, Quot.sound |
| Tork.C22_ties_lose_items | propext, Classical.choice, Quot.sound |
| Tork.C22_log_search_totals_wrong | propext, Classical.choice, Quot.sound |
| Tork.C23_visibility | propext, Classical.choice, Quot.sound |
| Tork.C23_scheduled_visibility | propext, Quot.sound |
| Tork.Wildcard.C24_wildcard_match_iff | propext, Classical.choice, Quot.sound |
| Tork.Redaction.C25_task | propext, Classical.choice, Quot.sound |
| Tork.Redaction.C25_job | propext, Classical.choice, Quot.sound |
| Tork.Redaction.C25_read_task | propext, Classical.choice, Quot.sound |
| Tork.Redaction.C25_logs | propext, Classical.choice, Quot.sound |
| Tork.Redaction.C25_default_keys | propext, Classical.choice, Quot.sound |
| Tork.Redaction.C25_each_and_sidecars_not_redacted | propext, Classical.choice, Quot.sound |
| Tork.Redaction.C25_split_secret_leaks | propext, Classical.choice, Quot.sound |
| Tork.Secrets.C26_round_trip | propext, Classical.choice, Quot.sound |
| Tork.Secrets.C26_stored | propext, Classical.choice, Quot.sound |
| Tork.Secrets.C26_only_sealed_form | propext, Classical.choice, Quot.sound |
| Tork.Secrets.C26_not_disclosed_without_key | propext, Classical.choice, Quot.sound |
| Tork.Secrets.C26_plain_round_trip | propext, Classical.choice, Quot.sound |
| Tork.Secrets.C26_plain_prefix_lost | propext, Classical.choice, Quot.sound |
| Tork.Secrets.C26_context_stored_in_clear | propext, Classical.choice, Quot.sound |
| Tork.C27_task_clone_value | propext, Quot.sound |
| Tork.C27_task_clone_equal | propext, Quot.sound |
| Tork.C27_clone_loses_redelivery | (none) |
| Tork.C27_job_clone_equal | propext, Quot.sound |
| Tork.C27_job_clone_loses_deleteAt | (none) |
| Tork.C27_scheduled_job_clone_equal | propext, Quot.sound |
| Tork.C27_node_clone_equal | (none) |
| Tork.C27_user_clone | (none) |
| Tork.C27_clone_independent | propext, Classical.choice, Quot.sound |
| Tork.C27_cmd_is_shared | propext, Quot.sound |
| Tork.C28_plain_text | propext, Classical.choice, Quot.sound |
| Tork.C28_template | propext, Classical.choice, Quot.sound |
| Tork.C28_template_fails | propext, Classical.choice, Quot.sound |
| Tork.C28_task | propext, Quot.sound |
| Tork.C28_task_without_templates | propext, Classical.choice, Quot.sound |
| Tork.Inp.C29_accepts_iff | propext, Classical.choice, Quot.sound |
| Tork.Inp.C29_rejected_no_effect | propext, Classical.choice, Quot.sound |
| Tork.Inp.C30_submit | propext, Classical.choice, Quot.sound |
| Tork.Queues.C31_fifo | propext, Classical.choice, Quot.sound |
| Tork.Queues.C31_one_at_a_time | propext, Classical.choice, Quot.sound |
| Tork.Queues.C31_deliverable | propext |
| Tork.Queues.C31_settled_after_subscribe | propext, Classical.choice, Quot.sound |
| Tork.Queues.C31_first_use_race_loses_message | propext, Classical.choice, Quot.sound |
| Tork.Queues.C31_task_payload | propext, Quot.sound |
| Tork.Topics.C32_in_order_exactly_once | propext, Classical.choice, Quot.sound |
| Tork.Topics.C32_reaches_exactly_the_matching | propext, Classical.choice, Quot.sound |
| Tork.Topics.C32_not_stuck | propext |
| Tork.Locker.C33_inmemory_exclusive | propext, Quot.sound |
| Tork.Locker.C33_inmemory_independent | propext, Quot.sound |
| Tork.Locker.C33_inmemory_double_release_breaks_exclusion | propext, Quot.sound |
| Tork.Locker.C33_inmemory_effects | propext, Quot.sound |
| Tork.Locker.C33_postgres_exclusive | propext, Classical.choice, Quot.sound |
| Tork.Locker.C33_postgres_effects | propext, Classical.choice, Quot.sound |
| Tork.Cache.C34_replies | propext, Quot.sound |
| Tork.Cache.C34_get | propext, Quot.sound |
| Tork.Cache.C34_get_after_set | propext, Quot.sound |
| Tork.Cache.C34_cleanup | propext, Quot.sound |
| Tork.Cache.C34_delete | propext, Quot.sound |
| Tork.Cache.C34_expired_entry_revived | (none) |
| Tork.Cache.C34_list | propext, Quot.sound |
| Tork.LogShipper.C35_log_prefix | propext, Quot.sound |
| Tork.LogShipper.C35_log_complete | propext, Classical.choice, Quot.sound |
| Tork.LogShipper.C35_log_received | propext, Quot.sound |
| Tork.NodeStore.C36_heartbeat_newest | propext, Classical.choice, Quot.sound |
| Tork.NodeStore.C36_heartbeat_monotone | propext, Quot.sound |
| Tork.NodeStore.C36_active_nodes | propext, Quot.sound |
| Tork.Middleware.C37_middleware_nesting | propext, Quot.sound |
| Tork.Middleware.C37_middleware_run | propext, Quot.sound |
| Tork.Middleware.C37_middleware_short_circuit | propext, Quot.sound |
| Tork.Middleware.C37_middleware_handler_runs | propext, Quot.sound |
| Tork.Webhooks.C38_policy | propext, Classical.choice, Quot.sound |
| Tork.Webhooks.C38_success_iff | propext, Classical.choice, Quot.sound |
| Tork.Webhooks.C39_job | propext, Quot.sound |
| Tork.Webhooks.C39_task | propext, Quot.sound |
| Tork.Webhooks.C39_summary_hides | (none) |
| Tork.Webhooks.C39_stale_job | propext, Quot.sound |
| Tork.Cron.C40_entries | propext, Classical.choice, Quot.sound |
| Tork.Cron.C40_overlapping_resume_leaks | propext, Quot.sound |
| Tork.C40_firing | propext, Quot.sound |
| Tork.C40_firing_drops_defaults | propext, Quot.sound |
| Tork.C41_cancel | propext, Quot.sound |
| Tork.C41_restart | propext, Classical.choice, Quot.sound |
| Tork.C41_cancel_every_run | propext, Classical.choice, Quot.sound |
| Tork.C41_restart_every_run | propext, Classical.choice, Quot.sound |
| Tork.Inp.C42_delete_queue | propext, Classical.choice, Quot.sound |
| Tork.Inp.C42_submitted_queues | propext, Classical.choice, Quot.sound |
| Tork.Inp.C42_subjob_tasks_unchecked | propext, Classical.choice, Quot.sound |
| Tork.Inp.C42_templated_queue | propext, Classical.choice, Quot.sound |
| Tork.C43_restart | propext, Classical.choice, Quot.sound |
| Tork.C43_restart_request | propext, Classical.choice, Quot.sound |
| Tork.C43_every_run | propext, Classical.choice, Quot.sound |
| Tork.C43_refused | propext, Classical.choice, Quot.sound |
| Tork.C43_duplicate_fails_job | propext, Classical.choice, Quot.sound |
| Tork.RestartEx.C43_duplicate_witness | propext, Classical.choice, Quot.sound |
| Tork.C44_refused | propext, Classical.choice, Quot.sound |
| Tork.C44_duplicates | propext, Classical.choice, Quot.sound |
| Tork.C44_top_level | propext, Classical.choice, Quot.sound |
| Tork.DuplicatesEx.C44_skipped_counts_twice | propext, Classical.choice, Quot.sound |
| Tork.C44_duplicate_report_fails_job | propext, Classical.choice, Quot.sound |
| Tork.C45_toplevel_completion_atomic | propext, Classical.choice, Quot.sound |
| Tork.C45_subtask_completion_atomic | propext, Classical.choice, Quot.sound |
| Tork.Cleanup.C46_interval_bounded | propext, Classical.choice, Quot.sound |
| Tork.Cleanup.C46_delay_bounded | propext, Classical.choice, Quot.sound |
| Tork.Health.C47_health_up_iff | propext, Quot.sound |
| Tork.Health.C47_health_order_irrelevant | propext, Quot.sound |
| Tork.Health.C47_health_registration | propext, Quot.sound |
| Tork.C48_definitions_immutable | propext, Classical.choice, Quot.sound |
| Tork.C49_parse | propext, Classical.choice, Quot.sound |
| Tork.C49_words_unique | propext |
| Tork.C49_no_term_lost | propext, Classical.choice, Quot.sound |
| Tork.HostEnv.C50_specs | propext, Classical.choice, Quot.sound |
| Tork.HostEnv.C50_effect | propext, Classical.choice, Quot.sound |
| Tork.HostEnv.C50_only_when_running | propext |
| Tork.Mounter.C51_same_mounter | propext, Classical.choice, Quot.sound |
| Tork.Mounter.C51_unmount_possible | propext, Classical.choice, Quot.sound |
| Tork.Calm.C52_no_stuck | propext, Classical.choice, Quot.sound |
| Tork.Calm.C52_no_panic | propext, Classical.choice, Quot.sound |
| Tork.Calm.C52_no_deadlock | propext, Classical.choice, Quot.sound |
| Tork.Calm.C52_retry_defect | propext, Classical.choice, Quot.sound |
| Tork.Flow.C52_no_stuck_composite | propext, Classical.choice, Quot.sound |
| Tork.Flow.C52_no_panic_composite | propext, Classical.choice, Quot.sound |
| Tork.Flow.C52_no_deadlock_composite | propext, Classical.choice, Quot.sound |
| Tork.Flow.C52_empty_each_defect | propext, Classical.choice, Quot.sound |
| Tork.Refs.C53_unique | propext, Quot.sound |
| Tork.Refs.C53_parse | propext, Classical.choice, Quot.sound |
| Tork.Refs.C53_reject | propext, Classical.choice, Quot.sound |
| Tork.Refs.C53_stable | propext, Classical.choice, Quot.sound |
| Tork.C54_create | propext, Classical.choice, Quot.sound |
| Tork.C54_password_only_hashed | propext, Classical.choice, Quot.sound |
| Tork.C54_names_unique | propext, Quot.sound |
| Tork.C55_search_narrows | propext, Classical.choice, Quot.sound |
| Tork.C56_cancel | propext, Classical.choice, Quot.sound |
| Tork.C57_started | propext, Classical.choice, Quot.sound |
| Tork.C57_late_start | propext, Classical.choice, Quot.sound |
| Tork.Docker.C58_containers_removed | propext, Classical.choice, Quot.sound |
| Tork.Docker.C58_volumes_removed | propext, Classical.choice, Quot.sound |
| Tork.Docker.C58_directories_removed | propext, Classical.choice, Quot.sound |
| Tork.Docker.C58_network_removed | propext, Classical.choice, Quot.sound |
| Tork.Docker.C58_containers_first | propext, Classical.choice, Quot.sound |
| Tork.Docker.C58_leaks | propext, Quot.sound |
| Tork.Docker.C59_in_order | propext, Classical.choice, Quot.sound |
| Tork.Docker.C59_success | propext, Classical.choice, Quot.sound |
| Tork.Docker.C59_stops | propext, Classical.choice, Quot.sound |
| Tork.Docker.C59_cause | propext, Classical.choice, Quot.sound |
| Tork.Docker.C59_success_clean | propext, Classical.choice, Quot.sound |
| Tork.Docker.C60_files | propext, Classical.choice, Quot.sound |
| Tork.Docker.C60_containers | propext, Classical.choice, Quot.sound |
| Tork.Docker.C60_bind_policy | propext, Classical.choice, Quot.sound |
| Tork.Docker.C60_privileged | propext, Classical.choice, Quot.sound |
| Tork.Docker.C60_limits | propext, Classical.choice, Quot.sound |
| Tork.Docker.C60_no_limits | propext, Classical.choice, Quot.sound |
| Tork.Docker.C60_volume_bypass | propext, Quot.sound |
| Tork.Creds.C61_own_login | propext, Classical.choice, Quot.sound |
| Tork.Creds.C61_only_its_registry | propext, Classical.choice, Quot.sound |
| Tork.Creds.C61_anonymous | propext, Classical.choice, Quot.sound |
| Tork.Creds.C61_file_entry | propext, Classical.choice, Quot.sound |
| Tork.Creds.C61_encoded_entry | propext, Classical.choice, Quot.sound |
| Tork.Creds.C61_helper | propext, Classical.choice, Quot.sound |
| Tork.Creds.C61_unconfigured | propext, Classical.choice, Quot.sound |
| Tork.Creds.C61_sent_to_hub | propext, Classical.choice, Quot.sound |
| Tork.Creds.C61_identity_token | propext, Classical.choice, Quot.sound |
| Tork.Images.C62_in_use_kept | propext, Classical.choice, Quot.sound |
| Tork.Images.C62_prunes_expired | propext, Classical.choice, Quot.sound |
| Tork.Images.C62_verified | propext, Classical.choice, Quot.sound |
| Tork.Images.C62_available | propext, Classical.choice, Quot.sound |
| Tork.Images.C62_alias | propext |
| Tork.Images.C62_stale | (none) |
| Tork.Shell.C63_unsupported | propext, Classical.choice, Quot.sound |
| Tork.Shell.C63_in_order | propext, Classical.choice, Quot.sound |
| Tork.Shell.C63_failures | propext, Classical.choice, Quot.sound |
| Tork.Shell.C63_tidy | propext, Classical.choice, Quot.sound |
| Tork.Shell.C63_environment | propext, Classical.choice, Quot.sound |
| Tork.Shell.C63_identity | propext, Classical.choice, Quot.sound |
| Tork.Shell.C63_group_refused | propext, Quot.sound |
| Tork.Podman.C64_refused | propext, Classical.choice, Quot.sound |
| Tork.Podman.C64_failures | propext, Classical.choice, Quot.sound |
| Tork.Podman.C64_containers_removed | propext, Quot.sound |
| Tork.Podman.C64_directories_removed | propext, Quot.sound |
| Tork.Podman.C64_volumes_removed | propext, Quot.sound |
| Tork.Podman.C64_options | propext, Classical.choice, Quot.sound |
| Tork.Podman.C64_policy | propext, Classical.choice, Quot.sound |
| Tork.Podman.C64_success | propext, Quot.sound |
| Tork.Podman.C64_own_ids | propext, Classical.choice, Quot.sound |
| Tork.Podman.C64_image_is_an_option | propext, Classical.choice, Quot.sound |
| Tork.Podman.C64_same_task_twice | propext, Classical.choice, Quot.sound |
| Tork.Rabbit.C65_kept | propext, Classical.choice, Quot.sound |
| Tork.Rabbit.C65_settled | propext, Classical.choice, Quot.sound |
| Tork.Rabbit.C65_called | propext, Classical.choice, Quot.sound |
| Tork.Rabbit.C65_task_once | propext, Classical.choice, Quot.sound |
| Tork.Rabbit.C65_one_holder | propext, Classical.choice, Quot.sound |
| Tork.Rabbit.C65_no_subscriber_loses | propext |
| Tork.Rabbit.C65_redelivered_pending_lost | propext, Classical.choice, Quot.sound |
| Tork.Rabbit.C65_wedged | propext, Classical.choice, Quot.sound |
| Tork.Rabbit.C65_shutdown_hangs | propext, Classical.choice, Quot.sound |
| Tork.Rabbit.C65_shutdown_returns | propext |
| Tork.RabbitTopic.C66_delivers | propext, Quot.sound |
| Tork.RabbitTopic.C66_plain | propext, Quot.sound |
| Tork.RabbitTopic.C66_job | propext |
| Tork.RabbitTopic.C66_job_inmemory | propext, Quot.sound |
| Tork.RabbitTopic.C66_partial_word | propext, Classical.choice, Quot.sound |
| Tork.DockerLogs.C67_cut | propext, Quot.sound |
| Tork.DockerLogs.C67_log | propext, Quot.sound |
| Tork.DockerLogs.C67_ends | propext, Quot.sound |
| Tork.DockerLogs.C67_error_text | propext, Quot.sound |
| Tork.DockerLogs.C67_error_text_cut | propext, Quot.sound |
| Tork.DockerLogs.C67_memory | propext, Quot.sound |
| Tork.DockerLogs.C67_split_data | propext, Quot.sound |
| Tork.Engine.C68_started_once | propext, Classical.choice, Quot.sound |
| Tork.Engine.C68_stopped | propext, Classical.choice, Quot.sound |
| Tork.Engine.C68_stopped_once | propext, Classical.choice, Quot.sound |
| Tork.Engine.C68_terminating_unseen | propext, Classical.choice, Quot.sound |
| Tork.Engine.C68_terminates | propext, Quot.sound |
| Tork.Engine.C68_terminate_after_signal | propext, Classical.choice, Quot.sound |
| Tork.Engine.C68_failed_start_leaks | propext |
| Tork.Auth.C69_basic | propext, Classical.choice, Quot.sound |
| Tork.Auth.C69_key | propext, Classical.choice, Quot.sound |
| Tork.Auth.C69_accepted | propext, Classical.choice, Quot.sound |
| Tork.Auth.C69_open | propext, Classical.choice, Quot.sound |
| Tork.Auth.C69_health | propext, Classical.choice, Quot.sound |
| Tork.Auth.C69_both_lock_out | propext, Classical.choice, Quot.sound |
| Tork.Auth.C69_disabled_ignored | propext, Classical.choice, Quot.sound |
| Tork.Auth.C69_colon | propext, Classical.choice, Quot.sound |
| Tork.Auth.C69_created_user | propext, Classical.choice, Quot.sound |
| Tork.C70_handed_at_most_once | propext, Classical.choice, Quot.sound |
| Tork.C70_no_second_message | propext, Classical.choice, Quot.sound |
| Tork.C70_scheduling_requested_twice | propext, Classical.choice, Quot.sound |
| Tork.Conf.C71_variable_wins | propext, Classical.choice, Quot.sound |
| Tork.Conf.C71_file_otherwise | propext, Classical.choice, Quot.sound |
| Tork.Conf.C71_failure | propext, Quot.sound |
| Tork.Conf.C71_every_plain_path | propext, Quot.sound |
| Tork.Conf.C71_underscore_unreachable | propext, Classical.choice, Quot.sound |
| Tork.Conf.C71_defaults | propext |
| Tork.Conf.C71_values | propext |
| Tork.Conf.C71_lists | propext |
| Tork.Conf.C71_empty_list_defect | propext |
| Tork.Conf.C71_list_parts | propext, Quot.sound |
| Tork.Conf.C71_unreadable_is_zero | propext |
| Tork.Conf.C71_clash_at_random | propext |
| Tork.C72_events_true | propext, Classical.choice, Quot.sound |
| Tork.C72_failed_events_final | propext, Classical.choice, Quot.sound |
| Tork.C72_not_both | propext, Classical.choice, Quot.sound |
| Tork.C72_cancelled_silent | propext, Classical.choice, Quot.sound |
| Tork.C72_completed_at_most_once | propext, Classical.choice, Quot.sound |
| Tork.C72_completed_exactly_once | propext, Classical.choice, Quot.sound |
| Tork.C72_failed_announced_twice | propext, Classical.choice, Quot.sound |
| Tork.Wait.C73_responses | propext, Classical.choice, Quot.sound |
| Tork.Wait.C73_answered | propext, Classical.choice, Quot.sound |
| Tork.Wait.C73_not_missed | propext, Classical.choice, Quot.sound |
| Tork.Wait.C73_handler_goes_on | propext, Quot.sound |
| Tork.Wait.C73_wait_ends | propext, Classical.choice, Quot.sound |
| Tork.Wait.C73_crash | propext, Classical.choice, Quot.sound |
| Tork.Wait.C73_lost_forever | propext, Classical.choice, Quot.sound |
| Tork.Wait.C73_early_event_loses_the_job | propext, Classical.choice, Quot.sound |
| Tork.Wait.C73_two_failures_crash | propext, Quot.sound |
| Tork.Wait.C73_outcome_for_another_client | propext, Quot.sound |
| Tork.Wait.C73_outcome_true | propext, Classical.choice, Quot.sound |
| Tork.Wait.C73_crash_cause | propext, Classical.choice, Quot.sound |
| Tork.Wait.C73_crash_happens | propext, Classical.choice, Quot.sound |
| Tork.Tx.C74_serialisable | propext, Quot.sound |
| Tork.Tx.C74_only_success_shows | (none) |
| Tork.Tx.C74_no_deadlock | propext, Classical.choice, Quot.sound |
| Tork.Tx.C74_transactions_of_the_coordinator | propext, Classical.choice, Quot.sound |
| Tork.Tx.C74_database | propext, Quot.sound |
| Tork.Tx.C74_coordinator_ordered | propext, Classical.choice, Quot.sound |
| Tork.Tx.C74_parallel_last | propext, Classical.choice, Quot.sound |
| Tork.Pool.C75_no_deadlock | propext, Classical.choice, Quot.sound |
| Tork.Pool.C75_steps_finish | propext |
| Tork.Pool.C75_deadlock | propext, Classical.choice, Quot.sound |
| Tork.Pool.C75_deadlock_one_job | propext, Classical.choice, Quot.sound |
| Tork.EachTx.C76_commits | propext, Classical.choice, Quot.sound |
| Tork.EachTx.C76_completed_once | propext, Classical.choice, Quot.sound |
| Tork.EachTx.C76_counter | propext, Classical.choice, Quot.sound |
| Tork.EachTx.C76_last_told_once | propext, Classical.choice, Quot.sound |
| Tork.EachTx.C76_limit | propext, Classical.choice, Quot.sound |
| Tork.EachTx.C76_no_deadlock | propext, Classical.choice, Quot.sound |
| Tork.EachTx.C76_steps_finish | propext, Quot.sound |
| Tork.EachTx.C76_crash_exceeds_limit | propext, Quot.sound |
| Tork.EachTx.C76_cancelled_child_comes_back | propext, Quot.sound |
| Tork.EachTx.C76_deadlock | propext, Classical.choice, Quot.sound |
| Tork.CancelRun.C77_only_when_stopped | propext, Classical.choice, Quot.sound |
| Tork.CancelRun.C77_late_start_stopped | propext, Classical.choice, Quot.sound |
| Tork.CancelRun.C77_recorded_start_stopped | propext, Classical.choice, Quot.sound |
| Tork.CancelRun.C77_missed_for_good | propext, Classical.choice, Quot.sound |
| Tork.CancelRun.C77_start_and_stop_miss_each_other | propext, Classical.choice, Quot.sound |
| Tork.CancelRun.C77_crash_while_stopping_misses | propext, Classical.choice, Quot.sound |
| Tork.CancelRun.C77_second_run_cannot_be_stopped | propext, Classical.choice, Quot.sound |
| Tork.CancelRun.C77_wrong_node_told | propext, Classical.choice, Quot.sound |
| Tork.Ticks.C78_at_most_once | propext, Classical.choice, Quot.sound |
| Tork.Ticks.C78_exactly_once | propext, Classical.choice, Quot.sound |
| Tork.Ticks.C78_refused_means_taken | propext, Classical.choice, Quot.sound |
| Tork.Ticks.C78_clocks_apart_fire_twice | propext, Quot.sound |
| Tork.Ticks.C78_death_fires_twice | propext, Quot.sound |
| Tork.Ticks.C78_slow_run_loses_tick | propext, Classical.choice, Quot.sound |
| Tork.CancelTree.C79_ends | propext, Classical.choice, Quot.sound |
| Tork.CancelTree.C79_completes | propext, Classical.choice, Quot.sound |
| Tork.CancelTree.C79_reaches | propext, Classical.choice, Quot.sound |
| Tork.CancelTree.C79_echo_undoes_restart | propext, Classical.choice, Quot.sound |
| Tork.C80_tasks | propext, Classical.choice, Quot.sound |
| Tork.C80_messages | propext, Classical.choice, Quot.sound |
| Tork.C80_reports | propext, Classical.choice, Quot.sound |
| Tork.C80_jobs | propext, Classical.choice, Quot.sound |
| Tork.C80_values | propext, Classical.choice, Quot.sound |
| Tork.C80_fixed | propext, Classical.choice, Quot.sound |
| Tork.C80_script | propext, Classical.choice, Quot.sound |
| Tork.C80_first | propext, Classical.choice, Quot.sound |
| Tork.C80_kept | propext, Classical.choice, Quot.sound |
| Tork.C80_evaluated_twice_defect | propext, Classical.choice, Quot.sound |
| Tork.C80_broken_template_runs_defect | propext, Classical.choice, Quot.sound |
| Tork.C80_probe_lost_defect | propext, Classical.choice, Quot.sound |
| Tork.C81_one_at_a_time | propext, Classical.choice, Quot.sound |
| Tork.C81_in_order | propext, Classical.choice, Quot.sound |
| Tork.C81_made_in_turn | propext, Classical.choice, Quot.sound |
| Tork.C81_moves_on | propext, Classical.choice, Quot.sound |
| Tork.C81_sequential | propext, Classical.choice, Quot.sound |
| Tork.C81_result | propext, Classical.choice, Quot.sound |
| Tork.C81_scheduled_again_defect | propext, Classical.choice, Quot.sound |
| Tork.C81_failed_twice_defect | propext, Classical.choice, Quot.sound |
| Tork.C82_results | propext, Classical.choice, Quot.sound |
| Tork.C82_own_run | propext, Classical.choice, Quot.sound |
| Tork.C82_sub_job | propext, Classical.choice, Quot.sound |
| Tork.CacheConc.C83_linearizable | propext, Quot.sound |
| Tork.CacheConc.C83_clock | propext, Classical.choice, Quot.sound |
| Tork.CacheConc.C83_sequential | propext, Quot.sound |
| Tork.CacheConc.C83_expiration_lost_defect | propext, Quot.sound |
| Tork.Seq.C84_interpreted | propext, Classical.choice, Quot.sound |
| Tork.Seq.C84_program | propext, Classical.choice, Quot.sound |
| Tork.Seq.C84_deterministic | propext, Classical.choice, Quot.sound |
| Tork.Seq.C84_determined | propext, Classical.choice, Quot.sound |
| Tork.Copying.C85_prefix | propext, Classical.choice, Quot.sound |
| Tork.Copying.C85_alone | propext, Classical.choice, Quot.sound |
| Tork.Copying.C85_whole | propext, Classical.choice, Quot.sound |
| Tork.Copying.C85_count | propext, Quot.sound |
| Tork.Copying.C85_rest | propext, Classical.choice, Quot.sound |
| Tork.Copying.C85_over | propext, Classical.choice, Quot.sound |
| Tork.Copying.C85_twice | propext, Quot.sound |
| Tork.Copying.C85_lost | propext, Classical.choice, Quot.sound |
| Tork.Reports.C86_faithful | propext, Classical.choice, Quot.sound |
| Tork.Reports.C86_changes | propext, Classical.choice, Quot.sound |
| Tork.Reports.C86_current | propext, Classical.choice, Quot.sound |
| Tork.Reports.C86_gone | propext, Classical.choice, Quot.sound |
| Tork.Reports.C86_lost | propext, Classical.choice, Quot.sound |
| Tork.Reports.C86_percentage | propext, Classical.choice, Quot.sound |
| Tork.Reports.C86_rabbit | propext, Classical.choice, Quot.sound |
| Tork.Reports.C86_nan | propext, Classical.choice, Quot.sound |
| Tork.Reports.C86_blank | propext, Classical.choice, Quot.sound |
| Tork.Serving.C87_serving | propext, Classical.choice, Quot.sound |
| Tork.Serving.C87_error | propext, Classical.choice, Quot.sound |
| Tork.Serving.C87_dynamic | propext, Classical.choice, Quot.sound |
| Tork.Serving.C87_own | propext, Classical.choice, Quot.sound |
| Tork.Serving.C87_turns | propext, Classical.choice, Quot.sound |
| Tork.Serving.C87_another_defect | propext, Classical.choice, Quot.sound |
| Tork.Serving.C87_full_defect | propext, Classical.choice, Quot.sound |
| Tork.Closing.C88_ended | propext, Classical.choice, Quot.sound |
| Tork.Closing.C88_silent | propext, Classical.choice, Quot.sound |
| Tork.Closing.C88_whole | propext, Classical.choice, Quot.sound |
| Tork.Closing.C88_worker_defect | propext, Classical.choice, Quot.sound |
| Tork.Closing.C88_second_defect | propext, Classical.choice, Quot.sound |
| Tork.CpuLimit.C89_exact | propext, Classical.choice, Quot.sound |
| Tork.CpuLimit.C89_refused | propext, Classical.choice, Quot.sound |
| Tork.CpuLimit.C89_unlimited | propext, Classical.choice, Quot.sound |
| Tork.CpuLimit.C89_injective | propext, Classical.choice, Quot.sound |
| Tork.CpuLimit.C89_overflow_defect | propext, Classical.choice, Quot.sound |
| Tork.Capacity.C90_subscriptions | propext, Quot.sound |
| Tork.Capacity.C90_queues | propext, Quot.sound |
| Tork.Capacity.C90_others | propext, Quot.sound |
| Tork.Capacity.C90_capacity | propext, Classical.choice, Quot.sound |
| Tork.Capacity.C90_total | propext, Classical.choice, Quot.sound |
| Tork.Capacity.C90_number | propext, Classical.choice, Quot.sound |
| Tork.Capacity.C90_sent | propext, Classical.choice, Quot.sound |
| Tork.Capacity.C90_silent | (none) |
| Tork.Capacity.C90_second_stop_waits | propext, Quot.sound |
| Tork.Capacity.C90_stop_unstarted_defect | (none) |
| Tork.Roles.C91_granted | propext, Quot.sound |
| Tork.Roles.C91_revoked | propext, Quot.sound |
| Tork.Roles.C91_kept | propext, Quot.sound |
| Tork.Roles.C91_refused | propext, Quot.sound |
| Tork.Roles.C91_once | propext, Quot.sound |
| Tork.Roles.C91_access | propext, Quot.sound |
| Tork.Roles.C91_found | propext, Quot.sound |
| Tork.Roles.C91_slug_is_id_defect | propext |
| Tork.Archive.C92_unchanged | propext, Quot.sound |
| Tork.Archive.C92_refused | propext, Quot.sound |
| Tork.Archive.C92_read | (none) |
| Tork.Archive.C92_readable | propext, Quot.sound |
| Tork.Archive.C92_torkdir | propext, Quot.sound |
| Tork.Archive.C92_workdir | propext, Quot.sound |
| Tork.Archive.C92_unterminated_defect | propext, Quot.sound |
| Tork.Metrics.C93_jobs | propext, Classical.choice, Quot.sound |
| Tork.Metrics.C93_tasks | propext, Classical.choice, Quot.sound |
| Tork.Metrics.C93_nodes | propext, Classical.choice, Quot.sound |
| Tork.Metrics.C93_load | propext, Classical.choice, Quot.sound |
| Tork.Metrics.C93_percentage | propext, Classical.choice, Quot.sound |
| Tork.Metrics.C93_torn_defect | propext, Classical.choice, Quot.sound |
