{
 "C01": {
  "note": "Every interleaving of single operations, faults (failed, lost, half-done operations), crashes, lost and duplicated messages. Assumes Env.WellFormed (fresh job definitions, workers keep task identity) and that the start message of a job is not duplicated; C01/C02 negations show what happens otherwise."
 },
 "C02": {
  "note": "As C01. C02_duplicate_start_restarts_completed_job proves the exception."
 },
 "C03": {
  "note": "As C01."
 },
 "C04": {
  "note": "As C01. Scheduler and cancellation writes are unguarded in the code (a cancelled task can be scheduled again); the claim is about late results only."
 },
 "C05": {
  "note": "World-level counting theorems (C05_position_counts for every history; C05_position_exact when no task of the job is skipped) plus the exact effect of one completion."
 },
 "C07": {
  "note": "Floating point modelled by exact rationals; the rounding to two decimals of the code is modelled. Reports that are not a number are outside of this model: C86 has them."
 },
 "C08": {
  "note": "Attempts of every row and message stay below the limit in every reachable world."
 },
 "C09": {
  "note": "Evaluation of the retry's templates assumed to succeed in C09_retry (otherwise the job is lost: C52_retry_defect)."
 },
 "C11": {
  "note": "C11_counter_exact and C11_parallel_waits_for_all hold over every history with duplicates, crashes and losses; the counted events are steps, so a duplicated completion of a SKIPPED branch counts twice, as in the code."
 },
 "C12": {
  "note": "C12_each_waits_for_all over every history. Command-line templates are excluded in C12_fan_out because of the aliasing defect proved in C12_commands_defect."
 },
 "C13": {
  "note": "Limit in whole systems (three kinds of restrictions, see Mode in Once.lean), for children without parallel, each and sub-job sections; release of the held-back children in runs where each released child completes once and none is skipped."
 },
 "C14": {
  "note": "The intended property is false of the code; the theorems prove what the code does instead, for every such task."
 },
 "C16": {
  "note": "C16_subjob_parent_waits over every history. Message-level theorems for start, result, failure, cancellation; C16_pending_sub_defect proves the exception."
 },
 "C19": {
  "note": "C19_workers_get_plain_tasks over every history. C19_swallowed proves the middleware exception."
 },
 "C22": {
  "note": "Distinct creation times needed for jobs (C22_ties_lose_items proves why)."
 },
 "C26": {
  "note": "AES-GCM abstract: only decrypt (encrypt x) = x with the same key is assumed."
 },
 "C31": {
  "note": "After the first use of the queue settled; first-use race proved as a negation."
 },
 "C33": {
  "note": "In-memory: exclusion for histories in which each lock object is released at most once (double release breaks it: theorem C33_inmemory_double_release_breaks_exclusion). Postgres: all histories; a free key can fail to be acquired only on a 64-bit hash collision with a held key."
 },
 "C35": {
  "note": "All interleavings of writers and flusher. Bytes of a part whose publish is refused by the broker are lost (code does not retry): receiver completeness under hypothesis all publishes accepted."
 },
 "C36": {
  "note": "All arrival orders, handlers executed one at a time with a non-decreasing clock."
 },
 "C40": {
  "note": "Requests for the same scheduled job do not overlap; overlapping ones leak (proved). Failing calls and invalid cron expressions not modelled."
 },
 "C42": {
  "note": "Sub-job tasks are unchecked and templated names escape the check: both proved as exceptions."
 },
 "C43": {
  "note": "Duplicate requests harm the job: proved."
 },
 "C44": {
  "note": "SKIPPED tasks are the exception: proved."
 },
 "C50": {
  "note": "Unset host variables are added as empty strings (as the code does)."
 },
 "C52": {
  "note": "Regular tasks (C52_no_stuck) and composite tasks of any nesting (C52_no_stuck_composite). Termination of the runs is not claimed: the theorem is about every state of rest, plus absence of panics and deadlocks."
 },
 "C06": {
  "note": "C06_completes_after_all_tasks for every history; C06_completed_tasks counts COMPLETED tasks when none is skipped. C06_result: the result, in every reachable world (proof with the origin logic of C80)."
 },
 "C20": {
  "note": "C20_context_changes_only_by_results, C20_no_result_lost and C20_inputs_immutable are about every step of every reachable world."
 },
 "C58": {
  "note": "C58_leaks is a defect witness: a container whose files cannot be written is never removed, nor is the /tork volume when a limit cannot be parsed."
 },
 "C60": {
  "note": "C60_volume_bypass is a defect witness: driver options of a volume mount reach the daemon unchecked."
 },
 "C61": {
  "note": "C61_sent_to_hub and C61_identity_token are defect witnesses."
 },
 "C62": {
  "note": "C62_alias and C62_stale are defect witnesses: the image table is keyed by name, not by image."
 },
 "C63": {
  "note": "C63_group_refused is a defect witness. Failure of removal and kill are ignored, as in the code. Names of variables distinct and without = (they are map keys)."
 },
 "C64": {
  "note": "C64_image_is_an_option and C64_same_task_twice are defect witnesses. Failures of the clean-up calls are ignored, as in the code."
 },
 "C65": {
  "note": "C65_no_subscriber_loses, C65_redelivered_pending_lost, C65_wedged and C65_shutdown_hangs are defect theorems. The AMQP server is an assumption of the model (DESIGN.md)."
 },
 "C66": {
  "note": "C66_partial_word is a defect witness. The routing rule of topic exchanges is an assumption (AMQP 0-9-1)."
 },
 "C70": {
  "note": "Provided the broker does not deliver twice a PENDING message or a message on its way to a worker; the exception is a theorem."
 },
 "C71": {
  "note": "koanf v2 is not in the repository: its Merge, Unflatten and env provider are modelled from knowledge of that library. Names of variables are ASCII; keys of files contain no dots; parsing of truth values and numbers is a parameter. C71_clash_at_random, C71_underscore_unreachable and C71_unreadable_is_zero are limitations of the code."
 },
 "C72": {
  "note": "C72_failed_announced_twice and C72_cancelled_silent are limitations of the code. The delivery of events to subscribers is C07/C66."
 },
 "C73": {
  "note": "C73_early_event_loses_the_job, C73_two_failures_crash, C73_outcome_for_another_client are defects of the code. Simplifications (sequentially consistent memory, echo's context pool as an assumption) are in the header of Wait.lean."
 },
 "C74": {
  "note": "Assumed: READ COMMITTED with row locks of PostgreSQL as stated in the header of TwoPhase.lean. Not covered: completeEachTask, which uses a second connection inside its transaction (see C76); deletions in the relation to DS."
 },
 "C75": {
  "note": "C75_deadlock and C75_deadlock_one_job are a defect of the code (GetUser is called on the datastore instead of the transaction). completeEachTask uses a second connection in the same way, see C76."
 },
 "C76": {
  "note": "C76_crash_exceeds_limit, C76_cancelled_child_comes_back and C76_deadlock are defects of the code. Simplifications (task states grouped, no retries, children created in one step) are in the header of EachTx.lean."
 },
 "C77": {
  "note": "C77_late_start_stopped assumes that no worker receives the same task twice and that the handlers of its announcement finish; C77_recorded_start_stopped that every task is received once and that the handlers that stop the job finish. Without these the claim is false, see the defect theorems. Restarting a stopped job and tasks with a sub-job are left out."
 },
 "C78": {
  "note": "gocron is not part of the repository: that it runs the function only while it has the lock is assumed. Mutual exclusion of the lock is C33. C78_clocks_apart_fire_twice, C78_death_fires_twice and C78_slow_run_loses_tick are limits of the code."
 },
 "C79": {
  "note": "No faults and nothing but cancellations is handled in the meantime (concurrent starts: C77, C16_pending_sub_defect). The rows are assumed to form a forest (a sub-job's parent task and its job exist; nodes of active tasks exist). C79_echo_undoes_restart is a defect of the code."
 },
 "C80": {
  "note": "C80_fixed and C80_script assume worker middleware that keeps these parts (PreKeeps). Left out of `the same work`: execution record, queue, limits, timeout, retry policy, priority (defaults, C17), the probe (not stored: C80_probe_lost_defect), command words inside a loop body (C12_commands_defect). Two further defects are proved: branches (and retries) are evaluated more than once, so a template in a task's result is evaluated (C80_evaluated_twice_defect); a task whose evaluation fails is run nevertheless (C80_broken_template_runs_defect)."
 },
 "C81": {
  "note": "C81_sequential and C81_result are for jobs whose definition has no parallel and each tasks (`Plain`); the other theorems are for all jobs. The exceptional events are hypotheses because they do break the order (C81_scheduled_again_defect, C81_failed_twice_defect, C44_skipped_counts_twice)."
 },
 "C82": {
  "note": "The result of a parallel or each task and of a task with a detached sub-job is not covered: nothing is run for them."
 },
 "C83": {
  "note": "List and Iterate (no snapshot of the cache), the eviction callback (Delete and the clean-up give it a value that a Modify in progress may still change) and overlapping unlocked reads are not covered. C83_expiration_lost_defect: with SetExpiration the last sentence fails."
 },
 "C84": {
  "note": "Jobs with parallel or each tasks or detached sub-jobs are not covered (C11-C16, C80 and C82 are about those), nor are retries and restarts. The histories must be ordinary for the job and each job within it (Quiet); that a job is sequential follows from its definitions being Linear (sequential_of_linear)."
 },
 "C85": {
  "note": "A piece is what one read of `dockerLogsReader` returns (C67 relates the pieces to the bytes); the remarks a probe writes are in the model, their text is not."
 },
 "C86": {
  "note": "What `strconv.ParseFloat` makes of digits is a parameter; that it reads \"nan\" and \"inf\" (in any case) is taken from its documentation, and that `encoding/json` refuses them."
 },
 "C87": {
  "note": "What other processes hold does not change during the start. For a dynamic range the theorem assumes that no other process answers at its ports: otherwise the first exception applies to each of them."
 },
 "C88": {
  "note": "Topics are not modelled here, nor the bound of 1000 messages of a queue, nor queues that two goroutines create at the same time (C31 has those)."
 },
 "C89": {
  "note": "`big.Rat.SetString` is a parameter, as is the parsing of memory limits (a library)."
 },
 "C90": {
  "note": "A middleware runs the task any number of times, but not several times at once. A panic is not modelled."
 },
 "C91": {
  "note": "Each operation is one SQL statement. Only an engine's extension can call them (there is no route)."
 },
 "C92": {
  "note": "How a header is written and read back is a parameter (`Format.Good`), met by a small format in the example. Failures of the disk are not modelled."
 },
 "C93": {
  "note": "The loads are exact rationals."
 }
}