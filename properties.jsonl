{"id": "C01", "title": "Job lifecycle edges", "statement": "The state the API reports for a job only ever changes along PENDING->SCHEDULED (job started), SCHEDULED->RUNNING (a task started), SCHEDULED/RUNNING->COMPLETED, ->FAILED or ->CANCELLED, and FAILED/CANCELLED->RUNNING (explicit restart). No other change of a job's state is ever observable, provided the one message that starts a job is delivered to a handler at most once (every other message may be delivered any number of times); delivering it twice does break this, which is proved as well.", "quantifier": "every job, every interleaving of coordinator handlers, every crash point and datastore/broker fault, every history", "why_tests_cant": "the set of interleavings of handlers and crash points is unbounded; a test exercises one schedule", "anchors": ["internal/coordinator/handlers/job.go: startJob, completeJob, markJobAsRunning, restartJob, failJob", "internal/coordinator/handlers/cancel.go: handle", "internal/coordinator/handlers/started.go", "internal/coordinator/handlers/error.go", "internal/coordinator/handlers/completed.go"]}
{"id": "C02", "title": "COMPLETED is final", "statement": "Once a job is COMPLETED its state never changes again: cancel, restart, late task failures, late or duplicate completions and late start notices leave it COMPLETED (the job's own start message being delivered once; a duplicate of that message restarts a COMPLETED job, proved as a defect).", "quantifier": "every history after a completion, every interleaving and fault", "why_tests_cant": "needs all continuations of all reachable states", "anchors": ["internal/coordinator/handlers/job.go: completeJob, failJob, restartJob", "internal/coordinator/handlers/cancel.go: handle"]}
{"id": "C03", "title": "CANCELLED / FAILED jobs only leave by an explicit restart", "statement": "A CANCELLED (or FAILED) job is never turned into COMPLETED, SCHEDULED or the other terminal state by late task results, failures or start notices; the only exit is a restart request, which makes it RUNNING.", "quantifier": "every history, every interleaving and fault", "why_tests_cant": "late messages may arrive in any order and number", "anchors": ["internal/coordinator/handlers/job.go: failJob, completeJob, markJobAsRunning, restartJob", "internal/coordinator/handlers/cancel.go", "internal/coordinator/handlers/started.go"]}
{"id": "C04", "title": "Late results do not overwrite a finished task", "statement": "A task that was cancelled or failed is never reported COMPLETED by a late completion, a completed/cancelled/skipped task is never reported FAILED by a late error, and a finished task is never reported RUNNING by a late start notice.", "quantifier": "every task in any non-active state and every late completion / error / start message", "why_tests_cant": "message reorderings are unbounded", "anchors": ["internal/coordinator/handlers/completed.go: completeTopLevelTask, completeParallelTask, completeEachTask", "internal/coordinator/handlers/error.go: handle", "internal/coordinator/handlers/started.go: handle"]}
{"id": "C05", "title": "Top-level tasks run in order", "statement": "A job's position moves only when the job is started (to 1) or, by exactly one, when one of its top-level tasks is completed or was skipped; every task row of the job is at or before the job's position; completing a top-level task that is not the last creates and queues exactly the next one, an instance of the next definition; after the last one no further task is created. Over any history the position is bounded below and above by the number of finished top-level tasks. (Strict 'k+1 is created only after k was completed' is not a property of this code under duplicate completions of a SKIPPED task.)", "quantifier": "every job (any number of tasks), every message processed", "why_tests_cant": "holds for every job length and message order", "anchors": ["internal/coordinator/handlers/completed.go: completeTopLevelTask", "internal/coordinator/handlers/job.go: startJob"]}
{"id": "C06", "title": "A job completes only when all of its top-level tasks did", "statement": "A job is COMPLETED only if its position has passed the number of its tasks and, over its whole history, at least as many steps finished one of its top-level tasks as it has tasks; completing a non-last task never completes the job and hands exactly the next task to the scheduler; completing the last one completes it and evaluates its output. The result of a COMPLETED job is always its output, as it was submitted, evaluated in a context the job had after its last task.", "quantifier": "every job length, position, task payload", "why_tests_cant": "for all positions and lengths", "anchors": ["internal/coordinator/handlers/completed.go: completeTopLevelTask", "internal/coordinator/handlers/job.go: completeJob"]}
{"id": "C07", "title": "Progress stays a percentage", "statement": "Progress values recorded for a task from reports are in [0,100] whatever a worker reports; the job progress recorded on completion of its k-th of n top-level tasks is k/n in percent rounded to two decimals: in [0,100], never decreasing in k, 100 when the last task completes, and for fewer than 20000 tasks 100 only then (with 20000 or more an earlier value can round up to 100, proved). Known exception: a report that is not a number (C86).", "quantifier": "every reported number (also negative or over 100), every position and task count", "why_tests_cant": "numeric range is unbounded", "anchors": ["internal/coordinator/handlers/progress.go: handle", "internal/coordinator/handlers/completed.go: completeTopLevelTask"]}
{"id": "C08", "title": "A failing task is retried at most `retry.limit` times", "statement": "Along any chain of retries of a task, the number of re-created copies never exceeds retry.limit, whatever the interleaving; every retry is a fresh task with attempts increased by one and all other user-visible configuration preserved.", "quantifier": "every task, every limit, every failure sequence", "why_tests_cant": "failure sequences and limits are unbounded", "anchors": ["internal/coordinator/handlers/error.go: handle", "task.go: Clone"]}
{"id": "C09", "title": "Retry eligibility", "statement": "When a task error is handled: if the job is SCHEDULED or RUNNING and attempts < limit exactly one new PENDING attempt is created and queued and the job is not failed; otherwise no new attempt is created and the job is failed. Under every fault, only attempts of that task are created, none when none is left, and at most two per message (the second only if the handler itself reported an error after creating the first, e.g. a lost acknowledgement).", "quantifier": "every job state, retry configuration and error message", "why_tests_cant": "all combinations of state and configuration", "anchors": ["internal/coordinator/handlers/error.go: handle"]}
{"id": "C10", "title": "A task failure without retries fails the job and stops its work", "statement": "After a non-retryable task failure is handled, a top-level SCHEDULED/RUNNING job is FAILED, no task of the job is left in an active state, tasks running on a node have been sent a cancellation to that node, other jobs are untouched and a job.failed event is published.", "quantifier": "every job, any number of active tasks", "why_tests_cant": "any number and kind of concurrently active tasks", "anchors": ["internal/coordinator/handlers/error.go: handle", "internal/coordinator/handlers/job.go: failJob", "internal/coordinator/handlers/cancel.go: cancelActiveTasks"]}
{"id": "C11", "title": "Parallel join", "statement": "A parallel task is completed exactly when the number of completions of its branches reaches the number of branches: no earlier, and no branch completion is lost.", "quantifier": "any number of branches, every order of completion", "why_tests_cant": "n! completion orders for every n", "anchors": ["internal/coordinator/handlers/completed.go: completeParallelTask", "internal/coordinator/scheduler/scheduler.go: scheduleParallelTask"]}
{"id": "C12", "title": "Each (fan-out) join", "statement": "An `each` task over a list of n>0 items creates exactly n children, one per item with its index and value, and is completed exactly when n children completed. The item reaches every template of the child except the command line: a defect of the code gives all children the command line of the first item, which is proved as well.", "quantifier": "every list, every completion order, every concurrency", "why_tests_cant": "every list length and completion order", "anchors": ["internal/coordinator/scheduler/scheduler.go: scheduleEachTask", "internal/coordinator/handlers/completed.go: completeEachTask"]}
{"id": "C13", "title": "Each concurrency limit", "statement": "With `concurrency: c` (c>0) at most c children of an `each` task are released (queued and not yet finished) at any moment of any run of the whole system: with all faults (failing operations, crashes, lost messages, duplicates of everything but scheduling requests and skip reports; but not a failure or crash in the middle of the transaction that completes a child) if the children are not retried, and with retries if operations do not fail and messages that carry a task on are not duplicated. In orderly runs completions of released children release the held-back ones until all n were released. Known exceptions: if the failure report of a child with retries is delivered twice, or the coordinator dies in the middle of the transaction that completes a child and the report is delivered again, the limit is exceeded.", "quantifier": "every list length, every c, every completion order, every interleaving, fault pattern and crash point", "why_tests_cant": "for all n, c and schedules", "anchors": ["internal/coordinator/scheduler/scheduler.go: scheduleEachTask", "internal/coordinator/handlers/completed.go: completeEachTask", "datastore/postgres/postgres.go: GetNextTask", "internal/coordinator/handlers/error.go: handle"]}
{"id": "C14", "title": "Each over an empty list hangs the job", "statement": "An `each` task whose list evaluates to an empty list should complete so that the job moves on. The code does not do this: the theorem proves that such a task becomes RUNNING with no child and no message is sent, whatever the list expression, so nothing will ever complete it (a defect of the code, stated as what it does).", "quantifier": "every each task whose list evaluates to an empty list, every database state", "why_tests_cant": "needs reasoning about absence of any further message", "anchors": ["internal/coordinator/scheduler/scheduler.go: scheduleEachTask"]}
{"id": "C15", "title": "Conditional tasks (`if`)", "statement": "A task whose evaluated `if` is (modulo surrounding whitespace) the string false is never sent to a work queue: it is SKIPPED and completed; any other value schedules the task.", "quantifier": "every task and every value of if", "why_tests_cant": "every string", "anchors": ["internal/coordinator/handlers/pending.go: handle, skipTask"]}
{"id": "C16", "title": "Sub-jobs", "statement": "An attached sub-job gets the sub-job's definition and the parent's owner and permissions, its parent task stays RUNNING until the sub-job ends; the sub-job's result becomes the parent task's result, its failure is reported as a failure of the parent task, cancelling the parent cancels a SCHEDULED or RUNNING sub-job (not one that is still PENDING: a defect) and vice versa; a detached sub-job completes the parent task immediately.", "quantifier": "every sub-job definition and outcome", "why_tests_cant": "every nested definition", "anchors": ["internal/coordinator/scheduler/scheduler.go: scheduleAttachedSubJob, scheduleDetachedSubJob", "internal/coordinator/handlers/job.go: completeJob, failJob", "internal/coordinator/handlers/cancel.go"]}
{"id": "C17", "title": "Job defaults fill only what the task left unset", "statement": "When a task is scheduled, its queue, limits, timeout, retry limit and priority are the task's own value when set, else the job default, else (queue) `default`; the scheduled task is SCHEDULED in the datastore with those values and the same values are sent to the queue.", "quantifier": "every combination of task settings and job defaults", "why_tests_cant": "product of all option combinations", "anchors": ["internal/coordinator/scheduler/scheduler.go: scheduleRegularTask"]}
{"id": "C18", "title": "Redelivery bound", "statement": "A task message that keeps being redelivered is put back on its queue at most 5 times and then reported as a failure on the error queue with the message `task redelivered too many times`.", "quantifier": "every redelivery count and any number of redeliveries", "why_tests_cant": "unbounded redelivery sequences", "anchors": ["internal/coordinator/handlers/redelivered.go: handle", "broker/rabbitmq.go: subscribe"]}
{"id": "C19", "title": "A worker reports exactly one outcome per run", "statement": "For every task a worker handles, whatever middleware and runtime do, it publishes at most one STARTED and then at most one terminal report: COMPLETED with the runtime's result iff runtime and middleware succeeded, otherwise FAILED with the error; exactly one if no publish fails and no middleware swallows the task (returning without calling next and without an outcome: proved to leave no report); the report keeps the task's identity and configuration and the running-task registry/counter return to their previous value.", "quantifier": "every task, middleware chain and runtime outcome", "why_tests_cant": "all runtime outcomes and middleware behaviours", "anchors": ["internal/worker/worker.go: doHandleTask, runTask, doRunTask"]}
{"id": "C20", "title": "Task results flow into the job context", "statement": "When a task with a `var` completes with a non-empty result, the job context maps that var to that result for all later tasks and keeps every other variable; with an empty var or result the context is unchanged.", "quantifier": "every var, result and previous context", "why_tests_cant": "every map content", "anchors": ["internal/coordinator/handlers/completed.go"]}
{"id": "C21", "title": "Cleanup only removes expired jobs and never leaves orphans", "statement": "Expunging removes only jobs whose delete-at passed or that are terminal and older than the retention, removes at most 1000 per run, removes all their tasks, log parts and permissions, and leaves every row of other jobs untouched, so referential integrity is preserved.", "quantifier": "every database content and clock value", "why_tests_cant": "every database state", "anchors": ["datastore/postgres/postgres.go: expungeExpiredJobs, deleteJobs, expungeExpiredTaskLogPart"]}
{"id": "C22", "title": "Pagination is a partition", "statement": "Fetching pages 1..totalPages of a listing with a fixed size yields every item exactly once in listing order; pages beyond are empty; totalPages = ceil(total/size). For jobs this needs distinct creation times: the listing order is not total otherwise and an item can be missing from all pages (proved). Log searches report totals of the unsearched log (proved).", "quantifier": "every list, every page size", "why_tests_cant": "every size and count", "anchors": ["datastore/postgres/postgres.go: GetJobs, GetScheduledJobs, GetTaskLogParts, GetJobLogParts", "internal/coordinator/api/api.go: listJobs, getTaskLog, getJobLog"]}
{"id": "C23", "title": "Job visibility", "statement": "A user listing jobs sees exactly the jobs that have no permissions, or one naming that user or one of the user's roles; totals count exactly the same jobs.", "quantifier": "every set of users, roles and permissions", "why_tests_cant": "every database state", "anchors": ["datastore/postgres/postgres.go: GetJobs, GetScheduledJobs"]}
{"id": "C24", "title": "Wildcard matching", "statement": "A topic pattern matches a topic iff the topic can be obtained by replacing every `*` by some (possibly empty) string; other characters match only themselves.", "quantifier": "every pattern and every string", "why_tests_cant": "infinite input space", "anchors": ["internal/wildcard/wildcard.go: Match"]}
{"id": "C25", "title": "Redaction", "statement": "In a redacted job or task no env variable, mount option, input, header or context value whose key looks secret is shown, and no value in those maps contains a secret of the job; registry passwords and secret maps are always hidden; nothing else is changed. Log parts shown for a job contain none of its secrets within a part (a secret split across two parts is shown, and the template of an `each` task and sidecars are not redacted: both proved).", "quantifier": "every job/task (any nesting) and every secret set", "why_tests_cant": "recursive structures of any depth", "anchors": ["internal/redact/redact.go"]}
{"id": "C26", "title": "Secrets encryption round trip", "statement": "The secrets of a job stored with an encryption key are not stored in clear in the secrets column, read back equal with the same key, and are not disclosed when no key is configured or the key is wrong. (The copy of the secrets in the job's context column is stored in clear: proved as a defect.)", "quantifier": "every secret map and key", "why_tests_cant": "every string and key", "anchors": ["internal/encrypt/encrypt.go", "datastore/postgres/postgres.go: encryptSecrets, decryptSecrets"]}
{"id": "C27", "title": "Clone is an independent copy", "statement": "Cloning a task or job gives an equal object (same configuration; only the redelivery counter, a job's delete-at and a user's password are dropped), and mutating the maps and nested tasks of the clone does not affect the original nor vice versa; the string lists (command, entrypoint, networks, tags) are shared, and writing to one does show in the other (proved).", "quantifier": "every task of any nesting, every later mutation", "why_tests_cant": "recursive structure of any depth and aliasing", "anchors": ["task.go: Clone", "job.go: Clone", "mount.go", "node.go", "user.go", "role.go"]}
{"id": "C28", "title": "Template evaluation", "statement": "Evaluating a task replaces each {{ expr }} in the evaluated fields by the value of the expression in the job's context, leaves text without {{ }} unchanged, changes no other field, and fails as a whole if some expression fails.", "quantifier": "every string, context, nested task", "why_tests_cant": "every string", "anchors": ["internal/eval/eval.go: EvaluateTask, EvaluateTemplate, EvaluateExpr"]}
{"id": "C29", "title": "Job input validation", "statement": "A job is accepted only if every task (at any nesting the validator reaches) satisfies the published rules: composite tasks have exactly one kind and no execution fields, reserved queues are rejected, mounts/retries/priorities/timeouts/webhooks are well formed, permissions name exactly one existing user or role.", "quantifier": "every job submission", "why_tests_cant": "recursive inputs", "anchors": ["input/validate.go", "input/job.go", "input/task.go"]}
{"id": "C30", "title": "Accepted job = submitted job", "statement": "The job stored and returned on submission carries exactly the submitted definition (tasks, inputs, secrets, defaults, webhooks, permissions, output, tags), state PENDING, position 0 and taskCount = number of tasks.", "quantifier": "every submission", "why_tests_cant": "recursive inputs", "anchors": ["input/job.go: ToJob, ToScheduledJob", "input/task.go: toTask", "internal/coordinator/api/api.go: SubmitJob"]}
{"id": "C31", "title": "In-memory queues", "statement": "Once a queue exists, each message published to it is handled by exactly one subscriber of that queue, messages are taken in FIFO order of publication, and publishing to one queue never affects another. (Two concurrent first uses of a queue can lose messages, and a task's redelivery counter does not survive the broker: proved.)", "quantifier": "every interleaving of publishers and subscribers, any number of queues", "why_tests_cant": "unbounded interleavings", "anchors": ["broker/inmemory.go"]}
{"id": "C32", "title": "Events reach all matching subscribers", "statement": "A published event is handed exactly once to every topic subscribed to when the publication starts whose pattern matches, and to no other; each subscriber's handler gets every event its topic accepted exactly once, in the order of acceptance.", "quantifier": "every set of subscriptions and event sequence", "why_tests_cant": "unbounded histories", "anchors": ["broker/inmemory.go: PublishEvent, SubscribeForEvents, topic"]}
{"id": "C33", "title": "Locks are mutually exclusive", "statement": "At any time at most one holder has acquired a given key and not released it; acquiring a held key fails and acquiring a free key succeeds; different keys are independent. Releasing a lock, or losing the connection that holds it, frees that lock and no other one.", "quantifier": "every acquire/release history", "why_tests_cant": "unbounded histories", "anchors": ["locker/inmemory.go", "locker/postgres.go"]}
{"id": "C34", "title": "Cache", "statement": "A get returns the value of the latest set/modify of the key if it is not expired or deleted and nothing otherwise; cleanup never removes a live entry and fires the eviction callback once per removed entry. Setting the expiration of a key and modifying it report success exactly if the key is known (and the function accepts its value).", "quantifier": "every operation history and clock", "why_tests_cant": "unbounded histories", "anchors": ["internal/cache/cache.go"]}
{"id": "C35", "title": "Task logs are shipped completely and in order", "statement": "Concatenating the contents of the log parts shipped for a task in part-number order yields exactly the written bytes in order, part numbers are consecutive from 1, and no empty part is shipped.", "quantifier": "every sequence of writes and flush ticks", "why_tests_cant": "unbounded interleavings", "anchors": ["broker/log.go"]}
{"id": "C36", "title": "Heartbeats are monotone", "statement": "A node's recorded last heartbeat never decreases and its cpu/status/taskCount are those of the newest heartbeat processed, whatever the order of arrival; a node silent for longer than the timeout is reported OFFLINE.", "quantifier": "every set and order of heartbeats", "why_tests_cant": "every permutation", "anchors": ["internal/coordinator/handlers/heartbeat.go", "datastore/postgres/record.go: toNode", "datastore/postgres/postgres.go: UpdateNode, GetActiveNodes"]}
{"id": "C37", "title": "Middleware order and short-circuit", "statement": "Middleware m1..mn wraps a handler so that m1 runs first and the handler last; if a middleware does not call next, neither later middleware nor the handler run and its error is the result.", "quantifier": "any number of middleware and handlers", "why_tests_cant": "any chain length", "anchors": ["middleware/task/task.go", "middleware/job/job.go", "middleware/node/node.go", "middleware/log/log.go", "middleware/web/web.go"]}
{"id": "C38", "title": "Webhook delivery policy", "statement": "A webhook call is attempted at most 5 times, stops at the first 2xx, retries only transport errors and 429/500/502/503/504, and reports success iff some attempt got 2xx.", "quantifier": "every sequence of responses", "why_tests_cant": "every response sequence", "anchors": ["internal/webhook/webhook.go: Call"]}
{"id": "C39", "title": "Webhook event selection", "statement": "After a successful state/progress change each webhook of the job is called iff its event matches and its `if` is empty or evaluates to true, with a summary of the job/task; no webhook is called when the handler failed.", "quantifier": "every webhook list, event and handler outcome", "why_tests_cant": "every combination", "anchors": ["middleware/job/webhook.go", "middleware/task/webhook.go"]}
{"id": "C40", "title": "Scheduled jobs: pause/resume/delete", "statement": "After a scheduled job is created or resumed it has exactly one active cron entry on each coordinator, after pause or delete none, once the requests' events were handled and if requests for the same job do not overlap (overlapping resumes leak an entry: proved); every firing creates a fresh PENDING job with the schedule's definition.", "quantifier": "every history of create/pause/resume/delete requests", "why_tests_cant": "unbounded histories", "anchors": ["internal/coordinator/handlers/schedule.go", "internal/coordinator/api/api.go: pauseScheduledJob, resumeScheduledJob, deleteScheduledJob"]}
{"id": "C41", "title": "Cancel and restart requests are guarded", "statement": "Cancel is accepted only for a SCHEDULED or RUNNING job and restart only for a FAILED or CANCELLED job whose position has not passed its last task; a rejected request has no effect.", "quantifier": "every job state/position", "why_tests_cant": "all states", "anchors": ["internal/coordinator/api/api.go: cancelJob, restartJob"]}
{"id": "C42", "title": "Queue deletion is restricted to task queues", "statement": "The API never deletes a coordinator queue or a node's exclusive queue, and an accepted job names no such queue in its tasks (at every depth the validator reaches: tasks of a sub-job are not checked, and a templated queue name can evaluate to a reserved one: both proved).", "quantifier": "every queue name", "why_tests_cant": "every string", "anchors": ["internal/coordinator/api/api.go: deleteQueue", "broker/queues.go: IsTaskQueue, IsCoordinatorQueue, IsWorkerQueue", "input/validate.go: validateQueue"]}
{"id": "C43", "title": "Restart runs the current task exactly once", "statement": "Handling a restart request of a FAILED or CANCELLED job re-creates exactly the current top-level task as a fresh PENDING task and queues it once, under every fault at most once; a restart of a job in any other state creates no task. A duplicate of the request is not harmless: handled while the restarted job is RUNNING it fails the job (proved as a defect).", "quantifier": "every job position, duplicates of the request", "why_tests_cant": "duplicated deliveries in any order", "anchors": ["internal/coordinator/handlers/job.go: restartJob", "internal/coordinator/coordinator.go: jobHandler"]}
{"id": "C44", "title": "Duplicate completions do not advance a job twice", "statement": "Handling a completion any number of times advances the job's position, a parallel/each counter and the context at most once, unless the task was SKIPPED (a SKIPPED task can be completed twice: proved as a defect). The refused duplicate is reported as an error of the task (and so fails a healthy job: proved as a defect).", "quantifier": "every task, any number of duplicates", "why_tests_cant": "duplicates in any order", "anchors": ["internal/coordinator/handlers/completed.go"]}
{"id": "C45", "title": "Completion is atomic", "statement": "Recording a completion (task state and result, parent counter, job position and context) happens entirely or not at all, at every crash point and on every datastore error.", "quantifier": "every crash point, every datastore fault", "why_tests_cant": "every crash point", "anchors": ["internal/coordinator/handlers/completed.go", "datastore/postgres/postgres.go: WithTx"]}
{"id": "C46", "title": "Cleanup interval adapts within bounds", "statement": "The delay between cleanups always stays within [1 minute, 1 hour], halves when something was removed and doubles otherwise.", "quantifier": "every history of cleanup outcomes", "why_tests_cant": "unbounded histories", "anchors": ["datastore/postgres/postgres.go: cleanup"]}
{"id": "C47", "title": "Health report", "statement": "The aggregated health is UP iff every registered indicator reports no error within its timeout, else DOWN.", "quantifier": "every set of indicators", "why_tests_cant": "any number", "anchors": ["health/health.go"]}
{"id": "C48", "title": "Persistence round trip", "statement": "A task or job read back equals the one stored in every persisted field (NUL characters removed from task error/result); fields outside the updatable set are never changed by an update.", "quantifier": "every task/job value and update function", "why_tests_cant": "every value", "anchors": ["datastore/postgres/postgres.go: CreateTask, UpdateTask, CreateJob, UpdateJob", "datastore/postgres/record.go: toTask, toJob"]}
{"id": "C49", "title": "Search query parsing", "statement": "A search string splits into free-text terms (order kept, single-space separated) and tags given as tag:x or tags:x,y; no term is lost.", "quantifier": "every query string", "why_tests_cant": "every string", "anchors": ["datastore/postgres/postgres.go: parseQuery"]}
{"id": "C50", "title": "Host environment variables", "statement": "The hostenv middleware adds exactly the configured host variables (empty when unset on the host), under their alias, to task, pre- and post-tasks and nothing else; malformed specs are rejected.", "quantifier": "every spec list, environment and task", "why_tests_cant": "every string", "anchors": ["middleware/task/hostenv.go"]}
{"id": "C51", "title": "Mounts are released", "statement": "With a combination of mounters, each mount is unmounted by the mounter that mounted it and unknown mount types are rejected.", "quantifier": "every sequence of mount/unmount", "why_tests_cant": "unbounded histories", "anchors": ["runtime/multi.go"]}
{"id": "C52", "title": "No stuck job", "statement": "In a deployment whose datastore and broker do not fail and lose nothing, whenever the system is at rest (no request, handler or worker running, every queue somebody listens to drained) every job - submitted, scheduled or the sub-job of a task - is COMPLETED, FAILED or CANCELLED, never silently stuck; on the way no handler panics, and a system not at rest can always go on. Jobs may contain parallel, each and sub-job tasks nested to any depth. Assumed: no empty composite (an each task over an empty list is stuck for ever: the exception is proved as well), queue names that are literal work queues, middleware that does not swallow tasks, and expressions whose evaluation does not fail for tasks with retries (otherwise the job is lost: proved as well).", "quantifier": "every set of jobs, job lengths, nestings of composite tasks, task outcomes, cancellations, restarts and schedules; every interleaving of the single operations of all goroutines, every order of messages and every number of deliveries of each", "why_tests_cant": "liveness over unbounded executions", "anchors": ["internal/coordinator/handlers/", "internal/coordinator/scheduler/scheduler.go"]}
{"id": "C53", "title": "Image references", "statement": "Parsing an image reference either rejects it or returns the one registry domain, path and tag that the reference grammar assigns to it (an optional domain before the first slash whenever that prefix is a valid domain, the tag empty when none is given, a digest accepted and dropped); printing the three parts back and parsing again gives the same parts; everything outside the grammar, and names longer than 255 characters, are rejected.", "quantifier": "every reference string", "why_tests_cant": "unbounded set of strings; greedy/backtracking choices make the split ambiguous unless uniqueness is proved", "anchors": ["runtime/docker/reference.go"]}
{"id": "C54", "title": "User creation", "statement": "A user is created only with a non-empty trimmed username and password and only if the name is not taken; the password is stored only as a salted hash. The answer shows the user that was stored, without the password.", "quantifier": "every request and user table", "why_tests_cant": "every input", "anchors": ["internal/coordinator/api/api.go: createUser", "datastore/postgres/postgres.go: CreateUser"]}
{"id": "C55", "title": "Access control of single jobs is not bypassed by listing", "statement": "Page items shown to a user are always a subset of the visible jobs, whatever search term and tags are given, and search only narrows the result.", "quantifier": "every query, user and database", "why_tests_cant": "every combination", "anchors": ["datastore/postgres/postgres.go: GetJobs"]}
{"id": "C56", "title": "Cancelling a job stops its work", "statement": "When a cancellation is handled, a SCHEDULED or RUNNING job becomes CANCELLED (a job in any other state keeps its row), every active task of the job becomes CANCELLED, a task running on a node has its cancellation sent to that node's queue, a task with a sub-job has the sub-job's cancellation sent, and a sub-job also cancels the job of its parent task; nothing else changes or is sent.", "quantifier": "every job, every set of task rows, every nesting", "why_tests_cant": "all task sets and states", "anchors": ["internal/coordinator/handlers/cancel.go: handle, cancelActiveTasks"]}
{"id": "C57", "title": "Start notices", "statement": "When a worker's start notice for a task is handled and the task's job is SCHEDULED or RUNNING, the job is RUNNING afterwards, the task is recorded on the reporting node, a SCHEDULED task becomes RUNNING with the current start time and a task in any other state keeps its state; nothing else changes and nothing is sent. If the job is in any other state (cancelled, failed, completed, …) no row changes and a cancellation of the task is sent to the queue of the reporting node.", "quantifier": "every task, job state, task state and reporting node", "why_tests_cant": "every combination of job state, task state and late or duplicated notice", "anchors": ["internal/coordinator/handlers/started.go: handle", "internal/coordinator/handlers/job.go: markJobAsRunning"]}
{"id": "C58", "title": "Docker: what a run creates it removes", "statement": "Whatever fails and whenever the task is cancelled, before a run of a task returns the runtime has asked the daemon to remove every container it created (except one whose files could not be written into it), every volume of the task's mounts, the private volume of every container that was created, filled and removed, and the network (up to five attempts, last of all); a volume is removed only after the containers using it.", "quantifier": "every task with any number of mounts, pre-tasks, post-tasks and sidecars; every reply of the daemon to every call", "why_tests_cant": "one test per combination of failing call and task shape would be needed", "anchors": ["runtime/docker/docker.go: Run, doRun, removeNetwork", "runtime/docker/tcontainer.go: createTaskContainer, Remove"]}
{"id": "C59", "title": "Docker: order and outcome of a run", "statement": "A run sets up mounts and network, then runs the pre-tasks, the task and the post-tasks one after the other, each in its own container, up to the first that fails, then tears everything down. It succeeds exactly when all of them exited with status 0, and then the task's result is what its own container left in its output file; its sidecars were started and answered their probes before it started and are removed only after it finished. After a failed call nothing follows but removals. A run fails only because of a failed call, a non-zero exit status or a task that cannot run under the configuration.", "quantifier": "every task, configuration and reply of the daemon", "why_tests_cant": "all shapes of tasks times all failure points", "anchors": ["runtime/docker/docker.go: Run, doRun", "runtime/docker/tcontainer.go: Start, Wait, probeContainer"]}
{"id": "C60", "title": "Docker: what containers are given", "statement": "Every container created during a run belongs to the task, a pre- or post-task or a sidecar, with exactly the task's mounts, limits and networks (plus the run's own network). A host directory is bound into a container only if the operator allows bind mounts and lists that directory, and only where the task asks for it; containers are privileged exactly when the operator says so. The only files written into a container are those of the task it was created for: its empty output and progress files, its script, and the files given with it in its working directory.", "quantifier": "every task, configuration and reply of the daemon", "why_tests_cant": "security policy over all task definitions", "anchors": ["runtime/docker/bind.go: Mount, isSourceAllowed", "runtime/docker/tcontainer.go: createTaskContainer", "runtime/docker/volume.go: Mount", "runtime/multi.go"]}
{"id": "C61", "title": "Docker: which credentials are sent", "statement": "When an image is pulled for a task, a user name given with the task is sent with its password, whatever else is configured. Without one, what is sent depends only on what the worker has for the registry named before the first slash of the image: nothing of another registry is ever sent, an image without slash is pulled anonymously, and an image pulled from a registry with an entry in the configuration file (user name and password, or their encoded form) or with a credential helper is pulled with exactly those credentials; a failing helper prevents the pull. (Known exceptions: an image of Docker Hub of the form a/b is pulled with the credentials of a registry called a; identity tokens are sent as passwords.)", "quantifier": "every image name, configuration file, credential helper and login of the task", "why_tests_cant": "names, files and helpers are unbounded; a leak shows only for particular combinations", "anchors": ["runtime/docker/auth.go: getRegistryCredentials, getCredentialsFromHelper, decodeBase64Auth", "runtime/docker/docker.go: doPullRequest", "runtime/docker/reference.go: parseRef"]}
{"id": "C62", "title": "Docker: images while they are used", "statement": "An image that a task was told is available is not removed, neither by pruning nor after a failed verification, before the task has finished; as long as no two names of the same image are in use, it is present at the daemon until then. An image is pruned only when more than the configured time has passed since each request for it that was answered. With verification on, an image is handed out only after a successful verification with no removal since.", "quantifier": "every interleaving of any number of tasks with the puller and the pruner, every failure of the daemon", "why_tests_cant": "races between three kinds of goroutines", "anchors": ["runtime/docker/docker.go: Run, imagePull, puller, doPullRequest, verifyImage, pruner, prune, imageExistsLocally"]}
{"id": "C63", "title": "Shell runtime: order, failure, clean-up, environment, identity", "statement": "A task with a field the shell runtime does not support is refused before anything is done. Otherwise the pre-tasks, the task and the post-tasks run one after the other, each in a directory of its own with its files and script; the run succeeds exactly if every step did, its result is what the task itself left in its output file, and after the first failure (or a cancellation) nothing follows but killing the process and removing its directory, which always happens. The script sees exactly the variables of its task and five set by the worker, nothing else of the environment of the worker. It runs as the configured user and group, or not at all. (Known exceptions: a root worker with both a user and a group configured runs nothing; a file name of the task may lead outside of the directory.)", "quantifier": "every task, every reply of the operating system and every point of cancellation", "why_tests_cant": "failures and cancellations at every point, arbitrary names and values", "anchors": ["runtime/shell/shell.go: Run, doRun, reexecRun, buildEnv", "runtime/shell/setid_unix.go: SetUID, SetGID"]}
{"id": "C64", "title": "Podman runtime: order, failure, clean-up, what containers are given", "statement": "A task without id, image or name, or with sidecars, is refused before anything is done. Otherwise the mounts are provided and the pre-tasks, the task and the post-tasks run one after the other, each in a container of its own; the run succeeds only if every container ended with status 0, and its result is what the task's own container left in its output file; after the first failure nothing follows but clean-up, and the run fails; it fails for no other reason than a failed call, an invalid task or something the operator forbids. Every container, every directory and every volume made is removed by the end. Every container has the image, environment, working directory, entrypoint, networks and mounts asked for and no others; privileges, the host's network and host directories only as the operator allows. (Known exceptions: an image that begins with a dash is taken for an option, and makes a privileged container although the operator forbids it; if a task is delivered again while it runs, its container is never removed and the other run loses its own; a volume whose permissions cannot be changed is left behind.)", "quantifier": "every task, configuration, every reply of podman and the operating system, every point of failure or cancellation", "why_tests_cant": "failures at every point of a long sequence, arbitrary strings in the command line, interleavings of two runs", "anchors": ["runtime/podman/podman.go: Run, doRun, stop, imagePull", "runtime/podman/volume.go: Mount, Unmount", "runtime/multi.go: Mount, Unmount", "runtime/docker/bind.go: Mount"]}
{"id": "C65", "title": "RabbitMQ broker: messages are kept, tasks are handed out once", "statement": "However connections break, processes die and consumers subscribe again: a message published to a queue that exists and is not deleted is waiting in the queue, held by one consumer of that queue, or has been settled; it is settled only if a handler of the queue was called with it and returned (without error: acknowledged, with an error: rejected), or if it is a task delivered before, which goes to the queue of redeliveries instead. A handler is called only with messages of its queue, decoded from exactly what was published; with a task message at most once over all handlers and time. Shutdown returns once the handlers of the coordinator's queues have returned, if no subscription was renewed. (Known exceptions: a message to a queue nobody has subscribed to is lost without an error, although the code's comment promises to create the queue; a task delivered again from the pending queue is sent to the queue named by the task, which is empty, and lost; a redelivered task that cannot be forwarded is lost; a message that cannot be decoded blocks its consumer until the connection breaks; after a renewed subscription Shutdown never returns.)", "quantifier": "every schedule of publishers, consumers, broken channels, subscriptions, deletions of queues and shutdown, any number of each", "why_tests_cant": "interleavings of connection failures with every step of a consumer, unbounded histories", "anchors": ["broker/rabbitmq.go: publish, PublishTask, subscribe, declareQueue, deserialize, DeleteQueue, Shutdown", "internal/coordinator/handlers/redelivered.go: handle"]}
{"id": "C66", "title": "Events through RabbitMQ", "statement": "Whoever subscribes for events with a pattern whose wildcards are whole words gets, through RabbitMQ, every event the in-memory broker would deliver; with a pattern without wildcard exactly the events of that topic; with job.* exactly the topics that begin with job., and the topic job. (Known exception: a wildcard that is only a part of a word matches nothing in RabbitMQ.)", "quantifier": "every pattern and every topic, as byte strings", "why_tests_cant": "two matching algorithms on unbounded strings", "anchors": ["broker/rabbitmq.go: SubscribeForEvents, PublishEvent, declareQueue", "internal/wildcard/wildcard.go: Match"]}
{"id": "C67", "title": "Container logs", "statement": "If the connection to the Docker daemon delivers the header and the data of each piece of output whole, the log of a task (task log, and the logs of a probe) gets exactly the bytes the container wrote to stdout and stderr, in that order, provided that no piece is larger than 32 KiB; of a larger piece the first 32 KiB; and a prefix of that if the connection breaks. The copying ends when the stream ends, and allocates no more than the largest piece. The text of the error of a failed task is what the last lines say if they have at most 512 bytes together. Known exceptions: longer error texts are cut at the ends of the buffer; a connection that delivers a piece in several parts makes the reader take data for headers: the log is wrong and the container decides how much memory (up to 4 GiB) the worker allocates.", "quantifier": "all outputs of a container on both streams, all sizes of pieces and buffers, all points at which the connection breaks, all ways a connection may split its data", "why_tests_cant": "the bytes and how the network cuts them into reads are arbitrary; tests use a handful of whole frames", "anchors": ["runtime/docker/docker.go: dockerLogsReader.Read", "runtime/docker/tcontainer.go: Wait, probeContainer"]}
{"id": "C68", "title": "Engine life cycle", "statement": "Whichever goroutines call Start, Run, Terminate, SetMode, the Register functions and State of an engine, and whenever signals arrive: once Start has succeeded every further Start, Run, SetMode and registration panics and changes nothing; worker and coordinator are stopped at most once, and only after a signal or a Terminate; when Terminate or Run returns, no worker and no coordinator runs; a Terminate that has begun is at most five steps of the engine from its return if no signal comes first. Known exceptions: the state TERMINATING can never be observed; a Terminate called after a signal never returns and blocks every other call but Run; a failed start of a standalone engine leaves the worker running, and after a second Start Terminate stops only one of two workers.", "quantifier": "all numbers of goroutines, all sequences and interleavings of calls, all moments of signals and failures of components, all modes", "why_tests_cant": "the interleavings of calls, signals and the engine's own goroutine are unbounded; tests run one sequence", "anchors": ["engine/engine.go: New, State, Start, Run, Terminate, SetMode, Register*, runCoordinator, runWorker, runStandalone, awaitTerm"]}
{"id": "C69", "title": "Only authenticated requests are served", "statement": "With basic authentication enabled, a request reaches an end point only if an Authorization header gives the name and the password of an existing user, and it is that name the end points see; with key authentication, only if it gives the key, except for /health; the right credentials are accepted; without authentication everything is served, on nobody's behalf. A user created through the API can log in with the name and password given, white space around them removed. Known exceptions: with both kinds enabled every request with one Authorization header is refused; a disabled user is still let in; a user whose name contains a colon can be created but never log in.", "quantifier": "all requests (paths, any number of Authorization headers with any contents), all configurations, all user tables, all base64 and password hash functions", "why_tests_cant": "headers and user tables are arbitrary; tests try a few credentials", "anchors": ["engine/coordinator.go: echoMiddleware, basicAuth, keyAuth", "internal/coordinator/api/api.go: NewAPI, createUser", "datastore/postgres/postgres.go: GetUser, CreateUser"]}
{"id": "C70", "title": "A task is handed to a worker at most once", "statement": "In every run of the whole system — any number of coordinators, workers, users and schedules, operations that fail before, half-way or after they take effect, goroutines that die at any point, messages lost, reordered, redelivered — no task id is handed to a worker twice (a retry is a new task with a new id), and no message that could still bring a task to a worker is about a task a worker has seen or about the same task as another such message, provided the broker itself does not deliver twice a message that asks for a task to be scheduled or carries it to a worker. Known exception: if it does deliver the scheduling request twice, the task runs twice, because scheduling does not look at the task's state.", "quantifier": "all environments, all interleavings, all fault patterns, all crash points, runs of any length", "why_tests_cant": "the number of interleavings and fault patterns is unbounded; tests run one of them", "anchors": ["internal/coordinator/handlers/pending.go: handle", "internal/coordinator/scheduler/scheduler.go", "internal/coordinator/handlers/completed.go", "internal/coordinator/handlers/error.go", "internal/coordinator/handlers/redelivered.go", "internal/worker/worker.go: doHandleTask"]}
{"id": "C71", "title": "Configuration: variables override the first file that exists", "statement": "After a successful load, for every set of environment variables none of which sets a path that leads to what another one sets: at every path set by a TORK_ variable (prefix removed, lower case, underscores as dots) the configuration holds the value of the last variable for that path, whatever the files contain and in whatever order the program meets the variables; at every path on which no variable has a say the configuration is that of the first file that exists among the searched ones (the one named by TORK_CONFIG, or the four defaults in order), and of no other. Loading fails exactly if that first file is unreadable or TORK_CONFIG names a missing file. Every path of keys made of lower-case letters, digits and hyphens can be set by a variable; no path containing an underscore can. Getters give the default exactly if nothing is set; lists are split at commas.", "quantifier": "every environment, every file system contents, every iteration order of Go maps, every path and default", "why_tests_cant": "The number of environments, files and paths is unbounded, and Go's map iteration order is random: a test sees one order.", "anchors": ["conf/conf.go: LoadConfig, StringDefault, StringsDefault, IntDefault, BoolDefault, Strings", "engine/datastore.go (keys with underscores)"]}
{"id": "C72", "title": "What is announced about jobs is true, and completions are announced exactly once", "statement": "In every history - with crashes, failing and half-failing operations, lost, duplicated and redelivered messages - every job event published says COMPLETED or FAILED under the topic of that state; a job announced as completed is COMPLETED in the database from then on, with exactly the announced result, which never changes again; a job announced as failed was FAILED and left that state only by a requested restart; no job is announced both ways unless its restart is requested; the completion of a job is announced at most once. If no operation fails and no goroutine crashes (messages may be lost or delivered twice), then once all goroutines have returned the completion of every COMPLETED job that is not a sub-job has been announced exactly once. Cancelled jobs are not announced at all; a failure may be announced several times.", "quantifier": "every well-formed environment, every history of the whole system (schedules, faults, crashes, duplications), every job", "why_tests_cant": "Whether the job still is in the announced state, and whether somebody else announces it too, depends on what all other goroutines do between the database update and the publication; a test sees one interleaving.", "anchors": ["internal/coordinator/handlers/job.go: completeJob, failJob", "internal/coordinator/handlers/completed.go", "internal/coordinator/handlers/error.go", "broker/broker.go: TOPIC_JOB_COMPLETED, TOPIC_JOB_FAILED"]}
{"id": "C73", "title": "Waiting for a job returns the outcome of that job", "statement": "With any number of clients that POST a job with `wait`, in every interleaving of requests, event handlers and publications: an outcome written to a response was published, is final, and is the outcome of the job submitted by the request whose handler wrote it; a request that is released by its handler (not by timeout, disconnection, shutdown or refusal) carries the outcome of its own job; once the outcome was published, the wait ends as soon as the handler has worked off its events, provided no event was handled before the id of the job was fixed. The process can crash by closing the channel twice, and a client can read the outcome of a job of somebody else, only under the conditions stated: two outcomes of one job published; the other request had given up. The three violations of what users expect (event handled too early: the job never answers; two job.failed events: the coordinator ends; late outcome: another client reads it) are proved reachable.", "quantifier": "every number of requests, every interleaving of their goroutines with events of any jobs, every reuse of request contexts", "why_tests_cant": "The id of the job is made up without synchronisation by whichever goroutine asks first, and the response is written by a goroutine that outlives the request; which interleaving happens is up to the scheduler.", "anchors": ["internal/coordinator/api/api.go: createJob (wait)", "input/job.go: Job.ID, Job.ToJob", "engine/engine.go: SubmitJob"]}
{"id": "C74", "title": "Concurrent transactions act as if run one after the other", "statement": "Whatever the interleaving of the statements of any number of datastore transactions (updates of tasks and jobs, completion of branches of parallel tasks and of top-level tasks), with insertions, deletions and reads in between and with transactions ending by success, refusal or disconnection at any point: the rows that are committed are those of running the successful transactions one after the other, each with the result its caller was given; nothing a transaction wrote shows before it succeeds, nor at all if it does not. So the database only does single steps of the coordinator model. Transactions that lock rows in increasing order, as those do, never block each other for good. Of the branches of a parallel task that complete at the same time exactly one is told it is the last.", "quantifier": "every number of concurrent transactions, every interleaving of their statements, every point of failure", "why_tests_cant": "Isolation depends on which rows are locked when; a test runs a handful of interleavings at best.", "anchors": ["datastore/postgres/postgres.go: WithTx, UpdateTask, UpdateJob", "internal/coordinator/handlers/completed.go: completeParallelTask, completeTopLevelTask"]}
{"id": "C75", "title": "The connection pool and updating jobs", "statement": "Any number of callers update jobs (each update keeps one connection for its transaction, and needs a second one to look up the creator of the job while it holds the row of the job). With fewer callers than `max_open_conns`, some caller that has begun can always go on, and without new calls all end after boundedly many steps. With as many callers as connections (defect) the datastore can come to a standstill, even if all update the same job: no caller can go on, no other query is served, forever.", "quantifier": "every number of callers, every pool size, every interleaving, every choice of jobs", "why_tests_cant": "The standstill needs as many simultaneous updates as the pool has connections, at a particular point each.", "anchors": ["datastore/postgres/postgres.go: UpdateJob, GetUser, WithTx, get", "engine/datastore.go: max_open_conns", "internal/coordinator/coordinator.go: Start"]}
{"id": "C76", "title": "Completing children of a loop, statement by statement", "statement": "The statements of any number of goroutines that complete tasks (children of loops with the second connection that releases the next child, branches, top-level tasks) and update jobs are interleaved in any way, with row locks, a connection pool, failures and cancellations of tasks and crashes at every point. A child is completed at most once; the counter of a loop is the number of its children completed; exactly one caller is told it completed the last child. At most `concurrency` children are released and unfinished, plus one for every transaction that died after releasing a child, plus one while a transaction is about to complete another child. With fewer goroutines than connections some goroutine that has begun can always go on, and all end after boundedly many steps. Defects, proved reachable: a crash after the release exceeds the limit for good; a child cancelled while it is being released becomes PENDING again; as many goroutines as connections can come to a standstill by completing children of one loop.", "quantifier": "every number of goroutines, loops, children, connections; every interleaving, every crash point", "why_tests_cant": "The window between the two connections of one completion is a few milliseconds wide; tests run one completion at a time.", "anchors": ["internal/coordinator/handlers/completed.go: completeEachTask, completeParallelTask, completeTopLevelTask", "datastore/postgres/postgres.go: WithTx, UpdateTask, UpdateJob, GetNextTask"]}
{"id": "C77", "title": "A stopped job and the executions of its tasks", "statement": "Any number of coordinator handlers (those that stop a job by cancelling or failing it, and those of announced task starts), workers and their cancellation handlers run interleaved. As long as the job is SCHEDULED or RUNNING no execution of its tasks is cancelled. A task that a worker receives after the job has stopped does not go on running: when no message is left to be handled, its execution is over or has been cancelled. The same holds for a task whose row names its node when the job is stopped. It does not hold in between: if the handler of the start reads the job before, and writes the node after the job is stopped, nobody ever tells the worker; nor if the stopping handler dies between writing the row of a task and telling its node, nor if one worker receives a task twice, nor if the row names a node that has died.", "quantifier": "every number of tasks, executions, workers, handlers; every interleaving, duplicate announcement, crash of handlers and workers", "why_tests_cant": "The window between reading the job and writing the row is milliseconds wide and lies in two processes.", "anchors": ["internal/coordinator/handlers/cancel.go: handle, cancelActiveTasks", "internal/coordinator/handlers/started.go: handle", "internal/coordinator/handlers/job.go: failJob", "internal/worker/worker.go: cancelTask, runTask, doHandleTask", "internal/syncx/map.go"]}
{"id": "C78", "title": "One instance per tick of a schedule", "statement": "Any number of coordinators try each tick of a schedule; each tries to get the lock of the schedule, creates an instance if it gets it and keeps the lock for at least ten seconds. If the attempts for one tick are never more than ten seconds apart and no coordinator dies, a tick creates at most one instance; if, further, no run keeps the lock until the next tick, a tick that was tried and whose run did not fail creates exactly one, and a coordinator is refused the lock only because another one has the same tick. Clocks further apart, a death while the lock is held, and runs longer than the time between two ticks break this.", "quantifier": "every number of coordinators, every schedule and clock skew within the bounds, every interleaving", "why_tests_cant": "Needs several coordinators with different clocks over minutes; the bound must hold for all skews.", "anchors": ["internal/coordinator/handlers/schedule.go: glocker.Lock, glock.Unlock, handleActive, minScheduledJobLockTTL", "locker/locker.go"]}
{"id": "C79", "title": "A cancellation reaches the whole tree of jobs and comes to an end", "statement": "Handling the cancellation of a job sends cancellations to the job of its parent task and to the sub-jobs of its active tasks. In whatever order these are handled, their number is bounded, each of them can be handled without an error, and when none is left exactly the jobs connected with the cancelled one that were SCHEDULED or RUNNING are CANCELLED, all active tasks of the connected jobs are CANCELLED, exactly the nodes running such tasks have been told, and nothing else has changed. The cancellation a sub-job sends back can undo a restart of the parent job made in between.", "quantifier": "every forest of jobs and tasks of any depth, every order of handling", "why_tests_cant": "Trees of any depth and all orders of messages; termination cannot be tested.", "anchors": ["internal/coordinator/handlers/cancel.go: handle, cancelActiveTasks"]}
{"id": "C80", "title": "What is executed comes from the definition", "statement": "Every stored task, and every task handed to a worker, was made from the definition of its job: it is the top-level task defined at its position, a branch or the loop body of a stored task, or an earlier attempt, with its templates evaluated in a context that job had at some moment (its inputs, secrets, and results recorded so far, each of them the result of a task of that job with that variable). What is handed to a worker is the work of the stored task with that id. Templates reach only the texts they are meant for: script, entrypoint, files, mounts, networks, registry, GPUs, tags and working directory are word for word those of a task written in the definition. The first attempt of a top-level task is its definition evaluated once, in a context its job had while it was at that task. Tasks, inputs, output and secrets of a job are those of a request, a schedule or the sub-job section of a stored task.", "quantifier": "every job definition, every result text, every interleaving of any number of goroutines, every failure, crash, loss, duplication and redelivery", "why_tests_cant": "Result texts are arbitrary, and which value, attempt or copy of a task a goroutine uses depends on the schedule; a test sees single histories.", "anchors": ["internal/coordinator/handlers/job.go: startJob, restartJob", "internal/coordinator/handlers/completed.go: completeTopLevelTask", "internal/coordinator/handlers/error.go: handle", "internal/coordinator/scheduler/scheduler.go: ScheduleTask", "internal/eval/eval.go: EvaluateTask", "internal/worker/worker.go: doHandleTask"]}
{"id": "C81", "title": "One task after the other", "statement": "While nothing exceptional happens in the life of a job (no restart, no new attempt of a top-level task, no duplicated message that sets an already ended task to work again), at most one of its top-level tasks is at work at any time, and it is the task at the job's position; no top-level task is made twice, none is made before all earlier ones have ended, and the job moves on exactly in the step that ends its only active task and records that task's result. For a job without parallel and each tasks the variables are those of a sequential run: starting from no variables, each task is its definition evaluated with the results of the tasks before it, and its result is then recorded under its variable. When such a job is COMPLETED, all its tasks have run this way and its result is its output evaluated in the final context.", "quantifier": "every job, every result text, every interleaving of any number of goroutines, every failed operation, crash, loss, reordering and duplication of messages that is not one of the exceptional events named in the statement", "why_tests_cant": "A second active task, a task made early, or a result that overwrites a later one appear only under particular interleavings of handlers, crashes and redeliveries; a test sees single histories.", "anchors": ["internal/coordinator/handlers/job.go: startJob", "internal/coordinator/handlers/completed.go: completeTopLevelTask", "internal/coordinator/handlers/pending.go: handle", "internal/coordinator/scheduler/scheduler.go: ScheduleTask", "internal/coordinator/handlers/started.go: handle", "internal/coordinator/handlers/error.go: handle"]}
{"id": "C82", "title": "Results are what the work produced", "statement": "The result of a COMPLETED task that is neither parallel nor each nor a detached sub-job is what a worker ended with when it ran this very task (without middleware in the worker: what the run returned, and that run did not fail), or, for a task with an attached sub-job, the output the sub-job is defined with, evaluated in a context the sub-job had when it had passed its last task. The result of another task, of a failed run, or of no run at all is never stored. (Only NUL characters are dropped, as the database cannot hold them.)", "quantifier": "every task, every result text, every interleaving of any number of goroutines, every failed operation, crash, loss, reordering, duplication and redelivery of messages, every worker and every middleware", "why_tests_cant": "That no report is ever mixed up with another (an earlier attempt, a duplicate, a report that crosses a restart, a sub-job's report) is a statement about all histories; a test sees the reports it sends.", "anchors": ["internal/worker/worker.go: handleTask, doHandleTask", "internal/coordinator/handlers/completed.go: completeTopLevelTask, completeEachTask, completeParallelTask", "internal/coordinator/handlers/job.go: completeJob", "internal/coordinator/scheduler/scheduler.go: scheduleSubJob"]}
{"id": "C83", "title": "Concurrent calls of the cache take effect one after the other", "statement": "Whatever goroutines call the cache at the same time, there is an order in which their calls take effect one after the other, each exactly once: every answer is the one a cache with a single caller gives, a call that had returned before another was made comes before it, and the entries now in the cache are those the calls leave in this order. The time that decides about expiration is a time during the call. Clean-up removes entries one at a time; if nobody calls SetExpiration, it removes entries that have expired, and no others.", "quantifier": "any number of goroutines, calls, keys, values and functions given to Modify, every interleaving of the steps between the locks, every clock, every order in which clean-up visits the entries", "why_tests_cant": "Lookup and use of an entry are under different locks, so an entry can be replaced, deleted or cleaned up between them; only certain interleavings show it, and a test does not control them.", "anchors": ["internal/cache/cache.go: SetWithExpiration, SetExpiration, set, Modify, Get, Delete, deleteExpired, Flush"]}
{"id": "C84", "title": "A job is a sequential program, its sub-jobs are procedure calls", "statement": "A job of tasks that are neither parallel nor each tasks computes what a sequential interpreter computes that knows nothing of messages, workers that crash or a database: take the task definitions one after the other, evaluate each in the variables so far; if its condition is then false, skip it; if it has a sub-job, run the tasks of the sub-job in the same way, with variables of their own that start with the sub-job's inputs and secrets only, and record the sub-job's output, evaluated in the variables they end with, under the variable of the task; otherwise let a worker run it once, and record what it ends with under its variable. When the job is COMPLETED the interpreter has run all its definitions, and the job's result is its output evaluated in the variables it ends with. Hence, if what a worker ends with depends on the work alone and the value of a template on the variables alone, the result of a job is determined from the moment it is stored: no order, delay, duplication or redelivery of messages, and no interleaving, changes it. (For sub-jobs that are not detached, to any depth; for histories without retry, restart and the exceptional events named in C81 in the life of the job and the jobs within it, and values without NUL characters, which the jsonb column refuses.)", "quantifier": "every job of such tasks (any number, with sub-jobs nested to any depth), every script, condition and template, every worker and middleware, every interleaving of any number of goroutines, every failed operation, crash, loss, reordering, duplication and redelivery of messages in an ordinary history", "why_tests_cant": "Independence of the schedule is a statement about all pairs of histories; a test compares the few it happens to produce.", "anchors": ["internal/coordinator/handlers/completed.go: completeTopLevelTask", "internal/coordinator/handlers/pending.go: handle, skipTask", "internal/coordinator/handlers/job.go: startJob, completeJob", "internal/coordinator/scheduler/scheduler.go: scheduleAttachedSubJob", "internal/worker/worker.go: doHandleTask", "internal/eval/eval.go: EvaluateTask"]}
{"id": "C85", "title": "The log of a running container", "statement": "While a task of the Docker or the shell runtime runs, its output is copied to its log in the background. Whatever the timing, what is copied is the output from its beginning, in order, with nothing skipped, and for a task without a probe nothing is there twice; a copy that has come to the end of the stream is the whole output; and once the task has ended the log gets at most the one piece that is in transit. Known exceptions: what a task with a probe writes before the probe answers is in its log twice; and nobody waits for the copying to finish, so a task may be completed although some or all of its output never gets into its log.", "quantifier": "every output, every interleaving of the container, the runtime and the copying goroutines, every point at which a connection breaks, a probe times out or waiting fails", "why_tests_cant": "How far the copying has come when the container ends is a matter of the schedule; a test sees one schedule, and with little output nearly always the same.", "anchors": ["runtime/docker/tcontainer.go: Start, Wait, probeContainer", "runtime/shell/shell.go: doRun"]}
{"id": "C86", "title": "Progress reports of a running task", "statement": "The progress a running task writes to its file is reported to the coordinator: what is reported is what was read, in that order, a report is made when and only when the value has changed, at any time the last report made is the last value that could be read, nothing is reported once the file is gone, and what is stored is a percentage. Known exceptions: a report that cannot be published is not made again until the value changes, so the coordinator may never hear of it; a file that says \"nan\" is reported at every turn and, with the broker in memory, stored: the progress of the task is then not a percentage; a file of white space only is 0 for Docker and the shell and an error for Podman.", "quantifier": "every sequence of contents of the file, of failures to read it and of failures to publish, all three runtimes, both brokers, whatever numbers the library reads", "why_tests_cant": "The contents and the failures form arbitrary sequences; a test writes one number and waits once.", "anchors": ["runtime/docker/tcontainer.go: reportProgress, readProgress", "runtime/podman/podman.go: reportProgress, readProgress", "runtime/shell/shell.go: doRun, readProgress", "broker/rabbitmq.go: serialize", "internal/coordinator/handlers/progress.go: handle"]}
{"id": "C87", "title": "Starting the servers", "statement": "When the server of a worker or of the coordinator is started at a configured address and the start reports success, that address answers, and unless another process answers there it is this server that does; if it reports that the address is in use, another process holds it. Without a configured address, if no other process answers at any of the ports and one of them is free, success means that this server listens at the first port of the range that nobody holds. The server never listens at a port that another process holds, and an address is tried at most 100 times. Known exceptions: if another process answers at the address and the server's goroutine is late, the start reports success although this server never listens; and if all ports of the range are held by others it reports success without any server.", "quantifier": "every set of ports that other processes hold or answer at, every range, every interleaving of the server's goroutine with the start, every time-out of a connection attempt", "why_tests_cant": "The race between binding and the first connection attempt is decided by the scheduler; a test starts on an idle machine with free ports.", "anchors": ["internal/httpx/httpx.go: StartAsync", "internal/netx/netx.go: CanConnect", "internal/worker/api.go: start", "internal/coordinator/api/api.go: Start"]}
{"id": "C88", "title": "Shutting the broker in memory down", "statement": "When the shut-down of the broker in memory has returned before its context ended, no handler of a queue of the coordinator that was subscribed when it was called is running, and none is ever called again, whatever is published; no handler is interrupted: a subscription takes another message or ends only after its handler has returned. Known exceptions: handlers of other queues (the workers') are not waited for and may go on taking messages after the shut-down; and a second call of the shut-down returns at once, while handlers are still running.", "quantifier": "every number of queues, subscriptions, messages and publishers, every interleaving, subscriptions made and messages published before, during and after the shut-down", "why_tests_cant": "Which of a message and the signal to end a subscription takes is chosen at random; a test sees one choice.", "anchors": ["broker/inmemory.go: Shutdown, queue.close, queue.subscribe"]}
{"id": "C89", "title": "CPU limits are exact", "statement": "A task whose CPU limit is a whole number of billionths of a CPU (within 64 bits) runs in a Docker container with exactly this limit, so different limits are never confused; a limit that is no number, or is finer than a billionth, is refused, never rounded; without a limit there is none. Known exception: a limit beyond 64 bits is not refused but taken modulo 2^64: it may become a different one, or none at all.", "quantifier": "every limit, whatever rational number the library reads from it", "why_tests_cant": "The numbers are unbounded; a test uses a few decimal fractions.", "anchors": ["runtime/docker/docker.go: parseCPUs"]}
{"id": "C90", "title": "Capacity and heart beat of a worker", "statement": "At no time does a worker run more tasks of a queue than the concurrency it was configured with for it — none of a coordinator's queue, none of a queue it was not configured with, one at a time of `default` if it was configured with none — nor more in all than these together. Every heart beat carries the number of tasks that were going on when it was read. Once `Stop` has got past telling the heart beat to end, none is sent. Known exceptions: a second `Stop`, or one on a worker whose `Start` has not come to its end, waits for ever.", "quantifier": "every configuration of queues, every interleaving of subscriptions, tasks, heart beats and calls of Stop, every number of times a middleware runs the task", "why_tests_cant": "How tasks, heart beats and Stop overlap depends on the schedule; a test sees a few tasks.", "anchors": ["internal/worker/worker.go: NewWorker, Start, Stop, runTask, sendHeartbeats", "broker/queues.go: IsWorkerQueue, IsCoordinatorQueue"]}
{"id": "C91", "title": "Roles and who has them", "statement": "A user has a role exactly from a successful assignment on until it is unassigned, whatever else happens to other users and roles; a second assignment, or one of an unknown role or to an unknown user, is refused and changes nothing; each role is listed once. A job whose only permission is a role is shown to a user exactly as long as the user has that role. A role is found under its slug, and it alone. Known exception: a role whose slug is the id of another may be confused with it.", "quantifier": "every history of creations of users and roles, assignments and unassignments, from every content of the tables the schema allows", "why_tests_cant": "Histories are unbounded; a test makes a few assignments.", "anchors": ["datastore/postgres/postgres.go: CreateRole, GetRole, GetUserRoles, AssignRole, UnassignRole, GetJobs"]}
{"id": "C92", "title": "The files of a task on their way into its container", "statement": "What a reader of the archives handed to Docker finds is exactly the files that were written: each file of the task, readable by all, with its name and its contents byte for byte, and no other; for `/tork` an empty writable `stdout` and `progress`, and the script of the task, if it has one, as an executable `entrypoint` — in whatever pieces Docker reads the archive. If a name cannot be written, there is no archive. Known exception: the archives are never closed, so that one may end in the middle of a block, which the format does not allow (Go's reader does).", "quantifier": "every number of files, of whatever names and lengths, in every order of Go's map; every sequence of reads", "why_tests_cant": "Files, lengths and pieces are unbounded; a test copies one short file.", "anchors": ["runtime/docker/archive.go: NewTempArchive, Read, WriteFile", "runtime/docker/tcontainer.go: initTorkdir, initWorkDir"]}
{"id": "C93", "title": "Metrics", "statement": "The metrics give the number of jobs that are running, the number of running tasks of running jobs, each counted once, the number of nodes that are listed as active, and the average of their loads (0 without nodes; a percentage if each load is one), each as of the moment of its query. Known exception: the queries are not one transaction, so the numbers need not belong together (a running task without a running job).", "quantifier": "every content of the tables at each of the four moments", "why_tests_cant": "The tables are unbounded and change between the queries.", "anchors": ["datastore/postgres/postgres.go: GetMetrics", "internal/coordinator/api/api.go: getMetrics"]}
