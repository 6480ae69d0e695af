# Formal model of runabol/tork in Lean 4

## 1. Approach

The Go code is modelled function by function in Lean 4 (`lean/Verif/*.lean`).
Pure code (wildcard, redaction, template evaluation, validation, pagination, cache …) is
modelled as total functions. The coordinator handlers are modelled as *programs* over an
operation interface (`Prog`): each program is a tree whose nodes are one datastore
transaction, one broker publish, one read of the clock / random source, or one UUID
generation. The same programs are given

* a deterministic, atomic semantics (`run`), with the clock/random/fault source an
  arbitrary oracle (so `∀ oracle` = every outcome), used for "what does handling this
  message do" properties, and
* an interleaving small-step semantics (`Step`): any number of handler threads, each
  performing one operation at a time, with threads dying at any point (crash), operations
  failing without effect, and operations failing *after* taking effect (lost
  acknowledgement), used for "in every interleaving / crash point / history" properties.

Each property Cxx has a theorem file `lean/Verif/Props/*.lean` where the statement only uses
the model's API functions plus a small specification given beside it. Helper lemmas live
elsewhere.

## 2. Conventions and simplifications common to all modules

* Go `map[string]string` = association list; list order stands for the arbitrary Go iteration
  order, theorems hold for every order.
* Pointers = `Option`; time = `Nat` ticks; `float64` progress = exact rational.
* UUIDs = `Nat` (0 = ""), `uuid` returns a never-used number (collision-freedom is assumed).
* The expression language (expr-lang) is an uninterpreted oracle parameter: all theorems hold
  for every behaviour of it.
* `WithTx`/`UpdateX` transactions are atomic (Postgres row locks `select … for update` give
  serialisable read-modify-write for the rows they touch; proved from the semantics of row
  locks in C74, except for the completion of an `each` child). SQL statements are modelled by
  their relational meaning over row lists.
* JSON serialisation is assumed to be a faithful round trip of the fields.
* Logging is not modelled.

## 3. Property plan

| Id | Model | Proof |
|----|-------|-------|
| C01–C03 | `Prog` handlers, interleaving semantics | per-operation invariant "every write respects the edge relation", lifted to every reachable state by induction on steps; start-token invariant for PENDING |
| C04 | same | per-op invariant on task rows; the unguarded scheduler writes are exhibited as a negation |
| C05, C06 | completed/job handlers | `run` equation for completions, for all positions/lengths; invariant over histories |
| C07 | progress/completed | rational arithmetic, ∀ values |
| C08, C09 | error handler | per-op invariant attempts ≤ limit over every interleaving; case theorem for eligibility |
| C10 | error/job/cancel handlers | induction over the list of active tasks |
| C11–C14 | completed/scheduler; C13 also in whole systems (`OnceWorld.lean`) | C13: logic of rights, see C70; counter invariants by induction on the completion history (`Props/Joins.lean`: over every history a parallel / each / sub-job task becomes COMPLETED only after its children did); C14 negation witness |
| C15 | pending handler | case theorem |
| C16 | scheduler/job/cancel | case theorems |
| C17 | scheduler | case theorem against a declarative `firstSet` spec |
| C18 | redelivered handler + RabbitMQ redelivery | induction over redeliveries |
| C19 | worker with arbitrary middleware/runtime as oracle | case theorem |
| C20 | completed handler | map laws |
| C21 | datastore expunge over row lists | ∀ database |
| C22, C23, C55 | datastore listing | list induction |
| C24 | wildcard DP | DP table = recursive matcher = declarative spec |
| C25 | redact | structural induction on tasks |
| C26 | encrypt/decryptSecrets with abstract AEAD | ∀ maps/keys; AES-GCM assumed: decrypt∘encrypt = id |
| C27 | clone | structural induction; heap model for aliasing, negation for shared slices |
| C28 | eval | regex model for `{{…}}`, structural induction |
| C29, C30 | validation / conversion | structural induction |
| C31, C32 | in-memory broker LTS | history invariants |
| C33 | lockers | invariants over op histories |
| C34 | cache | refinement to abstract map with expiry |
| C35 | log shipper | invariant over events |
| C36 | heartbeat | permutation/monotonicity induction |
| C37 | middleware | induction on the chain |
| C38, C39 | webhook | induction on responses |
| C40 | scheduled jobs | LTS invariant |
| C41, C42, C54 | API guards | case theorems |
| C43–C45 | handlers | `run` twice; crash-point theorem from atomic op |
| C46 | cleanup interval | induction |
| C47 | health | list induction |
| C48 | records | field laws |
| C49 | parseQuery | list induction |
| C50, C51 | hostenv, multi mounter | induction |
| C52 | interleaving semantics without faults | regular tasks: invariant "every active job has an outstanding message"; composite tasks: ghost edges parent–child and tokens, invariant "every open place (job at a position, composite task) has as many tokens and open children as it still needs", preserved by every handler (`Flow*`) |
| C53 | image reference parser | string parsing lemmas |
| C54 | `createUser` endpoint and row | exact effect of one call: trimmed name, hash only, refused duplicates |
| C55 | listing against the permission rows | membership in a listing iff the permission specification holds |
| C56 | cancel handler at message level | exact rows and messages, by the cancellation loop lemma |
| C57 | `startedHandler` at message level | exact rows and messages, case split on the job state |
| C58 | Docker runtime as a program over daemon calls with arbitrary replies | invariant of the parts of a run, by induction on mounts, sidecars and sub-tasks |
| C59 | same | decomposition of every run into attempts; "nothing but removals after a failure" as a compositional invariant |
| C60 | same | every creation call and every file written in every run, by induction over the program |
| C61 | look-up of credentials with arbitrary helpers, on top of C53 | non-interference: hosts that agree on one registry give the same result; exact results per kind of entry |
| C62 | transition system of task goroutines, puller and pruner | invariants over all traces |
| C63 | the runtime as a program over calls of the operating system with arbitrary replies; the environment as lists of entries; setuid(2), setgid(2) | invariant of the parts of a run, by induction on pre- and post-tasks; look-up lemmas for the environment |
| C64 | the runtime as a program over calls of podman and the operating system with arbitrary replies; a separate grammar of the command line of podman create | program logic for the parts of a run (Outcome), induction on mounts, pre- and post-tasks; parser lemmas; concrete interleavings for the exceptions |
| C65 | client code and the assumed AMQP server as a labelled transition system; observations are labels | inductive invariants over all traces: place of every message, calls counted, reason of every settlement; the exceptions as theorems about reachable states |
| C66 | translation of patterns to binding keys; routing of a topic exchange as an inductive relation on words; the in-memory matcher | induction on words of the pattern, characterisation of splitting at dots |
| C67 | `DockerLogs.lean`: the frames of the daemon, `io.Reader` as a relation (any contract-abiding reads), `dockerLogsReader.Read`, `io.Copy`, `io.ReadAll` | induction on the copying; inversion of one read; counterexamples as theorems |
| C68 | `Engine.lean`: labelled transition system of callers, lock, state, shutdown goroutine and components | invariants over runs of any length; defects by reachable runs and invariants |
| C69 | `Auth.lean`: the middleware chain, echo's parsing of the header, the look-up of the user in the relational store `Rel`; base64 and bcrypt are parameters | characterisation of every function by an equivalence, composed |
| C70 | `OnceWorld.lean`: the steps of `World.lean` with the tasks handed to workers, and with the restrictions of three kinds of systems | a logic of rights (`Once*.lean`): each message and goroutine holds rights that are handed on and never copied; every handler is proved in the logic; invariant over runs of any length |
| C71 | `Config.lean`: koanf's trees, merge, unflattening and env provider, `LoadConfig`, the getters | 4-way characterisation of planting a value in a tree; entries whose paths are incomparable give the same tree in every order; induction on the list of files |
| C72 | `JobEvents`, `Frozen`, `Announce`: the handlers and the world of `Handlers.lean`, `World.lean`, steps labelled with what they publish | two program logics: `Tells` (knowledge about the database that survives interference, plus the right to announce a completion, gained by completing the job) and `Duly` (completing obliges to announce); invariants over labelled histories |
| C73 | `Wait`: transition system of requests, handlers, the lazily made id, response contexts | inductive invariants (names, events, phases, contexts, hits, tokens counting outcomes); defects as explicit runs |
| C74 | `TwoPhase`: transactions as programs of statements `select … for update` / `update`, row locks, read committed; `TxLink`: the coordinator's transactions written that way, related to `DS` | two-phase-locking invariant: replay of the log of ended transactions gives the committed rows; rank argument for progress; counting for the last branch |
| C75 | `Pool`: transition system of callers, connections, row locks | invariant counting connections per caller; pigeonhole; measure; explicit stuck states for every pool size |
| C76 | `EachTx`: transition system of goroutines, row locks, connections, tasks, counters | inductive invariants (connections, locks, rows, counts, limit); rank argument for progress; explicit stuck states and runs for the defects |
| C77 | `CancelRun`: transition system of the handlers, the worker's map, rows and queues | inductive invariants (map, calm, late, single, shown); explicit executions for the failures, and an invariant that they are final |
| C78 | `Ticks`: timed transition system of coordinators and the lock | inductive invariants over time; explicit runs for the limits, for every configuration |
| C79 | the cancel handler of `Handlers`, run on a database and the set of pending cancellations | invariant over the set of handled jobs, decreasing measure (depth and active tasks) |
| C80 | `World` with all faults; `OriginSpec` says how a task comes about | program logic `Origin` (what every task and job id stands for), one lemma per handler, invariant of all reachable worlds |
| C81 | `World` with all faults; `InOrderSpec` names the exceptional events (`Ordinary`) and says what a sequential run is (`OneByOne`) | invariant `Rows` over all ordinary histories, from the life cycle of tasks and jobs (`DsStep`) and who may create a task at which position (`Rights`, program logic `InOrder`); variables by induction on the history, with the origin of each task (C80) |
| C82 | `World` with all faults; `OriginSpec` says what a worker makes of a task (`RunsTo`, `Worked`) and what a sub-job ends with (`SubOutput`) | field `ends` of the invariant `Origin.Inv`: every message that reports a completion carries a result its sender earned, every COMPLETED row has such a result |
| C83 | `CacheConc`: a transition system, one step per lock-protected section, for any number of calls; the map lock, entries and clock readings | the order is built along the execution (`Inv`): a call that holds an entry which has left the map is put just before the act that removed the entry |
| C84 | `World` with all faults; `InterpSpec`: the interpreter (`Interp`), what it is to be deterministic (`Deterministic`) | induction on the position of the job, from the sequential run of C81, the origin of each task (C80), and what is known of its result once it is COMPLETED or SKIPPED (fields `ends` of `Origin.Inv`, C82); for a task with a sub-job, the same for the sub-job in the history up to the point where its output was evaluated (`HistLog`), by induction on the size of the definitions (evaluation does not change those of a sub-job: `sub_of`); the interpreter is deterministic by induction on its run |
| C85 | `Copying.lean`: the container, the caller (`Start`, `Wait`) and the two goroutines as a transition system over any type of pieces | an invariant of all interleavings (what a goroutine has written and holds is what it has read); what is left after the return by a second induction; the two defects as runs constructed for every output |
| C86 | `Reports.lean`: the loop over any sequence of turns; `float64` with infinities and not-a-number, its comparisons; the special words of `strconv.ParseFloat` | induction on the turns; the stored value by cases |
| C87 | `Serving.lean`: the goroutine, `StartAsync` and the two `start` functions as a transition system over any `Host` | an invariant of all interleavings; the two defects as runs, the second by induction over the range |
| C88 | `Closing.lean`: subscriptions, queues and the goroutine of `Shutdown` as a transition system | an invariant of all interleavings (a subscription of a visited queue has ended); an ended subscription is never called, by induction; the defects as runs |
| C89 | `CpuLimit.lean`: `parseCPUs` over exact rationals, `big.Int.Int64` as the residue of smallest absolute value modulo 2^64 | arithmetic of rationals and of `Int.bmod` |
| C90 | `Capacity.lean`: the subscriptions `Start` makes, their goroutines, the goroutine of the heart beat and `Stop` as a transition system | the number of subscriptions by induction over the configuration; an invariant of all interleavings (the counter is the number of tasks going on) |
| C91 | `Roles.lean`: each operation as a function of the tables of `Rel`, a history as a list of requests | induction over the history; the schema's constraints as an invariant; the visibility clause of `GetJobs` (C23) |
| C92 | `Archive.lean`: the bytes on disk as Go's tar writer leaves them when it is not closed, `Read` as a relation, a tolerant reader as a relation | induction over the files; induction over the reads |
| C93 | `Metrics.lean`: the four queries on the tables of `Rel` and the nodes, each at its own moment | the join against a sub-list of the tasks, by induction; arithmetic of rationals |

## 4. Trusted base

* **Lean 4.33.0's kernel** accepts every theorem. `decide +kernel` is used for closed examples and witnesses: it is the kernel that
  evaluates them. No `native_decide`, no `bv_decide`, no axioms of our own, nothing left unproved.
* **Axioms**: only `propext`, `Classical.choice` and `Quot.sound` (Lean's standard ones). `AXIOMS.md` lists, for each claimed theorem,
  those it depends on.
* **The correspondence between the Lean definitions and the Go sources** is by reading; each definition cites file and lines. The model
  is not extracted from the code.
* **Assumed of the environment** (explicit in the statements as hypotheses or as structure of the model):
  * a datastore transaction is atomic and serialisable with respect to other transactions (derived from row locks in C74, whose assumptions are in `TwoPhase.lean`); a failing transaction
    changes nothing, except that the caller may see an error although it committed (`dbLost`), and except for the nested connection
    in the completion of an `each` child (`dbPartial`); that completion is one step here, its statements are interleaved in C76 (between
    the two commits one child more than the limit is released; a child cancelled at that moment comes back);
  * `uuid.NewUUID` never returns an id in use;
  * the expression evaluator, cron parser, duration parser, hash, cipher, full-text search are arbitrary functions (parameters);
    only decrypt∘encrypt = id is assumed of the cipher;
  * the broker may lose, reorder and duplicate messages. In `World.lean` the one message that starts a job is not duplicated (what
    happens if it is: `C02_duplicate_start_restarts_completed_job`); in `CalmWorld.lean` every message may be duplicated, none is lost;
  * job definitions accepted by the API are `Fresh` (no internal fields set, `Env.WellFormed`; the API's input types cannot set them,
    `C30`), worker middleware keeps the identity of a task.

## 5. What is modelled, and where

| Lean module | Go code |
|---|---|
| `Types` | `/repo/task.go`, `job.go`, `node.go`, `mount.go`, `user.go`, `role.go`, `registry.go`, `permission.go`, `log.go` |
| `Eval`, `EvalSpec` | `internal/eval/eval.go` (regexp `{{\s*(.+?)\s*}}` as a backtracking leftmost-first matcher; expr-lang is a parameter) |
| `DS`, `Rel`, `Query` | `datastore/postgres/postgres.go`, `record.go` (tables as row lists, statements by their relational meaning) |
| `Prog`, `World`, `Drive`, `CalmWorld`, `OnceWorld`, `DriveM`, `DriveOrd` | goroutines of coordinator, API and worker: interleaving of single operations, with and without faults |
| `Clone`, `Heap` | the `Clone` methods; `Heap` with addresses, for aliasing |
| `Handlers` | `internal/coordinator/handlers/*.go`, `internal/coordinator/scheduler/scheduler.go`, wrappers of `internal/coordinator/coordinator.go` |
| `Api`, `Input` | `internal/coordinator/api/api.go` (job, queue, user, schedule end points), `input/*.go` (validation, conversion) |
| `Registry`, worker part of `Handlers`/`Api` | `internal/worker/worker.go` |
| `Webhook`, `Redact`, `HostEnv`, `Middleware` | `middleware/**`, `internal/webhook`, `internal/redact` |
| `Encrypt` | `internal/encrypt`, secret columns of `datastore/postgres` |
| `BrokerQueue`, `BrokerTopic`, `Wildcard` | `broker/inmemory.go`, `internal/wildcard` |
| `Rabbit`, `RabbitTopic` | `broker/rabbitmq.go` (queues, redelivery, renewed subscriptions, shutdown; binding keys of topics) with an assumed AMQP server |
| `Copying` | `runtime/docker/tcontainer.go` `Start`, `Wait`, `probeContainer`: the goroutines that copy the output while the container runs |
| `Reports` | `reportProgress`, `readProgress` of `runtime/docker/tcontainer.go`, `runtime/podman/podman.go`, `runtime/shell/shell.go`; `broker/rabbitmq.go` `serialize`; `handlers/progress.go` |
| `Serving` | `internal/httpx/httpx.go`, `internal/netx/netx.go`, `start` of `internal/worker/api.go` and `internal/coordinator/api/api.go` |
| `Closing` | `broker/inmemory.go` `Shutdown`, `queue.close`, `queue.subscribe` |
| `Metrics` | `datastore/postgres/postgres.go` `GetMetrics` |
| `Archive` | `runtime/docker/archive.go`, `tcontainer.go` `initTorkdir`, `initWorkDir` |
| `Roles` | `datastore/postgres/postgres.go` `CreateRole`, `GetRole`, `GetUserRoles`, `AssignRole`, `UnassignRole` |
| `Capacity` | `internal/worker/worker.go` `NewWorker`, `Start`, `Stop`, `sendHeartbeats`, the counter of `runTask` |
| `CpuLimit` | `runtime/docker/docker.go` `parseCPUs` |
| `DockerLogs` | `runtime/docker/docker.go` `dockerLogsReader.Read` with `io.Copy` and `io.ReadAll` over any `io.Reader` (`tcontainer.go` `Wait`, `probeContainer`) |
| `Engine` | `engine/engine.go` (states, locking, start, termination, signals); a component starts completely or not at all |
| `Auth` | `engine/coordinator.go` `echoMiddleware`, `basicAuth`, `keyAuth` (echo's middleware as documented for v4.13; base64 and bcrypt are parameters) |
| `Config` | `conf/conf.go` (koanf v2's merge, unflattening, env provider and getters as known from that library; TOML parsing and the conversions to truth values and numbers are parameters) |
| `JobEvents`, `Frozen`, `Announce`, `DriveOK` | no further code: program logics over `Handlers`, histories labelled with the messages published |
| `Origin*` | no further code: program logic over `Handlers` in `World`, about where tasks come from |
| `InOrder*` | no further code: program logic over `Handlers` in `World`, about who may create the next task of a job |
| `InterpSpec` | no code: the sequential interpreter that C84 compares a job with |
| `Wait` | `internal/coordinator/api/api.go:319-354` (waiting), `input/job.go:75-80`; not: `Engine.SubmitJob` listeners, HTTP encoding |
| `Props/WaitWorld` | combination of C72 and C73: what the waiting client reads is true of the job in the coordinator model; when the coordinator can crash |
| `TwoPhase`, `TxLink` | `datastore/postgres/postgres.go:485-560` `UpdateTask`, `732-782` `UpdateJob`, `1615-1648` `WithTx` at statement level; `handlers/completed.go` the transactions of parallel and top-level completion; not: `completeEachTask` (see `EachTx`), `DeleteJob` |
| `Pool` | `postgres.go:732-782`, `1591-1648`, `engine/datastore.go` `max_open_conns`: connections held by `UpdateJob` |
| `EachTx` | `handlers/completed.go:62-135` `completeEachTask` with both connections, `138-226` as far as locks go, `postgres.go` `GetNextTask`, `UpdateTask`, `UpdateJob`, `WithTx`; not: retries, creation of children one by one |
| `CancelRun` | `handlers/cancel.go:29-101`, `handlers/started.go:32-77`, `worker.go:87-99` `cancelTask`, `160-184` `runTask`, map of running tasks; stopping a job against starting its tasks; not: restart, sub-jobs, middleware |
| `Ticks` | `handlers/schedule.go:40-59` `glock.Unlock`, `glocker.Lock`, `104-149` as a step; time as a natural number; not: gocron (assumed), pausing (C40) |
| `Cron` | `internal/coordinator/handlers/schedule.go`, the schedule end points |
| `CacheConc`, `CacheLin` | the locking in `internal/cache/cache.go` |
| `Cache`, `Locker`, `LogShipper`, `Health`, `Cleanup`, `NodeStore` | `internal/cache`, `locker/*`, `runtime` log shipper (`broker/log.go`), `health/health.go`, clean-up loop of the datastore, heartbeat handler |
| `Mounter`, `Reference` | `runtime/multi.go`, `runtime/docker/reference.go` |
| `Credentials` | `runtime/docker/auth.go`, `config.go` (fields used), the credentials part of `doPullRequest`; credential helpers, base64 and lower-casing are parameters |
| `Images` | `runtime/docker/docker.go`: `imagePull`, `puller`, `doPullRequest`, `prune`, counting of tasks, as a transition system |
| `ShellRun` | `runtime/shell/shell.go`, `setid_unix.go`: `Run` over calls of the operating system, environment and identity of the process |
| `Outcome`, `PodmanRun` | `runtime/podman/podman.go`, `volume.go`: `Run` over calls of podman and the operating system (`Outcome`: program logic, models nothing) |
| `Calls`, `DockerRun` | `runtime/docker/docker.go` (`Run`, `doRun`, network), `tcontainer.go`, `volume.go`, `bind.go`, `tmpfs.go`: a sequential program over daemon calls, every reply possible |

Proof infrastructure: `DSLemmas`, `ExecLemmas`, `CoordExec`, `ExecCancel` (fault-free execution of programs), `Trace` (all runs of one
program under faults), `Safe*`, `LifecycleSpec`, `FreshLemmas` (invariants of `World`), `Calm*` (logic of obligations), `Flow*` (the same
for composite tasks: counted obligations along ghost edges between parents and children), `RabbitInv`, `RabbitOnce`, `RabbitWhy`,
`RabbitKept` (invariants of `Rabbit`),
`EvalLemmas`, `CloneLemmas`, `Keeps`.

**Not modelled**: the log copying of the Podman runtime (it waits for it), RabbitMQ's client library and server
(assumed as in `Rabbit.lean`: a channel holds at most one message and gives it back when it closes), HTTP transport and JSON encoding, CLI, TOML parsing, what the engine's start-up constructs, logging,
Postgres itself (indexes, query planner).

## 6. Simplifications to keep in mind

* `eachTx`: the reading of the next held-back child and its update, which the code does on a second connection inside the transaction,
  are one operation (their partial failure is modelled).
* Handler wrappers: middleware around coordinator handlers other than webhooks/redaction is the identity.
* The in-memory sharing of slices between a task and its clone is modelled only where it matters (`Heap`, `eachLoop`); elsewhere values
  are immutable.
* Progress is an exact rational instead of `float64` (except in `Reports`, which has infinities and not-a-number).
* Cache operations are atomic in `Cache` (C34); `CacheConc` (C83) splits them at their locks.
* Job webhook summaries are taken when the middleware runs (the code takes them in a goroutine).
* Redaction upper-cases ASCII letters only.
* Cron: failing datastore or broker calls inside requests and invalid cron expressions are not modelled.

## 7. How the statements are kept independent

The specification part of a property (`LifecycleSpec`, `EvalSpec`, `CloneSpec`, the small definitions at the head of each
`Props/*.lean`) does not use the handlers' helper functions. World-level theorems speak about rows visible in the database between two
steps; message-level theorems say: *the coordinator accepts this message, the handler returns without error, and these are exactly
the messages sent and the rows afterwards*; run-level theorems (`…_every_run`) quantify over all `Run`s: every interleaving with
arbitrary changes by others between two operations, every fault, every point at which the goroutine stops. Each file ends with
concrete cases meeting the hypotheses.

`seeded/LOG.jsonl` records the wrong programs tried against the theorems (tooling in `seeded/`).

## 8. Findings: where the code does not do what a user would expect

Proved ones name the theorem.

1. An `each` task over an empty list never completes; the job hangs (`C14_empty_list`, `C52_empty_each_defect`). With `concurrency`, a child
   that completes while the later children are still being created finds no sibling to release, and the error fails the job although
   nothing failed (`C13_fast_child_fails_job`). If the failure report of a child with retries is delivered twice, both deliveries start a
   new attempt and the limit is exceeded (`C13_failure_reported_twice_exceeds_limit`). The release of the next child is not part of the transaction that
   counts the completed one: if the coordinator dies in between and the report is delivered again, the limit is exceeded without any
   retries (`C13_crash_during_release_exceeds_limit`, `C76_crash_exceeds_limit`).
2. Templates in the command line of an `each` task: every child gets the first item's command (`C12_commands_defect`): `Clone` shares
   the slice and evaluation writes into it (`C27_cmd_is_shared`).
3. A failing evaluation while creating a retry leaves the job RUNNING for ever (`C52_retry_defect`).
4. A duplicate of the start message restarts a job in any state, even COMPLETED (`C02_duplicate_start_restarts_completed_job`).
5. A duplicate restart request fails the restarted job (`C43_duplicate_fails_job`).
6. A SKIPPED task can be completed twice, advancing the job twice (`C44_skipped_counts_twice`). The second delivery of any other completion
   report is refused, but the refusal counts as a failure of the task and fails the healthy job (`C44_duplicate_report_fails_job`).
7. A lost acknowledgement while creating a retry gives two attempts (`C09_two_attempts`).
8. A sub-job that is still PENDING is not cancelled with its parent (`C16_pending_sub_defect`); its tasks are not validated
   (`C42_subjob_tasks_unchecked`); an empty task list of a sub-job panics the coordinator.
9. Middleware that swallows a task leaves it without any report (`C19_swallowed`).
10. Secrets are stored in clear in the context column (`C26_context_stored_in_clear`).
11. Secrets split across log parts, `each` templates and sidecars are not redacted (`C25_split_secret_leaks`,
    `C25_each_and_sidecars_not_redacted`).
12. Two overlapping resume requests leak a cron entry that survives a pause (`C40_overlapping_resume_leaks`); instances of a schedule
    lose its defaults (`C40_firing_drops_defaults`).
13. The first use of an in-memory queue is a race that can lose messages (`C31_first_use_race_loses_message`); the redelivery counter does not
    survive the in-memory broker (`C31_task_payload`).
14. Paging jobs created at the same instant can lose items (`C22_ties_lose_items`); log searches report totals of the unsearched log
    (`C22_log_search_totals_wrong`).
15. The in-memory lock can be released by anybody holding an old lock object (`C33_inmemory_double_release_breaks_exclusion`).
16. Docker runtime: a container whose files cannot be written (a cancellation at that moment suffices) is never removed, nor is its
    `/tork` volume; an unparsable limit leaks that volume as well (`C58_leaks`).
17. The policy on bind mounts can be bypassed with driver options of a `volume` mount (`C60_volume_bypass`); the list of allowed directories
    is compared ignoring case, also on case-sensitive file systems.
18. Docker runtime, credentials: the first part of an image name is always taken for a registry, so that for `a/b`, which Docker pulls from
    Docker Hub, the credentials of a registry called `a` are sent to Docker Hub (`C61_sent_to_hub`); credentials for Docker Hub in the
    configuration file are never used for names without slash (`C61_anonymous`); identity tokens are sent as a password
    (`C61_identity_token`). An image that is already recorded or present is used without any credentials being checked.
19. Docker runtime, images: the table of images is keyed by name. Failed verification under one name removes an image in use under
    another (`C62_alias`); an image that has gone is handed out for ever, since every request renews its entry (`C62_stale`). The
    time to live counts from the last request, not from the end of the last use.
20. Shell runtime: the user is changed before the group, so that a root worker with both configured fails every task
    (`C63_group_refused`); supplementary groups are never given up. Names of files are not checked: `../x` is written outside of the
    directory of the task, by the worker under its own identity (example in `Props/ShellEnv`). The fields of pre- and post-tasks are
    not validated: an image given there is ignored. Cancelling kills the wrapper process only; the shell it started lives on.
21. Podman runtime: the image is passed to `podman create` without `--`, so that an image beginning with a dash is an option and the first
    arguments of the entrypoint are options too: a privileged container without the operator's permission (`C64_image_is_an_option`).
    Running containers are found by task id: a second delivery of a running task makes the first run remove the second's container and leave
    its own (`C64_same_task_twice`). Limits, GPUs, registry credentials and probes are ignored. Files are written to `/tork/workdir` even if
    the task names another working directory, and their names may lead outside. A volume's directory stays behind if `chmod` fails, a
    container if `podman create` is cancelled after podman has made it.
22. RabbitMQ broker: a message to a queue nobody has subscribed to is lost and `PublishTask` reports success, although its comment says
    that the queue is created (`C65_no_subscriber_loses`). A task delivered a second time goes to `redeliveries` whatever its queue was,
    and from there to the queue the task names: from `pending`, where that name is empty, it is lost (`C65_redelivered_pending_lost`); from
    `completed` it is run again. It is acknowledged even if the forwarding failed. A message that cannot be decoded is neither
    acknowledged nor rejected and blocks its consumer (`C65_wedged`). A renewed subscription leaves the old entry behind, and `Shutdown`
    waits for it for ever (`C65_shutdown_hangs`); it ignores its context while it waits for a handler. A `*` that is a part of a word
    matches nothing (`C66_partial_word`). Not proved: a task that runs longer than the consumer timeout (30 minutes) is
    delivered again while it still runs.
23. Docker logs: of a piece of output larger than 32 KiB the rest is lost (`C67_cut`), the text of an error is cut at 512 bytes in the
    middle (`C67_error_text_cut`); a short read makes the reader take output for headers, and then the container decides how much memory the
    worker allocates (`C67_split_data`).
24. Engine: `Terminate` after a signal waits for ever and keeps the lock (`C68_terminate_after_signal`), TERMINATING is never visible
    (`C68_terminating_unseen`), a failed start of a standalone engine leaves its worker running (`C68_failed_start_leaks`). Not proved:
    `SubmitJob` reads the state without the lock, its listener dereferences nil on an event that is not a job, and its subscription is
    never removed; broker, datastore and locker are never closed.
25. Authentication: basic and key authentication together lock everybody out (`C69_both_lock_out`); disabled users can log in
    (`C69_disabled_ignored`); a user with a colon in its name cannot (`C69_colon`). Not proved: CORS' `ExposeHeaders` is read from the key
    of the allowed headers; `~` in the default configuration path is not expanded; the coordinator's `Stop` leaves
    the API running if the broker's shutdown fails.
26. Scheduling does not look at the state of the task: a scheduling request delivered twice gives the task to two workers
    (`C70_scheduling_requested_twice`); delivered again after the task has ended, it sets the task to work a second time, next to the current
    one, and the end of that execution moves the job on again: a job can be COMPLETED although its last task has not run
    (`C81_scheduled_again_defect`). A failure report delivered twice gives two attempts at work at once (`C81_failed_twice_defect`).
27. Configuration (C71): keys that contain an underscore (`datastore.postgres.max_open_conns`, …) cannot be set by environment
    variables (`C71_underscore_unreachable`); if one variable sets a scalar where another one needs a table, the outcome is
    random (`C71_clash_at_random`); a value that cannot be read counts as false or zero, not as the default, and nothing is reported
    (`C71_unreadable_is_zero`).
28. Events (C72): the failure of a job is announced once per failing task (`C72_failed_announced_twice`); cancelling a job is never announced
    (`C72_cancelled_silent`).
29. Waiting (C73): an event of any job handled while the id of the new job is being made up can leave the handler with another id, and the
    request is never answered (`C73_early_event_loses_the_job`, `C73_lost_forever`); two outcomes of one job end the coordinator process
    (`C73_two_failures_crash`, reachable because of item 28); an outcome that races with the timeout is written into the response of another
    request (`C73_outcome_for_another_client`). Because cancelling is never announced (item 28), waiting for a job that is cancelled times out.
    `C73_crash_happens` runs this with the announcements the coordinator really makes, `C73_crash_cause` says there is no other way.
30. Connection pool (C75): `UpdateJob` asks for a second connection while its transaction holds one (`GetUser` is called on `ds` instead of `ptx`).
    As many simultaneous calls as `max_open_conns` bring the datastore to a standstill without end (`C75_deadlock`, `C75_deadlock_one_job`).
    `completeEachTask` does the same (`C76_deadlock`). It also makes a child PENDING that was cancelled after it was chosen
    (`C76_cancelled_child_comes_back`).
31. Stopping a job (C77): a task that is just starting is missed if its start is handled around the time the job is stopped, and runs to its end
    (`C77_start_and_stop_miss_each_other`, `C77_missed_for_good`); a crash while stopping misses tasks although the message is handled again
    (`C77_crash_while_stopping_misses`); a task received twice by one worker cannot be stopped after the first execution has ended
    (`C77_second_run_cannot_be_stopped`); after a worker's death the row may name the dead one for ever (`C77_wrong_node_told`). When a
    sub-job fails, its other tasks are not cancelled (`C10_subjob_failure`: no other row changes, and the only message goes to the parent task).
32. Schedules (C78): clocks more than ten seconds apart or the death of the coordinator that holds the lock make a tick fire twice
    (`C78_clocks_apart_fire_twice`, `C78_death_fires_twice`); a run longer than the time between two ticks makes a tick be lost
    (`C78_slow_run_loses_tick`). Not proved: an instance that could not be stored is published all the same; a schedule that is paused
    while a tick waits for the lock fires once more.
33. Cancelling and restarting (C79): the cancellation that a cancelled sub-job sends back to the job of its parent task is acted upon even if
    that job was restarted in the meantime: the restart is undone (`C79_echo_undoes_restart`).
34. Templates (C80). The branches of a parallel task are evaluated when it is created and again when it is scheduled, and a retry evaluates the
    evaluated texts of the attempt before: a template inside the *result* of a task is evaluated, so what a script prints can pull secrets of
    the job into the environment of a later task (`C80_evaluated_twice_defect`). A task other than the first whose templates cannot be
    evaluated is stored FAILED but published as pending, scheduled and run half-evaluated (`C80_broken_template_runs_defect`). The probe of a
    task is not stored: children of a loop with a limit that are released later run without it (`C80_probe_lost_defect`).
35. Configuration (C71): an empty list in the file is not read as an empty list but as a list with the one entry `[]` (`C71_empty_list_defect`).
36. Cache (C83): `SetExpiration` looks an entry up and changes it under different locks; if the entry expires in between and a clean-up
    removes it, the call reports success and the value is gone (`C83_expiration_lost_defect`). The only user of the cache (the task
    webhook middleware) does not call it.
37. The output of a task with a probe that it writes before the probe answers is twice in its log: the probe and `Wait` both copy from the
    beginning (`C85_twice`). Nobody waits for the goroutine that copies; `Wait` closes its stream when it returns, so the end of the output of
    a completed task, or all of it, may never get into its log (`C85_lost`).
38. A task that writes "nan" to its progress file gets a progress that is not a number (`C86_nan`: the two comparisons of the handler are both
    false), which the API cannot encode; a failed report is not repeated (`C86_lost`).
39. The start of a server reports success if another process answers at its address and its own goroutine is late (`C87_another_defect`), and if all ports
    of the range are in use (`C87_full_defect`).
40. The shut-down of the broker in memory does not wait for the subscriptions of workers, which may still take messages afterwards (`C88_worker_defect`); a second
    call returns at once (`C88_second_defect`).
41. A CPU limit of 2^64 billionths or more is taken modulo 2^64 (`C89_overflow_defect`).
42. `Stop` of a worker waits for ever if `Start` failed before the heart beat began, or if it is called twice (`C90_stop_unstarted_defect`,
    `C90_second_stop_waits`).
43. Nothing keeps a role from having a slug that is the id of another (`C91_slug_is_id_defect`).
44. The archives of files are never closed (`C92_unterminated_defect`).
45. The queries of the metrics are not one transaction (`C93_torn_defect`).
46. Not proved, observed while reading: a job's error text is never persisted (`failJob`); the original error of a failing sub-job
    output is lost; a late completion on a FAILED/CANCELLED job still creates the next task; `cancel.go` dereferences nil when a
    sub-job's parent cannot be read; progress can exceed 100 after the last task; `webhook.Call` dereferences nil on an invalid URL; heartbeats of a new node can race; job submission
    with `wait` may close a channel twice; `probe` and `redelivered` are not stored.
