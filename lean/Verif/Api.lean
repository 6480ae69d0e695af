import Verif.Handlers
/-!
# Job API endpoints and the worker as programs

Models the job endpoints of `/repo/internal/coordinator/api/api.go` and the task processing of
`/repo/internal/worker/worker.go`.
-/

namespace Tork
open Prog

/-- HTTP outcome of an endpoint. -/
inductive Http (α : Type)
  | ok (a : α)
  | notFound (e : Err)
  | badRequest (e : Err)
  | serverError (e : Err)

/-- The generated fields of a submitted job: `/repo/input/job.go:92-142 ToJob` sets id, state, creation
time, context and task count; `j` carries everything taken from the request. -/
def submitRow (id now : Nat) (createdBy : Option User) (j : Job) : Job :=
  { j with id := id, state := .pending, createdAt := now, createdBy := createdBy, position := 0
           taskCount := j.tasks.length
           context := { inputs := j.inputs, secrets := j.secrets
                        job := [("id", toString id), ("name", j.name)] } }

/-- `api.go:363-387 SubmitJob` after validation. -/
def apiSubmit (createdBy : Option User) (j : Job) : Prog (Http Job) := do
  let id ← newUUID
  let now ← Prog.now
  let j := submitRow id now createdBy j
  match ← tx (createJob j) with
  | .error e => return .serverError e
  | .ok _ =>
    match ← publish (.job j) with
    | .error e => return .serverError e
    | .ok _ => return .ok j

/-- `api.go:837-861 cancelJob` -/
def apiCancel (id : Nat) : Prog (Http Unit) := do
  match ← tx (getJob id) with
  | .error e => return .notFound e
  | .ok j =>
    if j.state ≠ .running ∧ j.state ≠ .scheduled then return .badRequest "job is not running"
    else
      match ← publish (.job { j with state := .cancelled }) with
      | .error e => return .serverError e
      | .ok _ => return .ok ()

/-- `api.go:808-835 restartJob` -/
def apiRestart (id : Nat) : Prog (Http Unit) := do
  match ← tx (getJob id) with
  | .error e => return .notFound e
  | .ok j =>
    if j.state ≠ .failed ∧ j.state ≠ .cancelled then return .badRequest "job can not be restarted"
    else if j.position > j.tasks.length then return .badRequest "job has no more tasks to run"
    else
      match ← publish (.job { j with state := .restart }) with
      | .error e => return .serverError e
      | .ok _ => return .ok ()

/-! ## Worker -/

/-- Everything about one task run that the worker code does not determine: the node's limits,
the (composed) middleware around the runtime, and what the runtime does. -/
structure WorkerRun where
  nodeID : Nat := 0
  /-- `worker.go:49-53` -/
  defaultCPUs : String := ""
  defaultMemory : String := ""
  defaultTimeout : String := ""
  /-- effect of the middleware on the (cloned) task before it calls next -/
  pre : Task → Task := id
  /-- `some r`: the middleware returns `r` without calling next -/
  stop : Option Res := none
  /-- progress values the runtime reports while running -/
  progress : List Rat := []
  /-- what `runtime.Run` does to the task and returns -/
  run : Task → Res × Task := fun t => (none, t)
  /-- effect of the middleware after next returned -/
  post : Res → Task → Res × Task := fun r t => (r, t)

/-- `worker.go:104-122`: the fields the worker sets before running. -/
def workerPrep (w : WorkerRun) (now : Nat) (t : Task) : Task :=
  let t := { t with startedAt := some now, nodeID := w.nodeID, state := .running }
  let t : Task := match t.limits with
    | none =>
      if w.defaultCPUs ≠ "" ∨ w.defaultMemory ≠ "" then
        { t with limits := some { cpus := w.defaultCPUs, memory := w.defaultMemory } }
      else t
    | some l =>
      { t with limits := some {
          cpus := if l.cpus = "" then w.defaultCPUs else l.cpus
          memory := if l.memory = "" then w.defaultMemory else l.memory } }
  if t.timeout = "" then { t with timeout := w.defaultTimeout } else t

/-- The progress reports of the runtime (`/repo/runtime/docker/tcontainer.go`, `PublishTaskProgress`);
errors are only logged there. -/
def publishProgress (t : Task) : List Rat → Prog Unit
  | [] => return ()
  | p :: ps => do
    let _ ← publish (.progress { t with progress := p })
    publishProgress t ps

/-- `worker.go:180-209 doRunTask`; an unparsable timeout is an error before running. -/
def doRunTask (C : Cfg) (w : WorkerRun) (t : Task) : Prog (Res × Task) := do
  if t.timeout ≠ "" ∧ (C.parseDur t.timeout).isNone then
    return (some (wrapErr "invalid timeout duration" t.timeout), t)
  else
    publishProgress t w.progress
    let (r, t) := w.run t
    let now ← Prog.now
    match r with
    | some e => return (none, { t with failedAt := some now, state := .failed, error := e })
    | none => return (none, { t with completedAt := some now, state := .completed })

/-- `worker.go:157-178 runTask` (the registry and counter bookkeeping is in `WorkerState`). -/
def runTask (C : Cfg) (w : WorkerRun) (t : Task) : Prog (Res × Task) := do
  match ← publish (.task QUEUE_STARTED t) with
  | .error e => return (some e, t)
  | .ok _ => doRunTask C w t

/-- The middleware chain around `runTask` (`worker.go:123-131`). -/
def workerMw (C : Cfg) (w : WorkerRun) (rt : Task) : Prog (Res × Task) := do
  let rt := w.pre rt
  match w.stop with
  | some r => return (r, rt)
  | none =>
    let (r, rt) ← runTask C w rt
    return w.post r rt

/-- `worker.go:103-155 doHandleTask` -/
def doHandleTask (C : Cfg) (w : WorkerRun) (t : Task) : Prog Res := do
  let started ← Prog.now
  let t := workerPrep w started t
  let (r, rt) ← workerMw C w t.clone
  match r with
  | some e =>
    let now ← Prog.now
    match ← publish (.task QUEUE_ERROR { t with error := e, failedAt := some now, state := .failed }) with
    | .error e => return some e
    | .ok _ => return none
  | none =>
    match rt.state with
    | .completed =>
      match ← publish (.task QUEUE_COMPLETED
          { t with result := rt.result, completedAt := rt.completedAt, state := .completed }) with
      | .error e => return some e
      | .ok _ => return none
    | .failed =>
      match ← publish (.task QUEUE_ERROR
          { t with error := rt.error, failedAt := rt.failedAt, state := .failed }) with
      | .error e => return some e
      | .ok _ => return none
    | _ => return some "unexpected state"

end Tork

namespace Tork
open Prog

/-- The job literal of `/repo/internal/coordinator/handlers/schedule.go:118-141`; `Defaults` of the
scheduled job and the `job` part of the context are not carried over by the code. -/
def scheduledInstance (id now : Nat) (s : ScheduledJob) : Job :=
  { id := id, createdBy := s.createdBy, createdAt := now, permissions := s.permissions, tags := s.tags
    name := s.name, description := s.description, state := .pending, tasks := s.tasks
    inputs := s.inputs, secrets := s.secrets
    context := { inputs := s.inputs, secrets := s.secrets }
    taskCount := s.tasks.length, output := s.output, webhooks := s.webhooks
    autoDelete := s.autoDelete, schedule := some { id := s.id, cron := s.cron } }

/-- `schedule.go:107-148`: one firing of the cron entry; `s` is the freshly read scheduled job.
Errors are only logged, in particular the message is published even if the insertion failed. -/
def fireScheduled (s : ScheduledJob) : Prog Unit := do
  let now ← Prog.now
  let id ← newUUID
  let job := scheduledInstance id now s
  let _ ← tx (createJob job)
  let _ ← publish (.job job)
  return ()

end Tork
