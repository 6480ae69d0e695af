import Verif.Prog
import Verif.Clone
/-!
# Coordinator handlers

Models `/repo/internal/coordinator/handlers/*.go`, `/repo/internal/coordinator/scheduler/scheduler.go`
and the wrappers of `/repo/internal/coordinator/coordinator.go`, function by function, as programs.
User-supplied middleware is the identity here (middleware composition is in `Middleware.lean`).
Error wrapping keeps the message `prefix: cause` as `errors.Wrapf` does, without ids.
-/

namespace Tork
open Prog

/-- Parameters of the code that are not modelled: the expression evaluator and
`time.ParseDuration` (in ticks, may be negative). -/
structure Cfg where
  O : Oracle
  parseDur : String → Option Int

/-! Queue and topic names: `/repo/broker/queues.go:9-40`, `/repo/broker/broker.go:11-18`. -/
def QUEUE_PENDING := "pending"
def QUEUE_STARTED := "started"
def QUEUE_COMPLETED := "completed"
def QUEUE_ERROR := "error"
def QUEUE_DEFAULT := "default"
def QUEUE_REDELIVERIES := "redeliveries"
def TOPIC_JOB_COMPLETED := "job.completed"
def TOPIC_JOB_FAILED := "job.failed"

/-- `errors.Wrapf` -/
def wrapErr (msg : String) (e : Err) : Err := msg ++ ": " ++ e

/-- `eval.EvaluateTask(t, ctx)` followed by the pattern
`if err != nil { t.Error = …; t.State = FAILED; t.FailedAt = &now }` of `job.go:66-70`,
`job.go:187-191`, `completed.go:246-250`. -/
def evalOrFail (C : Cfg) (ctx : JobContext) (sd now : Nat) (t : Task) : Task :=
  match evaluateTask (evaluateTemplate C.O ⟨ctx, none⟩ sd) t with
  | (t, none) => t
  | (t, some e) => { t with error := e, state := .failed, failedAt := some now }

/-- The fields set on a top-level task about to be created: `job.go:60-65`, `job.go:181-186`,
`completed.go:240-245`. -/
def prepTask (t : Task) (id jobID position now : Nat) : Task :=
  { t with id := id, jobID := jobID, state := .pending, position := position, createdAt := some now }

/-! ## cancel.go -/

/-- The id of the task's sub-job, 0 if none (`t.SubJob != nil && t.SubJob.ID != ""`, `cancel.go:74`). -/
def subJobRef (t : Task) : Nat := match t.subJob with | some s => s.id | none => 0

/-- The loop of `cancelActiveTasks`, `cancel.go:68-99`. -/
def cancelLoop : List Task → Prog Res
  | [] => return none
  | t :: ts => do
    match ← tx (updateTask' t.id fun u => { u with state := .cancelled }) with
    | .error e => return some (wrapErr "error cancelling task" e)
    | .ok _ =>
      let sjID := subJobRef t
      if sjID ≠ 0 then
        match ← tx (getJob sjID) with
        | .error e => return some e
        | .ok sj =>
          match ← publish (.job { sj with state := .cancelled }) with
          | .error e => return some (wrapErr "error publishing cancelllation for sub-job" e)
          | .ok _ => cancelLoop ts
      else if t.nodeID ≠ 0 then
        match ← tx (getNode t.nodeID) with
        | .error e => return some e
        | .ok node =>
          match ← publish (.task node.queue { t with state := .cancelled }) with
          | .error e => return some e
          | .ok _ => cancelLoop ts
      else cancelLoop ts

/-- `cancel.go:62-101 cancelActiveTasks` -/
def cancelActiveTasks (jobID : Nat) : Prog Res := do
  match ← tx (getActiveTasks jobID) with
  | .error e => return some (wrapErr "error getting active tasks for job" e)
  | .ok tasks => cancelLoop tasks

/-- The closure of `cancel.go:29-36`. -/
def cancelJobRow (u : Job) : Job :=
  if u.state ≠ .running ∧ u.state ≠ .scheduled then u else { u with state := .cancelled }

/-- `cancel.go:27-60`. On a failed lookup of the parent task or job the code dereferences a nil
pointer (`cancel.go:43,47`): a panic. -/
def cancelHandler (j : Job) : Prog Res := do
  match ← tx (updateJob' j.id cancelJobRow) with
  | .error e => return some e
  | .ok _ =>
    if j.parentID ≠ 0 then
      match ← tx (getTask j.parentID) with
      | .error _ => Prog.panic "nil dereference: pt.ID"
      | .ok pt =>
        match ← tx (getJob pt.jobID) with
        | .error _ => Prog.panic "nil dereference: pj.ID"
        | .ok pj =>
          -- a publish error is only logged (cancel.go:50-52)
          let _ ← publish (.job { pj with state := .cancelled })
          cancelActiveTasks j.id
    else cancelActiveTasks j.id

/-! ## scheduler.go -/

/-- `scheduler.go:45-47`, `74-76`: fill in the queue if absent. -/
def defQueue (q : String) (t : Task) : Task := if t.queue = "" then { t with queue := q } else t

/-- `scheduler.go:48-58`: fill in the absent limits. -/
def defLimits (dl : Option TaskLimits) (t : Task) : Task :=
  match dl with
  | none => t
  | some dl =>
    let l := t.limits.getD {}
    let l := if l.cpus = "" then { l with cpus := dl.cpus } else l
    let l := if l.memory = "" then { l with memory := dl.memory } else l
    { t with limits := some l }

/-- `scheduler.go:59-61`: fill in the timeout if absent. -/
def defTimeout (d : String) (t : Task) : Task := if t.timeout = "" then { t with timeout := d } else t

/-- `scheduler.go:62-69`: fill in the retry limit if absent. -/
def defRetry (dr : Option TaskRetry) (t : Task) : Task :=
  match dr with
  | none => t
  | some dr =>
    let r := t.retry.getD {}
    let r := if r.limit = 0 then { r with limit := dr.limit } else r
    { t with retry := some r }

/-- `scheduler.go:70-72`: fill in the priority if absent. -/
def defPriority (p : Nat) (t : Task) : Task := if t.priority = 0 then { t with priority := p } else t

/-- `scheduler.go:44-76`: apply the job-level defaults. -/
def applyDefaults (d : Option JobDefaults) (t : Task) : Task :=
  defQueue QUEUE_DEFAULT <| match d with
    | none => t
    | some d =>
      defPriority d.priority <| defRetry d.retry <| defTimeout d.timeout <| defLimits d.limits <|
        defQueue d.queue t

/-- The closure of `scheduler.go:80-89`. -/
def scheduleRow (t u : Task) : Task :=
  { u with
    state := t.state, scheduledAt := t.scheduledAt, queue := t.queue, limits := t.limits
    timeout := t.timeout, retry := t.retry, priority := t.priority }

/-- `scheduler.go:37-93 scheduleRegularTask`; returns the mutated task as well. -/
def scheduleRegularTask (t : Task) : Prog (Res × Task) := do
  let now ← now
  match ← tx (getJob t.jobID) with
  | .error e => return (some e, t)
  | .ok job =>
    let t := applyDefaults job.defaults t
    let t := { t with state := .scheduled, scheduledAt := some now }
    match ← tx (updateTask' t.id (scheduleRow t)) with
    | .error e => return (some (wrapErr "error updating task in datastore" e), t)
    | .ok _ =>
      match ← publish (.task t.queue t) with
      | .error e => return (some e, t)
      | .ok _ => return (none, t)

/-- The job literal of `scheduler.go:108-128`. -/
def attachedSubJob (id now : Nat) (job : Job) (t : Task) (s : SubJobTask Task) : Job :=
  { id := id, createdAt := now, createdBy := job.createdBy, permissions := job.permissions
    parentID := t.id, name := s.name, description := s.description, state := .pending
    tasks := s.tasks, inputs := s.inputs, secrets := s.secrets
    context := { inputs := s.inputs, secrets := s.secrets }
    taskCount := s.tasks.length, output := s.output, webhooks := s.webhooks
    autoDelete := s.autoDelete }

/-- The job literal of `scheduler.go:150-166`. -/
def detachedSubJob (id now : Nat) (job : Job) (s : SubJobTask Task) : Job :=
  { id := id, createdBy := job.createdBy, createdAt := now, permissions := job.permissions
    name := s.name, description := s.description, state := .pending
    tasks := s.tasks, inputs := s.inputs, secrets := s.secrets
    context := { inputs := s.inputs }
    taskCount := s.tasks.length, output := s.output, webhooks := s.webhooks
    autoDelete := s.autoDelete }

/-- The closures of `scheduler.go:129-135` and `173-179`. -/
def subJobRow (now subID : Nat) (u : Task) : Task :=
  { u with
    state := .running, scheduledAt := some now, startedAt := some now
    subJob := u.subJob.map fun s => { s with id := subID } }

/-- `scheduler.go:102-142 scheduleAttachedSubJob` -/
def scheduleAttachedSubJob (t : Task) (s : SubJobTask Task) : Prog Res := do
  match ← tx (getJob t.jobID) with
  | .error e => return some e
  | .ok job =>
    let now ← now
    let id ← newUUID
    let subjob := attachedSubJob id now job t s
    match ← tx (updateTask' t.id (subJobRow now id)) with
    | .error e => return some (wrapErr "error updating task in datastore" e)
    | .ok _ =>
      match ← tx (createJob subjob) with
      | .error e => return some (wrapErr "error creating subjob" e)
      | .ok _ =>
        match ← publish (.job subjob) with
        | .error e => return some e
        | .ok _ => return none

/-- `scheduler.go:144-185 scheduleDetachedSubJob` -/
def scheduleDetachedSubJob (t : Task) (s : SubJobTask Task) : Prog (Res × Task) := do
  match ← tx (getJob t.jobID) with
  | .error e => return (some e, t)
  | .ok job =>
    let now ← now
    let id ← newUUID
    let subjob := detachedSubJob id now job s
    match ← tx (createJob subjob) with
    | .error e => return (some (wrapErr "error creating subjob" e), t)
    | .ok _ =>
      match ← publish (.job subjob) with
      | .error e => return (some (wrapErr "error publishing subjob" e), t)
      | .ok _ =>
        match ← tx (updateTask' t.id (subJobRow now id)) with
        | .error e => return (some (wrapErr "error updating task in datastore" e), t)
        | .ok _ =>
          let t := { t with completedAt := some now, state := .completed }
          match ← publish (.task QUEUE_COMPLETED t) with
          | .error e => return (some e, t)
          | .ok _ => return (none, t)

/-- `t.Error = …; t.State = FAILED; return PublishTask(QUEUE_ERROR, t)`
(`scheduler.go:197-199, 208-210, 247-249, 291-293`). -/
def failToErrorQueue (t : Task) (e : Err) : Prog (Res × Task) := do
  let t := { t with error := e, state := .failed }
  match ← publish (.task QUEUE_ERROR t) with
  | .error e => return (some e, t)
  | .ok _ => return (none, t)

/-- `t.Each.Concurrency == 0 || ix < t.Each.Concurrency` (`scheduler.go:238,257`). -/
def fireNow (concurrency ix : Nat) : Bool := concurrency = 0 || ix < concurrency

/-- The child literal of `scheduler.go:233-245`, before evaluation. -/
def eachChild (t : Task) (e : EachTask Task) (jobID id now ix : Nat) : Task :=
  { e.task.clone with
    id := id, jobID := jobID
    state := if fireNow e.concurrency ix then .pending else .created
    position := t.position, createdAt := some now, parentID := t.id }

/-- `eachVar` of `scheduler.go:225-228`. -/
def eachVarName (e : EachTask Task) : String := if e.var = "" then "item" else e.var

mutual
/-- Replace every word of the command line of a task and of its pre, post and parallel tasks. -/
def Task.mapCmds (g : String → String) : Task → Task
  | t@{ pre := pre, post := post, parallel := par, .. } =>
    { t with cmd := t.cmd.map g, pre := mapCmdsL g pre, post := mapCmdsL g post, parallel := mapCmdsP g par }
def mapCmdsL (g : String → String) : List Task → List Task
  | [] => []
  | t :: ts => t.mapCmds g :: mapCmdsL g ts
def mapCmdsP (g : String → String) : Option (ParallelTask Task) → Option (ParallelTask Task)
  | none => none
  | some { tasks := ts, completions := c } => some { tasks := mapCmdsL g ts, completions := c }
end

/-- `Task.Clone` shares the `CMD` slice with the original (`task.go:206`) and `EvaluateTask` assigns its elements
in place (`eval.go:86-93`): evaluating a child overwrites the command line of `t.Each.Task`, from which the
next child is cloned. -/
def afterChild (tm : String → Except Err String) (e : EachTask Task) : EachTask Task :=
  { e with task := e.task.mapCmds fun x => match tm x with | .ok y => y | .error _ => x }

/-- The loop of `scheduler.go:223-262`; `ix` is the index of the first item of the list. Simplification: the
command words already overwritten by a child whose evaluation fails are not tracked (the loop ends then). -/
def eachLoop (C : Cfg) (j : Job) (now : Nat) : Task → EachTask Task → Nat → List String → Prog (Res × Task)
  | t, _, _, [] => return (none, t)
  | t, e, ix, item :: items => do
    let id ← newUUID
    let sd ← seed
    let tm := evaluateTemplate C.O ⟨j.context, some (eachVarName e, ix, item)⟩ sd
    match evaluateTask tm (eachChild t e j.id id now ix) with
    | (_, some err) => failToErrorQueue t err
    | (et, none) =>
      let e := afterChild tm e
      let t := { t with each := some e }
      match ← tx (createTask et) with
      | .error err => return (some err, t)
      | .ok _ =>
        if fireNow e.concurrency ix then
          match ← publish (.task QUEUE_PENDING et) with
          | .error err => return (some err, t)
          | .ok _ => eachLoop C j now t e (ix + 1) items
        else eachLoop C j now t e (ix + 1) items

/-- The closure of `scheduler.go:213-219`. -/
def eachRow (now size : Nat) (u : Task) : Task :=
  { u with
    state := .running, scheduledAt := some now, startedAt := some now
    each := u.each.map fun e => { e with size := size, index := e.concurrency } }

/-- `scheduler.go:187-264 scheduleEachTask` -/
def scheduleEachTask (C : Cfg) (t : Task) (e : EachTask Task) : Prog (Res × Task) := do
  let now ← now
  match ← tx (getJob t.jobID) with
  | .error err => return (some (wrapErr "error getting job" err), t)
  | .ok j =>
    let sd ← seed
    match evaluateExpr C.O ⟨j.context, none⟩ sd e.list with
    | .error err => failToErrorQueue t err
    | .ok v =>
      match v.items with
      | none => failToErrorQueue t "each.list does not evaluate to a list"
      | some list =>
        match ← tx (updateTask' t.id (eachRow now list.length)) with
        | .error err => return (some (wrapErr "error updating task in datastore" err), t)
        | .ok _ => eachLoop C j now t e 0 list

/-- The fields set on a branch, `scheduler.go:284-289`. -/
def parChild (t pt : Task) (jobID id now : Nat) : Task :=
  { pt with id := id, jobID := jobID, state := .pending, position := t.position
            createdAt := some now, parentID := t.id }

/-- The loop of `scheduler.go:283-301`. -/
def parLoop (C : Cfg) (t : Task) (j : Job) (now : Nat) : List Task → Prog (Res × Task)
  | [] => return (none, t)
  | pt :: pts => do
    let id ← newUUID
    let sd ← seed
    match evaluateTask (evaluateTemplate C.O ⟨j.context, none⟩ sd) (parChild t pt j.id id now) with
    | (_, some err) => failToErrorQueue t err
    | (pt, none) =>
      match ← tx (createTask pt) with
      | .error err => return (some err, t)
      | .ok _ =>
        match ← publish (.task QUEUE_PENDING pt) with
        | .error err => return (some err, t)
        | .ok _ => parLoop C t j now pts

/-- The closure of `scheduler.go:269-274`. -/
def parRow (now : Nat) (u : Task) : Task :=
  { u with state := .running, scheduledAt := some now, startedAt := some now }

/-- `scheduler.go:266-303 scheduleParallelTask` -/
def scheduleParallelTask (C : Cfg) (t : Task) (p : ParallelTask Task) : Prog (Res × Task) := do
  let now ← now
  match ← tx (updateTask' t.id (parRow now)) with
  | .error err => return (some (wrapErr "error updating task in datastore" err), t)
  | .ok _ =>
    match ← tx (getJob t.jobID) with
    | .error err => return (some (wrapErr "error getting job" err), t)
    | .ok j => parLoop C t j now p.tasks

/-- `scheduler.go:26-35 ScheduleTask` and `95-100 scheduleSubJob` -/
def scheduleTask (C : Cfg) (t : Task) : Prog (Res × Task) :=
  match t.parallel with
  | some p => scheduleParallelTask C t p
  | none =>
    match t.each with
    | some e => scheduleEachTask C t e
    | none =>
      match t.subJob with
      | some s =>
        if s.detached then scheduleDetachedSubJob t s
        else do return (← scheduleAttachedSubJob t s, t)
      | none => scheduleRegularTask t

/-! ## pending.go -/

/-- Go `unicode.IsSpace` (used by `strings.TrimSpace`): in Latin-1 the characters listed there, beyond it those with the property
White_Space (the table of package `unicode`). -/
def isSpace (c : Char) : Bool :=
  c = ' ' || (9 ≤ c.toNat && c.toNat ≤ 13) || c.toNat = 0x85 || c.toNat = 0xA0 ||
  c.toNat = 0x1680 || (0x2000 ≤ c.toNat && c.toNat ≤ 0x200A) || c.toNat = 0x2028 || c.toNat = 0x2029 || c.toNat = 0x202F ||
  c.toNat = 0x205F || c.toNat = 0x3000

def trimList (s : List Char) : List Char :=
  ((s.dropWhile isSpace).reverse.dropWhile isSpace).reverse

/-- `strings.TrimSpace` -/
def trimSpace (s : String) : String := String.ofList (trimList s.toList)

/-- `pending.go:43-58 skipTask` -/
def skipTask (t : Task) : Prog (Res × Task) := do
  let now ← now
  let t := { t with state := .skipped, scheduledAt := some now, startedAt := some now
                    completedAt := some now }
  match ← tx (updateTask' t.id fun u =>
      { u with state := t.state, scheduledAt := t.scheduledAt, startedAt := t.startedAt }) with
  | .error e => return (some (wrapErr "error updating task in datastore" e), t)
  | .ok _ =>
    match ← publish (.task QUEUE_COMPLETED t) with
    | .error e => return (some e, t)
    | .ok _ => return (none, t)

/-- `pending.go:32-41` -/
def pendingHandler (C : Cfg) (t : Task) : Prog (Res × Task) :=
  if trimSpace t.cond = "false" then skipTask t else scheduleTask C t

/-! ## job.go -/

/-- The closure of `job.go:201-210`. -/
def failJobRow (failedAt : Option Nat) (u : Job) : Job :=
  if u.state = .running ∨ u.state = .scheduled then
    { u with state := .failed, failedAt := failedAt }
  else u

/-- `job.go:198-237 failJob` -/
def failJob (j : Job) : Prog Res := do
  match ← tx (updateJob' j.id (failJobRow j.failedAt)) with
  | .error e => return some (wrapErr "error marking the job as failed in the datastore" e)
  | .ok _ =>
    if j.parentID ≠ 0 then
      match ← tx (getTask j.parentID) with
      | .error e => return some (wrapErr "could not find parent task for subtask" e)
      | .ok parent =>
        match ← publish (.task QUEUE_ERROR
            { parent with state := .failed, failedAt := j.failedAt, error := j.error }) with
        | .error e => return some e
        | .ok _ => return none
    else
      match ← cancelActiveTasks j.id with
      | some e => return some e
      | none =>
        match ← tx (getJob j.id) with
        | .error e => return some (wrapErr "unknown job" e)
        | .ok j' =>
          if j'.state = .failed then
            match ← publish (.event TOPIC_JOB_FAILED j') with
            | .error e => return some e
            | .ok _ => return none
          else return none

/-- The closure of `job.go:74-80`. -/
def startJobRow (n : Nat) (u : Job) : Job :=
  { u with state := .scheduled, startedAt := some n, position := 1 }

/-- `job.go:57-91 startJob`. A job without tasks panics (`j.Tasks[0]`). -/
def startJob (C : Cfg) (j : Job) : Prog (Res × Job) := do
  let now ← now
  match j.tasks with
  | [] => Prog.panic "index out of range: j.Tasks[0]"
  | t0 :: _ =>
    let id ← newUUID
    let sd ← seed
    let t := evalOrFail C j.context sd now (prepTask t0 id j.id 1 now)
    match ← tx (createTask t) with
    | .error e => return (some e, j)
    | .ok _ =>
      let n ← Prog.now
      match ← tx (updateJob' j.id (startJobRow n)) with
      | .error e => return (some e, j)
      | .ok _ =>
        if t.state = .failed then
          let n ← Prog.now
          let j := { j with failedAt := some n, state := .failed, error := t.error }
          return (← failJob j, j)
        else
          let (r, _) ← pendingHandler C t
          return (r, j)

/-- `time.Now().Add(dur)` -/
def addDur (now : Nat) (d : Int) : Nat := ((now : Int) + d).toNat

/-- The closure of `job.go:95-127`: the updated row and the updated `j`. -/
def completeJobRow (C : Cfg) (j : Job) (sd now now2 : Nat) (u : Job) : Except Err (Job × Job) :=
  if u.state ≠ .running ∧ u.state ≠ .scheduled then
    .error "job can not be completed"
  else
    match evaluateTemplate C.O ⟨j.context, none⟩ sd j.output with
    | .error e =>
      .ok ({ j with state := .failed, error := e },
           { u with state := .failed, failedAt := some now, error := e })
    | .ok result =>
      let del : Option Nat := match j.autoDelete with
        | some a => if a.after ≠ "" then (C.parseDur a.after).map (addDur now2) else none
        | none => none
      match del with
      | some d =>
        .ok ({ j with state := .completed, result := result, deleteAt := some d },
             { u with state := .completed, completedAt := some now, result := result
                      deleteAt := some d })
      | none =>
        .ok ({ j with state := .completed, result := result },
             { u with state := .completed, completedAt := some now, result := result })

/-- `job.go:93-154 completeJob` -/
def completeJob (C : Cfg) (j : Job) : Prog (Res × Job) := do
  let now ← Prog.now
  let sd ← seed
  let now2 ← Prog.now
  match ← tx (updateJob j.id (completeJobRow C j sd now now2)) with
  | .error e => return (some (wrapErr "error updating job in datastore" e), j)
  | .ok j =>
    if j.parentID ≠ 0 then
      match ← tx (getTask j.parentID) with
      | .error e => return (some (wrapErr "could not find parent task for subtask" e), j)
      | .ok parent =>
        let now ← Prog.now
        let parent :=
          if j.state = .failed then
            { parent with state := .failed, failedAt := some now, error := j.error }
          else
            { parent with state := .completed, completedAt := some now, result := j.result }
        match ← publish (.task QUEUE_COMPLETED parent) with
        | .error e => return (some e, j)
        | .ok _ => return (none, j)
    else
      let topic := if j.state = .failed then TOPIC_JOB_FAILED else TOPIC_JOB_COMPLETED
      match ← publish (.event topic j) with
      | .error e => return (some e, j)
      | .ok _ => return (none, j)

/-- The closure of `job.go:157-164`. -/
def markRunningRow (u : Job) : Job :=
  if u.state ≠ .scheduled then u else { u with state := .running, failedAt := none }

/-- `job.go:156-165 markJobAsRunning` -/
def markJobAsRunning (j : Job) : Prog Res := do
  match ← tx (updateJob' j.id markRunningRow) with
  | .error e => return some e
  | .ok _ => return none

/-- The closure of `job.go:169-176`. -/
def restartJobRow (u : Job) : Except Err (Unit × Job) :=
  if u.state ≠ .failed ∧ u.state ≠ .cancelled then .error "job can't be restarted"
  else .ok ((), { u with state := .running, failedAt := none })

/-- `job.go:167-196 restartJob`; `j.Tasks[j.Position-1]` panics when out of range. -/
def restartJob (C : Cfg) (j : Job) : Prog Res := do
  match ← tx (updateJob j.id restartJobRow) with
  | .error e => return some e
  | .ok _ =>
    let now ← Prog.now
    if j.position = 0 then Prog.panic "index out of range"
    else
      match j.tasks[j.position - 1]? with
      | none => Prog.panic "index out of range"
      | some t0 =>
        let id ← newUUID
        let sd ← seed
        let t := evalOrFail C j.context sd now (prepTask t0 id j.id j.position now)
        match ← tx (createTask t) with
        | .error e => return some e
        | .ok _ =>
          match ← publish (.task QUEUE_PENDING t) with
          | .error e => return some e
          | .ok _ => return none

/-- `job.go:35-55 handle` for a state-change event (`job.Progress` events return at once). -/
def jobHandler (C : Cfg) (j : Job) : Prog (Res × Job) :=
  match j.state with
  | .pending => startJob C j
  | .cancelled => do return (← cancelHandler j, j)
  | .restart => do return (← restartJob C j, j)
  | .completed => completeJob C j
  | .failed => do return (← failJob j, j)
  | .running => do return (← markJobAsRunning j, j)
  | _ => return (some "invalid job state", j)

/-! ## error.go -/

/-- The closure of `error.go:48-55`. -/
def failTaskRow (failedAt : Option Nat) (err : Err) (u : Task) : Task :=
  if u.state.isActive then { u with state := .failed, failedAt := failedAt, error := err } else u

/-- `error.go:59-61` -/
def retryEligible (js : JobState) (t : Task) : Bool :=
  (js = .running || js = .scheduled) &&
    match t.retry with
    | some r => r.attempts < r.limit
    | none => false

/-- The new attempt, `error.go:64-70`, before evaluation. -/
def retryTask (t : Task) (id now : Nat) : Task :=
  { t.clone with
    id := id, createdAt := some now
    retry := t.retry.map fun r => { r with attempts := r.attempts + 1 }
    state := .pending, error := "", failedAt := none }

/-- `error.go:33-87` -/
def errorHandler (C : Cfg) (t : Task) : Prog Res := do
  match ← tx (getJob t.jobID) with
  | .error e => return some (wrapErr "unknown job" e)
  | .ok j =>
    let now ← Prog.now
    let t := { t with failedAt := some now }
    match ← tx (updateTask' t.id (failTaskRow t.failedAt t.error)) with
    | .error e => return some (wrapErr "error marking task as FAILED" e)
    | .ok _ =>
      if retryEligible j.state t then
        let now ← Prog.now
        let id ← newUUID
        let sd ← seed
        match evaluateTask (evaluateTemplate C.O ⟨j.context, none⟩ sd) (retryTask t id now) with
        | (_, some e) => return some (wrapErr "error evaluating task" e)
        | (rt, none) =>
          match ← tx (createTask rt) with
          | .error e => return some (wrapErr "error creating a retry task" e)
          | .ok _ =>
            -- a publish error is only logged (error.go:77-79)
            let _ ← publish (.task QUEUE_PENDING rt)
            return none
      else
        failJob { j with state := .failed, failedAt := t.failedAt, error := t.error }

/-! ## completed.go -/

/-- The closure of `completed.go:66-76`, `139-149`, `195-205`. -/
def completeTaskRow (t u : Task) : Except Err (Unit × Task) :=
  if u.state ≠ .running ∧ u.state ≠ .scheduled ∧ u.state ≠ .skipped then
    .error "can't complete task"
  else .ok ((), { u with state := t.state, completedAt := t.completedAt, result := t.result })

/-- `u.Context.Tasks[t.Var] = t.Result` (`completed.go:106-111` and siblings). -/
def setVar (t : Task) (u : Job) : Job :=
  { u with context := { u.context with tasks := mset u.context.tasks t.var t.result } }

/-- `if t.Result != "" && t.Var != "" { tx.UpdateJob … }` -/
def contextTx (t : Task) (ds : DS) : Except Err (Unit × DS) :=
  if t.result ≠ "" ∧ t.var ≠ "" then
    match updateJob' t.jobID (setVar t) ds with
    | .ok r => .ok r
    | .error e => .error (wrapErr "error updating job in datastore" e)
  else .ok ((), ds)

/-- The transaction of a sub-task completion: complete the row, update the parent row with `m`,
update the job context. -/
def subTaskTx {γ : Type} (t : Task) (m : Task → Except Err (γ × Task)) (ds : DS) :
    Except Err (γ × DS) :=
  match updateTask t.id (completeTaskRow t) ds with
  | .error e => .error (wrapErr "error updating task in datastore" e)
  | .ok (_, ds) =>
    match updateTask t.parentID m ds with
    | .error e => .error (wrapErr "error updating task in datastore" e)
    | .ok (g, ds) =>
      match contextTx t ds with
      | .error e => .error e
      | .ok (_, ds) => .ok (g, ds)

/-- The closure of `completed.go:153-157`: the new parent row and `isLast`. (A missing `parallel`
section would be a nil dereference; it is checked just before, `completed.go:56`.) -/
def parallelRow (u : Task) : Except Err (Bool × Task) :=
  match u.parallel with
  | none => .error "nil dereference: u.Parallel"
  | some p =>
    .ok (decide (p.completions + 1 ≥ p.tasks.length),
         { u with parallel := some { p with completions := p.completions + 1 } })

/-- The closure of `completed.go:80-101` without its nested effects. -/
def eachParentRow (u : Task) : Except Err (Bool × Task) :=
  match u.each with
  | none => .error "nil dereference: u.Each"
  | some e =>
    .ok (decide (e.completions + 1 ≥ e.size),
         { u with each := some { e with completions := e.completions + 1, index := e.index + 1 } })

/-- `!isLast && u.Each.Concurrency > 0 && u.Each.Index < u.Each.Size` (`completed.go:83`). -/
def eachFires (e : EachTask Task) : Bool :=
  !(decide (e.completions + 1 ≥ e.size)) && decide (e.concurrency > 0) && decide (e.index < e.size)

/-- Whether completing `t` releases a next child, and which: the part `completed.go:80-99` of the
transaction that runs on its own connection. `.ok none`: nothing to release. -/
def eachNext (t : Task) (ds : DS) : Except Err (Option Task) :=
  match ds.task? t.id with
  | none => .error "error fetching task from db"
  | some u =>
    match completeTaskRow t u with
    | .error e => .error e
    | .ok _ =>
      match ds.task? t.parentID with
      | none => .error "error fetching task from db"
      | some p =>
        match p.each with
        | none => .error "nil dereference: u.Each"
        | some e =>
          if eachFires e then
            match getNextTask p.id ds with
            | .error err => .error err
            | .ok (next, _) => .ok (some { next with state := .pending })
          else .ok none

/-- `completed.go:62-118`: the transaction of `completeEachTask`. The release of the next child
(`h.ds.UpdateTask`, `h.broker.PublishTask`, `completed.go:84-97`) is done *inside* the closure but on
its own connection, i.e. it is committed/published even if the enclosing transaction fails; the
enclosing row locks make the whole atomic with respect to other completions. -/
def eachTx (t : Task) : DbOp Bool where
  run ds :=
    match eachNext t ds with
    | .error e => (.error (wrapErr "error updating task in datastore" e), ds, [])
    | .ok none =>
      match subTaskTx t eachParentRow ds with
      | .error e => (.error e, ds, [])
      | .ok (b, ds') => (.ok b, ds', [])
    | .ok (some next) =>
      let ds1 := ds.setTask next.id next
      match subTaskTx t eachParentRow ds1 with
      | .error e => (.error e, ds1, [.task QUEUE_PENDING next])
      | .ok (b, ds') => (.ok b, ds', [.task QUEUE_PENDING next])
  partials ds :=
    match eachNext t ds with
    | .ok (some next) =>
      let ds1 := ds.setTask next.id next
      [(ds1, []), (ds1, [.task QUEUE_PENDING next])]
    | _ => []

/-- `math.Round(x*100)/100` for `x ≥ 0` -/
def round2 (x : Rat) : Rat := ((x * 100 + 1/2).floor : Rat) / 100

/-- The closure of `completed.go:209-222`. -/
def topLevelJobRow (t : Task) (u : Job) : Job :=
  let u := { u with
    progress := round2 ((u.position : Rat) / (u.taskCount : Rat) * 100)
    position := u.position + 1 }
  if t.result ≠ "" ∧ t.var ≠ "" then setVar t u else u

/-- `completed.go:193-226`: the transaction of a top-level completion. -/
def topLevelTx (t : Task) (ds : DS) : Except Err (Unit × DS) :=
  match updateTask t.id (completeTaskRow t) ds with
  | .error e => .error (wrapErr "error updating task in datastore" e)
  | .ok (_, ds) =>
    match updateJob' t.jobID (topLevelJobRow t) ds with
    | .error e => .error (wrapErr "error updating job in datastore" e)
    | .ok r => .ok r

/-- `completed.go:191-261 completeTopLevelTask` -/
def completeTopLevelTask (C : Cfg) (t : Task) : Prog Res := do
  match ← tx (topLevelTx t) with
  | .error e => return some (wrapErr "error completing task" e)
  | .ok _ =>
    match ← tx (getJob t.jobID) with
    | .error e => return some (wrapErr "error getting job from datatstore" e)
    | .ok j =>
      let now ← Prog.now
      if j.position ≤ j.tasks.length then
        if j.position = 0 then Prog.panic "index out of range"
        else
          match j.tasks[j.position - 1]? with
          | none => Prog.panic "index out of range"
          | some next0 =>
            let id ← newUUID
            let sd ← seed
            let next := evalOrFail C j.context sd now (prepTask next0 id j.id j.position now)
            match ← tx (createTask next) with
            | .error e => return some e
            | .ok _ =>
              match ← publish (.task QUEUE_PENDING next) with
              | .error e => return some e
              | .ok _ => return none
      else
        let (r, _) ← completeJob C { j with state := .completed, completedAt := some now }
        return r

/-- `completed.go:44-189`: `completeTask`, `completeSubTask`, `completeEachTask`,
`completeParallelTask`. `fuel` bounds the (finite) chain of parents; exhausting it is a stack
overflow panic. -/
def completeTask (C : Cfg) : Nat → Task → Prog Res
  | 0, _ => Prog.panic "stack overflow"
  | fuel + 1, t => do
    if t.parentID ≠ 0 then
      match ← tx (getTask t.parentID) with
      | .error e => return some (wrapErr "error getting parent composite task" e)
      | .ok parent =>
        let r ← if parent.parallel.isSome then tx (subTaskTx t parallelRow) else txOp (eachTx t)
        match r with
        | .error e => return some (wrapErr "error completing task" e)
        | .ok isLast =>
          if isLast then
            match ← tx (getTask t.parentID) with
            | .error _ => return some "error fetching the parent task"
            | .ok parent =>
              let now ← Prog.now
              completeTask C fuel { parent with state := .completed, completedAt := some now }
          else return none
    else completeTopLevelTask C t

/-- `completed.go:35-42` -/
def completedHandler (C : Cfg) (fuel : Nat) (t : Task) : Prog (Res × Task) := do
  let now ← Prog.now
  if t.state ≠ .completed ∧ t.state ≠ .skipped then
    return (some "invalid completion state", t)
  else
    let t := { t with completedAt := some now }
    return (← completeTask C fuel t, t)

/-! ## started.go, progress.go, redelivered.go -/

/-- The closure of `started.go:58-76` -/
def startedRow (now nodeID : Nat) (u : Task) : Task :=
  let u := if u.state = .scheduled then { u with state := .running, startedAt := some now } else u
  { u with nodeID := nodeID }

/-- `started.go:30-77` -/
def startedHandler (t : Task) : Prog (Res × Task) := do
  match ← tx (getJob t.jobID) with
  | .error e => return (some e, t)
  | .ok j =>
    if j.state ≠ .running ∧ j.state ≠ .scheduled then
      let t := { t with state := .cancelled }
      match ← tx (getNode t.nodeID) with
      | .error e => return (some e, t)
      | .ok node =>
        match ← publish (.task node.queue t) with
        | .error e => return (some e, t)
        | .ok _ => return (none, t)
    else
      let r ← if j.state = .scheduled then markJobAsRunning { j with state := .running } else pure none
      match r with
      | some e => return (some e, t)
      | none =>
        let now ← Prog.now
        match ← tx (updateTask' t.id (startedRow now t.nodeID)) with
        | .error e => return (some e, t)
        | .ok _ => return (none, t)

/-- `progress.go:30-34` -/
def clampProgress (p : Rat) : Rat := if p < 0 then 0 else if p > 100 then 100 else p

/-- `progress.go:46-52` -/
def jobProgress (position taskCount : Nat) (p : Rat) : Rat :=
  if p = 0 then round2 (((position : Rat) - 1) / (taskCount : Rat) * 100)
  else round2 (((position : Rat) - 1 + p / 100) / (taskCount : Rat) * 100)

/-- `progress.go:28-60`; the final `onJob(job.Progress, j)` is a no-op without middleware. -/
def progressHandler (t : Task) : Prog (Res × Task) := do
  let t := { t with progress := clampProgress t.progress }
  match ← tx (updateTask' t.id fun u => { u with progress := t.progress }) with
  | .error e => return (some (wrapErr "error updating task progress" e), t)
  | .ok _ =>
    match ← tx (getJob t.jobID) with
    | .error e => return (some e, t)
    | .ok j =>
      let p := jobProgress j.position j.taskCount t.progress
      match ← tx (updateJob' t.jobID fun u => { u with progress := p }) with
      | .error e => return (some (wrapErr "error updating job progress" e), t)
      | .ok _ => return (none, t)

/-- `redelivered.go:14` -/
def maxRedeliveries : Nat := 5

/-- `redelivered.go:29-45` -/
def redeliveredHandler (t : Task) : Prog Res := do
  if t.redelivered ≥ maxRedeliveries then
    let now ← Prog.now
    match ← publish (.task QUEUE_ERROR { t with
        error := "task redelivered too many times", failedAt := some now, state := .failed }) with
    | .error e => return some e
    | .ok _ => return none
  else
    match ← publish (.task t.queue { t with redelivered := t.redelivered + 1 }) with
    | .error e => return some e
    | .ok _ => return none

/-! ## coordinator.go -/

/-- `coordinator.go:310-323 taskHandler` -/
def wrapTask (C : Cfg) (h : Task → Prog (Res × Task)) (t : Task) : Prog Res := do
  let (r, t) ← h t
  match r with
  | none => return none
  | some e =>
    let now ← Prog.now
    errorHandler C { t with failedAt := some now, state := .failed, error := e }

/-- `coordinator.go:325-337 jobHandler` -/
def wrapJob (C : Cfg) (j : Job) : Prog Res := do
  let (r, j) ← jobHandler C j
  match r with
  | none => return none
  | some _ =>
    let now ← Prog.now
    failJob { j with failedAt := some now, state := .failed }

/-- `error.go` as a task handler that keeps its task (for `wrapTask`): `error.go:45` sets
`FailedAt`, which the wrapper overwrites anyway. -/
def errorHandlerT (C : Cfg) (t : Task) : Prog (Res × Task) := do
  return (← errorHandler C t, t)

/-- `coordinator.go:239-288`: the handler subscribed to each coordinator queue. -/
def coordinatorHandler (C : Cfg) (fuel : Nat) : Msg → Option (Prog Res)
  | .task q t =>
    if q = QUEUE_REDELIVERIES then some (redeliveredHandler t)
    else if q = QUEUE_PENDING then some (wrapTask C (pendingHandler C) t)
    else if q = QUEUE_COMPLETED then some (wrapTask C (completedHandler C fuel) t)
    else if q = QUEUE_STARTED then some (wrapTask C startedHandler t)
    else if q = QUEUE_ERROR then some (wrapTask C (errorHandlerT C) t)
    else none
  | .job j => some (wrapJob C j)
  | .progress t => some (wrapTask C progressHandler t)
  | _ => none

end Tork
