import Verif.DS
/-!
# Specification of the life cycle of jobs and tasks

What may happen to the database in one atomic step of the system, in terms of rows only.
Nothing here refers to handlers.
-/

namespace Tork

/-- The documented life cycle of a job. -/
inductive JobEdge (restartRequested : Prop) : JobState → JobState → Prop
  | start : JobEdge restartRequested .pending .scheduled
  | run : JobEdge restartRequested .scheduled .running
  | complete {s : JobState} : s = .scheduled ∨ s = .running → JobEdge restartRequested s .completed
  | fail {s : JobState} : s = .scheduled ∨ s = .running → JobEdge restartRequested s .failed
  | cancel {s : JobState} : s = .scheduled ∨ s = .running → JobEdge restartRequested s .cancelled
  | restart {s : JobState} : restartRequested → s = .failed ∨ s = .cancelled →
      JobEdge restartRequested s .running

/-- A task that has sub-tasks or a sub-job instead of work of its own. -/
def Task.composite (t : Task) : Bool := t.parallel.isSome || t.each.isSome || t.subJob.isSome

/-- The changes of a task's state that can be observed. -/
inductive TaskEdge (composite : Bool) : TaskState → TaskState → Prop
  | cancel (s : TaskState) : TaskEdge composite s .cancelled
  | schedule (s : TaskState) : TaskEdge composite s .scheduled
  | skip (s : TaskState) : TaskEdge composite s .skipped
  /-- a composite task is RUNNING as soon as its parts are handed out -/
  | compose (s : TaskState) : composite = true → TaskEdge composite s .running
  /-- a worker reported the start -/
  | start : TaskEdge composite .scheduled .running
  | complete {s : TaskState} : s = .running ∨ s = .scheduled ∨ s = .skipped → TaskEdge composite s .completed
  | fail {s : TaskState} : s.isActive = true → TaskEdge composite s .failed
  /-- a waiting child of an `each` task is released -/
  | release : TaskEdge composite .created .pending

/-- The number of sub-task completions recorded on a composite task. -/
def Task.count (t : Task) : Nat :=
  match t.parallel with
  | some p => p.completions
  | none => match t.each with | some e => e.completions | none => 0

/-- The number of branches of a parallel task. -/
def Task.branches (t : Task) : Nat := match t.parallel with | some p => p.tasks.length | none => 0

/-- The task stands for a detached sub-job. -/
def Task.detachedSub (t : Task) : Bool := match t.subJob with | some s => s.detached | none => false

/-- A row is finished in this step. -/
def Finishes (a b : Task) : Prop :=
  (a.state = .running ∨ a.state = .scheduled ∨ a.state = .skipped) ∧
  (b.state = .completed ∨ b.state = .skipped) ∧ b.completedAt.isSome

/-- The result `r` of a task with variable `v` recorded in a context; without a variable or a result nothing is recorded. -/
def recordIn (c : JobContext) (v r : String) : JobContext :=
  if r ≠ "" ∧ v ≠ "" then { c with tasks := mset c.tasks v r } else c

/-- The task rows `a` and `b` differ at most in the columns that record execution (state, timestamps,
error, result, node, counters, and the values the scheduler fills in); identity, place in the job and
kind of task are the same. -/
def SameTask (a b : Task) : Prop :=
  a = { b with
    state := a.state, scheduledAt := a.scheduledAt, startedAt := a.startedAt
    completedAt := a.completedAt, failedAt := a.failedAt, error := a.error, nodeID := a.nodeID
    result := a.result, each := a.each, subJob := a.subJob, parallel := a.parallel
    limits := a.limits, timeout := a.timeout, retry := a.retry, queue := a.queue
    progress := a.progress, priority := a.priority } ∧
  b.parallel.isSome = a.parallel.isSome ∧ b.each.isSome = a.each.isSome ∧
  b.subJob.isSome = a.subJob.isSome ∧ b.branches = a.branches ∧ b.detachedSub = a.detachedSub

/-- The job rows `a` and `b` differ at most in the columns that record execution. -/
def SameJob (a b : Job) : Prop :=
  a = { b with
    state := a.state, startedAt := a.startedAt, completedAt := a.completedAt, failedAt := a.failedAt
    position := a.position, context := a.context, result := a.result, error := a.error
    deleteAt := a.deleteAt, progress := a.progress }

/-- One atomic step of the system as seen in the database. -/
structure DsStep (restartRequested : Nat → Prop) (ds ds' : DS) : Prop where
  /-- task rows are never removed, and change along the life cycle only -/
  tasks : ∀ id a, ds.task? id = some a → ∃ b, ds'.task? id = some b ∧ SameTask a b ∧
    (b.state = a.state ∨ TaskEdge a.composite a.state b.state)
  newTasks : ∀ id b, ds.task? id = none → ds'.task? id = some b →
    (b.state = .pending ∨ b.state = .created ∨ b.state = .failed) ∧ b.count = 0
  /-- job rows are never removed, and change along the life cycle only -/
  jobs : ∀ id a, ds.job? id = some a → ∃ b, ds'.job? id = some b ∧ SameJob a b ∧
    (b.state = a.state ∨ JobEdge (restartRequested id) a.state b.state)
  newJobs : ∀ id b, ds.job? id = none → ds'.job? id = some b →
    b.state = .pending ∧ b.position = 0 ∧ b.context.tasks = []
  /-- a job's position is set to 1 when it starts and otherwise moves by one exactly when
  one of its top-level tasks finishes, whose result is recorded -/
  advance : ∀ id a b, ds.job? id = some a → ds'.job? id = some b → b.position ≠ a.position →
    (a.state = .pending ∧ a.position = 0 ∧ b.state = .scheduled ∧ b.position = 1 ∧ b.context = a.context) ∨
    (a.state ≠ .pending ∧ b.position = a.position + 1 ∧ ∃ tid c c', ds.task? tid = some c ∧
      ds'.task? tid = some c' ∧ c.jobID = id ∧ c.parentID = 0 ∧ Finishes c c' ∧
      (∀ x, x ≠ tid → ds'.task? x = ds.task? x) ∧
      ∃ r, c'.result = sanitizeString r ∧ b.context = recordIn a.context c.var r)
  /-- a composite task's counter moves by one exactly when one of its children finishes -/
  counted : ∀ id a b, ds.task? id = some a → ds'.task? id = some b → b.count ≠ a.count →
    b.count = a.count + 1 ∧ ∃ tid c c', ds.task? tid = some c ∧ ds'.task? tid = some c' ∧
      c.parentID = id ∧ Finishes c c'
  /-- no completion is lost -/
  done : ∀ id a b, ds.task? id = some a → ds'.task? id = some b → a.state ≠ .completed →
    b.state = .completed →
    (a.parentID = 0 → ∃ j j', ds.job? a.jobID = some j ∧ ds'.job? a.jobID = some j' ∧
      j.state ≠ .pending ∧ j'.position = j.position + 1) ∧
    (a.parentID ≠ 0 → ∃ p p', ds.task? a.parentID = some p ∧ ds'.task? a.parentID = some p' ∧
      p'.count = p.count + 1)
  /-- the context of a job changes only when one of its tasks finishes: the task's variable is set to its
  result -/
  context : ∀ id a b, ds.job? id = some a → ds'.job? id = some b → b.context ≠ a.context →
    ∃ tid c c' r, ds.task? tid = some c ∧ ds'.task? tid = some c' ∧ c.jobID = id ∧ Finishes c c' ∧
      c.var ≠ "" ∧ r ≠ "" ∧ c'.result = sanitizeString r ∧
      b.context = { a.context with tasks := mset a.context.tasks c.var r } ∧
      (c.parentID = 0 → b.position = a.position + 1)
  /-- no result is lost -/
  recorded : ∀ id a b, ds.task? id = some a → ds'.task? id = some b → a.state ≠ .completed →
    b.state = .completed → ∃ r, b.result = sanitizeString r ∧ (r ≠ "" → a.var ≠ "" →
      ∃ j j', ds.job? a.jobID = some j ∧ ds'.job? a.jobID = some j' ∧
        j'.context = { j.context with tasks := mset j.context.tasks a.var r })

end Tork
