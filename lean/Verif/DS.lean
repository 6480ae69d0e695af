import Verif.Eval
/-!
# Datastore operations used by the coordinator — model of `/repo/datastore/postgres/postgres.go`

The database is a record of row lists. Every operation is one SQL transaction: a function
`DS → Except Err (γ × DS)` which on error leaves the database as it was (`WithTx` rolls back,
`postgres.go:1615-1648`; `UpdateX` reads the row `for update` and writes it back in one
transaction). Column sizes (`varchar(n)`) are not modelled.
-/

namespace Tork

structure DS where
  tasks : List Task := []
  jobs : List Job := []
  nodes : List Node := []
  /-- the pre-created guest user, `schema.go:30` -/
  guest : User := { id := 1, username := "guest" }

instance : Inhabited DS := ⟨{}⟩

def DS.task? (ds : DS) (id : Nat) : Option Task := ds.tasks.find? (·.id = id)
def DS.job? (ds : DS) (id : Nat) : Option Job := ds.jobs.find? (·.id = id)
def DS.node? (ds : DS) (id : Nat) : Option Node := ds.nodes.find? (·.id = id)

/-- `postgres.go:399-401` -/
def sanitizeString (s : String) : String := String.ofList (s.toList.filter (· ≠ Char.ofNat 0))

/-- The row written by `CreateTask` (`postgres.go:210-397`, columns `schema.go:126-168`) and read back
by `toTask` (`record.go:160-282`): there is no column for `probe` and `redelivered`, and `progress`
is not inserted (default 0). -/
def taskRow (t : Task) : Task :=
  { t with
    error := sanitizeString t.error
    result := sanitizeString t.result
    probe := none
    redelivered := 0
    progress := 0 }

/-- `postgres.go:210-397 CreateTask`; primary key on `id`, foreign key to `jobs`,
`created_at not null`. -/
def createTask (t : Task) (ds : DS) : Except Err (Unit × DS) :=
  if (ds.task? t.id).isSome then .error "error inserting task to the db"
  else if (ds.job? t.jobID).isNone then .error "error inserting task to the db"
  else if t.createdAt.isNone then .error "error inserting task to the db"
  else .ok ((), { ds with tasks := ds.tasks ++ [taskRow t] })

/-- `postgres.go:403-412` -/
def getTask (id : Nat) (ds : DS) : Except Err (Task × DS) :=
  match ds.task? id with
  | none => .error "task not found"
  | some t => .ok (t, ds)

/-- The `update tasks set …` statement, `postgres.go:471-516`: only these columns are written. -/
def persistTask (old u : Task) : Task :=
  { old with
    position := u.position
    state := u.state
    scheduledAt := u.scheduledAt
    startedAt := u.startedAt
    completedAt := u.completedAt
    failedAt := u.failedAt
    error := sanitizeString u.error
    nodeID := u.nodeID
    result := sanitizeString u.result
    each := u.each
    subJob := u.subJob
    parallel := u.parallel
    limits := u.limits
    timeout := u.timeout
    retry := u.retry
    queue := u.queue
    progress := u.progress
    priority := u.priority }

def DS.setTask (ds : DS) (id : Nat) (u : Task) : DS :=
  { ds with tasks := ds.tasks.map fun r => if r.id = id then persistTask r u else r }

/-- `postgres.go:414-522 UpdateTask`. The closure `m` may also compute a value (Go: captured
variables). -/
def updateTask {γ : Type} (id : Nat) (m : Task → Except Err (γ × Task)) (ds : DS) :
    Except Err (γ × DS) :=
  match ds.task? id with
  | none => .error "error fetching task from db"
  | some t =>
    match m t with
    | .error e => .error e
    | .ok (g, u) => .ok (g, ds.setTask id u)

/-- `UpdateTask` with a closure that cannot fail and returns nothing. -/
def updateTask' (id : Nat) (m : Task → Task) (ds : DS) : Except Err (Unit × DS) :=
  updateTask id (fun u => .ok ((), m u)) ds

/-- The row inserted by `CreateJob` (`postgres.go:593-694`) as read back by `toJob`
(`record.go:316-396`): completion/failure/deletion times and progress are not inserted, the cron
expression of the schedule is not stored. -/
def jobRow (guest : User) (j : Job) : Job :=
  { j with
    createdBy := some (j.createdBy.getD guest)
    completedAt := none
    failedAt := none
    deleteAt := none
    progress := 0
    execution := []
    schedule := match j.schedule with
      | some s => if s.id = 0 then none else some { id := s.id }
      | none => none }

/-- `postgres.go:593-694 CreateJob`. -/
def createJob (j : Job) (ds : DS) : Except Err (Unit × DS) :=
  if j.id = 0 then .error "job id must not be empty"
  else if (ds.job? j.id).isSome then .error "error inserting job to the db"
  else .ok ((), { ds with jobs := ds.jobs ++ [jobRow ds.guest j] })

/-- `postgres.go:784-842 GetJobByID`. Simplification: the `execution` list (all task rows of the job)
is left empty; no handler reads it. -/
def getJob (id : Nat) (ds : DS) : Except Err (Job × DS) :=
  match ds.job? id with
  | none => .error "job not found"
  | some j => .ok (j, ds)

/-- The `update jobs set …` statement, `postgres.go:767-780`. -/
def persistJob (old u : Job) : Job :=
  { old with
    state := u.state
    startedAt := u.startedAt
    completedAt := u.completedAt
    failedAt := u.failedAt
    position := u.position
    context := u.context
    result := u.result
    error := u.error
    deleteAt := u.deleteAt
    progress := u.progress }

def DS.setJob (ds : DS) (id : Nat) (u : Job) : DS :=
  { ds with jobs := ds.jobs.map fun r => if r.id = id then persistJob r u else r }

/-- `postgres.go:732-782 UpdateJob`. -/
def updateJob {γ : Type} (id : Nat) (m : Job → Except Err (γ × Job)) (ds : DS) :
    Except Err (γ × DS) :=
  match ds.job? id with
  | none => .error "error fetching job from db"
  | some j =>
    match m j with
    | .error e => .error e
    | .ok (g, u) => .ok (g, ds.setJob id u)

def updateJob' (id : Nat) (m : Job → Job) (ds : DS) : Except Err (Unit × DS) :=
  updateJob id (fun u => .ok ((), m u)) ds

/-- `postgres.go:844-865 GetActiveTasks`. Simplification: the `order by` is not modelled (row order). -/
def getActiveTasks (jobID : Nat) (ds : DS) : Except Err (List Task × DS) :=
  .ok (ds.tasks.filter (fun t => t.jobID = jobID && t.state.isActive), ds)

/-- `postgres.go:867-876 GetNextTask` (`limit 1` without order: the first row stands for any). -/
def getNextTask (parentID : Nat) (ds : DS) : Except Err (Task × DS) :=
  match ds.tasks.find? (fun t => t.parentID = parentID && t.state = .created) with
  | none => .error "task not found"
  | some t => .ok (t, ds)

/-- `postgres.go:564-573 GetNodeByID` (the OFFLINE computation of `toNode` is in `Node.lean`). -/
def getNode (id : Nat) (ds : DS) : Except Err (Node × DS) :=
  match ds.node? id with
  | none => .error "node not found"
  | some n => .ok (n, ds)

end Tork
