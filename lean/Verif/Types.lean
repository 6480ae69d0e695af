/-!
# Domain types

Models the record types of `/repo/task.go`, `/repo/job.go`, `/repo/mount.go`, `/repo/node.go`,
`/repo/user.go`, `/repo/role.go`.

Conventions (all simplifications are listed in DESIGN.md):
* identifiers (UUID strings) are `Nat`, `0` is the empty string;
* other Go strings are `String`;
* `map[string]string` is an association list `StrMap` (order = the arbitrary iteration order);
  `nil` and the empty map are identified;
* slices are lists (`nil` and empty identified), pointers are `Option`;
* `time.Time` is a `Nat` tick, `*time.Time` an `Option Nat`;
* `float64` is an exact rational.
-/

namespace Tork

/-- Go `map[string]string`. -/
abbrev StrMap := List (String × String)

/-- Go `m[k]` (with presence flag). -/
def mget (m : StrMap) (k : String) : Option String :=
  match m with
  | [] => none
  | (k', v) :: m => if k' = k then some v else mget m k

/-- Go `m[k] = v`. -/
def mset (m : StrMap) (k v : String) : StrMap :=
  match m with
  | [] => [(k, v)]
  | (k', v') :: m => if k' = k then (k, v) :: m else (k', v') :: mset m k v

/-- `/repo/task.go:12-24` the task states; `unset` is the zero value `""`. -/
inductive TaskState
  | unset | created | pending | scheduled | running | cancelled | stopped
  | completed | failed | skipped
  deriving DecidableEq, Repr, Inhabited

/-- `/repo/job.go:9-19` the job states; `unset` is the zero value `""`. -/
inductive JobState
  | unset | pending | scheduled | running | cancelled | completed | failed | restart
  deriving DecidableEq, Repr, Inhabited

/-- `/repo/task.go:140-143` -/
structure TaskRetry where
  limit : Nat := 0
  attempts : Nat := 0
  deriving DecidableEq, Repr

/-- `/repo/task.go:145-148` -/
structure TaskLimits where
  cpus : String := ""
  memory : String := ""
  deriving DecidableEq, Repr

/-- `/repo/task.go:150-153` -/
structure Registry where
  username : String := ""
  password : String := ""
  deriving DecidableEq, Repr

/-- `/repo/task.go:155-159` -/
structure Probe where
  path : String := ""
  port : Nat := 0
  timeout : String := ""
  deriving DecidableEq, Repr

/-- `/repo/mount.go:11-17` -/
structure Mount where
  id : Nat := 0
  type : String := ""
  source : String := ""
  target : String := ""
  opts : StrMap := []
  deriving DecidableEq, Repr

/-- `/repo/job.go:143-145` -/
structure AutoDelete where
  after : String := ""
  deriving DecidableEq, Repr

/-- `/repo/job.go:162-167`; the Go field `If` is `cond`. -/
structure Webhook where
  url : String := ""
  headers : StrMap := []
  event : String := ""
  cond : String := ""
  deriving DecidableEq, Repr

/-- `/repo/task.go:120-123`, parametrised by the task type to allow the recursion. -/
structure ParallelTask (T : Type) where
  tasks : List T := []
  completions : Nat := 0

/-- `/repo/task.go:125-133`; `task` is a non-nil pointer in every accepted job
(`/repo/input/task.go:69`, `required`), so it is not optional here. -/
structure EachTask (T : Type) where
  var : String := ""
  list : String := ""
  task : T
  size : Nat := 0
  completions : Nat := 0
  concurrency : Nat := 0
  index : Nat := 0

/-- `/repo/task.go:107-118` -/
structure SubJobTask (T : Type) where
  id : Nat := 0
  name : String := ""
  description : String := ""
  tasks : List T := []
  inputs : StrMap := []
  secrets : StrMap := []
  autoDelete : Option AutoDelete := none
  output : String := ""
  detached : Bool := false
  webhooks : List Webhook := []

/-- `/repo/task.go:34-79`, field by field (`If` is `cond`). -/
structure Task where
  id : Nat := 0
  jobID : Nat := 0
  parentID : Nat := 0
  position : Nat := 0
  name : String := ""
  description : String := ""
  state : TaskState := .unset
  createdAt : Option Nat := none
  scheduledAt : Option Nat := none
  startedAt : Option Nat := none
  completedAt : Option Nat := none
  failedAt : Option Nat := none
  cmd : List String := []
  entrypoint : List String := []
  run : String := ""
  image : String := ""
  registry : Option Registry := none
  env : StrMap := []
  files : StrMap := []
  queue : String := ""
  redelivered : Nat := 0
  error : String := ""
  pre : List Task := []
  post : List Task := []
  sidecars : List Task := []
  mounts : List Mount := []
  networks : List String := []
  nodeID : Nat := 0
  retry : Option TaskRetry := none
  limits : Option TaskLimits := none
  timeout : String := ""
  result : String := ""
  var : String := ""
  cond : String := ""
  parallel : Option (ParallelTask Task) := none
  each : Option (EachTask Task) := none
  subJob : Option (SubJobTask Task) := none
  gpus : String := ""
  tags : List String := []
  workdir : String := ""
  priority : Nat := 0
  progress : Rat := 0
  probe : Option Probe := none

instance : Inhabited Task := ⟨{}⟩

/-- `/repo/role.go:9-14` -/
structure Role where
  id : Nat := 0
  slug : String := ""
  name : String := ""
  createdAt : Option Nat := none
  deriving DecidableEq, Repr

/-- `/repo/user.go:12-20` -/
structure User where
  id : Nat := 0
  name : String := ""
  username : String := ""
  passwordHash : String := ""
  password : String := ""
  createdAt : Option Nat := none
  disabled : Bool := false
  deriving DecidableEq, Repr

/-- `/repo/job.go:138-141`; exactly one of the two pointers is meant to be set. -/
structure Permission where
  role : Option Role := none
  user : Option User := none
  deriving DecidableEq, Repr

/-- `/repo/job.go:147-152` -/
structure JobContext where
  job : StrMap := []
  inputs : StrMap := []
  secrets : StrMap := []
  tasks : StrMap := []
  deriving DecidableEq, Repr

/-- `/repo/job.go:154-160` -/
structure JobDefaults where
  retry : Option TaskRetry := none
  limits : Option TaskLimits := none
  timeout : String := ""
  queue : String := ""
  priority : Nat := 0
  deriving DecidableEq, Repr

/-- `/repo/job.go:78-81` -/
structure JobSchedule where
  id : Nat := 0
  cron : String := ""
  deriving DecidableEq, Repr

/-- `/repo/job.go:28-57` -/
structure Job where
  id : Nat := 0
  parentID : Nat := 0
  name : String := ""
  description : String := ""
  tags : List String := []
  state : JobState := .unset
  createdAt : Nat := 0
  createdBy : Option User := none
  startedAt : Option Nat := none
  completedAt : Option Nat := none
  failedAt : Option Nat := none
  tasks : List Task := []
  execution : List Task := []
  position : Nat := 0
  inputs : StrMap := []
  context : JobContext := {}
  taskCount : Nat := 0
  output : String := ""
  result : String := ""
  error : String := ""
  defaults : Option JobDefaults := none
  webhooks : List Webhook := []
  permissions : List Permission := []
  autoDelete : Option AutoDelete := none
  deleteAt : Option Nat := none
  secrets : StrMap := []
  progress : Rat := 0
  schedule : Option JobSchedule := none

instance : Inhabited Job := ⟨{}⟩

/-- `/repo/job.go:21-26` -/
inductive ScheduledJobState
  | active | paused
  deriving DecidableEq, Repr, Inhabited

/-- `/repo/job.go:59-76` -/
structure ScheduledJob where
  id : Nat := 0
  name : String := ""
  description : String := ""
  cron : String := ""
  state : ScheduledJobState := .active
  inputs : StrMap := []
  tasks : List Task := []
  createdBy : Option User := none
  defaults : Option JobDefaults := none
  autoDelete : Option AutoDelete := none
  webhooks : List Webhook := []
  permissions : List Permission := []
  createdAt : Nat := 0
  tags : List String := []
  secrets : StrMap := []
  output : String := ""

instance : Inhabited ScheduledJob := ⟨{}⟩

/-- `/repo/node.go:10-16` -/
inductive NodeStatus
  | up | down | offline
  deriving DecidableEq, Repr, Inhabited

/-- `/repo/node.go:18-30` -/
structure Node where
  id : Nat := 0
  name : String := ""
  startedAt : Nat := 0
  cpuPercent : Rat := 0
  lastHeartbeatAt : Nat := 0
  queue : String := ""
  status : NodeStatus := .up
  hostname : String := ""
  port : Nat := 0
  taskCount : Nat := 0
  version : String := ""

instance : Inhabited Node := ⟨{}⟩

/-- `/repo/task.go:99-105` -/
structure TaskLogPart where
  id : Nat := 0
  number : Nat := 0
  taskID : Nat := 0
  contents : String := ""
  createdAt : Option Nat := none
  deriving DecidableEq, Repr

/-- `/repo/task.go:26-31` `TaskStateActive` and `/repo/task.go:161-163` `IsActive`. -/
def TaskState.isActive : TaskState → Bool
  | .created | .pending | .scheduled | .running => true
  | _ => false

end Tork
