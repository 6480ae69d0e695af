import Verif.World
/-!
# Submission — model of `/repo/input/*.go` and `SubmitJob` / `deleteQueue` of
`/repo/internal/coordinator/api/api.go:265-277, 363-387`, `/repo/broker/queues.go:49-70`

`validator.Struct` (go-playground) visits the struct: every `validate` tag of every field, nested structs and non-nil
pointers to structs, slices only with `dive`; registered struct-level functions run on every visited value of their
type. It returns an error iff some rule reported one, so `Validate` is the conjunction of the rules. `required` on a
slice means non-nil; on a struct it is a no-op. Integers of the request are `Int` (they can be negative).
`SubJob.ID` of the request is ignored by `toTask` and left out.
-/

namespace Tork

namespace Inp

/-- `input/task.go:78-81` -/
structure Limits where
  cpus : String := ""
  memory : String := ""
/-- `input/task.go:83-86` -/
structure Registry where
  username : String := ""
  password : String := ""
/-- `input/task.go:74-76` -/
structure Retry where
  limit : Int := 0
/-- `input/task.go:88-93` -/
structure Mount where
  type : String := ""
  source : String := ""
  target : String := ""
  opts : StrMap := []
/-- `input/task.go:122-126` -/
structure Probe where
  path : String := ""
  port : Int := 0
  timeout : String := ""
/-- `input/job.go:62-64` -/
structure AutoDelete where
  after : String := ""
/-- `input/job.go:66-71` -/
structure Webhook where
  url : String := ""
  headers : StrMap := []
  event : String := ""
  cond : String := ""
/-- `input/job.go:73-76` -/
structure Permission where
  user : String := ""
  role : String := ""
/-- `input/job.go:50-56` -/
structure Defaults where
  retry : Option Retry := none
  limits : Option Limits := none
  timeout : String := ""
  queue : String := ""
  priority : Int := 0
/-- `input/task.go:95-106`; also `SidecarTask` (`:108-120`), which adds `probe`. -/
structure AuxTask where
  name : String := ""
  description : String := ""
  cmd : List String := []
  entrypoint : List String := []
  run : String := ""
  image : String := ""
  registry : Option Registry := none
  env : StrMap := []
  files : StrMap := []
  timeout : String := ""
  /-- only `SidecarTask` -/
  probe : Option Probe := none

/-- `input/task.go:63-68` -/
structure Each (T : Type) where
  var : String := ""
  list : String := ""
  task : T
  concurrency : Int := 0
/-- `input/task.go:70-72` -/
structure Parallel (T : Type) where
  tasks : List T
/-- `input/task.go:50-61`; `tasks = none` is a missing (nil) list. -/
structure SubJob (T : Type) where
  name : String := ""
  description : String := ""
  tasks : Option (List T) := none
  inputs : StrMap := []
  secrets : StrMap := []
  autoDelete : Option AutoDelete := none
  output : String := ""
  detached : Bool := false
  webhooks : List Webhook := []

/-- `input/task.go:8-37` -/
structure Task where
  name : String := ""
  description : String := ""
  cmd : List String := []
  entrypoint : List String := []
  run : String := ""
  image : String := ""
  registry : Option Registry := none
  env : StrMap := []
  files : StrMap := []
  queue : String := ""
  pre : List AuxTask := []
  post : List AuxTask := []
  sidecars : List AuxTask := []
  mounts : List Mount := []
  networks : List String := []
  retry : Option Retry := none
  limits : Option Limits := none
  timeout : String := ""
  var : String := ""
  cond : String := ""
  parallel : Option (Parallel Task) := none
  each : Option (Each Task) := none
  subJob : Option (SubJob Task) := none
  gpus : String := ""
  tags : List String := []
  workdir : String := ""
  priority : Int := 0

/-- `input/job.go:11-25`; `wait` is the timeout of `*Wait` (`:27-29`). -/
structure Job where
  name : String := ""
  description : String := ""
  tags : List String := []
  tasks : List Task := []
  inputs : StrMap := []
  secrets : StrMap := []
  output : String := ""
  defaults : Option Defaults := none
  webhooks : List Webhook := []
  permissions : List Permission := []
  autoDelete : Option AutoDelete := none
  wait : Option String := none

/-- What validation asks of the outside: `eval.ValidExpr`, `time.ParseDuration`, `ds.GetUser`, `ds.GetRole`. -/
structure Checks where
  validExpr : String → Bool
  validDuration : String → Bool
  userExists : String → Bool
  roleExists : String → Bool

/-- `validate.go:54-60` -/
def vExpr (c : Checks) (v : String) : Bool := if v = "" then true else c.validExpr v
/-- `validate.go:109-116` -/
def vDuration (c : Checks) (v : String) : Bool := if v = "" then true else c.validDuration v
/-- `validate.go:118-130` -/
def vQueue (v : String) : Bool :=
  if v = "" then true else if isExclusiveQueue v then false else if isCoordinatorQueue v then false else true

/-- the character class of `mountPattern`, `validate.go:17-19` -/
def mountChar (ch : Char) : Bool :=
  ch = '-' || ch = '/' || ch = '.' || ('0' ≤ ch && ch ≤ '9') || ('a' ≤ ch && ch ≤ 'z') || ('A' ≤ ch && ch ≤ 'Z') ||
  ch = '_' || ch = '=' || ch = ' '

/-- `mountPattern.MatchString` -/
def mountMatch (s : String) : Bool := s ≠ "" && s.toList.all mountChar

/-- `validate.go:62-79 validateMount` -/
def vMount (m : Mount) : Bool :=
  if m.type = "" then false
  else if m.type = "volume" ∧ m.source ≠ "" then false
  else if m.type = "volume" ∧ m.target = "" then false
  else if m.type = "bind" ∧ m.source = "" then false
  else if m.source ≠ "" ∧ mountMatch m.source = false then false
  else if m.target ≠ "" ∧ mountMatch m.target = false then false
  else if m.target = "/tork" then false
  else true

/-- `validate.go:87-107 validatePermission` -/
def vPermission (c : Checks) (p : Permission) : Bool :=
  !(p.role = "" && p.user = "") && !(p.role ≠ "" && p.user ≠ "") &&
  (p.user = "" || c.userExists p.user) && (p.role = "" || c.roleExists p.role)

/-- tags of `Retry` (`required,min=1,max=10`) -/
def vRetry (r : Option Retry) : Bool :=
  match r with
  | none => true
  | some r => r.limit ≠ 0 && 1 ≤ r.limit && r.limit ≤ 10

/-- tags of `Webhook` -/
def vWebhook (c : Checks) (w : Webhook) : Bool := w.url ≠ "" && vExpr c w.cond

/-- tags of `AutoDelete` -/
def vAutoDelete (c : Checks) (a : Option AutoDelete) : Bool :=
  match a with
  | none => true
  | some a => vDuration c a.after

/-- tags of `Probe` -/
def vProbe (c : Checks) (p : Option Probe) : Bool :=
  match p with
  | none => true
  | some p => p.path ≠ "" && p.path.length ≤ 256 && p.port ≠ 0 && 1 ≤ p.port && p.port ≤ 65535 && vDuration c p.timeout

/-- tags of `AuxTask` and `SidecarTask`: the name is required; the timeout has no rule. -/
def vAux (c : Checks) (t : AuxTask) : Bool := t.name ≠ "" && vProbe c t.probe

/-- tags of `Defaults` -/
def vDefaults (c : Checks) (d : Option Defaults) : Bool :=
  match d with
  | none => true
  | some d => vRetry d.retry && vDuration c d.timeout && vQueue d.queue && 0 ≤ d.priority && d.priority ≤ 9

/-- `validate.go:137-155 taskTypeValidation` -/
def vKind (t : Task) : Bool :=
  !(t.parallel.isSome && t.each.isSome) && !(t.parallel.isSome && t.subJob.isSome) &&
  !(t.each.isSome && t.subJob.isSome)

/-- `validate.go:157-199 compositeTaskValidation` -/
def vComposite (t : Task) : Bool :=
  if t.parallel.isNone && t.each.isNone && t.subJob.isNone then true
  else t.image = "" && t.cmd.isEmpty && t.entrypoint.isEmpty && t.run = "" && t.env.isEmpty && t.queue = "" &&
    t.pre.isEmpty && t.post.isEmpty && t.mounts.isEmpty && t.retry.isNone && t.limits.isNone && t.timeout = ""

/-- The rules of one `Task` value that do not visit other tasks: tags and struct-level functions. -/
def vTaskHere (c : Checks) (t : Task) : Bool :=
  t.name ≠ "" && vQueue t.queue && t.pre.all (vAux c) && t.post.all (vAux c) && t.sidecars.all (vAux c) &&
  t.mounts.all vMount && vRetry t.retry && vDuration c t.timeout && t.var.length ≤ 64 && vExpr c t.cond &&
  t.workdir.length ≤ 256 && 0 ≤ t.priority && t.priority ≤ 9 && vKind t && vComposite t

/-- tags of `SubJob`; `Tasks` has `required` but no `dive`: its tasks are not visited. -/
def vSubJob (c : Checks) (s : Option (SubJob Task)) : Bool :=
  match s with
  | none => true
  | some s => s.name ≠ "" && s.tasks.isSome && vAutoDelete c s.autoDelete && s.webhooks.all (vWebhook c)

mutual
/-- The visit of a `Task` value. -/
def vTask (c : Checks) : Task → Bool
  | t@{ parallel := par, each := ea, .. } =>
    vTaskHere c t && vPar c par && vEach c ea && vSubJob c t.subJob
/-- `dive` -/
def vTasks (c : Checks) : List Task → Bool
  | [] => true
  | t :: ts => vTask c t && vTasks c ts
/-- tags of `Parallel` (`required,min=1,dive`) -/
def vPar (c : Checks) : Option (Parallel Task) → Bool
  | none => true
  | some { tasks := ts } => !ts.isEmpty && vTasks c ts
/-- tags of `Each`; the nested task is a struct and therefore visited -/
def vEach (c : Checks) : Option (Each Task) → Bool
  | none => true
  | some { var := _, list := l, task := t, concurrency := k } =>
    l ≠ "" && vExpr c l && vTask c t && 0 ≤ k && k ≤ 99999
end

/-- tags of `Wait` (`duration,required`), `input/job.go:27-29` -/
def vWait (c : Checks) (w : Option String) : Bool :=
  match w with
  | none => true
  | some w => vDuration c w && w ≠ ""

/-- `validate.go:21-36 Validate` -/
def validate (c : Checks) (j : Job) : Bool :=
  j.name ≠ "" && !j.tasks.isEmpty && vTasks c j.tasks && vExpr c j.output && vDefaults c j.defaults &&
  j.webhooks.all (vWebhook c) && j.permissions.all (vPermission c) && vAutoDelete c j.autoDelete &&
  vWait c j.wait

/-! ## Conversion -/

/-- `input/task.go:299-305` -/
def Retry.toRetry (r : Retry) : TaskRetry := { limit := r.limit.toNat }
/-- `input/task.go:292-297` -/
def Limits.toLimits (l : Limits) : TaskLimits := { cpus := l.cpus, memory := l.memory }
/-- `input/task.go:136-142` etc. -/
def Registry.toRegistry (r : Registry) : Tork.Registry := { username := r.username, password := r.password }
/-- `input/task.go:128-135` -/
def Mount.toMount (m : Mount) : Tork.Mount := { type := m.type, source := m.source, target := m.target, opts := m.opts }
/-- `input/job.go:195-202` -/
def Webhook.toWebhook (w : Webhook) : Tork.Webhook := { url := w.url, headers := w.headers, event := w.event, cond := w.cond }
/-- `input/job.go:204-216` -/
def Permission.toPermission (p : Permission) : Tork.Permission :=
  if p.role ≠ "" then { role := some { slug := p.role } } else { user := some { username := p.user } }
/-- `input/task.go:166-172` -/
def Probe.toProbe (p : Probe) : Tork.Probe := { path := p.path, port := p.port.toNat, timeout := p.timeout }
/-- `input/job.go:181-193` -/
def Defaults.toDefaults (d : Defaults) : JobDefaults :=
  { retry := d.retry.map Retry.toRetry, limits := d.limits.map Limits.toLimits, timeout := d.timeout
    queue := d.queue, priority := d.priority.toNat }

/-- `input/task.go:137-156` (`AuxTask`) and `:158-187` (`SidecarTask`) -/
def AuxTask.toTask (i : AuxTask) : Tork.Task :=
  { name := i.name, description := i.description, cmd := i.cmd, entrypoint := i.entrypoint, run := i.run
    image := i.image, env := i.env, timeout := i.timeout, files := i.files
    registry := i.registry.map Registry.toRegistry, probe := i.probe.map Probe.toProbe }

mutual
/-- `input/task.go:189-265 toTask` -/
def Task.toTask : Task → Tork.Task
  | i@{ parallel := par, each := ea, subJob := sj, .. } =>
    { name := i.name, description := i.description, cmd := i.cmd, entrypoint := i.entrypoint, run := i.run
      image := i.image, registry := i.registry.map Registry.toRegistry, env := i.env, files := i.files
      queue := i.queue, pre := i.pre.map AuxTask.toTask, post := i.post.map AuxTask.toTask
      sidecars := i.sidecars.map AuxTask.toTask, mounts := i.mounts.map Mount.toMount, networks := i.networks
      retry := i.retry.map Retry.toRetry, limits := i.limits.map Limits.toLimits, timeout := i.timeout
      var := i.var, cond := i.cond, parallel := toPar par, each := toEach ea, subJob := toSubJob sj
      gpus := i.gpus, tags := i.tags, workdir := i.workdir, priority := i.priority.toNat }
/-- `input/task.go:283-290 toTasks` -/
def toTasks : List Task → List Tork.Task
  | [] => []
  | t :: ts => t.toTask :: toTasks ts
/-- `input/task.go:229-233` -/
def toPar : Option (Parallel Task) → Option (ParallelTask Tork.Task)
  | none => none
  | some { tasks := ts } => some { tasks := toTasks ts }
/-- `input/task.go:201-208` -/
def toEach : Option (Each Task) → Option (EachTask Tork.Task)
  | none => none
  | some { var := v, list := l, task := t, concurrency := k } =>
    some { var := v, list := l, task := t.toTask, concurrency := k.toNat }
/-- `input/task.go:209-227` -/
def toSubJob : Option (SubJob Task) → Option (SubJobTask Tork.Task)
  | none => none
  | some { name := n, description := d, tasks := ts, inputs := inp, secrets := sec, autoDelete := ad, output := o,
           detached := det, webhooks := wh } =>
    some { name := n, description := d, tasks := toSubTasks ts, inputs := inp, secrets := sec, output := o
           detached := det, webhooks := wh.map Webhook.toWebhook
           autoDelete := ad.map fun a => { after := a.after } }
/-- a nil list of sub-job tasks converts like the empty one -/
def toSubTasks : Option (List Task) → List Tork.Task
  | none => []
  | some ts => toTasks ts
end

/-- `input/job.go:92-142 ToJob`, the part taken from the request (the rest is `submitRow`). -/
def Job.toJob (ji : Job) : Tork.Job :=
  { description := ji.description, inputs := ji.inputs, secrets := ji.secrets, tags := ji.tags, name := ji.name
    tasks := toTasks ji.tasks, output := ji.output, defaults := ji.defaults.map Defaults.toDefaults
    webhooks := ji.webhooks.map Webhook.toWebhook, permissions := ji.permissions.map Permission.toPermission
    autoDelete := ji.autoDelete.map fun a => { after := a.after } }

/-- `api.go:363-387 SubmitJob`; `user` is the result of looking up the current user, `none` without one. -/
def submitJob (c : Checks) (user : Option User) (ji : Job) : Prog (Http Tork.Job) :=
  if validate c ji = false then .ret (.badRequest "validation failed")
  else apiSubmit user ji.toJob

end Inp

/-- `api.go:265-277 deleteQueue` on a broker with the given queues (`QueueInfo` fails for an unknown queue,
`inmemory.go:193-204`; `DeleteQueue`, `inmemory.go:206-209`). -/
def apiDeleteQueue (queues : List String) (q : String) : Http Unit × List String :=
  if isTaskQueue q = false then (.badRequest s!"queue {q} is not a task queue", queues)
  else if queues.contains q = false then (.notFound s!"queue {q} not found", queues)
  else (.ok (), queues.filter (· ≠ q))

end Tork
