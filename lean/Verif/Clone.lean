import Verif.Types
/-!
# Clone — model of `/repo/task.go:165-316`, `/repo/job.go:169-232,234-341`, `/repo/mount.go:19-35`,
`/repo/node.go:32-46`, `/repo/user.go:22-31`, `/repo/role.go:16-23`

Field by field as the Go literals list them; a field the Go code does not copy gets its zero value.
-/

namespace Tork

/-- `task.go:242-247` -/
def TaskRetry.clone (r : TaskRetry) : TaskRetry := { limit := r.limit, attempts := r.attempts }
/-- `task.go:249-254` -/
def TaskLimits.clone (l : TaskLimits) : TaskLimits := { cpus := l.cpus, memory := l.memory }
/-- `task.go:296-301` -/
def Registry.clone (r : Registry) : Registry := { username := r.username, password := r.password }
/-- `task.go:303-309` -/
def Probe.clone (p : Probe) : Probe := { path := p.path, port := p.port, timeout := p.timeout }
/-- `mount.go:19-27` -/
def Mount.clone (m : Mount) : Mount :=
  { id := m.id, type := m.type, source := m.source, target := m.target, opts := m.opts }
/-- `mount.go:29-35` -/
def cloneMounts (ms : List Mount) : List Mount := ms.map Mount.clone
/-- `job.go:337-341` -/
def AutoDelete.clone (a : AutoDelete) : AutoDelete := { after := a.after }
/-- `job.go:310-317` -/
def Webhook.clone (w : Webhook) : Webhook :=
  { url := w.url, headers := w.headers, event := w.event, cond := w.cond }
/-- `job.go:302-308` -/
def cloneWebhooks (ws : List Webhook) : List Webhook := ws.map Webhook.clone

mutual
/-- `task.go:165-240 Clone`; note that `Redelivered` is not copied. -/
def Task.clone : Task → Task
  | t@{ pre := pre, post := post, sidecars := sidecars, parallel := par, each := ea, subJob := sj, .. } =>
    { id := t.id
      jobID := t.jobID
      parentID := t.parentID
      position := t.position
      name := t.name
      state := t.state
      createdAt := t.createdAt
      scheduledAt := t.scheduledAt
      startedAt := t.startedAt
      completedAt := t.completedAt
      failedAt := t.failedAt
      cmd := t.cmd
      entrypoint := t.entrypoint
      run := t.run
      image := t.image
      registry := t.registry.map Registry.clone
      env := t.env
      files := t.files
      queue := t.queue
      error := t.error
      pre := cloneTasks pre
      post := cloneTasks post
      sidecars := cloneTasks sidecars
      mounts := cloneMounts t.mounts
      networks := t.networks
      nodeID := t.nodeID
      retry := t.retry.map TaskRetry.clone
      limits := t.limits.map TaskLimits.clone
      timeout := t.timeout
      result := t.result
      var := t.var
      cond := t.cond
      parallel := clonePar par
      each := cloneEach ea
      description := t.description
      subJob := cloneSubJob sj
      gpus := t.gpus
      tags := t.tags
      workdir := t.workdir
      priority := t.priority
      progress := t.progress
      probe := t.probe.map Probe.clone }
/-- `task.go:234-240 CloneTasks` -/
def cloneTasks : List Task → List Task
  | [] => []
  | t :: ts => t.clone :: cloneTasks ts
/-- `task.go:288-294` -/
def clonePar : Option (ParallelTask Task) → Option (ParallelTask Task)
  | none => none
  | some { tasks := ts, completions := c } => some { tasks := cloneTasks ts, completions := c }
/-- `task.go:256-266` -/
def cloneEach : Option (EachTask Task) → Option (EachTask Task)
  | none => none
  | some { var := v, list := l, task := t, size := s, completions := c, concurrency := k, index := i } =>
    some { var := v, list := l, task := t.clone, size := s, completions := c, concurrency := k, index := i }
/-- `task.go:268-286` -/
def cloneSubJob : Option (SubJobTask Task) → Option (SubJobTask Task)
  | none => none
  | some { id := i, name := n, description := d, tasks := ts, inputs := inp, secrets := sec,
           autoDelete := ad, output := o, detached := det, webhooks := wh } =>
    some { id := i, name := n, description := d, inputs := inp, secrets := sec
           autoDelete := ad.map AutoDelete.clone, tasks := cloneTasks ts, output := o
           detached := det, webhooks := cloneWebhooks wh }
end

/-- `role.go:16-23` -/
def Role.clone (r : Role) : Role :=
  { id := r.id, slug := r.slug, name := r.name, createdAt := r.createdAt }

/-- `user.go:22-31`; `Password` is not copied. -/
def User.clone (u : User) : User :=
  { id := u.id, name := u.name, username := u.username, passwordHash := u.passwordHash
    createdAt := u.createdAt, disabled := u.disabled }

/-- `job.go:327-335`; with neither a role nor a user the code dereferences nil (modelled as a
permission with neither). -/
def Permission.clone (p : Permission) : Permission :=
  match p.role with
  | some r => { role := some r.clone }
  | none => { user := p.user.map User.clone }

/-- `job.go:319-325` -/
def clonePermissions (ps : List Permission) : List Permission := ps.map Permission.clone

/-- `job.go:83-88` -/
def JobSchedule.clone (s : JobSchedule) : JobSchedule := { id := s.id, cron := s.cron }

/-- `job.go:253-265` -/
def JobDefaults.clone (d : JobDefaults) : JobDefaults :=
  { limits := d.limits.map TaskLimits.clone, retry := d.retry.map TaskRetry.clone
    queue := d.queue, timeout := d.timeout, priority := d.priority }

/-- `job.go:235-242` -/
def JobContext.clone (c : JobContext) : JobContext :=
  { inputs := c.inputs, secrets := c.secrets, tasks := c.tasks, job := c.job }

/-- `job.go:169-213`; `DeleteAt` is not copied. -/
def Job.clone (j : Job) : Job :=
  { id := j.id
    name := j.name
    description := j.description
    tags := j.tags
    state := j.state
    createdAt := j.createdAt
    createdBy := j.createdBy.map User.clone
    startedAt := j.startedAt
    completedAt := j.completedAt
    failedAt := j.failedAt
    tasks := cloneTasks j.tasks
    execution := cloneTasks j.execution
    position := j.position
    inputs := j.inputs
    secrets := j.secrets
    context := j.context.clone
    parentID := j.parentID
    taskCount := j.taskCount
    output := j.output
    result := j.result
    error := j.error
    defaults := j.defaults.map JobDefaults.clone
    webhooks := cloneWebhooks j.webhooks
    permissions := clonePermissions j.permissions
    autoDelete := j.autoDelete.map AutoDelete.clone
    progress := j.progress
    schedule := j.schedule.map JobSchedule.clone }

/-- `job.go:215-233` -/
def ScheduledJob.clone (j : ScheduledJob) : ScheduledJob :=
  { id := j.id
    cron := j.cron
    name := j.name
    description := j.description
    tags := j.tags
    createdAt := j.createdAt
    createdBy := j.createdBy.map User.clone
    tasks := cloneTasks j.tasks
    inputs := j.inputs
    secrets := j.secrets
    output := j.output
    defaults := j.defaults.map JobDefaults.clone
    webhooks := cloneWebhooks j.webhooks
    permissions := clonePermissions j.permissions
    autoDelete := j.autoDelete.map AutoDelete.clone
    state := j.state }

/-- `node.go:32-46` -/
def Node.clone (n : Node) : Node :=
  { id := n.id, name := n.name, startedAt := n.startedAt, cpuPercent := n.cpuPercent
    lastHeartbeatAt := n.lastHeartbeatAt, queue := n.queue, status := n.status
    hostname := n.hostname, port := n.port, taskCount := n.taskCount, version := n.version }

end Tork
