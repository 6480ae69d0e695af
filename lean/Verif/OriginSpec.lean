import Verif.World
import Verif.CloneSpec
import Verif.EvalSpec
/-!
# Where tasks come from: the specification

What a task *is* — its script, its image, its environment … — as opposed to the record of its execution, and how a task of a
job comes about: from a definition in the job, a branch, a loop body or an earlier attempt, by evaluating its templates.
-/

namespace Tork.Origin

/-- The branches of a parallel task, without the count of finished ones. -/
def branches (p : ParallelTask Task) : ParallelTask Task := { tasks := forgetRedeliveryL p.tasks, completions := 0 }

/-- A loop, without its counters and without the command lines in its body. -/
def loop (e : EachTask Task) : EachTask Task :=
  { var := e.var, list := e.list, concurrency := e.concurrency, task := (e.task.mapCmds fun _ => "").forgetRedelivery }

/-- The definition of a sub-job, without the id of the job that runs it. -/
def subDef (s : SubJobTask Task) : SubJobTask Task := { s with id := 0, tasks := forgetRedeliveryL s.tasks }

/-- What a task is. Left out is the record of its execution (state, times, error, result, node, progress, redeliveries, counters
of its parts, id of its sub-job) and what the coordinator and workers fill in from defaults (queue, limits, timeout, retry
policy, priority: `C17`); the probe, which is not stored (`C80_probe_lost_defect`); and the command lines inside the body of a loop, which
scheduling the loop overwrites (`C12_commands_defect`). -/
def work (t : Task) : Task :=
  { t with
    state := .unset, createdAt := none, scheduledAt := none, startedAt := none, completedAt := none, failedAt := none
    error := "", result := "", nodeID := 0, progress := 0, redelivered := 0
    queue := "", limits := none, timeout := "", retry := none, priority := 0, probe := none
    pre := forgetRedeliveryL t.pre, post := forgetRedeliveryL t.post, sidecars := forgetRedeliveryL t.sidecars
    parallel := t.parallel.map branches, each := t.each.map loop, subJob := t.subJob.map subDef }

/-- The number of earlier attempts. -/
def attempts (t : Task) : Nat := match t.retry with | some r => r.attempts | none => 0

/-- Two records of the same piece of work. -/
def SameWork (a b : Task) : Prop := work a = work b ∧ attempts a = attempts b

/-- `v` is how `u` may be reported by a worker: unchanged, or as changed by middleware in front of the runtime. -/
def Reported (E : Env) (u v : Task) : Prop :=
  SameWork u v ∨ ∃ r u', E.workerOK r ∧ SameWork u u' ∧ SameWork (r.pre u') v

/-- How a task comes about. `J n k d`: the `k`-th top-level task of job `n` is defined as `d`; `Cx n k c`: `c` is the context of job
`n` while it is at its `k`-th task; `R p`: `p` is a stored task. Evaluating is `evaluateTask` of `eval.go`, the subject of `C28`. -/
inductive Made (E : Env) (J : Nat → Nat → Task → Prop) (Cx : Nat → Nat → JobContext → Prop) (R : Task → Prop) : Task → Prop
  /-- a definition of the job, evaluated (if that fails: as far as it got) -/
  | top {d t : Task} (n k id now sd : Nat) (c : JobContext) (hd : J n k d) (hc : Cx n k c)
      (h : SameWork (evaluateTask (evaluateTemplate E.C.O ⟨c, none⟩ sd) (prepTask d id n k now)).1 t) : Made E J Cx R t
  /-- a branch of a parallel task, evaluated -/
  | branch {p d x t : Task} {q : ParallelTask Task} (id now sd : Nat) (c : JobContext) (hp : Made E J Cx R p)
      (hR : R p) (hq : p.parallel = some q) (hd : d ∈ q.tasks) (hc : ∃ k, Cx p.jobID k c)
      (he : evaluateTask (evaluateTemplate E.C.O ⟨c, none⟩ sd) (parChild p d p.jobID id now) = (x, none))
      (h : SameWork x t) : Made E J Cx R t
  /-- the body of a loop, evaluated for an item -/
  | item {p x t : Task} {e : EachTask Task} (id now sd ix : Nat) (item : String) (c : JobContext) (hp : Made E J Cx R p)
      (hR : R p) (hq : p.each = some e) (hc : ∃ k, Cx p.jobID k c)
      (he : evaluateTask (evaluateTemplate E.C.O ⟨c, some (eachVarName e, ix, item)⟩ sd)
        (eachChild p e p.jobID id now ix) = (x, none))
      (h : SameWork x t) : Made E J Cx R t
  /-- an earlier attempt, evaluated again -/
  | retry {u v x t : Task} (id now sd : Nat) (c : JobContext) (hu : Made E J Cx R u) (hR : R u) (hv : Reported E u v)
      (hr : v.retry ≠ none) (hc : ∃ k, Cx v.jobID k c)
      (he : evaluateTask (evaluateTemplate E.C.O ⟨c, none⟩ sd) (retryTask v id now) = (x, none))
      (h : SameWork x t) : Made E J Cx R t

mutual
/-- The parts of a task that templates do not reach: its script, entrypoint, files, mounts, networks, … and those of its parts;
of the environment the names, of the command line the number of words. -/
def Task.fixed : Task → Task
  | { description := de, cmd := cmd, entrypoint := en, run := run, registry := re, env := env, files := fi, pre := pre, post := post,
      sidecars := si, mounts := mo, networks := ne, parallel := par, each := ea, subJob := sj, gpus := gp, tags := ta, workdir := wd, .. } =>
    { description := de, cmd := cmd.map fun _ => "", entrypoint := en, run := run, registry := re, env := mapVals (fun _ => "") env,
      files := fi, pre := fixedL pre, post := fixedL post, sidecars := forgetRedeliveryL si, mounts := mo, networks := ne,
      parallel := fixedP par, each := fixedE ea, subJob := fixedS sj, gpus := gp, tags := ta, workdir := wd }
def fixedL : List Task → List Task
  | [] => []
  | t :: ts => Task.fixed t :: fixedL ts
def fixedP : Option (ParallelTask Task) → Option (ParallelTask Task)
  | none => none
  | some { tasks := ts, .. } => some { tasks := fixedL ts, completions := 0 }
def fixedE : Option (EachTask Task) → Option (EachTask Task)
  | none => none
  | some { var := v, list := l, task := t, concurrency := c, .. } => some { var := v, list := l, task := Task.fixed t, concurrency := c }
def fixedS : Option (SubJobTask Task) → Option (SubJobTask Task)
  | none => none
  | some { description := d, tasks := ts, autoDelete := a, output := o, detached := x, .. } =>
    some { description := d, tasks := forgetRedeliveryL ts, autoDelete := a, output := o, detached := x }
end

/-- `x` is `d` or, at some depth, a branch or loop body of it. -/
inductive Part (d : Task) : Task → Prop
  | self : Part d d
  | branch {p x : Task} {q : ParallelTask Task} (hp : Part d p) (hq : p.parallel = some q) (hx : x ∈ q.tasks) : Part d x
  | body {p : Task} {e : EachTask Task} (hp : Part d p) (he : p.each = some e) : Part d e.task

/-- What a job is made from. -/
structure JobDef where
  tasks : List Task
  inputs : StrMap
  secrets : StrMap
  info : StrMap
  /-- the template of its result -/
  output : String
  /-- the task it is the sub-job of, or 0 -/
  parent : Nat

def jobDef (j : Job) : JobDef := ⟨j.tasks, j.context.inputs, j.context.secrets, j.context.job, j.output, j.parentID⟩

/-- Where a job comes from: a request, a schedule, or a task with a sub-job whose condition is not false. A detached sub-job gets no
secrets and has no parent; a sub-job has no description among its variables. -/
def JobFrom (E : Env) (J : Nat → Nat → Task → Prop) (Cx : Nat → Nat → JobContext → Prop) (R : Task → Prop) (d : JobDef) : Prop :=
  (∃ j, E.submitOK j ∧ d.tasks = j.tasks ∧ d.inputs = j.inputs ∧ d.secrets = j.secrets ∧ d.output = j.output ∧ d.parent = j.parentID) ∨
  (∃ s, E.fireOK s ∧ d.tasks = s.tasks ∧ d.inputs = s.inputs ∧ d.secrets = s.secrets ∧ d.output = s.output ∧ d.parent = 0) ∨
  ∃ t s, Made E J Cx R t ∧ R t ∧ t.subJob = some s ∧ d.tasks = s.tasks ∧ d.inputs = s.inputs ∧ d.output = s.output ∧
    ¬ IsFalse t.cond ∧ d.info = [] ∧ (d.secrets = s.secrets ∧ d.parent = t.id ∨ s.detached = true ∧ d.secrets = [] ∧ d.parent = 0)

/-- Some time up to now variable `k` of job `n` was `v`. -/
def Recorded (E : Env) (w : World) (n : Nat) (k v : String) : Prop :=
  ∃ w0 j, Reachable E w0 ∧ Steps E w0 w ∧ w0.ds.job? n = some j ∧ (k, v) ∈ j.context.tasks

/-- Some time up to now a task of job `n` with variable `k` finished with the result `v`, in the step from `a` to `b`. -/
def Produced (E : Env) (w : World) (n : Nat) (k v : String) : Prop :=
  ∃ a b tid c c', Reachable E a ∧ Step E a b ∧ Steps E b w ∧ a.ds.task? tid = some c ∧ b.ds.task? tid = some c' ∧
    c.jobID = n ∧ c.var = k ∧ k ≠ "" ∧ v ≠ "" ∧ c'.result = sanitizeString v ∧
    (c.state = .running ∨ c.state = .scheduled ∨ c.state = .skipped) ∧ (c'.state = .completed ∨ c'.state = .skipped)

/-- The `k`-th top-level task of the stored job `n` is defined as `d`. -/
def Defined (w : World) (n k : Nat) (d : Task) : Prop :=
  ∃ j, w.ds.job? n = some j ∧ 1 ≤ k ∧ j.tasks[k - 1]? = some d

/-- The context that the stored job `n` had some time up to now, when it was at its `k`-th task (or about to start, if `k` is 1): its inputs,
secrets and description, and values recorded up to then. -/
def ContextOf (E : Env) (w : World) (n k : Nat) (c : JobContext) : Prop :=
  (∃ j, w.ds.job? n = some j ∧ c.inputs = j.context.inputs ∧ c.secrets = j.context.secrets ∧ c.job = j.context.job ∧
    ∀ k v, (k, v) ∈ c.tasks → Recorded E w n k v) ∧
  ∃ w0 j0, Reachable E w0 ∧ Steps E w0 w ∧ w0.ds.job? n = some j0 ∧ j0.context = c ∧ max 1 j0.position = k

/-- `t` is the same work as the stored task with its id. -/
def Row (w : World) (t : Task) : Prop := ∃ r, w.ds.task? t.id = some r ∧ SameWork r t

/-! ### Results -/

/-- What the middleware and the runtime of a worker make of the task `u`. -/
inductive RunsTo (r : WorkerRun) (u : Task) : Prog.Res × Task → Prop
  /-- middleware does not call the runtime -/
  | stopped (x : Prog.Res) : r.stop = some x → RunsTo r u (x, r.pre u)
  /-- the start cannot be announced, or the timeout cannot be read -/
  | refused (e : Err) : r.stop = none → RunsTo r u (r.post (some e) (r.pre u))
  /-- the runtime fails -/
  | failed (e : Err) (now : Nat) : r.stop = none → (r.run (r.pre u)).1 = some e →
      RunsTo r u (r.post none { (r.run (r.pre u)).2 with failedAt := some now, state := .failed, error := e })
  /-- the runtime succeeds -/
  | ran (now : Nat) : r.stop = none → (r.run (r.pre u)).1 = none →
      RunsTo r u (r.post none { (r.run (r.pre u)).2 with completedAt := some now, state := .completed })

/-- A worker that was handed the work of `t` can end with the result `v`. -/
def Worked (E : Env) (t : Task) (v : String) : Prop :=
  ∃ r u z, E.workerOK r ∧ SameWork t u ∧ RunsTo r u (none, z) ∧ z.state = .completed ∧ z.result = v

/-- A stored job that is the sub-job of task `t` has the output `v`: its output template, evaluated in a context it had when it had passed
its last task. -/
def SubOutput (E : Env) (w : World) (t : Task) (v : String) : Prop :=
  ∃ n s w0 s0 sd, w.ds.job? n = some s ∧ s.parentID = t.id ∧ Reachable E w0 ∧ Steps E w0 w ∧ w0.ds.job? n = some s0 ∧
    s.tasks.length < s0.position ∧ evaluateTemplate E.C.O ⟨s0.context, none⟩ sd s.output = .ok v

/-- Neither parallel nor each, nor a detached sub-job: a task that is executed as a whole. -/
def Leaf (t : Task) : Prop := t.parallel = none ∧ t.each = none ∧ ∀ s, t.subJob = some s → s.detached = false

end Tork.Origin
