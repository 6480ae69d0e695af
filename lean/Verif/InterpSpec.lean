import Verif.InOrderSpec
import Verif.Props.Schedule
/-!
# A job as a sequential program: specification

An interpreter that knows nothing of messages, schedules, workers that crash or a database: it takes the definitions one after the other.
-/

namespace Tork.Seq
open Origin

/-- Definition `k` of job `n`, evaluated in the context `c`, is the work of `t`. -/
def Evaluated (E : Env) (n k : Nat) (d : Task) (c : JobContext) (t : Task) : Prop :=
  ∃ id now sd, SameWork (evaluateTask (evaluateTemplate E.C.O ⟨c, none⟩ sd) (prepTask d id n k now)).1 t

/-- Running the definitions `ds` of job `n` one after the other, at first in the context `c0`: after `k` of them the context is `c`. Each is
evaluated in the context so far. If its condition is false, it is skipped, and what its definition has as result is recorded. Otherwise
its result is recorded (without NUL characters): what a worker ends with when it runs it; or, if it has a sub-job, the output of the sub-job,
evaluated in the context that running the tasks of the sub-job, in the same way, in a context of its own with its own inputs and secrets, leads to. -/
inductive Interp (E : Env) : Nat → List Task → JobContext → Nat → JobContext → Prop
  | start {n : Nat} {ds : List Task} {c0 : JobContext} : Interp E n ds c0 0 c0
  | run {n k : Nat} {ds : List Task} {c0 c : JobContext} (d t : Task) (v : String) : Interp E n ds c0 k c → ds[k]? = some d →
      Evaluated E n (k + 1) d c t → ¬ IsFalse t.cond → t.subJob = none → Worked E t v →
      Interp E n ds c0 (k + 1) (recordIn c t.var (sanitizeString v))
  | call {n k : Nat} {ds : List Task} {c0 c : JobContext} (d t : Task) (q : SubJobTask Task) (m : Nat) (c' : JobContext) (sd : Nat) (v : String) :
      Interp E n ds c0 k c → ds[k]? = some d → Evaluated E n (k + 1) d c t → ¬ IsFalse t.cond → t.subJob = some q →
      Interp E m q.tasks { inputs := q.inputs, secrets := q.secrets } q.tasks.length c' → evaluateTemplate E.C.O ⟨c', none⟩ sd q.output = .ok v →
      Interp E n ds c0 (k + 1) (recordIn c t.var (sanitizeString v))
  | skip {n k : Nat} {ds : List Task} {c0 c : JobContext} (d t : Task) : Interp E n ds c0 k c → ds[k]? = some d → Evaluated E n (k + 1) d c t →
      IsFalse t.cond → Interp E n ds c0 (k + 1) (recordIn c t.var (sanitizeString d.result))

/-- The tasks of the stored job `n` are neither parallel nor each tasks, nor sub-jobs. -/
def Simple (w : World) (n : Nat) : Prop := ∀ k d, Defined w n k d → d.parallel = none ∧ d.each = none ∧ d.subJob = none

/-- Job `m` is job `n`, or a sub-job of a task of a job within it. -/
inductive Within (w : World) (n : Nat) : Nat → Prop
  | self : Within w n n
  | sub {p m : Nat} {t : Task} {s : Job} : Within w n t.jobID → w.ds.task? p = some t → w.ds.job? m = some s → s.parentID = p → Within w n m

/-- The tasks of job `n`, and of the jobs within it, are neither parallel nor each tasks, nor do they have detached sub-jobs. -/
def Sequential (w : World) (n : Nat) : Prop := ∀ m, Within w n m → ∀ k d, Defined w m k d → d.parallel = none ∧ d.each = none ∧
  ∀ q, d.subJob = some q → q.detached = false

/-- A definition that is neither a parallel nor an each task, and has at most a sub-job that is not detached, whose tasks are so too. -/
inductive Linear : Task → Prop
  | mk {d : Task} : d.parallel = none → d.each = none → (∀ q, d.subJob = some q → q.detached = false) →
      (∀ q x, d.subJob = some q → x ∈ q.tasks → Linear x) → Linear d

/-- In the history `l` to `w` nothing exceptional happened to job `n` or to a job within it. -/
def Quiet (E : Env) (l : List (World × World)) (w : World) (n : Nat) : Prop := ∀ m, Within w n m → OrdRun E m l w ∧ NoNul m l

/-- The task under another id, in another job, made at another time. -/
def renamed (id n : Nat) (now : Option Nat) (t : Task) : Task := { t with id := id, jobID := n, createdAt := now }

/-- The same piece of work but for the ids of the task and its job. -/
def SameKind (a b : Task) : Prop := SameWork (renamed 0 0 none a) (renamed 0 0 none b)

/-- What a worker ends with depends on the work alone, and the value of a template on the context alone. -/
structure Deterministic (E : Env) : Prop where
  work : ∀ t t' v v', SameKind t t' → Worked E t v → Worked E t' v' → v = v'
  template : ∀ c sd sd' s, evaluateTemplate E.C.O ⟨c, none⟩ sd s = evaluateTemplate E.C.O ⟨c, none⟩ sd' s

end Tork.Seq
