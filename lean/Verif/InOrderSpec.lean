import Verif.OriginSpec
import Verif.LifecycleSpec
/-!
# One task after the other: specification

The top-level tasks of a job, and the events that can disturb their order.
-/

namespace Tork.Seq

/-- A top-level task of job `n`. -/
def Top (n : Nat) (t : Task) : Prop := t.jobID = n ∧ t.parentID = 0

/-- Not ended: waiting, scheduled or running, or to be skipped. -/
def Unfinished (t : Task) : Prop :=
  t.state = .created ∨ t.state = .pending ∨ t.state = .scheduled ∨ t.state = .running ∨ t.state = .skipped ∧ t.completedAt = none

/-- A top-level task of job `n` ends between two states of the database. -/
def Ends (n : Nat) (a b : DS) (id : Nat) (t t' : Task) : Prop :=
  a.task? id = some t ∧ b.task? id = some t' ∧ Top n t ∧ Unfinished t ∧ ¬ Unfinished t'

/-- What is between two states of the database is no exceptional event in the life of job `n`: no new attempt of a top-level
task, no restart of the job, no task the job has left behind is at work again, and a skipped task that has ended does not move
the job once more. -/
structure Ordinary (n : Nat) (a b : DS) : Prop where
  noRetry : ∀ id t, a.task? id = none → b.task? id = some t → Top n t → Origin.attempts t = 0
  noRestart : ∀ j j', a.job? n = some j → b.job? n = some j' → j.state = .failed ∨ j.state = .cancelled → j'.state ≠ .running
  noRevival : ∀ j id t t', a.job? n = some j → a.task? id = some t → b.task? id = some t' → Top n t → t.position < j.position →
    ¬ Unfinished t → ¬ Unfinished t'
  noEcho : ∀ j j' id t, a.job? n = some j → b.job? n = some j' → j'.position ≠ j.position → a.task? id = some t → Top n t →
    t.state = .skipped → t.completedAt.isSome → ∃ id t t', Ends n a b id t t'

/-- The worlds a system passes through, oldest first, each step ordinary for job `n`. -/
inductive OrdRun (E : Env) (n : Nat) : List (World × World) → World → Prop
  | init : OrdRun E n [] {}
  | step {l : List (World × World)} {w w' : World} : OrdRun E n l w → Step E w w' → Ordinary n w.ds w'.ds → OrdRun E n (l ++ [(w, w')]) w'

/-- In no world of the history has a variable of job `n` a value with a NUL character (`jobs.context` is a column of type `jsonb`,
`/repo/db/postgres/schema.go:90`, which refuses them). -/
def NoNul (n : Nat) (l : List (World × World)) : Prop :=
  ∀ a b, (a, b) ∈ l → ∀ j, b.ds.job? n = some j → ∀ k v, (k, v) ∈ j.context.tasks → sanitizeString v = v

/-- The task is the `k`-th task of job `n` as it is defined in the job, with its templates evaluated in the context `c`. -/
def Instance (E : Env) (w : World) (n k : Nat) (c : JobContext) (t : Task) : Prop :=
  ∃ d now sd, Origin.Defined w n k d ∧
    Origin.SameWork (evaluateTask (evaluateTemplate E.C.O ⟨c, none⟩ sd) (prepTask d t.id n k now)).1 t

/-- Running a job one task after the other: after `k` tasks the context is `c`. At first no variable has a value. Then the next task,
evaluated in the context so far, runs to its end, in a step of the history, and its result is recorded under its variable. -/
inductive OneByOne (E : Env) (n : Nat) (l : List (World × World)) (w : World) : Nat → JobContext → Prop
  | start (j : Job) : w.ds.job? n = some j → OneByOne E n l w 0 { j.context with tasks := [] }
  | next {k : Nat} {c : JobContext} (a b : World) (id : Nat) (t t' row : Task) (r : String) : OneByOne E n l w k c →
      (a, b) ∈ l → Ends n a.ds b.ds id t t' → Finishes t t' → t.position = k + 1 → w.ds.task? id = some row → Instance E w n (k + 1) c row →
      t'.result = sanitizeString r → OneByOne E n l w (k + 1) (recordIn c t.var r)

end Tork.Seq
