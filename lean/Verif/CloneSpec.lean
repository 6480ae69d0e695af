import Verif.Types
/-!
# What a copy of a task or job is supposed to be (independent of `Clone`)
-/

namespace Tork

mutual
/-- The same task with every redelivery counter (also of nested tasks) forgotten; nothing else changes. -/
def Task.forgetRedelivery : Task → Task
  | t@{ pre := pre, post := post, sidecars := sidecars, parallel := par, each := ea, subJob := sj, .. } =>
    { t with
      redelivered := 0
      pre := forgetRedeliveryL pre
      post := forgetRedeliveryL post
      sidecars := forgetRedeliveryL sidecars
      parallel := forgetRedeliveryP par
      each := forgetRedeliveryE ea
      subJob := forgetRedeliveryS sj }
def forgetRedeliveryL : List Task → List Task
  | [] => []
  | t :: ts => t.forgetRedelivery :: forgetRedeliveryL ts
def forgetRedeliveryP : Option (ParallelTask Task) → Option (ParallelTask Task)
  | none => none
  | some p@{ tasks := ts, .. } => some { p with tasks := forgetRedeliveryL ts }
def forgetRedeliveryE : Option (EachTask Task) → Option (EachTask Task)
  | none => none
  | some e@{ task := t, .. } => some { e with task := t.forgetRedelivery }
def forgetRedeliveryS : Option (SubJobTask Task) → Option (SubJobTask Task)
  | none => none
  | some s@{ tasks := ts, .. } => some { s with tasks := forgetRedeliveryL ts }
end

mutual
/-- No task of the tree has been redelivered. -/
def Task.Undelivered : Task → Prop
  | t@{ pre := pre, post := post, sidecars := sidecars, parallel := par, each := ea, subJob := sj, .. } =>
    t.redelivered = 0 ∧ UndeliveredL pre ∧ UndeliveredL post ∧ UndeliveredL sidecars ∧ UndeliveredP par ∧
      UndeliveredE ea ∧ UndeliveredS sj
def UndeliveredL : List Task → Prop
  | [] => True
  | t :: ts => t.Undelivered ∧ UndeliveredL ts
def UndeliveredP : Option (ParallelTask Task) → Prop
  | none => True
  | some { tasks := ts, .. } => UndeliveredL ts
def UndeliveredE : Option (EachTask Task) → Prop
  | none => True
  | some { task := t, .. } => t.Undelivered
def UndeliveredS : Option (SubJobTask Task) → Prop
  | none => True
  | some { tasks := ts, .. } => UndeliveredL ts
end

/-- A user record that carries no plain-text password (all users read from the datastore). -/
def User.NoPlainPassword (u : User) : Prop := u.password = ""

/-- A permission that names exactly one role or user (`input/job.go` enforces it on submission). -/
def Permission.Exact (p : Permission) : Prop :=
  (∃ r, p = { role := some r }) ∨ (∃ u : User, u.NoPlainPassword ∧ p = { user := some u })

end Tork
