import Verif.DS
/-!
# Programs: the operations a coordinator/worker goroutine performs

A handler is a tree of operations. One node is one datastore transaction, one publish, one read
of the clock/random source or one fresh UUID. The same tree gets an atomic semantics
(`Prog.run`) and an interleaving semantics with faults and crashes (`World.lean`).
-/

namespace Tork

/-- Messages of the broker interface (`/repo/broker/broker.go:22-45`). -/
inductive Msg
  /-- `PublishTask(qname, t)` -/
  | task (queue : String) (t : Task)
  /-- `PublishJob(j)` -/
  | job (j : Job)
  /-- `PublishTaskProgress(t)` -/
  | progress (t : Task)
  /-- `PublishHeartbeat(n)` -/
  | heartbeat (n : Node)
  /-- `PublishEvent(topic, j)` for the two job topics -/
  | event (topic : String) (j : Job)
  /-- `PublishEvent(TOPIC_SCHEDULED_JOB, sj)` -/
  | schedEvent (sj : ScheduledJob)

/-- One datastore transaction. `run` is its fault-free effect; `partials` are additional possible
effects under a fault in the middle of a transaction that nests independently committed work
(only `completeEachTask` does); in those cases the caller sees an error. -/
structure DbOp (γ : Type) where
  run : DS → Except Err γ × DS × List Msg
  partials : DS → List (DS × List Msg) := fun _ => []

/-- An ordinary transaction: on error the database is unchanged, and nothing is published. -/
def DbOp.of {γ : Type} (f : DS → Except Err (γ × DS)) : DbOp γ where
  run ds := match f ds with
    | .ok (g, ds') => (.ok g, ds', [])
    | .error e => (.error e, ds, [])

inductive Prog (α : Type) : Type 1
  | ret (a : α)
  | db {γ : Type} (op : DbOp γ) (k : Except Err γ → Prog α)
  | pub (m : Msg) (k : Except Err Unit → Prog α)
  /-- clock reading or random seed: any number -/
  | nondet (k : Nat → Prog α)
  /-- `uuid.NewUUID()` (`/repo/internal/uuid/uuid.go`) -/
  | uuid (k : Nat → Prog α)
  /-- a Go run-time panic: the goroutine (in fact the process) dies here -/
  | panic (why : String)

namespace Prog

def bind {α β : Type} : Prog α → (α → Prog β) → Prog β
  | ret a, f => f a
  | db op k, f => db op fun r => (k r).bind f
  | pub m k, f => pub m fun r => (k r).bind f
  | nondet k, f => nondet fun n => (k n).bind f
  | uuid k, f => uuid fun n => (k n).bind f
  | panic s, _ => panic s

instance : Monad Prog where
  pure := ret
  bind := bind

/-- The result of a Go call returning only `error`: `none` = nil. -/
abbrev Res := Option Err

def tx {γ : Type} (f : DS → Except Err (γ × DS)) : Prog (Except Err γ) := db (.of f) ret
def txOp {γ : Type} (op : DbOp γ) : Prog (Except Err γ) := db op ret
def publish (m : Msg) : Prog (Except Err Unit) := pub m ret
def now : Prog Nat := nondet ret
def seed : Prog Nat := nondet ret
def newUUID : Prog Nat := uuid ret

@[simp] theorem pure_eq {α : Type} (a : α) : (pure a : Prog α) = ret a := rfl
@[simp] theorem bind_eq {α β : Type} (p : Prog α) (f : α → Prog β) : (p >>= f) = p.bind f := rfl
@[simp] theorem ret_bind {α β : Type} (a : α) (f : α → Prog β) : (ret a).bind f = f a := rfl
@[simp] theorem db_bind {α β γ : Type} (op : DbOp γ) (k : Except Err γ → Prog α) (f : α → Prog β) :
    (db op k).bind f = db op fun r => (k r).bind f := rfl
@[simp] theorem pub_bind {α β : Type} (m : Msg) (k : Except Err Unit → Prog α) (f : α → Prog β) :
    (pub m k).bind f = pub m fun r => (k r).bind f := rfl
@[simp] theorem nondet_bind {α β : Type} (k : Nat → Prog α) (f : α → Prog β) :
    (nondet k).bind f = nondet fun r => (k r).bind f := rfl
@[simp] theorem uuid_bind {α β : Type} (k : Nat → Prog α) (f : α → Prog β) :
    (uuid k).bind f = uuid fun r => (k r).bind f := rfl
@[simp] theorem panic_bind {α β : Type} (s : String) (f : α → Prog β) :
    (panic s : Prog α).bind f = panic s := rfl

theorem bind_assoc {α β γ : Type} (p : Prog α) (f : α → Prog β) (g : β → Prog γ) :
    (p.bind f).bind g = p.bind fun a => (f a).bind g := by
  induction p with
  | ret a => rfl
  | db op k ih => simp only [db_bind, ih]
  | pub m k ih => simp only [pub_bind, ih]
  | nondet k ih => simp only [nondet_bind, ih]
  | uuid k ih => simp only [uuid_bind, ih]
  | panic s => rfl

end Prog

/-- State of the atomic semantics. `o`/`tick` is the oracle stream for clock and randomness;
`next` is the next unused UUID; `out` the messages published so far, oldest first. -/
structure Sys where
  ds : DS := {}
  out : List Msg := []
  next : Nat := 1
  o : Nat → Nat := fun n => n
  tick : Nat := 0

/-- Fault-free, uninterrupted execution of a program. `none`: the program panicked. -/
def Prog.exec {α : Type} : Prog α → Sys → Option α × Sys
  | .ret a, s => (some a, s)
  | .db op k, s =>
    let (r, ds', ms) := op.run s.ds
    (k r).exec { s with ds := ds', out := s.out ++ ms }
  | .pub m k, s => (k (.ok ())).exec { s with out := s.out ++ [m] }
  | .nondet k, s => (k (s.o s.tick)).exec { s with tick := s.tick + 1 }
  | .uuid k, s => (k s.next).exec { s with next := s.next + 1 }
  | .panic _, s => (none, s)

namespace Prog

theorem exec_bind {α β : Type} (p : Prog α) (f : α → Prog β) (s : Sys) :
    (p.bind f).exec s =
      match p.exec s with
      | (some a, s') => (f a).exec s'
      | (none, s') => (none, s') := by
  induction p generalizing s with
  | ret a => rfl
  | db op k ih => simp only [db_bind, exec, ih]
  | pub m k ih => simp only [pub_bind, exec, ih]
  | nondet k ih => simp only [nondet_bind, exec, ih]
  | uuid k ih => simp only [uuid_bind, exec, ih]
  | panic s => rfl

end Prog

end Tork
