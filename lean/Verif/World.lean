import Verif.Api
/-!
# The distributed system: interleaving semantics

Any number of coordinator, API and worker goroutines run programs (`Prog`) against one shared
datastore and one broker. One step of the system is one operation of one goroutine. Operations can
fail without effect, or take effect although the caller sees an error (lost acknowledgement);
goroutines can die at any point; messages can be lost, reordered arbitrarily and — except for the
message that starts a job — delivered more than once.
-/

namespace Tork
open Prog

/-- What the environment (users, middleware, configuration) may do; theorems quantify over it. -/
structure Env where
  C : Cfg
  /-- bound on the nesting depth of composite tasks followed by one completion (stack depth) -/
  fuel : Nat
  /-- job definitions users submit (also via schedules) -/
  submitOK : Job → Prop := fun _ => True
  /-- scheduled jobs whose cron entry may fire -/
  fireOK : ScheduledJob → Prop := fun _ => True
  /-- worker configurations, middleware and runtime behaviours -/
  workerOK : WorkerRun → Prop := fun _ => True
  /-- restart requests users make -/
  restartOK : Nat → Prop := fun _ => True

/-- The threads' result is irrelevant once they end. -/
def Prog.discard {α : Type} (p : Prog α) : Prog Unit := p.bind fun _ => .ret ()

structure World where
  ds : DS := {}
  /-- undelivered messages (order irrelevant: any of them may be delivered next) -/
  msgs : List Msg := []
  /-- running goroutines -/
  threads : List (Prog Unit) := []
  /-- next unused UUID -/
  next : Nat := 1

/-- One operation of one goroutine: old program, database, next id ⟶ new program, database, published
messages, next id. -/
inductive PStep {α : Type} : Prog α → DS → Nat → Prog α → DS → List Msg → Nat → Prop
  | dbOk {γ : Type} (op : DbOp γ) (k) (ds n) :
      PStep (.db op k) ds n (k (op.run ds).1) (op.run ds).2.1 (op.run ds).2.2 n
  /-- the transaction fails, nothing happened -/
  | dbFail {γ : Type} (op : DbOp γ) (k) (ds n) (e : Err) :
      PStep (.db op k) ds n (k (.error e)) ds [] n
  /-- the transaction committed but its caller sees an error -/
  | dbLost {γ : Type} (op : DbOp γ) (k) (ds n) (e : Err) :
      PStep (.db op k) ds n (k (.error e)) (op.run ds).2.1 (op.run ds).2.2 n
  /-- the transaction failed half-way, leaving independently committed effects -/
  | dbPartial {γ : Type} (op : DbOp γ) (k) (ds n) (e : Err) (x : DS × List Msg)
      (hx : x ∈ op.partials ds) :
      PStep (.db op k) ds n (k (.error e)) x.1 x.2 n
  | pubOk (m : Msg) (k) (ds n) : PStep (.pub m k) ds n (k (.ok ())) ds [m] n
  | pubFail (m : Msg) (k) (ds n) (e : Err) : PStep (.pub m k) ds n (k (.error e)) ds [] n
  | pubLost (m : Msg) (k) (ds n) (e : Err) : PStep (.pub m k) ds n (k (.error e)) ds [m] n
  | nondet (k : Nat → Prog α) (ds n) (x : Nat) : PStep (.nondet k) ds n (k x) ds [] n
  | uuid (k : Nat → Prog α) (ds n) : PStep (.uuid k) ds n (k n) ds [] (n + 1)

/-- A message that starts a job. -/
def Msg.startsJob : Msg → Bool
  | .job j => j.state = .pending
  | _ => false

/-- Queues served by the coordinator, `/repo/broker/queues.go:49-60`. -/
def coordinatorQueues : List String :=
  [QUEUE_PENDING, QUEUE_STARTED, QUEUE_COMPLETED, QUEUE_ERROR, "heartbeat", "jobs", "logs", "progress",
   QUEUE_REDELIVERIES]

/-- `IsCoordinatorQueue`, `/repo/broker/queues.go:49-62`. -/
def isCoordinatorQueue (q : String) : Bool := coordinatorQueues.contains q

/-- `strings.HasPrefix(q, QUEUE_EXCLUSIVE_PREFIX)`, `/repo/broker/queues.go:37-39`. -/
def isExclusiveQueue (q : String) : Bool := ['x', '-'].isPrefixOf q.toList

/-- The queues tasks are handed to workers on: `IsTaskQueue`, `/repo/broker/queues.go:68-70`. -/
def isTaskQueue (q : String) : Bool := !isCoordinatorQueue q && !isExclusiveQueue q

/-- Goroutines that may be started in the given environment. -/
inductive Spawn (E : Env) : Prog Unit → Prop
  | submit (u : Option User) (j : Job) : E.submitOK j → Spawn E (apiSubmit u j).discard
  | cancel (id : Nat) : Spawn E (apiCancel id).discard
  | restart (id : Nat) : E.restartOK id → Spawn E (apiRestart id).discard
  | fire (s : ScheduledJob) : E.fireOK s → Spawn E (fireScheduled s)

inductive Step (E : Env) : World → World → Prop
  /-- a goroutine performs its next operation -/
  | op (w : World) (a b : List (Prog Unit)) (p p' : Prog Unit) (ds' : DS) (ms : List Msg) (n' : Nat)
      (ht : w.threads = a ++ p :: b) (hp : PStep p w.ds w.next p' ds' ms n') :
      Step E w { ds := ds', msgs := w.msgs ++ ms, threads := a ++ p' :: b, next := n' }
  /-- a goroutine ends, panics or is killed at any point -/
  | crash (w : World) (a b : List (Prog Unit)) (p : Prog Unit) (ht : w.threads = a ++ p :: b) :
      Step E w { w with threads := a ++ b }
  /-- a message is delivered to a coordinator -/
  | deliver (w : World) (a b : List Msg) (m : Msg) (p : Prog Res) (hm : w.msgs = a ++ m :: b)
      (hp : coordinatorHandler E.C E.fuel m = some p) :
      Step E w { w with msgs := a ++ b, threads := w.threads ++ [p.discard] }
  /-- a task message is delivered to a worker (the exclusive queue of a worker only receives cancellations,
  `/repo/internal/worker/worker.go:255-258`, which change nothing here) -/
  | work (w : World) (a b : List Msg) (q : String) (t : Task) (r : WorkerRun)
      (hm : w.msgs = a ++ Msg.task q t :: b) (hq : isTaskQueue q = true) (hr : E.workerOK r) :
      Step E w { w with msgs := a ++ b, threads := w.threads ++ [(doHandleTask E.C r t).discard] }
  /-- a message a worker had received but not acknowledged is handed to the coordinator as a redelivery,
  `/repo/broker/rabbitmq.go:295-330` -/
  | redeliver (w : World) (a b : List Msg) (q : String) (t : Task)
      (hm : w.msgs = a ++ Msg.task q t :: b) (hq : isTaskQueue q = true) :
      Step E w { w with msgs := a ++ b ++ [Msg.task QUEUE_REDELIVERIES t] }
  /-- a message is lost (or consumed without effect, e.g. a cancellation of an unknown task) -/
  | lose (w : World) (a b : List Msg) (m : Msg) (hm : w.msgs = a ++ m :: b) :
      Step E w { w with msgs := a ++ b }
  /-- a message other than the one starting a job is duplicated -/
  | dup (w : World) (m : Msg) (hm : m ∈ w.msgs) (hs : m.startsJob = false) :
      Step E w { w with msgs := w.msgs ++ [m] }
  /-- a user request or a cron entry starts a goroutine -/
  | spawn (w : World) (p : Prog Unit) (hp : Spawn E p) :
      Step E w { w with threads := w.threads ++ [p] }
  /-- a node registers or updates its heartbeat; nodes are not otherwise part of these properties. The queue of
  a node is its exclusive queue, `/repo/internal/worker/worker.go:229`. -/
  | nodes (w : World) (ns : List Node) (hq : ∀ n ∈ ns, isExclusiveQueue n.queue = true) : Step E w { w with ds := { w.ds with nodes := ns } }

/-- Reachability. -/
inductive Steps (E : Env) : World → World → Prop
  | refl (w : World) : Steps E w w
  | tail {w w' w'' : World} : Steps E w w' → Step E w' w'' → Steps E w w''

/-- The worlds reachable from an empty system. -/
def Reachable (E : Env) (w : World) : Prop := Steps E {} w

theorem Steps.trans {E : Env} {a b c : World} (h1 : Steps E a b) (h2 : Steps E b c) : Steps E a c := by
  induction h2 with
  | refl => exact h1
  | tail _ hs ih => exact .tail ih hs

end Tork
