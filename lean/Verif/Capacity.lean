/-!
# How much a worker does at once, and its heart beat — model of `/repo/internal/worker/worker.go:61-83, 157-163, 208-297`

`Start` subscribes once to the queue of the worker itself and, for every queue it was configured with that is not a coordinator's, as many times as
its concurrency says; a subscription is a goroutine that handles one message after the other (`broker/inmemory.go:127-144`,
`broker/rabbitmq.go:255, 283-…`). Handling a task runs it when the middleware calls the next handler, and as often as it does. A second goroutine sends a heart beat again and again.
The subscription to the worker's own queue runs no task and is left out.
-/

namespace Tork.Capacity

/-- `IsCoordinatorQueue` (`broker/queues.go:49-62`). -/
def isCoordinatorQueue (q : String) : Bool :=
  ["pending", "started", "completed", "error", "heartbeat", "jobs", "logs", "progress", "redeliveries"].contains q

/-- `NewWorker` (`worker.go:61-64`): without queues, `default` with one subscription. -/
def queues (cfg : List (String × Int)) : List (String × Int) :=
  if cfg.length = 0 then [("default", 1)] else cfg

/-- The subscriptions `Start` makes, in order (`worker.go:266-276`); Go's map has each name once and is walked in some order. -/
def subscriptions (qs : List (String × Int)) : List String :=
  qs.flatMap fun (q, n) => if isCoordinatorQueue q then [] else List.replicate n.toNat q

/-- The goroutine of a subscription. -/
inductive Pc
  /-- waiting for a message -/
  | idle
  /-- in `doHandleTask`, not in `runTask` -/
  | handling
  /-- in `runTask`, counted (`worker.go:158-161`) -/
  | running
  deriving DecidableEq

/-- The goroutine `sendHeartbeats` (`worker.go:208-255`). -/
inductive Beat
  /-- not started -/
  | unborn
  /-- before the number of tasks is read -/
  | measuring
  /-- it was this number (`:235`) -/
  | measured (n : Int)
  /-- in the `select` (`:244-247`) -/
  | waiting
  /-- it has returned -/
  | gone
  deriving DecidableEq

structure S where
  /-- subscriptions made so far -/
  subs : Nat := 0
  pc : Nat → Pc := fun _ => .idle
  /-- `taskCount` -/
  count : Int := 0
  beat : Beat := .unborn
  /-- the numbers of the heart beats handed to the broker, the latest first -/
  sent : List Int := []
  /-- calls of `Stop` waiting to send (`worker.go:286`) -/
  stopping : Nat := 0
  /-- calls of `Stop` that got past it -/
  stopped : Nat := 0

/-- Function update. -/
def upd {α : Type} (f : Nat → α) (k : Nat) (v : α) : Nat → α := fun x => if x = k then v else f x

/-- The steps of a worker with the subscriptions `cs` still to make or made. A failing broker ends `Start`: then its steps are never taken. -/
inductive Step (cs : List String) : S → S → Prop
  /-- `SubscribeForTasks` (`:271`) -/
  | subscribe (s : S) : s.subs < cs.length → Step cs s { s with subs := s.subs + 1 }
  /-- `go w.sendHeartbeats()` (`:278`) -/
  | begin (s : S) : s.subs = cs.length → s.beat = .unborn → Step cs s { s with beat := .measuring }
  /-- a subscription takes a task -/
  | take (s : S) (i : Nat) : i < s.subs → s.pc i = .idle → Step cs s { s with pc := upd s.pc i .handling }
  /-- the middleware calls the next handler: `runTask` begins -/
  | run (s : S) (i : Nat) : s.pc i = .handling → Step cs s { s with pc := upd s.pc i .running, count := s.count + 1 }
  /-- `runTask` returns -/
  | ran (s : S) (i : Nat) : s.pc i = .running → Step cs s { s with pc := upd s.pc i .handling, count := s.count - 1 }
  /-- `doHandleTask` returns -/
  | done (s : S) (i : Nat) : s.pc i = .handling → Step cs s { s with pc := upd s.pc i .idle }
  /-- the number is read (`:235`) -/
  | measure (s : S) : s.beat = .measuring → Step cs s { s with beat := .measured s.count }
  /-- `PublishHeartbeat` (`:222-238`) has been called; its error is only logged -/
  | publish (s : S) (n : Int) : s.beat = .measured n → Step cs s { s with beat := .waiting, sent := n :: s.sent }
  /-- the time is over (`:247`) -/
  | again (s : S) : s.beat = .waiting → Step cs s { s with beat := .measuring }
  /-- `Stop` is called -/
  | stop (s : S) : Step cs s { s with stopping := s.stopping + 1 }
  /-- the two meet on the channel, which has no buffer (`:245, 286`) -/
  | meet (s : S) : s.beat = .waiting → 0 < s.stopping →
      Step cs s { s with beat := .gone, stopping := s.stopping - 1, stopped := s.stopped + 1 }

inductive Steps (cs : List String) (s : S) : S → Prop
  | refl : Steps cs s s
  | step {a b : S} : Steps cs s a → Step cs a b → Steps cs s b

end Tork.Capacity
