import Verif.BrokerQueue
import Verif.World
/-!
# RabbitMQ broker — model of `/repo/broker/rabbitmq.go:200-399, 449-530, 559-640`

The client code together with the part of the AMQP server it relies on, as a labelled transition system. Any number of
processes share the server; a *consumer* is one run of the goroutine of `subscribe` (`:278-396`) with its channel.

Of the server: named queues, a message is *ready* or held, unacknowledged, by one consumer; a consumer holds at most one message
(`Qos(1)`, `:251`); when a channel closes (connection lost, process died, consumer timeout, …), which may happen at any time, the
message it holds becomes ready again, marked as redelivered; a message to a queue that does not exist is discarded without an error
(`mandatory` is false, `:508`). Simplifications: the order of ready messages is arbitrary (priorities), messages do not expire (only
heartbeats have a time to live, `:456-458`), queues survive (no restart of the server without durable queues). Topics are in
`RabbitTopic.lean`.
-/

namespace Tork.Rabbit
open Tork.Queues (upd)

/-- `amqp.Publishing`, `:510-515`: the name of the Go type and the JSON text. -/
structure Body where
  type : String
  text : String
  deriving DecidableEq

/-- `d.Type == "*tork.Task"` (`:349`) -/
def Body.isTask (b : Body) : Bool := b.type = "*tork.Task"

/-- A message on the server. `id` tells messages apart (AMQP: delivery tags); `again` is `d.Redelivered`. -/
structure Item where
  id : Nat
  queue : String
  body : Body
  again : Bool
  deriving DecidableEq

/-- Where the goroutine of `subscribe` is. -/
inductive Phase
  /-- in `select` (`:280`), holding nothing -/
  | wait
  /-- has received a message (`:328`) -/
  | got (m : Item)
  /-- has dealt with a redelivered task, about to acknowledge it (`:364`) -/
  | ack (m : Item)
  /-- inside the handler (`:379`) -/
  | handling (m : Item)
  /-- the handler has returned; about to acknowledge (`:391`) or reject (`:385`) -/
  | settle (m : Item) (ok : Bool)
  /-- back in `select` without having acknowledged or rejected a message that could not be decoded (`:371-377`) -/
  | wedged (m : Item)
  /-- has seen that the channel is closed; in the loop of `:333-342` -/
  | resub
  /-- has returned, or is blocked for ever in `sub.done <- …` (`:343`) -/
  | gone
  deriving DecidableEq

/-- The message the server regards as held by the consumer. -/
def Phase.held : Phase → Option Item
  | .got m | .ack m | .handling m | .settle m _ | .wedged m => some m
  | _ => none

structure Consumer where
  queue : String
  phase : Phase
  /-- the channel is open -/
  up : Bool
  /-- in `b.subscriptions` (`:275`) -/
  registered : Bool

/-- `Shutdown` (`:593-640`). -/
inductive Shut
  | no
  /-- the subscriptions still to visit (`:604`) -/
  | cancelling (todo : List Nat)
  /-- returned -/
  | done

structure St where
  /-- queues that exist -/
  declared : String → Bool
  ready : Nat → Option Item
  cons : Nat → Consumer
  /-- consumers so far -/
  n : Nat
  /-- messages so far -/
  next : Nat
  shut : Shut

def St.init : St :=
  { declared := fun _ => false, ready := fun _ => none, cons := fun _ => ⟨"", .gone, false, false⟩, n := 0, next := 0, shut := .no }

/-- What can be observed. `P` is the type of decoded messages. -/
inductive Lbl (P : Type)
  | tau
  /-- a publisher was told that its message was published; it is in its queue as `id` -/
  | sent (id : Nat) (q : String) (b : Body)
  /-- a publisher was told that its message was published; it is nowhere -/
  | dropped (q : String) (b : Body)
  | subscribed (c : Nat) (q : String)
  /-- the handler of `c` is called -/
  | called (c id : Nat) (again : Bool) (p : P)
  | returned (c id : Nat) (ok : Bool)
  /-- a redelivered task, `id`, has been published to the queue `redeliveries`, as `id'` -/
  | forwarded (c id id' : Nat) (b : Body)
  /-- a redelivered task was to be published to `redeliveries`, but that failed or the queue does not exist -/
  | unforwarded (c id : Nat)
  /-- the server has removed the message for good -/
  | settled (c id : Nat) (accepted : Bool)
  /-- the channel of `c` is closed -/
  | closed (c : Nat)
  | deleted (q : String)
  /-- `Shutdown` returns -/
  | down

/-- What the server does with the held message when a channel closes. -/
def requeue (s : St) (p : Phase) : Nat → Option Item :=
  match p.held with
  | some m => if s.declared m.queue then upd s.ready m.id (some { m with again := true }) else s.ready
  | none => s.ready

/-- `:260-276`: a new consumer. -/
def Consumer.fresh (q : String) : Consumer := ⟨q, .wait, true, true⟩

/-- `select` of `:280` can receive. -/
def Phase.selecting : Phase → Bool
  | .wait | .wedged _ => true
  | _ => false

variable {P : Type}

/-- `dec` is `deserialize` (`:413-447`). -/
inductive Step (dec : Body → Option P) : St → Lbl P → St → Prop
  /-- `publish` (`:485-520`) to a queue that exists -/
  | send (s : St) (q : String) (b : Body) : s.declared q = true →
      Step dec s (.sent s.next q b) { s with ready := upd s.ready s.next (some ⟨s.next, q, b, false⟩), next := s.next + 1 }
  /-- `publish` to a queue that does not exist: the message is discarded, no error is reported. (`PublishTask`, `:213-229`,
  opens and closes a channel first, but does not declare the queue.) -/
  | drop (s : St) (q : String) (b : Body) : s.declared q = false → Step dec s (.dropped q b) s
  /-- `subscribe` (`:241-277`); `declareQueue` (`:449-483`) creates the queue if necessary -/
  | subscribe (s : St) (q : String) :
      Step dec s (.subscribed s.n q) { s with declared := upd s.declared q true, cons := upd s.cons s.n (.fresh q), n := s.n + 1 }
  /-- the server hands a ready message to a consumer without unacknowledged message -/
  | deliver (s : St) (c : Nat) (m : Item) : (s.cons c).up = true → (s.cons c).phase = .wait → s.ready m.id = some m →
      m.queue = (s.cons c).queue →
      Step dec s .tau { s with ready := upd s.ready m.id none, cons := upd s.cons c { s.cons c with phase := .got m } }
  /-- `:349-363`: a redelivered task goes to `redeliveries` -/
  | forward (s : St) (c : Nat) (m : Item) (p : P) : (s.cons c).phase = .got m → m.again = true → m.body.isTask = true →
      dec m.body = some p → s.declared "redeliveries" = true →
      Step dec s (.forwarded c m.id s.next m.body)
        { s with ready := upd s.ready s.next (some ⟨s.next, "redeliveries", m.body, false⟩), next := s.next + 1
                 cons := upd s.cons c { s.cons c with phase := .ack m } }
  /-- `:349-363`: the queue `redeliveries` does not exist, the publication fails (`:358-362`, only logged), or the message
  cannot be decoded (`:350-356`, only logged) -/
  | unforward (s : St) (c : Nat) (m : Item) : (s.cons c).phase = .got m → m.again = true → m.body.isTask = true →
      Step dec s (.unforwarded c m.id) { s with cons := upd s.cons c { s.cons c with phase := .ack m } }
  /-- `:364-369`: the redelivered message is acknowledged -/
  | ackAgain (s : St) (c : Nat) (m : Item) : (s.cons c).phase = .ack m → (s.cons c).up = true →
      Step dec s (.settled c m.id true) { s with cons := upd s.cons c { s.cons c with phase := .wait } }
  /-- `:379`: the handler is called -/
  | call (s : St) (c : Nat) (m : Item) (p : P) : (s.cons c).phase = .got m → ¬ (m.again = true ∧ m.body.isTask = true) →
      dec m.body = some p →
      Step dec s (.called c m.id m.again p) { s with cons := upd s.cons c { s.cons c with phase := .handling m } }
  /-- `:371-377`: a message that cannot be decoded is only logged -/
  | wedge (s : St) (c : Nat) (m : Item) : (s.cons c).phase = .got m → ¬ (m.again = true ∧ m.body.isTask = true) →
      dec m.body = none → Step dec s .tau { s with cons := upd s.cons c { s.cons c with phase := .wedged m } }
  /-- the handler returns -/
  | ret (s : St) (c : Nat) (m : Item) (ok : Bool) : (s.cons c).phase = .handling m →
      Step dec s (.returned c m.id ok) { s with cons := upd s.cons c { s.cons c with phase := .settle m ok } }
  /-- `:385, 391`: `Ack`, or `Reject` without requeueing -/
  | settle (s : St) (c : Nat) (m : Item) (ok : Bool) : (s.cons c).phase = .settle m ok → (s.cons c).up = true →
      Step dec s (.settled c m.id ok) { s with cons := upd s.cons c { s.cons c with phase := .wait } }
  /-- `:364-369, 385-395` on a closed channel: an error that is only logged -/
  | late (s : St) (c : Nat) (m : Item) : ((s.cons c).phase = .ack m ∨ ∃ ok, (s.cons c).phase = .settle m ok) → (s.cons c).up = false →
      Step dec s .tau { s with cons := upd s.cons c { s.cons c with phase := .wait } }
  /-- a channel closes -/
  | close (s : St) (c : Nat) : (s.cons c).up = true →
      Step dec s (.closed c) { s with ready := requeue s (s.cons c).phase, cons := upd s.cons c { s.cons c with up := false } }
  /-- `:329-330`: the goroutine sees that its channel is closed -/
  | notice (s : St) (c : Nat) : (s.cons c).up = false → (s.cons c).phase.selecting = true →
      Step dec s .tau { s with cons := upd s.cons c { s.cons c with phase := .resub } }
  /-- `:335, 341`: subscribed again, by a new goroutine; the old entry of `b.subscriptions` stays -/
  | again (s : St) (c : Nat) : (s.cons c).phase = .resub → s.shut = .no →
      Step dec s (.subscribed s.n (s.cons c).queue)
        { s with declared := upd s.declared (s.cons c).queue true, n := s.n + 1
                 cons := upd (upd s.cons s.n (.fresh (s.cons c).queue)) c { s.cons c with phase := .gone } }
  /-- `:333, 343-344`: shutting down, or twenty attempts failed -/
  | giveUp (s : St) (c : Nat) : (s.cons c).phase = .resub →
      Step dec s .tau { s with cons := upd s.cons c { s.cons c with phase := .gone } }
  /-- `DeleteQueue` (`:197-211`), or the server deletes an exclusive queue -/
  | delete (s : St) (q : String) :
      Step dec s (.deleted q) { s with
        declared := upd s.declared q false
        ready := fun i => (s.ready i).filter fun m => m.queue ≠ q }
  /-- `Shutdown` begins (`:593-604`) -/
  | shut (s : St) (l : List Nat) : s.shut = .no → (∀ c, c ∈ l ↔ (s.cons c).registered = true) →
      Step dec s .tau { s with shut := .cancelling l }
  /-- `:606-608`: subscriptions to other queues are skipped -/
  | skip (s : St) (c : Nat) (l : List Nat) : s.shut = .cancelling (c :: l) → isCoordinatorQueue (s.cons c).queue = false →
      Step dec s .tau { s with shut := .cancelling l }
  /-- `:609-616` and `:281-296`: the goroutine receives the cancellation, closes its channel and ends -/
  | cancel (s : St) (c : Nat) (l : List Nat) : s.shut = .cancelling (c :: l) → isCoordinatorQueue (s.cons c).queue = true →
      (s.cons c).phase.selecting = true →
      Step dec s (.closed c) { s with
        shut := .cancelling l
        ready := if (s.cons c).up then requeue s (s.cons c).phase else s.ready
        cons := upd s.cons c { s.cons c with phase := .gone, up := false, registered := false } }
  /-- `:618-640`: the connections are closed (their channels: `close`), `Shutdown` returns -/
  | down (s : St) : s.shut = .cancelling [] → Step dec s .down { s with shut := .done }

/-- Runs from the start, the labels latest first. -/
inductive Trace (dec : Body → Option P) : List (Lbl P) → St → Prop
  | init : Trace dec [] .init
  | step {l : List (Lbl P)} {s s' : St} {x : Lbl P} : Trace dec l s → Step dec s x s' → Trace dec (x :: l) s'

/-- Any number of steps. -/
inductive Steps (dec : Body → Option P) : St → St → Prop
  | refl (s : St) : Steps dec s s
  | tail {s s' s'' : St} {x : Lbl P} : Steps dec s s' → Step dec s' x s'' → Steps dec s s''

end Tork.Rabbit
