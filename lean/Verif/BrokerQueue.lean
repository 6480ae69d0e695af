import Verif.Types
/-!
# In-memory broker: work queues — model of `/repo/broker/inmemory.go:18-26, 74-152, 168-180, 206-209, 235-243`

A labelled transition system. Any number of goroutines publish, subscribe and delete concurrently; one step is
one access to shared data (the queue map, a queue's channel). `publish` and `subscribe` are *not* atomic: the
lookup in the queue map and the creation of a missing queue are separate steps, as in the code.
The payload type `α` is arbitrary (tasks, jobs, heartbeats, log parts). Simplifications: the `unacked` counter and
the logging are not modelled; creation of the queue object and its registration in the map are one step (the
object is not visible to others in between).
-/

namespace Tork.Queues

/-- Go function/map update. -/
def upd {κ β : Type} [DecidableEq κ] (f : κ → β) (k : κ) (v : β) : κ → β := fun x => if x = k then v else f x

/-- `inmemory.go:74-80 queue`: the name and the buffered channel. -/
structure QObj (α : Type) where
  name : String
  ch : List α

/-- `inmemory.go:18`, `defaultQueueSize` (capacity of the channel). -/
def capacity : Nat := 1000

/-- Where a goroutine is inside `publish` (`inmemory.go:235-243`). -/
inductive PubSt (α : Type)
  /-- the lookup found nothing (`:236-237`) -/
  | create (q : String) (m : α)
  /-- about to `q.send(m)` on queue object `o` (`:241`) -/
  | send (q : String) (o : Nat) (m : α)

/-- Where a subscriber is (`inmemory.go:171-180` and the goroutine of `:120-152`). -/
inductive SubSt (α : Type)
  | absent
  /-- the lookup found nothing (`:173-174`) -/
  | create (q : String)
  /-- about to call `q.subscribe(handler)` (`:178`) on object `o` -/
  | attach (q : String) (o : Nat)
  /-- waiting in `select` (`:131`) -/
  | idle (q : String) (o : Nat)
  /-- inside `sub(m)` (`:138`) -/
  | busy (q : String) (o : Nat) (m : α)
  /-- terminated by `Shutdown` (`:132-134`) -/
  | exited (q : String) (o : Nat)

structure St (α : Type) where
  /-- queue objects, `n` of them allocated so far -/
  objs : Nat → QObj α
  n : Nat
  /-- `b.queues` -/
  map : String → Option Nat
  pub : Nat → Option (PubSt α)
  sub : Nat → SubSt α

/-- `inmemory.go:154-160 NewInMemoryBroker` -/
def St.init {α : Type} : St α :=
  { objs := fun _ => ⟨"", []⟩, n := 0, map := fun _ => none, pub := fun _ => none, sub := fun _ => .absent }

/-- What can be observed of a step. -/
inductive Lbl (α : Type)
  | tau
  /-- the publish call of message `m` to queue `q` took effect (and returns) -/
  | published (q : String) (m : α)
  /-- the handler of subscriber `s` of queue `q` is called with `m` -/
  | delivered (s : Nat) (q : String) (m : α)
  /-- the subscription of `s` to `q` took effect -/
  | subscribed (s : Nat) (q : String)
  /-- the handler call of `s` returned -/
  | handled (s : Nat)
  | deleted (q : String)

inductive Step {α : Type} : St α → Lbl α → St α → Prop
  /-- `publish`, lookup succeeded (`:236`) -/
  | pubFound (s : St α) (p : Nat) (q : String) (m : α) (o : Nat) : s.pub p = none → s.map q = some o →
      Step s .tau { s with pub := upd s.pub p (some (.send q o m)) }
  /-- `publish`, lookup failed (`:236-237`) -/
  | pubMissing (s : St α) (p : Nat) (q : String) (m : α) : s.pub p = none → s.map q = none →
      Step s .tau { s with pub := upd s.pub p (some (.create q m)) }
  /-- `q = newQueue(qname); b.queues.Set(qname, q)` (`:238-239`) -/
  | pubCreate (s : St α) (p : Nat) (q : String) (m : α) : s.pub p = some (.create q m) →
      Step s .tau { s with objs := upd s.objs s.n ⟨q, []⟩, n := s.n + 1, map := upd s.map q (some s.n)
                           pub := upd s.pub p (some (.send q s.n m)) }
  /-- `q.ch <- m` (`:99-101`), blocked while the channel is full -/
  | pubSend (s : St α) (p : Nat) (q : String) (o : Nat) (m : α) : s.pub p = some (.send q o m) →
      (s.objs o).ch.length < capacity →
      Step s (.published q m) { s with objs := upd s.objs o ⟨(s.objs o).name, (s.objs o).ch ++ [m]⟩
                                       pub := upd s.pub p none }
  /-- `subscribe`, lookup succeeded (`:173`) -/
  | subFound (s : St α) (i : Nat) (q : String) (o : Nat) : s.sub i = .absent → s.map q = some o →
      Step s .tau { s with sub := upd s.sub i (.attach q o) }
  /-- `subscribe`, lookup failed (`:173-174`) -/
  | subMissing (s : St α) (i : Nat) (q : String) : s.sub i = .absent → s.map q = none →
      Step s .tau { s with sub := upd s.sub i (.create q) }
  /-- `:175-176` -/
  | subCreate (s : St α) (i : Nat) (q : String) : s.sub i = .create q →
      Step s .tau { s with objs := upd s.objs s.n ⟨q, []⟩, n := s.n + 1, map := upd s.map q (some s.n)
                           sub := upd s.sub i (.attach q s.n) }
  /-- `q.subscribe(handler)` starts the goroutine (`:120-152`) -/
  | subAttach (s : St α) (i : Nat) (q : String) (o : Nat) : s.sub i = .attach q o →
      Step s (.subscribed i q) { s with sub := upd s.sub i (.idle q o) }
  /-- `case m := <-q.ch` (`:135-138`) -/
  | deliver (s : St α) (i : Nat) (q : String) (o : Nat) (m : α) (r : List α) : s.sub i = .idle q o →
      (s.objs o).ch = m :: r →
      Step s (.delivered i q m) { s with objs := upd s.objs o ⟨(s.objs o).name, r⟩
                                         sub := upd s.sub i (.busy q o m) }
  /-- `sub(m)` returned, with or without an error (`:138-143`): the message is gone either way -/
  | finish (s : St α) (i : Nat) (q : String) (o : Nat) (m : α) : s.sub i = .busy q o m →
      Step s (.handled i) { s with sub := upd s.sub i (.idle q o) }
  /-- `case <-terminate` (`:132-134`), on `Shutdown` -/
  | exit (s : St α) (i : Nat) (q : String) (o : Nat) : s.sub i = .idle q o →
      Step s .tau { s with sub := upd s.sub i (.exited q o) }
  /-- `DeleteQueue` (`:206-209`) -/
  | delete (s : St α) (q : String) : Step s (.deleted q) { s with map := upd s.map q none }

/-- Finite executions with their observations. -/
inductive Run {α : Type} : St α → List (Lbl α) → St α → Prop
  | nil (s : St α) : Run s [] s
  | snoc {s s' s'' : St α} {tr : List (Lbl α)} {l : Lbl α} : Run s tr s' → Step s' l s'' → Run s (tr ++ [l]) s''

end Tork.Queues
