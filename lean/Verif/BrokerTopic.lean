import Verif.BrokerQueue
import Verif.Wildcard
/-!
# In-memory broker: events — model of `/repo/broker/inmemory.go:27-72, 266-286`

Labelled transition system; one step is one access to shared data. A topic object has one goroutine that
receives an event (`cur = received e`), takes the read lock (`cur = calling e rest`) and calls the subscribers
one after the other. `PublishEvent` visits the registered topics in an arbitrary order (`sync.Map.Range`): all
that were registered when it started, possibly some registered meanwhile, none twice. Topics are never removed;
`Shutdown` is not modelled. Topic names and patterns are byte strings.
-/

namespace Tork.Topics
open Tork.Queues (upd)

abbrev Bytes := List UInt8

/-- What the goroutine of a topic is doing (`inmemory.go:42-57`). -/
inductive Cur (ε : Type)
  /-- in `select` -/
  | idle
  /-- received `e` from the channel, does not hold the lock yet (`:48-49`) -/
  | received (e : ε)
  /-- holds the read lock; the subscribers still to call with `e` (`:50-52`) -/
  | calling (e : ε) (rest : List Nat)

/-- `inmemory.go:27-34 topic` -/
structure TObj (ε : Type) where
  name : Bytes
  subs : List Nat
  cur : Cur ε

/-- Where a goroutine is inside `PublishEvent` (`:277-284`). -/
structure Publishing (ε : Type) where
  topic : Bytes
  event : ε
  /-- topic objects still to visit -/
  todo : List Nat
  /-- already visited -/
  seen : List Nat

/-- Where a subscription is inside `SubscribeForEvents` (`:266-275`). -/
inductive SubSt
  | absent
  | create (pat : Bytes)
  | append (pat : Bytes) (o : Nat)
  | on (pat : Bytes) (o : Nat)

structure St (ε : Type) where
  objs : Nat → TObj ε
  n : Nat
  /-- `b.topics` -/
  map : Bytes → Option Nat
  pub : Nat → Option (Publishing ε)
  sub : Nat → SubSt

def St.init {ε : Type} : St ε :=
  { objs := fun _ => ⟨[], [], .idle⟩, n := 0, map := fun _ => none, pub := fun _ => none, sub := fun _ => .absent }

inductive Lbl (ε : Type)
  | tau
  /-- publisher `p` hands event `e` to topic object `o` -/
  | handed (p o : Nat) (e : ε)
  /-- the handler of subscription `i` is called with `e` -/
  | delivered (i : Nat) (e : ε)
  /-- `PublishEvent` of publisher `p` returns -/
  | returned (p : Nat)
  | subscribed (i : Nat) (pat : Bytes)

/-- A subscriber list may be changed only by a writer that got the lock: nobody is iterating over it. -/
def Cur.unlocked {ε : Type} : Cur ε → Prop
  | .calling .. => False
  | _ => True

inductive Step {ε : Type} : St ε → Lbl ε → St ε → Prop
  /-- `PublishEvent` starts iterating (`:278`) -/
  | pubStart (s : St ε) (p : Nat) (tn : Bytes) (e : ε) (todo : List Nat) : s.pub p = none → todo.Nodup →
      (∀ o, o ∈ todo ↔ ∃ pat, s.map pat = some o) →
      Step s .tau { s with pub := upd s.pub p (some ⟨tn, e, todo, []⟩) }
  /-- the iteration may also visit a topic registered meanwhile -/
  | pubLate (s : St ε) (p : Nat) (tn : Bytes) (e : ε) (todo seen : List Nat) (pat : Bytes) (o : Nat) :
      s.pub p = some ⟨tn, e, todo, seen⟩ → s.map pat = some o → o ∉ todo → o ∉ seen →
      Step s .tau { s with pub := upd s.pub p (some ⟨tn, e, todo ++ [o], seen⟩) }
  /-- pattern does not match (`:279`) -/
  | pubSkip (s : St ε) (p : Nat) (tn : Bytes) (e : ε) (o : Nat) (todo seen : List Nat) :
      s.pub p = some ⟨tn, e, o :: todo, seen⟩ → Wildcard.match (s.objs o).name tn = false →
      Step s .tau { s with pub := upd s.pub p (some ⟨tn, e, todo, o :: seen⟩) }
  /-- `topic.publish(event)`: the rendezvous on the unbuffered channel (`:68-70` with `:48`) -/
  | pubHand (s : St ε) (p : Nat) (tn : Bytes) (e : ε) (o : Nat) (todo seen : List Nat) :
      s.pub p = some ⟨tn, e, o :: todo, seen⟩ → Wildcard.match (s.objs o).name tn = true → (s.objs o).cur = .idle →
      Step s (.handed p o e) { s with pub := upd s.pub p (some ⟨tn, e, todo, o :: seen⟩)
                                      objs := upd s.objs o { s.objs o with cur := .received e } }
  /-- `PublishEvent` returns (`:283`) -/
  | pubReturn (s : St ε) (p : Nat) (tn : Bytes) (e : ε) (seen : List Nat) : s.pub p = some ⟨tn, e, [], seen⟩ →
      Step s (.returned p) { s with pub := upd s.pub p none }
  /-- `t.mu.RLock()` and the start of the loop (`:49-50`) -/
  | lock (s : St ε) (o : Nat) (e : ε) : (s.objs o).cur = .received e →
      Step s .tau { s with objs := upd s.objs o { s.objs o with cur := .calling e (s.objs o).subs } }
  /-- `sub(m)` (`:51`) -/
  | call (s : St ε) (o : Nat) (e : ε) (i : Nat) (rest : List Nat) : (s.objs o).cur = .calling e (i :: rest) →
      Step s (.delivered i e) { s with objs := upd s.objs o { s.objs o with cur := .calling e rest } }
  /-- `t.mu.RUnlock()` (`:53`) -/
  | unlock (s : St ε) (o : Nat) (e : ε) : (s.objs o).cur = .calling e [] →
      Step s .tau { s with objs := upd s.objs o { s.objs o with cur := .idle } }
  /-- `SubscribeForEvents`, lookup (`:268`) -/
  | subFound (s : St ε) (i : Nat) (pat : Bytes) (o : Nat) : s.sub i = .absent → s.map pat = some o →
      Step s .tau { s with sub := upd s.sub i (.append pat o) }
  | subMissing (s : St ε) (i : Nat) (pat : Bytes) : s.sub i = .absent → s.map pat = none →
      Step s .tau { s with sub := upd s.sub i (.create pat) }
  /-- `newTopic`, `b.topics.Set` (`:270-271`) -/
  | subCreate (s : St ε) (i : Nat) (pat : Bytes) : s.sub i = .create pat →
      Step s .tau { s with objs := upd s.objs s.n ⟨pat, [], .idle⟩, n := s.n + 1, map := upd s.map pat (some s.n)
                           sub := upd s.sub i (.append pat s.n) }
  /-- `t.subscribe(handler)` under the write lock (`:62-66`) -/
  | subAppend (s : St ε) (i : Nat) (pat : Bytes) (o : Nat) : s.sub i = .append pat o → (s.objs o).cur.unlocked →
      Step s (.subscribed i pat) { s with objs := upd s.objs o { s.objs o with subs := (s.objs o).subs ++ [i] }
                                          sub := upd s.sub i (.on pat o) }

/-- Finite executions with their observations. -/
inductive Run {ε : Type} : St ε → List (Lbl ε) → St ε → Prop
  | nil (s : St ε) : Run s [] s
  | snoc {s s' s'' : St ε} {tr : List (Lbl ε)} {l : Lbl ε} : Run s tr s' → Step s' l s'' → Run s (tr ++ [l]) s''

end Tork.Topics
