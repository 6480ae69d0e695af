/-!
# Shutting the broker in memory down — model of `/repo/broker/inmemory.go:107-145, 170-179, 240-271`

A subscription is a goroutine that takes the messages of its queue one after the other. `Shutdown` visits the queues; of each it locks the list of
subscriptions, tells each of them to end, and, if the queue is one of the coordinator's, waits until it has. Queues, subscriptions and messages are
numbers. Topics (whose goroutines `Shutdown` stops afterwards) and the bound of 1000 messages of a queue are not modelled; a queue that two goroutines create at the same time (`BrokerQueue`) is not
modelled here either.
-/

namespace Tork.Closing

/-- The goroutine of a subscription (`inmemory.go:127-144`). -/
inductive Loop
  /-- in `select` -/
  | idle
  /-- in the handler, with this message -/
  | handling (m : Nat)
  /-- it has returned (`:130-132`) -/
  | ended
  deriving DecidableEq

/-- `queue.close` of one queue (`:107-116`). -/
structure Close where
  queue : Nat
  /-- subscriptions still to tell -/
  rest : List Nat
  /-- told; its end is awaited (`:112-114`) -/
  waiting : Option Nat := none

/-- The goroutine that `Shutdown` starts (`:255-265`). -/
inductive Down
  /-- `Shutdown` has not been called -/
  | no
  /-- the queues still to visit, and the one that is being closed -/
  | closing (todo : List Nat) (now : Option Close)
  | done

structure State where
  /-- the subscriptions: queue and goroutine -/
  loops : Nat → Option (Nat × Loop) := fun _ => none
  /-- the subscriptions that have been told to end -/
  told : Nat → Bool := fun _ => false
  /-- the messages in the channel of a queue -/
  buf : Nat → List Nat := fun _ => []
  /-- the calls of handlers: subscription and message -/
  calls : List (Nat × Nat) := []
  down : Down := .no
  /-- ghost: the subscriptions there were when `Shutdown` was called -/
  old : Nat → Bool := fun _ => false
  /-- the first call of `Shutdown` has returned; `true`: because all was done, `false`: because its context ended (`:266-269`) -/
  returned : Option Bool := none
  /-- a later call has returned (`:251-253`) -/
  again : Bool := false

def upd {β : Type} (f : Nat → β) (i : Nat) (b : β) : Nat → β := fun j => if j = i then b else f j

/-- Is the list of subscriptions of this queue locked? -/
def Down.locked (d : Down) (q : Nat) : Prop :=
  match d with
  | .closing _ (some c) => c.queue = q
  | _ => False

/-- A step; `coord`: the queues of the coordinator (`/repo/broker/queues.go:49-62`). -/
inductive Step (coord : Nat → Bool) : State → State → Prop
  /-- `publish` (`:240-248`): also while and after the broker is shut down -/
  | publish (s q m) : Step coord s { s with buf := upd s.buf q (s.buf q ++ [m]) }
  /-- `subscribe` (`:170-179, 121-126`) -/
  | subscribe (s i q) : s.loops i = none → ¬s.down.locked q → Step coord s { s with loops := upd s.loops i (some (q, .idle)) }
  /-- `case m := <-q.ch` (`:133-135`): whether or not it has been told to end, since `select` chooses either -/
  | receive (s i q m l) : s.loops i = some (q, .idle) → s.buf q = m :: l →
      Step coord s { s with loops := upd s.loops i (some (q, .handling m)), buf := upd s.buf q l, calls := s.calls ++ [(i, m)] }
  /-- the handler returns (`:135-140`) -/
  | finish (s i q m) : s.loops i = some (q, .handling m) → Step coord s { s with loops := upd s.loops i (some (q, .idle)) }
  /-- `case <-terminate` (`:130-132`) -/
  | stop (s i q) : s.loops i = some (q, .idle) → s.told i = true → Step coord s { s with loops := upd s.loops i (some (q, .ended)) }
  /-- `Shutdown` is called; the queues of its iteration are all that have a subscription (`:251-256`; `sync.Map.Range` visits what was
  there at the beginning, and may visit more) -/
  | shutdown (s todo) : s.down = .no → (∀ i q l, s.loops i = some (q, l) → q ∈ todo) →
      Step coord s { s with down := .closing todo none, old := fun i => (s.loops i).isSome }
  /-- `q.mu.Lock` (`:108-110`) -/
  | lock (s q todo ids) : s.down = .closing (q :: todo) none → (∀ i, i ∈ ids ↔ ∃ l, s.loops i = some (q, l)) →
      Step coord s { s with down := .closing todo (some { queue := q, rest := ids }) }
  /-- `close(sub.terminate)` (`:110-111`) -/
  | tell (s todo q i ids) : s.down = .closing todo (some { queue := q, rest := i :: ids }) →
      Step coord s { s with
        told := upd s.told i true
        down := .closing todo (some { queue := q, rest := ids, waiting := if coord q then some i else none }) }
  /-- `<-sub.terminated` (`:113`) -/
  | await (s todo q i ids) : s.down = .closing todo (some { queue := q, rest := ids, waiting := some i }) →
      s.loops i = some (q, .ended) → Step coord s { s with down := .closing todo (some { queue := q, rest := ids }) }
  /-- `q.mu.Unlock` (`:109`) -/
  | unlock (s todo q) : s.down = .closing todo (some { queue := q, rest := [] }) → Step coord s { s with down := .closing todo none }
  /-- `done <- 1` (`:264`) -/
  | finished (s) : s.down = .closing [] none → Step coord s { s with down := .done }
  /-- `<-done` (`:268`) -/
  | returns (s) : s.down = .done → s.returned = none → Step coord s { s with returned := some true }
  /-- `<-ctx.Done()` (`:267`) -/
  | givesUp (s) : (∃ todo c, s.down = .closing todo c) ∨ s.down = .done → s.returned = none → Step coord s { s with returned := some false }
  /-- another call (`:251-253`) -/
  | again (s) : (∃ todo c, s.down = .closing todo c) ∨ s.down = .done → Step coord s { s with again := true }

inductive Steps (coord : Nat → Bool) : State → State → Prop
  | refl (s) : Steps coord s s
  | step {s t u} : Steps coord s t → Step coord t u → Steps coord s u

theorem Steps.trans {coord : Nat → Bool} {s t u : State} (h : Steps coord s t) (h' : Steps coord t u) : Steps coord s u := by
  induction h' with
  | refl => exact h
  | step _ hs ih => exact ih.step hs

/-- Is the subscription still to be closed? -/
def Down.pending (d : Down) (q i : Nat) : Prop :=
  match d with
  | .no => True
  | .closing todo none => q ∈ todo
  | .closing todo (some c) => q ∈ todo ∨ c.queue = q ∧ (i ∈ c.rest ∨ c.waiting = some i)
  | .done => False

/-- The invariant: a subscription that was there when `Shutdown` was called has ended if its queue has been visited. -/
structure Inv (coord : Nat → Bool) (s : State) : Prop where
  closed : ∀ i q l, s.old i = true → s.loops i = some (q, l) → coord q = true → l = .ended ∨ s.down.pending q i
  there : ∀ i, s.old i = true → ∃ q l, s.loops i = some (q, l)
  returned : s.returned = some true → s.down = .done

theorem inv_init (coord : Nat → Bool) : Inv coord {} := by
  constructor <;> simp

theorem inv_step {coord : Nat → Bool} {s t : State} (h : Inv coord s) (hs : Step coord s t) : Inv coord t := by
  obtain ⟨h1, h2, h3⟩ := h
  cases hs with
  | shutdown todo hn ht =>
    refine ⟨?_, fun i hi => ?_, ?_⟩
    · grind [upd, Down.pending]
    · obtain ⟨⟨q, l⟩, e⟩ := Option.isSome_iff_exists.1 hi
      exact ⟨q, l, e⟩
    · grind
  | _ => constructor <;> grind [upd, Down.pending]

theorem inv_steps {coord : Nat → Bool} {s t : State} (h : Inv coord s) (hs : Steps coord s t) : Inv coord t := by
  induction hs with
  | refl => exact h
  | step _ hs ih => exact inv_step ih hs

end Tork.Closing
