import Verif.BrokerQueue
/-!
# Engine — model of `/repo/engine/engine.go`

Starting, terminating and configuring an engine from any number of goroutines, as a labelled transition system. Everything between
acquiring and releasing `e.mu` that nobody else can see is one step. Simplifications: a component (`initBroker`, …) is started completely or
not at all; stopping a component always returns (its errors are only logged, `:173, 197, 233, 238`); `SubmitJob`, which does not take
the lock, is not modelled.
-/

namespace Tork.Engine
open Tork.Queues (upd)

/-- `:29-33`; `other` is any other string -/
inductive Mode | coordinator | worker | standalone | other
  deriving DecidableEq

/-- `:37-42` -/
inductive State | idle | running | terminating | terminated
  deriving DecidableEq

inductive Comp | broker | datastore | locker | worker | coordinator
  deriving DecidableEq

/-- What is started, in this order: `runCoordinator` (`:150-165`), `runWorker` (`:182-189`), `runStandalone` (`:206-225`). -/
def Mode.plan : Mode → List Comp
  | .coordinator => [.broker, .datastore, .locker, .coordinator]
  | .worker => [.broker, .worker]
  | .standalone => [.broker, .datastore, .locker, .worker, .coordinator]
  | .other => []

/-- What is stopped, in this order (`:171-175, 195-199, 231-240`). -/
def Mode.stops : Mode → List Comp
  | .coordinator => [.coordinator]
  | .worker => [.worker]
  | .standalone => [.worker, .coordinator]
  | .other => []

/-- Calls of the API. -/
inductive Op
  /-- `Start` (`:102-121`) or, waiting, `Run` (`:123-129`) -/
  | start (wait : Bool)
  /-- `:131-141` -/
  | terminate
  /-- `:143-148` -/
  | setMode (m : Mode)
  /-- `RegisterWebMiddleware`, … (`:253-335`) -/
  | register
  /-- `State` (`:96-100`) -/
  | state
  deriving DecidableEq

/-- How a call ends. -/
inductive Res | ok | error | panic | is (s : State)
  deriving DecidableEq

/-- Where a goroutine that uses the engine is. -/
inductive Caller
  | new
  /-- waiting for the lock -/
  | wants (op : Op)
  /-- in `Start`, with the lock; the components still to be started -/
  | starting (wait : Bool) (todo : List Comp)
  /-- in `Start`, with the lock, the goroutine of `:167, 191, 227` having been started -/
  | started (wait : Bool)
  /-- `Run`, `:127` -/
  | waiting
  /-- `e.terminate <- 1` (`:137`), with the lock -/
  | sending
  /-- `<-e.terminated` (`:138`), with the lock -/
  | awaiting
  | gone
  deriving DecidableEq

/-- The goroutine of `:167, 191, 227`. -/
inductive Monitor
  | none
  /-- `awaitTerm` (`:374-380`) -/
  | waiting
  /-- the components still to be stopped -/
  | stopping (todo : List Comp)
  /-- `e.terminated` is closed -/
  | closed
  deriving DecidableEq

structure St where
  /-- `e.mu` -/
  lock : Option Nat
  state : State
  mode : Mode
  monitor : Monitor
  /-- running components (instances) -/
  alive : Comp → Nat
  callers : Nat → Caller

def St.init (m : Mode) : St := ⟨.none, .idle, m, .none, fun _ => 0, fun _ => .new⟩

inductive Lbl
  | called (k : Nat) (op : Op)
  | returned (k : Nat) (op : Op) (r : Res)
  | started (c : Comp)
  | stopped (c : Comp)
  /-- SIGINT or SIGTERM has been received -/
  | signal
  | tau
  deriving DecidableEq

/-- `mustState(StateIdle)` is called first -/
def Op.idleOnly : Op → Bool
  | .start _ | .setMode _ | .register => true
  | _ => false

inductive Step : St → Lbl → St → Prop
  | call (s : St) (k : Nat) (op : Op) : s.callers k = .new → Step s (.called k op) { s with callers := upd s.callers k (.wants op) }
  /-- `mustState` (`:247-251`) panics; the lock is released (`defer`) -/
  | refused (s : St) (k : Nat) (op : Op) : s.callers k = .wants op → s.lock = none →
      ((op.idleOnly = true ∧ s.state ≠ .idle) ∨ (op = .terminate ∧ s.state ≠ .running)) →
      Step s (.returned k op .panic) { s with callers := upd s.callers k .gone }
  /-- `:103-113` -/
  | start (s : St) (k : Nat) (w : Bool) : s.callers k = .wants (.start w) → s.lock = none → s.state = .idle → s.mode ≠ .other →
      Step s .tau { s with lock := some k, callers := upd s.callers k (.starting w s.mode.plan) }
  /-- `:114-115` -/
  | unknown (s : St) (k : Nat) (w : Bool) : s.callers k = .wants (.start w) → s.lock = none → s.state = .idle → s.mode = .other →
      Step s (.returned k (.start w) .error) { s with callers := upd s.callers k .gone }
  | comp (s : St) (k : Nat) (w : Bool) (c : Comp) (l : List Comp) : s.callers k = .starting w (c :: l) →
      Step s (.started c) { s with alive := upd s.alive c (s.alive c + 1), callers := upd s.callers k (.starting w l) }
  /-- a component cannot be started: `Start` returns the error; what was started before is left as it is -/
  | fail (s : St) (k : Nat) (w : Bool) (c : Comp) (l : List Comp) : s.callers k = .starting w (c :: l) →
      Step s (.returned k (.start w) .error) { s with lock := none, callers := upd s.callers k .gone }
  /-- `go func() …` -/
  | spawn (s : St) (k : Nat) (w : Bool) : s.callers k = .starting w [] →
      Step s .tau { s with monitor := .waiting, callers := upd s.callers k (.started w) }
  /-- `:117-120` -/
  | running (s : St) (k : Nat) : s.callers k = .started false →
      Step s (.returned k (.start false) .ok) { s with lock := none, state := .running, callers := upd s.callers k .gone }
  /-- `:117-120, 127` -/
  | runs (s : St) (k : Nat) : s.callers k = .started true →
      Step s .tau { s with lock := none, state := .running, callers := upd s.callers k .waiting }
  /-- `:127-128` -/
  | ran (s : St) (k : Nat) : s.callers k = .waiting → s.monitor = .closed →
      Step s (.returned k (.start true) .ok) { s with callers := upd s.callers k .gone }
  /-- `:132-135` -/
  | terminate (s : St) (k : Nat) : s.callers k = .wants .terminate → s.lock = none → s.state = .running →
      Step s .tau { s with lock := some k, state := .terminating, callers := upd s.callers k .sending }
  /-- `:137` and `:378` -/
  | handOver (s : St) (k : Nat) : s.callers k = .sending → s.monitor = .waiting →
      Step s .tau { s with monitor := .stopping s.mode.stops, callers := upd s.callers k .awaiting }
  /-- `:377` -/
  | signal (s : St) : s.monitor = .waiting → Step s .signal { s with monitor := .stopping s.mode.stops }
  /-- `:171-175, 195-199, 231-240` -/
  | stop (s : St) (c : Comp) (l : List Comp) : s.monitor = .stopping (c :: l) →
      Step s (.stopped c) { s with monitor := .stopping l, alive := upd s.alive c (s.alive c - 1) }
  /-- `close(e.terminated)` -/
  | close (s : St) : s.monitor = .stopping [] → Step s .tau { s with monitor := .closed }
  /-- `:138-140` -/
  | terminated (s : St) (k : Nat) : s.callers k = .awaiting → s.monitor = .closed →
      Step s (.returned k .terminate .ok) { s with lock := none, state := .terminated, callers := upd s.callers k .gone }
  /-- `:143-148` -/
  | setMode (s : St) (k : Nat) (m : Mode) : s.callers k = .wants (.setMode m) → s.lock = none → s.state = .idle →
      Step s (.returned k (.setMode m) .ok) { s with mode := m, callers := upd s.callers k .gone }
  /-- `:253-335` -/
  | register (s : St) (k : Nat) : s.callers k = .wants .register → s.lock = none → s.state = .idle →
      Step s (.returned k .register .ok) { s with callers := upd s.callers k .gone }
  /-- `:96-100` -/
  | state (s : St) (k : Nat) : s.callers k = .wants .state → s.lock = none →
      Step s (.returned k .state (.is s.state)) { s with callers := upd s.callers k .gone }

/-- Labels of a run, latest first. -/
inductive Run : St → List Lbl → St → Prop
  | nil (s : St) : Run s [] s
  | step {s s' s'' : St} {l : List Lbl} {x : Lbl} : Run s l s' → Step s' x s'' → Run s (x :: l) s''

end Tork.Engine
