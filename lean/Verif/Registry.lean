import Verif.BrokerQueue
/-!
# The worker's registry of running tasks — model of `/repo/internal/worker/worker.go:87-97, 157-178`

Transition system; one step is one operation on the counter, on the concurrent map or on a context. Runs and cancel
requests are numbers; `tid r` is the id of the task of run `r`, `cid c` the task id a cancel request names.
-/

namespace Tork.Registry
open Tork.Queues (upd)

/-- Where a run of `runTask` is. -/
inductive Pc
  /-- not started -/
  | idle
  /-- after `atomic.AddInt32(&w.taskCount, 1)`, `:158` -/
  | counted
  /-- after `w.tasks.Set`, `:167-170`: publishing STARTED and running, `:173-177` -/
  | running
  /-- after the deferred `w.tasks.Delete`, `:171` -/
  | unregistered
  /-- after the deferred `cancel()`, `:166` -/
  | cancelledOwn
  /-- after the deferred decrement, `:159-161` -/
  | done
  deriving DecidableEq

/-- Where a call of `cancelTask` is. -/
inductive CPc
  | idle
  /-- found the entry, `:88`; about to call its cancel, `:94` -/
  | found (r : Nat)
  /-- cancelled, about to delete the entry, `:95` -/
  | cancelled
  | done
  deriving DecidableEq

structure St where
  pc : Nat → Pc
  cpc : Nat → CPc
  /-- `w.tasks` -/
  reg : Nat → Option Nat
  /-- `w.taskCount` -/
  count : Nat
  /-- contexts that were cancelled -/
  dead : Nat → Bool
  /-- ghost: the runs between the increment and the decrement -/
  active : List Nat

def St.init : St :=
  { pc := fun _ => .idle, cpc := fun _ => .idle, reg := fun _ => none, count := 0, dead := fun _ => false, active := [] }

inductive Step (tid cid : Nat → Nat) : St → St → Prop
  | enter (s : St) (r : Nat) : s.pc r = .idle →
      Step tid cid s { s with pc := upd s.pc r .counted, count := s.count + 1, active := r :: s.active }
  | register (s : St) (r : Nat) : s.pc r = .counted →
      Step tid cid s { s with pc := upd s.pc r .running, reg := upd s.reg (tid r) (some r) }
  | unregister (s : St) (r : Nat) : s.pc r = .running →
      Step tid cid s { s with pc := upd s.pc r .unregistered, reg := upd s.reg (tid r) none }
  | ownCancel (s : St) (r : Nat) : s.pc r = .unregistered →
      Step tid cid s { s with pc := upd s.pc r .cancelledOwn, dead := upd s.dead r true }
  | leave (s : St) (r : Nat) : s.pc r = .cancelledOwn →
      Step tid cid s { s with pc := upd s.pc r .done, count := s.count - 1, active := s.active.erase r }
  | find (s : St) (c r : Nat) : s.cpc c = .idle → s.reg (cid c) = some r →
      Step tid cid s { s with cpc := upd s.cpc c (.found r) }
  /-- `:89-92`: unknown task, nothing to cancel -/
  | miss (s : St) (c : Nat) : s.cpc c = .idle → s.reg (cid c) = none →
      Step tid cid s { s with cpc := upd s.cpc c .done }
  | cancel (s : St) (c r : Nat) : s.cpc c = .found r →
      Step tid cid s { s with cpc := upd s.cpc c .cancelled, dead := upd s.dead r true }
  | delete (s : St) (c : Nat) : s.cpc c = .cancelled →
      Step tid cid s { s with cpc := upd s.cpc c .done, reg := upd s.reg (cid c) none }

inductive Reach (tid cid : Nat → Nat) : St → Prop
  | init : Reach tid cid St.init
  | step {s s' : St} : Reach tid cid s → Step tid cid s s' → Reach tid cid s'

end Tork.Registry
