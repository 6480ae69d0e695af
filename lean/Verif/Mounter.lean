import Verif.BrokerQueue
import Verif.Types
/-!
# Combined mounter — model of `/repo/runtime/multi.go`

Transition system; one step is one critical section of the lock or one call of a mounter. Mounts and mounters are
numbers (mount id 0 is the empty id); all mounters are registered before use. The callers are the runtimes: every mount
gets a fresh id (`/repo/runtime/docker/docker.go:161-163`, `tcontainer.go:86-90`) and is used by one goroutine at a time.
-/

namespace Tork.Mounter
open Tork.Queues (upd)

/-- a call of a mounter -/
inductive Call
  | mount (type : String) (x : Nat)
  | unmount (x : Nat)
  deriving DecidableEq

/-- Where a goroutine is inside `Mount` (`multi.go:25-40`) or `Unmount` (`:42-56`). -/
inductive Pc
  /-- found the mounter, `:29-31` -/
  | found (id : Nat) (type : String) (x : Nat)
  /-- recorded it, `:35-38`; about to call it, `:39` -/
  | recorded (id : Nat) (type : String) (x : Nat)
  /-- found the mounter of the mount, `:46-48` -/
  | owner (id : Nat) (x : Nat)
  /-- forgot it, `:52-54`; about to call it, `:55` -/
  | forgotten (id : Nat) (x : Nat)

def Pc.id : Pc → Nat
  | .found id _ _ => id
  | .recorded id _ _ => id
  | .owner id _ => id
  | .forgotten id _ => id

structure St where
  /-- `m.mapping` -/
  mapping : Nat → Option Nat
  pc : Nat → Option Pc
  /-- ids handed out -/
  used : Nat → Bool
  /-- the calls made about each mount, in order -/
  calls : Nat → List Call

def St.init : St := { mapping := fun _ => none, pc := fun _ => none, used := fun _ => false, calls := fun _ => [] }

/-- `reg` is `m.mounters`. -/
inductive Step (reg : String → Option Nat) : St → St → Prop
  /-- `:26-34`: an empty id or an unknown type is an error without effect -/
  | find (s : St) (g id : Nat) (ty : String) (x : Nat) : s.pc g = none → id ≠ 0 → s.used id = false → reg ty = some x →
      Step reg s { s with pc := upd s.pc g (some (.found id ty x)), used := upd s.used id true }
  | record (s : St) (g id : Nat) (ty : String) (x : Nat) : s.pc g = some (.found id ty x) →
      Step reg s { s with mapping := upd s.mapping id (some x), pc := upd s.pc g (some (.recorded id ty x)) }
  | mount (s : St) (g id : Nat) (ty : String) (x : Nat) : s.pc g = some (.recorded id ty x) →
      Step reg s { s with pc := upd s.pc g none, calls := upd s.calls id (s.calls id ++ [.mount ty x]) }
  /-- `:43-51`: an empty or unmapped id is an error without effect -/
  | lookup (s : St) (g id x : Nat) : s.pc g = none → id ≠ 0 → (∀ g' p, s.pc g' = some p → p.id ≠ id) → s.mapping id = some x →
      Step reg s { s with pc := upd s.pc g (some (.owner id x)) }
  | forget (s : St) (g id x : Nat) : s.pc g = some (.owner id x) →
      Step reg s { s with mapping := upd s.mapping id none, pc := upd s.pc g (some (.forgotten id x)) }
  | unmount (s : St) (g id x : Nat) : s.pc g = some (.forgotten id x) →
      Step reg s { s with pc := upd s.pc g none, calls := upd s.calls id (s.calls id ++ [.unmount x]) }

inductive Reach (reg : String → Option Nat) : St → Prop
  | init : Reach reg St.init
  | step {s s' : St} : Reach reg s → Step reg s s' → Reach reg s'

end Tork.Mounter
