/-!
# Lockers — model of `/repo/locker/inmemory.go` and `/repo/locker/postgres.go`

Each method body runs under the mutex (in memory) resp. is one SQL statement on its own transaction
(Postgres), so a concurrent history is a sequence of these atomic operations.
-/

namespace Tork.Locker

/-! ## In memory -/

/-- `inmemory.go:10-13`: the set of held keys. -/
abbrev Locks := List String

/-- `inmemory.go:30-38 AcquireLock`; `none` = error. -/
def acquireLock (k : String) (m : Locks) : Option Locks := if k ∈ m then none else some (k :: m)

/-- `inmemory.go:40-48 releaseLock`; `none` = error. -/
def releaseLock (k : String) (m : Locks) : Option Locks :=
  if k ∈ m then some (m.filter (· ≠ k)) else none

/-- Client operations: acquire a key, or call `ReleaseLock` on the `h`-th lock object obtained so
far (`inmemory.go:15-22`: the object only remembers its key). -/
inductive Op
  | acquire (k : String)
  | release (h : Nat)

/-- The locker together with the lock objects handed out: key and "still held" (ghost flag set false by
the first release of that object). -/
structure World where
  locks : Locks := []
  handles : List (String × Bool) := []

/-- One operation; the result says whether it succeeded. Releasing a non-existing object does nothing. -/
def step (w : World) : Op → Bool × World
  | .acquire k =>
    match acquireLock k w.locks with
    | none => (false, w)
    | some m => (true, { locks := m, handles := w.handles ++ [(k, true)] })
  | .release h =>
    match w.handles[h]? with
    | none => (false, w)
    | some (k, _) =>
      match releaseLock k w.locks with
      | none => (false, w)
      | some m => (true, { locks := m, handles := w.handles.set h (k, false) })

def run (w : World) : List Op → World
  | [] => w
  | op :: ops => run (step w op).2 ops

/-! ## Postgres

`postgres.go:88-104`: every lock object owns a transaction which holds the advisory lock
`hashKey key`; `pg_try_advisory_xact_lock` succeeds iff no other transaction holds it
(a fresh transaction holds none). `ReleaseLock` (`postgres.go:50-52`) ends the transaction, which
releases exactly what it holds; ending it twice is an error without effect. A lost connection ends
the transaction too. -/

structure PgWorld where
  /-- per transaction: the advisory lock it holds (if still open) and the key it was taken for -/
  txs : List (String × Option Nat) := []

inductive PgOp
  | acquire (k : String)
  | release (tx : Nat)
  | connectionLost (tx : Nat)

/-- `postgres.go:88-104` and `50-52`; `hash` is `hashKey` (`postgres.go:106-110`). -/
def pgStep (hash : String → Nat) (w : PgWorld) : PgOp → Bool × PgWorld
  | .acquire k =>
    if w.txs.any (fun t => t.2 = some (hash k)) then (false, w)
    else (true, { txs := w.txs ++ [(k, some (hash k))] })
  | .release i =>
    match w.txs[i]? with
    | some (k, some _) => (true, { txs := w.txs.set i (k, none) })
    | _ => (false, w)
  | .connectionLost i =>
    match w.txs[i]? with
    | some (k, some _) => (true, { txs := w.txs.set i (k, none) })
    | _ => (false, w)

def pgRun (hash : String → Nat) (w : PgWorld) : List PgOp → PgWorld
  | [] => w
  | op :: ops => pgRun hash (pgStep hash w op).2 ops

end Tork.Locker
