import Verif.Types
/-!
# The connection pool of the datastore

`/repo/datastore/postgres/postgres.go:732-782 UpdateJob`, called outside of a transaction, takes a connection (`BeginTxx`, 1622), locks the row
of the job (739), and while it keeps both asks for the creator of the job with `ds.GetUser` (746) — on `ds`, not on the transaction `ptx` —
which needs a second connection of the pool (`get`, 1591-1597). The pool has at most `datastore.postgres.max_open_conns` connections
(`/repo/engine/datastore.go:281`, 25 by default); who finds none free waits (`database/sql`; `db.Get` has no deadline). The callers are the
coordinator's consumers of queues (`/repo/internal/coordinator/coordinator.go:239-292`), each of which handles one message at a time.

(`completeEachTask`, `/repo/internal/coordinator/handlers/completed.go:84-97`, uses a second connection in the same way: `EachTx.lean`.)
-/

namespace Tork.Pool

/-- Where a caller of `UpdateJob` is. -/
inductive Pc
  | idle
  /-- the transaction has begun: one connection -/
  | opened (job : Nat)
  /-- the row is locked -/
  | locked (job : Nat)
  /-- `GetUser` is under way: two connections -/
  | asking (job : Nat)
  /-- the user is known -/
  | known (job : Nat)
  deriving DecidableEq

structure S where
  pc : Nat → Pc := fun _ => .idle
  /-- the connections in use, by caller -/
  used : List Nat := []
  lock : Nat → Option Nat := fun _ => none

def upd {α : Type} (f : Nat → α) (i : Nat) (x : α) : Nat → α := fun k => if k = i then x else f k

/-- A caller among `m` begins an update of any job; `n` is the size of the pool. -/
inductive Begin (n m : Nat) (s : S) : S → Prop
  /-- `postgres.go:1622` -/
  | mk (i j : Nat) (hi : i < m) (hp : s.pc i = .idle) (hf : s.used.length < n) :
      Begin n m s { s with pc := upd s.pc i (.opened j), used := i :: s.used }

/-- A caller that has begun goes on. -/
inductive Work (n : Nat) (s : S) : S → Prop
  /-- `postgres.go:739` -/
  | select (i j : Nat) (hp : s.pc i = .opened j) (hl : s.lock j = none) :
      Work n s { s with pc := upd s.pc i (.locked j), lock := upd s.lock j (some i) }
  /-- no such job: rollback -/
  | missing (i j : Nat) (hp : s.pc i = .opened j) (hl : s.lock j = none) : Work n s { s with pc := upd s.pc i .idle, used := s.used.erase i }
  /-- `postgres.go:746`: a second connection -/
  | ask (i j : Nat) (hp : s.pc i = .locked j) (hf : s.used.length < n) : Work n s { s with pc := upd s.pc i (.asking j), used := i :: s.used }
  | answer (i j : Nat) (hp : s.pc i = .asking j) : Work n s { s with pc := upd s.pc i (.known j), used := s.used.erase i }
  /-- `postgres.go:759-781`, then commit or rollback, `postgres.go:1631-1646` -/
  | finish (i j : Nat) (hp : s.pc i = .known j) : Work n s { s with pc := upd s.pc i .idle, used := s.used.erase i, lock := upd s.lock j none }

inductive Reach (n m : Nat) : S → Prop
  | init : Reach n m {}
  | begin {s s' : S} : Reach n m s → Begin n m s s' → Reach n m s'
  | work {s s' : S} : Reach n m s → Work n s s' → Reach n m s'

/-- Any other query finds a free connection. -/
def Serves (n : Nat) (s : S) : Prop := s.used.length < n

/-! ## Invariant -/

def Pc.conns : Pc → Nat
  | .idle => 0
  | .asking _ => 2
  | _ => 1

def Pc.holds : Pc → Option Nat
  | .locked j => some j
  | .asking j => some j
  | .known j => some j
  | _ => none

structure Inv (n m : Nat) (s : S) : Prop where
  count : ∀ i, s.used.count i = (s.pc i).conns
  who : ∀ i, s.pc i ≠ .idle → i < m
  size : s.used.length ≤ n
  lock : ∀ j i, s.lock j = some i → (s.pc i).holds = some j
  held : ∀ i j, (s.pc i).holds = some j → s.lock j = some i

theorem inv_begin {n m : Nat} {s s' : S} (h : Inv n m s) (hs : Begin n m s s') : Inv n m s' := by
  obtain ⟨h1, h2, h3, h4, h5⟩ := h
  cases hs with
  | mk i j hi hp hf =>
    refine ⟨fun k => ?_, by grind [upd], by simp; omega, by grind [upd, Pc.holds], by grind [upd, Pc.holds]⟩
    have := h1 k
    by_cases hk : k = i
    · subst hk; simp [upd, Pc.conns, this, hp]
    · simp [upd, hk, List.count_cons, this]; exact fun h => hk h.symm

theorem inv_work {n m : Nat} {s s' : S} (h : Inv n m s) (hs : Work n s s') : Inv n m s' := by
  obtain ⟨h1, h2, h3, h4, h5⟩ := h
  cases hs with
  | select i j hp hl =>
    refine ⟨fun k => ?_, by grind [upd], h3, by grind [upd, Pc.holds], by grind [upd, Pc.holds]⟩
    have := h1 k
    by_cases hk : k = i
    · subst hk; simp [upd, Pc.conns, this, hp]
    · simp [upd, hk, this]
  | missing i j hp hl =>
    refine ⟨fun k => ?_, by grind [upd], by have := List.length_erase_le (a := i) (l := s.used); simp only; omega, by grind [upd, Pc.holds], by grind [upd, Pc.holds]⟩
    have := h1 k
    by_cases hk : k = i
    · subst hk; simp [upd, Pc.conns, this, hp]
    · have : i ≠ k := fun h => hk h.symm
      simp [upd, hk, h1 k, List.count_erase_of_ne, this, hk]
  | ask i j hp hf =>
    refine ⟨fun k => ?_, by grind [upd], by simp; omega, by grind [upd, Pc.holds], by grind [upd, Pc.holds]⟩
    have := h1 k
    by_cases hk : k = i
    · subst hk; simp [upd, Pc.conns, this, hp]
    · simp [upd, hk, List.count_cons, this]; exact fun h => hk h.symm
  | answer i j hp =>
    refine ⟨fun k => ?_, by grind [upd], by have := List.length_erase_le (a := i) (l := s.used); simp only; omega, by grind [upd, Pc.holds], by grind [upd, Pc.holds]⟩
    have := h1 k
    by_cases hk : k = i
    · subst hk; simp [upd, Pc.conns, this, hp]
    · have : i ≠ k := fun h => hk h.symm
      simp [upd, hk, h1 k, List.count_erase_of_ne, this, hk]
  | finish i j hp =>
    refine ⟨fun k => ?_, by grind [upd], by have := List.length_erase_le (a := i) (l := s.used); simp only; omega, by grind [upd, Pc.holds], by grind [upd, Pc.holds]⟩
    have := h1 k
    by_cases hk : k = i
    · subst hk; simp [upd, Pc.conns, this, hp]
    · have : i ≠ k := fun h => hk h.symm
      simp [upd, hk, h1 k, List.count_erase_of_ne, this, hk]

theorem inv_reach {n m : Nat} {s : S} (h : Reach n m s) : Inv n m s := by
  induction h with
  | init => exact ⟨fun _ => rfl, fun _ h => absurd rfl h, Nat.zero_le _, (fun _ _ h => nomatch h), (fun _ _ h => nomatch h)⟩
  | begin _ hs ih => exact inv_begin ih hs
  | work _ hs ih => exact inv_work ih hs

end Tork.Pool
