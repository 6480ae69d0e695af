import Verif.Types
/-!
# Completing a child of a loop, statement by statement

`/repo/internal/coordinator/handlers/completed.go:62-135 completeEachTask` with `/repo/datastore/postgres/postgres.go` `WithTx` (1615-1648),
`UpdateTask` (414-522), `UpdateJob` (732-782), `GetNextTask` (867-876). `Handlers.lean` treats the transaction as one step (with possible
remainders). Here its statements, those of its second connection, and those of any number of others are interleaved: completions of tasks
(of loops, of parallel tasks — a loop without limit behaves as those here — and of the top level, `completed.go:138-226`) and updates of
jobs. Row locks and the connections of the pool are explicit; for what is assumed of Postgres see `TwoPhase.lean`.

Simplified: of a task the model has its state, of a loop the two counters; a loop creates its children in one step; failures and
cancellations of single tasks are one step (justified by C74); tasks are not tried again. The size of a loop is the number of its children.
-/

namespace Tork.EachTx

/-- States of a task: `active` stands for PENDING, SCHEDULED, RUNNING; `dead` for FAILED, CANCELLED. -/
inductive C
  /-- not created yet -/
  | absent
  /-- CREATED: held back -/
  | created
  | active
  /-- COMPLETED -/
  | done
  | dead
  deriving DecidableEq

/-- What does not change. -/
structure Cfg where
  par : Nat → Option Nat
  kids : Nat → List Nat
  job : Nat → Nat
  /-- `Each.Concurrency`; 0: no limit -/
  conc : Nat → Nat
  /-- `max_open_conns` -/
  conns : Nat
  /-- how many goroutines handle messages -/
  callers : Nat

structure Cfg.OK (c : Cfg) : Prop where
  kids : ∀ i p, i ∈ c.kids p ↔ c.par i = some p
  nodup : ∀ p, (c.kids p).Nodup

/-- Where a goroutine is. -/
inductive Pc
  | idle
  /-- the transaction that completes task `i` has begun -/
  | begun (i : Nat)
  /-- the row of `i` is locked, checked and written -/
  | child (i : Nat)
  /-- the row of the parent is locked too -/
  | parent (i p : Nat)
  /-- `GetNextTask` is under way on a second connection -/
  | asking (i p : Nat)
  /-- the next child is known -/
  | found (i p x : Nat)
  /-- `UpdateTask` of the next child has begun, on a second connection -/
  | nested (i p x : Nat)
  /-- it has locked the row of the next child -/
  | nlocked (i p x : Nat)
  /-- it has committed: the next child is released -/
  | released (i p : Nat)
  /-- the row of the parent is written; `rel`: a child was released; `last`: what the caller will be told -/
  | counted (i p : Nat) (rel last : Bool)
  /-- the row of the job is locked and written -/
  | jobbed (i : Nat) (p : Option Nat) (rel last : Bool)
  /-- `UpdateJob` of job `j` outside of a transaction has begun; the row is locked; the creator is being looked up; is known -/
  | jopened (j : Nat)
  | jlocked (j : Nat)
  | jasking (j : Nat)
  | jknown (j : Nat)
  deriving DecidableEq

structure S where
  st : Nat → C := fun _ => .absent
  /-- `Each.Completions`, `Each.Index` -/
  compl : Nat → Nat := fun _ => 0
  index : Nat → Nat := fun _ => 0
  /-- rows of tasks and of jobs: who has locked them -/
  tlock : Nat → Option Nat := fun _ => none
  jlock : Nat → Option Nat := fun _ => none
  pc : Nat → Pc := fun _ => .idle
  /-- the connections in use, by goroutine -/
  used : List Nat := []
  /-- history: transactions that ended without commit after they had released a child, by loop -/
  cut : Nat → Nat := fun _ => 0
  /-- history: how many callers were told that they completed the last child -/
  told : Nat → Nat := fun _ => 0
  /-- history: the completion of the task has been committed -/
  fin : Nat → Bool := fun _ => false

def upd {α : Type} (f : Nat → α) (i : Nat) (x : α) : Nat → α := fun k => if k = i then x else f k

/-- All locks of goroutine `k` are given back. -/
def release (f : Nat → Option Nat) (k : Nat) : Nat → Option Nat := fun r => if f r = some k then none else f r

/-- `!isLast && u.Each.Concurrency > 0 && u.Each.Index < u.Each.Size` (`completed.go:82-83`) -/
def fires (c : Cfg) (s : S) (p : Nat) : Bool :=
  decide (s.compl p + 1 < (c.kids p).length) && decide (0 < c.conc p) && decide (s.index p < (c.kids p).length)

/-- `u.Each.Completions >= u.Each.Size`, after counting (`completed.go:81-82`) -/
def isLast (c : Cfg) (s : S) (p : Nat) : Bool := decide ((c.kids p).length ≤ s.compl p + 1)

def active (c : Cfg) (s : S) (p : Nat) : Nat := (c.kids p).countP fun i => decide (s.st i = .active)
def completed (c : Cfg) (s : S) (p : Nat) : Nat := (c.kids p).countP s.fin

/-- The transaction of `k` ends and gives everything back. -/
def S.leave (s : S) (k : Nat) : S :=
  { s with pc := upd s.pc k .idle, used := s.used.filter (· ≠ k), tlock := release s.tlock k, jlock := release s.jlock k }

/-- A goroutine takes up a message or a request. -/
inductive Begin (c : Cfg) (s : S) : S → Prop
  | complete (k i : Nat) (hk : k < c.callers) (hp : s.pc k = .idle) (hf : s.used.length < c.conns) :
      Begin c s { s with pc := upd s.pc k (.begun i), used := k :: s.used }
  | job (k j : Nat) (hk : k < c.callers) (hp : s.pc k = .idle) (hf : s.used.length < c.conns) :
      Begin c s { s with pc := upd s.pc k (.jopened j), used := k :: s.used }

/-- A goroutine that has begun goes on. -/
inductive Work (c : Cfg) (s : S) : S → Prop
  /-- `completed.go:66-79`: the row is locked, its state is fine, it is written -/
  | child (k i : Nat) (hp : s.pc k = .begun i) (hl : s.tlock i = none) (hs : s.st i = .active) :
      Work c s { s with pc := upd s.pc k (.child i), tlock := upd s.tlock i (some k) }
  /-- its state is not fine, or there is no such task: rollback -/
  | refused (k i : Nat) (hp : s.pc k = .begun i) (hl : s.tlock i = none) (hs : s.st i ≠ .active) : Work c s (s.leave k)
  /-- `completed.go:80`, `141` -/
  | parent (k i p : Nat) (hp : s.pc k = .child i) (hq : c.par i = some p) (hl : s.tlock p = none) :
      Work c s { s with pc := upd s.pc k (.parent i p), tlock := upd s.tlock p (some k) }
  /-- `completed.go:84`: a second connection -/
  | ask (k i p : Nat) (hp : s.pc k = .parent i p) (hq : fires c s p = true) (hf : s.used.length < c.conns) :
      Work c s { s with pc := upd s.pc k (.asking i p), used := k :: s.used }
  | answer (k i p x : Nat) (hp : s.pc k = .asking i p) (hx : x ∈ c.kids p) (hs : s.st x = .created) :
      Work c s { s with pc := upd s.pc k (.found i p x), used := s.used.erase k }
  /-- no child is held back: an error, rollback -/
  | nothing (k i p : Nat) (hp : s.pc k = .asking i p) (hs : ∀ x ∈ c.kids p, s.st x ≠ .created) : Work c s (s.leave k)
  /-- `completed.go:89`: a second connection again -/
  | nest (k i p x : Nat) (hp : s.pc k = .found i p x) (hf : s.used.length < c.conns) :
      Work c s { s with pc := upd s.pc k (.nested i p x), used := k :: s.used }
  | nlock (k i p x : Nat) (hp : s.pc k = .nested i p x) (hl : s.tlock x = none) :
      Work c s { s with pc := upd s.pc k (.nlocked i p x), tlock := upd s.tlock x (some k) }
  /-- the second transaction commits: the child is PENDING, whatever it was (`completed.go:89-94`) -/
  | free (k i p x : Nat) (hp : s.pc k = .nlocked i p x) :
      Work c s { s with pc := upd s.pc k (.released i p), used := s.used.erase k, tlock := upd s.tlock x none, st := upd s.st x .active }
  /-- `completed.go:95-101`: published, the row of the parent is written -/
  | count (k i p : Nat) (hp : s.pc k = .released i p) : Work c s { s with pc := upd s.pc k (.counted i p true (isLast c s p)) }
  /-- the same without release -/
  | plain (k i p : Nat) (hp : s.pc k = .parent i p) (hq : fires c s p = false) :
      Work c s { s with pc := upd s.pc k (.counted i p false (isLast c s p)) }
  /-- `completed.go:106-116`: the result is a variable of the job -/
  | var (k i p : Nat) (r b : Bool) (hp : s.pc k = .counted i p r b) (hl : s.jlock (c.job i) = none) :
      Work c s { s with pc := upd s.pc k (.jobbed i (some p) r b), jlock := upd s.jlock (c.job i) (some k) }
  /-- `completed.go:209-222`: a task of the top level -/
  | top (k i : Nat) (hp : s.pc k = .child i) (hq : c.par i = none) (hl : s.jlock (c.job i) = none) :
      Work c s { s with pc := upd s.pc k (.jobbed i none false false), jlock := upd s.jlock (c.job i) (some k) }
  /-- commit, `postgres.go:1641` -/
  | commit (k i p : Nat) (r b : Bool) (hp : s.pc k = .counted i p r b ∨ s.pc k = .jobbed i (some p) r b) :
      Work c s { s.leave k with
        st := upd s.st i .done
        fin := upd s.fin i true
        compl := upd s.compl p (s.compl p + 1)
        index := upd s.index p (s.index p + 1)
        told := upd s.told p (s.told p + if b then 1 else 0) }
  | commitTop (k i : Nat) (r b : Bool) (hp : s.pc k = .jobbed i none r b) : Work c s { s.leave k with st := upd s.st i .done, fin := upd s.fin i true }
  /-- `UpdateJob` as in `Pool.lean` -/
  | jlock (k j : Nat) (hp : s.pc k = .jopened j) (hl : s.jlock j = none) :
      Work c s { s with pc := upd s.pc k (.jlocked j), jlock := upd s.jlock j (some k) }
  | jask (k j : Nat) (hp : s.pc k = .jlocked j) (hf : s.used.length < c.conns) :
      Work c s { s with pc := upd s.pc k (.jasking j), used := k :: s.used }
  | janswer (k j : Nat) (hp : s.pc k = .jasking j) : Work c s { s with pc := upd s.pc k (.jknown j), used := s.used.erase k }
  | jcommit (k j : Nat) (hp : s.pc k = .jknown j) : Work c s (s.leave k)

/-- Has it released a child without having counted the other one yet? For which loop? -/
def Pc.window : Pc → Option Nat
  | .released _ p => some p
  | .counted _ p true _ => some p
  | .jobbed _ (some p) true _ => some p
  | _ => none

/-- Everything else. -/
inductive Env (c : Cfg) (s : S) : S → Prop
  /-- a task fails or is cancelled, whatever its state: `handlers/cancel.go:71-73`, `handlers/error.go` do not look at it -/
  | dies (i : Nat) (hl : s.tlock i = none) (hs : s.st i ≠ .absent) : Env c s { s with st := upd s.st i .dead }
  /-- a task of the top level is made -/
  | start (i : Nat) (hs : s.st i = .absent) (hp : c.par i = none) : Env c s { s with st := upd s.st i .active }
  /-- a loop is scheduled: its children are created, as many of them are active as the limit allows
  (`/repo/internal/coordinator/scheduler/scheduler.go:214-292`) -/
  | loop (p : Nat) (st' : Nat → C) (hp : s.st p = .active) (hl : s.tlock p = none) (hk : ∀ i ∈ c.kids p, s.st i = .absent)
      (hsame : ∀ i, i ∉ c.kids p → st' i = s.st i) (hnew : ∀ i ∈ c.kids p, st' i = .active ∨ st' i = .created)
      (hc : 0 < c.conc p → ((c.kids p).countP fun i => decide (st' i = .active)) ≤ c.conc p) :
      Env c s { s with st := st', index := upd s.index p (c.conc p), compl := upd s.compl p 0 }
  /-- a goroutine, its connections or the process die; or an error that is not listed above ends the transaction -/
  | abort (k : Nat) (hp : s.pc k ≠ .idle) :
      Env c s { s.leave k with cut := match (s.pc k).window with
        | some p => upd s.cut p (s.cut p + 1)
        | none => s.cut }

inductive Reach (c : Cfg) : S → Prop
  | init : Reach c {}
  | begin {s s' : S} : Reach c s → Begin c s s' → Reach c s'
  | work {s s' : S} : Reach c s → Work c s s' → Reach c s'
  | env {s s' : S} : Reach c s → Env c s s' → Reach c s'

/-! ## Invariants -/

/-- How many connections. -/
def Pc.conns : Pc → Nat
  | .idle => 0
  | .asking .. => 2
  | .nested .. => 2
  | .nlocked .. => 2
  | .jasking _ => 2
  | _ => 1

/-- The row of the task that is completed, if it is locked. -/
def Pc.own : Pc → Option Nat
  | .child i => some i
  | .parent i _ => some i
  | .asking i _ => some i
  | .found i _ _ => some i
  | .nested i _ _ => some i
  | .nlocked i _ _ => some i
  | .released i _ => some i
  | .counted i _ _ _ => some i
  | .jobbed i _ _ _ => some i
  | _ => none

/-- The row of the parent, if it is locked. -/
def Pc.above : Pc → Option Nat
  | .parent _ p => some p
  | .asking _ p => some p
  | .found _ p _ => some p
  | .nested _ p _ => some p
  | .nlocked _ p _ => some p
  | .released _ p => some p
  | .counted _ p _ _ => some p
  | .jobbed _ p _ _ => p
  | _ => none

/-- The row of the next child, if it is locked. -/
def Pc.inner : Pc → Option Nat
  | .nlocked _ _ x => some x
  | _ => none

/-- The next child, if it is known and not released yet. -/
def Pc.cand : Pc → Option Nat
  | .found _ _ x => some x
  | .nested _ _ x => some x
  | .nlocked _ _ x => some x
  | _ => none

def Pc.jrow (c : Cfg) : Pc → Option Nat
  | .jobbed i _ _ _ => some (c.job i)
  | .jlocked j => some j
  | .jasking j => some j
  | .jknown j => some j
  | _ => none

/-- What the caller will be told, once it is decided. -/
def Pc.says_ : Pc → Option Bool
  | .counted _ _ _ b => some b
  | .jobbed _ (some _) _ b => some b
  | _ => none

structure Conns (c : Cfg) (s : S) : Prop where
  count : ∀ k, s.used.count k = (s.pc k).conns
  who : ∀ k, s.pc k ≠ .idle → k < c.callers
  size : s.used.length ≤ c.conns

structure Locks (c : Cfg) (s : S) : Prop where
  own : ∀ k r, (s.pc k).own = some r → s.tlock r = some k
  above : ∀ k r, (s.pc k).above = some r → s.tlock r = some k
  inner : ∀ k r, (s.pc k).inner = some r → s.tlock r = some k
  apart : ∀ k i p x, s.pc k = .nlocked i p x → x ≠ i ∧ x ≠ p
  tback : ∀ k r, s.tlock r = some k → (s.pc k).own = some r ∨ (s.pc k).above = some r ∨ (s.pc k).inner = some r
  jrow : ∀ k r, (s.pc k).jrow c = some r → s.jlock r = some k
  jback : ∀ k r, s.jlock r = some k → (s.pc k).jrow c = some r

theorem count_filter_ne (l : List Nat) (k i : Nat) : (l.filter (· ≠ k)).count i = if i = k then 0 else l.count i := by
  by_cases h : i = k
  · rw [if_pos h]; exact List.count_eq_zero.2 (by simp [h])
  · rw [if_neg h, List.count_filter (by simpa using h)]

theorem conns_leave {c : Cfg} {s : S} (h : Conns c s) (k : Nat) : Conns c (s.leave k) where
  count i := by
    show (s.used.filter (· ≠ k)).count i = (upd s.pc k .idle i).conns
    rw [count_filter_ne]
    by_cases hi : i = k
    · simp [upd, hi, Pc.conns]
    · simp [upd, hi, h.count i]
  who i hi := by
    by_cases hk : i = k
    · simp [S.leave, upd, hk] at hi
    · exact h.who i (by simpa [S.leave, upd, hk] using hi)
  size := Nat.le_trans (List.length_filter_le ..) h.size

/-- The connections of `k` change from those of `s.pc k` to those of `pc'` by one more or one less, or not at all. -/
theorem conns_move {c : Cfg} {s s' : S} (h : Conns c s) (k : Nat) (pc' : Pc) (hp : s'.pc = upd s.pc k pc') (hk : k < c.callers)
    (hu : s'.used = s.used ∧ pc'.conns = (s.pc k).conns ∨
      s'.used = k :: s.used ∧ pc'.conns = (s.pc k).conns + 1 ∧ s.used.length < c.conns ∨
      s'.used = s.used.erase k ∧ pc'.conns + 1 = (s.pc k).conns) : Conns c s' where
  count i := by
    have h1 := h.count i
    rw [hp]
    rcases hu with ⟨hu, hc⟩ | ⟨hu, hc, _⟩ | ⟨hu, hc⟩ <;> rw [hu]
    · by_cases hi : i = k
      · subst hi; simp [upd, hc, h1]
      · simp [upd, hi, h1]
    · by_cases hi : i = k
      · subst hi; simp [upd, hc, h1]
      · have : (k == i) = false := by simpa using fun h => hi h.symm
        simp [upd, hi, h1, List.count_cons, this]
    · by_cases hi : i = k
      · subst hi; simp only [upd, if_pos, List.count_erase_self]; omega
      · rw [List.count_erase_of_ne (by simpa using hi)]; simp [upd, hi, h1]
  who i hi := by
    rw [hp] at hi
    by_cases hik : i = k
    · rw [hik]; exact hk
    · exact h.who i (by simpa [upd, hik] using hi)
  size := by
    have := h.size
    rcases hu with ⟨hu, _⟩ | ⟨hu, _, hf⟩ | ⟨hu, _⟩ <;> rw [hu]
    · exact this
    · simp; omega
    · exact Nat.le_trans List.length_erase_le this

theorem conns_begin {c : Cfg} {s s' : S} (h : Conns c s) (hs : Begin c s s') : Conns c s' := by
  cases hs with
  | complete k i hk hp hf => exact conns_move h k (.begun i) rfl hk (.inr (.inl ⟨rfl, by simp [hp, Pc.conns], hf⟩))
  | job k j hk hp hf => exact conns_move h k (.jopened j) rfl hk (.inr (.inl ⟨rfl, by simp [hp, Pc.conns], hf⟩))

theorem conns_work {c : Cfg} {s s' : S} (h : Conns c s) (hs : Work c s s') : Conns c s' := by
  cases hs with
  | refused k | nothing k | jcommit k => exact conns_leave h k
  | commit k i p r b hp => exact ⟨(conns_leave h k).count, (conns_leave h k).who, (conns_leave h k).size⟩
  | commitTop k => exact ⟨(conns_leave h k).count, (conns_leave h k).who, (conns_leave h k).size⟩
  | child k i hp | parent k i p hp | nlock k i p x hp | count k i p hp | plain k i p hp | var k i p r b hp | top k i hp | jlock k j hp =>
    exact conns_move h k _ rfl (h.who k (by rw [hp]; simp)) (.inl ⟨rfl, by rw [hp]; rfl⟩)
  | ask k i p hp _ hf | nest k i p x hp hf | jask k j hp hf =>
    exact conns_move h k _ rfl (h.who k (by rw [hp]; simp)) (.inr (.inl ⟨rfl, by rw [hp]; rfl, hf⟩))
  | answer k i p x hp | free k i p x hp | janswer k j hp =>
    exact conns_move h k _ rfl (h.who k (by rw [hp]; simp)) (.inr (.inr ⟨rfl, by rw [hp]; rfl⟩))

theorem conns_env {c : Cfg} {s s' : S} (h : Conns c s) (hs : Env c s s') : Conns c s' := by
  cases hs with
  | dies | start | loop => exact ⟨h.count, h.who, h.size⟩
  | abort k hp => exact ⟨(conns_leave h k).count, (conns_leave h k).who, (conns_leave h k).size⟩

theorem locks_leave {c : Cfg} {s : S} (h : Locks c s) (k : Nat) : Locks c (s.leave k) := by
  obtain ⟨h1, h2, h3, h4, h5, h6, h7⟩ := h
  constructor <;> simp only [S.leave] <;> grind [upd, release, Pc.own, Pc.above, Pc.inner, Pc.jrow]

theorem locks_begin {c : Cfg} {s s' : S} (h : Locks c s) (hs : Begin c s s') : Locks c s' := by
  obtain ⟨h1, h2, h3, h4, h5, h6, h7⟩ := h
  cases hs <;> constructor <;> grind [upd, Pc.own, Pc.above, Pc.inner, Pc.jrow]

set_option maxHeartbeats 2000000 in
theorem locks_work {c : Cfg} {s s' : S} (h : Locks c s) (hs : Work c s s') : Locks c s' := by
  cases hs with
  | refused k | nothing k | jcommit k => exact locks_leave h k
  | commit k i p r b hp => obtain ⟨h1, h2, h3, h4, h5, h6, h7⟩ := locks_leave h k; exact ⟨h1, h2, h3, h4, h5, h6, h7⟩
  | commitTop k => obtain ⟨h1, h2, h3, h4, h5, h6, h7⟩ := locks_leave h k; exact ⟨h1, h2, h3, h4, h5, h6, h7⟩
  | child k i hp | parent k i p hp | ask k i p hp | answer k i p x hp | nest k i p x hp | nlock k i p x hp | free k i p x hp | count k i p hp
  | plain k i p hp | var k i p r b hp | top k i hp | jlock k j hp | jask k j hp | janswer k j hp =>
    have a1 := h.own k
    have a2 := h.above k
    have a3 := h.inner k
    have a4 := h.apart k
    have a5 := h.tback k
    have a6 := h.jrow k
    have a7 := h.jback k
    rw [hp] at a1 a2 a3 a4 a5 a6 a7
    simp only [Pc.own, Pc.above, Pc.inner, Pc.jrow] at a1 a2 a3 a5 a6 a7
    obtain ⟨h1, h2, h3, h4, h5, h6, h7⟩ := h
    constructor <;> grind [upd, Pc.own, Pc.above, Pc.inner, Pc.jrow]

theorem locks_env {c : Cfg} {s s' : S} (h : Locks c s) (hs : Env c s s') : Locks c s' := by
  cases hs with
  | abort k hp => obtain ⟨h1, h2, h3, h4, h5, h6, h7⟩ := locks_leave h k; exact ⟨h1, h2, h3, h4, h5, h6, h7⟩
  | _ => exact ⟨h.own, h.above, h.inner, h.apart, h.tback, h.jrow, h.jback⟩

structure Rows (c : Cfg) (s : S) : Prop where
  act : ∀ k i, (s.pc k).own = some i → s.st i = .active
  link : ∀ k i p, (s.pc k).own = some i → (s.pc k).above = some p → c.par i = some p
  cpar : ∀ k x p, (s.pc k).cand = some x → (s.pc k).above = some p → c.par x = some p
  cst : ∀ k x, (s.pc k).cand = some x → s.st x = .created ∨ s.st x = .dead
  cfresh : ∀ k x i, (s.pc k).cand = some x → c.par i = some x → s.st i = .absent
  fresh : ∀ p i, s.st p = .absent ∨ s.st p = .created → c.par i = some p → s.st i = .absent
  nofin : ∀ i, s.st i = .absent ∨ s.st i = .created ∨ s.st i = .active → s.fin i = false
  cfin : ∀ k x, (s.pc k).cand = some x → s.fin x = false

theorem rows_leave {c : Cfg} {s : S} (h : Rows c s) (k : Nat) : Rows c (s.leave k) := by
  obtain ⟨h1, h2, h3, h4, h5, h6, h7, h8⟩ := h
  constructor <;> simp only [S.leave] <;> grind [upd, Pc.own, Pc.above, Pc.cand]

theorem rows_begin {c : Cfg} {s s' : S} (h : Rows c s) (hs : Begin c s s') : Rows c s' := by
  obtain ⟨h1, h2, h3, h4, h5, h6, h7, h8⟩ := h
  cases hs <;> constructor <;> grind [upd, Pc.own, Pc.above, Pc.cand]

set_option maxHeartbeats 2000000 in
theorem rows_work {c : Cfg} (hc : c.OK) {s s' : S} (l : Locks c s) (h : Rows c s) (hs : Work c s s') : Rows c s' := by
  cases hs with
  | refused k | nothing k | jcommit k => exact rows_leave h k
  | commit k i p r b hp =>
    have hp : (s.pc k).own = some i := by rcases hp with hp | hp <;> rw [hp] <;> rfl
    have g1 := h.act k i hp
    have g2 : ∀ k', k' ≠ k → (s.pc k').own ≠ some i := fun k' hk h' => hk (by have := l.own k' i h'; rw [l.own k i hp] at this; cases this; rfl)
    obtain ⟨h1, h2, h3, h4, h5, h6, h7, h8⟩ := h
    constructor <;> simp only [S.leave] <;> grind [upd, Pc.own, Pc.above, Pc.cand]
  | commitTop k i r b hp =>
    have hp : (s.pc k).own = some i := by rw [hp]; rfl
    have g1 := h.act k i hp
    have g2 : ∀ k', k' ≠ k → (s.pc k').own ≠ some i := fun k' hk h' => hk (by have := l.own k' i h'; rw [l.own k i hp] at this; cases this; rfl)
    obtain ⟨h1, h2, h3, h4, h5, h6, h7, h8⟩ := h
    constructor <;> simp only [S.leave] <;> grind [upd, Pc.own, Pc.above, Pc.cand]
  | answer k i p x hp hx hs =>
    have hx := (hc.kids x p).1 hx
    have a1 := h.act k
    have a2 := h.link k
    rw [hp] at a1 a2
    simp only [Pc.own, Pc.above] at a1 a2
    obtain ⟨h1, h2, h3, h4, h5, h6, h7, h8⟩ := h
    constructor <;> grind [upd, Pc.own, Pc.above, Pc.cand]
  | free k i p x hp =>
    have a1 := h.act k i (by rw [hp]; rfl)
    have a2 := h.link k i p (by rw [hp]; rfl) (by rw [hp]; rfl)
    have a3 := h.cpar k x p (by rw [hp]; rfl) (by rw [hp]; rfl)
    have a4 := h.cst k x (by rw [hp]; rfl)
    have a5 : ∀ i, c.par i = some x → s.st i = .absent := fun i => h.cfresh k x i (by rw [hp]; rfl)
    have a6 := h.cfin k x (by rw [hp]; rfl)
    have l2 := l.above k p (by rw [hp]; rfl)
    have g : ∀ k', (s.pc k').cand = some x → k' = k := fun k' hk => by
      have h3 := h.cpar k' x
      cases hq : (s.pc k').above with
      | none => cases hpk : s.pc k' <;> simp [hpk, Pc.cand, Pc.above] at hk hq
      | some q =>
        have h4 := h3 q hk hq
        have h5 := l.above k' q hq
        grind
    obtain ⟨h1, h2, h3, h4, h5, h6, h7, h8⟩ := h
    constructor <;> grind [upd, Pc.own, Pc.above, Pc.cand]
  | child k i hp | parent k i p hp | ask k i p hp | nest k i p x hp | nlock k i p x hp | count k i p hp
  | plain k i p hp | var k i p r b hp | top k i hp | jlock k j hp | jask k j hp | janswer k j hp =>
    have a1 := h.act k
    have a2 := h.link k
    have a3 := h.cpar k
    have a4 := h.cst k
    have a5 := h.cfresh k
    have a6 := h.cfin k
    rw [hp] at a1 a2 a3 a4 a5 a6
    simp only [Pc.own, Pc.above, Pc.cand] at a1 a2 a3 a4 a5 a6
    obtain ⟨h1, h2, h3, h4, h5, h6, h7, h8⟩ := h
    constructor <;> grind [upd, Pc.own, Pc.above, Pc.cand]

set_option maxHeartbeats 2000000 in
theorem rows_env {c : Cfg} (hc : c.OK) {s s' : S} (l : Locks c s) (h : Rows c s) (hs : Env c s s') : Rows c s' := by
  cases hs with
  | abort k hp => obtain ⟨h1, h2, h3, h4, h5, h6, h7, h8⟩ := rows_leave h k; exact ⟨h1, h2, h3, h4, h5, h6, h7, h8⟩
  | dies i hl hs =>
    have l1 := l.own
    obtain ⟨h1, h2, h3, h4, h5, h6, h7, h8⟩ := h
    constructor <;> grind [upd]
  | start i hs hp =>
    obtain ⟨h1, h2, h3, h4, h5, h6, h7, h8⟩ := h
    constructor <;> grind [upd]
  | loop p st' hp hl hk hsame hnew _ =>
    simp only [hc.kids] at hk hsame hnew
    have hpp : c.par p ≠ some p := fun h' => by have := hk p h'; rw [hp] at this; cases this
    obtain ⟨h1, h2, h3, h4, h5, h6, h7, h8⟩ := h
    refine ⟨by grind, h2, h3, by grind, by grind, fun q i hq hi => ?_, by grind, h8⟩
    dsimp only at hq ⊢
    have hqp : q ≠ p := fun h' => by rw [h', hsame p hpp, hp] at hq; simp at hq
    rw [hsame i (by rw [hi]; simpa using hqp)]
    refine h6 q i ?_ hi
    by_cases hq' : c.par q = some p
    · exact .inl (hk q hq')
    · rwa [hsame q hq'] at hq

theorem countP_fin {l : List Nat} (hn : l.Nodup) (f : Nat → Bool) (i : Nat) (hi : f i = false) :
    l.countP (upd f i true) = l.countP f + (if i ∈ l then 1 else 0) := by
  induction l with
  | nil => simp
  | cons x l ih =>
    have hx := (List.nodup_cons.1 hn).1
    have ih := ih (List.nodup_cons.1 hn).2
    rw [List.countP_cons, List.countP_cons]
    by_cases h : i = x
    · subst h
      rw [ih, if_neg hx]
      have h1 : upd f i true i = true := by simp [upd]
      simp [h1, hi]
    · have h1 : upd f i true x = f x := by simp [upd, Ne.symm h]
      simp only [h1, List.mem_cons, h, false_or, ih]
      omega

theorem countP_upd {l : List Nat} (hn : l.Nodup) (f : Nat → C) (i : Nat) (v a : C) :
    (l.countP fun j => decide (upd f i v j = a)) + (if i ∈ l ∧ f i = a then 1 else 0) =
      (l.countP fun j => decide (f j = a)) + (if i ∈ l ∧ v = a then 1 else 0) := by
  induction l with
  | nil => simp
  | cons x l ih =>
    have hx := (List.nodup_cons.1 hn).1
    have ih := ih (List.nodup_cons.1 hn).2
    rw [List.countP_cons, List.countP_cons]
    by_cases hi : i = x
    · subst hi
      have h0 : (l.countP fun j => decide (upd f i v j = a)) = l.countP fun j => decide (f j = a) :=
        List.countP_congr fun j hj => by simp [upd, show j ≠ i from fun h => hx (h ▸ hj)]
      rw [h0]
      have h1 : upd f i v i = v := by simp [upd]
      simp only [h1, List.mem_cons, true_or, true_and, decide_eq_true_eq]
      omega
    · have h1 : upd f i v x = f x := by simp [upd, Ne.symm hi]
      simp only [h1, List.mem_cons, hi, false_or]
      omega

structure Counts (c : Cfg) (s : S) : Prop where
  top : ∀ k i r b, s.pc k = .jobbed i none r b → c.par i = none
  compl : ∀ p, s.compl p = completed c s p
  said : ∀ k p b, (s.pc k).says_ = some b → (s.pc k).above = some p → b = isLast c s p
  told : ∀ p, s.told p = if c.kids p ≠ [] ∧ (c.kids p).length ≤ s.compl p then 1 else 0

theorem counts_of_same {c : Cfg} {s s' : S} (h : Counts c s) (h1 : s'.fin = s.fin) (h2 : s'.compl = s.compl) (h3 : s'.told = s.told)
    (ht : ∀ k i r b, s'.pc k = .jobbed i none r b → c.par i = none)
    (hsaid : ∀ k p b, (s'.pc k).says_ = some b → (s'.pc k).above = some p → b = isLast c s p) : Counts c s' where
  top := ht
  compl p := by rw [h2, h.compl]; unfold completed; rw [h1]
  said k p b h4 h5 := by rw [hsaid k p b h4 h5]; unfold isLast; rw [h2]
  told p := by rw [h3, h2, h.told]

theorem counts_leave {c : Cfg} {s : S} (h : Counts c s) (k : Nat) : Counts c (s.leave k) := by
  refine counts_of_same h rfl rfl rfl (fun k' i r b h' => ?_) fun k' p b h1 h2 => ?_
  · by_cases hk : k' = k
    · simp [S.leave, upd, hk] at h'
    · exact h.top k' i r b (by simpa [S.leave, upd, hk] using h')
  · by_cases hk : k' = k
    · simp [S.leave, upd, hk, Pc.says_] at h1
    · exact h.said k' p b (by simpa [S.leave, upd, hk] using h1) (by simpa [S.leave, upd, hk] using h2)

theorem counts_begin {c : Cfg} {s s' : S} (h : Counts c s) (hs : Begin c s s') : Counts c s' := by
  have h1 := h.top
  have h2 := h.said
  cases hs <;> refine counts_of_same h rfl rfl rfl ?_ ?_ <;> grind [upd, Pc.says_, Pc.above]

theorem not_all_done {c : Cfg} {s : S} {i p : Nat} (hi : i ∈ c.kids p) (hs : s.fin i = false) : completed c s p < (c.kids p).length := by
  refine Nat.lt_of_le_of_ne List.countP_le_length fun h => ?_
  have := List.countP_eq_length.1 h i hi
  rw [hs] at this; cases this

set_option maxHeartbeats 2000000 in
theorem counts_work {c : Cfg} (hc : c.OK) {s s' : S} (l : Locks c s) (r : Rows c s) (h : Counts c s) (hs : Work c s s') : Counts c s' := by
  cases hs with
  | refused k | nothing k | jcommit k => exact counts_leave h k
  | commit k i p rel b hp =>
    have ho : (s.pc k).own = some i := by rcases hp with hp | hp <;> rw [hp] <;> rfl
    have ha : (s.pc k).above = some p := by rcases hp with hp | hp <;> rw [hp] <;> rfl
    have hsy : (s.pc k).says_ = some b := by rcases hp with hp | hp <;> rw [hp] <;> rfl
    have hst := r.act k i ho
    have hf := r.nofin i (.inr (.inr hst))
    have hpar := (hc.kids i p).2 (r.link k i p ho ha)
    have hb := h.said k p b hsy ha
    have hlt := not_all_done hpar hf
    have hcp := h.compl p
    refine ⟨fun k' i' r' b' h' => ?_, fun q => ?_, fun k' q b' h1 h2 => ?_, fun q => ?_⟩
    · by_cases hk : k' = k
      · simp [S.leave, upd, hk] at h'
      · exact h.top k' i' r' b' (by simpa [S.leave, upd, hk] using h')
    · have hu := countP_fin (hc.nodup q) s.fin i hf
      have hq := h.compl q
      show upd s.compl p (s.compl p + 1) q = (c.kids q).countP (upd s.fin i true)
      rw [hu]
      by_cases hqp : q = p
      · subst hqp; simp [upd, hpar, hq, completed]
      · have : i ∉ c.kids q := fun h' => hqp (by have h3 := (hc.kids i q).1 h'; rw [(hc.kids i p).1 hpar] at h3; cases h3; rfl)
        simp [upd, hqp, this, hq, completed]
    · by_cases hk : k' = k
      · simp [S.leave, upd, hk, Pc.says_] at h1
      · have h2' : (s.pc k').above = some q := by simpa [S.leave, upd, hk] using h2
        have hqp : q ≠ p := fun h' => hk (by have h3 := l.above k' q h2'; rw [h', l.above k p ha] at h3; cases h3; rfl)
        have := h.said k' q b' (by simpa [S.leave, upd, hk] using h1) h2'
        rw [this]
        simp [isLast, upd, hqp]
    · have ht := h.told q
      by_cases hqp : q = p
      · subst hqp
        have hne : c.kids q ≠ [] := fun h' => by rw [h'] at hpar; cases hpar
        have hnot : ¬ (c.kids q).length ≤ s.compl q := by omega
        show upd s.told q (s.told q + if b = true then 1 else 0) q = if _ ∧ _ ≤ upd s.compl q (s.compl q + 1) q then 1 else 0
        rw [ht, if_neg (fun h' => hnot h'.2), hb]
        simp [upd, hne, isLast]
      · simpa [upd, hqp] using ht
  | commitTop k i rel b hp =>
    have hpar := h.top k i rel b hp
    have hno : ∀ q, i ∉ c.kids q := fun q h' => by rw [(hc.kids i q).1 h'] at hpar; cases hpar
    have h0 := counts_leave h k
    refine ⟨h0.top, fun q => ?_, h0.said, h0.told⟩
    have hf := r.nofin i (.inr (.inr (r.act k i (by rw [hp]; rfl))))
    have hu := countP_fin (hc.nodup q) s.fin i hf
    show s.compl q = (c.kids q).countP (upd s.fin i true)
    rw [hu, if_neg (hno q), h.compl q]; rfl
  | child k i hp | parent k i p hp | ask k i p hp | nest k i p x hp | nlock k i p x hp | count k i p hp | answer k i p x hp | free k i p x hp
  | plain k i p hp | var k i p r b hp | top k i hp | jlock k j hp | jask k j hp | janswer k j hp =>
    have h1 := h.top
    have h2 := h.said
    have h3 := h.said k
    rw [hp] at h3
    simp only [Pc.says_, Pc.above] at h3
    refine counts_of_same h rfl rfl rfl ?_ ?_ <;> grind [upd, Pc.says_, Pc.above]

theorem counts_env {c : Cfg} {s s' : S} (l : Locks c s) (r : Rows c s) (h : Counts c s) (hs : Env c s s') : Counts c s' := by
  cases hs with
  | abort k hp => have h0 := counts_leave h k; exact ⟨h0.top, h0.compl, h0.said, h0.told⟩
  | dies | start => exact counts_of_same h rfl rfl rfl h.top h.said
  | loop p st' hp hl hk hsame hnew _ =>
    have h0 : s.compl p = 0 := by
      rw [h.compl]
      exact List.countP_eq_zero.2 fun i hi => by simp [r.nofin i (.inl (hk i hi))]
    refine ⟨h.top, fun q => ?_, fun k q b h1 h2 => ?_, fun q => ?_⟩
    · show upd s.compl p 0 q = (c.kids q).countP s.fin
      by_cases hqp : q = p
      · subst hqp
        simp only [upd, if_pos]
        rw [← h0, h.compl]; rfl
      · simp only [upd, hqp, if_false, h.compl q, completed]
    · have h3 := l.above k q h2
      have hqp : q ≠ p := fun h' => by rw [h', hl] at h3; cases h3
      rw [h.said k q b h1 h2]; simp [isLast, upd, hqp]
    · have := h.told q
      by_cases hqp : q = p
      · subst hqp
        rw [h0] at this
        simpa [upd] using this
      · simpa [upd, hqp] using this

/-- 1 if the transaction that has locked `p` has released a child without having committed. -/
def win (s : S) (p : Nat) : Nat :=
  match s.tlock p with
  | some k => if (s.pc k).window = some p then 1 else 0
  | none => 0

def Limit (c : Cfg) (s : S) : Prop := ∀ p, 0 < c.conc p → active c s p ≤ c.conc p + s.cut p + win s p

theorem limit_same {c : Cfg} {s s' : S} (h : Limit c s) (h1 : s'.st = s.st) (h2 : ∀ p, s.cut p + win s p ≤ s'.cut p + win s' p) : Limit c s' := by
  intro p hp
  have h3 := h p hp
  have h4 := h2 p
  have h5 : active c s' p = active c s p := by unfold active; rw [h1]
  omega

theorem active_upd {c : Cfg} (hc : c.OK) (f : Nat → C) (i : Nat) (v : C) (p : Nat) :
    ((c.kids p).countP fun j => decide (upd f i v j = .active)) + (if i ∈ c.kids p ∧ f i = .active then 1 else 0) =
      ((c.kids p).countP fun j => decide (f j = .active)) + (if i ∈ c.kids p ∧ v = .active then 1 else 0) := countP_upd (hc.nodup p) f i v .active

theorem win_leave (s : S) (k p : Nat) : win (s.leave k) p = if s.tlock p = some k then 0 else win s p := by
  unfold win
  simp only [S.leave, release]
  by_cases h : s.tlock p = some k
  · simp [h]
  · rw [if_neg h, if_neg h]
    cases h' : s.tlock p with
    | none => rfl
    | some k' =>
      have : k' ≠ k := fun e => h (by rw [h', e])
      simp [upd, this]

theorem limit_begin {c : Cfg} {s s' : S} (l : Locks c s) (h : Limit c s) (hs : Begin c s s') : Limit c s' := by
  have h5 := l.tback
  cases hs with
  | complete k i hk hp | job k i hk hp =>
    have h5 := l.tback k
    rw [hp] at h5
    refine limit_same h rfl fun p => ?_
    have h5 := h5 p
    grind [win, upd, Pc.own, Pc.above, Pc.inner, Pc.window]

theorem limit_quiet {c : Cfg} {s : S} (h : Limit c s) (k : Nat) (hp : (s.pc k).window = none) : Limit c (s.leave k) := by
  refine limit_same h rfl fun p => ?_
  rw [win_leave]
  by_cases ht : s.tlock p = some k
  · simp [win, ht, hp, S.leave]
  · rw [if_neg ht]; exact Nat.le_refl _

theorem win_le (s : S) (p : Nat) : win s p ≤ 1 := by
  unfold win; split
  · split <;> omega
  · omega

set_option maxHeartbeats 2000000 in
theorem limit_work {c : Cfg} (hc : c.OK) {s s' : S} (l : Locks c s) (r : Rows c s) (t : Counts c s) (h : Limit c s) (hs : Work c s s') : Limit c s' := by
  cases hs with
  | refused k _ hp | nothing k _ _ hp | jcommit k _ hp => exact limit_quiet h k (by rw [hp]; rfl)
  | commit k i p rel b hp =>
    have ho : (s.pc k).own = some i := by rcases hp with hp | hp <;> rw [hp] <;> rfl
    have ha : (s.pc k).above = some p := by rcases hp with hp | hp <;> rw [hp] <;> rfl
    have hst := r.act k i ho
    have hpar := (hc.kids i p).2 (r.link k i p ho ha)
    have hlk := l.above k p ha
    have hw : ∀ q, q ≠ p → (s.pc k).window ≠ some q := fun q hq => by
      rcases hp with hp | hp <;> rw [hp] <;> cases rel <;> simp [Pc.window, Ne.symm hq]
    intro q hq
    have h1 := h q hq
    have hu := active_upd hc s.st i .done q
    show ((c.kids q).countP fun j => decide (upd s.st i .done j = .active)) ≤ c.conc q + s.cut q + win (s.leave k) q
    simp only [hst, and_true, reduceCtorEq, and_false, if_false, Nat.add_zero] at hu
    unfold active at h1
    rw [win_leave]
    by_cases hqp : q = p
    · subst hqp
      have := win_le s q
      rw [if_pos hpar] at hu
      omega
    · have : i ∉ c.kids q := fun h' => hqp (by have h3 := (hc.kids i q).1 h'; rw [(hc.kids i p).1 hpar] at h3; cases h3; rfl)
      rw [if_neg this] at hu
      by_cases hk : s.tlock q = some k
      · have : win s q = 0 := by simp [win, hk, hw q hqp]
        omega
      · rw [if_neg hk]; omega
  | commitTop k i rel b hp =>
    have hpar := t.top k i rel b hp
    have hno : ∀ q, i ∉ c.kids q := fun q h' => by rw [(hc.kids i q).1 h'] at hpar; cases hpar
    intro q hq
    have h1 := limit_quiet h k (by rw [hp]; cases rel <;> rfl) q hq
    have hu := active_upd hc s.st i .done q
    simp only [hno q, false_and, if_false, Nat.add_zero] at hu
    show ((c.kids q).countP fun j => decide (upd s.st i .done j = .active)) ≤ c.conc q + s.cut q + win (s.leave k) q
    rw [hu]; exact h1
  | free k i p x hp =>
    have hx := r.cst k x (by rw [hp]; rfl)
    have hx' : s.st x ≠ .active := by rcases hx with hx | hx <;> rw [hx] <;> simp
    have hpar := (hc.kids x p).2 (r.cpar k x p (by rw [hp]; rfl) (by rw [hp]; rfl))
    have hlk := l.above k p (by rw [hp]; rfl)
    have hxl := l.inner k x (by rw [hp]; rfl)
    have hne := (l.apart k i p x hp).2
    intro q hq
    have h1 := h q hq
    have hu := active_upd hc s.st x .active q
    simp only [hx', and_false, if_false, Nat.add_zero, and_true] at hu
    show ((c.kids q).countP fun j => decide (upd s.st x .active j = .active)) ≤ c.conc q + s.cut q + _
    unfold active at h1
    rw [hu]
    by_cases hqp : q = p
    · subst hqp
      have hw : win s q = 0 := by simp [win, hlk, hp, Pc.window]
      rw [if_pos hpar]
      have : win { s with pc := upd s.pc k (.released i q), used := s.used.erase k, tlock := upd s.tlock x none, st := upd s.st x .active } q = 1 := by
        simp [win, upd, Ne.symm hne, hlk, Pc.window]
      rw [this]; omega
    · have : x ∉ c.kids q := fun h' => hqp (by have h3 := (hc.kids x q).1 h'; rw [(hc.kids x p).1 hpar] at h3; cases h3; rfl)
      rw [if_neg this]
      have : win s q ≤ win { s with pc := upd s.pc k (.released i p), used := s.used.erase k, tlock := upd s.tlock x none, st := upd s.st x .active } q := by
        grind [win, upd, Pc.window]
      omega
  | var k i p r b hp =>
    refine limit_same h rfl fun q => ?_
    cases r <;> grind [win, upd, Pc.window]
  | child k i hp hl | parent k i p hp _ hl | nlock k i p x hp hl =>
    refine limit_same h rfl fun q => ?_
    grind [win, upd, Pc.window]
  | ask k i p hp | nest k i p x hp | count k i p hp | answer k i p x hp
  | plain k i p hp | top k i hp | jlock k j hp | jask k j hp | janswer k j hp =>
    refine limit_same h rfl fun q => ?_
    grind [win, upd, Pc.window]

theorem limit_env {c : Cfg} (hc : c.OK) {s s' : S} (h : Limit c s) (hs : Env c s s') : Limit c s' := by
  cases hs with
  | abort k hp =>
    refine limit_same h rfl fun q => ?_
    show s.cut q + win s q ≤ (match (s.pc k).window with
        | some p => upd s.cut p (s.cut p + 1)
        | none => s.cut) q + win (s.leave k) q
    rw [win_leave]
    by_cases hq : s.tlock q = some k
    · rw [if_pos hq]
      cases hw : (s.pc k).window with
      | none => simp [win, hq, hw]
      | some p =>
        by_cases hqp : q = p
        · subst hqp; simp [win, hq, hw, upd]
        · simp [win, hq, hw, upd, hqp, Ne.symm hqp]
    · rw [if_neg hq]
      cases hw : (s.pc k).window with
      | none => exact Nat.le_refl _
      | some p =>
        by_cases hqp : q = p
        · subst hqp; simp only [upd, if_pos]; omega
        · simp [upd, hqp]
  | dies i hl hs =>
    intro q hq
    have h1 := h q hq
    have hu := active_upd hc s.st i .dead q
    show ((c.kids q).countP fun j => decide (upd s.st i .dead j = .active)) ≤ c.conc q + s.cut q + win s q
    unfold active at h1
    simp only [reduceCtorEq, and_false, if_false, Nat.add_zero] at hu
    omega
  | start i hs hp =>
    intro q hq
    have h1 := h q hq
    have hno : i ∉ c.kids q := fun h' => by rw [(hc.kids i q).1 h'] at hp; cases hp
    have hu := active_upd hc s.st i .active q
    show ((c.kids q).countP fun j => decide (upd s.st i .active j = .active)) ≤ c.conc q + s.cut q + win s q
    unfold active at h1
    simp only [hno, false_and, if_false, Nat.add_zero] at hu
    omega
  | loop p st' hp hl hk hsame hnew hcc =>
    intro q hq
    show ((c.kids q).countP fun j => decide (st' j = .active)) ≤ c.conc q + s.cut q + win s q
    by_cases hqp : q = p
    · subst hqp; have := hcc hq; omega
    · have h1 := h q hq
      have : ((c.kids q).countP fun j => decide (st' j = .active)) = active c s q := by
        refine List.countP_congr fun i hi => ?_
        rw [hsame i fun h' => hqp (by have h3 := (hc.kids i q).1 hi; rw [(hc.kids i p).1 h'] at h3; cases h3; rfl)]
      omega

structure Inv (c : Cfg) (s : S) : Prop where
  conns : Conns c s
  locks : Locks c s
  rows : Rows c s
  counts : Counts c s
  limit : Limit c s

theorem inv_init (c : Cfg) : Inv c {} where
  conns := ⟨fun _ => by simp [Pc.conns], fun _ h => absurd rfl h, by simp⟩
  locks := by constructor <;> simp [Pc.own, Pc.above, Pc.inner, Pc.jrow]
  rows := by constructor <;> simp [Pc.own, Pc.cand]
  counts := by
    constructor
    · simp
    · intro p; exact (List.countP_eq_zero.2 (by simp)).symm
    · simp [Pc.says_]
    · intro p; simp
  limit := fun p _ => by
    have : active c {} p = 0 := List.countP_eq_zero.2 (by simp)
    omega

theorem inv_reach {c : Cfg} (hc : c.OK) {s : S} (h : Reach c s) : Inv c s := by
  induction h with
  | init => exact inv_init c
  | begin _ hs ih => exact ⟨conns_begin ih.conns hs, locks_begin ih.locks hs, rows_begin ih.rows hs, counts_begin ih.counts hs, limit_begin ih.locks ih.limit hs⟩
  | work _ hs ih =>
    exact ⟨conns_work ih.conns hs, locks_work ih.locks hs, rows_work hc ih.locks ih.rows hs, counts_work hc ih.locks ih.rows ih.counts hs,
      limit_work hc ih.locks ih.rows ih.counts ih.limit hs⟩
  | env _ hs ih =>
    exact ⟨conns_env ih.conns hs, locks_env ih.locks hs, rows_env hc ih.locks ih.rows hs, counts_env ih.locks ih.rows ih.counts hs, limit_env hc ih.limit hs⟩

end Tork.EachTx
