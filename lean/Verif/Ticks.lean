import Verif.Types
/-!
# One instance per tick: several coordinators, one lock

`/repo/internal/coordinator/handlers/schedule.go:40-59` (`glock.Unlock`, `glocker.Lock`) and `104-149` (the function that is run at every tick),
with gocron's distributed locker. Every coordinator has an entry for the schedule; at each tick every one tries to get the lock whose
name is the id of the schedule, runs the function if it gets it, and then holds the lock until `minScheduledJobLockTTL` (10 seconds) have
passed since it was acquired.

Assumed of gocron (`WithDistributedLocker`): the function is run after `Lock` has succeeded and not at all if it fails, `Unlock` is called
after it has returned. Assumed of the lock: mutual exclusion (proved of both implementations in C33), and that it is free again when its
holder dies (`/repo/locker/postgres.go`: it belongs to a transaction).

Time is a natural number, in any unit; `due n` is the instant of tick `n`. The clocks of the coordinators differ, and goroutines are late:
tick `n` is tried at any time from `due n` (of the fastest clock) and before `due n + spread`. One schedule; its entries stay as they are
(pausing and resuming: C40).
-/

namespace Tork.Ticks

structure Cfg where
  due : Nat → Nat
  /-- how far apart the attempts for one tick can be -/
  spread : Nat
  /-- `minScheduledJobLockTTL` (`schedule.go:20`) -/
  hold : Nat
  /-- no run keeps the lock for longer than this -/
  limit : Nat

/-- What the coordinator `i` does about tick `n`. -/
inductive Pc
  /-- nothing yet -/
  | idle
  /-- has the lock, since then -/
  | locked (since : Nat)
  /-- the function has returned -/
  | ran (since : Nat)
  /-- has released the lock, or did not get it, or has died -/
  | over
  deriving DecidableEq

structure S where
  now : Nat := 0
  /-- who has the lock, for which tick, since when -/
  lock : Option (Nat × Nat × Nat) := none
  pc : Nat → Nat → Pc := fun _ _ => .idle
  /-- instances of the job created for a tick -/
  made : Nat → Nat := fun _ => 0
  /- History: -/
  /-- the first one to get the lock for the tick -/
  owner : Nat → Option Nat := fun _ => none
  /-- for this tick somebody was refused the lock -/
  refused : Nat → Bool := fun _ => false
  /-- for this tick the schedule could not be read, or the job not be created -/
  failed : Nat → Bool := fun _ => false
  /-- some coordinator has died -/
  died : Bool := false

def upd {α : Type} (f : Nat → α) (k : Nat) (v : α) : Nat → α := fun i => if i = k then v else f i

def upd2 {α : Type} (f : Nat → Nat → α) (a b : Nat) (v : α) : Nat → Nat → α := fun i j => if i = a ∧ j = b then v else f i j

inductive Step (c : Cfg) (s : S) : S → Prop
  | time (hl : ∀ i n since, s.lock = some (i, n, since) → s.now < since + c.limit) : Step c s { s with now := s.now + 1 }
  /-- `glocker.Lock` succeeds (`schedule.go:53-59`) -/
  | acquire (i n : Nat) (hp : s.pc i n = .idle) (h1 : c.due n ≤ s.now) (h2 : s.now < c.due n + c.spread) (hl : s.lock = none) :
      Step c s { s with
        pc := upd2 s.pc i n (.locked s.now)
        lock := some (i, n, s.now)
        owner := upd s.owner n (match s.owner n with | none => some i | some j => some j) }
  /-- `glocker.Lock` fails: the tick is left to others (`schedule.go:54-57`) -/
  | refuse (i n : Nat) (hp : s.pc i n = .idle) (h1 : c.due n ≤ s.now) (h2 : s.now < c.due n + c.spread) (hl : s.lock ≠ none) :
      Step c s { s with pc := upd2 s.pc i n .over, refused := upd s.refused n true }
  /-- the function creates an instance (`schedule.go:109-147`) -/
  | make (i n since : Nat) (hp : s.pc i n = .locked since) :
      Step c s { s with pc := upd2 s.pc i n (.ran since), made := upd s.made n (s.made n + 1) }
  /-- the function fails (`schedule.go:112-116`, `142-144`) -/
  | fail (i n since : Nat) (hp : s.pc i n = .locked since) :
      Step c s { s with pc := upd2 s.pc i n (.ran since), failed := upd s.failed n true }
  /-- `glock.Unlock`: not before `hold` has passed since the lock was acquired (`schedule.go:40-51`) -/
  | release (i n since : Nat) (hp : s.pc i n = .ran since) (ht : since + c.hold ≤ s.now) :
      Step c s { s with pc := upd2 s.pc i n .over, lock := none }
  /-- a coordinator dies; its lock is free -/
  | die (i : Nat) :
      Step c s { s with
        pc := fun i' n => if i' = i then .over else s.pc i' n
        lock := match s.lock with | none => none | some (j, n, since) => if j = i then none else some (j, n, since)
        died := true }

inductive Reach (c : Cfg) : S → Prop
  | init : Reach c {}
  | step {s s'} (h : Reach c s) (hs : Step c s s') : Reach c s'

/-- The run holds the lock. -/
def Pc.since : Pc → Option Nat
  | .locked t => some t
  | .ran t => some t
  | _ => none

@[grind =] theorem since_idle : Pc.since .idle = none := rfl
@[grind =] theorem since_over : Pc.since .over = none := rfl
@[grind =] theorem since_locked (t) : Pc.since (.locked t) = some t := rfl
@[grind =] theorem since_ran (t) : Pc.since (.ran t) = some t := rfl

/-- The function has returned. -/
def Pc.done : Pc → Bool
  | .ran _ | .over => true
  | _ => false

@[grind =] theorem done_idle : Pc.done .idle = false := rfl
@[grind =] theorem done_over : Pc.done .over = true := rfl
@[grind =] theorem done_locked (t) : Pc.done (.locked t) = false := rfl
@[grind =] theorem done_ran (t) : Pc.done (.ran t) = true := rfl

structure Inv (c : Cfg) (s : S) : Prop where
  holder : ∀ i n t, (s.pc i n).since = some t ↔ s.lock = some (i, n, t)
  past : ∀ i n t, s.lock = some (i, n, t) → t ≤ s.now ∧ c.due n ≤ t ∧ t < c.due n + c.spread
  bound : ∀ i n t, s.lock = some (i, n, t) → s.now ≤ t + c.limit
  early : ∀ n, s.now < c.due n → s.owner n = none ∧ s.refused n = false ∧ (∀ i, s.pc i n = .idle ∨ s.pc i n = .over)
  fresh : ∀ n, s.owner n = none → s.made n = 0 ∧ s.failed n = false ∧ ∀ i t, s.lock ≠ some (i, n, t)

theorem Inv.init (c : Cfg) : Inv c {} := by constructor <;> simp [Pc.since]

set_option maxHeartbeats 2000000 in
theorem inv_step {c : Cfg} {s s' : S} (h : Inv c s) (hs : Step c s s') : Inv c s' := by
  obtain ⟨h1, h2, h3, h4, h5⟩ := h
  cases hs with
  | time hl => constructor <;> dsimp only <;> grind
  | acquire i n hp a1 a2 hl => constructor <;> dsimp only <;> grind [upd, upd2]
  | refuse i n hp a1 a2 hl => constructor <;> dsimp only <;> grind [upd, upd2]
  | make i n t hp =>
    have b := (h1 i n t).1 (by rw [hp]; rfl)
    constructor <;> dsimp only <;> grind [upd, upd2]
  | fail i n t hp =>
    have b := (h1 i n t).1 (by rw [hp]; rfl)
    constructor <;> dsimp only <;> grind [upd, upd2]
  | release i n t hp ht => constructor <;> dsimp only <;> grind [upd, upd2]
  | die i =>
    cases hl : s.lock with
    | none => constructor <;> dsimp only <;> grind
    | some x => obtain ⟨j, m, t⟩ := x; constructor <;> dsimp only <;> grind

/-- Nobody has died, and the lock is held for as long as the attempts are apart. -/
structure Alive (c : Cfg) (s : S) : Prop where
  sole : ∀ i n t, s.lock = some (i, n, t) → s.owner n = some i
  mine : ∀ n i, s.owner n = some i → s.pc i n ≠ .idle
  owned : ∀ n i, s.owner n = some i → s.pc i n = .over → c.due n + c.hold ≤ s.now
  before : ∀ n i t, s.owner n = some i → s.pc i n = .locked t → s.made n = 0 ∧ s.failed n = false
  count : ∀ n, s.made n ≤ 1
  after : ∀ n i, s.owner n = some i → (s.pc i n).done = true → s.failed n = false → s.made n = 1
  others : ∀ n i, s.pc i n = .over → s.owner n = some i ∨ s.refused n = true

theorem Alive.init (c : Cfg) : Alive c {} := by constructor <;> simp

set_option maxHeartbeats 2000000 in
theorem alive_step {c : Cfg} (hc : c.spread ≤ c.hold) {s s' : S} (hI : Inv c s) (h : Alive c s) (hs : Step c s s') (hd : s'.died = false) :
    Alive c s' := by
  obtain ⟨a1, a2, a3, a4, a5⟩ := hI
  obtain ⟨h1, h2, h3, h4, h5, h6, h7⟩ := h
  cases hs with
  | time hl => constructor <;> dsimp only <;> grind
  | acquire i n hp b1 b2 hl =>
    have hn : s.owner n = none := by
      cases ho : s.owner n with
      | none => rfl
      | some j =>
        have x2 := h2 n j ho
        have x3 := h3 n j ho
        have x := a1 j n
        rw [hl] at x
        cases hq : s.pc j n with
        | idle => exact absurd hq x2
        | over => have := x3 hq; omega
        | locked t => have := (x t).1 (by rw [hq]; rfl); exact nomatch this
        | ran t => have := (x t).1 (by rw [hq]; rfl); exact nomatch this
    have a5 := a5 n hn
    have h5n := h5 n
    rw [hn]
    constructor <;> dsimp only <;> grind [upd, upd2]
  | refuse i n hp b1 b2 hl => constructor <;> dsimp only <;> grind [upd, upd2]
  | make i n t hp =>
    have b := (a1 i n t).1 (by rw [hp]; rfl)
    have b' := h1 _ _ _ b
    have b'' := h4 n i t b' hp
    constructor <;> dsimp only <;> grind [upd, upd2]
  | fail i n t hp =>
    have b := (a1 i n t).1 (by rw [hp]; rfl)
    have b' := h1 _ _ _ b
    constructor <;> dsimp only <;> grind [upd, upd2]
  | release i n t hp ht =>
    have b := (a1 i n t).1 (by rw [hp]; rfl)
    have b' := h1 _ _ _ b
    have b'' := a2 _ _ _ b
    constructor <;> dsimp only <;> grind [upd, upd2]
  | die i => exact nomatch hd

/-- The ticks are so far apart that nobody is refused the lock because of another tick. -/
def Cfg.Apart (c : Cfg) : Prop := ∀ m n, m < n → c.due m + c.spread + c.limit ≤ c.due n

/-- Whoever is refused the lock, is so because of the same tick. -/
theorem refused_step {c : Cfg} (hc : c.Apart) {s s' : S} (hI : Inv c s) (ho : ∀ i n t, s.lock = some (i, n, t) → s.owner n ≠ none)
    (h : ∀ n, s.refused n = true → s.owner n ≠ none) (hs : Step c s s') :
    (∀ i n t, s'.lock = some (i, n, t) → s'.owner n ≠ none) ∧ ∀ n, s'.refused n = true → s'.owner n ≠ none := by
  obtain ⟨a1, a2, a3, a4, a5⟩ := hI
  cases hs with
  | acquire i n hp b1 b2 hl => constructor <;> dsimp only <;> grind [upd, upd2]
  | refuse i n hp b1 b2 hl =>
    refine ⟨ho, ?_⟩
    intro m hm
    dsimp only at hm ⊢
    by_cases hmn : m = n
    · subst hmn
      cases hq : s.lock with
      | none => exact absurd hq hl
      | some x =>
        obtain ⟨j, k, t⟩ := x
        have y := a2 _ _ _ hq
        have z := a3 _ _ _ hq
        rcases Nat.lt_trichotomy k m with hk | hk | hk
        · have := hc k m hk; omega
        · subst hk; exact ho _ _ _ hq
        · have := hc m k hk; omega
    · exact h m (by simpa [upd, hmn] using hm)
  | die i =>
    cases hl : s.lock with
    | none => exact ⟨by simp, h⟩
    | some x => obtain ⟨j, m, t⟩ := x; constructor <;> dsimp only <;> grind
  | _ => constructor <;> dsimp only <;> grind

theorem inv_reach {c : Cfg} {s : S} (h : Reach c s) : Inv c s := by
  induction h with
  | init => exact .init c
  | step _ hs ih => exact inv_step ih hs

theorem not_died {c : Cfg} {s s' : S} (hs : Step c s s') (h : s'.died = false) : s.died = false := by
  cases hs <;> first | exact h | exact nomatch h

theorem alive_reach {c : Cfg} (hc : c.spread ≤ c.hold) {s : S} (h : Reach c s) (hd : s.died = false) : Alive c s := by
  induction h with
  | init => exact .init c
  | step hr hs ih => exact alive_step hc (inv_reach hr) (ih (not_died hs hd)) hs hd

theorem refused_reach {c : Cfg} (hc : c.Apart) {s : S} (h : Reach c s) :
    (∀ i n t, s.lock = some (i, n, t) → s.owner n ≠ none) ∧ ∀ n, s.refused n = true → s.owner n ≠ none := by
  induction h with
  | init => constructor <;> simp
  | step hr hs ih => exact refused_step hc (inv_reach hr) ih.1 ih.2 hs

end Tork.Ticks
