import Verif.Ticks
/-!
# C78: one instance per tick
-/

namespace Tork.Ticks

/-- **C78.** If the attempts for one tick are never further apart than the lock is held (10 seconds), and no coordinator dies, every tick creates at
most one instance, whatever the number of coordinators. -/
theorem C78_at_most_once {c : Cfg} (hc : c.spread ≤ c.hold) {s : S} (h : Reach c s) (hd : s.died = false) (n : Nat) : s.made n ≤ 1 :=
  (alive_reach hc h hd).count n

/-- **C78.** If, further, no run keeps the lock until the next tick, every tick that some coordinator has tried, and whose run has not failed, has
created exactly one instance when its time is over. -/
theorem C78_exactly_once {c : Cfg} (hc : c.spread ≤ c.hold) (ha : ∀ m n, m < n → c.due m + c.spread + c.limit ≤ c.due n) {s : S} (h : Reach c s)
    (hd : s.died = false) (n i : Nat) (ht : s.pc i n ≠ .idle) (hf : s.failed n = false) (hn : c.due n + c.spread + c.limit ≤ s.now) :
    s.made n = 1 := by
  have hI := inv_reach h
  have hA := alive_reach hc h hd
  have hR := refused_reach ha h
  have hno : ∀ j, (s.pc j n).since = none := by
    intro j
    cases hq : (s.pc j n).since with
    | none => rfl
    | some t =>
      have b := (hI.holder j n t).1 hq
      have b1 := hI.past _ _ _ b
      have b2 := hI.bound _ _ _ b
      omega
  have key : ∀ j, s.owner n = some j → s.made n = 1 := by
    intro j ho
    refine hA.after n j ho ?_ hf
    have := hno j
    have h2 := hA.mine n j ho
    cases hq : s.pc j n with
    | idle => exact absurd hq h2
    | over => rfl
    | locked t => rw [hq] at this; exact nomatch this
    | ran t => rfl
  have hov : s.pc i n = .over := by
    have := hno i
    cases hq : s.pc i n with
    | idle => exact absurd hq ht
    | over => rfl
    | locked t => rw [hq] at this; exact nomatch this
    | ran t => rw [hq] at this; exact nomatch this
  rcases hA.others n i hov with h | h
  · exact key i h
  · cases ho : s.owner n with
    | none => exact absurd ho (hR.2 n h)
    | some j => exact key j ho

/-- **C78.** The same without any assumption on failures and deaths: a tick is refused to a coordinator only because another one has got it. -/
theorem C78_refused_means_taken {c : Cfg} (ha : ∀ m n, m < n → c.due m + c.spread + c.limit ≤ c.due n) {s : S} (h : Reach c s) (n : Nat)
    (hr : s.refused n = true) : ∃ j, s.owner n = some j := by
  cases ho : s.owner n with
  | none => exact absurd ho ((refused_reach ha h).2 n hr)
  | some j => exact ⟨j, rfl⟩

/-! ## Where it fails -/

/-- Time passes while nothing happens. -/
theorem idle_until (c : Cfg) (t : Nat) : Reach c { ({} : S) with now := t } := by
  induction t with
  | zero => exact .init
  | succ t ih => exact ih.step (.time (by simp))

/-- Time passes while somebody holds the lock. -/
theorem wait {c : Cfg} {s : S} (h : Reach c s) (i n since : Nat) (hl : s.lock = some (i, n, since)) (d : Nat) (hd : s.now + d ≤ since + c.limit) :
    Reach c { s with now := s.now + d } := by
  induction d with
  | zero => exact h
  | succ d ih =>
    refine (ih (by omega)).step (.time ?_)
    intro i' n' since' hl'
    have : s.lock = some (i', n', since') := hl'
    rw [hl] at this
    cases this
    show s.now + d < since + c.limit
    omega

/-- One coordinator has run tick `n`. -/
theorem one_run (c : Cfg) (n : Nat) (hs : 0 < c.spread) :
    Reach c { ({} : S) with
      now := c.due n, pc := upd2 (upd2 (fun _ _ => .idle) 0 n (.locked (c.due n))) 0 n (.ran (c.due n)), lock := some (0, n, c.due n),
      made := upd (fun _ => 0) n 1, owner := upd (fun _ => none) n (some 0) } := by
  have t := idle_until c (c.due n)
  have t := t.step (.acquire 0 n rfl (Nat.le_refl _) (show c.due n < c.due n + c.spread by omega) rfl)
  exact t.step (.make 0 n (c.due n) (by simp [upd2]))

/-- **C78, a limit of the code.** If the attempts for a tick can be further apart than the lock is held — two clocks that differ by more than ten
seconds suffice —, a tick can create two instances, although no coordinator dies and nothing fails. -/
theorem C78_clocks_apart_fire_twice (c : Cfg) (n : Nat) (hs : c.hold < c.spread) (hl : c.hold ≤ c.limit) :
    ∃ s, Reach c s ∧ s.died = false ∧ s.failed n = false ∧ s.made n = 2 := by
  have t := one_run c n (by omega)
  have t := wait t 0 n (c.due n) rfl c.hold (by show c.due n + c.hold ≤ _; omega)
  have t := t.step (.release 0 n (c.due n) (by simp [upd2]) (Nat.le_refl _))
  have t := t.step (.acquire 1 n (by simp [upd2]) (by show c.due n ≤ c.due n + c.hold; omega) (by show c.due n + c.hold < _; omega) rfl)
  have t := t.step (.make 1 n (c.due n + c.hold) (by simp [upd2]))
  exact ⟨_, t, rfl, rfl, by simp [upd]⟩

/-- **C78, a limit of the code.** If the coordinator that has run a tick dies while it still holds the lock, another one can run it again. -/
theorem C78_death_fires_twice (c : Cfg) (n : Nat) (hs : 0 < c.spread) :
    ∃ s, Reach c s ∧ s.failed n = false ∧ s.made n = 2 := by
  have t := one_run c n hs
  have t := t.step (.die 0)
  have t := t.step (.acquire 1 n (by simp [upd2]) (Nat.le_refl _) (show c.due n < c.due n + c.spread by omega) rfl)
  have t := t.step (.make 1 n (c.due n) (by simp [upd2]))
  exact ⟨_, t, rfl, by simp [upd]⟩

/-- **C78, a limit of the code.** A run that holds the lock beyond the next tick makes that tick be skipped by everybody (here by coordinator 1):
nobody creates an instance for it, then or later. -/
theorem C78_slow_run_loses_tick (c : Cfg) (n : Nat) (hs : 0 < c.spread) (h1 : c.due n ≤ c.due (n + 1))
    (hl : c.due (n + 1) + c.spread ≤ c.due n + c.limit) :
    ∃ s, Reach c s ∧ s.died = false ∧ s.pc 1 (n + 1) = .over ∧ c.due (n + 1) + c.spread ≤ s.now ∧ s.made (n + 1) = 0 ∧ s.failed (n + 1) = false ∧
      s.owner (n + 1) = none := by
  have t := one_run c n hs
  have t := wait t 0 n (c.due n) rfl (c.due (n + 1) - c.due n) (by show c.due n + (c.due (n + 1) - c.due n) ≤ _; omega)
  have t := t.step (.refuse 1 (n + 1) (by simp [upd2]) (by show c.due (n + 1) ≤ c.due n + (c.due (n + 1) - c.due n); omega)
    (by show c.due n + (c.due (n + 1) - c.due n) < _; omega) (by simp))
  have t := wait t 0 n (c.due n) rfl c.spread (by show c.due n + (c.due (n + 1) - c.due n) + c.spread ≤ _; omega)
  refine ⟨_, t, rfl, by simp [upd2], ?_, by simp [upd], rfl, by simp [upd]⟩
  show _ ≤ c.due n + (c.due (n + 1) - c.due n) + c.spread
  omega

/-- Every minute, clocks within 5 seconds, lock held for 10 seconds, runs of 40 seconds at most; two coordinators; unit: one second. -/
def usual : Cfg := { due := fun n => 60 * n, spread := 5, hold := 10, limit := 40 }

example : usual.spread ≤ usual.hold ∧ ∀ m n, m < n → usual.due m + usual.spread + usual.limit ≤ usual.due n := by
  refine ⟨by decide, fun m n h => ?_⟩
  show 60 * m + 5 + 40 ≤ 60 * n
  omega

/-- Coordinator 0 runs tick 2, coordinator 1 is refused it; 70 seconds later it is over. -/
example : ∃ s, Reach usual s ∧ s.died = false ∧ s.pc 1 2 ≠ .idle ∧ s.failed 2 = false ∧ usual.due 2 + usual.spread + usual.limit ≤ s.now ∧ s.made 2 = 1 := by
  have t := one_run usual 2 (by decide)
  have t := t.step (.refuse 1 2 (by simp [upd2]) (Nat.le_refl _) (show usual.due 2 < usual.due 2 + usual.spread by decide) (by simp))
  have t := wait t 0 2 120 rfl 20 (by show 120 + 20 ≤ 120 + 40; omega)
  have t := t.step (.release 0 2 120 (by simp [upd2]; rfl) (show 120 + 10 ≤ 120 + 20 by omega))
  have free : ∀ (s : S) (d : Nat), s.lock = none → Reach usual s → Reach usual { s with now := s.now + d } := by
    intro s d hl h
    induction d with
    | zero => exact h
    | succ d ih => exact ih.step (.time (fun i n t h' => by rw [show s.lock = some (i, n, t) from h'] at hl; exact nomatch hl))
  have t := free _ 50 rfl t
  exact ⟨_, t, rfl, by simp [upd2], rfl, by decide, by simp [upd]⟩

end Tork.Ticks
