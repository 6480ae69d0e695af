import Verif.Pool
/-!
# C75: the connection pool

Fewer concurrent updates of jobs than connections: they never block each other. As many as connections: the whole coordinator can stop for ever.
-/

namespace Tork.Pool

theorem length_le_of_nodup : ∀ {l : List Nat} {m : Nat}, l.Nodup → (∀ i ∈ l, i < m) → l.length ≤ m := by
  intro l m
  induction m generalizing l with
  | zero => intro _ h; cases l with
    | nil => exact Nat.le_refl _
    | cons a l => exact absurd (h a (by simp)) (Nat.not_lt_zero _)
  | succ m ih =>
    intro hn h
    have h1 := ih (l := l.erase m) (hn.erase m) fun i hi => by
      have h2 := h i (List.mem_of_mem_erase hi)
      have h3 : i ≠ m := fun he => by rw [he] at hi; exact (List.Nodup.not_mem_erase hn) hi
      omega
    have := List.length_erase (a := m) (l := l)
    split at this <;> omega

/-- **C75**: with fewer callers than connections, whatever they update: while some have begun, one of them can go on. -/
theorem C75_no_deadlock {n m : Nat} (hm : m < n) {s : S} (h : Reach n m s) {i : Nat} (hi : s.pc i ≠ .idle) : ∃ s', Work n s s' := by
  have inv := inv_reach h
  -- a caller with two connections or with its answer can go on
  by_cases ha : ∃ k j, s.pc k = .asking j
  · obtain ⟨k, j, hk⟩ := ha; exact ⟨_, .answer k j hk⟩
  by_cases hk : ∃ k j, s.pc k = .known j
  · obtain ⟨k, j, hk⟩ := hk; exact ⟨_, .finish k j hk⟩
  have hfree : s.used.length < n := by
    refine Nat.lt_of_le_of_lt (length_le_of_nodup (List.nodup_iff_count.2 fun k => ?_) fun k hk => inv.who k fun hp => ?_) hm
    · rw [inv.count k]
      cases hp : s.pc k with
      | asking j => exact absurd ⟨k, j, hp⟩ ha
      | _ => simp [Pc.conns]
    · have h1 := inv.count k
      rw [hp] at h1
      have h2 := List.count_pos_iff.2 hk
      simp only [Pc.conns] at h1
      omega
  by_cases hl : ∃ k j, s.pc k = .locked j
  · obtain ⟨k, j, hl⟩ := hl; exact ⟨_, .ask k j hl hfree⟩
  cases hp : s.pc i with
  | idle => exact absurd hp hi
  | opened j =>
    cases hj : s.lock j with
    | none => exact ⟨_, .select i j hp hj⟩
    | some k =>
      have := inv.lock j k hj
      cases hpk : s.pc k with
      | locked j' => exact absurd ⟨k, j', hpk⟩ hl
      | asking j' => exact absurd ⟨k, j', hpk⟩ ha
      | known j' => exact absurd ⟨k, j', hpk⟩ hk
      | idle => simp [Pc.holds, hpk] at this
      | opened j' => simp [Pc.holds, hpk] at this
  | locked j => exact absurd ⟨i, j, hp⟩ hl
  | asking j => exact absurd ⟨i, j, hp⟩ ha
  | known j => exact absurd ⟨i, j, hp⟩ hk

/-- How far a caller has to go. -/
def Pc.rest : Pc → Nat
  | .idle => 0
  | .opened _ => 4
  | .locked _ => 3
  | .asking _ => 2
  | .known _ => 1

/-- **C75**: and they finish: every step brings one of them closer to its end, and no other back. -/
theorem C75_steps_finish {n : Nat} {s s' : S} (h : Work n s s') :
    ∃ i, (s'.pc i).rest < (s.pc i).rest ∧ ∀ k, k ≠ i → s'.pc k = s.pc k := by
  cases h with
  | select i j hp | missing i j hp | ask i j hp | answer i j hp | finish i j hp =>
    exact ⟨i, by simp [upd, hp, Pc.rest], fun k hk => by simp [upd, hk]⟩

/-- The first `k` callers have locked their jobs: caller `i` job `i`. -/
def full (k : Nat) : S where
  pc i := if i < k then .locked i else .idle
  used := (List.range k).reverse
  lock j := if j < k then some j else none

theorem reach_full {n m : Nat} (hm : n ≤ m) : ∀ k ≤ n, Reach n m (full k) := by
  intro k
  induction k with
  | zero =>
    intro _
    have : full 0 = {} := by simp [full]
    rw [this]; exact .init
  | succ k ih =>
    intro hk
    have t := ih (by omega)
    have t := t.begin (.mk k k (by omega) (by simp [full]) (by simp [full]; omega))
    have t := t.work (.select k k (by simp [upd]) (by simp [full]))
    refine cast (congrArg (Reach n m) ?_) t
    simp only [full, S.mk.injEq, List.range_succ, List.reverse_append]
    refine ⟨funext fun i => ?_, rfl, funext fun j => ?_⟩
    · by_cases hi : i = k
      · simp [upd, hi]
      · have : i < k + 1 ↔ i < k := by omega
        simp [upd, hi, this]
    · by_cases hj : j = k
      · simp [upd, hj]
      · have : j < k + 1 ↔ j < k := by omega
        simp [upd, hj, this]

/-- **C75** (defect): with as many callers as connections, the coordinator can come to a standstill: all connections are taken by transactions that
wait for another one. None of them can go on, nobody can begin, no query of anybody else is served; and so it stays. -/
theorem C75_deadlock {n m : Nat} (hm : n ≤ m) (hn : 0 < n) : ∃ s, Reach n m s ∧ s.pc 0 ≠ .idle ∧ (∀ s', ¬ Work n s s') ∧ (∀ s', ¬ Begin n m s s') ∧
    ¬ Serves n s := by
  have hlen : (full n).used.length = n := by simp [full]
  refine ⟨full n, reach_full hm n (Nat.le_refl _), by simp [full, hn], fun s' hs => ?_, fun s' hs => ?_, by simp [Serves, hlen]⟩
  · cases hs with
    | select i j hp | missing i j hp | answer i j hp | finish i j hp => by_cases hi : i < n <;> simp [full, hi] at hp
    | ask i j hp hf => omega
  · cases hs with
    | mk i j hi hp hf => omega

/-- The first caller has locked job 7, others wait for it. -/
def queue (k : Nat) : S where
  pc i := if i = 0 then .locked 7 else if i < k then .opened 7 else .idle
  used := (List.range k).reverse
  lock j := if j = 7 then some 0 else none

theorem reach_queue {n m : Nat} (hm : n ≤ m) : ∀ k, k + 1 ≤ n → Reach n m (queue (k + 1)) := by
  intro k
  induction k with
  | zero =>
    intro _
    have t := Reach.init (n := n) (m := m)
    have t := t.begin (.mk 0 7 (by omega) rfl (by simp; omega))
    have t := t.work (.select 0 7 rfl rfl)
    refine cast (congrArg (Reach n m) ?_) t
    simp only [queue, S.mk.injEq]
    refine ⟨funext fun i => ?_, rfl, rfl⟩
    by_cases hi : i = 0 <;> simp [upd, hi]
  | succ k' ih =>
    intro hkn
    have t := ih (by omega)
    generalize hk : k' + 1 = k at *
    have t := t.begin (.mk k 7 (by omega) (by simp [queue]; omega) (by simp [queue]; omega))
    refine cast (congrArg (Reach n m) ?_) t
    simp only [queue, S.mk.injEq, List.range_succ, List.reverse_append]
    refine ⟨funext fun i => ?_, rfl, trivial⟩
    by_cases hi : i = k
    · have : k ≠ 0 := by omega
      simp [upd, hi, this]
    · have : i < k + 1 ↔ i < k := by omega
      simp [upd, hi, this]

/-- **C75** (defect): the same with updates of one single job. -/
theorem C75_deadlock_one_job {n m : Nat} (hm : n ≤ m) (hn : 0 < n) : ∃ s, Reach n m s ∧ (∀ i j, s.pc i = .opened j ∨ s.pc i = .locked j → j = 7) ∧
    s.pc 0 ≠ .idle ∧ (∀ s', ¬ Work n s s') ∧ (∀ s', ¬ Begin n m s s') ∧ ¬ Serves n s := by
  have hlen : (queue n).used.length = n := by simp [queue]
  refine ⟨queue n, by have := reach_queue hm (n - 1) (by omega); rwa [show n - 1 + 1 = n by omega] at this, fun i j hp => ?_, by simp [queue], fun s' hs => ?_, fun s' hs => ?_, by simp [Serves, hlen]⟩
  · by_cases h0 : i = 0
    · simp [queue, h0] at hp; exact hp.symm
    · by_cases hi : i < n <;> simp [queue, h0, hi] at hp
      exact hp.symm
  · cases hs with
    | select i j hp hl | missing i j hp hl =>
      by_cases h0 : i = 0
      · simp [queue, h0] at hp
      · by_cases hi : i < n <;> simp [queue, h0, hi] at hp
        subst hp; simp [queue] at hl
    | answer i j hp | finish i j hp =>
      by_cases h0 : i = 0
      · simp [queue, h0] at hp
      · by_cases hi : i < n <;> simp [queue, h0, hi] at hp
    | ask i j hp hf => omega
  · cases hs with
    | mk i j hi hp hf => omega

end Tork.Pool
