import Verif.Props.Wait
import Verif.Props.Events
/-!
# C73 and C72 together: what a waiting client reads is what the database says

The requests of `Wait.lean` hear events of a history of the whole system (`Logged`), each event at most as often as it was published.
-/

namespace Tork.Wait

variable {E : Env}

/-- Message `m` says that job `n` is in state `st`. -/
def asserts (n : Nat) (st : JobState) : Msg → Bool
  | .event _ j => j.id == n && j.state == st
  | _ => false

/-- The events the requests hear are events of the history. -/
def Heard (log : List Msg) (s : S) : Prop :=
  ∀ n st, s.published.countP (fun e => e.job == n && e.state == st) ≤ log.countP (asserts n st)

theorem Heard.mem {log : List Msg} {s : S} (h : Heard log s) {e : Ev} (he : e ∈ s.published) :
    ∃ topic j, Msg.event topic j ∈ log ∧ j.id = e.job ∧ j.state = e.state := by
  have h1 : 0 < log.countP (asserts e.job e.state) :=
    Nat.lt_of_lt_of_le (List.countP_pos_iff.2 ⟨e, he, by simp⟩) (h e.job e.state)
  obtain ⟨m, hm, hs⟩ := List.countP_pos_iff.1 h1
  cases m with
  | event topic j => simp [asserts] at hs; exact ⟨topic, j, hm, hs.1, hs.2⟩
  | _ => simp [asserts] at hs

/-- **C73**: what a client that waits reads is true: the job its request submitted is COMPLETED in the database, and stays so, or it was FAILED
and can have left that state only by a restart. (Nobody reads that a job is cancelled: this is never announced.) -/
theorem C73_outcome_true (hE : E.WellFormed) {w : World} {log : List Msg} (hl : Logged E w log) {s : S} (hs : Reach s) (hh : Heard log s)
    {r src : Nat} {e : Ev} (hi : Item.job src e ∈ (s.req r).out) :
    ∃ row, w.ds.job? e.job = some row ∧
      ((e.state = .completed ∧ row.state = .completed) ∨ (e.state = .failed ∧ JobPath (E.restartOK e.job) .failed row.state)) := by
  obtain ⟨topic, j, hm, h1, h2⟩ := hh.mem (C73_responses hs hi).1
  obtain ⟨row, hr, h3 | h3⟩ := C72_events_true hE hl hm
  · exact ⟨row, h1 ▸ hr, .inl ⟨h2 ▸ h3.2.1, h3.2.2.1⟩⟩
  · exact ⟨row, h1 ▸ hr, .inr ⟨h2 ▸ h3.2.1, h1 ▸ h3.2.2⟩⟩

/-- **C73**: the coordinator crashes by a wait only if the failure of one job was announced twice, or a failed job was restarted. -/
theorem C73_crash_cause (hE : E.WellFormed) {w : World} {log : List Msg} (hl : Logged E w log) {s : S} (hs : Reach s) (hh : Heard log s)
    (hc : s.crashed = true) :
    ∃ n, E.restartOK n ∨ 2 ≤ (log.countP fun | .event topic j => topic = "job.failed" && j.id = n | _ => false) := by
  obtain ⟨n, hn⟩ := C73_crash hs hc
  refine ⟨n, ?_⟩
  have hsplit : ∀ l : List Ev, l.countP (fun x => x.terminal && x.job == n) =
      l.countP (fun e => e.job == n && e.state == .completed) + l.countP (fun e => e.job == n && e.state == .failed) +
      l.countP (fun e => e.job == n && e.state == .cancelled) := by
    intro l
    induction l with
    | nil => rfl
    | cons a l ih =>
      simp only [List.countP_cons, ih]
      generalize l.countP (fun e => e.job == n && e.state == .completed) = a1
      generalize l.countP (fun e => e.job == n && e.state == .failed) = a2
      generalize l.countP (fun e => e.job == n && e.state == .cancelled) = a3
      unfold Ev.terminal
      cases hs : a.state <;> by_cases hj : a.job = n <;> simp [hj] <;> omega
  rw [hsplit] at hn
  have hcan : s.published.countP (fun e => e.job == n && e.state == .cancelled) = 0 := by
    refine List.countP_eq_zero.2 fun e he hx => ?_
    simp at hx
    obtain ⟨topic, j, hm, h1, h2⟩ := hh.mem he
    obtain ⟨row, hr, h3 | h3⟩ := C72_events_true hE hl hm
    · rw [h2, hx.2] at h3; cases h3.2.1
    · rw [h2, hx.2] at h3; cases h3.2.1
  have hcom : log.countP (asserts n .completed) ≤ 1 := by
    refine Nat.le_trans (List.countP_mono_left fun m hm hx => ?_) (C72_completed_at_most_once hE hl n)
    cases m with
    | event topic j =>
      simp [asserts] at hx
      obtain ⟨row, hr, h3 | h3⟩ := C72_events_true hE hl hm
      · simp [h3.1, hx.1]
      · rw [hx.2] at h3; cases h3.2.1
    | _ => simp [asserts] at hx
  have hfail : log.countP (asserts n .failed) ≤ (log.countP fun | .event topic j => topic = "job.failed" && j.id = n | _ => false) := by
    refine List.countP_mono_left fun m hm hx => ?_
    cases m with
    | event topic j =>
      simp [asserts] at hx
      obtain ⟨row, hr, h3 | h3⟩ := C72_events_true hE hl hm
      · rw [hx.2] at h3; cases h3.2.1
      · simp [h3.1, hx.1]
    | _ => simp [asserts] at hx
  have c1 := hh n .completed
  have c2 := hh n .failed
  by_cases h0 : s.published.countP (fun e => e.job == n && e.state == .completed) = 0
  · exact .inr (by omega)
  · by_cases h1 : 2 ≤ s.published.countP (fun e => e.job == n && e.state == .failed)
    · exact .inr (by omega)
    · refine .inl ?_
      have p1 : 0 < s.published.countP (fun e => e.job == n && e.state == .completed) := by omega
      have p2 : 0 < s.published.countP (fun e => e.job == n && e.state == .failed) := by omega
      obtain ⟨e1, m1, x1⟩ := List.countP_pos_iff.1 p1
      obtain ⟨e2, m2, x2⟩ := List.countP_pos_iff.1 p2
      simp at x1 x2
      obtain ⟨t1, j1, g1, i1, st1⟩ := hh.mem m1
      obtain ⟨t2, j2, g2, i2, st2⟩ := hh.mem m2
      have ht1 : t1 = "job.completed" := by
        obtain ⟨_, _, h3 | h3⟩ := C72_events_true hE hl g1
        · exact h3.1
        · rw [st1, x1.2] at h3; cases h3.2.1
      have ht2 : t2 = "job.failed" := by
        obtain ⟨_, _, h3 | h3⟩ := C72_events_true hE hl g2
        · rw [st2, x2.2] at h3; cases h3.2.1
        · exact h3.1
      subst ht1 ht2
      have := C72_not_both hE hl g2 g1 (by rw [i1, i2, x1.1, x2.1])
      rwa [i2, x2.1] at this

/-- **C73** (defect): this happens. In a history of the whole system without any fault — two tasks of a parallel group fail — a client that
waits for the job makes the coordinator crash. The hypotheses of `C73_crash_cause` are met. -/
theorem C73_crash_happens : ∃ (E : Env) (w : World) (log : List Msg) (s : S), E.WellFormed ∧ LoggedOK E w log ∧ (∀ n, ¬ E.restartOK n) ∧
    Reach s ∧ Heard log s ∧ s.crashed = true := by
  obtain ⟨E, w, log, hE, hl, hr, h2⟩ := C72_failed_announced_twice
  have t := Reach.init
  have t := t.next rfl .other
  have t := t.next rfl (.arrive 0 7 rfl rfl)
  have t := t.next rfl (.subscribe 0 [] rfl (by simp))
  have t := t.next rfl (.check 0 rfl)
  have t := t.next rfl (.name 0 rfl)
  have t := t.next rfl (.read 0 rfl)
  have t := t.next rfl (.submit 0 1 rfl rfl)
  have t := t.next rfl (.publish ⟨1, .failed⟩ (by simp))
  have t := t.next rfl (.publish ⟨1, .failed⟩ (by simp))
  have t := t.next rfl (.take 0 ⟨1, .failed⟩ [⟨1, .failed⟩] rfl rfl)
  have t := t.next rfl (.compare 0 ⟨1, .failed⟩ rfl)
  have t := t.next rfl (.write 0 0 ⟨1, .failed⟩ rfl rfl)
  have t := t.next rfl (.close 0 ⟨1, .failed⟩ rfl)
  have t := t.next rfl (.take 0 ⟨1, .failed⟩ [] rfl rfl)
  have t := t.next rfl (.compare 0 ⟨1, .failed⟩ rfl)
  have t := t.next rfl (.write 0 0 ⟨1, .failed⟩ rfl rfl)
  have t := t.next rfl (.close 0 ⟨1, .failed⟩ rfl)
  refine ⟨E, w, log, _, hE, hl, hr, t, fun n st => ?_, rfl⟩
  show [(⟨1, .failed⟩ : Ev), ⟨1, .failed⟩].countP _ ≤ _
  by_cases hn : n = 1 ∧ st = .failed
  · rw [hn.1, hn.2]
    refine Nat.le_trans (m := 2) (by decide) (Nat.le_trans (Nat.le_of_eq h2.symm) (List.countP_mono_left fun m hm hx => ?_))
    cases m with
    | event topic j =>
      simp at hx
      obtain ⟨row, hr, h3 | h3⟩ := C72_events_true hE hl.logged hm
      · rw [hx.1] at h3; exact absurd h3.1 (by decide)
      · simp [asserts, hx.2, h3.2.1]
    | _ => simp at hx
  · have : [(⟨1, .failed⟩ : Ev), ⟨1, .failed⟩].countP (fun e => e.job == n && e.state == st) = 0 := by
      refine List.countP_eq_zero.2 fun e he hx => hn ?_
      simp at he hx
      subst he
      exact ⟨hx.1.symm, hx.2.symm⟩
    rw [this]; exact Nat.zero_le _

end Tork.Wait
