import Verif.CoordExec
import Verif.Trace
/-!
# C18 — bounded redelivery
-/

namespace Tork
open Prog

/-- **C18 (put back).** A redelivered task message with fewer than five redeliveries: exactly one message is sent, the
same task with the counter increased by one, to the task's own queue; the datastore is not touched. -/
theorem C18_put_back (C : Cfg) (fuel : Nat) {t : Task} (s : Sys) (h : t.redelivered < 5) :
    ∃ p s', coordinatorHandler C fuel (.task "redeliveries" t) = some p ∧ p.exec s = (some none, s') ∧ s'.ds = s.ds ∧
      s'.out = s.out ++ [.task t.queue { t with redelivered := t.redelivered + 1 }] := by
  refine ⟨_, s.send [.task t.queue { t with redelivered := t.redelivered + 1 }], coord_redeliveries C fuel t, ?_, rfl, rfl⟩
  unfold redeliveredHandler
  simp only [bind_eq, pure_eq]
  rw [if_neg (by show ¬ 5 ≤ _; omega), exec_pub, exec_ret]

/-- **C18 (failure).** With five redeliveries or more: exactly one message is sent, a FAILED report of the task with the
error text, to the error queue; the datastore is not touched. -/
theorem C18_failure (C : Cfg) (fuel : Nat) {t : Task} (s : Sys) (h : 5 ≤ t.redelivered) :
    ∃ p s' now, coordinatorHandler C fuel (.task "redeliveries" t) = some p ∧ p.exec s = (some none, s') ∧ s'.ds = s.ds ∧
      s'.out = s.out ++ [.task "error" { t with error := "task redelivered too many times", failedAt := some now
                                                state := .failed }] := by
  refine ⟨_, s.ticked.send [.task "error" { t with error := "task redelivered too many times", failedAt := some s.clock
                                                   state := .failed }], s.clock, coord_redeliveries C fuel t, ?_, rfl, rfl⟩
  unfold redeliveredHandler
  simp only [bind_eq, pure_eq]
  rw [if_pos (show t.redelivered ≥ maxRedeliveries from h), exec_now, exec_pub, exec_ret]
  rfl

/-- Some run (any interleaving, any fault) of the handling of a redelivery of `t` puts `t'` back on the work queue. -/
def PutBack (t t' : Task) : Prop :=
  ∃ l q, Run (redeliveredHandler t) l q ∧ Msg.task t.queue t' ∈ published l

/-- `t'` is the task after `n` successive redeliveries, each of the message the previous one put back. -/
inductive PutBackN : Task → Nat → Task → Prop
  | zero (t : Task) : PutBackN t 0 t
  | succ {t t' t'' : Task} {n : Nat} : PutBackN t n t' → PutBack t' t'' → PutBackN t (n + 1) t''

theorem putBack {t t' : Task} (hq : t.queue ≠ "error") (h : PutBack t t') :
    t.redelivered < 5 ∧ t' = { t with redelivered := t.redelivered + 1 } := by
  obtain ⟨l, q, hr, hm⟩ := h
  have key : Every sum2 (fun s _ => ∀ x, Msg.task t.queue x ∈ s.1 →
      t.redelivered < 5 ∧ x = { t with redelivered := t.redelivered + 1 }) (redeliveredHandler t) ([], []) := by
    unfold redeliveredHandler
    simp only [bind_eq, pure_eq]
    split
    · refine every_now quiet_sum2 (by simp) fun now => ?_
      refine every2_pub (by simp) (fun r => ?_) (fun e => by simp [Every])
      cases r <;>
      · intro x hx
        simp only [List.nil_append, List.mem_singleton] at hx
        exact absurd (Msg.task.inj hx).1 hq
    · rename_i hlt
      refine every2_pub (by simp) (fun r => ?_) (fun e => by simp [Every])
      have hlt : t.redelivered < 5 := Nat.lt_of_not_le hlt
      cases r <;>
      · intro x hx
        simp only [List.nil_append, List.mem_singleton] at hx
        exact ⟨hlt, (Msg.task.inj hx).2⟩
  exact (run_sum2 key hr) t' hm

/-- **C18 (bound).** However often it is redelivered, and whatever fails, a task message of a work queue is put back at
most five times (`5 - r` times if it already had `r` redeliveries), each time unchanged except for its counter. -/
theorem C18_bound {t t' : Task} {n : Nat} (hq : t.queue ≠ "error") (h : PutBackN t n t') :
    t' = { t with redelivered := t.redelivered + n } ∧ (0 < n → t.redelivered + n ≤ 5) := by
  induction h with
  | zero => exact ⟨by cases t; rfl, by simp⟩
  | succ h1 h2 ih =>
    obtain ⟨ih1, ih2⟩ := ih
    subst ih1
    obtain ⟨h3, h4⟩ := putBack (by exact hq) h2
    simp only at h3
    exact ⟨by rw [h4]; rfl, fun _ => by omega⟩

namespace RedeliveryEx
def task (n : Nat) : Task := { id := 5, jobID := 1, queue := "gpu", redelivered := n }
def cfg : Cfg := { O := fun _ _ _ => .error "none", parseDur := fun _ => none }
/-- The bound is attained: a fresh message is put back five times, the sixth redelivery reports a failure. -/
theorem five : PutBackN (task 0) 5 (task 5) := by
  have step : ∀ n, n < 5 → PutBack (task n) (task (n + 1)) := by
    intro n hn
    refine ⟨[⟨{}, {}, [.task "gpu" (task (n + 1))]⟩], .ret none, ?_, by simp [published, task]⟩
    unfold redeliveredHandler
    simp only [bind_eq, pure_eq]
    rw [if_neg (by show ¬ 5 ≤ n; omega)]
    exact .cons (n := 0) (n' := 0) (.pubOk _ _ _ _) (.nil _)
  exact .succ (.succ (.succ (.succ (.succ (.zero _) (step 0 (by omega))) (step 1 (by omega))) (step 2 (by omega)))
    (step 3 (by omega))) (step 4 (by omega))
example : ∀ t', ¬ PutBack (task 5) t' := fun t' h => by
  have := (putBack (by decide) h).1; simp [task] at this
example : ∃ p s' now, coordinatorHandler cfg 1 (.task "redeliveries" (task 5)) = some p ∧ p.exec {} = (some none, s') ∧
    s'.ds = {} ∧ s'.out = [] ++ [.task "error" { task 5 with
      error := "task redelivered too many times", failedAt := some now, state := .failed }] :=
  C18_failure cfg 1 {} (by decide)
end RedeliveryEx

end Tork
