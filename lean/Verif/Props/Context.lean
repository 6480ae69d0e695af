import Verif.Props.Join
import Verif.Props.SubJobs
/-!
# C20 — results of tasks flow into the job context
-/

namespace Tork
open Prog

/-! ## Specification -/

/-- The context `c'` is `c` after a task with variable `v` finished with result `r`: with a variable and a result the variable
now has that result and every other variable its old value; otherwise nothing changed. Inputs, secrets and job values are
never touched. -/
structure Flows (v r : String) (c c' : JobContext) : Prop where
  set : v ≠ "" → r ≠ "" → mget c'.tasks v = some r
  keep : ∀ k, k ≠ v → mget c'.tasks k = mget c.tasks k
  none_ : v = "" ∨ r = "" → c' = c
  inputs : c'.inputs = c.inputs
  secrets : c'.secrets = c.secrets
  job : c'.job = c.job

theorem record_flows (c : JobContext) (t : Task) : Flows t.var t.result c (c.record t) := by
  unfold JobContext.record
  by_cases h : t.result ≠ "" ∧ t.var ≠ ""
  · rw [if_pos h]
    refine ⟨fun _ _ => ?_, fun k hk => ?_, fun h' => ?_, rfl, rfl, rfl⟩
    · simp only; rw [HostEnv.mget_mset, if_pos rfl]
    · simp only; rw [HostEnv.mget_mset, if_neg hk]
    · rcases h' with h' | h'
      · exact absurd h' h.2
      · exact absurd h' h.1
  · rw [if_neg h]
    exact ⟨fun h1 h2 => absurd ⟨h2, h1⟩ h, fun _ _ => rfl, fun _ => rfl, rfl, rfl, rfl⟩

/-- **C20, top-level task with a task after it.** The result of the finishing task is in the context of the job and the next
task is evaluated in that context. -/
theorem C20_next_task (C : Cfg) (fuel : Nat) {t u d : Task} {j : Job} {s : Sys}
    (hst : t.state = .completed ∨ t.state = .skipped) (htop : t.parentID = 0)
    (hu : s.ds.task? t.id = some u) (hf : u.Finishable) (hj : s.ds.job? t.jobID = some j)
    (hd : j.tasks[j.position]? = some d) (hfresh : s.ds.task? s.next = none) :
    ∃ (s' : Sys) (x : Task) (j' : Job), Handles C (fuel + 1) (.task "completed" t) s s' ∧ s'.ds.job? t.jobID = some j' ∧
      Flows t.var t.result j.context j'.context ∧ s'.out = s.out ++ [.task "pending" x] ∧
      InstanceOf C j'.context d s.next t.jobID (j.position + 1) x ∧ (∀ k, k ≠ t.jobID → s'.ds.job? k = s.ds.job? k) := by
  obtain ⟨p, s', x, j', now, h1, h2, h3, h4, h5, h6, _⟩ := C05_next_task C fuel hst htop hu hf hj hd hfresh
  refine ⟨s', x, j', ⟨p, h1, h2⟩, by rw [h6, if_pos rfl], by rw [h3.context]; exact record_flows _ _, h5, h4, fun k hk => by rw [h6, if_neg hk]⟩

/-- **C20, last top-level task.** The result of the finishing task is in the context of the job and the output of the job is
evaluated in that context. -/
theorem C20_last_task (C : Cfg) (fuel : Nat) {t u : Task} {j : Job} {s : Sys}
    (hst : t.state = .completed ∨ t.state = .skipped) (htop : t.parentID = 0)
    (hu : s.ds.task? t.id = some u) (hf : u.Finishable) (hj : s.ds.job? t.jobID = some j)
    (hrun : j.state = .running ∨ j.state = .scheduled) (hlast : j.tasks.length ≤ j.position)
    (hpar : j.parentID ≠ 0 → ∃ pt, s.ds.task? j.parentID = some pt ∧ j.parentID ≠ t.id)
    (hout : ∀ sd, ∃ r, evaluateTemplate C.O ⟨j.context.record t, none⟩ sd j.output = .ok r) :
    ∃ (s' : Sys) (j' : Job) (sd : Nat), Handles C (fuel + 1) (.task "completed" t) s s' ∧ s'.ds.job? t.jobID = some j' ∧
      Flows t.var t.result j.context j'.context ∧ evaluateTemplate C.O ⟨j'.context, none⟩ sd j.output = .ok j'.result ∧
      (∀ k, k ≠ t.jobID → s'.ds.job? k = s.ds.job? k) := by
  obtain ⟨p, s', j1, j', now, sd, r, m, h1, h2, h3, h4, h5, h6, h7, h8, _⟩ := C06_last_task C fuel hst htop hu hf hj hrun hlast hpar hout
  have hc : j'.context = j.context.record t := by rw [h5.rest]; exact h4.context
  refine ⟨s', j', sd, ⟨p, h1, h2⟩, by rw [h8, if_pos rfl], by rw [hc]; exact record_flows _ _, ?_, fun k hk => by rw [h8, if_neg hk]⟩
  rw [hc, h5.result]; exact h3

/-- **C20, child of a parallel or each task** (not the last one). -/
theorem C20_child (C : Cfg) (fuel : Nat) {t u p : Task} {j : Job} {s : Sys} (h : ChildDone s t u p j)
    (hmore : (∃ par, p.parallel = some par ∧ par.completions + 1 < par.tasks.length) ∨
      (p.parallel = none ∧ ∃ e, p.each = some e ∧ e.completions + 1 < e.size ∧ (e.concurrency = 0 ∨ e.size ≤ e.index))) :
    ∃ (s' : Sys) (j' : Job), Handles C (fuel + 1) (.task "completed" t) s s' ∧ s'.ds.job? t.jobID = some j' ∧
      Flows t.var t.result j.context j'.context ∧ (∀ k, k ≠ t.jobID → s'.ds.job? k = s.ds.job? k) := by
  have key : ∃ (q : Prog Res) (s' : Sys) (j' : Job), coordinatorHandler C (fuel + 1) (.task "completed" t) = some q ∧
      q.exec s = (some none, s') ∧ Recorded t j j' ∧ (∀ k, s'.ds.job? k = if k = t.jobID then some j' else s.ds.job? k) := by
    rcases hmore with ⟨par, h1, h2⟩ | ⟨h0, e, h1, h2, h3⟩
    · obtain ⟨q, s', j', now, k1, k2, k3, k4, k5, k6⟩ := C11_branch C fuel h h1 h2
      exact ⟨q, s', j', k1, k2, k3, k5⟩
    · obtain ⟨q, s', j', now, k1, k2, k3, k4, k5, k6⟩ := C12_item C fuel h h0 h1 h2 h3
      exact ⟨q, s', j', k1, k2, k3, k5⟩
  obtain ⟨q, s', j', k1, k2, k3, k4⟩ := key
  have hc : j'.context = j.context.record t := by rw [k3]
  exact ⟨s', j', ⟨q, k1, k2⟩, by rw [k4, if_pos rfl], by rw [hc]; exact record_flows _ _, fun k hk => by rw [k4, if_neg hk]⟩

/-! ## Concrete cases -/

namespace ContextEx
open FanoutEx (cfg)

def t0 : Task := { id := 5, jobID := 1, state := .running, createdAt := some 0, position := 1, var := "v" }
def job (ts : List Task) : Job := { id := 1, state := .running, position := 1, tasks := ts, taskCount := ts.length
                                    context := { tasks := [("w", "1"), ("v", "old")], inputs := [("i", "2")] } }
def sys (ts : List Task) : Sys := { next := 20, ds := { jobs := [job ts], tasks := [t0] } }
def report : Task := { t0 with state := .completed, result := "42" }

example := C05_next_task cfg 3 (t := report) (s := sys [{}, { name := "next" }]) (.inl rfl) rfl rfl (.inl rfl) rfl rfl rfl
example := C06_last_task cfg 3 (t := report) (s := sys [{}]) (.inl rfl) rfl rfl (.inl rfl) rfl (.inl rfl) (by decide)
  (fun h => absurd rfl h) (fun sd => ⟨"", by rfl⟩)
example := C20_next_task cfg 3 (t := report) (s := sys [{}, { name := "next" }]) (.inl rfl) rfl rfl (.inl rfl) rfl rfl rfl
example := C20_last_task cfg 3 (t := report) (s := sys [{}]) (.inl rfl) rfl rfl (.inl rfl) rfl (.inl rfl) (by decide)
  (fun h => absurd rfl h) (fun sd => ⟨"", by rfl⟩)
example := C20_child cfg 4 (JoinEx.done (some (JoinEx.par 0)) none [{}]) (.inl ⟨_, rfl, by decide⟩)
/-- the context after the first task finished -/
example : ((SubJobsEx.handle (.task "completed" report) (sys [{}, { name := "next" }])).ds.jobs.map (·.context.tasks)) = [[("w", "1"), ("v", "42")]] := by
  decide +kernel

end ContextEx

end Tork
