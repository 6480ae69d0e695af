import Verif.Props.SubJobs
/-!
# C57: start notices

What the coordinator does with the notice a worker sends when it starts a task (`/repo/internal/coordinator/handlers/started.go`).
-/

namespace Tork
open Prog

/-- The row of a task whose start was reported by node `node` at time `now`: only a SCHEDULED task becomes RUNNING. -/
def startNoted (r : Task) (node now : Nat) : Task :=
  { resave r with
    nodeID := node
    state := if r.state = .scheduled then .running else r.state
    startedAt := if r.state = .scheduled then some now else r.startedAt }

/-- The row of a job one of whose tasks started. -/
def jobNoted (j : Job) : Job := if j.state = .scheduled then { j with state := .running, failedAt := none } else j

theorem persist_startedRow (r : Task) (node now : Nat) : persistTask r (startedRow now node r) = startNoted r node now := by
  unfold startedRow startNoted
  by_cases h : r.state = .scheduled
  · simp only [if_pos h]; rfl
  · simp only [if_neg h]; rfl

theorem persist_markRunning {j : Job} (h : j.state = .scheduled) : persistJob j (markRunningRow j) = jobNoted j := by
  unfold markRunningRow jobNoted
  rw [if_neg (by simp [h]), if_pos h]; rfl

/-- **C57, start of a live job's task.** -/
theorem C57_started (C : Cfg) (fuel : Nat) {t r : Task} {j : Job} {s : Sys} (hj : s.ds.job? t.jobID = some j)
    (hlive : j.state = .scheduled ∨ j.state = .running) (hr : s.ds.task? t.id = some r) :
    ∃ s' : Sys, Handles C fuel (.task "started" t) s s' ∧ s'.out = s.out ∧ s'.ds.nodes = s.ds.nodes ∧
      (∀ k, s'.ds.job? k = if k = t.jobID then some (jobNoted j) else s.ds.job? k) ∧
      (∀ k, s'.ds.task? k = if k = t.id then some (startNoted r t.nodeID s.clock) else s.ds.task? k) := by
  have hguard : ¬ (j.state ≠ .running ∧ j.state ≠ .scheduled) := by rcases hlive with h | h <;> simp [h]
  have hjid : j.id = t.jobID := (job?_mem hj).2
  by_cases hs : j.state = .scheduled
  · refine ⟨((s.withDs (s.ds.setJob j.id (markRunningRow j))).ticked).withDs
      ((s.ds.setJob j.id (markRunningRow j)).setTask t.id (startedRow s.clock t.nodeID r)),
      ⟨_, coord_started C fuel t, wrapTask_ok (x := t) ?_⟩, rfl, rfl, fun k => ?_, fun k => ?_⟩
    · simp only [startedHandler, bind_eq, pure_eq]
      rw [exec_read (getJob_of (j := j) hj)]
      simp only
      rw [if_neg hguard, if_pos hs]
      simp only [markJobAsRunning, bind_eq, pure_eq, Prog.bind_assoc]
      rw [exec_tx (updateJob'_of (t := j) (by show s.ds.job? j.id = _; rw [hjid]; exact hj))]
      simp only [ret_bind]
      rw [exec_now]
      rw [exec_tx (updateTask'_of (t := r) (by exact hr))]
      rfl
    · show ((s.ds.setJob j.id (markRunningRow j)).setTask t.id _).job? k = _
      rw [show ((s.ds.setJob j.id (markRunningRow j)).setTask t.id (startedRow s.clock t.nodeID r)).job? k =
        (s.ds.setJob j.id (markRunningRow j)).job? k from rfl, hjid, job?_set_eq hj, persist_markRunning hs]
    · show ((s.ds.setJob j.id (markRunningRow j)).setTask t.id _).task? k = _
      rw [task?_set_eq (ds := s.ds.setJob j.id (markRunningRow j)) (r := r) (by exact hr), persist_startedRow]
      rfl
  · refine ⟨(s.ticked).withDs (s.ds.setTask t.id (startedRow s.clock t.nodeID r)),
      ⟨_, coord_started C fuel t, wrapTask_ok (x := t) ?_⟩, rfl, rfl, fun k => ?_, fun k => ?_⟩
    · simp only [startedHandler, bind_eq, pure_eq]
      rw [exec_read (getJob_of (j := j) hj)]
      simp only
      rw [if_neg hguard, if_neg hs]
      simp only [ret_bind]
      rw [exec_now]
      rw [exec_tx (updateTask'_of (t := r) (by exact hr))]
      rfl
    · show s.ds.job? k = _
      unfold jobNoted
      rw [if_neg hs]
      split
      · rename_i h; rw [h, hj]
      · rfl
    · show (s.ds.setTask t.id _).task? k = _
      rw [task?_set_eq (r := r) hr, persist_startedRow]

/-- **C57 / C10 / C56, start of a dead job's task.** If the job is neither SCHEDULED nor RUNNING (it was cancelled, failed, …)
nothing is written and a cancellation of the task is sent to the node that reported the start. -/
theorem C57_late_start (C : Cfg) (fuel : Nat) {t : Task} {j : Job} {n : Node} {s : Sys} (hj : s.ds.job? t.jobID = some j)
    (hdead : j.state ≠ .running ∧ j.state ≠ .scheduled) (hn : s.ds.node? t.nodeID = some n) :
    Handles C fuel (.task "started" t) s (s.send [.task n.queue { t with state := .cancelled }]) := by
  refine ⟨_, coord_started C fuel t, wrapTask_ok (x := { t with state := .cancelled }) ?_⟩
  simp only [startedHandler, bind_eq, pure_eq]
  rw [exec_read (getJob_of (j := j) hj)]
  simp only
  rw [if_pos hdead]
  rw [exec_read (getNode_of (n := n) hn)]
  simp only
  rw [exec_pub]
  rfl

namespace StartedEx
def row : Task := { id := 3, jobID := 2, state := .scheduled, createdAt := some 1 }
def sys (js : JobState) : Sys :=
  { ds := { jobs := [{ id := 2, state := js }], tasks := [row], nodes := [{ id := 5, queue := "x-5" }] }
    out := [], next := 10, o := fun n => n, tick := 0 }
/-- A start notice of a SCHEDULED task of a SCHEDULED job: both RUNNING, on node 5. -/
example (C : Cfg) : ∃ s', Handles C 3 (.task "started" { row with nodeID := 5, state := .running }) (sys .scheduled) s' ∧
    (s'.ds.task? 3).map (fun r => (r.state, r.nodeID)) = some (.running, 5) ∧ (s'.ds.job? 2).map (·.state) = some .running := by
  obtain ⟨s', h, _, _, hj, ht⟩ := C57_started C 3 (t := { row with nodeID := 5, state := .running }) (r := row)
    (j := { id := 2, state := .scheduled }) (s := sys .scheduled) rfl (.inl rfl) rfl
  refine ⟨s', h, ?_, ?_⟩
  · rw [ht]; rfl
  · rw [hj]; rfl
/-- The same notice after the job failed: the node is told to stop. -/
example (C : Cfg) : Handles C 3 (.task "started" { row with nodeID := 5, state := .running }) (sys .failed)
    ((sys .failed).send [.task "x-5" { row with nodeID := 5, state := .cancelled }]) :=
  C57_late_start C 3 (n := { id := 5, queue := "x-5" }) (j := { id := 2, state := .failed }) rfl (by decide) rfl
end StartedEx

end Tork
