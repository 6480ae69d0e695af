import Verif.Props.Completion
/-!
# C44 — duplicates of a completion

Fault-free handling, any number of duplicates. For all interleavings see `Props/Lifecycle.lean`.
-/

namespace Tork
open Prog

/-! ## Specification -/

/-- Nothing advances: every job keeps its position and its context, every parallel and each task its counters, and a
task that cannot be finished (any more) still cannot. -/
structure NoAdvance (ds ds' : DS) : Prop where
  jobs : ∀ id a, ds.job? id = some a → ∃ b, ds'.job? id = some b ∧ b.position = a.position ∧ b.context = a.context
  tasks : ∀ id a, ds.task? id = some a → ∃ b, ds'.task? id = some b ∧ b.parallel = a.parallel ∧ b.each = a.each ∧
    (¬ a.Finishable → ¬ b.Finishable)

/-- The system after the coordinator handled `n` copies of a message, one after the other. -/
def handleCopies (C : Cfg) (fuel : Nat) (m : Msg) : Nat → Sys → Sys
  | 0, s => s
  | n + 1, s => match coordinatorHandler C fuel m with
    | some p => handleCopies C fuel m n (p.exec s).2
    | none => s

/-! ## Lemmas -/

theorem NoAdvance.refl (ds : DS) : NoAdvance ds ds :=
  ⟨fun _ a h => ⟨a, h, rfl, rfl⟩, fun _ a h => ⟨a, h, rfl, rfl, id⟩⟩

theorem NoAdvance.trans {a b c : DS} (h1 : NoAdvance a b) (h2 : NoAdvance b c) : NoAdvance a c := by
  refine ⟨fun i x hx => ?_, fun i x hx => ?_⟩
  · obtain ⟨y, hy, e1, e2⟩ := h1.jobs i x hx
    obtain ⟨z, hz, e3, e4⟩ := h2.jobs i y hy
    exact ⟨z, hz, e3.trans e1, e4.trans e2⟩
  · obtain ⟨y, hy, e1, e2, e3⟩ := h1.tasks i x hx
    obtain ⟨z, hz, e4, e5, e6⟩ := h2.tasks i y hy
    exact ⟨z, hz, e4.trans e1, e5.trans e2, fun h => e6 (e3 h)⟩

theorem noAdvance_setTask {ds : DS} {t u : Task} (ht : ds.task? t.id = some t)
    (hp : u.parallel = t.parallel) (he : u.each = t.each) (hf : ¬ t.Finishable → ¬ u.Finishable) :
    NoAdvance ds (ds.setTask t.id u) := by
  refine ⟨fun i x hx => ⟨x, hx, rfl, rfl⟩, fun i x hx => ?_⟩
  rw [task?_set_eq ht]
  by_cases h : i = t.id
  · subst h
    rw [ht] at hx; cases hx
    rw [if_pos rfl]
    exact ⟨_, rfl, hp, he, hf⟩
  · rw [if_neg h]; exact ⟨x, hx, rfl, rfl, id⟩

theorem noAdvance_setJob {ds : DS} {j u : Job} (hj : ds.job? j.id = some j)
    (hp : u.position = j.position) (he : u.context = j.context) : NoAdvance ds (ds.setJob j.id u) := by
  refine ⟨fun i x hx => ?_, fun i x hx => ⟨x, hx, rfl, rfl, id⟩⟩
  rw [job?_set_eq hj]
  by_cases h : i = j.id
  · subst h
    rw [hj] at hx; cases hx
    rw [if_pos rfl]
    exact ⟨_, rfl, hp, he⟩
  · rw [if_neg h]; exact ⟨x, hx, rfl, rfl⟩

theorem noAdvance_failRel : FailRel NoAdvance where
  refl := NoAdvance.refl
  cancel ds t h := noAdvance_setTask h rfl rfl fun _ h => by rcases h with h | h | h <;> cases h
  fail ds t _ _ h _ := noAdvance_setTask h rfl rfl fun _ h => by rcases h with h | h | h <;> cases h
  resave ds t h := noAdvance_setTask h rfl rfl id
  create ds t h := by
    refine ⟨fun i x hx => ⟨x, hx, rfl, rfl⟩, fun i x hx => ?_⟩
    rw [task?_append, hx]
    exact ⟨x, rfl, rfl, rfl, id⟩
  failJob ds j _ h := noAdvance_setJob h rfl rfl
  resaveJob ds j h := noAdvance_setJob h rfl rfl

theorem completeTaskRow_refused {t u : Task} (h : ¬ u.Finishable) : completeTaskRow t u = .error "can't complete task" := by
  unfold completeTaskRow
  rw [if_pos]
  simp only [Task.Finishable, not_or] at h
  exact h

/-- The completion of a task whose row cannot be finished ends with an error and leaves the database as it is. -/
theorem completeTask_refused (C : Cfg) (fuel : Nat) {t u : Task} {s : Sys} (hu : s.ds.task? t.id = some u)
    (hf : ¬ u.Finishable) : ∃ e, (completeTask C (fuel + 1) t).exec s = (some (some e), s) := by
  rw [completeTask]
  have hr := completeTaskRow_refused (t := t) hf
  by_cases hp : t.parentID = 0
  · rw [if_neg (by simp [hp])]
    unfold completeTopLevelTask
    simp only [bind_eq, pure_eq]
    have : topLevelTx t s.ds = .error (wrapErr "error updating task in datastore" "can't complete task") := by
      unfold topLevelTx
      rw [updateTask_refused hu hr]
    rw [exec_tx_err this]
    exact ⟨_, rfl⟩
  · rw [if_pos hp]
    simp only [bind_eq, pure_eq]
    cases hpar : s.ds.task? t.parentID with
    | none =>
      rw [exec_tx_err (e := "task not found") (by unfold getTask; rw [hpar])]
      exact ⟨_, rfl⟩
    | some par =>
      rw [exec_read (getTask_of hpar)]
      simp only
      split
      · have : subTaskTx t parallelRow s.ds = .error (wrapErr "error updating task in datastore" "can't complete task") := by
          unfold subTaskTx
          rw [updateTask_refused hu hr]
        rw [exec_tx_err this]
        exact ⟨_, rfl⟩
      · have hn : eachNext t s.ds = .error "can't complete task" := by
          unfold eachNext
          rw [hu]
          simp only
          rw [hr]
        have : (eachTx t).run s.ds = (.error (wrapErr "error updating task in datastore" "can't complete task"), s.ds, []) := by
          unfold eachTx
          simp only [hn]
        rw [exec_txOp, this]
        have hs : (s.withDs s.ds).send [] = s := by simp [Sys.send, Sys.withDs]
        rw [hs]
        exact ⟨_, rfl⟩

/-! ## Theorems -/

/-- **C44.** Handling a completion of a task that is not RUNNING, SCHEDULED or SKIPPED (any more) — in particular any
duplicate of the completion of a COMPLETED task — advances nothing: no job's position or context, no counter of a
parallel or each task changes, and the task stays unfinishable. -/
theorem C44_refused (C : Cfg) (fuel : Nat) {t u : Task} {s : Sys} (hu : s.ds.task? t.id = some u) (hf : ¬ u.Finishable) :
    ∃ p, coordinatorHandler C (fuel + 1) (.task "completed" t) = some p ∧ NoAdvance s.ds (p.exec s).2.ds := by
  refine ⟨_, coord_completed C _ t, ?_⟩
  have err : ∃ e x, (completedHandler C (fuel + 1) t).exec s = (some (some e, x), s.ticked) := by
    unfold completedHandler
    simp only [bind_eq, pure_eq]
    rw [exec_now]
    split
    · exact ⟨_, _, rfl⟩
    · obtain ⟨e, he⟩ := completeTask_refused C fuel (t := { t with completedAt := some s.clock }) (s := s.ticked) hu hf
      exact ⟨e, _, exec_bind_of he⟩
  obtain ⟨e, x, hx⟩ := err
  rw [wrapTask_err hx]
  exact (errorHandler_keeps noAdvance_failRel C _).exec NoAdvance.refl (fun _ _ _ => NoAdvance.trans) s.ticked.ticked

/-- **C44, any number of duplicates.** -/
theorem C44_duplicates (C : Cfg) (fuel n : Nat) {t u : Task} {s : Sys} (hu : s.ds.task? t.id = some u) (hf : ¬ u.Finishable) :
    NoAdvance s.ds (handleCopies C (fuel + 1) (.task "completed" t) n s).ds := by
  induction n generalizing s u with
  | zero => exact NoAdvance.refl _
  | succ n ih =>
    obtain ⟨p, h1, h2⟩ := C44_refused C fuel hu hf
    rw [handleCopies, h1]
    obtain ⟨v, hv, _, _, h3⟩ := h2.tasks t.id u hu
    exact h2.trans (ih hv (h3 hf))

/-- **C44, top-level tasks.** A completion of a top-level task handled once and then `n` more times: the job's position
has moved by one and its context has been updated once. -/
theorem C44_top_level (C : Cfg) (fuel n : Nat) {t u d : Task} {j : Job} {s : Sys}
    (hst : t.state = .completed) (htop : t.parentID = 0)
    (hu : s.ds.task? t.id = some u) (hf : u.Finishable) (hj : s.ds.job? t.jobID = some j)
    (hd : j.tasks[j.position]? = some d) (hfresh : s.ds.task? s.next = none) :
    ∃ j', (handleCopies C (fuel + 1) (.task "completed" t) (n + 1) s).ds.job? t.jobID = some j' ∧
      j'.position = j.position + 1 ∧ j'.context = j.context.record t := by
  obtain ⟨p, s', x, j1, now, h1, h2, h3, _, _, h4, h5⟩ := C05_next_task C fuel (.inl hst) htop hu hf hj hd hfresh
  rw [handleCopies, h1]
  simp only [h2]
  have hrow : s'.ds.task? t.id = some (finishedRow t u now) := by rw [h5, if_pos rfl]
  have hno : ¬ (finishedRow t u now).Finishable := by
    intro h
    have : (finishedRow t u now).state = .completed := hst
    unfold Task.Finishable at h
    rw [this] at h
    simp at h
  obtain ⟨b, hb, e1, e2⟩ := (C44_duplicates C fuel n hrow hno).jobs t.jobID j1 (by rw [h4, if_pos rfl])
  exact ⟨b, hb, e1.trans h3.position, e2.trans h3.context⟩

/-! ## The exception: skipped tasks -/

namespace DuplicatesEx

def cfg : Cfg := { O := fun _ _ _ => .error "no expressions", parseDur := fun _ => none }
def sys (st : TaskState) : Sys :=
  { next := 20
    ds := { jobs := [{ id := 1, state := .running, position := 1, tasks := [{ name := "a" }, { name := "b" }, { name := "c" }], taskCount := 3 }]
            tasks := [{ id := 5, jobID := 1, state := st, createdAt := some 0, position := 1, var := "v" }] } }
def report (st : TaskState) : Task := { id := 5, jobID := 1, state := st, position := 1, var := "v", result := "42" }

/-- the hypotheses of `C44_top_level` -/
example : ∃ j', (handleCopies cfg 5 (.task "completed" (report .completed)) 8 (sys .running)).ds.job? 1 = some j' ∧
    j'.position = 2 ∧ mget j'.context.tasks "v" = some "42" := by
  obtain ⟨j', h1, h2, h3⟩ := C44_top_level cfg 4 7 (t := report .completed) (u := { id := 5, jobID := 1, state := .running, createdAt := some 0, position := 1, var := "v" })
    (j := { id := 1, state := .running, position := 1, tasks := [{ name := "a" }, { name := "b" }, { name := "c" }], taskCount := 3 })
    (d := { name := "b" }) (s := sys .running) rfl rfl rfl (.inl rfl) rfl rfl rfl
  exact ⟨j', h1, h2, by rw [h3]; decide +kernel⟩

/-- **C44, the defect.** The completion of a SKIPPED task is not protected: handled twice, it moves the job's position
by two: the third task is created and queued although the second one has not run, both are queued at the same time. -/
theorem C44_skipped_counts_twice :
    (handleCopies cfg 5 (.task "completed" (report .skipped)) 2 (sys .skipped)).ds.jobs.map (·.position) = [3] ∧
    (handleCopies cfg 5 (.task "completed" (report .skipped)) 2 (sys .skipped)).ds.tasks.map (fun t => (t.name, t.state)) =
      [("", .skipped), ("b", .pending), ("c", .pending)] := by decide +kernel

end DuplicatesEx

end Tork
