import Verif.Props.Fanout
/-!
# C16, C56 — sub-jobs, and cancellation of a job

Fault-free, uninterrupted handling of one message; the complete effect is stated.
-/

namespace Tork
open Prog

/-! ## Specification -/

/-- `x` is the new job that task `t` of job `j` starts from the sub-job definition `d`: PENDING, with the tasks, inputs,
secrets, output, webhooks and auto-delete setting of the definition, the owner and permissions of the job `j`, and a
context that holds the inputs. It has no defaults, tags or schedule (those of `j` do not apply to it), and nothing has happened
to it yet. -/
structure SubJobOf (j : Job) (d : SubJobTask Task) (id : Nat) (x : Job) : Prop where
  id : x.id = id
  state : x.state = .pending
  owner : x.createdBy = j.createdBy
  permissions : x.permissions = j.permissions
  name : x.name = d.name
  description : x.description = d.description
  tasks : x.tasks = d.tasks
  taskCount : x.taskCount = d.tasks.length
  inputs : x.inputs = d.inputs
  secrets : x.secrets = d.secrets
  ctxInputs : x.context.inputs = d.inputs
  ctxTasks : x.context.tasks = []
  output : x.output = d.output
  webhooks : x.webhooks = d.webhooks
  autoDelete : x.autoDelete = d.autoDelete
  position : x.position = 0
  defaults : x.defaults = none
  tags : x.tags = []
  schedule : x.schedule = none
  untouched : x.startedAt = none ∧ x.completedAt = none ∧ x.failedAt = none ∧ x.result = "" ∧ x.error = "" ∧ x.progress = 0

/-- The row of task `u` after it started sub-job `id`. -/
def startedSub (u : Task) (d : SubJobTask Task) (id now : Nat) : Task :=
  { resave u with state := .running, scheduledAt := some now, startedAt := some now, subJob := some { d with id := id } }

/-- The row written for a new job. -/
def jobRowOf (ds : DS) (x : Job) : Job := jobRow ds.guest x

/-- The job row after a cancellation. -/
def cancelledJob (j : Job) : Job := if j.state = .running ∨ j.state = .scheduled then { j with state := .cancelled } else j

/-! ## Starting a sub-job -/

theorem persist_subJobRow {u : Task} {d : SubJobTask Task} (h : u.subJob = some d) (now id : Nat) :
    persistTask u (subJobRow now id u) = startedSub u d id now := by
  unfold subJobRow startedSub; rw [h]; rfl

/-- **C16, attached.** Scheduling a task with an attached sub-job: the task becomes RUNNING and refers to the new sub-job;
exactly one job is created, from the definition, with the owner and permissions of the task's job, the task as its parent,
and its secrets in the context; exactly one message is sent: the new job, to be started. No other row changes. -/
theorem C16_attached_start (C : Cfg) (fuel : Nat) {t u : Task} {d : SubJobTask Task} {j : Job} {s : Sys}
    (hif : trimSpace t.cond ≠ "false") (hp : t.parallel = none) (he : t.each = none) (hd : t.subJob = some d)
    (hatt : d.detached = false) (hu : s.ds.task? t.id = some u) (hud : u.subJob = some d) (hj : s.ds.job? t.jobID = some j)
    (hfresh : s.ds.job? s.next = none) (hnz : s.next ≠ 0) :
    ∃ (p : Prog Res) (s' : Sys) (x : Job) (now : Nat),
      coordinatorHandler C fuel (.task "pending" t) = some p ∧ p.exec s = (some none, s') ∧
      SubJobOf j d s.next x ∧ x.parentID = t.id ∧ x.context.secrets = d.secrets ∧
      s'.out = s.out ++ [.job x] ∧
      (∀ k, s'.ds.task? k = if k = t.id then some (startedSub u d s.next now) else s.ds.task? k) ∧
      (∀ k, s'.ds.job? k = if k = s.next then some (jobRowOf s.ds x) else s.ds.job? k) := by
  let x := attachedSubJob s.next s.clock j t d
  let ds1 := s.ds.setTask t.id (subJobRow s.clock s.next u)
  let ds2 : DS := { ds1 with jobs := ds1.jobs ++ [jobRow ds1.guest x] }
  have hc : createJob x ds1 = .ok ((), ds2) := createJob_of hnz hfresh
  refine ⟨_, ((s.ticked.drawn.withDs ds1).withDs ds2).send [.job x], x, s.clock, coord_pending C _ t, ?_,
    ⟨rfl, rfl, rfl, rfl, rfl, rfl, rfl, rfl, rfl, rfl, rfl, rfl, rfl, rfl, rfl, rfl, rfl, rfl, rfl, rfl, rfl, rfl, rfl, rfl, rfl⟩, rfl, rfl, rfl, fun k => ?_, fun k => ?_⟩
  · refine wrapTask_ok (x := t) ?_
    unfold pendingHandler
    rw [if_neg hif]
    unfold scheduleTask
    rw [hp]; simp only
    rw [he]; simp only
    rw [hd]; simp only
    rw [if_neg (by simp [hatt])]
    simp only [bind_eq, pure_eq]
    refine exec_bind_of (b := none) ?_
    unfold scheduleAttachedSubJob
    simp only [bind_eq, pure_eq]
    rw [exec_read (getJob_of (j := j) hj)]
    simp only
    rw [exec_now, exec_uuid, exec_tx (s := s.ticked.drawn) (updateTask'_of (t := u) hu)]
    simp only
    show Prog.exec ((tx (createJob x)).bind _) (s.ticked.drawn.withDs ds1) = _
    rw [exec_tx (s := s.ticked.drawn.withDs ds1) hc]
    simp only
    rw [exec_pub]
    rfl
  · show ds1.task? k = _
    show (s.ds.setTask t.id _).task? k = _
    rw [task?_set_eq hu, persist_subJobRow hud]
  · show ds2.job? k = _
    show DS.job? { ds1 with jobs := ds1.jobs ++ [jobRow ds1.guest x] } k = _
    rw [job?_append]
    show (s.ds.job? k).or (if s.next = k then _ else _) = _
    by_cases hk : k = s.next
    · rw [if_pos hk, hk, hfresh, if_pos rfl]; rfl
    · rw [if_neg hk, if_neg (Ne.symm hk)]; cases s.ds.job? k <;> rfl

/-- **C16, detached.** Scheduling a task with a detached sub-job: exactly one job is created, from the definition, with the
owner and permissions of the task's job and without parent; it is sent to be started, and the task's completion is sent at
once (so the task does not wait for the sub-job, whose end nobody is told). -/
theorem C16_detached_start (C : Cfg) (fuel : Nat) {t u : Task} {d : SubJobTask Task} {j : Job} {s : Sys}
    (hif : trimSpace t.cond ≠ "false") (hp : t.parallel = none) (he : t.each = none) (hd : t.subJob = some d)
    (hdet : d.detached = true) (hu : s.ds.task? t.id = some u) (hud : u.subJob = some d) (hj : s.ds.job? t.jobID = some j)
    (hfresh : s.ds.job? s.next = none) (hnz : s.next ≠ 0) :
    ∃ (p : Prog Res) (s' : Sys) (x : Job) (now : Nat),
      coordinatorHandler C fuel (.task "pending" t) = some p ∧ p.exec s = (some none, s') ∧
      SubJobOf j d s.next x ∧ x.parentID = 0 ∧
      s'.out = s.out ++ [.job x, .task "completed" { t with state := .completed, completedAt := some now }] ∧
      (∀ k, s'.ds.task? k = if k = t.id then some (startedSub u d s.next now) else s.ds.task? k) ∧
      (∀ k, s'.ds.job? k = if k = s.next then some (jobRowOf s.ds x) else s.ds.job? k) := by
  let x := detachedSubJob s.next s.clock j d
  let ds1 : DS := { s.ds with jobs := s.ds.jobs ++ [jobRow s.ds.guest x] }
  let ds2 := ds1.setTask t.id (subJobRow s.clock s.next u)
  have hc : createJob x s.ds = .ok ((), ds1) := createJob_of hnz hfresh
  refine ⟨_, (((s.ticked.drawn.withDs ds1).send [.job x]).withDs ds2).send
      [.task QUEUE_COMPLETED { t with completedAt := some s.clock, state := .completed }], x, s.clock, coord_pending C _ t, ?_,
    ⟨rfl, rfl, rfl, rfl, rfl, rfl, rfl, rfl, rfl, rfl, rfl, rfl, rfl, rfl, rfl, rfl, rfl, rfl, rfl, rfl, rfl, rfl, rfl, rfl, rfl⟩, rfl, ?_, fun k => ?_, fun k => ?_⟩
  · have hs : scheduleTask C t = scheduleDetachedSubJob t d := by
      unfold scheduleTask
      rw [hp]; simp only
      rw [he]; simp only
      rw [hd]; simp only
      rw [if_pos hdet]
    refine wrapTask_ok (x := { t with completedAt := some s.clock, state := .completed }) ?_
    unfold pendingHandler
    rw [if_neg hif, hs]
    unfold scheduleDetachedSubJob
    simp only [bind_eq, pure_eq]
    rw [exec_read (getJob_of (j := j) hj)]
    simp only
    rw [exec_now, exec_uuid]
    show Prog.exec ((tx (createJob x)).bind _) s.ticked.drawn = _
    rw [exec_tx (s := s.ticked.drawn) hc]
    simp only
    rw [exec_pub]
    show Prog.exec ((tx (updateTask' t.id (subJobRow s.clock s.next))).bind _) ((s.ticked.drawn.withDs ds1).send [.job x]) = _
    rw [exec_tx (s := (s.ticked.drawn.withDs ds1).send [.job x]) (updateTask'_of (t := u) hu)]
    simp only
    rw [exec_pub]
    simp only
    rw [exec_ret]
    rfl
  · show s.out ++ _ ++ _ = _; simp [QUEUE_COMPLETED]
  · show (ds1.setTask t.id _).task? k = _
    rw [task?_set_eq (show ds1.task? t.id = some u from hu), persist_subJobRow hud]
    rfl
  · show ds1.job? k = _
    show DS.job? { s.ds with jobs := s.ds.jobs ++ [jobRow s.ds.guest x] } k = _
    rw [job?_append]
    show (s.ds.job? k).or (if s.next = k then _ else _) = _
    by_cases hk : k = s.next
    · rw [if_pos hk, hk, hfresh, if_pos rfl]; rfl
    · rw [if_neg hk, if_neg (Ne.symm hk)]; cases s.ds.job? k <;> rfl

/-! ## The end of a sub-job -/

/-- A handler run: the coordinator handles `m` in `s` without a fault and ends in `s'`. -/
def Handles (C : Cfg) (fuel : Nat) (m : Msg) (s s' : Sys) : Prop :=
  ∃ p, coordinatorHandler C fuel m = some p ∧ p.exec s = (some none, s')

theorem exec_next_le {α : Type} (p : Prog α) (s : Sys) : s.next ≤ (p.exec s).2.next := by
  induction p generalizing s with
  | ret a => exact Nat.le_refl _
  | db op k ih => rw [exec]; exact ih _ { s with ds := (op.run s.ds).2.1, out := s.out ++ (op.run s.ds).2.2 }
  | pub m k ih => rw [exec]; exact ih _ { s with out := s.out ++ [m] }
  | nondet k ih => rw [exec]; exact ih _ { s with tick := s.tick + 1 }
  | uuid k ih => rw [exec]; exact Nat.le_trans (Nat.le_succ _) (ih _ { s with next := s.next + 1 })
  | panic s => exact Nat.le_refl _

/-- **C16, result.** The last task `t` of a sub-job finishes, and the message this sends is handled next: the sub-job is
COMPLETED with its evaluated output `r` as result; the parent task's row becomes COMPLETED with the result `r`, and the
parent's job advances with `r` recorded under the parent task's variable. (Here the parent is a top-level task of its job
with a task after it.) -/
theorem C16_result (C : Cfg) (fuel : Nat) {t u pt d : Task} {sj pj : Job} {s : Sys}
    (hst : t.state = .completed ∨ t.state = .skipped) (htop : t.parentID = 0)
    (hu : s.ds.task? t.id = some u) (hf : u.Finishable) (hj : s.ds.job? t.jobID = some sj)
    (hrun : sj.state = .running ∨ sj.state = .scheduled) (hlast : sj.tasks.length ≤ sj.position)
    (hatt : sj.parentID ≠ 0) (hpt : s.ds.task? sj.parentID = some pt) (hpne : sj.parentID ≠ t.id)
    (hout : ∀ sd, ∃ r, evaluateTemplate C.O ⟨sj.context.record t, none⟩ sd sj.output = .ok r)
    (hpf : pt.Finishable) (hptop : pt.parentID = 0) (hpj : s.ds.job? pt.jobID = some pj) (hjne : pt.jobID ≠ t.jobID)
    (hnext : pj.tasks[pj.position]? = some d) (hfresh : ∀ k, s.next ≤ k → s.ds.task? k = none) :
    ∃ (s1 s2 : Sys) (m : Msg) (sd : Nat) (r : String) (sj' pj' : Job) (x : Task) (now : Nat),
      Handles C (fuel + 1) (.task "completed" t) s s1 ∧ s1.out = s.out ++ [m] ∧
      Handles C (fuel + 1) m s1 s2 ∧
      evaluateTemplate C.O ⟨sj.context.record t, none⟩ sd sj.output = .ok r ∧
      s2.ds.job? t.jobID = some sj' ∧ sj'.state = .completed ∧ sj'.result = r ∧
      s2.ds.task? sj.parentID = some { resave pt with state := .completed, completedAt := some now, result := sanitizeString r } ∧
      s2.ds.job? pt.jobID = some pj' ∧ pj'.position = pj.position + 1 ∧ pj'.context = pj.context.record { pt with result := r } ∧
      s2.out = s.out ++ [m, .task "pending" x] ∧ x.position = pj.position + 1 ∧ x.jobID = pt.jobID := by
  obtain ⟨p1, s1, j1, sj', now, sd, r, m, h1, h2, h3, h4, h5, h6, h7, h8, h9⟩ :=
    C06_last_task C fuel hst htop hu hf hj hrun hlast (fun _ => ⟨pt, hpt, hpne⟩) hout
  rcases h6 with ⟨h0, _⟩ | ⟨_, pt', now', hpt', hm⟩
  · exact absurd h0 hatt
  · rw [hpt] at hpt'
    obtain rfl : pt = pt' := Option.some.inj hpt'
    have hpid : pt.id = sj.parentID := (task?_mem hpt).2
    have g1 : s1.ds.task? pt.id = some pt := by rw [h9, hpid, if_neg hpne]; exact hpt
    have g2 : s1.ds.job? pt.jobID = some pj := by rw [h8, if_neg hjne]; exact hpj
    have hkeep := (exec_next_le p1 s)
    rw [h2] at hkeep
    have g3 : s1.ds.task? s1.next = none := by
      rw [h9, if_neg]
      · exact hfresh _ hkeep
      · intro e; have := hfresh _ hkeep; rw [e, hu] at this; cases this
    obtain ⟨p2, s2, x, pj', now2, k1, k2, k3, k4, k5, k6, k7⟩ := C05_next_task C fuel
      (t := { pt with state := .completed, completedAt := some now', result := r }) (s := s1) (.inl rfl) hptop g1 hpf g2 hnext g3
    refine ⟨s1, s2, m, sd, r, sj', pj', x, now2, ⟨p1, h1, h2⟩, h7, ⟨p2, by rw [hm]; exact k1, k2⟩, h3, ?_, h5.state, h5.result, ?_, ?_,
      k3.position, k3.context, ?_, ?_, ?_⟩
    · rw [k6, if_neg (Ne.symm hjne), h8, if_pos rfl]
    · rw [k7, if_pos hpid.symm]; rfl
    · rw [k6, if_pos rfl]
    · rw [k5, h7]; simp
    · exact k4.fields.2.2.1
    · exact k4.fields.2.1

/-- **C16, failure.** A task of a sub-job fails without a retry being due: the sub-job becomes FAILED if it was SCHEDULED or
RUNNING, and exactly one message is sent, to the error queue: the parent task, FAILED, with the error of the task. -/
theorem C16_failure (C : Cfg) (fuel : Nat) {t u p : Task} {j : Job} {s : Sys}
    (hj : s.ds.job? t.jobID = some j) (hu : s.ds.task? t.id = some u)
    (hno : t.retry = none ∨ ∃ r, t.retry = some r ∧ r.limit ≤ r.attempts)
    (hp : j.parentID ≠ 0) (hpt : s.ds.task? j.parentID = some p) (hpid : j.parentID ≠ t.id) :
    ∃ (s' : Sys) (now : Nat) (j' : Job), Handles C fuel (.task "error" t) s s' ∧
      s'.out = s.out ++ [.task "error" { p with state := .failed, failedAt := some now, error := t.error }] ∧
      s'.ds.job? t.jobID = some j' ∧ (j.state = .running ∨ j.state = .scheduled → j'.state = .failed) ∧
      (∀ k, k ≠ t.jobID → s'.ds.job? k = s.ds.job? k) ∧ (∀ k, k ≠ t.id → s'.ds.task? k = s.ds.task? k) := by
  have hno' : ¬ RetryDue j t := by
    rintro ⟨_, r, h1, h2⟩
    rcases hno with h | ⟨r', h, h'⟩
    · rw [h] at h1; cases h1
    · rw [h] at h1; cases h1; omega
  obtain ⟨s', now, h1, h2, h3, h4⟩ := errorHandler_sub C hj hu hno' hp hpt hpid
  refine ⟨s', now, _, ⟨_, coord_error C fuel t, ?_⟩, h2, (h4 _).trans (if_pos rfl), ?_, fun k hk => (h4 k).trans (if_neg hk),
    fun k hk => (h3 k).trans (if_neg hk)⟩
  · refine wrapTask_ok (x := t) ?_
    unfold errorHandlerT
    simp only [bind_eq, pure_eq]
    exact exec_bind_of h1
  · intro h; rw [if_pos h]

/-! ## Cancellation -/

theorem persist_cancelJobRow (j : Job) : persistJob j (cancelJobRow j) = cancelledJob j := by
  unfold cancelJobRow cancelledJob
  by_cases h : j.state = .running ∨ j.state = .scheduled
  · rw [if_pos h, if_neg (by rcases h with h | h <;> simp [h])]; rfl
  · rw [if_neg h, if_pos (by constructor <;> intro e <;> simp [e] at h)]; rfl

/-- The message by which a cancelled sub-job cancels the job of its parent task. -/
def upMsgs (ds : DS) (j : Job) : List Msg :=
  if j.parentID = 0 then [] else
    match ds.task? j.parentID with
    | some pt => match ds.job? pt.jobID with
      | some pj => [.job { pj with state := .cancelled }]
      | none => []
    | none => []

theorem cancelHandler_exec {m j : Job} {s : Sys} (hj : s.ds.job? m.id = some j) (hpar : m.parentID = j.parentID)
    (hup : j.parentID ≠ 0 → ∃ pt pj, s.ds.task? j.parentID = some pt ∧ s.ds.job? pt.jobID = some pj ∧ pt.jobID ≠ m.id)
    (hc : ∀ t ∈ s.ds.activeOf m.id, Cancellable s.ds t) :
    ∃ ds1 : DS, ds1 = s.ds.setJob m.id (cancelJobRow j) ∧
    (cancelHandler m).exec s = (some none, (s.withDs (ds1.cancelRows (s.ds.activeOf m.id))).send
      (upMsgs s.ds j ++ (s.ds.activeOf m.id).flatMap (cancelMsgs ds1))) := by
  refine ⟨_, rfl, ?_⟩
  let ds1 := s.ds.setJob m.id (cancelJobRow j)
  have hact : ds1.activeOf m.id = s.ds.activeOf m.id := rfl
  have hc1 : ∀ t ∈ ds1.activeOf m.id, Cancellable ds1 t := by
    intro t ht
    obtain ⟨h1, h2⟩ := hc t (by rw [← hact]; exact ht)
    refine ⟨fun h => ?_, h2⟩
    obtain ⟨sj, hsj⟩ := h1 h
    show ∃ sj, (s.ds.setJob m.id (cancelJobRow j)).job? _ = some sj
    rw [job?_set_eq hj]
    by_cases hk : subJobRef t = m.id
    · rw [if_pos hk]; exact ⟨_, rfl⟩
    · rw [if_neg hk]; exact ⟨_, hsj⟩
  unfold cancelHandler
  simp only [bind_eq, pure_eq]
  rw [exec_tx (updateJob'_of (t := j) hj)]
  simp only
  by_cases hp : j.parentID = 0
  · rw [if_neg (by rw [hpar]; simp [hp])]
    have hex := cancelActiveTasks_exec (id := m.id) (s := s.withDs ds1) hc1
    rw [show upMsgs s.ds j = [] by unfold upMsgs; rw [if_pos hp]]
    exact hex
  · obtain ⟨pt, pj, h1, h2, h3⟩ := hup hp
    rw [if_pos (by rw [hpar]; exact hp)]
    rw [exec_read (s := s.withDs ds1) (getTask_of (t := pt) (by rw [hpar]; exact h1))]
    simp only
    rw [exec_read (s := s.withDs ds1) (getJob_of (j := pj) (by
      show (s.ds.setJob m.id _).job? _ = _
      rw [job?_set_eq hj, if_neg h3]; exact h2))]
    simp only
    rw [exec_pub]
    have hex := cancelActiveTasks_exec (id := m.id) (s := (s.withDs ds1).send [.job { pj with state := .cancelled }]) hc1
    rw [show upMsgs s.ds j = [.job { pj with state := .cancelled }] by
      unfold upMsgs; rw [if_neg hp, h1]; simp only; rw [h2]]
    refine hex.trans ?_
    simp only [Sys.send, Sys.withDs, List.append_assoc]
    rfl

/-- **C56 / C16, cancellation.** Handling a cancellation request of a job: the job becomes CANCELLED if it is SCHEDULED or
RUNNING (otherwise its row stays); every active task of the job becomes CANCELLED, no other task changes, and no other job;
for each of those tasks with a sub-job the sub-job's cancellation is sent, for each other one that runs on a node the
cancellation of the task is sent to that node's queue; and if the job is itself a sub-job, the cancellation of the job of
its parent task is sent, too. -/
theorem C56_cancel (C : Cfg) (fuel : Nat) {m j : Job} {s : Sys} (hm : m.state = .cancelled) (hj : s.ds.job? m.id = some j)
    (hpar : m.parentID = j.parentID) (hd : (s.ds.tasks.map (·.id)).Nodup)
    (hup : j.parentID ≠ 0 → ∃ pt pj, s.ds.task? j.parentID = some pt ∧ s.ds.job? pt.jobID = some pj ∧ pt.jobID ≠ m.id)
    (hc : ∀ r ∈ s.ds.tasks, r.jobID = m.id → r.state.isActive → Cancellable s.ds r) :
    ∃ (s' : Sys) (ms : List Msg), Handles C fuel (.job m) s s' ∧
      (∀ k, s'.ds.job? k = if k = m.id then some (cancelledJob j) else s.ds.job? k) ∧
      (∀ k, s'.ds.task? k = (s.ds.task? k).map fun r =>
        if r.jobID = m.id ∧ r.state.isActive then { resave r with state := .cancelled } else r) ∧
      s'.ds.tasks.map (·.id) = s.ds.tasks.map (·.id) ∧ s'.ds.nodes = s.ds.nodes ∧
      (∀ r ∈ s'.ds.tasks, r.jobID = m.id → r.state.isActive = false) ∧
      s'.out = s.out ++ upMsgs s.ds j ++ ms ∧
      (∀ r ∈ s.ds.tasks, r.jobID = m.id → r.state.isActive → ∀ sj c, r.subJob = some sj → sj.id ≠ 0 → sj.id ≠ m.id →
        s.ds.job? sj.id = some c → Msg.job { c with state := .cancelled } ∈ ms) ∧
      (∀ r ∈ s.ds.tasks, r.jobID = m.id → r.state.isActive → subJobRef r = 0 → r.nodeID ≠ 0 → ∀ n, s.ds.node? r.nodeID = some n →
        Msg.task n.queue { r with state := .cancelled } ∈ ms) ∧
      (∀ x ∈ ms, ∃ r ∈ s.ds.tasks, r.jobID = m.id ∧ r.state.isActive ∧
        ((∃ c : Job, x = .job { c with state := .cancelled } ∧ c.id = subJobRef r) ∨
         ∃ n, s.ds.node? r.nodeID = some n ∧ x = .task n.queue { r with state := .cancelled })) := by
  have hact : ∀ r, r ∈ s.ds.activeOf m.id ↔ r ∈ s.ds.tasks ∧ r.jobID = m.id ∧ r.state.isActive := by
    intro r; unfold DS.activeOf; rw [List.mem_filter]; simp
  obtain ⟨ds1, hds1, hex⟩ := cancelHandler_exec (m := m) hj hpar hup (fun r hr => by
    obtain ⟨h1, h2, h3⟩ := (hact r).1 hr; exact hc r h1 h2 h3)
  have hT : ds1.tasks = s.ds.tasks := by rw [hds1]; rfl
  have hN : ds1.nodes = s.ds.nodes := by rw [hds1]; rfl
  have htask : ∀ k, (ds1.cancelRows (s.ds.activeOf m.id)).task? k = (s.ds.task? k).map fun r =>
        if r.jobID = m.id ∧ r.state.isActive then { resave r with state := .cancelled } else r := by
    intro k
    have h := task?_cancelActive (ds := ds1) (by rw [hT]; exact hd) m.id k
    unfold DS.activeOf at h ⊢
    rw [hT] at h
    rw [h]
    unfold DS.task?
    rw [hT]
  refine ⟨_, (s.ds.activeOf m.id).flatMap (cancelMsgs ds1), ⟨_, coord_job C fuel m, wrapJob_ok (x := m) (s' := (s.withDs (ds1.cancelRows (s.ds.activeOf m.id))).send
      (upMsgs s.ds j ++ (s.ds.activeOf m.id).flatMap (cancelMsgs ds1))) ?_⟩, fun k => ?_, htask, ?_, ?_, ?_, ?_, ?_, ?_, ?_⟩
  · unfold jobHandler
    rw [hm]
    simp only [bind_eq, pure_eq]
    rw [exec_bind_of hex]; rfl
  · show (ds1.cancelRows _).job? k = _
    rw [job?_cancelRows, hds1, job?_set_eq hj, persist_cancelJobRow]
  · show (ds1.cancelRows _).tasks.map _ = _
    rw [keys_cancelRows, hT]
  · show (ds1.cancelRows _).nodes = _
    rw [cancelRows_nodes, hN]
  · intro r hr hrj
    have hnd : ((ds1.cancelRows (s.ds.activeOf m.id)).tasks.map (·.id)).Nodup := by
      rw [keys_cancelRows, hT]; exact hd
    have h1 := task?_of_mem hnd hr
    rw [htask] at h1
    cases h0 : s.ds.task? r.id with
    | none => rw [h0] at h1; cases h1
    | some r0 =>
      rw [h0] at h1
      simp only [Option.map, Option.some.injEq] at h1
      by_cases hc0 : r0.jobID = m.id ∧ r0.state.isActive
      · rw [if_pos hc0] at h1; rw [← h1]; rfl
      · rw [if_neg hc0] at h1
        subst h1
        cases h : r0.state.isActive with
        | false => rfl
        | true => exact absurd ⟨hrj, h⟩ hc0
  · show s.out ++ (upMsgs s.ds j ++ _) = _; rw [← List.append_assoc]
  · intro r h1 h2 h3 sj c h4 h5 h6 h7
    have href : subJobRef r = sj.id := by unfold subJobRef; rw [h4]
    refine List.mem_flatMap.2 ⟨r, (hact r).2 ⟨h1, h2, h3⟩, ?_⟩
    unfold cancelMsgs
    rw [if_pos (by rw [href]; exact h5), href, hds1, job?_set_eq hj, if_neg h6, h7]
    simp
  · intro r h1 h2 h3 h4 h5 n h6
    refine List.mem_flatMap.2 ⟨r, (hact r).2 ⟨h1, h2, h3⟩, ?_⟩
    unfold cancelMsgs
    rw [if_neg (by simp [h4]), if_pos h5]
    unfold DS.node?
    rw [hN]
    rw [show s.ds.nodes.find? (·.id = r.nodeID) = some n from h6]
    simp
  · intro x hx
    obtain ⟨r, hr, hmsg⟩ := List.mem_flatMap.1 hx
    obtain ⟨h1, h2, h3⟩ := (hact r).1 hr
    refine ⟨r, h1, h2, h3, ?_⟩
    unfold cancelMsgs at hmsg
    split at hmsg
    · split at hmsg
      · rename_i sj hsj
        rw [List.mem_singleton] at hmsg
        exact .inl ⟨sj, hmsg, (job?_mem hsj).2⟩
      · simp at hmsg
    · split at hmsg
      · split at hmsg
        · rename_i n hn
          rw [List.mem_singleton] at hmsg
          refine .inr ⟨n, ?_, hmsg⟩
          unfold DS.node? at hn ⊢
          rw [hN] at hn; exact hn
        · simp at hmsg
      · simp at hmsg

/-- **C16, cancelling the parent cancels the sub-job.** Job `j`, with an active task `r` that started sub-job `c` (SCHEDULED or
RUNNING), is cancelled, and the cancellation this sends for `c` is handled next: `c` is CANCELLED and none of its tasks is
active. -/
theorem C16_cancel_down (C : Cfg) (fuel : Nat) {m j c : Job} {r : Task} {d : SubJobTask Task} {s : Sys}
    (hm : m.state = .cancelled) (hj : s.ds.job? m.id = some j)
    (hpar : m.parentID = j.parentID) (htop : j.parentID = 0) (hd : (s.ds.tasks.map (·.id)).Nodup)
    (hr : s.ds.task? r.id = some r) (hrj : r.jobID = m.id) (hract : r.state.isActive)
    (hsub : r.subJob = some d) (hc : s.ds.job? d.id = some c) (hcid : d.id ≠ 0 ∧ d.id ≠ m.id) (hcpar : c.parentID = r.id)
    (hcst : c.state = .running ∨ c.state = .scheduled)
    (hcan : ∀ x ∈ s.ds.tasks, x.jobID = m.id ∨ x.jobID = d.id → x.state.isActive → Cancellable s.ds x) :
    ∃ (s1 s2 : Sys) (mc : Job), Handles C fuel (.job m) s s1 ∧ Msg.job mc ∈ s1.out ∧ Handles C fuel (.job mc) s1 s2 ∧
      mc.id = d.id ∧ s2.ds.job? d.id = some { c with state := .cancelled } ∧
      (∀ x ∈ s2.ds.tasks, x.jobID = d.id → x.state.isActive = false) := by
  obtain ⟨s1, ms, h1, h2, h3, h4, h5, h6, h7, h8, -⟩ := C56_cancel C fuel hm hj hpar hd (fun h => absurd htop h)
    (fun x h1 h2 h3 => hcan x h1 (.inl h2) h3)
  have hdid : c.id = d.id := (job?_mem hc).2
  have hin := h8 r (task?_mem hr).1 hrj hract d c hsub hcid.1 hcid.2 hc
  have hc1 : s1.ds.job? d.id = some c := by rw [h2, if_neg hcid.2]; exact hc
  have hr1 : s1.ds.task? r.id = some { resave r with state := .cancelled } := by
    rw [h3, hr]; simp only [Option.map]; rw [if_pos ⟨hrj, hract⟩]
  have hj1 : s1.ds.job? m.id = some (cancelledJob j) := by rw [h2, if_pos rfl]
  obtain ⟨s2, ms2, g1, g2, -, -, -, g3, -⟩ := C56_cancel C fuel (m := { c with state := .cancelled }) (j := c) (s := s1) rfl
    (by show s1.ds.job? c.id = _; rw [hdid]; exact hc1) rfl (by rw [h4]; exact hd)
    (fun _ => ⟨_, _, by rw [hcpar]; exact hr1, by show s1.ds.job? r.jobID = _; rw [hrj]; exact hj1,
      by show r.jobID ≠ c.id; rw [hrj, hdid]; exact Ne.symm hcid.2⟩) (by
      intro x hx hxj hxa
      have hx1 := task?_of_mem (by rw [h4]; exact hd) hx
      rw [h3] at hx1
      cases h0 : s.ds.task? x.id with
      | none => rw [h0] at hx1; cases hx1
      | some x0 =>
        rw [h0] at hx1
        simp only [Option.map, Option.some.injEq] at hx1
        by_cases hc0 : x0.jobID = m.id ∧ x0.state.isActive
        · rw [if_pos hc0] at hx1; rw [← hx1] at hxa; cases hxa
        · rw [if_neg hc0] at hx1
          subst hx1
          obtain ⟨k1, k2⟩ := hcan x0 (task?_mem h0).1 (.inr (hxj.trans hdid)) hxa
          refine ⟨fun h => ?_, fun h h' => ?_⟩
          · obtain ⟨sj, hsj⟩ := k1 h
            rw [h2]
            by_cases hk : subJobRef x0 = m.id
            · rw [if_pos hk]; exact ⟨_, rfl⟩
            · rw [if_neg hk]; exact ⟨_, hsj⟩
          · unfold DS.node? at k2 ⊢
            rw [h5]; exact k2 h h')
  refine ⟨s1, s2, { c with state := .cancelled }, h1, by rw [h7]; exact List.mem_append_right _ hin, g1, hdid, ?_, ?_⟩
  · rw [g2, if_pos hdid.symm]; unfold cancelledJob; rw [if_pos hcst]
  · intro x hx hxj; exact g3 x hx (hxj.trans hdid.symm)

/-- **C16, cancelling the sub-job cancels the parent.** An attached sub-job is cancelled: the cancellation of the job its parent
task belongs to is sent. -/
theorem C16_cancel_up (C : Cfg) (fuel : Nat) {m j pj : Job} {pt : Task} {s : Sys} (hm : m.state = .cancelled) (hj : s.ds.job? m.id = some j)
    (hpar : m.parentID = j.parentID) (hd : (s.ds.tasks.map (·.id)).Nodup) (hsub : j.parentID ≠ 0)
    (hpt : s.ds.task? j.parentID = some pt) (hpj : s.ds.job? pt.jobID = some pj) (hne : pt.jobID ≠ m.id)
    (hc : ∀ r ∈ s.ds.tasks, r.jobID = m.id → r.state.isActive → Cancellable s.ds r) :
    ∃ s', Handles C fuel (.job m) s s' ∧ Msg.job { pj with state := .cancelled } ∈ s'.out := by
  obtain ⟨s', ms, h1, _, _, _, _, _, h2, _⟩ := C56_cancel C fuel hm hj hpar hd (fun _ => ⟨pt, pj, hpt, hpj, hne⟩) hc
  refine ⟨s', h1, ?_⟩
  rw [h2]
  refine List.mem_append_left _ (List.mem_append_right _ ?_)
  unfold upMsgs; rw [if_neg hsub, hpt]; simp only; rw [hpj]; simp

/-! ## Concrete cases -/

namespace SubJobsEx
open FanoutEx (cfg)

def owner : User := { id := 7, username := "kim" }
def def1 (det : Bool) : SubJobTask Task :=
  { name := "inner", tasks := [{ name := "a" }, { name := "b" }], inputs := [("k", "v")], secrets := [("p", "q")], output := "out", detached := det }
/-- job 1 (owned by kim) is at its first task, number 5, which has a sub-job -/
def outer (st : TaskState) (det : Bool) (sub : Nat) : Task :=
  { id := 5, jobID := 1, state := st, createdAt := some 0, position := 1, subJob := some { def1 det with id := sub }, var := "x" }
def job : Job := { id := 1, state := .running, position := 1, tasks := [{ name := "outer" }, { name := "next" }], taskCount := 2
                   createdBy := some owner, permissions := [{ user := some owner }] }
def sys1 (det : Bool) : Sys := { next := 20, ds := { jobs := [job], tasks := [outer .pending det 0] } }

example := C16_attached_start cfg 3 (t := outer .pending false 0) (s := sys1 false) (by decide +kernel) rfl rfl rfl rfl rfl rfl rfl rfl (by decide)
example := C16_detached_start cfg 3 (t := outer .pending true 0) (s := sys1 true) (by decide +kernel) rfl rfl rfl rfl rfl rfl rfl rfl (by decide)

/-- job 9 is the sub-job of task 5; its last task, number 30, is running on node 3 -/
def sub : Job := { id := 9, parentID := 5, state := .running, position := 2, tasks := [{ name := "a" }, { name := "b" }], taskCount := 2, output := "out" }
def last : Task := { id := 30, jobID := 9, state := .running, createdAt := some 0, position := 2, nodeID := 3 }
def sys2 : Sys := { next := 40, ds := { jobs := [job, sub], tasks := [outer .running false 9, last], nodes := [{ id := 3, queue := "x-3" }] } }

theorem fresh2 (k : Nat) (h : sys2.next ≤ k) : sys2.ds.task? k = none := by
  have h : 40 ≤ k := h
  refine List.find?_eq_none.2 fun r hr => ?_
  simp only [sys2, List.mem_cons, List.not_mem_nil, or_false] at hr
  rcases hr with rfl | rfl
  · show ¬ decide (5 = k) = true
    simp; omega
  · show ¬ decide (30 = k) = true
    simp; omega

example := C16_result cfg 3 (t := { last with state := .completed }) (u := last) (pt := outer .running false 9) (s := sys2) (.inl rfl) rfl rfl
  (.inl rfl) rfl (.inl rfl) (by decide) (by decide) rfl (by decide) (fun sd => ⟨"out", by rfl⟩) (.inl rfl) rfl rfl (by decide) rfl fresh2
example := C16_failure cfg 3 (t := { last with state := .failed, error := "boom" }) (s := sys2) rfl rfl (.inl rfl) (by decide) rfl (by decide)
/-- cancelling the outer job reaches the sub-job; cancelling the sub-job reaches the node and the outer job -/
example := C56_cancel cfg 3 (m := { job with state := .cancelled }) (s := sys2) rfl rfl rfl (by decide) (fun h => absurd rfl h) (by
  intro r hr h1 _
  simp only [sys2, List.mem_cons, List.not_mem_nil, or_false] at hr
  rcases hr with rfl | rfl
  · exact ⟨fun _ => ⟨sub, rfl⟩, fun h => absurd h (by decide)⟩
  · exact absurd h1 (by decide))
example := C56_cancel cfg 3 (m := { sub with state := .cancelled }) (s := sys2) rfl rfl rfl (by decide) (fun _ => ⟨_, _, rfl, rfl, by decide⟩) (by
  intro r hr h1 _
  simp only [sys2, List.mem_cons, List.not_mem_nil, or_false] at hr
  rcases hr with rfl | rfl
  · exact absurd h1 (by decide)
  · exact ⟨fun h => absurd rfl h, fun _ _ => ⟨_, rfl⟩⟩)

example := C16_cancel_down cfg 3 (m := { job with state := .cancelled }) (r := outer .running false 9) (d := { def1 false with id := 9 }) (s := sys2) rfl rfl rfl rfl
  (by decide) rfl rfl rfl rfl rfl (by decide) rfl (.inl rfl) (by
    intro r hr _ _
    simp only [sys2, List.mem_cons, List.not_mem_nil, or_false] at hr
    rcases hr with rfl | rfl
    · exact ⟨fun _ => ⟨sub, rfl⟩, fun h => absurd h (by decide)⟩
    · exact ⟨fun h => absurd rfl h, fun _ _ => ⟨_, rfl⟩⟩)

def handle (m : Msg) (s : Sys) : Sys := match coordinatorHandler cfg 5 m with | some p => (p.exec s).2 | none => s
def show1 : Msg → String × Nat
  | .job j => ("job", j.id)
  | .task q t => (q, t.id)
  | _ => ("", 0)
example : (handle (.job { job with state := .cancelled }) sys2).out.map show1 = [("job", 9)] := by decide +kernel
example : (handle (.job { sub with state := .cancelled }) sys2).out.map show1 = [("job", 1), ("x-3", 30)] := by decide +kernel

/-- The same, but the sub-job has not been started yet: its message to be started is still on the way. -/
def sys3 : Sys := { next := 40, ds := { jobs := [job, { sub with state := .pending, position := 0 }], tasks := [outer .running false 9] } }
def step3 : Sys := handle (.job { sub with state := .cancelled }) (handle (.job { job with state := .cancelled }) sys3)
/-- **C16, defect.** Cancelling a job does not stop a sub-job that is not started yet: after both cancellations were handled
the sub-job is still PENDING, and when its start message is handled it starts, although the job that started it is CANCELLED. -/
theorem C16_pending_sub_defect :
    (step3.ds.job? 1).map (·.state) = some .cancelled ∧ (step3.ds.job? 9).map (·.state) = some .pending ∧
    ((handle (.job { sub with state := .pending, position := 0 }) step3).ds.job? 9).map (·.state) = some .scheduled ∧
    ((handle (.job { sub with state := .pending, position := 0 }) step3).out.map show1) = [("job", 9), ("job", 1), ("default", 40)] := by
  decide +kernel

end SubJobsEx

end Tork
