import Verif.Keeps
import Verif.SafeFinish
import Verif.Props.HostEnv
/-!
# C05, C06, C07, C20 — what the completion of a top-level task does

Fault-free, uninterrupted handling of a completion message; the complete effect is stated. (For all interleavings and
faults see `Props/Lifecycle.lean` and `Props/Context.lean`.)
-/

namespace Tork
open Prog

/-! ## Specification -/

/-- A task that can still be finished. -/
def Task.Finishable (u : Task) : Prop := u.state = .running ∨ u.state = .scheduled ∨ u.state = .skipped

/-- The task variables after `t` finished. -/
def JobContext.record (c : JobContext) (t : Task) : JobContext :=
  if t.result ≠ "" ∧ t.var ≠ "" then { c with tasks := mset c.tasks t.var t.result } else c

/-- The job row after one more top-level task `t` finished. -/
structure Advanced (t : Task) (j j' : Job) : Prop where
  position : j'.position = j.position + 1
  progress : j'.progress = round2 ((j.position : Rat) / (j.taskCount : Rat) * 100)
  context : j'.context = j.context.record t
  rest : j' = { j with position := j'.position, progress := j'.progress, context := j'.context }

/-- The task row after it finished. -/
def finishedRow (t u : Task) (at' : Nat) : Task :=
  { resave u with state := t.state, completedAt := some at', result := sanitizeString t.result }

/-- `x` is the task that runs definition `d` as number `pos` of job `jobID`: a new task with the given id, whose texts
are evaluated in `ctx`; if that evaluation fails it is created FAILED with the evaluation error. -/
def InstanceOf (C : Cfg) (ctx : JobContext) (d : Task) (id jobID pos : Nat) (x : Task) : Prop :=
  ∃ sd now, let d' := { d with id := id, jobID := jobID, state := .pending, position := pos, createdAt := some now }
    match evaluateTask (evaluateTemplate C.O ⟨ctx, none⟩ sd) d' with
    | (y, none) => x = y
    | (y, some e) => x = { y with error := e, state := .failed, failedAt := some now }

/-! ## Lemmas -/

theorem topLevelJobRow_eq (t : Task) (j : Job) : persistJob j (topLevelJobRow t j) =
    { j with position := j.position + 1, progress := round2 ((j.position : Rat) / (j.taskCount : Rat) * 100)
             context := j.context.record t } := by
  unfold topLevelJobRow JobContext.record
  simp only
  split <;> rfl

theorem topLevelTx_exec {t u : Task} {j : Job} {ds : DS} (hu : ds.task? t.id = some u) (hf : u.Finishable)
    (hj : ds.job? t.jobID = some j) :
    topLevelTx t ds = .ok ((), (ds.setTask t.id (finRow t u)).setJob t.jobID (topLevelJobRow t j)) := by
  unfold topLevelTx
  rw [updateTask_of hu (m := completeTaskRow t) (g := ()) (u := finRow t u) (by
    unfold completeTaskRow
    rw [if_neg (by intro h; rcases hf with hf | hf | hf <;> simp [hf] at h)]
    rfl)]
  simp only
  rw [updateJob'_of (by rw [job?_setTask]; exact hj)]

theorem instance_evalOrFail (C : Cfg) (ctx : JobContext) (sd now id jobID pos : Nat) (d : Task) :
    InstanceOf C ctx d id jobID pos (evalOrFail C ctx sd now (prepTask d id jobID pos now)) := by
  refine ⟨sd, now, ?_⟩
  simp only
  unfold evalOrFail prepTask
  split <;> rename_i h <;> rw [h]

theorem InstanceOf.fields {C : Cfg} {ctx : JobContext} {d x : Task} {id jobID pos : Nat} (h : InstanceOf C ctx d id jobID pos x) :
    x.id = id ∧ x.jobID = jobID ∧ x.position = pos ∧ x.parentID = d.parentID ∧ x.createdAt.isSome ∧
    (x.state = .pending ∨ x.state = .failed) := by
  obtain ⟨sd, now, h⟩ := h
  simp only at h
  generalize hd : ({ d with id := id, jobID := jobID, state := .pending, position := pos, createdAt := some now } : Task) = d' at h
  obtain ⟨hf, -⟩ := evaluateTask_frame (evaluateTemplate C.O ⟨ctx, none⟩ sd) d'
  rcases hev : evaluateTask (evaluateTemplate C.O ⟨ctx, none⟩ sd) d' with ⟨y, e⟩
  rw [hev] at h hf
  have hi : y.id = id := by rw [hf.id, ← hd]
  have hj : y.jobID = jobID := by rw [hf.jobID, ← hd]
  have hp : y.position = pos := by rw [hf.position, ← hd]
  have hpar : y.parentID = d.parentID := by rw [hf.parentID, ← hd]
  have hc : y.createdAt.isSome := by rw [hf.createdAt, ← hd]; rfl
  have hs : y.state = .pending := by rw [hf.state, ← hd]
  cases e with
  | none => simp only at h; subst h; exact ⟨hi, hj, hp, hpar, hc, .inl hs⟩
  | some e => simp only at h; subst h; exact ⟨hi, hj, hp, hpar, hc, .inr rfl⟩

/-- The database after the transaction of a top-level completion. -/
theorem topLevel_rows {t u : Task} {j : Job} {ds : DS} (hu : ds.task? t.id = some u) (hj : ds.job? t.jobID = some j)
    (ds' : DS) (hd : ds' = (ds.setTask t.id (finRow t u)).setJob t.jobID (topLevelJobRow t j)) :
    (∀ k, ds'.task? k = if k = t.id then some (persistTask u (finRow t u)) else ds.task? k) ∧
    (∀ k, ds'.job? k = if k = t.jobID then some (persistJob j (topLevelJobRow t j)) else ds.job? k) := by
  subst hd
  refine ⟨fun k => ?_, fun k => ?_⟩
  · rw [task?_setJob, task?_set_eq hu]
  · rw [job?_set_eq (by rw [job?_setTask]; exact hj), job?_setTask]

theorem finRow_eq {t u : Task} {now : Nat} : persistTask u (finRow { t with completedAt := some now } u) = finishedRow t u now := rfl

theorem finRow_eq' {t u : Task} {now : Nat} (h : t.completedAt = some now) : persistTask u (finRow t u) = finishedRow t u now := by
  unfold finRow; rw [h]; rfl

theorem topLevel_next_exec (C : Cfg) {t u d : Task} {j : Job} {s : Sys} {now : Nat} (hnow : t.completedAt = some now)
    (hu : s.ds.task? t.id = some u) (hf : u.Finishable) (hj : s.ds.job? t.jobID = some j)
    (hd : j.tasks[j.position]? = some d) (hfresh : s.ds.task? s.next = none) :
    ∃ (s' : Sys) (x : Task) (j' : Job), (completeTopLevelTask C t).exec s = (some none, s') ∧
      Advanced t j j' ∧ InstanceOf C j'.context d s.next t.jobID (j.position + 1) x ∧
      s'.out = s.out ++ [.task "pending" x] ∧
      (∀ k, s'.ds.job? k = if k = t.jobID then some j' else s.ds.job? k) ∧
      (∀ k, s'.ds.task? k = if k = t.id then some (finishedRow t u now) else
        if k = s.next then some (taskRow x) else s.ds.task? k) := by
  let j' : Job := persistJob j (topLevelJobRow t j)
  let ds1 := (s.ds.setTask t.id (finRow t u)).setJob t.jobID (topLevelJobRow t j)
  let s1 := s.withDs ds1
  let x := evalOrFail C j'.context s1.ticked.drawn.clock s1.clock (prepTask d s.next t.jobID (j.position + 1) s1.clock)
  obtain ⟨hT, hJ⟩ := topLevel_rows (t := t) hu hj ds1 rfl
  have hne : s.next ≠ t.id := by intro h; rw [h, hu] at hfresh; cases hfresh
  have hadv : Advanced t j j' := by
    show Advanced t j (persistJob j (topLevelJobRow t j))
    rw [topLevelJobRow_eq]
    exact ⟨rfl, rfl, rfl, rfl⟩
  have hinst : InstanceOf C j'.context d s.next t.jobID (j.position + 1) x := instance_evalOrFail ..
  obtain ⟨hxid, hxj, _, _, hxc, _⟩ := hinst.fields
  have hcreate : createTask x ds1 = .ok ((), { ds1 with tasks := ds1.tasks ++ [taskRow x] }) := by
    refine createTask_of ?_ ?_ hxc
    · rw [hxid, hT, if_neg hne]; exact hfresh
    · rw [hxj, hJ, if_pos rfl]; rfl
  let s' := ((s1.ticked.drawn.ticked).withDs { ds1 with tasks := ds1.tasks ++ [taskRow x] }).send [.task QUEUE_PENDING x]
  refine ⟨s', x, j', ?_, hadv, hinst, rfl, ?_, ?_⟩
  · unfold completeTopLevelTask
    simp only [bind_eq, pure_eq]
    rw [exec_tx (s := s) (topLevelTx_exec (t := t) hu hf hj)]
    simp only
    show Prog.exec _ s1 = _
    rw [exec_read (s := s1) (getJob_of (j := j') (by show ds1.job? t.jobID = _; rw [hJ, if_pos rfl]))]
    simp only
    rw [exec_now]
    have hpos : j'.position = j.position + 1 := hadv.position
    have htasks : j'.tasks = j.tasks := by rw [hadv.rest]
    have hid : j'.id = t.jobID := by rw [hadv.rest]; exact (job?_mem hj).2
    have hlt : j.position < j.tasks.length := (List.getElem?_eq_some_iff.1 hd).1
    rw [if_pos (by rw [hpos, htasks]; exact hlt), if_neg (by rw [hpos]; exact Nat.succ_ne_zero _)]
    have hget : j'.tasks[j'.position - 1]? = some d := by rw [hpos, htasks]; exact hd
    rw [hget]
    simp only
    rw [exec_uuid, exec_seed, hid, hpos]
    show Prog.exec ((tx (createTask x)).bind _) _ = _
    rw [exec_tx (s := s1.ticked.drawn.ticked) hcreate]
    simp only
    rw [exec_pub, exec_ret]
    rfl
  · intro k
    exact hJ k
  · intro k
    show DS.task? { ds1 with tasks := ds1.tasks ++ [taskRow x] } k = _
    rw [task?_append, hT]
    by_cases hk : k = t.id
    · rw [if_pos hk, if_pos hk, finRow_eq' hnow]; rfl
    · rw [if_neg hk, if_neg hk]
      have e1 : (taskRow x).id = s.next := hxid
      by_cases hk2 : k = s.next
      · rw [if_pos hk2, hk2, hfresh, Option.none_or, if_pos e1]
      · rw [if_neg hk2, if_neg (by rw [e1]; exact Ne.symm hk2)]
        cases s.ds.task? k <;> rfl

/-- **C05.** Handling the completion (or skipping) of a top-level task of a job that has a next task: the task's row is
finished, the job's position moves by one, its progress and context are updated, exactly one new task row is created,
an instance of the next task of the job's list evaluated in the *new* context, and exactly one message is sent: that new
task, to the scheduling queue. Nothing else changes. -/
theorem C05_next_task (C : Cfg) (fuel : Nat) {t u d : Task} {j : Job} {s : Sys}
    (hst : t.state = .completed ∨ t.state = .skipped) (htop : t.parentID = 0)
    (hu : s.ds.task? t.id = some u) (hf : u.Finishable) (hj : s.ds.job? t.jobID = some j)
    (hd : j.tasks[j.position]? = some d) (hfresh : s.ds.task? s.next = none) :
    ∃ (p : Prog Res) (s' : Sys) (x : Task) (j' : Job) (now : Nat),
      coordinatorHandler C (fuel + 1) (.task "completed" t) = some p ∧ p.exec s = (some none, s') ∧
      Advanced t j j' ∧ InstanceOf C j'.context d s.next t.jobID (j.position + 1) x ∧
      s'.out = s.out ++ [.task "pending" x] ∧
      (∀ k, s'.ds.job? k = if k = t.jobID then some j' else s.ds.job? k) ∧
      (∀ k, s'.ds.task? k = if k = t.id then some (finishedRow t u now) else
        if k = s.next then some (taskRow x) else s.ds.task? k) := by
  obtain ⟨s', x, j', h1, h2, h3, h4, h5, h6⟩ := topLevel_next_exec C (t := { t with completedAt := some s.clock }) (s := s.ticked)
    rfl hu hf hj hd hfresh
  refine ⟨_, s', x, j', s.clock, coord_completed C _ t, ?_, ⟨h2.position, h2.progress, h2.context, h2.rest⟩, h3, h4, h5, h6⟩
  refine wrapTask_ok (x := { t with completedAt := some s.clock }) ?_
  unfold completedHandler
  simp only [bind_eq, pure_eq]
  rw [exec_now, if_neg (by rcases hst with h | h <;> simp [h])]
  refine exec_bind_of (b := none) ?_
  rw [completeTask, if_neg (by simp [htop])]
  exact h1

/-! ## The end of a job -/

/-- The deletion time set on a job that completes at `now`: `auto_delete.after` later, if given and readable. -/
def deletionTime (C : Cfg) (j : Job) (now : Nat) : Option Nat :=
  match j.autoDelete with
  | some a => if a.after ≠ "" then (C.parseDur a.after).map (addDur now) else none
  | none => none

/-- `j'` is the row `j` completed with result `r`. -/
structure JobCompleted (C : Cfg) (j : Job) (r : String) (j' : Job) : Prop where
  state : j'.state = .completed
  result : j'.result = r
  completedAt : ∃ now, j'.completedAt = some now
  deleteAt : ∃ now, j'.deleteAt = (deletionTime C j now).or j.deleteAt
  rest : j' = { j with state := j'.state, result := j'.result, completedAt := j'.completedAt, deleteAt := j'.deleteAt }

/-- What `completeJob` leaves in hand. -/
theorem completeJobRow_exec {C : Cfg} {j a : Job} {sd now now2 : Nat} {r : String} (ha : a.state = .running ∨ a.state = .scheduled)
    (hr : evaluateTemplate C.O ⟨j.context, none⟩ sd j.output = .ok r) (hsame : a.autoDelete = j.autoDelete) :
    ∃ g u, completeJobRow C j sd now now2 a = .ok (g, u) ∧ JobCompleted C a r (persistJob a u) ∧
      g.state = .completed ∧ g.result = r ∧ g = { j with state := .completed, result := r, deleteAt := g.deleteAt } := by
  unfold completeJobRow
  rw [if_neg (by intro h; rcases ha with ha | ha <;> simp [ha] at h), hr]
  simp only
  cases hjd : j.autoDelete with
  | none =>
    rw [hjd] at hsame
    simp only
    exact ⟨_, _, rfl, ⟨rfl, rfl, ⟨_, rfl⟩, ⟨now2, by unfold deletionTime; rw [hsame]; rfl⟩, rfl⟩, rfl, rfl, rfl⟩
  | some ad =>
    rw [hjd] at hsame
    simp only
    by_cases haf : ad.after ≠ ""
    · rw [if_pos haf]
      cases hd : C.parseDur ad.after with
      | none =>
        exact ⟨_, _, rfl, ⟨rfl, rfl, ⟨_, rfl⟩, ⟨now2, by unfold deletionTime; rw [hsame]; simp only; rw [if_pos haf, hd]; rfl⟩, rfl⟩, rfl, rfl, rfl⟩
      | some d =>
        exact ⟨_, _, rfl, ⟨rfl, rfl, ⟨_, rfl⟩, ⟨now2, by unfold deletionTime; rw [hsame]; simp only; rw [if_pos haf, hd]; rfl⟩, rfl⟩, rfl, rfl, rfl⟩
    · rw [if_neg haf]
      exact ⟨_, _, rfl, ⟨rfl, rfl, ⟨_, rfl⟩, ⟨now2, by unfold deletionTime; rw [hsame]; simp only; rw [if_neg haf]; rfl⟩, rfl⟩, rfl, rfl, rfl⟩

/-- `completeJob` on a running job without a parent task. -/
theorem completeJob_exec_top {C : Cfg} {j a : Job} {s : Sys} (hj : s.ds.job? j.id = some a)
    (ha : a.state = .running ∨ a.state = .scheduled) (hsame : a.autoDelete = j.autoDelete) (hp : j.parentID = 0)
    (hout : ∀ sd, ∃ r, evaluateTemplate C.O ⟨j.context, none⟩ sd j.output = .ok r) :
    ∃ (sd : Nat) (r : String) (a' g : Job) (s' : Sys), evaluateTemplate C.O ⟨j.context, none⟩ sd j.output = .ok r ∧
      JobCompleted C a r a' ∧ (completeJob C j).exec s = (some (none, g), s') ∧
      g.state = .completed ∧ g.result = r ∧ g = { j with state := .completed, result := r, deleteAt := g.deleteAt } ∧
      s'.out = s.out ++ [.event "job.completed" g] ∧ s'.ds.tasks = s.ds.tasks ∧ s'.ds.nodes = s.ds.nodes ∧ s'.next = s.next ∧
      (∀ k, s'.ds.job? k = if k = j.id then some a' else s.ds.job? k) := by
  obtain ⟨r, hr⟩ := hout s.ticked.clock
  obtain ⟨g, u, h1, h2, h3, h4, h5⟩ := completeJobRow_exec (now := s.clock) (now2 := s.ticked.ticked.clock) ha hr hsame
  let s' := (s.ticked.ticked.ticked.withDs (s.ds.setJob j.id u)).send [.event TOPIC_JOB_COMPLETED g]
  refine ⟨_, r, persistJob a u, g, s', hr, h2, ?_, h3, h4, h5, rfl, rfl, rfl, rfl, fun k => job?_set_eq hj k⟩
  unfold completeJob
  simp only [bind_eq, pure_eq]
  rw [exec_now, exec_seed, exec_now, exec_tx (s := s.ticked.ticked.ticked) (updateJob_of hj h1)]
  simp only
  have hgp : g.parentID = 0 := by rw [h5]; exact hp
  rw [if_neg (by simp [hgp]), if_neg (by rw [h3]; decide)]
  rw [exec_pub, exec_ret]
  rfl

/-- `completeJob` on a running sub-job whose parent task is known. -/
theorem completeJob_exec_sub {C : Cfg} {j a : Job} {pt : Task} {s : Sys} (hj : s.ds.job? j.id = some a)
    (ha : a.state = .running ∨ a.state = .scheduled) (hsame : a.autoDelete = j.autoDelete) (hp : j.parentID ≠ 0)
    (hpt : s.ds.task? j.parentID = some pt)
    (hout : ∀ sd, ∃ r, evaluateTemplate C.O ⟨j.context, none⟩ sd j.output = .ok r) :
    ∃ (sd : Nat) (r : String) (a' g : Job) (s' : Sys) (now : Nat), evaluateTemplate C.O ⟨j.context, none⟩ sd j.output = .ok r ∧
      JobCompleted C a r a' ∧ (completeJob C j).exec s = (some (none, g), s') ∧
      s'.out = s.out ++ [.task "completed" { pt with state := .completed, completedAt := some now, result := r }] ∧
      s'.ds.tasks = s.ds.tasks ∧ s'.ds.nodes = s.ds.nodes ∧ s'.next = s.next ∧
      (∀ k, s'.ds.job? k = if k = j.id then some a' else s.ds.job? k) := by
  obtain ⟨r, hr⟩ := hout s.ticked.clock
  obtain ⟨g, u, h1, h2, h3, h4, h5⟩ := completeJobRow_exec (now := s.clock) (now2 := s.ticked.ticked.clock) ha hr hsame
  let s1 := s.ticked.ticked.ticked.withDs (s.ds.setJob j.id u)
  let s' := s1.ticked.send [.task QUEUE_COMPLETED { pt with state := .completed, completedAt := some s1.clock, result := r }]
  refine ⟨_, r, persistJob a u, g, s', s1.clock, hr, h2, ?_, rfl, rfl, rfl, rfl, fun k => job?_set_eq hj k⟩
  unfold completeJob
  simp only [bind_eq, pure_eq]
  rw [exec_now, exec_seed, exec_now, exec_tx (s := s.ticked.ticked.ticked) (updateJob_of hj h1)]
  simp only
  have hgp : g.parentID = j.parentID := by rw [h5]
  rw [if_pos (by rw [hgp]; exact hp)]
  show Prog.exec _ s1 = _
  rw [hgp, exec_read (s := s1) (getTask_of (t := pt) hpt)]
  simp only
  rw [exec_now, if_neg (by rw [h3]; decide), h4]
  rw [exec_pub, exec_ret]

/-- The message that tells the outside world that job `j` (row before: `j`) completed with result `r`. -/
def EndNotice (ds : DS) (j : Job) (r : String) (m : Msg) : Prop :=
  (j.parentID = 0 ∧ ∃ g : Job, m = .event "job.completed" g ∧ g.id = j.id ∧ g.state = .completed ∧ g.result = r) ∨
  (j.parentID ≠ 0 ∧ ∃ pt now, ds.task? j.parentID = some pt ∧
    m = .task "completed" { pt with state := .completed, completedAt := some now, result := r })

theorem topLevel_last_exec (C : Cfg) {t u : Task} {j : Job} {s : Sys} {now : Nat} (hnow : t.completedAt = some now)
    (hu : s.ds.task? t.id = some u) (hf : u.Finishable) (hj : s.ds.job? t.jobID = some j)
    (hrun : j.state = .running ∨ j.state = .scheduled) (hlast : j.tasks.length ≤ j.position)
    (hpar : j.parentID ≠ 0 → ∃ pt, s.ds.task? j.parentID = some pt ∧ j.parentID ≠ t.id)
    (hout : ∀ sd, ∃ r, evaluateTemplate C.O ⟨j.context.record t, none⟩ sd j.output = .ok r) :
    ∃ (s' : Sys) (j1 j' : Job) (sd : Nat) (r : String) (m : Msg), (completeTopLevelTask C t).exec s = (some none, s') ∧
      evaluateTemplate C.O ⟨j.context.record t, none⟩ sd j.output = .ok r ∧
      Advanced t j j1 ∧ JobCompleted C j1 r j' ∧ EndNotice s.ds j r m ∧ s'.out = s.out ++ [m] ∧
      (∀ k, s'.ds.job? k = if k = t.jobID then some j' else s.ds.job? k) ∧
      (∀ k, s'.ds.task? k = if k = t.id then some (finishedRow t u now) else s.ds.task? k) := by
  let j1 : Job := persistJob j (topLevelJobRow t j)
  let ds1 := (s.ds.setTask t.id (finRow t u)).setJob t.jobID (topLevelJobRow t j)
  let s1 := s.withDs ds1
  obtain ⟨hT, hJ⟩ := topLevel_rows (t := t) hu hj ds1 rfl
  have hadv : Advanced t j j1 := by
    show Advanced t j (persistJob j (topLevelJobRow t j))
    rw [topLevelJobRow_eq]
    exact ⟨rfl, rfl, rfl, rfl⟩
  have hpos : j1.position = j.position + 1 := hadv.position
  have htasks : j1.tasks = j.tasks := by rw [hadv.rest]
  have hid : j1.id = t.jobID := by rw [hadv.rest]; exact (job?_mem hj).2
  have hp1 : j1.parentID = j.parentID := by rw [hadv.rest]
  have hs1 : j1.state = j.state := by rw [hadv.rest]
  have ho1 : j1.output = j.output := by rw [hadv.rest]
  let jc : Job := { j1 with state := .completed, completedAt := some s1.clock }
  have hjc : s1.ticked.ds.job? jc.id = some j1 := by
    show ds1.job? j1.id = _
    rw [hid, hJ, if_pos rfl]
  have hout' : ∀ sd, ∃ r, evaluateTemplate C.O ⟨jc.context, none⟩ sd jc.output = .ok r := by
    intro sd
    show ∃ r, evaluateTemplate C.O ⟨j1.context, none⟩ sd j1.output = .ok r
    rw [hadv.context, ho1]; exact hout sd
  have handler : ∀ (g : Job) (s' : Sys), (completeJob C jc).exec s1.ticked = (some (none, g), s') →
      (completeTopLevelTask C t).exec s = (some none, s') := by
    intro g s' hx
    unfold completeTopLevelTask
    simp only [bind_eq, pure_eq]
    rw [exec_tx (s := s) (topLevelTx_exec (t := t) hu hf hj)]
    simp only
    show Prog.exec _ s1 = _
    rw [exec_read (s := s1) (getJob_of (j := j1) (by show ds1.job? t.jobID = _; rw [hJ, if_pos rfl]))]
    simp only
    rw [exec_now]
    rw [if_neg (by rw [hpos, htasks]; omega)]
    rw [exec_bind_of hx]
    rfl
  have hjobs : ∀ {s' : Sys} {a' : Job}, (∀ k, s'.ds.job? k = if k = jc.id then some a' else s1.ticked.ds.job? k) →
      ∀ k, s'.ds.job? k = if k = t.jobID then some a' else s.ds.job? k := by
    intro s' a' h k
    rw [h]
    have e : jc.id = t.jobID := hid
    rw [e]
    by_cases hk : k = t.jobID
    · rw [if_pos hk, if_pos hk]
    · rw [if_neg hk, if_neg hk]
      show ds1.job? k = _
      rw [hJ, if_neg hk]
  have htsk : ∀ {s' : Sys}, s'.ds.tasks = s1.ticked.ds.tasks →
      ∀ k, s'.ds.task? k = if k = t.id then some (finishedRow t u now) else s.ds.task? k := by
    intro s' h k
    unfold DS.task? at *
    rw [h, ← finRow_eq' hnow]
    exact hT k
  by_cases hp : j.parentID = 0
  · obtain ⟨sd, r, a', g, s', h1, h2, h3, h4, h5, h6, h7, h8, _, _, h9⟩ :=
      completeJob_exec_top (C := C) hjc (by rw [hs1]; exact hrun) rfl (by show j1.parentID = 0; rw [hp1]; exact hp) hout'
    refine ⟨s', j1, a', sd, r, _, handler g s' h3, ?_, hadv, h2, .inl ⟨hp, g, rfl, ?_, h4, h5⟩,
      h7, hjobs h9, htsk h8⟩
    · have h1 : evaluateTemplate C.O ⟨j1.context, none⟩ sd j1.output = .ok r := h1
      rw [hadv.context, ho1] at h1; exact h1
    · rw [h6]; show j1.id = j.id; rw [hid]; exact (job?_mem hj).2.symm
  · obtain ⟨pt, hpt, hptne⟩ := hpar hp
    obtain ⟨sd, r, a', g, s', now', h1, h2, h3, h7, h8, _, _, h9⟩ :=
      completeJob_exec_sub (C := C) (pt := pt) hjc (by rw [hs1]; exact hrun) rfl (by show j1.parentID ≠ 0; rw [hp1]; exact hp)
        (by show ds1.task? j1.parentID = _; rw [hp1, hT, if_neg hptne]; exact hpt) hout'
    refine ⟨s', j1, a', sd, r, _, handler g s' h3, ?_, hadv, h2, .inr ⟨hp, pt, now', hpt, rfl⟩,
      h7, hjobs h9, htsk h8⟩
    have h1 : evaluateTemplate C.O ⟨j1.context, none⟩ sd j1.output = .ok r := h1
    rw [hadv.context, ho1] at h1; exact h1

/-- **C06 / C16.** Handling the completion of the *last* top-level task of a RUNNING or SCHEDULED job whose output can be
evaluated: the task's row is finished; the job's row moves past the last task and becomes COMPLETED with the evaluated
output as result (and, with `auto_delete.after`, a deletion time); no task is created; exactly one message is sent: the
event `job.completed` for a top-level job, or, for a sub-job, the completion of the parent task with the sub-job's
result. -/
theorem C06_last_task (C : Cfg) (fuel : Nat) {t u : Task} {j : Job} {s : Sys}
    (hst : t.state = .completed ∨ t.state = .skipped) (htop : t.parentID = 0)
    (hu : s.ds.task? t.id = some u) (hf : u.Finishable) (hj : s.ds.job? t.jobID = some j)
    (hrun : j.state = .running ∨ j.state = .scheduled) (hlast : j.tasks.length ≤ j.position)
    (hpar : j.parentID ≠ 0 → ∃ pt, s.ds.task? j.parentID = some pt ∧ j.parentID ≠ t.id)
    (hout : ∀ sd, ∃ r, evaluateTemplate C.O ⟨j.context.record t, none⟩ sd j.output = .ok r) :
    ∃ (p : Prog Res) (s' : Sys) (j1 j' : Job) (now sd : Nat) (r : String) (m : Msg),
      coordinatorHandler C (fuel + 1) (.task "completed" t) = some p ∧ p.exec s = (some none, s') ∧
      evaluateTemplate C.O ⟨j.context.record t, none⟩ sd j.output = .ok r ∧
      Advanced t j j1 ∧ JobCompleted C j1 r j' ∧ EndNotice s.ds j r m ∧ s'.out = s.out ++ [m] ∧
      (∀ k, s'.ds.job? k = if k = t.jobID then some j' else s.ds.job? k) ∧
      (∀ k, s'.ds.task? k = if k = t.id then some (finishedRow t u now) else s.ds.task? k) := by
  obtain ⟨s', j1, j', sd, r, m, h1, h2, h3, h4, h5, h6, h7, h8⟩ := topLevel_last_exec C (t := { t with completedAt := some s.clock })
    (s := s.ticked) rfl hu hf hj hrun hlast hpar hout
  refine ⟨_, s', j1, j', s.clock, sd, r, m, coord_completed C _ t, ?_, h2, ⟨h3.position, h3.progress, h3.context, h3.rest⟩, h4, h5, h6, h7, h8⟩
  refine wrapTask_ok (x := { t with completedAt := some s.clock }) ?_
  unfold completedHandler
  simp only [bind_eq, pure_eq]
  rw [exec_now, if_neg (by rcases hst with h | h <;> simp [h])]
  refine exec_bind_of (b := none) ?_
  rw [completeTask, if_neg (by simp [htop])]
  exact h1

end Tork
