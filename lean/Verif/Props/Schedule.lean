import Verif.CoordExec
import Verif.Trim
import Verif.Trace
import Verif.Props.Retry
/-!
# C15, C17 — conditional tasks and job defaults
-/

namespace Tork
open Prog

/-! ## Specification -/

/-- The task's own text, or the default when it is empty. -/
def ownOr (own dflt : String) : String := if own = "" then dflt else own

def Task.cpus (t : Task) : String := match t.limits with | some l => l.cpus | none => ""
def Task.memory (t : Task) : String := match t.limits with | some l => l.memory | none => ""
def Task.retryLimit (t : Task) : Nat := match t.retry with | some r => r.limit | none => 0
def Task.attempts (t : Task) : Nat := match t.retry with | some r => r.attempts | none => 0
def Job.dCpus (j : Job) : String := match j.defaults with | some d => (match d.limits with | some l => l.cpus | none => "") | none => ""
def Job.dMemory (j : Job) : String := match j.defaults with | some d => (match d.limits with | some l => l.memory | none => "") | none => ""
def Job.dTimeout (j : Job) : String := match j.defaults with | some d => d.timeout | none => ""
def Job.dRetry (j : Job) : Nat := match j.defaults with | some d => (match d.retry with | some r => r.limit | none => 0) | none => 0
def Job.dPriority (j : Job) : Nat := match j.defaults with | some d => d.priority | none => 0
def Job.dQueue (j : Job) : String := match j.defaults with | some d => d.queue | none => ""

/-- `x` is `t` with its settings completed by the defaults of `j`; nothing else differs except the state and the
scheduling time. -/
structure Scheduled (j : Job) (t x : Task) (now : Nat) : Prop where
  queue : x.queue = ownOr t.queue (ownOr j.dQueue "default")
  cpus : x.cpus = ownOr t.cpus j.dCpus
  memory : x.memory = ownOr t.memory j.dMemory
  timeout : x.timeout = ownOr t.timeout j.dTimeout
  retryLimit : x.retryLimit = if t.retryLimit = 0 then j.dRetry else t.retryLimit
  attempts : x.attempts = t.attempts
  priority : x.priority = if t.priority = 0 then j.dPriority else t.priority
  state : x.state = .scheduled
  scheduledAt : x.scheduledAt = some now
  rest : ∃ limits retry, x = { t with
    queue := x.queue, limits := limits, timeout := x.timeout, retry := retry, priority := x.priority
    state := .scheduled, scheduledAt := some now }

/-- A task that is neither a parallel, an each nor a sub-job task. -/
def Task.Regular (t : Task) : Prop := t.parallel = none ∧ t.each = none ∧ t.subJob = none

/-! ## Defaults -/

theorem ownOr_own {a b : String} (h : a ≠ "") : ownOr a b = a := if_neg h
theorem ownOr_empty (b : String) : ownOr "" b = b := rfl

theorem defQueue_eq (q : String) (t : Task) : defQueue q t = { t with queue := ownOr t.queue q } := by
  unfold defQueue ownOr; split <;> cases t <;> simp_all
theorem defTimeout_eq (d : String) (t : Task) : defTimeout d t = { t with timeout := ownOr t.timeout d } := by
  unfold defTimeout ownOr; split <;> cases t <;> simp_all
theorem defPriority_eq (p : Nat) (t : Task) : defPriority p t = { t with priority := if t.priority = 0 then p else t.priority } := by
  unfold defPriority; split <;> cases t <;> simp_all
theorem defLimits_eq (dl : Option TaskLimits) (t : Task) : ∃ l, defLimits dl t = { t with limits := l } ∧
    (match l with | some l => l.cpus | none => "") = ownOr t.cpus (match dl with | some l => l.cpus | none => "") ∧
    (match l with | some l => l.memory | none => "") = ownOr t.memory (match dl with | some l => l.memory | none => "") := by
  cases dl with
  | none =>
    refine ⟨t.limits, by cases t; rfl, ?_, ?_⟩
    · unfold ownOr Task.cpus; cases t.limits <;> simp
    · unfold ownOr Task.memory; cases t.limits <;> simp
  | some d =>
    refine ⟨_, rfl, ?_, ?_⟩
    · unfold ownOr Task.cpus
      cases t.limits with
      | none => simp
      | some l => by_cases h1 : l.cpus = "" <;> by_cases h2 : l.memory = "" <;> simp [h1, h2]
    · unfold ownOr Task.memory
      cases t.limits with
      | none => simp
      | some l => by_cases h1 : l.cpus = "" <;> by_cases h2 : l.memory = "" <;> simp [h1, h2]
theorem defRetry_eq (dr : Option TaskRetry) (t : Task) : ∃ r, defRetry dr t = { t with retry := r } ∧
    (match r with | some r => r.limit | none => 0) =
      (if t.retryLimit = 0 then (match dr with | some r => r.limit | none => 0) else t.retryLimit) ∧
    (match r with | some r => r.attempts | none => 0) = t.attempts := by
  cases dr with
  | none =>
    refine ⟨t.retry, by cases t; rfl, ?_, ?_⟩
    · unfold Task.retryLimit; cases t.retry <;> simp
    · rfl
  | some d =>
    refine ⟨_, rfl, ?_, ?_⟩
    · unfold Task.retryLimit
      cases t.retry with
      | none => simp
      | some l => simp; split <;> simp_all
    · unfold Task.attempts
      cases t.retry with
      | none => simp
      | some l => simp; split <;> simp_all

theorem scheduled_applyDefaults (j : Job) (t : Task) (now : Nat) :
    Scheduled j t { applyDefaults j.defaults t with state := .scheduled, scheduledAt := some now } now := by
  cases hd : j.defaults with
  | none =>
    refine ⟨?_, ?_, ?_, ?_, ?_, ?_, ?_, rfl, rfl, ?_⟩ <;>
      simp only [applyDefaults, defQueue, Task.cpus, Task.memory, Task.retryLimit, Task.attempts, Job.dCpus, Job.dMemory,
        Job.dTimeout, Job.dRetry, Job.dPriority, Job.dQueue, hd, ownOr, QUEUE_DEFAULT] <;> by_cases hq : t.queue = "" <;>
      simp [hq] <;> try (split <;> simp_all)
    all_goals exact ⟨_, _, rfl⟩
  | some d =>
    obtain ⟨l, hl1, hl2, hl3⟩ := defLimits_eq d.limits (defQueue d.queue t)
    obtain ⟨r, hr1, hr2, hr3⟩ := defRetry_eq d.retry (defTimeout d.timeout (defLimits d.limits (defQueue d.queue t)))
    have he : applyDefaults (some d) t = { t with
        queue := ownOr (ownOr t.queue d.queue) "default", limits := l, retry := r, timeout := ownOr t.timeout d.timeout
        priority := if t.priority = 0 then d.priority else t.priority } := by
      unfold applyDefaults
      simp only
      rw [hr1, hl1]
      simp only [defQueue_eq, defTimeout_eq, defPriority_eq, QUEUE_DEFAULT]
    rw [he]
    refine ⟨?_, ?_, ?_, ?_, ?_, ?_, ?_, rfl, rfl, ⟨_, _, rfl⟩⟩
    · simp only [Job.dQueue, hd]
      unfold ownOr
      by_cases h1 : t.queue = "" <;> simp [h1]
    · simp only [Job.dCpus, hd, Task.cpus]
      rw [hl2, Task.cpus, defQueue_eq]
    · simp only [Job.dMemory, hd, Task.memory]
      rw [hl3, Task.memory, defQueue_eq]
    · simp only [Job.dTimeout, hd]
    · simp only [Job.dRetry, hd, Task.retryLimit]
      rw [hr2, hl1, defQueue_eq, defTimeout_eq]; rfl
    · simp only [Task.attempts]
      rw [hr3, hl1, defQueue_eq, defTimeout_eq]; rfl
    · simp only [Job.dPriority, hd]

/-- The row of a task after it was scheduled: the settings of `x`, all else as before. -/
def scheduledRow (u x : Task) : Task :=
  { resave u with state := .scheduled, scheduledAt := x.scheduledAt, queue := x.queue, limits := x.limits
                  timeout := x.timeout, retry := x.retry, priority := x.priority }

/-- **C17.** Handling a PENDING regular task whose condition is not false: its row becomes SCHEDULED with the task's own
queue, limits, timeout, retry limit and priority where set and the job's defaults where not (queue `default` if neither);
a task with exactly these settings is sent to exactly that queue; nothing else is sent and no other row changes. -/
theorem C17_scheduled_with_defaults (C : Cfg) (fuel : Nat) {t u : Task} {j : Job} {s : Sys}
    (hreg : t.Regular) (hcond : ¬ IsFalse t.cond)
    (hj : s.ds.job? t.jobID = some j) (hu : s.ds.task? t.id = some u) :
    ∃ (p : Prog Res) (s' : Sys) (x : Task) (now : Nat),
      coordinatorHandler C fuel (.task "pending" t) = some p ∧ p.exec s = (some none, s') ∧
      Scheduled j t x now ∧
      s'.out = s.out ++ [.task x.queue x] ∧
      s'.ds.jobs = s.ds.jobs ∧
      (∀ k, s'.ds.task? k = if k = t.id then some (scheduledRow u x) else s.ds.task? k) := by
  obtain ⟨h1, h2, h3⟩ := hreg
  let x : Task := { applyDefaults j.defaults t with state := .scheduled, scheduledAt := some s.clock }
  have hsch : Scheduled j t x s.clock := scheduled_applyDefaults j t s.clock
  have hid : x.id = t.id := by obtain ⟨_, _, h⟩ := hsch.rest; rw [h]
  let s' := (s.ticked.withDs (s.ds.setTask t.id (scheduleRow x u))).send [.task x.queue x]
  refine ⟨_, s', x, s.clock, coord_pending C fuel t, ?_, hsch, rfl, rfl, ?_⟩
  · refine wrapTask_ok (x := x) ?_
    unfold pendingHandler
    rw [if_neg (by rw [trim_false]; exact hcond)]
    unfold scheduleTask
    rw [h1]; simp only; rw [h2]; simp only; rw [h3]; simp only
    unfold scheduleRegularTask
    simp only [bind_eq, pure_eq]
    rw [exec_now, exec_read (s := s.ticked) (getJob_of hj)]
    simp only
    rw [exec_tx (s := s.ticked) (updateTask'_of (t := u) (by
      show s.ds.task? x.id = some u; rw [hid]; exact hu))]
    simp only
    rw [exec_pub, exec_ret]
    simp only [s', ← hid]
    rfl
  · intro k
    show (s.ds.setTask t.id (scheduleRow x u)).task? k = _
    rw [task?_setTask]
    by_cases hk : k = t.id
    · rw [if_pos hk, if_pos hk, hk, hu]; rfl
    · rw [if_neg hk, if_neg hk]

/-- **C15 (false).** Handling a PENDING task of any kind whose condition is the word false up to surrounding
whitespace: its row becomes SKIPPED, exactly one message is sent, the SKIPPED task to the completion queue; no other row
changes, no task and no job is created. -/
theorem C15_skipped (C : Cfg) (fuel : Nat) {t u : Task} {s : Sys} (hcond : IsFalse t.cond)
    (hu : s.ds.task? t.id = some u) :
    ∃ (p : Prog Res) (s' : Sys) (now : Nat),
      coordinatorHandler C fuel (.task "pending" t) = some p ∧ p.exec s = (some none, s') ∧
      s'.out = s.out ++ [.task "completed" { t with state := .skipped, scheduledAt := some now, startedAt := some now
                                                    completedAt := some now }] ∧
      s'.ds.jobs = s.ds.jobs ∧
      (∀ k, s'.ds.task? k = if k = t.id then
        some { resave u with state := .skipped, scheduledAt := some now, startedAt := some now } else s.ds.task? k) := by
  let x : Task := { t with state := .skipped, scheduledAt := some s.clock, startedAt := some s.clock
                           completedAt := some s.clock }
  let f : Task → Task := fun u => { u with state := x.state, scheduledAt := x.scheduledAt, startedAt := x.startedAt }
  let s' := (s.ticked.withDs (s.ds.setTask t.id (f u))).send [.task QUEUE_COMPLETED x]
  refine ⟨_, s', s.clock, coord_pending C fuel t, ?_, rfl, rfl, ?_⟩
  · refine wrapTask_ok (x := x) ?_
    unfold pendingHandler
    rw [if_pos (by rw [trim_false]; exact hcond)]
    unfold skipTask
    simp only [bind_eq, pure_eq]
    rw [exec_now, exec_tx (s := s.ticked) (updateTask'_of (t := u) hu)]
    simp only
    rw [exec_pub, exec_ret]
    rfl
  · intro k
    show (s.ds.setTask t.id (f u)).task? k = _
    rw [task?_setTask]
    by_cases hk : k = t.id
    · rw [if_pos hk, if_pos hk, hk, hu]; rfl
    · rw [if_neg hk, if_neg hk]

/-- **C15 (every run).** Whatever fails and whatever happens concurrently, the handling of a task whose condition is
false creates no task and sends nothing but the SKIPPED task to the completion queue; in particular nothing to a work
queue. -/
theorem C15_skipped_every_run (C : Cfg) {t : Task} {l : List Ev} {q : Prog (Res × Task)} (hcond : IsFalse t.cond)
    (h : Run (pendingHandler C t) l q) :
    created l = [] ∧ (published l).length ≤ 1 ∧
    ∀ m ∈ published l, ∃ x, m = .task "completed" x ∧ x.state = .skipped ∧ x.id = t.id ∧ x.jobID = t.jobID := by
  have key : Every sum2 (fun s _ => s.2 = [] ∧ s.1.length ≤ 1 ∧
      ∀ m ∈ s.1, ∃ x, m = .task "completed" x ∧ x.state = .skipped ∧ x.id = t.id ∧ x.jobID = t.jobID)
      (pendingHandler C t) ([], []) := by
    unfold pendingHandler
    rw [if_pos (by rw [trim_false]; exact hcond)]
    unfold skipTask
    simp only [bind_eq, pure_eq]
    refine every_now quiet_sum2 (by simp) fun now => ?_
    refine every2_updTask' (by simp) fun r => ?_
    cases r with
    | error e => simp [Every]
    | ok x =>
      refine every2_pub (by simp) (fun r => ?_) (fun e => by simp [Every])
      cases r <;> refine ⟨rfl, by simp, fun m hm => ?_⟩ <;>
      · simp only [List.nil_append, List.mem_singleton] at hm
        exact ⟨_, hm, rfl, rfl, rfl⟩
  exact (run_sum2 key h : _ ∧ _)

/-! Under faults, the wrapper around every handler reports an error of the handler as a failure of the task. -/

/-- No task of the given state was sent. -/
def NotSent (st : TaskState) (s : Sum2) : Prop := ∀ q x, Msg.task q x ∈ s.1 → x.state ≠ st

theorem notSent_pub {st : TaskState} {s : Sum2} {ds : DS} {m : Msg} (hm : ∀ q x, m = .task q x → x.state ≠ st)
    (h : NotSent st s) : NotSent st (sum2 s ⟨ds, ds, [m]⟩) := fun q x hx => by
  simp only [sum2, List.mem_append, List.mem_singleton] at hx
  exact hx.elim (h q x) fun hx => hm q x hx.symm

theorem notSent_tx {st : TaskState} {s : Sum2} {ds ds' : DS} (h : NotSent st s) : NotSent st (sum2 s ⟨ds, ds', []⟩) :=
  fun q x hx => by
    simp only [sum2, List.append_nil] at hx
    exact h q x hx

theorem cancelLoop_notSent {st : TaskState} (h1 : st ≠ .cancelled) (ts : List Task) :
    Preserves sum2 (NotSent st) (cancelLoop ts) := by
  induction ts with
  | nil => rw [cancelLoop]; trivial
  | cons t ts ih =>
    rw [cancelLoop]
    simp only [bind_eq, pure_eq]
    refine inv_tx quiet_sum2 (fun s ds x ds' hg hs => notSent_tx hs) fun r => ?_
    cases r with
    | error e => trivial
    | ok x =>
      dsimp only
      split
      · refine inv_read quiet_sum2 (read_getJob _) fun r => ?_
        cases r with
        | error e => trivial
        | ok sj =>
          refine inv_pub (fun s ds hs => notSent_pub (fun q rt h => by cases h) hs) fun r => ?_
          cases r <;> first | trivial | exact ih
      · split
        · refine inv_read quiet_sum2 (read_getNode _) fun r => ?_
          cases r with
          | error e => trivial
          | ok n =>
            refine inv_pub (fun s ds hs => notSent_pub (fun q rt h => by cases h; exact Ne.symm h1) hs) fun r => ?_
            cases r <;> first | trivial | exact ih
        · exact ih

theorem failJob_notSent {st : TaskState} (h1 : st ≠ .cancelled) (h2 : st ≠ .failed) (j : Job) :
    Preserves sum2 (NotSent st) (failJob j) := by
  unfold failJob
  simp only [bind_eq, pure_eq]
  refine inv_tx quiet_sum2 (fun s ds x ds' hg hs => notSent_tx hs) fun r => ?_
  cases r with
  | error e => trivial
  | ok x =>
    dsimp only
    split
    · refine inv_read quiet_sum2 (read_getTask _) fun r => ?_
      cases r with
      | error e => trivial
      | ok p =>
        refine inv_pub (fun s ds hs => notSent_pub (fun q rt h => by cases h; exact Ne.symm h2) hs) fun r => ?_
        cases r <;> trivial
    · refine inv_bind ?_ fun r => ?_
      · unfold cancelActiveTasks
        simp only [bind_eq, pure_eq]
        refine inv_read quiet_sum2 (read_getActive _) fun r => ?_
        cases r with
        | error e => trivial
        | ok ts => exact cancelLoop_notSent h1 ts
      · cases r with
        | some e => trivial
        | none =>
          refine inv_read quiet_sum2 (read_getJob _) fun r => ?_
          cases r with
          | error e => trivial
          | ok j' =>
            dsimp only
            split
            · refine inv_pub (fun s ds hs => notSent_pub (fun q rt h => by cases h) hs) fun r => ?_
              cases r <;> trivial
            · trivial

/-- The error handler sends only PENDING, CANCELLED and FAILED tasks. -/
theorem errorHandler_notSent {st : TaskState} (h1 : st ≠ .cancelled) (h2 : st ≠ .failed) (h3 : st ≠ .pending) (C : Cfg)
    (t : Task) : Preserves sum2 (NotSent st) (errorHandler C t) := by
  unfold errorHandler
  simp only [bind_eq, pure_eq]
  refine inv_read quiet_sum2 (read_getJob _) fun r => ?_
  cases r with
  | error e => trivial
  | ok j =>
    refine fun now => ?_
    refine inv_tx quiet_sum2 (fun s ds x ds' hg hs => notSent_tx hs) fun r => ?_
    cases r with
    | error e => trivial
    | ok x =>
      dsimp only
      split
      · rename_i hel
        refine fun now2 id sd => ?_
        simp only [ret_bind]
        rcases he : evaluateTask (evaluateTemplate C.O ⟨j.context, none⟩ sd)
          (retryTask { t with failedAt := some now } id now2) with ⟨rt, e⟩
        cases e with
        | some e => exact True.intro
        | none =>
          dsimp only
          obtain ⟨_, _, _, _, hpend, _⟩ := retry_frame hel he
          refine inv_tx quiet_sum2 (fun s ds x ds' hg hs => notSent_tx hs) fun r => ?_
          cases r with
          | error e => trivial
          | ok x =>
            refine inv_pub (fun s ds hs => notSent_pub (fun q rt h => by cases h; rw [hpend]; exact Ne.symm h3) hs) fun r => ?_
            trivial
      · exact failJob_notSent h1 h2 _

/-- **C15 (every run of a message).** Whatever fails and whatever happens concurrently: handling a message of the pending
queue with a false condition never sends a SCHEDULED task (what a worker gets) to any queue. -/
theorem C15_never_scheduled (C : Cfg) (fuel : Nat) {t : Task} {l : List Ev} {p q : Prog Res} (hcond : IsFalse t.cond)
    (hp : coordinatorHandler C fuel (.task "pending" t) = some p) (h : Run p l q) :
    ∀ k x, Msg.task k x ∈ published l → x.state ≠ .scheduled := by
  rw [coord_pending] at hp
  cases Option.some.inj hp
  unfold wrapTask at h
  simp only [bind_eq, pure_eq] at h
  have first : ∀ {l q}, Run (pendingHandler C t) l q → ∀ k x, Msg.task k x ∈ published l → x.state ≠ .scheduled :=
    fun h k x hx => by
      obtain ⟨_, _, h3⟩ := C15_skipped_every_run C hcond h
      obtain ⟨y, h4, h5, _⟩ := h3 _ hx
      cases h4
      rw [h5]; decide
  rcases run_bind h with ⟨q', h1, _⟩ | ⟨l1, l2, ⟨r, t'⟩, rfl, h1, h2⟩
  · exact first h1
  · intro k x hx
    rw [published_append] at hx
    rcases List.mem_append.1 hx with hx | hx
    · exact first h1 k x hx
    · cases r with
      | none =>
        have := run_ret h2
        subst this
        cases hx
      | some e =>
        have hpres : Preserves sum2 (NotSent .scheduled)
            (Prog.now.bind fun now => errorHandler C { t' with failedAt := some now, state := .failed, error := e }) :=
          fun now => errorHandler_notSent (by decide) (by decide) (by decide) C _
        have := run_sum2 (hpres.every quiet_sum2 (s := ([], [])) (fun q x hx => by cases hx)) h2
        exact this k x hx

theorem pending_schedules (C : Cfg) {t : Task} (h : ¬ IsFalse t.cond) : pendingHandler C t = scheduleTask C t := by
  unfold pendingHandler
  rw [if_neg (by rw [trim_false]; exact h)]

/-- **C15 (otherwise).** A regular task with any other condition is never skipped: it is SCHEDULED and sent to a work
queue (with the settings of C17). For parallel, each and sub-job tasks see C11, C12 and C16. -/
theorem C15_otherwise_scheduled (C : Cfg) (fuel : Nat) {t u : Task} {j : Job} {s : Sys}
    (hreg : t.Regular) (hcond : ¬ IsFalse t.cond) (hj : s.ds.job? t.jobID = some j) (hu : s.ds.task? t.id = some u) :
    ∃ (p : Prog Res) (s' : Sys) (x u' : Task),
      coordinatorHandler C fuel (.task "pending" t) = some p ∧ p.exec s = (some none, s') ∧
      s'.out = s.out ++ [.task x.queue x] ∧ x.queue ≠ "" ∧ x.id = t.id ∧ x.state = .scheduled ∧
      s'.ds.task? t.id = some u' ∧ u'.state = .scheduled := by
  obtain ⟨p, s', x, now, h1, h2, h3, h4, _, h6⟩ := C17_scheduled_with_defaults C fuel hreg hcond hj hu
  refine ⟨p, s', x, scheduledRow u x, h1, h2, h4, ?_, ?_, h3.state, ?_, rfl⟩
  · rw [h3.queue]
    unfold ownOr
    split
    · split
      · decide
      · assumption
    · assumption
  · obtain ⟨_, _, h⟩ := h3.rest; rw [h]
  · rw [h6, if_pos rfl]

namespace ScheduleEx
def job : Job :=
  { id := 1, state := .running, position := 1, tasks := [{}], taskCount := 1
    defaults := some { queue := "gpu", timeout := "5m", priority := 3, limits := some { cpus := "2", memory := "1g" }
                       retry := some { limit := 4 } } }
def task : Task :=
  { id := 5, jobID := 1, name := "a", state := .pending, createdAt := some 0, timeout := "1m"
    limits := some { cpus := "1" }, cond := " {{ x }}" }
def sys : Sys := { next := 20, ds := { jobs := [job], tasks := [task] } }
def cfg : Cfg := { O := fun _ _ _ => .error "none", parseDur := fun _ => none }
theorem notFalse : ¬ IsFalse task.cond := by rw [← trim_false]; decide
/-- The hypotheses of C17: own timeout and cpus, the rest from the defaults. -/
example : ∃ (p : Prog Res) (s' : Sys) (x : Task), coordinatorHandler cfg 9 (.task "pending" task) = some p ∧
    p.exec sys = (some none, s') ∧ s'.out = [.task "gpu" x] ∧ x.timeout = "1m" ∧ x.cpus = "1" ∧ x.memory = "1g" ∧
    x.retryLimit = 4 ∧ x.priority = 3 := by
  obtain ⟨p, s', x, now, h1, h2, h3, h4, _⟩ := C17_scheduled_with_defaults cfg 9 (t := task) (u := task) (j := job) (s := sys)
    ⟨rfl, rfl, rfl⟩ notFalse rfl rfl
  have hq : x.queue = "gpu" := h3.queue
  rw [hq] at h4
  exact ⟨p, s', x, h1, h2, h4, h3.timeout, h3.cpus, h3.memory, h3.retryLimit, h3.priority⟩
/-- The hypotheses of C15. -/
example : IsFalse " \tfalse\n" ∧ ¬ IsFalse "falsey" ∧ ¬ IsFalse "true" := by
  refine ⟨?_, ?_, ?_⟩ <;> rw [← trim_false] <;> decide
end ScheduleEx

end Tork
