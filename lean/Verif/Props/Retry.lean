import Verif.CoordExec
import Verif.CloneLemmas
import Verif.Props.Eval
import Verif.Trace
/-!
# C08, C09, C10 — what happens when a task fails

`exec` theorems give the complete effect of handling an error without faults; the theorem about `Run` holds for
every interleaving with other goroutines, every fault and every crash point.
-/

namespace Tork
open Prog

mutual
theorem texts_forget : (t : Task) → t.forgetRedelivery.texts = t.texts
  | { pre := pre, post := post, sidecars := sidecars, parallel := par, each := ea, subJob := sj, .. } => by
    rw [Task.forgetRedelivery, Task.texts, Task.texts]
    simp only [textsL_forget pre, textsL_forget post, textsP_forget par]
    cases sj with
    | none => rw [forgetRedeliveryS]
    | some s => rw [forgetRedeliveryS]; rfl
theorem textsL_forget : (ts : List Task) → textsL (forgetRedeliveryL ts) = textsL ts
  | [] => by rw [forgetRedeliveryL]
  | t :: ts => by rw [forgetRedeliveryL, textsL, textsL, texts_forget t, textsL_forget ts]
theorem textsP_forget : (p : Option (ParallelTask Task)) → textsP (forgetRedeliveryP p) = textsP p
  | none => by rw [forgetRedeliveryP]
  | some { tasks := ts, .. } => by rw [forgetRedeliveryP, textsP, textsP, textsL_forget ts]
end

theorem texts_retry (t : Task) (id now : Nat) : (retryTask t id now).texts = t.texts := by
  rw [← texts_forget t, ← clone_forget, Task.texts_eq, Task.texts_eq]; rfl

theorem retry_eval {C : Cfg} {ctx : Ctx} {t : Task} {sd id now : Nat}
    (hev : ∀ sd, ∀ x ∈ t.texts, ∃ y, evaluateTemplate C.O ctx sd x = .ok y) :
    ∃ g : String → String, (∀ x ∈ t.texts, evaluateTemplate C.O ctx sd x = .ok (g x)) ∧
      evaluateTask (evaluateTemplate C.O ctx sd) (retryTask t id now) = ((retryTask t id now).mapTexts g, none) := by
  refine ⟨fun x => match evaluateTemplate C.O ctx sd x with | .ok y => y | .error _ => x, ?_, ?_⟩
  · intro x hx
    obtain ⟨y, hy⟩ := hev sd x hx
    simp only [hy]
  · refine (C28_task _ _).2 _ fun x hx => ?_
    rw [texts_retry] at hx
    obtain ⟨y, hy⟩ := hev sd x hx
    simp only [hy]

/-- The row of a task whose failure is recorded: an active task becomes FAILED, any other row keeps its state. -/
def failedRow (u : Task) (now : Nat) (err : Err) : Task :=
  if u.state.isActive then { resave u with state := .failed, failedAt := some now, error := sanitizeString err }
  else resave u

theorem persist_failed (u : Task) (now : Nat) (err : Err) :
    persistTask u (failTaskRow (some now) err u) = failedRow u now err := by
  unfold failTaskRow failedRow
  cases h : u.state.isActive
  · simp only [Bool.false_eq_true, if_false]; cases u; rfl
  · simp only [if_true]; cases u; rfl

theorem failedRow_inactive (u : Task) (now : Nat) (err : Err) : (failedRow u now err).state.isActive = false := by
  unfold failedRow
  cases ha : u.state.isActive
  · rw [if_neg (by simp)]; exact ha
  · rw [if_pos rfl]; rfl

/-- The error handler never touches the nodes. -/
theorem errorHandler_nodes (C : Cfg) {t : Task} {s s' : Sys} {r : Option Res}
    (h : (errorHandler C t).exec s = (r, s')) : s'.ds.nodes = s.ds.nodes := by
  have := keepsNodes_exec (errorHandler_keepsNodes C t) s
  rw [h] at this; exact this

/-- `C09_retry` for the handler itself. -/
theorem errorHandler_retry (C : Cfg) {t u : Task} {j : Job} {r : TaskRetry} {s : Sys}
    (hj : s.ds.job? t.jobID = some j) (hu : s.ds.task? t.id = some u)
    (hst : j.state = .running ∨ j.state = .scheduled) (hr : t.retry = some r) (hlt : r.attempts < r.limit)
    (hev : ∀ sd, ∀ x ∈ t.texts, ∃ y, evaluateTemplate C.O ⟨j.context, none⟩ sd x = .ok y)
    (hfresh : s.ds.task? s.next = none) :
    ∃ (rt : Task) (s' : Sys) (now now' sd : Nat) (g : String → String),
      (errorHandler C t).exec s = (some none, s') ∧
      s'.out = s.out ++ [.task "pending" rt] ∧
      (∀ x ∈ t.texts, evaluateTemplate C.O ⟨j.context, none⟩ sd x = .ok (g x)) ∧
      rt = { t.forgetRedelivery.mapTexts g with
        id := s.next, createdAt := some now', retry := some { limit := r.limit, attempts := r.attempts + 1 }
        state := .pending, error := "", failedAt := none } ∧
      s'.ds.jobs = s.ds.jobs ∧
      ∀ k, s'.ds.task? k = if k = s.next then some (taskRow rt) else if k = t.id then some (failedRow u now t.error)
        else s.ds.task? k := by
  have hel : retryEligible j.state { t with failedAt := some s.clock } = true := by
    unfold retryEligible
    rw [show ({ t with failedAt := some s.clock } : Task).retry = some r from hr]
    rcases hst with h | h <;> simp [h, hlt]
  have htx : ({ t with failedAt := some s.clock } : Task).texts = t.texts := by
    rw [Task.texts_eq, Task.texts_eq]
  obtain ⟨g, hg1, hg2⟩ := retry_eval (C := C) (ctx := ⟨j.context, none⟩) (t := { t with failedAt := some s.clock })
    (sd := s.ticked.ticked.clock) (id := s.next) (now := s.ticked.clock) (by rw [htx]; exact hev)
  let s1 := ((s.ticked.withDs (s.ds.setTask t.id (failTaskRow (some s.clock) t.error u))).ticked.drawn).ticked
  let rt := (retryTask { t with failedAt := some s.clock } s.next s.ticked.clock).mapTexts g
  have hne : s.next ≠ t.id := fun h => by rw [h, hu] at hfresh; cases hfresh
  have hcr : createTask rt s1.ds = .ok ((), { s1.ds with tasks := s1.ds.tasks ++ [taskRow rt] }) := by
    refine createTask_of ?_ ?_ ?_
    · rw [show rt.id = s.next by simp only [rt, Task.mapTexts_eq]; rfl]
      simp only [s1, Sys.ticked_ds, Sys.drawn_ds, Sys.withDs_ds]
      rw [task?_setTask, if_neg hne, hfresh]
    · rw [show rt.jobID = t.jobID by
        simp only [rt, Task.mapTexts_eq, retryTask]; cases t; rw [Task.clone]]
      simp only [s1, Sys.ticked_ds, Sys.drawn_ds, Sys.withDs_ds, job?_setTask, hj]; rfl
    · simp only [rt, Task.mapTexts_eq, retryTask, Option.isSome]
  refine ⟨rt, (s1.withDs { s1.ds with tasks := s1.ds.tasks ++ [taskRow rt] }).send [.task "pending" rt], s.clock,
    s.ticked.clock, s.ticked.ticked.clock, g, ?_, ?_, ?_, ?_, ?_, ?_⟩
  · unfold errorHandler
    simp only [bind_eq, pure_eq]
    rw [exec_read (getJob_of hj)]
    simp only
    rw [exec_now]
    rw [exec_tx (s := s.ticked) (updateTask'_of (t := u) hu)]
    simp only [Sys.ticked_ds]
    rw [if_pos hel, exec_now, exec_uuid, exec_seed]
    have hc : (Sys.withDs s.ticked (s.ds.setTask t.id (failTaskRow (some s.clock) t.error u))).ticked.drawn.clock =
      s.ticked.ticked.clock := rfl
    simp only [Sys.withDs_clock, Sys.ticked_next, Sys.withDs_next, hc, hg2]
    rw [exec_tx (s := s1) hcr]
    simp only
    rw [exec_pub, exec_ret]
    rfl
  · rfl
  · intro x hx; exact hg1 x (by rw [htx]; exact hx)
  · simp only [rt, retryTask, Task.mapTexts_eq, ← clone_forget]
    cases t
    simp only at hr
    subst hr
    simp only [Task.clone, Option.map, TaskRetry.clone]
  · rfl
  · intro k
    have hid : (taskRow rt).id = s.next := by simp only [rt, taskRow, Task.mapTexts_eq]; rfl
    simp only [Sys.send_ds, Sys.withDs_ds]
    rw [task?_append]
    simp only [s1, Sys.ticked_ds, Sys.drawn_ds, Sys.withDs_ds, task?_setTask, hid]
    by_cases h1 : k = s.next
    · subst h1
      rw [if_neg hne, hfresh]; simp
    · by_cases h2 : k = t.id
      · subst h2
        rw [if_neg h1]
        simp [hu, persist_failed]
      · rw [if_neg h1, if_neg h2, if_neg h2]
        cases s.ds.task? k with
        | none => simp [Ne.symm h1]
        | some x => rfl

/-- The condition of a retry, in words: the job is SCHEDULED or RUNNING and attempts are left. -/
def RetryDue (j : Job) (t : Task) : Prop :=
  (j.state = .running ∨ j.state = .scheduled) ∧ ∃ r, t.retry = some r ∧ r.attempts < r.limit

theorem not_eligible {j : Job} {t : Task} (h : ¬ RetryDue j t) (x : Option Nat) :
    retryEligible j.state { t with failedAt := x } = false := by
  unfold retryEligible
  cases hr : t.retry with
  | none => simp
  | some r =>
    simp only
    by_cases h1 : j.state = .running ∨ j.state = .scheduled
    · have h2 : ¬ r.attempts < r.limit := fun h2 => h ⟨h1, r, hr, h2⟩
      simp [h2]
    · have : j.state ≠ .running ∧ j.state ≠ .scheduled := ⟨fun h' => h1 (.inl h'), fun h' => h1 (.inr h')⟩
      simp [this.1, this.2]

theorem keys_cancelRows (ds : DS) (ts : List Task) : (ds.cancelRows ts).tasks.map (·.id) = ds.tasks.map (·.id) := by
  unfold DS.cancelRows
  induction ts generalizing ds with
  | nil => rfl
  | cons t ts ih =>
    rw [List.foldl_cons, ih]
    unfold DS.cancelRow
    split
    · exact keys_setTask _ _ _
    · rfl

theorem cancelMsgs_cancelRows (ds : DS) (l : List Task) : cancelMsgs (ds.cancelRows l) = cancelMsgs ds := by
  funext r
  unfold cancelMsgs
  simp only [job?_cancelRows, show ∀ (d : DS) l k, (d.cancelRows l).node? k = d.node? k from
    fun d l k => by unfold DS.node?; rw [cancelRows_nodes]]

/-- `C09_no_retry` for the handler itself. -/
theorem errorHandler_no_retry (C : Cfg) {t u : Task} {j : Job} {s : Sys}
    (hj : s.ds.job? t.jobID = some j) (hu : s.ds.task? t.id = some u) (hno : ¬ RetryDue j t)
    (hp : j.parentID = 0) (hd : (s.ds.tasks.map (·.id)).Nodup)
    (hc : ∀ r ∈ s.ds.tasks, r.jobID = t.jobID → r.state.isActive → Cancellable s.ds r) :
    ∃ (s' : Sys) (now : Nat) (j' : Job) (others : List Task),
      (errorHandler C t).exec s = (some none, s') ∧
      s'.ds.tasks.map (·.id) = s.ds.tasks.map (·.id) ∧
      (∀ k, s'.ds.task? k = (s.ds.task? k).map fun r =>
        if k = t.id then failedRow u now t.error
        else if r.jobID = t.jobID ∧ r.state.isActive then { resave r with state := .cancelled } else r) ∧
      j' = (if j.state = .running ∨ j.state = .scheduled then { j with state := .failed, failedAt := some now } else j) ∧
      (∀ k, s'.ds.job? k = if k = t.jobID then some j' else s.ds.job? k) ∧
      (∀ r, r ∈ others ↔ r ∈ s.ds.tasks ∧ r.id ≠ t.id ∧ r.jobID = t.jobID ∧ r.state.isActive) ∧
      s'.out = s.out ++ others.flatMap (cancelMsgs s'.ds) ++
        (if j'.state = .failed then [.event "job.failed" j'] else []) := by
  obtain ⟨hjm, hjid⟩ := job?_mem hj
  let now := s.clock
  let ds1 := s.ds.setTask t.id (failTaskRow (some now) t.error u)
  let jf : Job := { j with state := .failed, failedAt := some now, error := t.error }
  have hd1 : (ds1.tasks.map (·.id)).Nodup := by
    show ((s.ds.setTask _ _).tasks.map (·.id)).Nodup
    rw [keys_setTask]; exact hd
  have hact : ∀ r, r ∈ ds1.activeOf t.jobID ↔ r ∈ s.ds.tasks ∧ r.id ≠ t.id ∧ r.jobID = t.jobID ∧ r.state.isActive := by
    intro r
    unfold DS.activeOf
    rw [List.mem_filter]
    simp only [ds1, DS.setTask, List.mem_map, Bool.and_eq_true, decide_eq_true_eq]
    constructor
    · rintro ⟨⟨x, hx, he⟩, h1, h2⟩
      by_cases hxid : x.id = t.id
      · rw [if_pos hxid] at he
        have : x = u := by
          have := task?_of_mem hd hx
          rw [hxid, hu] at this; exact (Option.some.inj this).symm
        subst this
        rw [persist_failed] at he
        subst he
        exfalso
        rw [failedRow_inactive] at h2; cases h2
      · rw [if_neg hxid] at he
        subst he
        exact ⟨hx, hxid, h1, h2⟩
    · rintro ⟨h1, h2, h3, h4⟩
      exact ⟨⟨r, h1, by rw [if_neg h2]⟩, h3, h4⟩
  have hcan : ∀ r ∈ ds1.activeOf jf.id, Cancellable ds1 r := by
    intro r hr
    rw [show jf.id = t.jobID from hjid] at hr
    obtain ⟨h1, h2, h3, h4⟩ := (hact r).1 hr
    exact hc r h1 h3 h4
  obtain ⟨a', ha', hex⟩ := failJob_exec_top (j := jf) (a := j) (s := s.ticked.withDs ds1)
    (by rw [show jf.id = t.jobID from hjid]; exact hj) hp hcan
  simp only [Sys.withDs_ds] at ha' hex
  rw [job?_setJob, show jf.id = t.jobID from hjid, if_pos rfl] at ha'
  rw [show ds1.job? t.jobID = some j from hj] at ha'
  simp only [Option.map, Option.some.injEq] at ha'
  have hj' : a' = (if j.state = .running ∨ j.state = .scheduled then { j with state := .failed, failedAt := some now } else j) := by
    rw [← ha']
    unfold failJobRow
    by_cases h : j.state = .running ∨ j.state = .scheduled
    · rw [if_pos h]; rfl
    · rw [if_neg h]; rfl
  refine ⟨((failJob jf).exec (s.ticked.withDs ds1)).2, now, a', ds1.activeOf t.jobID, ?_, ?_, ?_, hj', ?_, hact, ?_⟩
  all_goals rw [hex]
  · unfold errorHandler
    simp only [bind_eq, pure_eq]
    rw [exec_read (getJob_of hj)]
    simp only
    rw [exec_now, exec_tx (s := s.ticked) (updateTask'_of (t := u) hu)]
    simp only [Sys.ticked_ds]
    rw [if_neg (by rw [not_eligible hno]; simp)]
    exact hex
  · simp only [Sys.send_ds, Sys.withDs_ds]
    rw [keys_cancelRows]
    exact keys_setTask _ _ _
  · intro k
    simp only [Sys.send_ds, Sys.withDs_ds, show jf.id = t.jobID from hjid]
    have h0 : (ds1.setJob t.jobID (failJobRow jf.failedAt j)).activeOf t.jobID = ds1.activeOf t.jobID := rfl
    rw [← h0, task?_cancelActive (ds := ds1.setJob t.jobID _) hd1, task?_setJob]
    simp only [ds1, task?_setTask]
    by_cases hk : k = t.id
    · subst hk
      simp only [if_true, hu, Option.map, persist_failed]
      congr 1
      rw [if_neg]
      rintro ⟨_, h2⟩
      rw [failedRow_inactive] at h2; cases h2
    · simp only [if_neg hk]
  · intro k
    simp only [Sys.send_ds, Sys.withDs_ds, show jf.id = t.jobID from hjid, job?_cancelRows, job?_setJob]
    by_cases hk : k = t.jobID
    · subst hk
      rw [if_pos rfl, if_pos rfl, show ds1.job? t.jobID = some j from hj]
      simp only [Option.map, ha']
    · rw [if_neg hk, if_neg hk]; rfl
  · simp only [Sys.send_out, Sys.withDs_out, Sys.ticked_out, Sys.send_ds, Sys.withDs_ds, show jf.id = t.jobID from hjid]
    rw [cancelMsgs_cancelRows]; rfl

/-- `C10_failure_stops_work` for the handler itself. -/
theorem errorHandler_stops_work (C : Cfg) {t u : Task} {j : Job} {s : Sys}
    (hj : s.ds.job? t.jobID = some j) (hu : s.ds.task? t.id = some u)
    (hst : j.state = .running ∨ j.state = .scheduled)
    (hno : t.retry = none ∨ ∃ r, t.retry = some r ∧ r.limit ≤ r.attempts)
    (hp : j.parentID = 0) (hd : (s.ds.tasks.map (·.id)).Nodup)
    (hc : ∀ r ∈ s.ds.tasks, r.jobID = t.jobID → r.state.isActive → Cancellable s.ds r) :
    ∃ s', (errorHandler C t).exec s = (some none, s') ∧
      (∃ j', s'.ds.job? t.jobID = some j' ∧ j'.state = .failed ∧ Msg.event "job.failed" j' ∈ s'.out) ∧
      (∀ r ∈ s'.ds.tasks, r.jobID = t.jobID → r.state.isActive = false) ∧
      (∀ r ∈ s.ds.tasks, r.jobID = t.jobID → r.state.isActive → r.id ≠ t.id →
        r.subJob = none → r.nodeID ≠ 0 → ∃ n, s.ds.node? r.nodeID = some n ∧
          Msg.task n.queue { r with state := .cancelled } ∈ s'.out) ∧
      (∀ r ∈ s.ds.tasks, r.jobID = t.jobID → r.state.isActive → r.id ≠ t.id → ∀ sj, r.subJob = some sj → sj.id ≠ 0 →
        ∃ c : Job, c.id = sj.id ∧ c.state = .cancelled ∧ Msg.job c ∈ s'.out) ∧
      (∀ k, k ≠ t.jobID → s'.ds.job? k = s.ds.job? k) ∧
      (∀ k r, k ≠ t.id → s.ds.task? k = some r → r.jobID ≠ t.jobID → s'.ds.task? k = some r) := by
  have hno' : ¬ RetryDue j t := by
    rintro ⟨_, r, h1, h2⟩
    rcases hno with h | ⟨r', h, h'⟩
    · rw [h] at h1; cases h1
    · rw [h] at h1; cases h1; omega
  obtain ⟨s', now, j', others, hex, hkeys, htasks, hj', hjobs, hoth, hout⟩ := errorHandler_no_retry C hj hu hno' hp hd hc
  rw [if_pos hst] at hj'
  have hjf : j'.state = .failed := by rw [hj']
  rw [if_pos hjf] at hout
  refine ⟨s', hex, ⟨j', by rw [hjobs, if_pos rfl], hjf, by rw [hout]; simp⟩, ?_, ?_, ?_, ?_, ?_⟩
  · intro r hr hrj
    have h1 := task?_of_mem (by rw [hkeys]; exact hd) hr
    rw [htasks] at h1
    obtain ⟨x, hx, he⟩ := Option.map_eq_some_iff.1 h1
    by_cases h2 : r.id = t.id
    · rw [if_pos h2] at he; rw [← he]; exact failedRow_inactive _ _ _
    · rw [if_neg h2] at he
      by_cases h3 : x.jobID = t.jobID ∧ x.state.isActive
      · rw [if_pos h3] at he; rw [← he]; rfl
      · rw [if_neg h3] at he
        subst he
        cases h4 : x.state.isActive
        · rfl
        · exact absurd ⟨hrj, h4⟩ h3
  · intro r h1 h2 h3 h4 h5 h6
    have href : subJobRef r = 0 := by unfold subJobRef; rw [h5]
    obtain ⟨n, hn⟩ := (hc r h1 h2 h3).2 href h6
    refine ⟨n, hn, ?_⟩
    rw [hout]
    have hn' : s'.ds.node? r.nodeID = some n := by
      have := congrArg (fun x => x.2.ds.nodes) hex
      simp only at this
      have hnodes : s'.ds.nodes = s.ds.nodes := errorHandler_nodes C hex
      unfold DS.node? at hn ⊢
      rw [hnodes]; exact hn
    refine List.mem_append_left _ (List.mem_append_right _ (List.mem_flatMap.2 ⟨r, (hoth r).2 ⟨h1, h4, h2, h3⟩, ?_⟩))
    unfold cancelMsgs
    rw [if_neg (by simp [href]), if_pos h6, hn']
    simp
  · intro r h1 h2 h3 h4 sj h5 h6
    have href : subJobRef r = sj.id := by unfold subJobRef; rw [h5]
    obtain ⟨c, hcj⟩ := (hc r h1 h2 h3).1 (by rw [href]; exact h6)
    rw [href] at hcj
    have hcj' : ∃ c', s'.ds.job? sj.id = some c' ∧ c'.id = sj.id := by
      rw [hjobs]
      by_cases h7 : sj.id = t.jobID
      · rw [if_pos h7]
        refine ⟨j', rfl, ?_⟩
        rw [hj', h7]; exact (job?_mem hj).2
      · rw [if_neg h7]; exact ⟨c, hcj, (job?_mem hcj).2⟩
    obtain ⟨c', hc', hid⟩ := hcj'
    refine ⟨{ c' with state := .cancelled }, hid, rfl, ?_⟩
    rw [hout]
    refine List.mem_append_left _ (List.mem_append_right _ (List.mem_flatMap.2 ⟨r, (hoth r).2 ⟨h1, h4, h2, h3⟩, ?_⟩))
    unfold cancelMsgs
    rw [if_pos (by rw [href]; exact h6), href, hc']
    simp
  · intro k hk; rw [hjobs, if_neg hk]
  · intro k r hk hr hrj
    rw [htasks, hr]
    simp only [Option.map, if_neg hk]
    rw [if_neg (fun h => hrj h.1)]

/-- `C10_subjob_failure` for the handler itself. -/
theorem errorHandler_sub (C : Cfg) {t u p : Task} {j : Job} {s : Sys}
    (hj : s.ds.job? t.jobID = some j) (hu : s.ds.task? t.id = some u) (hno : ¬ RetryDue j t)
    (hp : j.parentID ≠ 0) (hpt : s.ds.task? j.parentID = some p) (hpid : j.parentID ≠ t.id) :
    ∃ (s' : Sys) (now : Nat), (errorHandler C t).exec s = (some none, s') ∧
      s'.out = s.out ++ [.task "error" { p with state := .failed, failedAt := some now, error := t.error }] ∧
      (∀ k, s'.ds.task? k = if k = t.id then some (failedRow u now t.error) else s.ds.task? k) ∧
      (∀ k, s'.ds.job? k = if k = t.jobID then
        some (if j.state = .running ∨ j.state = .scheduled then { j with state := .failed, failedAt := some now } else j)
        else s.ds.job? k) := by
  obtain ⟨hjm, hjid⟩ := job?_mem hj
  let ds1 := s.ds.setTask t.id (failTaskRow (some s.clock) t.error u)
  let jf : Job := { j with state := .failed, failedAt := some s.clock, error := t.error }
  have hex := failJob_exec_sub (j := jf) (a := j) (p := p) (s := s.ticked.withDs ds1)
    (by rw [show jf.id = t.jobID from hjid]; exact hj) hp
    (by rw [Sys.withDs_ds, task?_setTask, if_neg (show jf.parentID ≠ t.id from hpid)]; exact hpt)
  refine ⟨((failJob jf).exec (s.ticked.withDs ds1)).2, s.clock, ?_, ?_, ?_, ?_⟩
  all_goals rw [hex]
  · unfold errorHandler
    simp only [bind_eq, pure_eq]
    rw [exec_read (getJob_of hj)]
    simp only
    rw [exec_now, exec_tx (s := s.ticked) (updateTask'_of (t := u) hu)]
    simp only [Sys.ticked_ds]
    rw [if_neg (by rw [not_eligible hno]; simp)]
    exact hex
  · rfl
  · intro k
    simp only [Sys.send_ds, Sys.withDs_ds, task?_setJob, ds1, task?_setTask]
    by_cases hk : k = t.id
    · subst hk; rw [if_pos rfl, if_pos rfl, hu]; simp only [Option.map, persist_failed]
    · rw [if_neg hk, if_neg hk]
  · intro k
    simp only [Sys.send_ds, Sys.withDs_ds, show jf.id = t.jobID from hjid, job?_setJob]
    by_cases hk : k = t.jobID
    · subst hk
      rw [if_pos rfl, if_pos rfl, show ds1.job? t.jobID = some j from hj]
      simp only [Option.map, Option.some.injEq]
      unfold failJobRow
      by_cases h : j.state = .running ∨ j.state = .scheduled
      · rw [if_pos h]; rfl
      · rw [if_neg h]; rfl
    · rw [if_neg hk, if_neg hk]; rfl

/-! ## Handling a message of the error queue -/

theorem errorQueue_exec {C : Cfg} (fuel : Nat) {t : Task} {s s' : Sys} (h : (errorHandler C t).exec s = (some none, s')) :
    ∃ p, coordinatorHandler C fuel (.task "error" t) = some p ∧ p.exec s = (some none, s') := by
  refine ⟨_, coord_error C fuel t, wrapTask_ok (x := t) ?_⟩
  unfold errorHandlerT
  simp only [bind_eq, pure_eq]
  rw [exec_bind, h]; rfl

/-- **C09/C08 (retry).** An error of a task of a SCHEDULED or RUNNING job with attempts left, whose templates can
be evaluated: exactly one new task is created and sent to the pending queue, it is the failed task with the
redelivery counters reset, its templates evaluated, a new id, `attempts` increased by one, state PENDING and no
error; the failed task is FAILED (if it was active); no job row changes and nothing else is sent. -/
theorem C09_retry (C : Cfg) (fuel : Nat) {t u : Task} {j : Job} {r : TaskRetry} {s : Sys}
    (hj : s.ds.job? t.jobID = some j) (hu : s.ds.task? t.id = some u)
    (hst : j.state = .running ∨ j.state = .scheduled) (hr : t.retry = some r) (hlt : r.attempts < r.limit)
    (hev : ∀ sd, ∀ x ∈ t.texts, ∃ y, evaluateTemplate C.O ⟨j.context, none⟩ sd x = .ok y)
    (hfresh : s.ds.task? s.next = none) :
    ∃ (p : Prog Res) (rt : Task) (s' : Sys) (now now' sd : Nat) (g : String → String),
      coordinatorHandler C fuel (.task "error" t) = some p ∧ p.exec s = (some none, s') ∧
      s'.out = s.out ++ [.task "pending" rt] ∧
      (∀ x ∈ t.texts, evaluateTemplate C.O ⟨j.context, none⟩ sd x = .ok (g x)) ∧
      rt = { t.forgetRedelivery.mapTexts g with
        id := s.next, createdAt := some now', retry := some { limit := r.limit, attempts := r.attempts + 1 }
        state := .pending, error := "", failedAt := none } ∧
      s'.ds.jobs = s.ds.jobs ∧
      ∀ k, s'.ds.task? k = if k = s.next then some (taskRow rt) else if k = t.id then some (failedRow u now t.error)
        else s.ds.task? k := by
  obtain ⟨rt, s', now, now', sd, g, h1, h⟩ := errorHandler_retry C hj hu hst hr hlt hev hfresh
  obtain ⟨p, h2, h3⟩ := errorQueue_exec fuel h1
  exact ⟨p, rt, s', now, now', sd, g, h2, h3, h⟩

/-- **C09/C10 (no retry).** An error of a task when no retry is due, in a job that is not a sub-job: no task is
created; the failed task's row is FAILED if it was active; every other active task of the job is CANCELLED, all
rows of other jobs are untouched; the job is FAILED if it was SCHEDULED or RUNNING and keeps its state
otherwise; each cancelled task's sub-job or node is told; a `job.failed` event is sent iff the job is FAILED. -/
theorem C09_no_retry (C : Cfg) (fuel : Nat) {t u : Task} {j : Job} {s : Sys}
    (hj : s.ds.job? t.jobID = some j) (hu : s.ds.task? t.id = some u) (hno : ¬ RetryDue j t)
    (hp : j.parentID = 0) (hd : (s.ds.tasks.map (·.id)).Nodup)
    (hc : ∀ r ∈ s.ds.tasks, r.jobID = t.jobID → r.state.isActive → Cancellable s.ds r) :
    ∃ (p : Prog Res) (s' : Sys) (now : Nat) (j' : Job) (others : List Task),
      coordinatorHandler C fuel (.task "error" t) = some p ∧ p.exec s = (some none, s') ∧
      s'.ds.tasks.map (·.id) = s.ds.tasks.map (·.id) ∧
      (∀ k, s'.ds.task? k = (s.ds.task? k).map fun r =>
        if k = t.id then failedRow u now t.error
        else if r.jobID = t.jobID ∧ r.state.isActive then { resave r with state := .cancelled } else r) ∧
      j' = (if j.state = .running ∨ j.state = .scheduled then { j with state := .failed, failedAt := some now } else j) ∧
      (∀ k, s'.ds.job? k = if k = t.jobID then some j' else s.ds.job? k) ∧
      (∀ r, r ∈ others ↔ r ∈ s.ds.tasks ∧ r.id ≠ t.id ∧ r.jobID = t.jobID ∧ r.state.isActive) ∧
      s'.out = s.out ++ others.flatMap (cancelMsgs s'.ds) ++
        (if j'.state = .failed then [.event "job.failed" j'] else []) := by
  obtain ⟨s', now, j', others, h1, h⟩ := errorHandler_no_retry C hj hu hno hp hd hc
  obtain ⟨p, h2, h3⟩ := errorQueue_exec fuel h1
  exact ⟨p, s', now, j', others, h2, h3, h⟩

/-- **C10.** A failure without retry in a SCHEDULED or RUNNING top-level job: the job is FAILED, none of its
tasks is left active, every task that was active on a node (resp. had a sub-job) had its cancellation sent to
that node's queue (resp. that sub-job), no row of another job changed, and `job.failed` was published. -/
theorem C10_failure_stops_work (C : Cfg) (fuel : Nat) {t u : Task} {j : Job} {s : Sys}
    (hj : s.ds.job? t.jobID = some j) (hu : s.ds.task? t.id = some u)
    (hst : j.state = .running ∨ j.state = .scheduled)
    (hno : t.retry = none ∨ ∃ r, t.retry = some r ∧ r.limit ≤ r.attempts)
    (hp : j.parentID = 0) (hd : (s.ds.tasks.map (·.id)).Nodup)
    (hc : ∀ r ∈ s.ds.tasks, r.jobID = t.jobID → r.state.isActive → Cancellable s.ds r) :
    ∃ (p : Prog Res) (s' : Sys),
      coordinatorHandler C fuel (.task "error" t) = some p ∧ p.exec s = (some none, s') ∧
      (∃ j', s'.ds.job? t.jobID = some j' ∧ j'.state = .failed ∧ Msg.event "job.failed" j' ∈ s'.out) ∧
      (∀ r ∈ s'.ds.tasks, r.jobID = t.jobID → r.state.isActive = false) ∧
      (∀ r ∈ s.ds.tasks, r.jobID = t.jobID → r.state.isActive → r.id ≠ t.id →
        r.subJob = none → r.nodeID ≠ 0 → ∃ n, s.ds.node? r.nodeID = some n ∧
          Msg.task n.queue { r with state := .cancelled } ∈ s'.out) ∧
      (∀ r ∈ s.ds.tasks, r.jobID = t.jobID → r.state.isActive → r.id ≠ t.id → ∀ sj, r.subJob = some sj → sj.id ≠ 0 →
        ∃ c : Job, c.id = sj.id ∧ c.state = .cancelled ∧ Msg.job c ∈ s'.out) ∧
      (∀ k, k ≠ t.jobID → s'.ds.job? k = s.ds.job? k) ∧
      (∀ k r, k ≠ t.id → s.ds.task? k = some r → r.jobID ≠ t.jobID → s'.ds.task? k = some r) := by
  obtain ⟨s', h1, h⟩ := errorHandler_stops_work C hj hu hst hno hp hd hc
  obtain ⟨p, h2, h3⟩ := errorQueue_exec fuel h1
  exact ⟨p, s', h2, h3, h⟩

/-- C10 for a sub-job: the sub-job is FAILED, and the failure is reported as an error of the parent task; nothing
else is sent and no other row changes. (So the sub-job's other active tasks are *not* cancelled here.) -/
theorem C10_subjob_failure (C : Cfg) (fuel : Nat) {t u p : Task} {j : Job} {s : Sys}
    (hj : s.ds.job? t.jobID = some j) (hu : s.ds.task? t.id = some u) (hno : ¬ RetryDue j t)
    (hp : j.parentID ≠ 0) (hpt : s.ds.task? j.parentID = some p) (hpid : j.parentID ≠ t.id) :
    ∃ (h : Prog Res) (s' : Sys) (now : Nat),
      coordinatorHandler C fuel (.task "error" t) = some h ∧ h.exec s = (some none, s') ∧
      s'.out = s.out ++ [.task "error" { p with state := .failed, failedAt := some now, error := t.error }] ∧
      (∀ k, s'.ds.task? k = if k = t.id then some (failedRow u now t.error) else s.ds.task? k) ∧
      (∀ k, s'.ds.job? k = if k = t.jobID then
        some (if j.state = .running ∨ j.state = .scheduled then { j with state := .failed, failedAt := some now } else j)
        else s.ds.job? k) := by
  obtain ⟨s', now, h1, h⟩ := errorHandler_sub C hj hu hno hp hpt hpid
  obtain ⟨p', h2, h3⟩ := errorQueue_exec fuel h1
  exact ⟨p', s', now, h2, h3, h⟩

/-! ## Every interleaving and fault -/

/-- Summary: messages, created tasks, and whether the job table was left alone so far. -/
def sumP (s : Sum2 × Prop) (e : Ev) : Sum2 × Prop := (sum2 s.1 e, s.2 ∧ e.after.jobs = e.before.jobs)

theorem quiet_sumP : Quiet sumP := by
  intro s ds
  simp [sumP, quiet_sum2 s.1 ds]

theorem foldl_sumP (l : List Ev) (s : Sum2 × Prop) : l.foldl sumP s =
    (l.foldl sum2 s.1, s.2 ∧ ∀ e ∈ l, e.after.jobs = e.before.jobs) := by
  induction l generalizing s with
  | nil => simp
  | cons e l ih =>
    rw [List.foldl_cons, ih]
    simp only [sumP, List.foldl_cons, List.mem_cons, forall_eq_or_imp, and_assoc]

/-- The creation of a task in `errorHandler`: `rt` is an attempt of `t`. -/
def IsAttempt (t rt : Task) : Prop :=
  ∃ r, t.retry = some r ∧ r.attempts < r.limit ∧
    rt.retry = some { limit := r.limit, attempts := r.attempts + 1 } ∧ rt.state = .pending ∧
    rt.jobID = t.jobID ∧ rt.parentID = t.parentID ∧ rt.position = t.position

/-- No task was created and no PENDING task message was sent. -/
def NoAttempt (s : Sum2 × Prop) : Prop := s.1.2 = [] ∧ ∀ q rt, Msg.task q rt ∈ s.1.1 → rt.state ≠ .pending

theorem noAttempt_pub {s : Sum2 × Prop} {ds : DS} {m : Msg} (hm : ∀ q rt, m = .task q rt → rt.state ≠ .pending)
    (h : NoAttempt s) : NoAttempt (sumP s ⟨ds, ds, [m]⟩) := by
  refine ⟨by simp only [sumP, sum2, newTasks_self, List.append_nil]; exact h.1, fun q rt hq => ?_⟩
  simp only [sumP, sum2, List.mem_append, List.mem_singleton] at hq
  rcases hq with hq | hq
  · exact h.2 q rt hq
  · exact hm q rt hq.symm

theorem noAttempt_keys {s : Sum2 × Prop} {ds ds' : DS} (hk : ds'.tasks.map (·.id) = ds.tasks.map (·.id))
    (h : NoAttempt s) : NoAttempt (sumP s ⟨ds, ds', []⟩) := by
  refine ⟨by simp only [sumP, sum2, newTasks_keys hk, List.append_nil]; exact h.1, fun q rt hq => ?_⟩
  simp only [sumP, sum2, List.append_nil] at hq
  exact h.2 q rt hq

theorem noAttempt_updTask {s : Sum2 × Prop} {ds ds' : DS} {id : Nat} {m : Task → Task} {x : Unit}
    (hg : updateTask' id m ds = .ok (x, ds')) (h : NoAttempt s) : NoAttempt (sumP s ⟨ds, ds', []⟩) := by
  obtain ⟨t, _, rfl⟩ := updateTask'_ok hg
  exact noAttempt_keys (keys_setTask _ _ _) h

theorem noAttempt_updJob {s : Sum2 × Prop} {ds ds' : DS} {id : Nat} {m : Job → Job} {x : Unit}
    (hg : updateJob' id m ds = .ok (x, ds')) (h : NoAttempt s) : NoAttempt (sumP s ⟨ds, ds', []⟩) := by
  obtain ⟨t, _, rfl⟩ := updateJob'_ok hg
  exact noAttempt_keys rfl h

theorem cancelLoop_noAttempt (ts : List Task) : Preserves sumP NoAttempt (cancelLoop ts) := by
  induction ts with
  | nil => rw [cancelLoop]; trivial
  | cons t ts ih =>
    rw [cancelLoop]
    simp only [bind_eq, pure_eq]
    refine inv_tx quiet_sumP (fun s ds x ds' hg hs => noAttempt_updTask hg hs) fun r => ?_
    cases r with
    | error e => trivial
    | ok x =>
      dsimp only
      split
      · refine inv_read quiet_sumP (read_getJob _) fun r => ?_
        cases r with
        | error e => trivial
        | ok sj =>
          refine inv_pub (fun s ds hs => noAttempt_pub (fun q rt h => by cases h) hs) fun r => ?_
          cases r <;> first | trivial | exact ih
      · split
        · refine inv_read quiet_sumP (read_getNode _) fun r => ?_
          cases r with
          | error e => trivial
          | ok n =>
            refine inv_pub (fun s ds hs => noAttempt_pub (fun q rt h => by cases h; simp) hs) fun r => ?_
            cases r <;> first | trivial | exact ih
        · exact ih

theorem failJob_noAttempt (j : Job) : Preserves sumP NoAttempt (failJob j) := by
  unfold failJob
  simp only [bind_eq, pure_eq]
  refine inv_tx quiet_sumP (fun s ds x ds' hg hs => noAttempt_updJob hg hs) fun r => ?_
  cases r with
  | error e => trivial
  | ok x =>
    dsimp only
    split
    · refine inv_read quiet_sumP (read_getTask _) fun r => ?_
      cases r with
      | error e => trivial
      | ok p =>
        refine inv_pub (fun s ds hs => noAttempt_pub (fun q rt h => by cases h; simp) hs) fun r => ?_
        cases r <;> trivial
    · refine inv_bind ?_ fun r => ?_
      · unfold cancelActiveTasks
        simp only [bind_eq, pure_eq]
        refine inv_read quiet_sumP (read_getActive _) fun r => ?_
        cases r with
        | error e => trivial
        | ok ts => exact cancelLoop_noAttempt ts
      · cases r with
        | some e => trivial
        | none =>
          refine inv_read quiet_sumP (read_getJob _) fun r => ?_
          cases r with
          | error e => trivial
          | ok j' =>
            dsimp only
            split
            · refine inv_pub (fun s ds hs => noAttempt_pub (fun q rt h => by cases h) hs) fun r => ?_
              cases r <;> trivial
            · trivial

/-- What every (also partial, also faulty) handling of an error guarantees. -/
structure ErrorRun (t : Task) (s : Sum2 × Prop) : Prop where
  one : s.1.2.length ≤ 1
  attempt : ∀ rt ∈ s.1.2, IsAttempt t rt
  queued : ∀ q rt, Msg.task q rt ∈ s.1.1 → rt.state = .pending → q = "pending" ∧ taskRow rt ∈ s.1.2
  once : (s.1.1.filter fun m => match m with | .task _ rt => decide (rt.state = .pending) | _ => false).length ≤ 1
  jobs : s.1.2 ≠ [] → s.2

theorem NoAttempt.errorRun {t : Task} {s : Sum2 × Prop} (h : NoAttempt s) : ErrorRun t s := by
  refine ⟨by rw [h.1]; simp, by rw [h.1]; simp, fun q rt hq hp => absurd hp (h.2 q rt hq), ?_, fun hne => absurd h.1 hne⟩
  rw [List.filter_eq_nil_iff.2]
  · simp
  · intro m hm
    cases m <;> simp
    rename_i q rt
    exact h.2 q rt hm

theorem retry_frame {C : Cfg} {ctx : Ctx} {sd id now : Nat} {t rt : Task} {js : JobState}
    (hel : retryEligible js t = true)
    (h : evaluateTask (evaluateTemplate C.O ctx sd) (retryTask t id now) = (rt, none)) :
    IsAttempt t rt := by
  have hf := (evaluateTask_frame (evaluateTemplate C.O ctx sd) (retryTask t id now)).1
  rw [h] at hf
  have hc := clone_frame t
  unfold retryEligible at hel
  simp only [Bool.and_eq_true] at hel
  cases hr : t.retry with
  | none => rw [hr] at hel; simp at hel
  | some r =>
    rw [hr] at hel
    refine ⟨r, hr, by simpa using hel.2, ?_, hf.state, hf.jobID.trans hc.jobID, hf.parentID.trans hc.parentID,
      hf.position.trans hc.position⟩
    rw [hf.retry]
    simp only [retryTask, hr, Option.map]

theorem errorHandler_every (C : Cfg) (t : Task) :
    Every sumP (fun s _ => ErrorRun t s) (errorHandler C t) (([], []), True) := by
  have h0 : NoAttempt (([], []), True) := ⟨rfl, by simp⟩
  unfold errorHandler
  simp only [bind_eq, pure_eq]
  refine every_read quiet_sumP (read_getJob _) h0.errorRun (fun e => h0.errorRun) fun ds j hj => ?_
  refine every_now quiet_sumP h0.errorRun fun now => ?_
  have key : ∀ s : Sum2 × Prop, NoAttempt s → s.1.1 = [] → s.2 → Every sumP (fun s _ => ErrorRun t s)
      (if retryEligible j.state { t with failedAt := some now } = true then
        Prog.now.bind fun now2 => newUUID.bind fun id => seed.bind fun sd =>
        match evaluateTask (evaluateTemplate C.O ⟨j.context, none⟩ sd) (retryTask { t with failedAt := some now } id now2) with
        | (_, some e) => ret (some (wrapErr "error evaluating task" e))
        | (rt, none) =>
          (tx (createTask rt)).bind fun r => match r with
          | .error e => ret (some (wrapErr "error creating a retry task" e))
          | .ok _ => (publish (.task QUEUE_PENDING rt)).bind fun _ => ret none
      else failJob { j with state := .failed, failedAt := some now, error := t.error }) s := by
    intro s hs hms hp
    split
    · rename_i hel
      refine every_now quiet_sumP hs.errorRun fun now2 => every_uuid quiet_sumP hs.errorRun fun id =>
        every_seed quiet_sumP hs.errorRun fun sd => ?_
      rcases he : evaluateTask (evaluateTemplate C.O ⟨j.context, none⟩ sd)
          (retryTask { t with failedAt := some now } id now2) with ⟨rt, e⟩
      cases e with
      | some e => exact hs.errorRun
      | none =>
        dsimp only
        have hat := retry_frame hel he
        have hat' : IsAttempt t rt := hat
        have hrow : IsAttempt t (taskRow rt) := hat'
        have hpend : rt.state = .pending := by obtain ⟨r, _, _, _, h, _⟩ := hat; exact h
        have hc : ∀ ds x ds', createTask rt ds = .ok (x, ds') →
            sumP s ⟨ds, ds', []⟩ = (([], [taskRow rt]), s.2 ∧ True) := by
          intro ds x ds' hg
          have hj : ds'.jobs = ds.jobs := by obtain ⟨_, _, rfl⟩ := createTask_ok hg; rfl
          simp only [sumP, sum2, newTasks_create hg, hms, hs.1, List.nil_append, List.append_nil, hj]
        have hE : ErrorRun t (([], [taskRow rt]), s.2 ∧ True) :=
          ⟨by simp, by simpa using hrow, by simp, by simp, fun _ => ⟨hp, trivial⟩⟩
        refine every_tx quiet_sumP hs.errorRun (fun e => hs.errorRun) (fun ds x ds' hg => ?_) (fun ds x ds' e hg => ?_)
        · rw [hc ds x ds' hg]
          refine every_pub quiet_sumP hE (fun ds r => ?_) (fun e => hE)
          show ErrorRun t _
          have : sumP (([], [taskRow rt]), s.2 ∧ True) ⟨ds, ds, [.task QUEUE_PENDING rt]⟩ =
              (([.task QUEUE_PENDING rt], [taskRow rt]), (s.2 ∧ True) ∧ True) := by
            simp only [sumP, sum2, newTasks_self, List.nil_append, List.append_nil]
          rw [this]
          refine ⟨by simp, by simpa using hrow, fun q rt' h _ => ?_, by simp [hpend], fun _ => ⟨⟨hp, trivial⟩, trivial⟩⟩
          simp only [List.mem_singleton, Msg.task.injEq] at h
          obtain ⟨rfl, rfl⟩ := h
          exact ⟨rfl, by simp⟩
        · rw [hc ds x ds' hg]; exact hE
    · exact every_mono ((failJob_noAttempt _).every quiet_sumP hs) fun s _ h => h.errorRun
  refine every_tx quiet_sumP h0.errorRun (fun e => h0.errorRun) (fun ds x ds' hg => ?_) (fun ds x ds' e hg => ?_)
  · have h1 := noAttempt_updTask (s := (([], []), True)) hg h0
    refine key _ h1 ?_ ?_
    · simp [sumP, sum2]
    · obtain ⟨_, _, rfl⟩ := updateTask'_ok hg
      exact ⟨trivial, rfl⟩
  · exact (noAttempt_updTask (s := (([], []), True)) hg h0).errorRun

/-- **C09 under every interleaving, fault and crash point.** However the handling of an error of `t` is interleaved
with other goroutines, whatever operation fails, wherever it stops: at most one task is created; a created task
is a new attempt of `t` (attempts were left, one more attempt is counted, PENDING, same job, parent and place);
at most one PENDING task is sent, to the pending queue and only after its row was created; and if an attempt was
created, no row of the job table was changed (the job is not failed). In particular no attempt is created when
none is left. -/
theorem C09_every_run (C : Cfg) {t : Task} {l : List Ev} {q : Prog Res} (h : Run (errorHandler C t) l q) :
    (created l).length ≤ 1 ∧
    (∀ rt ∈ created l, IsAttempt t rt) ∧
    (∀ k rt, Msg.task k rt ∈ published l → rt.state = .pending → k = "pending" ∧ taskRow rt ∈ created l) ∧
    (created l ≠ [] → ∀ e ∈ l, e.after.jobs = e.before.jobs) ∧
    ((t.retry = none ∨ ∃ r, t.retry = some r ∧ r.limit ≤ r.attempts) → created l = []) := by
  have h1 := (errorHandler_every C t).sound h
  rw [foldl_sumP, foldl_sum2] at h1
  simp only [List.nil_append] at h1
  refine ⟨h1.one, h1.attempt, h1.queued, fun hne => (h1.jobs hne).2, fun hno => ?_⟩
  cases hc : created l with
  | nil => rfl
  | cons a as =>
    exfalso
    obtain ⟨r, h2, h3, _⟩ := h1.attempt a (by rw [show ((published l, created l)).2 = created l from rfl, hc]; simp)
    rcases hno with h4 | ⟨r', h4, h5⟩
    · rw [h4] at h2; cases h2
    · rw [h4] at h2; cases h2; omega

/-- **C09 for a message of the error queue, under every interleaving, fault and crash point.** Handling one message creates
only attempts of its task, none when no attempt is left, and every PENDING task it sends is such an attempt; at most two are
created — a second one only after the first pass over the handler reported an error (`C09_two_attempts`). -/
theorem C09_message_every_run (C : Cfg) (fuel : Nat) {t : Task} {p q : Prog Res} {l : List Ev}
    (hp : coordinatorHandler C fuel (.task "error" t) = some p) (h : Run p l q) :
    (created l).length ≤ 2 ∧ (∀ rt ∈ created l, IsAttempt t rt) ∧
    (∀ k rt, Msg.task k rt ∈ published l → rt.state = .pending → k = "pending" ∧ taskRow rt ∈ created l) ∧
    ((t.retry = none ∨ ∃ r, t.retry = some r ∧ r.limit ≤ r.attempts) → created l = []) := by
  rw [coord_error] at hp
  cases Option.some.inj hp
  unfold wrapTask errorHandlerT at h
  simp only [bind_eq, pure_eq, bind_assoc, ret_bind] at h
  have one : ∀ {l q}, Run (errorHandler C t) l q → (created l).length ≤ 1 ∧ (∀ rt ∈ created l, IsAttempt t rt) ∧
      (∀ k rt, Msg.task k rt ∈ published l → rt.state = .pending → k = "pending" ∧ taskRow rt ∈ created l) ∧
      ((t.retry = none ∨ ∃ r, t.retry = some r ∧ r.limit ≤ r.attempts) → created l = []) := fun h =>
    have h := C09_every_run C h
    ⟨h.1, h.2.1, h.2.2.1, h.2.2.2.2⟩
  rcases run_bind h with ⟨q', h1, _⟩ | ⟨l1, l2, a, rfl, h1, h2⟩
  · have := one h1
    exact ⟨by omega, this.2⟩
  · have e1 := one h1
    cases a with
    | none =>
      have := run_ret h2
      subst this
      simp only [List.append_nil]
      exact ⟨by omega, e1.2⟩
    | some e =>
      dsimp only at h2
      rcases run_bind (p := Prog.now) h2 with ⟨q', h3, _⟩ | ⟨l3, l4, now, rfl, h3, h4⟩
      · have hq := run_now h3
        have c0 : created l2 = [] := hq.2
        have p0 : published l2 = [] := hq.1
        rw [created_append, published_append, c0, p0]
        simp only [List.append_nil]
        exact ⟨by omega, e1.2⟩
      · have hq := run_now h3
        have e2 := C09_every_run C h4
        rw [created_append, published_append, created_append, published_append, hq.1, hq.2]
        simp only [List.nil_append]
        refine ⟨by rw [List.length_append]; have := e2.1; omega, fun rt hr => ?_, fun k rt hk hpend => ?_, fun hno => ?_⟩
        · rcases List.mem_append.1 hr with hr | hr
          · exact e1.2.1 rt hr
          · exact e2.2.1 rt hr
        · rcases List.mem_append.1 hk with hk | hk
          · exact (e1.2.2.1 k rt hk hpend).imp (fun h => h) (List.mem_append_left _)
          · exact (e2.2.2.1 k rt hk hpend).imp (fun h => h) (List.mem_append_right _)
        · rw [e1.2.2.2 hno, e2.2.2.2.2 hno]; rfl

/-! ## Concrete cases -/

/-- A system with a running job 1 and its running task 5 (two attempts allowed), a second active task on node 9 and
a task of another job. -/
def retryExS : Sys :=
  { next := 20
    ds := { jobs := [{ id := 1, state := .running, position := 1, tasks := [{}], taskCount := 1 },
                     { id := 2, state := .running }]
            tasks := [{ id := 5, jobID := 1, state := .running, createdAt := some 0 },
                      { id := 6, jobID := 1, state := .running, nodeID := 9, createdAt := some 0 },
                      { id := 7, jobID := 2, state := .running, createdAt := some 0 }]
            nodes := [{ id := 9, queue := "x-9" }] } }
/-- The failure report of task 5 with one of two attempts used. -/
def retryExT (attempts : Nat) : Task :=
  { id := 5, jobID := 1, name := "work", state := .failed, error := "boom", retry := some { limit := 2, attempts := attempts } }
def retryExC : Cfg := { O := fun _ _ _ => .error "no expressions", parseDur := fun _ => none }

/-- the hypotheses of `C09_retry` -/
example : ∃ (p : Prog Res) (rt : Task) (s' : Sys), coordinatorHandler retryExC 5 (.task "error" (retryExT 1)) = some p ∧
    p.exec retryExS = (some none, s') ∧
    s'.out = [.task "pending" rt] ∧ rt.retry = some { limit := 2, attempts := 2 } ∧ rt.name = "work" := by
  obtain ⟨p, rt, s', _, _, sd, g, h0, h1, h2, h3, h4, _⟩ := C09_retry retryExC 5 (t := retryExT 1) (u := { id := 5, jobID := 1, state := .running, createdAt := some 0 })
    (j := { id := 1, state := .running, position := 1, tasks := [{}], taskCount := 1 }) (r := ⟨2, 1⟩) (s := retryExS)
    rfl rfl (.inl rfl) rfl (by decide)
    (fun sd x hx => ⟨x, C28_plain_text _ _ _ _ (by
      rw [Task.texts_eq] at hx
      simp [retryExT, textsL, textsP, subTexts] at hx
      rcases hx with rfl | rfl <;> decide)⟩) rfl
  refine ⟨p, rt, s', h0, h1, h2, by rw [h4], ?_⟩
  have : g "work" = "work" := by
    have h5 := h3 "work" (by rw [Task.texts_eq]; simp [retryExT])
    rw [C28_plain_text _ _ _ _ (by decide)] at h5
    exact (Except.ok.inj h5).symm
  rw [h4]
  simp only [Task.mapTexts_eq, retryExT, Task.forgetRedelivery]
  exact this

/-- the hypotheses of `C10_failure_stops_work`: no attempt is left -/
example : ∃ (p : Prog Res) (s' : Sys), coordinatorHandler retryExC 5 (.task "error" (retryExT 2)) = some p ∧
    p.exec retryExS = (some none, s') ∧
    (∃ j', s'.ds.job? 1 = some j' ∧ j'.state = .failed) ∧
    Msg.task "x-9" { id := 6, jobID := 1, state := .cancelled, nodeID := 9, createdAt := some 0 } ∈ s'.out := by
  obtain ⟨p, s', h0, h1, ⟨j', h2, h3, _⟩, _, h4, _⟩ := C10_failure_stops_work retryExC 5 (t := retryExT 2)
    (u := { id := 5, jobID := 1, state := .running, createdAt := some 0 })
    (j := { id := 1, state := .running, position := 1, tasks := [{}], taskCount := 1 }) (s := retryExS)
    rfl rfl (.inl rfl) (.inr ⟨⟨2, 2⟩, rfl, Nat.le_refl _⟩) rfl (by decide +kernel)
    (fun r hr _ _ => by
      simp only [retryExS, List.mem_cons, List.not_mem_nil, or_false] at hr
      rcases hr with rfl | rfl | rfl <;> simp [Cancellable, subJobRef, DS.node?, retryExS])
  refine ⟨p, s', h0, h1, ⟨j', h2, h3⟩, ?_⟩
  obtain ⟨n, hn, hm⟩ := h4 { id := 6, jobID := 1, state := .running, nodeID := 9, createdAt := some 0 }
    (by simp [retryExS]) rfl rfl (by decide) rfl (by decide)
  have : n = { id := 9, queue := "x-9" } := by
    simp only [DS.node?, retryExS, List.find?, decide_true, Option.some.injEq] at hn
    exact hn.symm
  subst this
  exact hm

/-- a run as in `C09_every_run` that creates and queues an attempt -/
example : ∃ l q, Run (errorHandler retryExC (retryExT 1)) l q ∧ (created l).length = 1 := by
  refine ⟨_, _, .cons (PStep.dbOk _ _ retryExS.ds 20) (.cons (PStep.nondet _ retryExS.ds 20 3) (.cons (PStep.dbOk _ _ retryExS.ds 20)
    (.cons (PStep.nondet _ retryExS.ds 20 3) (.cons (PStep.uuid _ retryExS.ds 20) (.cons (PStep.nondet _ retryExS.ds 20 3)
    (.cons (PStep.dbOk _ _ retryExS.ds 20) (.nil _))))))), ?_⟩
  decide +kernel

/-- **C09, the exception.** The acknowledgement of the new attempt's insertion is lost: the handler reports an error, is run
again by the wrapper around every handler (`coordinator.go:310-323`) and creates a second attempt. -/
theorem C09_two_attempts : ∃ p l q, coordinatorHandler retryExC 5 (.task "error" (retryExT 1)) = some p ∧ Run p l q ∧
    (created l).length = 2 ∧ ∀ rt ∈ created l, rt.retry = some { limit := 2, attempts := 2 } := by
  let ds := retryExS.ds
  let ds2 : DS := { ds with tasks := ds.tasks ++ [taskRow { retryExT 1 with
                                                        id := 20, state := .pending, createdAt := some 3, error := ""
                                                        retry := some { limit := 2, attempts := 2 } }] }
  refine ⟨_, _, _, coord_error _ _ _, .cons (PStep.dbOk _ _ ds 20) (.cons (PStep.nondet _ ds 20 3) (.cons (PStep.dbOk _ _ ds 20)
    (.cons (PStep.nondet _ ds 20 3) (.cons (PStep.uuid _ ds 20) (.cons (PStep.nondet _ ds 20 3)
    (.cons (PStep.dbLost _ _ ds 20 "connection lost") (.cons (PStep.nondet _ ds2 21 3)
    (.cons (PStep.dbOk _ _ ds2 21) (.cons (PStep.nondet _ ds2 21 3) (.cons (PStep.dbOk _ _ ds2 21)
    (.cons (PStep.nondet _ ds2 21 3) (.cons (PStep.uuid _ ds2 21) (.cons (PStep.nondet _ ds2 21 3)
    (.cons (PStep.dbOk _ _ ds2 21) (.nil _))))))))))))))), ?_, ?_⟩
  · decide +kernel
  · decide +kernel

end Tork
