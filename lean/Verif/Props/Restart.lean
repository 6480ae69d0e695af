import Verif.Props.Completion
import Verif.Props.Guards
/-!
# C43 — a restart runs the current task once
-/

namespace Tork
open Prog

/-! ## Fault-free handling -/

/-- **C43.** Handling a restart request of a FAILED or CANCELLED job: the job's row becomes RUNNING again (its failure time
is cleared, everything else is kept, in particular position and context); exactly one task row is created, an instance of
the task at the job's position, evaluated in the job's context; exactly one message is sent: that task, to the scheduling
queue. Nothing else changes. -/
theorem C43_restart (C : Cfg) (fuel : Nat) {j a : Job} {d : Task} {s : Sys}
    (hst : j.state = .restart) (ha : s.ds.job? j.id = some a) (hs : a.state = .failed ∨ a.state = .cancelled)
    (hpos : 1 ≤ j.position) (hd : j.tasks[j.position - 1]? = some d) (hfresh : s.ds.task? s.next = none) :
    ∃ (p : Prog Res) (s' : Sys) (x : Task),
      coordinatorHandler C fuel (.job j) = some p ∧ p.exec s = (some none, s') ∧
      InstanceOf C j.context d s.next j.id j.position x ∧
      s'.out = s.out ++ [.task "pending" x] ∧
      (∀ k, s'.ds.job? k = if k = j.id then some { a with state := .running, failedAt := none } else s.ds.job? k) ∧
      (∀ k, s'.ds.task? k = if k = s.next then some (taskRow x) else s.ds.task? k) := by
  let u : Job := { a with state := .running, failedAt := none }
  let ds1 := s.ds.setJob j.id u
  let s1 := s.withDs ds1
  let x := evalOrFail C j.context s1.ticked.drawn.clock s1.clock (prepTask d s.next j.id j.position s1.clock)
  have hJ : ∀ k, ds1.job? k = if k = j.id then some (persistJob a u) else s.ds.job? k := job?_set_eq ha
  have hT : ∀ k, ds1.task? k = s.ds.task? k := fun k => rfl
  have hinst : InstanceOf C j.context d s.next j.id j.position x := instance_evalOrFail ..
  obtain ⟨hxid, hxj, _, _, hxc, _⟩ := hinst.fields
  have hcreate : createTask x ds1 = .ok ((), { ds1 with tasks := ds1.tasks ++ [taskRow x] }) := by
    refine createTask_of ?_ ?_ hxc
    · rw [hxid]; exact hfresh
    · rw [hxj, hJ, if_pos rfl]; rfl
  let s' := ((s1.ticked.drawn.ticked).withDs { ds1 with tasks := ds1.tasks ++ [taskRow x] }).send [.task QUEUE_PENDING x]
  refine ⟨_, s', x, rfl, ?_, hinst, rfl, fun k => hJ k, fun k => ?_⟩
  · refine wrapJob_ok (x := j) ?_
    unfold jobHandler
    rw [hst]
    simp only [bind_eq, pure_eq]
    refine exec_bind_of (b := none) (s' := s') ?_
    unfold restartJob
    simp only [bind_eq, pure_eq]
    rw [exec_tx (updateJob_of ha (m := restartJobRow) (g := ()) (u := u) (by
      unfold restartJobRow
      rw [if_neg (by intro h; rcases hs with hs | hs <;> simp [hs] at h)]))]
    simp only
    show Prog.exec _ s1 = _
    rw [exec_now, if_neg (by omega), hd]
    simp only
    rw [exec_uuid, exec_seed]
    show Prog.exec ((tx (createTask x)).bind _) _ = _
    rw [exec_tx (s := s1.ticked.drawn.ticked) hcreate]
    simp only
    rw [exec_pub, exec_ret]
    rfl
  · show DS.task? { ds1 with tasks := ds1.tasks ++ [taskRow x] } k = _
    rw [task?_append, hT]
    have e1 : (taskRow x).id = s.next := hxid
    by_cases hk2 : k = s.next
    · rw [if_pos hk2, hk2, hfresh, Option.none_or, if_pos e1]
    · rw [if_neg hk2, if_neg (by rw [e1]; exact Ne.symm hk2)]
      cases s.ds.task? k <;> rfl

/-- **C43, from the request on.** A restart request for a FAILED or CANCELLED job with a task left is accepted and sends one
message; handling that message (the job being unchanged meanwhile) re-creates the job's current task, once. -/
theorem C43_restart_request (C : Cfg) (fuel : Nat) {id : Nat} {j d} {s : Sys} (hj : s.ds.job? id = some j)
    (hs : j.state = .failed ∨ j.state = .cancelled) (hpos : 1 ≤ j.position) (hd : j.tasks[j.position - 1]? = some d)
    (hfresh : s.ds.task? s.next = none) :
    ∃ (m : Msg) (s1 : Sys) (p : Prog Res) (s' : Sys) (x : Task),
      (apiRestart id).exec s = (some (.ok ()), s1) ∧ s1.out = s.out ++ [m] ∧
      coordinatorHandler C fuel m = some p ∧ p.exec s1 = (some none, s') ∧
      InstanceOf C j.context d s.next id j.position x ∧
      s'.out = s.out ++ [m, .task "pending" x] ∧
      (∀ k, s'.ds.job? k = if k = id then some { j with state := .running, failedAt := none } else s.ds.job? k) ∧
      (∀ k, s'.ds.task? k = if k = s.next then some (taskRow x) else s.ds.task? k) := by
  have hid : j.id = id := (job?_mem hj).2
  subst hid
  have hle : j.position ≤ j.tasks.length := by
    have := (List.getElem?_eq_some_iff.1 hd).1; omega
  have h1 := (C41_restart j.id s).2.2 j hj ⟨hs, hle⟩
  obtain ⟨p, s', x, h2, h3, h4, h5, h6, h7⟩ := C43_restart C fuel (j := { j with state := .restart }) (a := j) (d := d)
    (s := s.send [.job { j with state := .restart }]) rfl hj hs hpos hd hfresh
  exact ⟨_, _, p, s', x, h1, rfl, h2, h3, h4, by rw [h5]; simp, h6, h7⟩

/-! ## Every run -/

/-- After the messages `ms` and the creations `cs`, only reports of failure and cancellation. -/
def Calm (ms : List Msg) (cs : List Task) (s : Sum2) : Prop :=
  s.2 = cs ∧ ∃ r, s.1 = ms ++ r ∧ ∀ q x, Msg.task q x ∈ r → x.state = .cancelled ∨ x.state = .failed

theorem Calm.pub {ms : List Msg} {cs : List Task} {m : Msg} (hm : ∀ q x, m = .task q x → x.state = .cancelled ∨ x.state = .failed)
    (s : Sum2) (ds : DS) (h : Calm ms cs s) : Calm ms cs (sum2 s ⟨ds, ds, [m]⟩) := by
  obtain ⟨h1, r, h2, h3⟩ := h
  refine ⟨by simp [sum2, newTasks_self, h1], r ++ [m], by simp [sum2, h2], fun q x hx => ?_⟩
  rcases List.mem_append.1 hx with hx | hx
  · exact h3 q x hx
  · exact hm q x (List.mem_singleton.1 hx).symm

theorem Calm.updT {ms : List Msg} {cs : List Task} {id : Nat} {m : Task → Task} (s : Sum2) (ds : DS) (g : Unit) (ds' : DS)
    (h : updateTask' id m ds = .ok (g, ds')) (hs : Calm ms cs s) : Calm ms cs (sum2 s ⟨ds, ds', []⟩) := by
  obtain ⟨r, _, rfl⟩ := updateTask'_ok h
  simpa only [sum2, newTasks_setTask, List.append_nil] using hs

theorem Calm.updJ {ms : List Msg} {cs : List Task} {id : Nat} {m : Job → Job} (s : Sum2) (ds : DS) (g : Unit) (ds' : DS)
    (h : updateJob' id m ds = .ok (g, ds')) (hs : Calm ms cs s) : Calm ms cs (sum2 s ⟨ds, ds', []⟩) := by
  obtain ⟨r, _, rfl⟩ := updateJob'_ok h
  simpa only [sum2, newTasks_setJob, List.append_nil] using hs

theorem cancelLoop_calm (ms : List Msg) (cs : List Task) (ts : List Task) : Preserves sum2 (Calm ms cs) (cancelLoop ts) := by
  induction ts with
  | nil => rw [cancelLoop]; trivial
  | cons t ts ih =>
    rw [cancelLoop]
    simp only [bind_eq, pure_eq]
    refine inv_tx quiet_sum2 (fun s ds x ds' hg hs => Calm.updT s ds x ds' hg hs) fun r => ?_
    cases r with
    | error e => trivial
    | ok x =>
      dsimp only
      split
      · refine inv_read quiet_sum2 (read_getJob _) fun r => ?_
        cases r with
        | error e => trivial
        | ok sj =>
          refine inv_pub (Calm.pub fun q x h => by cases h) fun r => ?_
          cases r <;> first | trivial | exact ih
      · split
        · refine inv_read quiet_sum2 (read_getNode _) fun r => ?_
          cases r with
          | error e => trivial
          | ok n =>
            refine inv_pub (Calm.pub fun q x h => by cases h; exact .inl rfl) fun r => ?_
            cases r <;> first | trivial | exact ih
        · exact ih

theorem cancelActive_calm (ms : List Msg) (cs : List Task) (id : Nat) : Preserves sum2 (Calm ms cs) (cancelActiveTasks id) := by
  unfold cancelActiveTasks
  simp only [bind_eq, pure_eq]
  refine inv_read quiet_sum2 (read_getActive _) fun r => ?_
  cases r with
  | error e => trivial
  | ok ts => exact cancelLoop_calm ms cs ts

theorem failJob_calm (ms : List Msg) (cs : List Task) (j : Job) : Preserves sum2 (Calm ms cs) (failJob j) := by
  unfold failJob
  simp only [bind_eq, pure_eq]
  refine inv_tx quiet_sum2 (fun s ds x ds' hg hs => Calm.updJ s ds x ds' hg hs) fun r => ?_
  cases r with
  | error e => trivial
  | ok x =>
    dsimp only
    split
    · refine inv_read quiet_sum2 (read_getTask _) fun r => ?_
      cases r with
      | error e => trivial
      | ok p =>
        refine inv_pub (Calm.pub fun q x h => by cases h; exact .inr rfl) fun r => ?_
        cases r <;> trivial
    · refine inv_bind (cancelActive_calm ms cs _) fun r => ?_
      cases r with
      | some e => trivial
      | none =>
        refine inv_read quiet_sum2 (read_getJob _) fun r => ?_
        cases r with
        | error e => trivial
        | ok j' =>
          dsimp only
          split
          · refine inv_pub (Calm.pub fun q x h => by cases h) fun r => ?_
            cases r <;> trivial
          · trivial

/-- What every run of a restart does: nothing, or one task created, or one task created and then queued — followed, when
something went wrong, by reports of failure and cancellation. -/
def RestartRun (C : Cfg) (j : Job) (s : Sum2) : Prop :=
  ∃ ms cs, Calm ms cs s ∧ ((ms = [] ∧ cs = []) ∨
    ∃ d id x, j.tasks[j.position - 1]? = some d ∧ InstanceOf C j.context d id j.id j.position x ∧ cs = [taskRow x] ∧
      (ms = [] ∨ ms = [.task "pending" x]))

theorem restart_every (C : Cfg) (j : Job) (hst : j.state = .restart) :
    Every sum2 (fun s _ => RestartRun C j s) (wrapJob C j) ([], []) := by
  have h0 : RestartRun C j ([], []) := ⟨[], [], ⟨rfl, [], rfl, by simp⟩, .inl ⟨rfl, rfl⟩⟩
  have fin : ∀ (s : Sum2) (x : Job), RestartRun C j s → Every sum2 (fun s _ => RestartRun C j s) (failJob x) s := by
    rintro s x ⟨ms, cs, h1, h2⟩
    exact every_mono ((failJob_calm ms cs x).every quiet_sum2 h1) fun s _ h => ⟨ms, cs, h, h2⟩
  unfold wrapJob jobHandler
  rw [hst]
  simp only [bind_eq, pure_eq, bind_assoc, ret_bind]
  refine every_bind (every_mono (post := fun s (_ : Option Res) => RestartRun C j s) ?_ ?_)
  · unfold restartJob
    simp only [bind_eq, pure_eq]
    refine every2_updJob h0 (fun e => h0) fun ds a u g ha hu => ?_
    refine every_now quiet_sum2 h0 fun now => ?_
    split
    · exact h0
    · split
      · exact h0
      · rename_i d hd
        refine every_uuid quiet_sum2 h0 fun id => every_seed quiet_sum2 h0 fun sd => ?_
        have hi := instance_evalOrFail C j.context sd now id j.id j.position d
        generalize evalOrFail C j.context sd now (prepTask d id j.id j.position now) = x at hi ⊢
        have h1 : RestartRun C j ([], [taskRow x]) :=
          ⟨[], [taskRow x], ⟨rfl, [], rfl, by simp⟩, .inr ⟨d, id, x, hd, hi, rfl, .inl rfl⟩⟩
        have h2 : RestartRun C j ([.task "pending" x], [taskRow x]) :=
          ⟨[.task "pending" x], [taskRow x], ⟨rfl, [], rfl, by simp⟩, .inr ⟨d, id, x, hd, hi, rfl, .inr rfl⟩⟩
        refine every2_create h0 (fun r => ?_) (fun e => h0)
        cases r with
        | error e => exact h1
        | ok _ =>
          refine every2_pub h1 (fun r => ?_) (fun e => h1)
          cases r <;> exact h2
  · intro s r h
    cases r with
    | none => exact h
    | some r =>
      cases r with
      | none => exact h
      | some e => exact every_now quiet_sum2 h fun now => fin s _ h

/-- **C43 under every interleaving, fault and crash point.** One restart message creates at most one task; a created task
is an instance of the task at the job's position, evaluated in the job's context; and, apart from reports of failure and
cancellation, at most one task is sent, the created one, to the scheduling queue. -/
theorem C43_every_run (C : Cfg) (fuel : Nat) {j : Job} (hst : j.state = .restart) {p q : Prog Res} {l : List Ev}
    (hp : coordinatorHandler C fuel (.job j) = some p) (h : Run p l q) :
    ∃ first rest, published l = first ++ rest ∧
      (∀ k x, Msg.task k x ∈ rest → x.state = .cancelled ∨ x.state = .failed) ∧
      ((first = [] ∧ created l = []) ∨
       ∃ d id x, j.tasks[j.position - 1]? = some d ∧ InstanceOf C j.context d id j.id j.position x ∧
        created l = [taskRow x] ∧ (first = [] ∨ first = [.task "pending" x])) := by
  cases (Option.some.inj hp)
  obtain ⟨ms, cs, ⟨h1, r, h2, h3⟩, h4⟩ := run_sum2 (restart_every C j hst) h
  simp only at h1 h2
  subst h1
  exact ⟨ms, r, h2, h3, h4⟩

/-! ## Duplicates -/

/-- **C43.** A restart message for a top-level job that is neither FAILED nor CANCELLED restarts nothing: no task is created
(the task rows are the old ones, active ones CANCELLED) and the job does not become RUNNING; a RUNNING or SCHEDULED job
becomes FAILED, a PENDING or COMPLETED one keeps its row. -/
theorem C43_refused (C : Cfg) (fuel : Nat) {j a : Job} {s : Sys}
    (hst : j.state = .restart) (ha : s.ds.job? j.id = some a) (hf : a.state ≠ .failed) (hcn : a.state ≠ .cancelled)
    (htop : j.parentID = 0) (hkeys : (s.ds.tasks.map (·.id)).Nodup) (hc : ∀ t ∈ s.ds.activeOf j.id, Cancellable s.ds t) :
    ∃ (p : Prog Res) (s' : Sys) (at' : Nat), coordinatorHandler C fuel (.job j) = some p ∧ p.exec s = (some none, s') ∧
      (a.state = .running ∨ a.state = .scheduled →
        s'.ds.job? j.id = some { a with state := .failed, failedAt := some at' }) ∧
      (a.state ≠ .running ∧ a.state ≠ .scheduled → s'.ds.job? j.id = some a) ∧
      (∀ k, s'.ds.task? k = (s.ds.task? k).map fun r =>
        if r.jobID = j.id ∧ r.state.isActive then { resave r with state := .cancelled } else r) := by
  obtain ⟨a', h1, h2⟩ := failJob_exec_top (j := { j with failedAt := some s.clock, state := .failed }) (a := a) (s := s.ticked)
    ha htop hc
  have he : (jobHandler C j).exec s = (some (some "job can't be restarted", j), s) := by
    unfold jobHandler
    rw [hst]
    simp only [bind_eq, pure_eq]
    refine exec_bind_of (b := some "job can't be restarted") (s' := s) ?_
    unfold restartJob
    simp only [bind_eq, pure_eq]
    rw [exec_tx_err (updateJob_refused ha (m := restartJobRow) (e := "job can't be restarted") (by
      unfold restartJobRow
      rw [if_pos ⟨hf, hcn⟩]))]
    rfl
  have hrow : DS.job? (DS.cancelRows (s.ds.setJob j.id (failJobRow (some s.clock) a)) (s.ds.activeOf j.id)) j.id =
      some (persistJob a (failJobRow (some s.clock) a)) := by
    rw [job?_cancelRows, job?_setJob, ha]; simp
  refine ⟨_, _, s.clock, rfl, (wrapJob_err he).trans h2, fun hr => ?_, fun hr => ?_, ?_⟩
  · refine Eq.trans hrow ?_
    unfold failJobRow
    rw [if_pos hr]
    rfl
  · refine Eq.trans hrow ?_
    unfold failJobRow
    rw [if_neg (fun h => h.elim hr.1 hr.2)]
    cases a; rfl
  · intro k
    show DS.task? (DS.cancelRows _ _) _ = _
    exact task?_cancelActive (ds := s.ticked.ds.setJob j.id (failJobRow (some s.clock) a)) hkeys j.id k

/-- **C43, the defect.** "A duplicate restart request does not harm the running job" is false of the code: whenever a
restart message for a top-level job is handled while that job is RUNNING — e.g. the second of two restart messages —
the job becomes FAILED and every active task of it is CANCELLED. (No second instance of the task is created.) -/
theorem C43_duplicate_fails_job (C : Cfg) (fuel : Nat) {j a : Job} {s : Sys}
    (hst : j.state = .restart) (ha : s.ds.job? j.id = some a) (hrun : a.state = .running) (htop : j.parentID = 0)
    (hkeys : (s.ds.tasks.map (·.id)).Nodup) (hc : ∀ t ∈ s.ds.activeOf j.id, Cancellable s.ds t) :
    ∃ (p : Prog Res) (s' : Sys) (at' : Nat), coordinatorHandler C fuel (.job j) = some p ∧ p.exec s = (some none, s') ∧
      s'.ds.job? j.id = some { a with state := .failed, failedAt := some at' } ∧
      (∀ k, s'.ds.task? k = (s.ds.task? k).map fun r =>
        if r.jobID = j.id ∧ r.state.isActive then { resave r with state := .cancelled } else r) := by
  obtain ⟨p, s', at', h1, h2, h3, _, h4⟩ := C43_refused C fuel hst ha (by rw [hrun]; decide) (by rw [hrun]; decide) htop hkeys hc
  exact ⟨p, s', at', h1, h2, h3 (.inl hrun), h4⟩

/-! ## Concrete cases -/

namespace RestartEx

def exRow : Job := { id := 1, state := .failed, position := 2, tasks := [{ name := "a" }, { name := "b" }], taskCount := 2 }
def sys : Sys :=
  { next := 20
    ds := { jobs := [exRow], tasks := [{ id := 5, jobID := 1, state := .completed, createdAt := some 0, position := 1 },
                                     { id := 6, jobID := 1, state := .failed, createdAt := some 0, position := 2 }] } }
def cfg : Cfg := { O := fun _ _ _ => .error "no expressions", parseDur := fun _ => none }

/-- the hypotheses of `C43_restart_request` (and hence of `C43_restart`): task "b" is run again -/
example : ∃ (m : Msg) (s1 : Sys) (p : Prog Res) (s' : Sys) (x : Task), (apiRestart 1).exec sys = (some (.ok ()), s1) ∧
    coordinatorHandler cfg 5 m = some p ∧ p.exec s1 = (some none, s') ∧ InstanceOf cfg exRow.context { name := "b" } 20 1 2 x ∧
    s'.out = [m, .task "pending" x] := by
  obtain ⟨m, s1, p, s', x, h1, _, h2, h3, h4, h5, _⟩ := C43_restart_request cfg 5 (id := 1) (j := exRow) (d := { name := "b" })
    (s := sys) rfl (.inl rfl) (by decide) rfl rfl
  exact ⟨m, s1, p, s', x, h1, h2, h3, h4, h5⟩

/-- The same message handled twice: the second handling meets the hypotheses of `C43_duplicate_fails_job` and ends with
the restarted job FAILED and its new task CANCELLED. -/
theorem C43_duplicate_witness : ∃ (s1 s2 : Sys) (p : Prog Res),
    coordinatorHandler cfg 5 (.job { exRow with state := .restart }) = some p ∧
    p.exec sys = (some none, s1) ∧ (s1.ds.job? 1).map (·.state) = some .running ∧ (s1.ds.task? 20).map (·.state) = some .pending ∧
    p.exec s1 = (some none, s2) ∧ (s2.ds.job? 1).map (·.state) = some .failed ∧ (s2.ds.task? 20).map (·.state) = some .cancelled := by
  refine ⟨_, _, wrapJob cfg { exRow with state := .restart }, rfl, rfl, ?_, ?_, rfl, ?_, ?_⟩ <;> decide +kernel

/-- the hypotheses of `C43_refused`: a COMPLETED job stays as it is -/
example : ∃ p s', coordinatorHandler cfg 5 (.job { exRow with state := .restart }) = some p ∧
    p.exec { sys with ds := { sys.ds with jobs := [{ exRow with state := .completed }] } } = (some none, s') ∧
    s'.ds.job? 1 = some { exRow with state := .completed } := by
  obtain ⟨p, s', a, h1, h2, _, h3, _⟩ := C43_refused cfg 5 (j := { exRow with state := .restart })
    (a := { exRow with state := .completed }) (s := { sys with ds := { sys.ds with jobs := [{ exRow with state := .completed }] } })
    rfl rfl (by decide) (by decide) rfl (by decide) (fun t ht => by revert ht; exact fun ht => nomatch (show t ∈ ([] : List Task) from ht))
  exact ⟨p, s', h1, h2, h3 (by decide)⟩

/-- a run as in `C43_every_run` that creates a task and stops before queueing it -/
example : ∃ l q, Run (wrapJob cfg { exRow with state := .restart }) l q ∧ (created l).length = 1 ∧ published l = [] := by
  refine ⟨_, _, .cons (PStep.dbOk _ _ sys.ds 20) (.cons (PStep.nondet _ sys.ds 20 3) (.cons (PStep.uuid _ sys.ds 20)
    (.cons (PStep.nondet _ sys.ds 20 3) (.cons (PStep.dbOk _ _ sys.ds 20) (.nil _))))), ?_, rfl⟩
  decide +kernel

end RestartEx

end Tork
