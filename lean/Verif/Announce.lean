import Verif.JobEvents
import Verif.CalmWorld
/-!
# Completions are announced

`Duly p K`: whenever `p`, run without faults, completes a top-level job, it goes on to announce it. `K` is a set of databases closed under
what other goroutines do, as far as needed here: jobs keep their parents (`ParKept`).
-/

namespace Tork
open Prog

/-- Jobs keep their parents. -/
def ParKept (a b : DS) : Prop := ∀ id x, a.job? id = some x → ∃ y, b.job? id = some y ∧ y.parentID = x.parentID

theorem ParKept.refl (a : DS) : ParKept a a := fun _ x h => ⟨x, h, rfl⟩
theorem ParKept.trans {a b c : DS} (h1 : ParKept a b) (h2 : ParKept b c) : ParKept a c := fun id x h => by
  obtain ⟨y, hy, p1⟩ := h1 id x h
  obtain ⟨z, hz, p2⟩ := h2 id y hy
  exact ⟨z, hz, p2.trans p1⟩

/-- Job `n`, which has no parent, became COMPLETED. -/
def TopCompleted (a b : DS) (n : Nat) : Prop :=
  ∃ x y, a.job? n = some x ∧ x.state ≠ .completed ∧ b.job? n = some y ∧ y.state = .completed ∧ y.parentID = 0

theorem TopCompleted.completed {a b : DS} {n : Nat} (h : TopCompleted a b n) : Completed a b n := by
  obtain ⟨x, y, h1, h2, h3, h4, _⟩ := h
  exact ⟨x, y, h1, h2, h3, h4⟩

/-- `p`, run without faults to its end, announces the completion of job `n`. -/
def Will {α : Type} (n : Nat) : Prog α → Prop
  | .ret _ => False
  | .panic _ => False
  | .db _ k => ∀ r, Will n (k r)
  | .pub m k => m.announces n = true ∨ Will n (k (.ok ()))
  | .nondet k => ∀ x, Will n (k x)
  | .uuid k => ∀ x, Will n (k x)

def Duly {α : Type} : Prog α → (DS → Prop) → Prop
  | .ret _, _ => True
  | .panic _, _ => True
  | .db op k, K => ∀ ds, K ds → (∀ n, TopCompleted ds (op.run ds).2.1 n → Will n (k (op.run ds).1)) ∧ Duly (k (op.run ds).1) (ParKept (op.run ds).2.1)
  | .pub _ k, K => ∀ r, Duly (k r) K
  | .nondet k, K => ∀ n, Duly (k n) K
  | .uuid k, K => ∀ n, Duly (k n) K

section
variable {α β γ : Type} {K : DS → Prop}

theorem Will.bind {n : Nat} {p : Prog α} {k : α → Prog β} (h : Will n p) : Will n (p.bind k) := by
  induction p with
  | ret a => exact h.elim
  | panic e => exact h.elim
  | db op f ih => exact fun r => ih r (h r)
  | pub m f ih => exact h.imp id (ih _)
  | nondet f ih => exact fun r => ih r (h r)
  | uuid f ih => exact fun r => ih r (h r)

theorem Duly.mono {p : Prog α} {K K' : DS → Prop} (h : Duly p K') (hk : ∀ d, K d → K' d) : Duly p K := by
  induction p generalizing K K' with
  | ret a => trivial
  | panic e => trivial
  | db op f ih => exact fun ds hd => h ds (hk ds hd)
  | pub m f ih => exact fun r => ih r (h r) hk
  | nondet f ih => exact fun n => ih n (h n) hk
  | uuid f ih => exact fun n => ih n (h n) hk

abbrev Duly0 (p : Prog α) : Prop := Duly p fun _ => True

theorem Duly0.any {p : Prog α} (h : Duly0 p) : Duly p K := h.mono fun _ _ => trivial

theorem duly_bind {p : Prog α} {k : α → Prog β} (h : Duly p K) (hk : ∀ a, Duly0 (k a)) : Duly (p.bind k) K := by
  induction p generalizing K with
  | ret a => exact (hk a).any
  | panic e => trivial
  | db op f ih => exact fun ds hd => ⟨fun n hn => ((h ds hd).1 n hn).bind, ih _ (h ds hd).2⟩
  | pub m f ih => exact fun r => ih r (h r)
  | nondet f ih => exact fun r => ih r (h r)
  | uuid f ih => exact fun r => ih r (h r)

/-- No job became COMPLETED. -/
def NoNews (a b : DS) : Prop := ∀ n, ¬ Completed a b n

theorem NoNews.of_jobs {a b : DS} (h : b.jobs = a.jobs) : NoNews a b := fun n ⟨x, y, h1, h2, h3, h4⟩ => by
  unfold DS.job? at h1 h3
  rw [h, h1] at h3; cases h3; exact h2 h4

theorem NoNews.refl (a : DS) : NoNews a a := .of_jobs rfl

theorem NoNews.after_tasks {a b c : DS} (h : b.jobs = a.jobs) (hf : NoNews b c) : NoNews a c := fun n ⟨x, y, h1, h2, h3, h4⟩ =>
  hf n ⟨x, y, by unfold DS.job? at h1 ⊢; rw [h]; exact h1, h2, h3, h4⟩

theorem duly_tx {f : DS → Except Err (γ × DS)} {k : Except Err γ → Prog α} (hf : ∀ ds g ds', f ds = .ok (g, ds') → NoNews ds ds')
    (hk : ∀ r, Duly0 (k r)) : Duly ((tx f).bind k) K := by
  refine fun ds _ => ⟨fun n hn => absurd hn.completed ?_, (hk _).any⟩
  simp only [DbOp.of]
  cases h : f ds with
  | error e => exact NoNews.refl ds n
  | ok x => obtain ⟨g, ds'⟩ := x; exact hf ds g ds' h n

theorem duly_tx' {f : DS → Except Err (γ × DS)} {k : Except Err γ → Prog α} (he : ∀ e, Duly0 (k (.error e)))
    (hk : ∀ ds g ds', K ds → f ds = .ok (g, ds') → (∀ n, TopCompleted ds ds' n → Will n (k (.ok g))) ∧ Duly (k (.ok g)) (ParKept ds')) :
    Duly ((tx f).bind k) K := by
  intro ds hd
  show (∀ n, TopCompleted ds ((DbOp.of f).run ds).2.1 n → Will n (k ((DbOp.of f).run ds).1)) ∧ Duly (k ((DbOp.of f).run ds).1) (ParKept ((DbOp.of f).run ds).2.1)
  simp only [DbOp.of]
  cases h : f ds with
  | error e => exact ⟨fun n hn => absurd hn.completed (NoNews.refl ds n), (he e).any⟩
  | ok x => obtain ⟨g, ds'⟩ := x; exact hk ds g ds' hd h

theorem duly_pub {m : Msg} {k : Except Err Unit → Prog α} (hk : ∀ r, Duly (k r) K) : Duly ((publish m).bind k) K := hk
theorem duly_now {k : Nat → Prog α} (hk : ∀ r, Duly (k r) K) : Duly (Prog.now.bind k) K := hk
theorem duly_seed {k : Nat → Prog α} (hk : ∀ r, Duly (k r) K) : Duly (Prog.seed.bind k) K := hk
theorem duly_uuid {k : Nat → Prog α} (hk : ∀ r, Duly (k r) K) : Duly (Prog.newUUID.bind k) K := hk
theorem duly_ret (a : α) : Duly (.ret a) K := trivial
theorem duly_panic (e : String) : Duly (.panic e : Prog α) K := trivial

end

theorem nn_getJob {id : Nat} (ds : DS) (g : Job) (ds' : DS) (h : getJob id ds = .ok (g, ds')) : NoNews ds ds' := by
  rw [read_getJob id ds g ds' h]; exact .refl _
theorem nn_getTask {id : Nat} (ds : DS) (g : Task) (ds' : DS) (h : getTask id ds = .ok (g, ds')) : NoNews ds ds' := by
  rw [read_getTask id ds g ds' h]; exact .refl _
theorem nn_getNode {id : Nat} (ds : DS) (g : Node) (ds' : DS) (h : getNode id ds = .ok (g, ds')) : NoNews ds ds' := by
  rw [read_getNode id ds g ds' h]; exact .refl _
theorem nn_getActive {id : Nat} (ds : DS) (g : List Task) (ds' : DS) (h : getActiveTasks id ds = .ok (g, ds')) : NoNews ds ds' := by
  rw [read_getActive id ds g ds' h]; exact .refl _
theorem nn_createTask {t : Task} (ds : DS) (g : Unit) (ds' : DS) (h : createTask t ds = .ok (g, ds')) : NoNews ds ds' := by
  rw [(createTask_ok h).2.2]; exact .of_jobs rfl
theorem nn_task' {id : Nat} {m : Task → Task} (ds : DS) (g : Unit) (ds' : DS) (h : updateTask' id m ds = .ok (g, ds')) : NoNews ds ds' :=
  .of_jobs (fz_updateTask_jobs h)
theorem nn_createJob {j : Job} (ds : DS) (g : Unit) (ds' : DS) (h : createJob j ds = .ok (g, ds')) : NoNews ds ds' := fun n ⟨x, y, h1, h2, h3, h4⟩ => by
  unfold createJob at h
  split at h
  · cases h
  · split at h
    · cases h
    · cases h
      rw [job?_append, h1] at h3; cases h3; exact h2 h4
theorem nn_job {γ : Type} {id : Nat} {m : Job → Except Err (γ × Job)} (hm : ∀ u g u', m u = .ok (g, u') → u'.state = .completed → u.state = .completed)
    (ds : DS) (g : γ) (ds' : DS) (h : updateJob id m ds = .ok (g, ds')) : NoNews ds ds' := fun n ⟨x, y, e1, e2, e3, e4⟩ => by
  obtain ⟨u, u', h1, h2, rfl⟩ := updateJob_ok h
  rw [job?_setJob] at e3
  by_cases hk : n = id
  · subst hk
    rw [h1] at e1; cases e1
    rw [if_pos rfl, h1] at e3; cases e3
    exact e2 (hm _ _ _ h2 e4)
  · rw [if_neg hk, e1] at e3; cases e3; exact e2 e4
theorem nn_job' {id : Nat} {m : Job → Job} (hm : ∀ u, (m u).state = .completed → u.state = .completed)
    (ds : DS) (g : Unit) (ds' : DS) (h : updateJob' id m ds = .ok (g, ds')) : NoNews ds ds' :=
  nn_job (fun u g u' h hu => by cases h; exact hm u hu) ds g ds' h

/-- Programs that complete no job. -/
macro "dutiful" : tactic => `(tactic| repeat' first
  | with_reducible exact duly_ret _
  | with_reducible exact duly_panic _
  | assumption
  | (with_reducible refine duly_tx nn_getJob fun r => ?_)
  | (with_reducible refine duly_tx nn_getTask fun r => ?_)
  | (with_reducible refine duly_tx nn_getNode fun r => ?_)
  | (with_reducible refine duly_tx nn_getActive fun r => ?_)
  | (with_reducible refine duly_tx nn_createTask fun r => ?_)
  | (with_reducible refine duly_tx nn_createJob fun r => ?_)
  | (with_reducible refine duly_tx nn_task' fun r => ?_)
  | (with_reducible refine duly_tx (nn_job' fun u h => h) fun r => ?_)
  | (with_reducible refine duly_pub fun r => ?_)
  | (with_reducible refine duly_now fun r => ?_)
  | (with_reducible refine duly_seed fun r => ?_)
  | (with_reducible refine duly_uuid fun r => ?_)
  | split
  | dsimp only)

theorem duly_cancelLoop (ts : List Task) : Duly0 (cancelLoop ts) := by
  induction ts with
  | nil => rw [cancelLoop]; trivial
  | cons t ts ih =>
    rw [cancelLoop]
    simp only [bind_eq, pure_eq]
    dutiful

theorem duly_cancelActive (id : Nat) : Duly0 (cancelActiveTasks id) := by
  unfold cancelActiveTasks
  simp only [bind_eq, pure_eq]
  refine duly_tx nn_getActive fun r => ?_
  cases r with
  | error e => exact duly_ret _
  | ok ts => exact duly_cancelLoop ts

theorem duly_cancel (j : Job) : Duly0 (cancelHandler j) := by
  unfold cancelHandler
  simp only [bind_eq, pure_eq]
  have := duly_cancelActive j.id
  refine duly_tx (nn_job' fun u hu => ?_) fun r => ?_
  · unfold cancelJobRow at hu; split at hu
    · exact hu
    · cases hu
  · dutiful

theorem duly_failJob (j : Job) : Duly0 (failJob j) := by
  unfold failJob
  simp only [bind_eq, pure_eq]
  have := duly_cancelActive j.id
  refine duly_tx (nn_job' fun u hu => ?_) fun r => ?_
  · unfold failJobRow at hu; split at hu
    · cases hu
    · exact hu
  · dutiful
    refine duly_bind this fun r => ?_
    dutiful

theorem duly_failToErrorQueue (t : Task) (e : Err) : Duly0 (failToErrorQueue t e) := by
  unfold failToErrorQueue
  simp only [bind_eq, pure_eq]
  dutiful

theorem duly_scheduleRegular (t : Task) : Duly0 (scheduleRegularTask t) := by
  unfold scheduleRegularTask
  simp only [bind_eq, pure_eq]
  dutiful

theorem duly_attached (t : Task) (s : SubJobTask Task) : Duly0 (scheduleAttachedSubJob t s) := by
  unfold scheduleAttachedSubJob
  simp only [bind_eq, pure_eq]
  dutiful

theorem duly_detached (t : Task) (s : SubJobTask Task) : Duly0 (scheduleDetachedSubJob t s) := by
  unfold scheduleDetachedSubJob
  simp only [bind_eq, pure_eq]
  dutiful

theorem duly_eachLoop (C : Cfg) (j : Job) (now : Nat) (t : Task) (e : EachTask Task) (i : Nat) (l : List String) :
    Duly0 (eachLoop C j now t e i l) := by
  induction l generalizing t e i with
  | nil => rw [eachLoop]; exact duly_ret _
  | cons x l ih =>
    rw [eachLoop]
    simp only [bind_eq, pure_eq]
    dutiful
    all_goals first | exact ih _ _ _ | exact duly_failToErrorQueue _ _

theorem duly_parLoop (C : Cfg) (t : Task) (j : Job) (now : Nat) (l : List Task) : Duly0 (parLoop C t j now l) := by
  induction l with
  | nil => rw [parLoop]; exact duly_ret _
  | cons x l ih =>
    rw [parLoop]
    simp only [bind_eq, pure_eq]
    dutiful
    all_goals exact duly_failToErrorQueue _ _

theorem duly_scheduleEach (C : Cfg) (t : Task) (e : EachTask Task) : Duly0 (scheduleEachTask C t e) := by
  unfold scheduleEachTask
  simp only [bind_eq, pure_eq]
  dutiful
  all_goals first | exact duly_eachLoop _ _ _ _ _ _ _ | exact duly_failToErrorQueue _ _

theorem duly_schedulePar (C : Cfg) (t : Task) (p : ParallelTask Task) : Duly0 (scheduleParallelTask C t p) := by
  unfold scheduleParallelTask
  simp only [bind_eq, pure_eq]
  dutiful
  all_goals exact duly_parLoop _ _ _ _ _

theorem duly_scheduleTask (C : Cfg) (t : Task) : Duly0 (scheduleTask C t) := by
  unfold scheduleTask
  simp only [bind_eq, pure_eq]
  dutiful
  all_goals first | exact duly_schedulePar _ _ _ | exact duly_scheduleEach _ _ _ | exact duly_detached _ _ | exact duly_scheduleRegular _ | (refine duly_bind (duly_attached _ _) fun _ => ?_; dutiful)

theorem duly_skip (t : Task) : Duly0 (skipTask t) := by
  unfold skipTask
  simp only [bind_eq, pure_eq]
  dutiful

theorem duly_pending (C : Cfg) (t : Task) : Duly0 (pendingHandler C t) := by
  unfold pendingHandler
  dutiful
  all_goals first | exact duly_skip _ | exact duly_scheduleTask _ _

theorem duly_start (C : Cfg) (j : Job) : Duly0 (startJob C j) := by
  unfold startJob
  simp only [bind_eq, pure_eq]
  refine duly_now fun now => ?_
  split
  · exact duly_panic _
  · refine duly_uuid fun id => duly_seed fun sd => ?_
    refine duly_tx nn_createTask fun r => ?_
    split
    · exact duly_ret _
    · refine duly_now fun n => duly_tx (nn_job' fun u h => (by cases h)) fun r => ?_
      split
      · exact duly_ret _
      · split
        · refine duly_now fun n => ?_
          with_reducible refine duly_bind (duly_failJob _) fun _ => ?_
          with_reducible exact duly_ret _
        · with_reducible refine duly_bind (duly_pending _ _) fun _ => ?_
          with_reducible exact duly_ret _

/-- Completing a top-level job obliges to announce it. -/
theorem duly_complete (C : Cfg) (j : Job) {K : DS → Prop} (hK : ∀ ds, K ds → ∃ row, ds.job? j.id = some row ∧ row.parentID = j.parentID) :
    Duly (completeJob C j) K := by
  unfold completeJob
  simp only [bind_eq, pure_eq]
  refine duly_now fun now => duly_seed fun sd => duly_now fun now2 => ?_
  refine duly_tx' (fun e => duly_ret _) fun ds g ds' hd h => ?_
  obtain ⟨u, u', h1, h2, h3⟩ := updateJob_ok h
  have key : g.id = j.id ∧ g.parentID = j.parentID ∧ u'.state = g.state := by
    unfold completeJobRow at h2
    split at h2
    · cases h2
    · split at h2
      · cases h2; exact ⟨rfl, rfl, rfl⟩
      · dsimp only at h2
        split at h2 <;> (cases h2; exact ⟨rfl, rfl, rfl⟩)
  obtain ⟨k1, k2, k3⟩ := key
  refine ⟨fun n hn => ?_, ?_⟩
  · obtain ⟨x, y, e1, e2, e3, e4, e5⟩ := hn
    obtain ⟨row, r1, r2⟩ := hK ds hd
    rw [h1] at r1; cases r1
    have hnj : n = j.id := Classical.byContradiction fun hn => by
      rw [h3, job?_setJob, if_neg hn, e1] at e3; cases e3; exact e2 e4
    subst hnj
    rw [h3, job?_setJob, if_pos rfl, h1] at e3
    cases e3
    have hg : g.state = .completed := by rw [← k3]; exact e4
    have hp : g.parentID = 0 := by rw [k2, ← r2]; exact e5
    simp only
    rw [if_neg (by rw [hp]; exact fun h => h rfl)]
    refine Or.inl ?_
    rw [if_neg (by rw [hg]; decide)]
    simp [Msg.announces, TOPIC_JOB_COMPLETED, k1]
  · refine Duly0.any ?_
    dutiful

theorem duly_markRunning (j : Job) : Duly0 (markJobAsRunning j) := by
  unfold markJobAsRunning
  simp only [bind_eq, pure_eq]
  refine duly_tx (nn_job' fun u hu => ?_) fun r => ?_
  · unfold markRunningRow at hu; split at hu
    · exact hu
    · cases hu
  · dutiful

theorem duly_restart (C : Cfg) (j : Job) : Duly0 (restartJob C j) := by
  unfold restartJob
  simp only [bind_eq, pure_eq]
  refine duly_tx (nn_job fun u g u' h hu => ?_) fun r => ?_
  · unfold restartJobRow at h
    split at h
    · cases h
    · cases h; cases hu
  · dutiful

theorem duly_jobHandler (C : Cfg) (j : Job) (hj : j.state ≠ .completed) : Duly0 (jobHandler C j) := by
  unfold jobHandler
  simp only [bind_eq, pure_eq]
  split
  · exact duly_start _ _
  · exact duly_bind (duly_cancel _) fun _ => duly_ret _
  · exact duly_bind (duly_restart _ _) fun _ => duly_ret _
  · exact absurd ‹_› hj
  · exact duly_bind (duly_failJob _) fun _ => duly_ret _
  · exact duly_bind (duly_markRunning _) fun _ => duly_ret _
  · exact duly_ret _

theorem duly_error (C : Cfg) (t : Task) : Duly0 (errorHandler C t) := by
  unfold errorHandler
  simp only [bind_eq, pure_eq]
  dutiful
  all_goals exact duly_failJob _

theorem duly_topLevel (C : Cfg) (t : Task) : Duly0 (completeTopLevelTask C t) := by
  unfold completeTopLevelTask
  simp only [bind_eq, pure_eq]
  refine duly_tx (fun ds g ds' h => ?_) fun r => ?_
  · unfold topLevelTx at h
    split at h
    · cases h
    · rename_i ds1 h1
      split at h
      · cases h
      · rename_i r h2
        cases h
        refine NoNews.after_tasks (fz_updateTask_jobs h1) (nn_job' (fun u hu => ?_) _ _ _ h2)
        unfold topLevelJobRow at hu
        dsimp only at hu
        split at hu <;> exact hu
  · split
    · exact duly_ret _
    · refine duly_tx' (fun e => duly_ret _) fun ds g ds' hd h => ?_
      refine ⟨fun n hn => (by
        obtain ⟨x, y, e1, e2, e3, e4, e5⟩ := hn
        rw [read_getJob _ _ _ _ h, e1] at e3; cases e3; exact absurd e4 e2), ?_⟩
      have hg := getJob_ok h
      have e := read_getJob _ _ _ _ h
      refine duly_now fun now => ?_
      split
      · refine Duly0.any ?_
        dutiful
      · refine duly_bind (duly_complete C _ fun d hd => ?_) fun _ => duly_ret _
        have hid := (job?_mem hg).2
        obtain ⟨y, hy, hp⟩ := hd g.id g (by rw [e, hid]; exact hg)
        exact ⟨y, hy, hp⟩

theorem nn_subTaskTx {γ : Type} {t : Task} {m : Task → Except Err (γ × Task)} (ds : DS) (g : γ) (ds' : DS) (h : subTaskTx t m ds = .ok (g, ds')) : NoNews ds ds' := by
  unfold subTaskTx at h
  split at h
  · cases h
  · rename_i ds1 h1
    split at h
    · cases h
    · rename_i g2 ds2 h2
      split at h
      · cases h
      · rename_i ds3 h3
        cases h
        have e : ds2.jobs = ds.jobs := (fz_updateTask_jobs h2).trans (fz_updateTask_jobs h1)
        refine NoNews.after_tasks e ?_
        unfold contextTx at h3
        split at h3
        · split at h3
          · rename_i r hr
            cases h3
            exact nn_job' (m := setVar t) (fun u hu => hu) _ _ _ hr
          · cases h3
        · cases h3; exact .refl _

theorem duly_eachTx {α : Type} {K : DS → Prop} (t : Task) {k : Except Err Bool → Prog α} (hk : ∀ r, Duly0 (k r)) :
    Duly ((txOp (eachTx t)).bind k) K := by
  refine fun ds _ => ⟨fun n hn => absurd (hn.completed) ((?_ : NoNews ds ((eachTx t).run ds).2.1) n), (hk _).any⟩
  simp only [eachTx]
  split
  · exact .refl _
  · split
    · exact .refl _
    · rename_i h; exact nn_subTaskTx _ _ _ h
  · rename_i next _
    have e : (ds.setTask next.id next).jobs = ds.jobs := rfl
    split
    · exact NoNews.after_tasks e (.refl _)
    · rename_i h; exact NoNews.after_tasks e (nn_subTaskTx _ _ _ h)

theorem duly_completeTask (C : Cfg) (fuel : Nat) (t : Task) : Duly0 (completeTask C fuel t) := by
  induction fuel generalizing t with
  | zero => exact duly_panic _
  | succ fuel ih =>
    rw [completeTask]
    simp only [bind_eq, pure_eq]
    have hk : ∀ r : Except Err Bool, Duly0 (match r with
        | .error e => (.ret (some (wrapErr "error completing task" e)) : Prog Res)
        | .ok isLast => if isLast = true then (tx (getTask t.parentID)).bind fun r => match r with
            | .error _ => .ret (some "error fetching the parent task")
            | .ok parent => Prog.now.bind fun now => completeTask C fuel { parent with state := .completed, completedAt := some now }
          else .ret none) := fun r => by
      dutiful
      all_goals exact ih _
    split
    · refine duly_tx nn_getTask fun r => ?_
      cases r with
      | error e => exact duly_ret _
      | ok p =>
        simp only
        split
        · exact duly_tx nn_subTaskTx hk
        · exact duly_eachTx t hk
    · exact duly_topLevel _ _

theorem duly_completed (C : Cfg) (fuel : Nat) (t : Task) : Duly0 (completedHandler C fuel t) := by
  unfold completedHandler
  simp only [bind_eq, pure_eq]
  dutiful
  all_goals exact duly_bind (duly_completeTask _ _ _) fun _ => duly_ret _

theorem duly_started (t : Task) : Duly0 (startedHandler t) := by
  unfold startedHandler
  simp only [bind_eq, pure_eq]
  dutiful
  all_goals first | (refine duly_bind (duly_markRunning _) fun _ => ?_; dutiful) | (refine duly_bind (duly_ret _) fun _ => ?_; dutiful)

theorem duly_progress (t : Task) : Duly0 (progressHandler t) := by
  unfold progressHandler
  simp only [bind_eq, pure_eq]
  dutiful

theorem duly_redelivered (t : Task) : Duly0 (redeliveredHandler t) := by
  unfold redeliveredHandler
  simp only [bind_eq, pure_eq]
  dutiful

theorem duly_wrapTask (C : Cfg) {h : Task → Prog (Res × Task)} (hh : ∀ t, Duly0 (h t)) (t : Task) : Duly0 (wrapTask C h t) := by
  unfold wrapTask
  simp only [bind_eq, pure_eq]
  refine duly_bind (hh t) fun r => ?_
  dutiful
  all_goals exact duly_error _ _

theorem duly_wrapJob (C : Cfg) (j : Job) (hj : j.state ≠ .completed) : Duly0 (wrapJob C j) := by
  unfold wrapJob
  simp only [bind_eq, pure_eq]
  refine duly_bind (duly_jobHandler C j hj) fun r => ?_
  dutiful
  all_goals exact duly_failJob _

theorem duly_coordinator {C : Cfg} {fuel : Nat} {m : Msg} {p : Prog Res} (h : coordinatorHandler C fuel m = some p)
    (hm : ∀ j, m = .job j → j.state ≠ .completed) : Duly0 p := by
  unfold coordinatorHandler at h
  split at h
  · split at h
    · cases h; exact duly_redelivered _
    · split at h
      · cases h; exact duly_wrapTask C (duly_pending C) _
      · split at h
        · cases h; exact duly_wrapTask C (duly_completed C _) _
        · split at h
          · cases h; exact duly_wrapTask C duly_started _
          · split at h
            · cases h
              refine duly_wrapTask C (fun t => ?_) _
              unfold errorHandlerT
              simp only [bind_eq, pure_eq]
              exact duly_bind (duly_error _ _) fun _ => duly_ret _
            · cases h
  · cases h; exact duly_wrapJob _ _ (hm _ rfl)
  · cases h; exact duly_wrapTask C duly_progress _
  · cases h

theorem duly_publishProgress (t : Task) (l : List Rat) : Duly0 (publishProgress t l) := by
  induction l with
  | nil => exact duly_ret _
  | cons x l ih =>
    rw [publishProgress]
    simp only [bind_eq, pure_eq]
    dutiful

theorem duly_worker (C : Cfg) (r : WorkerRun) (t : Task) : Duly0 (doHandleTask C r t) := by
  unfold doHandleTask
  simp only [bind_eq, pure_eq]
  refine duly_now fun now => ?_
  refine duly_bind ?_ fun x => by dutiful
  unfold workerMw
  simp only [bind_eq, pure_eq]
  split
  · exact duly_ret _
  · refine duly_bind ?_ fun x => duly_ret _
    unfold runTask
    simp only [bind_eq, pure_eq]
    refine duly_pub fun x => ?_
    split
    · exact duly_ret _
    · unfold doRunTask
      simp only [bind_eq, pure_eq]
      split
      · exact duly_ret _
      · refine duly_bind (duly_publishProgress _ _) fun x => ?_
        dutiful

theorem duly_spawn {E : Env} {p : Prog Unit} (h : Spawn E p) : Duly0 p := by
  cases h with
  | submit u j _ =>
    refine duly_bind ?_ fun _ => duly_ret _
    unfold apiSubmit
    simp only [bind_eq, pure_eq]
    dutiful
  | cancel id =>
    refine duly_bind ?_ fun _ => duly_ret _
    unfold apiCancel
    simp only [bind_eq, pure_eq]
    dutiful
  | restart id _ =>
    refine duly_bind ?_ fun _ => duly_ret _
    unfold apiRestart
    simp only [bind_eq, pure_eq]
    dutiful
  | fire s _ =>
    unfold fireScheduled
    simp only [bind_eq, pure_eq]
    dutiful

/-! ## Whole systems -/

variable {E : Env}

open Calm (OkStep)

theorem okStep_pstep {α : Type} {p p' : Prog α} {ds ds' : DS} {n n' : Nat} {ms : List Msg} (h : OkStep p ds n p' ds' ms n') : PStep p ds n p' ds' ms n' := by
  cases h with
  | db op k => exact .dbOk op k _ _
  | pub m k => exact .pubOk m k _ _
  | nondet k _ _ x => exact .nondet k _ _ x
  | uuid k => exact .uuid k _ _

/-- A step in which nothing fails: operations succeed, goroutines do not crash. Messages may still be lost, duplicated and redelivered. -/
inductive StepOK (E : Env) : World → List Msg → World → Prop
  | op (w : World) (a b : List (Prog Unit)) (p p' : Prog Unit) (ds' : DS) (ms : List Msg) (n' : Nat)
      (ht : w.threads = a ++ p :: b) (hp : OkStep p w.ds w.next p' ds' ms n') :
      StepOK E w ms { ds := ds', msgs := w.msgs ++ ms, threads := a ++ p' :: b, next := n' }
  | deliver (w : World) (a b : List Msg) (m : Msg) (p : Prog Res) (hm : w.msgs = a ++ m :: b)
      (hp : coordinatorHandler E.C E.fuel m = some p) :
      StepOK E w [] { w with msgs := a ++ b, threads := w.threads ++ [p.discard] }
  | work (w : World) (a b : List Msg) (q : String) (t : Task) (r : WorkerRun)
      (hm : w.msgs = a ++ Msg.task q t :: b) (hq : isTaskQueue q = true) (hr : E.workerOK r) :
      StepOK E w [] { w with msgs := a ++ b, threads := w.threads ++ [(doHandleTask E.C r t).discard] }
  | redeliver (w : World) (a b : List Msg) (q : String) (t : Task)
      (hm : w.msgs = a ++ Msg.task q t :: b) (hq : isTaskQueue q = true) :
      StepOK E w [] { w with msgs := a ++ b ++ [Msg.task QUEUE_REDELIVERIES t] }
  | lose (w : World) (a b : List Msg) (m : Msg) (hm : w.msgs = a ++ m :: b) : StepOK E w [] { w with msgs := a ++ b }
  | dup (w : World) (m : Msg) (hm : m ∈ w.msgs) (hs : m.startsJob = false) : StepOK E w [] { w with msgs := w.msgs ++ [m] }
  | spawn (w : World) (p : Prog Unit) (hp : Spawn E p) : StepOK E w [] { w with threads := w.threads ++ [p] }
  | nodes (w : World) (ns : List Node) (hq : ∀ n ∈ ns, isExclusiveQueue n.queue = true) : StepOK E w [] { w with ds := { w.ds with nodes := ns } }

theorem StepOK.stepL {w w' : World} {ms : List Msg} (h : StepOK E w ms w') : StepL E w ms w' := by
  cases h with
  | op a b p p' ds' ms n' ht hp => exact .op w a b p p' ds' ms n' ht (okStep_pstep hp)
  | deliver a b m p hm hp => exact .deliver w a b m p hm hp
  | work a b q t r hm hq hr => exact .work w a b q t r hm hq hr
  | redeliver a b q t hm hq => exact .redeliver w a b q t hm hq
  | lose a b m hm => exact .lose w a b m hm
  | dup m hm hs => exact .dup w m hm hs
  | spawn p hp => exact .spawn w p hp
  | nodes ns hq => exact .nodes w ns hq

/-- A history without faults, with everything published in it, oldest first. -/
inductive LoggedOK (E : Env) : World → List Msg → Prop
  | init : LoggedOK E {} []
  | step {w w' : World} {l ms : List Msg} : LoggedOK E w l → StepOK E w ms w' → LoggedOK E w' (l ++ ms)

theorem LoggedOK.logged {w : World} {l : List Msg} (h : LoggedOK E w l) : Logged E w l := by
  induction h with
  | init => exact .init
  | step _ hs ih => exact ih.step hs.stepL

/-- What is known of a goroutine. -/
def Dutiful (d : DS) (p : Prog Unit) : Prop := ∃ K : DS → Prop, (∀ x y, K x → ParKept x y → K y) ∧ K d ∧ Duly p K

theorem Dutiful.later {d d' : DS} {p : Prog Unit} (h : Dutiful d p) (hl : ParKept d d') : Dutiful d' p := by
  obtain ⟨K, h1, h2, h3⟩ := h
  exact ⟨K, h1, h1 _ _ h2 hl, h3⟩

theorem dutiful0 {d : DS} {p : Prog Unit} (h : Duly0 p) : Dutiful d p := ⟨fun _ => True, fun _ _ _ _ => trivial, trivial, h⟩

/-- One operation: promises are kept or pass on, new completions become promises. -/
theorem duly_okStep {p p' : Prog Unit} {ds ds' : DS} {n n' : Nat} {ms : List Msg} (hp : OkStep p ds n p' ds' ms n') (hl : ParKept ds ds')
    (h : Dutiful ds p) : Dutiful ds' p' ∧ (∀ k, TopCompleted ds ds' k → Will k p') ∧ (∀ k, Will k p → Will k p' ∨ ∃ m ∈ ms, m.announces k = true) := by
  obtain ⟨K, h1, h2, h3⟩ := h
  cases hp with
  | db op k =>
    exact ⟨⟨_, fun _ _ => ParKept.trans, ParKept.refl _, (h3 _ h2).2⟩, (h3 _ h2).1, fun n hn => .inl (hn _)⟩
  | pub m k =>
    refine ⟨⟨K, h1, h2, h3 _⟩, fun n hn => absurd hn.completed (NoNews.refl _ n), fun n hn => ?_⟩
    rcases hn with hn | hn
    · exact .inr ⟨m, List.mem_singleton.2 rfl, hn⟩
    · exact .inl hn
  | nondet k _ _ x => exact ⟨⟨K, h1, h2, h3 _⟩, fun n hn => absurd hn.completed (NoNews.refl _ n), fun n hn => .inl (hn _)⟩
  | uuid k => exact ⟨⟨K, h1, h2, h3 _⟩, fun n hn => absurd hn.completed (NoNews.refl _ n), fun n hn => .inl (hn _)⟩

structure DulyInv (w : World) (log : List Msg) : Prop where
  threads : ∀ p ∈ w.threads, Dutiful w.ds p
  told : ∀ n j, w.ds.job? n = some j → j.state = .completed → j.parentID = 0 → (∃ m ∈ log, m.announces n = true) ∨ ∃ p ∈ w.threads, Will n p

theorem step_parKept (hE : E.WellFormed) {w w' : World} (hw : Reachable E w) (hs : Step E w w') : ParKept w.ds w'.ds := fun id a ha => by
  obtain ⟨b, hb, h, _⟩ := (reachable_step (env_safe hE) hw hs).jobs id a ha
  exact ⟨b, hb, by unfold SameJob at h; rw [h]⟩

theorem dulyInv_step (hE : E.WellFormed) {w w' : World} (hw : Reachable E w) {ms log : List Msg} (hs : StepOK E w ms w')
    (h : DulyInv w log) : DulyInv w' (log ++ ms) := by
  have hst : Step E w w' := step_iff.2 ⟨_, hs.stepL⟩
  have hl := step_parKept hE hw hst
  have hnew := (C01_job_lifecycle hE hw hst).2
  /- a step that completes no job and starts the goroutines in `q` -/
  have hadd : ∀ {q : List (Prog Unit)}, (∀ p ∈ q, Duly0 p) → w'.threads = w.threads ++ q → w'.ds.jobs = w.ds.jobs → DulyInv w' (log ++ []) := fun {q} hq ht he => by
    rw [List.append_nil]
    refine ⟨fun p hp => ?_, fun n j hj hc hp => ?_⟩
    · rw [ht] at hp
      rcases List.mem_append.1 hp with hp | hp
      · exact (h.threads p hp).later hl
      · exact dutiful0 (hq p hp)
    · have hj' : w.ds.job? n = some j := by unfold DS.job? at hj ⊢; rw [← he]; exact hj
      rcases h.told n j hj' hc hp with g | ⟨p, g1, g2⟩
      · exact .inl g
      · exact .inr ⟨p, by rw [ht]; exact List.mem_append_left _ g1, g2⟩
  have hsame : w'.threads = w.threads → w'.ds.jobs = w.ds.jobs → DulyInv w' (log ++ []) := fun ht he =>
    hadd (q := []) (fun p hp => by cases hp) (by rw [ht, List.append_nil]) he
  have hone : ∀ {q : Prog Unit}, Duly0 q → ∀ p ∈ [q], Duly0 p := fun {q} hq p hp => by rw [List.mem_singleton.1 hp]; exact hq
  cases hs with
  | op a b p p' ds' ms n' ht hp =>
    have hpm : p ∈ w.threads := by rw [ht]; simp
    obtain ⟨d1, d2, d3⟩ := duly_okStep hp hl (h.threads p hpm)
    refine ⟨fun q hq => ?_, fun n j hj hc hpar => ?_⟩
    · rcases List.mem_append.1 hq with hq | hq
      · exact (h.threads q (by rw [ht]; simp [hq])).later hl
      · rcases List.mem_cons.1 hq with rfl | hq
        · exact d1
        · exact (h.threads q (by rw [ht]; simp [hq])).later hl
    · have hin : Will n p' → ∃ q ∈ a ++ p' :: b, Will n q := fun g => ⟨p', by simp, g⟩
      cases ho : w.ds.job? n with
      | none => rw [hnew n j ho hj] at hc; cases hc
      | some x =>
        by_cases hx : x.state = .completed
        · obtain ⟨y, hy, hpy⟩ := hl n x ho
          rw [hj] at hy; cases hy
          rcases h.told n x ho hx (by rw [← hpy]; exact hpar) with ⟨m, g1, g2⟩ | ⟨q, g1, g2⟩
          · exact .inl ⟨m, List.mem_append_left _ g1, g2⟩
          · rw [ht] at g1
            rcases List.mem_append.1 g1 with g1 | g1
            · exact .inr ⟨q, List.mem_append_left _ g1, g2⟩
            · rcases List.mem_cons.1 g1 with rfl | g1
              · rcases d3 n g2 with g | ⟨m, g3, g4⟩
                · exact .inr (hin g)
                · exact .inl ⟨m, List.mem_append_right _ g3, g4⟩
              · exact .inr ⟨q, List.mem_append_right _ (List.mem_cons_of_mem _ g1), g2⟩
        · exact .inr (hin (d2 n ⟨x, j, ho, hx, hj, hc, hpar⟩))
  | deliver a b m p hm hp =>
    refine hadd (hone (duly_bind (duly_coordinator hp fun j hj => ?_) fun _ => duly_ret _)) rfl rfl
    obtain ⟨toks, G, hi⟩ := reachable_winv (env_safe hE) hw
    have := hi.msgs m (by rw [hm]; simp)
    rw [hj] at this
    exact this.notDone
  | work a b q t r hm hq hr => exact hadd (hone (duly_bind (duly_worker _ _ _) fun _ => duly_ret _)) rfl rfl
  | redeliver a b q t hm hq => exact hsame rfl rfl
  | lose a b m hm => exact hsame rfl rfl
  | dup m hm hs => exact hsame rfl rfl
  | spawn p hp => exact hadd (hone (duly_spawn hp)) rfl rfl
  | nodes ns hq => exact hsame rfl rfl

theorem dulyInv_logged (hE : E.WellFormed) {w : World} {log : List Msg} (h : LoggedOK E w log) : DulyInv w log := by
  induction h with
  | init => exact ⟨fun p hp => (by cases hp), fun n j hj => (by cases hj)⟩
  | step hr hs ih => exact dulyInv_step hE hr.logged.reachable hs ih

end Tork
