import Verif.Keeps
/-!
# What never changes about a COMPLETED job

`Frozen a b`: jobs that are COMPLETED in `a` have the same result, error, time of completion and time of deletion in `b`. Every operation of
every handler keeps this, with no assumption on the database.
-/

namespace Tork
open Prog

/-- The outcome recorded in the rows is the same. -/
structure SameOutcome (x y : Job) : Prop where
  result : y.result = x.result
  error : y.error = x.error
  completedAt : y.completedAt = x.completedAt
  deleteAt : y.deleteAt = x.deleteAt

theorem SameOutcome.refl (x : Job) : SameOutcome x x := ⟨rfl, rfl, rfl, rfl⟩
theorem SameOutcome.trans {x y z : Job} (h1 : SameOutcome x y) (h2 : SameOutcome y z) : SameOutcome x z :=
  ⟨h2.1.trans h1.1, h2.2.trans h1.2, h2.3.trans h1.3, h2.4.trans h1.4⟩

def Frozen (a b : DS) : Prop := ∀ id x, a.job? id = some x → x.state = .completed → ∃ y, b.job? id = some y ∧ SameOutcome x y

theorem Frozen.refl (a : DS) : Frozen a a := fun _ x h _ => ⟨x, h, .refl x⟩

theorem Frozen.after_tasks {a b c : DS} (h : b.jobs = a.jobs) (hf : Frozen b c) : Frozen a c := fun id x hx hs =>
  hf id x (by unfold DS.job? at hx ⊢; rw [h]; exact hx) hs

theorem fz_getJob {id : Nat} (ds : DS) (g : Job) (ds' : DS) (h : getJob id ds = .ok (g, ds')) : Frozen ds ds' := by
  rw [read_getJob id ds g ds' h]; exact .refl _
theorem fz_getTask {id : Nat} (ds : DS) (g : Task) (ds' : DS) (h : getTask id ds = .ok (g, ds')) : Frozen ds ds' := by
  rw [read_getTask id ds g ds' h]; exact .refl _
theorem fz_getNode {id : Nat} (ds : DS) (g : Node) (ds' : DS) (h : getNode id ds = .ok (g, ds')) : Frozen ds ds' := by
  rw [read_getNode id ds g ds' h]; exact .refl _
theorem fz_getActive {id : Nat} (ds : DS) (g : List Task) (ds' : DS) (h : getActiveTasks id ds = .ok (g, ds')) : Frozen ds ds' := by
  rw [read_getActive id ds g ds' h]; exact .refl _
theorem fz_createTask {t : Task} (ds : DS) (g : Unit) (ds' : DS) (h : createTask t ds = .ok (g, ds')) : Frozen ds ds' := by
  rw [(createTask_ok h).2.2]; exact Frozen.after_tasks (a := ds) rfl (.refl _)
theorem fz_updateTask_jobs {γ : Type} {id : Nat} {m : Task → Except Err (γ × Task)} {ds ds' : DS} {g : γ} (h : updateTask id m ds = .ok (g, ds')) :
    ds'.jobs = ds.jobs := by
  obtain ⟨t, u, _, _, rfl⟩ := updateTask_ok h; rfl
theorem fz_task' {id : Nat} {m : Task → Task} (ds : DS) (g : Unit) (ds' : DS) (h : updateTask' id m ds = .ok (g, ds')) : Frozen ds ds' :=
  Frozen.after_tasks (a := ds) (fz_updateTask_jobs h).symm.symm (.refl _)
theorem fz_createJob {j : Job} (ds : DS) (g : Unit) (ds' : DS) (h : createJob j ds = .ok (g, ds')) : Frozen ds ds' := fun id x hx _ => by
  refine ⟨x, ?_, .refl x⟩
  unfold createJob at h
  split at h
  · cases h
  · split at h
    · cases h
    · cases h
      rw [job?_append, hx]; rfl
theorem fz_job {γ : Type} {id : Nat} {m : Job → Except Err (γ × Job)} (hm : ∀ u g u', u.state = .completed → m u = .ok (g, u') → SameOutcome u u')
    (ds : DS) (g : γ) (ds' : DS) (h : updateJob id m ds = .ok (g, ds')) : Frozen ds ds' := by
  obtain ⟨u, u', h1, h2, rfl⟩ := updateJob_ok h
  intro k x hx hs
  rw [job?_setJob]
  by_cases hk : k = id
  · rw [if_pos hk, hx]
    rw [hk, h1] at hx; cases hx
    have := hm _ _ _ hs h2
    exact ⟨_, rfl, this.1, this.2, this.3, this.4⟩
  · rw [if_neg hk]; exact ⟨x, hx, .refl x⟩
theorem fz_job' {id : Nat} {m : Job → Job} (hm : ∀ u, u.state = .completed → SameOutcome u (m u))
    (ds : DS) (g : Unit) (ds' : DS) (h : updateJob' id m ds = .ok (g, ds')) : Frozen ds ds' :=
  fz_job (fun u g u' hu h => by cases h; exact hm u hu) ds g ds' h

theorem keeps_panic {R : DS → DS → Prop} {α : Type} (e : String) : Keeps R (.panic e : Prog α) := trivial

/-- Programs whose operations on job rows set other columns only. -/
macro "thaw" : tactic => `(tactic| repeat' first
  | with_reducible exact keeps_ret _
  | with_reducible exact keeps_panic _
  | assumption
  | (with_reducible refine keeps_tx Frozen.refl fz_getJob fun r => ?_)
  | (with_reducible refine keeps_tx Frozen.refl fz_getTask fun r => ?_)
  | (with_reducible refine keeps_tx Frozen.refl fz_getNode fun r => ?_)
  | (with_reducible refine keeps_tx Frozen.refl fz_getActive fun r => ?_)
  | (with_reducible refine keeps_tx Frozen.refl fz_createTask fun r => ?_)
  | (with_reducible refine keeps_tx Frozen.refl fz_createJob fun r => ?_)
  | (with_reducible refine keeps_tx Frozen.refl fz_task' fun r => ?_)
  | (with_reducible refine keeps_tx Frozen.refl (fz_job' fun u _ => ⟨rfl, rfl, rfl, rfl⟩) fun r => ?_)
  | (with_reducible refine keeps_pub fun r => ?_)
  | (with_reducible refine keeps_now fun r => ?_)
  | (with_reducible refine keeps_seed fun r => ?_)
  | (with_reducible refine keeps_uuid fun r => ?_)
  | split
  | dsimp only)

theorem frozen_cancelLoop (ts : List Task) : Keeps Frozen (cancelLoop ts) := by
  induction ts with
  | nil => rw [cancelLoop]; trivial
  | cons t ts ih =>
    rw [cancelLoop]
    simp only [bind_eq, pure_eq]
    thaw

theorem frozen_cancelActive (id : Nat) : Keeps Frozen (cancelActiveTasks id) := by
  unfold cancelActiveTasks
  simp only [bind_eq, pure_eq]
  refine keeps_tx Frozen.refl fz_getActive fun r => ?_
  cases r with
  | error e => exact keeps_ret _
  | ok ts => exact frozen_cancelLoop ts

theorem frozen_cancel (j : Job) : Keeps Frozen (cancelHandler j) := by
  unfold cancelHandler
  simp only [bind_eq, pure_eq]
  have := frozen_cancelActive j.id
  refine keeps_tx Frozen.refl (fz_job' fun u hu => ?_) fun r => ?_
  · unfold cancelJobRow; rw [if_pos (by rw [hu]; decide)]; exact .refl _
  · thaw

theorem frozen_failJob (j : Job) : Keeps Frozen (failJob j) := by
  unfold failJob
  simp only [bind_eq, pure_eq]
  have := frozen_cancelActive j.id
  refine keeps_tx Frozen.refl (fz_job' fun u hu => ?_) fun r => ?_
  · unfold failJobRow; rw [if_neg (by rw [hu]; decide)]; exact .refl _
  · thaw
    refine keeps_bind this fun r => ?_
    thaw

theorem frozen_failToErrorQueue (t : Task) (e : Err) : Keeps Frozen (failToErrorQueue t e) := by
  unfold failToErrorQueue
  simp only [bind_eq, pure_eq]
  thaw

theorem frozen_scheduleRegular (t : Task) : Keeps Frozen (scheduleRegularTask t) := by
  unfold scheduleRegularTask
  simp only [bind_eq, pure_eq]
  thaw

theorem frozen_attached (t : Task) (s : SubJobTask Task) : Keeps Frozen (scheduleAttachedSubJob t s) := by
  unfold scheduleAttachedSubJob
  simp only [bind_eq, pure_eq]
  thaw

theorem frozen_detached (t : Task) (s : SubJobTask Task) : Keeps Frozen (scheduleDetachedSubJob t s) := by
  unfold scheduleDetachedSubJob
  simp only [bind_eq, pure_eq]
  thaw

theorem frozen_eachLoop (C : Cfg) (j : Job) (now : Nat) (t : Task) (e : EachTask Task) (i : Nat) (l : List String) :
    Keeps Frozen (eachLoop C j now t e i l) := by
  induction l generalizing t e i with
  | nil => rw [eachLoop]; exact keeps_ret _
  | cons x l ih =>
    rw [eachLoop]
    simp only [bind_eq, pure_eq]
    thaw
    all_goals first | exact ih _ _ _ | exact frozen_failToErrorQueue _ _

theorem frozen_parLoop (C : Cfg) (t : Task) (j : Job) (now : Nat) (l : List Task) : Keeps Frozen (parLoop C t j now l) := by
  induction l with
  | nil => rw [parLoop]; exact keeps_ret _
  | cons x l ih =>
    rw [parLoop]
    simp only [bind_eq, pure_eq]
    thaw
    all_goals exact frozen_failToErrorQueue _ _

theorem frozen_scheduleEach (C : Cfg) (t : Task) (e : EachTask Task) : Keeps Frozen (scheduleEachTask C t e) := by
  unfold scheduleEachTask
  simp only [bind_eq, pure_eq]
  thaw
  all_goals first | exact frozen_eachLoop _ _ _ _ _ _ _ | exact frozen_failToErrorQueue _ _

theorem frozen_schedulePar (C : Cfg) (t : Task) (p : ParallelTask Task) : Keeps Frozen (scheduleParallelTask C t p) := by
  unfold scheduleParallelTask
  simp only [bind_eq, pure_eq]
  thaw
  all_goals exact frozen_parLoop _ _ _ _ _

theorem frozen_scheduleTask (C : Cfg) (t : Task) : Keeps Frozen (scheduleTask C t) := by
  unfold scheduleTask
  simp only [bind_eq, pure_eq]
  thaw
  all_goals first | exact frozen_schedulePar _ _ _ | exact frozen_scheduleEach _ _ _ | exact frozen_detached _ _ | exact frozen_scheduleRegular _ | (refine keeps_bind (frozen_attached _ _) fun _ => ?_; thaw)

theorem frozen_skip (t : Task) : Keeps Frozen (skipTask t) := by
  unfold skipTask
  simp only [bind_eq, pure_eq]
  thaw

theorem frozen_pending (C : Cfg) (t : Task) : Keeps Frozen (pendingHandler C t) := by
  unfold pendingHandler
  thaw
  all_goals first | exact frozen_skip _ | exact frozen_scheduleTask _ _

theorem frozen_start (C : Cfg) (j : Job) : Keeps Frozen (startJob C j) := by
  unfold startJob
  simp only [bind_eq, pure_eq]
  refine keeps_now fun now => ?_
  split
  · exact keeps_panic _
  · refine keeps_uuid fun id => keeps_seed fun sd => ?_
    refine keeps_tx Frozen.refl fz_createTask fun r => ?_
    split
    · exact keeps_ret _
    · refine keeps_now fun n => keeps_tx Frozen.refl (fz_job' fun u _ => ⟨rfl, rfl, rfl, rfl⟩) fun r => ?_
      split
      · exact keeps_ret _
      · split
        · refine keeps_now fun n => ?_
          with_reducible refine keeps_bind (frozen_failJob _) fun _ => ?_
          with_reducible exact keeps_ret _
        · with_reducible refine keeps_bind (frozen_pending _ _) fun _ => ?_
          with_reducible exact keeps_ret _

theorem frozen_complete (C : Cfg) (j : Job) : Keeps Frozen (completeJob C j) := by
  unfold completeJob
  simp only [bind_eq, pure_eq]
  refine keeps_now fun now => keeps_seed fun sd => keeps_now fun now2 => ?_
  refine keeps_tx Frozen.refl (fz_job fun u g u' hu h => ?_) fun r => ?_
  · unfold completeJobRow at h
    rw [if_pos (by rw [hu]; decide)] at h; cases h
  · thaw

theorem frozen_markRunning (j : Job) : Keeps Frozen (markJobAsRunning j) := by
  unfold markJobAsRunning
  simp only [bind_eq, pure_eq]
  refine keeps_tx Frozen.refl (fz_job' fun u hu => ?_) fun r => ?_
  · unfold markRunningRow; rw [if_pos (by rw [hu]; decide)]; exact .refl _
  · thaw

theorem frozen_restart (C : Cfg) (j : Job) : Keeps Frozen (restartJob C j) := by
  unfold restartJob
  simp only [bind_eq, pure_eq]
  refine keeps_tx Frozen.refl (fz_job fun u g u' hu h => ?_) fun r => ?_
  · unfold restartJobRow at h
    rw [if_pos (by rw [hu]; decide)] at h; cases h
  · thaw

theorem frozen_jobHandler (C : Cfg) (j : Job) : Keeps Frozen (jobHandler C j) := by
  unfold jobHandler
  simp only [bind_eq, pure_eq]
  split
  · exact frozen_start _ _
  · exact keeps_bind (frozen_cancel _) fun _ => keeps_ret _
  · exact keeps_bind (frozen_restart _ _) fun _ => keeps_ret _
  · exact frozen_complete _ _
  · exact keeps_bind (frozen_failJob _) fun _ => keeps_ret _
  · exact keeps_bind (frozen_markRunning _) fun _ => keeps_ret _
  · exact keeps_ret _

theorem frozen_error (C : Cfg) (t : Task) : Keeps Frozen (errorHandler C t) := by
  unfold errorHandler
  simp only [bind_eq, pure_eq]
  thaw
  all_goals exact frozen_failJob _

theorem frozen_topLevel (C : Cfg) (t : Task) : Keeps Frozen (completeTopLevelTask C t) := by
  unfold completeTopLevelTask
  simp only [bind_eq, pure_eq]
  refine keeps_tx Frozen.refl (fun ds g ds' h => ?_) fun r => ?_
  · unfold topLevelTx at h
    split at h
    · cases h
    · rename_i ds1 h1
      split at h
      · cases h
      · rename_i r h2
        cases h
        refine Frozen.after_tasks (fz_updateTask_jobs h1) (fz_job' (fun u hu => ?_) _ _ _ h2)
        unfold topLevelJobRow
        dsimp only
        split <;> exact ⟨rfl, rfl, rfl, rfl⟩
  · thaw
    all_goals exact keeps_bind (frozen_complete _ _) fun _ => keeps_ret _

theorem fz_subTaskTx {γ : Type} {t : Task} {m : Task → Except Err (γ × Task)} (ds : DS) (g : γ) (ds' : DS) (h : subTaskTx t m ds = .ok (g, ds')) : Frozen ds ds' := by
  unfold subTaskTx at h
  split at h
  · cases h
  · rename_i ds1 h1
    split at h
    · cases h
    · rename_i g2 ds2 h2
      split at h
      · cases h
      · rename_i ds3 h3
        cases h
        have e : ds2.jobs = ds.jobs := (fz_updateTask_jobs h2).trans (fz_updateTask_jobs h1)
        refine Frozen.after_tasks e ?_
        unfold contextTx at h3
        split at h3
        · split at h3
          · rename_i r hr
            cases h3
            exact fz_job' (m := setVar t) (fun u hu => ⟨rfl, rfl, rfl, rfl⟩) _ _ _ hr
          · cases h3
        · cases h3; exact .refl _

theorem frozen_eachTx {α : Type} (t : Task) {k : Except Err Bool → Prog α} (hk : ∀ r, Keeps Frozen (k r)) :
    Keeps Frozen ((txOp (eachTx t)).bind k) := by
  refine ⟨fun ds => ?_, fun ds x hx => ?_, hk⟩
  · simp only [eachTx]
    split
    · exact .refl _
    · split
      · exact .refl _
      · rename_i h; exact fz_subTaskTx _ _ _ h
    · rename_i next _
      have e : (ds.setTask next.id next).jobs = ds.jobs := rfl
      split
      · exact Frozen.after_tasks e (.refl _)
      · rename_i h; exact Frozen.after_tasks e (fz_subTaskTx _ _ _ h)
  · simp only [eachTx] at hx
    split at hx
    · rename_i next _
      have e : (ds.setTask next.id next).jobs = ds.jobs := rfl
      rcases List.mem_cons.1 hx with rfl | hx
      · exact Frozen.after_tasks e (.refl _)
      · rw [List.mem_singleton.1 hx]; exact Frozen.after_tasks e (.refl _)
    · cases hx

theorem frozen_completeTask (C : Cfg) (fuel : Nat) (t : Task) : Keeps Frozen (completeTask C fuel t) := by
  induction fuel generalizing t with
  | zero => exact keeps_panic _
  | succ fuel ih =>
    rw [completeTask]
    simp only [bind_eq, pure_eq]
    have hk : ∀ r : Except Err Bool, Keeps Frozen (match r with
        | .error e => (.ret (some (wrapErr "error completing task" e)) : Prog Res)
        | .ok isLast => if isLast = true then (tx (getTask t.parentID)).bind fun r => match r with
            | .error _ => .ret (some "error fetching the parent task")
            | .ok parent => Prog.now.bind fun now => completeTask C fuel { parent with state := .completed, completedAt := some now }
          else .ret none) := fun r => by
      thaw
      all_goals exact ih _
    split
    · refine keeps_tx Frozen.refl fz_getTask fun r => ?_
      cases r with
      | error e => exact keeps_ret _
      | ok p =>
        simp only
        split
        · exact keeps_tx Frozen.refl fz_subTaskTx hk
        · exact frozen_eachTx t hk
    · exact frozen_topLevel _ _

theorem frozen_completed (C : Cfg) (fuel : Nat) (t : Task) : Keeps Frozen (completedHandler C fuel t) := by
  unfold completedHandler
  simp only [bind_eq, pure_eq]
  thaw
  all_goals exact keeps_bind (frozen_completeTask _ _ _) fun _ => keeps_ret _

theorem frozen_started (t : Task) : Keeps Frozen (startedHandler t) := by
  unfold startedHandler
  simp only [bind_eq, pure_eq]
  thaw
  all_goals first | (refine keeps_bind (frozen_markRunning _) fun _ => ?_; thaw) | (refine keeps_bind (keeps_ret _) fun _ => ?_; thaw)

theorem frozen_progress (t : Task) : Keeps Frozen (progressHandler t) := by
  unfold progressHandler
  simp only [bind_eq, pure_eq]
  thaw

theorem frozen_redelivered (t : Task) : Keeps Frozen (redeliveredHandler t) := by
  unfold redeliveredHandler
  simp only [bind_eq, pure_eq]
  thaw

theorem frozen_wrapTask (C : Cfg) {h : Task → Prog (Res × Task)} (hh : ∀ t, Keeps Frozen (h t)) (t : Task) : Keeps Frozen (wrapTask C h t) := by
  unfold wrapTask
  simp only [bind_eq, pure_eq]
  refine keeps_bind (hh t) fun r => ?_
  thaw
  all_goals exact frozen_error _ _

theorem frozen_wrapJob (C : Cfg) (j : Job) : Keeps Frozen (wrapJob C j) := by
  unfold wrapJob
  simp only [bind_eq, pure_eq]
  refine keeps_bind (frozen_jobHandler C j) fun r => ?_
  thaw
  all_goals exact frozen_failJob _

theorem frozen_coordinator {C : Cfg} {fuel : Nat} {m : Msg} {p : Prog Res} (h : coordinatorHandler C fuel m = some p) : Keeps Frozen p := by
  unfold coordinatorHandler at h
  split at h
  · split at h
    · cases h; exact frozen_redelivered _
    · split at h
      · cases h; exact frozen_wrapTask C (frozen_pending C) _
      · split at h
        · cases h; exact frozen_wrapTask C (frozen_completed C _) _
        · split at h
          · cases h; exact frozen_wrapTask C frozen_started _
          · split at h
            · cases h
              refine frozen_wrapTask C (fun t => ?_) _
              unfold errorHandlerT
              simp only [bind_eq, pure_eq]
              exact keeps_bind (frozen_error _ _) fun _ => keeps_ret _
            · cases h
  · cases h; exact frozen_wrapJob _ _
  · cases h; exact frozen_wrapTask C frozen_progress _
  · cases h

theorem frozen_publishProgress (t : Task) (l : List Rat) : Keeps Frozen (publishProgress t l) := by
  induction l with
  | nil => exact keeps_ret _
  | cons x l ih =>
    rw [publishProgress]
    simp only [bind_eq, pure_eq]
    thaw

theorem frozen_worker (C : Cfg) (r : WorkerRun) (t : Task) : Keeps Frozen (doHandleTask C r t) := by
  unfold doHandleTask
  simp only [bind_eq, pure_eq]
  refine keeps_now fun now => ?_
  refine keeps_bind ?_ fun x => by thaw
  unfold workerMw
  simp only [bind_eq, pure_eq]
  split
  · exact keeps_ret _
  · refine keeps_bind ?_ fun x => keeps_ret _
    unfold runTask
    simp only [bind_eq, pure_eq]
    refine keeps_pub fun x => ?_
    split
    · exact keeps_ret _
    · unfold doRunTask
      simp only [bind_eq, pure_eq]
      split
      · exact keeps_ret _
      · refine keeps_bind (frozen_publishProgress _ _) fun x => ?_
        thaw

theorem frozen_spawn {E : Env} {p : Prog Unit} (h : Spawn E p) : Keeps Frozen p := by
  cases h with
  | submit u j _ =>
    refine keeps_bind ?_ fun _ => keeps_ret _
    unfold apiSubmit
    simp only [bind_eq, pure_eq]
    thaw
  | cancel id =>
    refine keeps_bind ?_ fun _ => keeps_ret _
    unfold apiCancel
    simp only [bind_eq, pure_eq]
    thaw
  | restart id _ =>
    refine keeps_bind ?_ fun _ => keeps_ret _
    unfold apiRestart
    simp only [bind_eq, pure_eq]
    thaw
  | fire s _ =>
    unfold fireScheduled
    simp only [bind_eq, pure_eq]
    thaw

/-! ## Whole systems -/

theorem keeps_pstep {R : DS → DS → Prop} (hr : ∀ ds, R ds ds) {p p' : Prog Unit} {ds ds' : DS} {n n' : Nat} {ms : List Msg} (h : Keeps R p)
    (hp : PStep p ds n p' ds' ms n') : R ds ds' ∧ Keeps R p' := by
  cases hp with
  | dbOk op k => exact ⟨h.1 _, h.2.2 _⟩
  | dbFail op k _ _ e => exact ⟨hr _, h.2.2 _⟩
  | dbLost op k _ _ e => exact ⟨h.1 _, h.2.2 _⟩
  | dbPartial op k _ _ e x hx => exact ⟨h.2.1 _ x hx, h.2.2 _⟩
  | pubOk m k => exact ⟨hr _, h _⟩
  | pubFail m k _ _ e => exact ⟨hr _, h _⟩
  | pubLost m k _ _ e => exact ⟨hr _, h _⟩
  | nondet k _ _ x => exact ⟨hr _, h _⟩
  | uuid k => exact ⟨hr _, h _⟩

variable {E : Env}

theorem frozen_threads_step {w w' : World} (h : ∀ p ∈ w.threads, Keeps Frozen p) (hs : Step E w w') :
    Frozen w.ds w'.ds ∧ ∀ p ∈ w'.threads, Keeps Frozen p := by
  have hadd : ∀ {q : Prog Unit}, Keeps Frozen q → ∀ p ∈ w.threads ++ [q], Keeps Frozen p := fun {q} hq p hp => by
    rcases List.mem_append.1 hp with hp | hp
    · exact h p hp
    · rw [List.mem_singleton.1 hp]; exact hq
  cases hs with
  | op a b p p' ds' ms n' ht hp =>
    rw [ht] at h
    obtain ⟨h1, h2⟩ := keeps_pstep Frozen.refl (h p (by simp)) hp
    refine ⟨h1, fun q hq => ?_⟩
    rcases List.mem_append.1 hq with hq | hq
    · exact h q (by simp [hq])
    · rcases List.mem_cons.1 hq with rfl | hq
      · exact h2
      · exact h q (by simp [hq])
  | crash a b p ht =>
    rw [ht] at h
    refine ⟨.refl _, fun q hq => h q ?_⟩
    rcases List.mem_append.1 hq with hq | hq <;> simp [hq]
  | deliver a b m p hm hp => exact ⟨.refl _, hadd (keeps_bind (frozen_coordinator hp) fun _ => keeps_ret _)⟩
  | work a b q t r hm hq hr => exact ⟨.refl _, hadd (keeps_bind (frozen_worker _ _ _) fun _ => keeps_ret _)⟩
  | redeliver a b q t hm hq => exact ⟨.refl _, h⟩
  | lose a b m hm => exact ⟨.refl _, h⟩
  | dup m hm hs => exact ⟨.refl _, h⟩
  | spawn p hp => exact ⟨.refl _, hadd (frozen_spawn hp)⟩
  | nodes ns hq => exact ⟨fun id x hx _ => ⟨x, hx, .refl x⟩, h⟩

theorem frozen_threads {w : World} (hw : Reachable E w) : ∀ p ∈ w.threads, Keeps Frozen p := by
  have K : ∀ {a b : World}, Steps E a b → (∀ p ∈ a.threads, Keeps Frozen p) → ∀ p ∈ b.threads, Keeps Frozen p := fun {a b} h => by
    induction h with
    | refl => exact id
    | tail _ hs ih => exact fun ha => (frozen_threads_step (ih ha) hs).2
  exact K hw fun p hp => by cases hp

/-- No step changes the outcome of a COMPLETED job. -/
theorem frozen_step {w w' : World} (hw : Reachable E w) (hs : Step E w w') : Frozen w.ds w'.ds := (frozen_threads_step (frozen_threads hw) hs).1

end Tork
