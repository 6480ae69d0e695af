import Verif.SafeHandlers2
/-! The API endpoints, cron firings and workers are safe, hence every reachable step obeys `DsStep`. -/

namespace Tork
open Prog

variable {rok : Nat → Prop}

/-- Worker middleware may change what a task does but not which task it is. -/
def WorkerRun.KeepsIdentity (w : WorkerRun) : Prop :=
  ∀ t : Task, (w.pre t).id = t.id ∧ (w.pre t).jobID = t.jobID ∧ (w.pre t).parentID = t.parentID ∧
    (w.pre t).position = t.position ∧ (w.pre t).retry = t.retry ∧ (w.pre t).parallel = t.parallel ∧
    (w.pre t).each = t.each ∧ (w.pre t).subJob = t.subJob ∧ (w.pre t).var = t.var

/-- What is assumed of the environment: submitted and scheduled job definitions are definitions (they
carry no execution state, which `/repo/input/*.go` guarantees since the request types have no such
fields), and worker middleware keeps the identity of tasks. -/
structure Env.WellFormed (E : Env) : Prop where
  submit : ∀ j, E.submitOK j → j.parentID = 0 ∧ ∀ t ∈ j.tasks, t.Fresh
  fire : ∀ s, E.fireOK s → ∀ t ∈ s.tasks, t.Fresh
  worker : ∀ w, E.workerOK w → w.KeepsIdentity

theorem workerPrep_frame (w : WorkerRun) (now : Nat) (t : Task) :
    (workerPrep w now t).id = t.id ∧ (workerPrep w now t).static = t.static ∧
    (workerPrep w now t).retry = t.retry ∧ (workerPrep w now t).parallel = t.parallel ∧
    (workerPrep w now t).each = t.each ∧ (workerPrep w now t).subJob = t.subJob := by
  unfold workerPrep
  dsimp only
  cases hl : t.limits with
  | none => dsimp only; split <;> split <;> exact ⟨rfl, rfl, rfl, rfl, rfl, rfl⟩
  | some l => dsimp only; split <;> exact ⟨rfl, rfl, rfl, rfl, rfl, rfl⟩

theorem safe_publishProgress {t : Task} (ps : List Rat) {T : List Nat} {G : Ghost} (ht : HTask G t) :
    Safe rok (publishProgress t ps) T G anyPost := by
  induction ps with
  | nil => exact fun _ _ => trivial
  | cons p ps ih =>
    rw [publishProgress]
    simp only [bind_eq]
    refine safe_pub ⟨ht.toMsgTask.upd rfl rfl ht.retry ⟨ht.nested.par, ht.nested.ea, ht.nested.sub⟩, ht.zero⟩ rfl ?_
    intro _
    exact ih

theorem safe_doRunTask {C : Cfg} {w : WorkerRun} {t : Task} {T : List Nat} {G : Ghost} (ht : HTask G t) :
    Safe rok (doRunTask C w t) T G anyPost := by
  simp only [doRunTask, bind_eq, pure_eq]
  split
  · exact fun _ _ => trivial
  · refine Safe.bind ((safe_publishProgress _ ht).mono ?_)
    intro T' G' _ _
    refine safe_now fun now => ?_
    split
    · exact fun _ _ => trivial
    · exact fun _ _ => trivial

theorem safe_workerMw {C : Cfg} {w : WorkerRun} {t : Task} {T : List Nat} {G : Ghost}
    (ht : HTask G (w.pre t)) : Safe rok (workerMw C w t) T G anyPost := by
  simp only [workerMw, bind_eq, pure_eq]
  split
  · exact fun _ _ => trivial
  · simp only [runTask, bind_eq, pure_eq, Prog.bind_assoc]
    refine safe_pub ⟨ht.toMsgTask, queueOK_started ht.zero⟩ rfl ?_
    intro r
    cases r with
    | error e => exact fun _ _ => trivial
    | ok _ =>
      refine Safe.bind ((safe_doRunTask ht).mono ?_)
      intro _ _ _ _
      exact fun _ _ => trivial

theorem safe_doHandleTask {C : Cfg} {w : WorkerRun} {t : Task} {T : List Nat} {G : Ghost}
    (hw : w.KeepsIdentity) (ht : HTask G t) (hpl : t.static.plain) : Safe rok (doHandleTask C w t) T G anyPost := by
  simp only [doHandleTask, bind_eq, pure_eq]
  refine safe_now fun now => ?_
  obtain ⟨h1, h2, h3, h4, h5, h6⟩ := workerPrep_frame w now t
  have ht1 : HTask G (workerPrep w now t) :=
    ht.upd h1 h2 (by intro r hr; rw [h3] at hr; exact ht.retry r hr)
      ⟨by rw [h4]; exact ht.nested.par, by rw [h5]; exact ht.nested.ea, by rw [h6]; exact ht.nested.sub⟩
      (by unfold Task.count; rw [h4, h5])
  have hcf := clone_frame (workerPrep w now t)
  have hnc := nested_clone ht1.nested
  have ht2 : HTask G (workerPrep w now t).clone := by
    refine ht1.upd hcf.id (static_clone _) ?_ hnc (count_clone _)
    intro r hr; rw [hcf.retry] at hr; exact ht1.retry r hr
  obtain ⟨k1, k2, k3, k4, k5, k6, k7, k8, k9⟩ := hw (workerPrep w now t).clone
  have ht3 : HTask G (w.pre (workerPrep w now t).clone) := by
    refine ht2.upd k1 ?_ ?_ ⟨?_, ?_, ?_⟩ (by unfold Task.count; rw [k6, k7])
    · simp [Task.static, Task.branches, Task.detachedSub, k2, k3, k4, k6, k7, k8, k9]
    · intro r hr; rw [k5] at hr; exact ht2.retry r hr
    · rw [k6]; exact ht2.nested.par
    · rw [k7]; exact ht2.nested.ea
    · rw [k8]; exact ht2.nested.sub
  refine Safe.bind (Safe.le_post (safe_workerMw ht3) ?_)
  intro T' G' x hl _
  obtain ⟨r, rt⟩ := x
  have ht1 := ht1.mono hl
  have hpl1 : (workerPrep w now t).static.plain := by rw [h2]; exact hpl
  have hfin : ∀ (q : String) (u : Task), MsgTask G' u → u.static.plain → Safe rok
      ((publish (.task q u)).bind fun x => match x with
        | .error e => Prog.ret (some e)
        | .ok _ => Prog.ret none) T' G' (anyPost (α := Res)) := by
    intro q u hu hup
    refine safe_pub ⟨hu, queueOK_plain hup⟩ rfl ?_
    intro r
    cases r with
    | error e => exact fun _ _ => trivial
    | ok _ => exact fun _ _ => trivial
  cases r with
  | some e =>
    refine safe_now fun n => ?_
    exact hfin _ _ (ht1.toMsgTask.upd rfl rfl ht1.retry ⟨ht1.nested.par, ht1.nested.ea, ht1.nested.sub⟩) hpl1
  | none =>
    dsimp only
    split
    · exact hfin _ _ (ht1.toMsgTask.upd rfl rfl ht1.retry ⟨ht1.nested.par, ht1.nested.ea, ht1.nested.sub⟩) hpl1
    · exact hfin _ _ (ht1.toMsgTask.upd rfl rfl ht1.retry ⟨ht1.nested.par, ht1.nested.ea, ht1.nested.sub⟩) hpl1
    · exact fun _ _ => trivial

theorem safe_apiSubmit {u : Option User} {j : Job} {T : List Nat} {G : Ghost} (hp : j.parentID = 0)
    (hf : ∀ t ∈ j.tasks, t.Fresh) : Safe rok (apiSubmit u j) T G anyPost := by
  simp only [apiSubmit, bind_eq, pure_eq]
  refine safe_uuid fun id hid _ => ?_
  refine safe_now fun now => ?_
  have hpar : ParentOK G (submitRow id now u j).parentID := fun h => absurd hp h
  refine safe_createJob (by simp [submitRow]) rfl rfl rfl hf hpar ?_
  intro r
  cases r with
  | error e => exact fun _ _ => trivial
  | ok _ =>
    dsimp only
    refine safe_pub_start ⟨hf, hpar, fun h => by simp [submitRow] at h, by simp [submitRow]⟩ (by simp [submitRow]) ?_
    intro T' r
    cases r with
    | error e => exact fun _ _ => trivial
    | ok _ => exact fun _ _ => trivial

theorem safe_fireScheduled {s : ScheduledJob} {T : List Nat} {G : Ghost}
    (hf : ∀ t ∈ s.tasks, t.Fresh) : Safe rok (fireScheduled s) T G anyPost := by
  simp only [fireScheduled, bind_eq, pure_eq]
  refine safe_now fun now => ?_
  refine safe_uuid fun id hid _ => ?_
  have hpar : ParentOK G (scheduledInstance id now s).parentID := fun h => absurd rfl h
  refine safe_createJob (by simp [scheduledInstance]) rfl rfl rfl hf hpar ?_
  intro r
  refine safe_pub_start ⟨hf, hpar, fun h => by simp [scheduledInstance] at h, by simp [scheduledInstance]⟩ (by simp [scheduledInstance]) ?_
  intro T' r
  exact fun _ _ => trivial

theorem safe_apiCancel {id : Nat} {T : List Nat} {G : Ghost} : Safe rok (apiCancel id) T G anyPost := by
  simp only [apiCancel, bind_eq, pure_eq]
  refine safe_getJob (fun e => fun _ _ => trivial) ?_
  intro G1 j hl hj _ _
  dsimp only
  split
  · exact fun _ _ => trivial
  · refine safe_pub ⟨hj.tasks, hj.parent, fun h => by simp at h, by simp⟩ rfl ?_
    intro r
    cases r with
    | error e => exact fun _ _ => trivial
    | ok _ => exact fun _ _ => trivial

theorem safe_apiRestart {id : Nat} {T : List Nat} {G : Ghost} (hr : rok id) :
    Safe rok (apiRestart id) T G anyPost := by
  simp only [apiRestart, bind_eq, pure_eq]
  refine safe_getJob (fun e => fun _ _ => trivial) ?_
  intro G1 j hl hj hjid hat
  dsimp only
  split
  · exact fun _ _ => trivial
  · rename_i hs
    split
    · exact fun _ _ => trivial
    · have hne : j.state ≠ .pending := fun h => hs (by rw [h]; simp)
      have hat := hat hne
      refine safe_pub ⟨hj.tasks, hj.parent, fun _ => ?_, by simp⟩ rfl ?_
      · refine ⟨?_, ?_⟩
        · show rok j.id; rw [hjid]; exact hr
        · show G1.atLeast j.id j.position; rw [hjid]; exact hat
      · intro r
        cases r with
        | error e => exact fun _ _ => trivial
        | ok _ => exact fun _ _ => trivial

/-- Every program the environment can start is safe. -/
theorem env_safe {E : Env} (hE : E.WellFormed) : EnvSafe E where
  deliver _ _ _ hm hp := safe_coordinator hm hp
  work _ _ _ ht hpl h0 hr := safe_doHandleTask (hE.worker _ hr) ⟨ht, h0⟩ hpl
  spawn p G hp := by
    cases hp with
    | submit u j h => exact Safe.discard (safe_apiSubmit (hE.submit j h).1 (hE.submit j h).2)
    | cancel id => exact Safe.discard safe_apiCancel
    | restart id h => exact Safe.discard (safe_apiRestart h)
    | fire s h => exact safe_fireScheduled (hE.fire s h)

end Tork
