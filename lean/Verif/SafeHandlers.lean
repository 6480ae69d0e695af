import Verif.SafeFinish
import Verif.FreshLemmas
/-! Every coordinator handler is safe. -/

namespace Tork
open Prog

variable {rok : Nat → Prop}

abbrev anyPost {α : Type} : List Nat → Ghost → α → Prop := fun _ _ _ => True

/-! ## Row updates -/

theorem plain_cancel {G : Ghost} {r : Task} (hi : TaskInv G r) :
    PlainUpd G r (persistTask r { r with state := .cancelled }) where
  inv := ⟨hi.st, hi.retry, ⟨hi.nested.par, hi.nested.ea, hi.nested.sub⟩, hi.progress, hi.node,
    fun h => by simp [persistTask] at h⟩
  same := ⟨by cases r; rfl, rfl, rfl, rfl, rfl, rfl⟩
  state := .inr (.cancel _)
  count := rfl
  nodone h := by simp [persistTask] at h

theorem plain_schedule {G : Ghost} {r t : Task} (hi : TaskInv G r) (hr : t.RetryOK)
    (hs : t.state = .scheduled) : PlainUpd G r (persistTask r (scheduleRow t r)) where
  inv := ⟨hi.st, hr, ⟨hi.nested.par, hi.nested.ea, hi.nested.sub⟩, hi.progress, hi.node,
    fun h => by have h : t.state = .created := h; rw [hs] at h; simp at h⟩
  same := ⟨by cases r; rfl, rfl, rfl, rfl, rfl, rfl⟩
  state := .inr (by show TaskEdge _ _ t.state; rw [hs]; exact .schedule _)
  count := rfl
  nodone h := by have h : t.state = .completed := h; rw [hs] at h; simp at h

theorem detached_subJobRow (now sid : Nat) (r : Task) :
    (persistTask r (subJobRow now sid r)).detachedSub = r.detachedSub := by
  simp only [persistTask, subJobRow, Task.detachedSub]
  cases r.subJob <;> rfl

theorem static_subJobRow (now sid : Nat) (r : Task) :
    (persistTask r (subJobRow now sid r)).static = r.static := by
  simp only [Task.static, detached_subJobRow]
  simp [persistTask, subJobRow, Task.branches]

theorem plain_subJob {G : Ghost} {r : Task} (now sid : Nat) (hi : TaskInv G r) (hc : r.composite = true) :
    PlainUpd G r (persistTask r (subJobRow now sid r)) where
  inv := by
    refine ⟨?_, hi.retry, ⟨hi.nested.par, hi.nested.ea, ?_⟩, hi.progress, hi.node,
      fun h => by simp [persistTask, subJobRow] at h⟩
    · show G.st r.id = _
      rw [hi.st]; show some r.static = _; exact congrArg some (static_subJobRow now sid r).symm
    · intro s hs c hcc
      cases h : r.subJob with
      | none => simp [persistTask, subJobRow, h] at hs
      | some s0 =>
        simp [persistTask, subJobRow, h] at hs
        rw [← hs] at hcc
        exact hi.nested.sub s0 h c hcc
  same := ⟨by cases r; rfl, rfl, rfl, by simp [persistTask, subJobRow], rfl, detached_subJobRow now sid r⟩
  state := .inr (.compose _ hc)
  count := rfl
  nodone h := by simp [persistTask, subJobRow] at h

theorem plain_each {G : Ghost} {r : Task} (now size : Nat) (hi : TaskInv G r) (hc : r.composite = true) :
    PlainUpd G r (persistTask r (eachRow now size r)) where
  inv := by
    refine ⟨?_, hi.retry, ⟨hi.nested.par, ?_, hi.nested.sub⟩, hi.progress, hi.node,
      fun h => by simp [persistTask, eachRow] at h⟩
    · show G.st r.id = _
      rw [hi.st]; simp [Task.static, persistTask, eachRow, Task.branches, Task.detachedSub]
    · intro s hs
      cases h : r.each with
      | none => simp [persistTask, eachRow, h] at hs
      | some s0 =>
        simp [persistTask, eachRow, h] at hs
        rw [← hs]
        exact hi.nested.ea s0 h
  same := ⟨by cases r; rfl, rfl, by simp [persistTask, eachRow], rfl, rfl, rfl⟩
  state := .inr (.compose _ hc)
  count := by
    unfold Task.count
    simp only [persistTask, eachRow]
    cases h : r.parallel <;> cases h2 : r.each <;> simp
  nodone h := by simp [persistTask, eachRow] at h

theorem plain_par {G : Ghost} {r : Task} (now : Nat) (hi : TaskInv G r) (hc : r.composite = true) :
    PlainUpd G r (persistTask r (parRow now r)) where
  inv := ⟨hi.st, hi.retry, ⟨hi.nested.par, hi.nested.ea, hi.nested.sub⟩, hi.progress, hi.node,
    fun h => by simp [persistTask, parRow] at h⟩
  same := ⟨by cases r; rfl, rfl, rfl, rfl, rfl, rfl⟩
  state := .inr (.compose _ hc)
  count := rfl
  nodone h := by simp [persistTask, parRow] at h

theorem plain_skip {G : Ghost} {r : Task} (a b : Option Nat) (hi : TaskInv G r) :
    PlainUpd G r (persistTask r { r with state := .skipped, scheduledAt := a, startedAt := b }) where
  inv := ⟨hi.st, hi.retry, ⟨hi.nested.par, hi.nested.ea, hi.nested.sub⟩, hi.progress, hi.node,
    fun h => by simp [persistTask] at h⟩
  same := ⟨by cases r; rfl, rfl, rfl, rfl, rfl, rfl⟩
  state := .inr (.skip _)
  count := rfl
  nodone h := by simp [persistTask] at h

theorem plain_fail {G : Ghost} {r : Task} (fa : Option Nat) (e : Err) (hi : TaskInv G r) :
    PlainUpd G r (persistTask r (failTaskRow fa e r)) := by
  unfold failTaskRow
  split
  · rename_i ha
    exact ⟨⟨hi.st, hi.retry, ⟨hi.nested.par, hi.nested.ea, hi.nested.sub⟩, hi.progress, hi.node,
      fun h => by simp [persistTask] at h⟩,
      ⟨by cases r; rfl, rfl, rfl, rfl, rfl, rfl⟩, .inr (.fail ha), rfl, fun h => by simp [persistTask] at h⟩
  · exact ⟨⟨hi.st, hi.retry, ⟨hi.nested.par, hi.nested.ea, hi.nested.sub⟩, hi.progress, hi.node, hi.zero⟩,
      ⟨by cases r; rfl, rfl, rfl, rfl, rfl, rfl⟩, .inl rfl, rfl, fun h => h⟩

theorem plain_started {G : Ghost} {r : Task} (now node : Nat) (hi : TaskInv G r)
    (hs : G.started r.jobID ∧ G.rel r.id) :
    PlainUpd G r (persistTask r (startedRow now node r)) := by
  unfold startedRow
  simp only
  split
  · rename_i ha
    exact ⟨⟨hi.st, hi.retry, ⟨hi.nested.par, hi.nested.ea, hi.nested.sub⟩, hi.progress, fun _ => hs,
      fun h => by simp [persistTask] at h⟩,
      ⟨by cases r; rfl, rfl, rfl, rfl, rfl, rfl⟩, .inr (by rw [ha]; exact .start), rfl, fun h => by simp [persistTask] at h⟩
  · exact ⟨⟨hi.st, hi.retry, ⟨hi.nested.par, hi.nested.ea, hi.nested.sub⟩, hi.progress, fun _ => hs, hi.zero⟩,
      ⟨by cases r; rfl, rfl, rfl, rfl, rfl, rfl⟩, .inl rfl, rfl, fun h => h⟩

theorem clamp_range (p : Rat) : 0 ≤ clampProgress p ∧ clampProgress p ≤ 100 := by
  unfold clampProgress
  split
  · exact ⟨Rat.le_refl, by decide⟩
  · rename_i h
    split
    · exact ⟨by decide, Rat.le_refl⟩
    · rename_i h2
      exact ⟨Rat.not_lt.1 h, Rat.not_lt.1 h2⟩

theorem plain_progress {G : Ghost} {r : Task} (p : Rat) (hi : TaskInv G r) :
    PlainUpd G r (persistTask r { r with progress := clampProgress p }) where
  inv := ⟨hi.st, hi.retry, ⟨hi.nested.par, hi.nested.ea, hi.nested.sub⟩, clamp_range p, hi.node, hi.zero⟩
  same := ⟨by cases r; rfl, rfl, rfl, rfl, rfl, rfl⟩
  state := .inl rfl
  count := rfl
  nodone h := h

/-! ## cancel.go -/

theorem safe_cancelLoop (ts : List Task) {T : List Nat} {G : Ghost} (h : ∀ t ∈ ts, TaskInv G t) :
    Safe rok (cancelLoop ts) T G anyPost := by
  induction ts generalizing T G with
  | nil => exact fun _ _ => trivial
  | cons t ts ih =>
    have ht := h t (by simp)
    have hts : ∀ {G1 : Ghost}, G.le G1 → ∀ x ∈ ts, TaskInv G1 x := fun hl x hx => (h x (by simp [hx])).mono hl
    rw [cancelLoop]
    simp only [bind_eq, pure_eq]
    refine safe_updTask (fun G1 r _ hr _ => plain_cancel hr) ?_
    intro r
    cases r with
    | error e => exact fun _ _ => trivial
    | ok _ =>
      dsimp only
      split
      · refine safe_getJob (fun e => fun _ _ => trivial) ?_
        intro G1 j hl hj _ _
        dsimp only
        refine safe_pub ⟨hj.tasks, hj.parent, fun h => by simp at h, by simp⟩ rfl ?_
        intro r
        cases r with
        | error e => exact fun _ _ => trivial
        | ok _ => exact ih (hts hl)
      · split
        · rename_i hn
          refine safe_getNode (fun e => fun _ _ => trivial) ?_
          intro node hq
          dsimp only
          refine safe_pub ⟨⟨ht.st, (ht.node hn).1, ht.retry, ⟨ht.nested.par, ht.nested.ea, ht.nested.sub⟩, (ht.node hn).2⟩,
            queueOK_node hq (by simp)⟩ rfl ?_
          intro r
          cases r with
          | error e => exact fun _ _ => trivial
          | ok _ => exact ih (hts (.refl G))
        · exact ih (hts (.refl G))

theorem safe_cancelActiveTasks (id : Nat) {T : List Nat} {G : Ghost} :
    Safe rok (cancelActiveTasks id) T G anyPost := by
  simp only [cancelActiveTasks, bind_eq, pure_eq]
  refine safe_getActive (fun e => fun _ _ => trivial) ?_
  intro G1 ts hl hts
  exact safe_cancelLoop ts hts

theorem cancelJobRow_ok {G : Ghost} {R : Prop} {r : Job} (h : JobInv G r) :
    PlainJob R r (persistJob r (cancelJobRow r)) ∧ JobInv G (persistJob r (cancelJobRow r)) := by
  unfold cancelJobRow
  split
  · exact ⟨⟨rfl, .inl rfl, rfl, rfl⟩, h.tasks, h.parent, h.pend, h.done, h.began⟩
  · rename_i hs
    have hs' : r.state = .scheduled ∨ r.state = .running := by
      by_cases h1 : r.state = .running
      · exact .inr h1
      · by_cases h2 : r.state = .scheduled
        · exact .inl h2
        · exact absurd ⟨h1, h2⟩ hs
    refine ⟨⟨rfl, .inr ⟨?_, .cancel hs'⟩, rfl, rfl⟩, h.tasks, h.parent, fun h => by simp [persistJob] at h,
      fun h => by simp [persistJob] at h, fun _ => h.began ?_⟩
    all_goals rcases hs' with h | h <;> rw [h] <;> simp

theorem safe_cancelHandler (j : Job) {T : List Nat} {G : Ghost} :
    Safe rok (cancelHandler j) T G anyPost := by
  simp only [cancelHandler, bind_eq, pure_eq]
  refine safe_updJob' (fun G1 r _ hr _ => cancelJobRow_ok hr) ?_
  intro r
  cases r with
  | error e => exact fun _ _ => trivial
  | ok _ =>
    dsimp only
    split
    · refine safe_getTask (fun e => trivial) ?_
      intro G1 pt hl hpt _
      dsimp only
      refine safe_getJob (fun e => trivial) ?_
      intro G2 pj hl2 hpj _ _
      dsimp only
      refine safe_pub ⟨hpj.tasks, hpj.parent, fun h => by simp at h, by simp⟩ rfl ?_
      intro _
      exact safe_cancelActiveTasks _
    · exact safe_cancelActiveTasks _

/-! ## scheduler.go -/

/-- The fields that matter here and that a default does not touch. -/
structure DefFrame (a b : Task) : Prop where
  id : b.id = a.id
  st : b.static = a.static
  jobID : b.jobID = a.jobID
  par : b.parallel = a.parallel
  ea : b.each = a.each
  sub : b.subJob = a.subJob
  retry : a.RetryOK → b.RetryOK

theorem DefFrame.refl (a : Task) : DefFrame a a := ⟨rfl, rfl, rfl, rfl, rfl, rfl, fun h => h⟩
theorem DefFrame.trans {a b c : Task} (h1 : DefFrame a b) (h2 : DefFrame b c) : DefFrame a c :=
  ⟨h2.id.trans h1.id, h2.st.trans h1.st, h2.jobID.trans h1.jobID, h2.par.trans h1.par,
   h2.ea.trans h1.ea, h2.sub.trans h1.sub, fun h => h2.retry (h1.retry h)⟩

theorem defQueue_frame (q : String) (t : Task) : DefFrame t (defQueue q t) := by
  unfold defQueue; split <;> exact ⟨rfl, rfl, rfl, rfl, rfl, rfl, fun h => h⟩
theorem defTimeout_frame (q : String) (t : Task) : DefFrame t (defTimeout q t) := by
  unfold defTimeout; split <;> exact ⟨rfl, rfl, rfl, rfl, rfl, rfl, fun h => h⟩
theorem defPriority_frame (q : Nat) (t : Task) : DefFrame t (defPriority q t) := by
  unfold defPriority; split <;> exact ⟨rfl, rfl, rfl, rfl, rfl, rfl, fun h => h⟩
theorem defLimits_frame (q : Option TaskLimits) (t : Task) : DefFrame t (defLimits q t) := by
  unfold defLimits; split <;> exact ⟨rfl, rfl, rfl, rfl, rfl, rfl, fun h => h⟩
theorem defRetry_frame (q : Option TaskRetry) (t : Task) : DefFrame t (defRetry q t) := by
  unfold defRetry
  split
  · exact .refl t
  · rename_i dr
    refine ⟨rfl, rfl, rfl, rfl, rfl, rfl, fun h r hr => ?_⟩
    simp only [Option.some.injEq] at hr
    rw [← hr]
    cases ht : t.retry with
    | none => simp only [Option.getD_none]; split <;> simp
    | some r0 =>
      have := h r0 ht
      simp only [Option.getD_some]
      split
      · rename_i h0
        rw [h0] at this
        have : r0.attempts = 0 := Nat.le_zero.1 this
        simp [this]
      · exact this

theorem applyDefaults_frame (d : Option JobDefaults) (t : Task) : DefFrame t (applyDefaults d t) := by
  unfold applyDefaults
  refine DefFrame.trans ?_ (defQueue_frame _ _)
  split
  · exact .refl t
  · exact (defQueue_frame _ _).trans ((defLimits_frame _ _).trans ((defTimeout_frame _ _).trans
      ((defRetry_frame _ _).trans (defPriority_frame _ _))))

/-- The task a handler returns can be handed to the error handler. -/
structure HTask (G : Ghost) (t : Task) : Prop extends MsgTask G t where
  zero : t.count = 0

theorem HTask.mono {G G' : Ghost} {t : Task} (h : HTask G t) (hl : G.le G') : HTask G' t :=
  ⟨h.toMsgTask.mono hl, h.zero⟩

abbrev taskPost : List Nat → Ghost → Res × Task → Prop := fun _ G x => HTask G x.2

theorem MsgTask.upd {G : Ghost} {t u : Task} (h : MsgTask G t) (hid : u.id = t.id) (hs : u.static = t.static)
    (hr : u.RetryOK) (hn : u.Nested) : MsgTask G u :=
  ⟨by rw [hid, hs]; exact h.st, by
    have : u.jobID = t.jobID := congrArg Static.jobID hs
    rw [this]; exact h.started, hr, hn, by rw [hid]; exact h.rel⟩

theorem HTask.upd {G : Ghost} {t u : Task} (h : HTask G t) (hid : u.id = t.id) (hs : u.static = t.static)
    (hr : u.RetryOK) (hn : u.Nested) (hc : u.count = t.count := by rfl) : HTask G u :=
  ⟨h.toMsgTask.upd hid hs hr hn, hc.trans h.zero⟩

theorem safe_retT {r : Res} {t : Task} {T : List Nat} {G : Ghost} (h : HTask G t) :
    Safe rok (.ret (r, t)) T G taskPost := fun _ hl => h.mono hl

theorem safe_scheduleRegular {t : Task} {T : List Nat} {G : Ghost} (ht : HTask G t) (hpl : t.static.plain) :
    Safe rok (scheduleRegularTask t) T G taskPost := by
  simp only [scheduleRegularTask, bind_eq, pure_eq]
  refine safe_now fun now => ?_
  refine safe_getJob (fun e => safe_retT ht) ?_
  intro G1 j hl hj _ _
  dsimp only
  have hf := applyDefaults_frame j.defaults t
  have ht' : HTask G1 { applyDefaults j.defaults t with state := .scheduled, scheduledAt := some now } :=
    (ht.mono hl).upd hf.id hf.st (hf.retry ht.retry) ⟨by show ∀ p, (applyDefaults j.defaults t).parallel = _ → _; rw [hf.par]; exact ht.nested.par, by show ∀ p, (applyDefaults j.defaults t).each = _ → _; rw [hf.ea]; exact ht.nested.ea, by show ∀ p, (applyDefaults j.defaults t).subJob = _ → _; rw [hf.sub]; exact ht.nested.sub⟩
      (by show (applyDefaults j.defaults t).count = _; simp only [Task.count, hf.par, hf.ea])
  refine safe_updTask (fun G2 r hl2 hr _ => plain_schedule hr ht'.retry rfl) ?_
  intro r
  cases r with
  | error e => exact safe_retT ht'
  | ok _ =>
    dsimp only
    refine safe_pub ⟨ht'.toMsgTask, queueOK_plain (by show (applyDefaults j.defaults t).static.plain; rw [hf.st]; exact hpl)⟩ rfl ?_
    intro r
    cases r with
    | error e => exact safe_retT ht'
    | ok _ => exact safe_retT ht'

/-- A known task id determines the kind of the row. -/
theorem composite_of {G G1 : Ghost} {t r : Task} (ht : HTask G t) (hl : G.le G1) (hr : TaskInv G1 r)
    (hid : r.id = t.id) : r.composite = t.composite := by
  have h1 := hl.st _ _ ht.st
  have h2 := hr.st
  rw [hid, h1] at h2
  have h3 : r.static = t.static := (Option.some.inj h2).symm
  have a := congrArg Static.isPar h3
  have b := congrArg Static.isEach h3
  have c := congrArg Static.isSub h3
  simp only [Task.static] at a b c
  simp [Task.composite, a, b, c]

theorem safe_scheduleAttached {t : Task} {s : SubJobTask Task} {T : List Nat} {G : Ghost} (ht : HTask G t)
    (hnp : t.parallel = none) (hne : t.each = none) (hs : t.subJob = some s) :
    Safe rok (scheduleAttachedSubJob t s) T G anyPost := by
  simp only [scheduleAttachedSubJob, bind_eq, pure_eq]
  refine safe_getJob (fun e => fun _ _ => trivial) ?_
  intro G1 j hl hj _ _
  dsimp only
  refine safe_now fun now => ?_
  refine safe_uuid fun id hid _ => ?_
  refine safe_updTask (fun G2 r hl2 hr hrid => plain_subJob now id hr ?_) ?_
  · rw [composite_of ht (hl.trans hl2) hr hrid]; simp [Task.composite, hs]
  · intro r
    have hpar : ParentOK G1 t.id := fun _ => ⟨t.static, hl.st _ _ ht.st, ht.started.mono hl,
      by simp [Task.static, hnp], by simp [Task.static, hne], hl.rel _ ht.rel⟩
    have hfr : ∀ c ∈ s.tasks, c.Fresh := ht.nested.sub s hs
    cases r with
    | error e => exact fun _ _ => trivial
    | ok _ =>
      dsimp only
      refine safe_createJob (by simp [attachedSubJob]) rfl rfl rfl hfr hpar ?_
      intro r
      cases r with
      | error e => exact fun _ _ => trivial
      | ok _ =>
        dsimp only
        refine safe_pub_start ⟨hfr, hpar, fun h => by simp [attachedSubJob] at h, by simp [attachedSubJob]⟩ (by simp [attachedSubJob]) ?_
        intro T' r
        cases r with
        | error e => exact fun _ _ => trivial
        | ok _ => exact fun _ _ => trivial

theorem safe_scheduleDetached {t : Task} {s : SubJobTask Task} {T : List Nat} {G : Ghost} (ht : HTask G t)
    (hnp : t.parallel = none) (hne : t.each = none) (hs : t.subJob = some s) (hd : s.detached = true) :
    Safe rok (scheduleDetachedSubJob t s) T G taskPost := by
  simp only [scheduleDetachedSubJob, bind_eq, pure_eq]
  refine safe_getJob (fun e => safe_retT ht) ?_
  intro G1 j hl hj _ _
  dsimp only
  refine safe_now fun now => ?_
  refine safe_uuid fun id hid _ => ?_
  have ht1 := ht.mono hl
  have hfr : ∀ c ∈ s.tasks, c.Fresh := ht.nested.sub s hs
  have hpar : ParentOK G1 0 := fun h => absurd rfl h
  refine safe_createJob (by simp [detachedSubJob]) rfl rfl rfl hfr hpar ?_
  intro r
  cases r with
  | error e => exact safe_retT ht1
  | ok _ =>
    dsimp only
    refine safe_pub_start ⟨hfr, hpar, fun h => by simp [detachedSubJob] at h, by simp [detachedSubJob]⟩ (by simp [detachedSubJob]) ?_
    intro T' r
    cases r with
    | error e => exact safe_retT ht1
    | ok _ =>
      dsimp only
      refine safe_updTask (fun G2 r hl2 hr hrid => plain_subJob now id hr ?_) ?_
      · rw [composite_of ht (hl.trans hl2) hr hrid]; simp [Task.composite, hs]
      · intro r
        cases r with
        | error e => exact safe_retT ht1
        | ok _ =>
          have ht2 : HTask G1 { t with completedAt := some now, state := .completed } :=
            ht1.upd rfl rfl ht1.retry ⟨ht1.nested.par, ht1.nested.ea, ht1.nested.sub⟩
          dsimp only
          have hmay : MayComplete G1 t.id t.static :=
            ⟨fun h => by rcases h with h | h <;> simp [Task.static, hnp, hne] at h,
             fun _ _ _ h => by simp [Task.static, Task.detachedSub, hs, hd] at h⟩
          refine safe_pub ⟨ht2.toMsgTask, queueOK_completed ht2.zero fun _ => hmay⟩ rfl ?_
          intro r
          cases r with
          | error e => exact safe_retT ht2
          | ok _ => exact safe_retT ht2

theorem safe_failToErrorQueue {t : Task} {e : Err} {T : List Nat} {G : Ghost} (ht : HTask G t) :
    Safe rok (failToErrorQueue t e) T G taskPost := by
  simp only [failToErrorQueue, bind_eq, pure_eq]
  have ht2 : HTask G { t with error := e, state := .failed } :=
    ht.upd rfl rfl ht.retry ⟨ht.nested.par, ht.nested.ea, ht.nested.sub⟩
  refine safe_pub ⟨ht2.toMsgTask, queueOK_error ht2.zero⟩ rfl ?_
  intro r
  cases r with
  | error e => exact safe_retT ht2
  | ok _ => exact safe_retT ht2

/-- A task created from a fresh definition and evaluated. -/
theorem newTask_child {G : Ghost} {tm : String → Except Err String} {c : Task} {pid : Nat} (hid : c.id ≠ 0)
    (hp : c.parentID = pid) (hp0 : pid ≠ 0) (hsp : ∃ sp, G.st pid = some sp ∧ sp.jobID = c.jobID ∧ G.rel pid)
    (hr : c.RetryOK) (hn : c.Nested) (hnode : c.nodeID = 0) (hc : c.count = 0)
    (hs : c.state = .pending ∨ c.state = .created ∨ c.state = .failed) :
    NewTask G (evaluateTask tm c).1 := by
  have hf := (evaluateTask_frame tm c).1
  refine ⟨by rw [hf.id]; exact hid, ?_, ?_, ?_, nested_evaluate hn, ?_, by rw [hf.state]; exact hs,
    (count_evaluate tm c).trans hc⟩
  · intro _; rw [hf.parentID, hf.jobID, hp]; exact hsp
  · intro h; rw [hf.parentID, hp] at h; exact absurd h hp0
  · intro r h; rw [hf.retry] at h; exact hr r h
  · intro h; rw [hf.nodeID] at h; exact absurd hnode h

theorem eachChild_facts {t : Task} {e : EachTask Task} (hfr : e.task.Fresh) (jobID id now ix : Nat) :
    (eachChild t e jobID id now ix).RetryOK ∧ (eachChild t e jobID id now ix).Nested ∧
    (eachChild t e jobID id now ix).nodeID = 0 ∧ (eachChild t e jobID id now ix).count = 0 := by
  have h := fresh_clone hfr
  exact ⟨h.retryOK, ⟨h.nested.par, h.nested.ea, h.nested.sub⟩, h.node0, h.count0⟩

theorem msgTask_afterChild {G : Ghost} {t : Task} {e : EachTask Task} (tm : String → Except Err String)
    (ht : HTask G t) (he : t.each = some e) : HTask G { t with each := some (afterChild tm e) } where
  st := by
    have := ht.st
    simp only [Task.static, he] at this ⊢
    exact this
  started := ht.started
  retry := ht.retry
  nested := ⟨ht.nested.par, fun e' h => by
    simp at h; subst h; exact fresh_mapCmds _ (ht.nested.ea e he), ht.nested.sub⟩
  rel := ht.rel
  zero := by
    have := ht.zero
    simp only [Task.count, he] at this ⊢
    exact this

theorem safe_eachLoop {C : Cfg} {j : Job} {now : Nat} (items : List String) {t : Task} {e : EachTask Task}
    {ix : Nat} {T : List Nat} {G : Ghost} (ht : HTask G t) (hid : t.id ≠ 0) (he : t.each = some e)
    (hj : j.id = t.jobID) :
    Safe rok (eachLoop C j now t e ix items) T G taskPost := by
  induction items generalizing t e ix T G with
  | nil => exact safe_retT ht
  | cons item items ih =>
    rw [eachLoop]
    simp only [bind_eq, pure_eq]
    refine safe_uuid fun id hid0 _ => ?_
    refine safe_seed fun sd => ?_
    have hfr := ht.nested.ea e he
    obtain ⟨h1, h2, h3, h4⟩ := eachChild_facts (t := t) hfr j.id id now ix
    generalize evaluateTemplate C.O ⟨j.context, some (eachVarName e, ix, item)⟩ sd = tm
    have hf := (evaluateTask_frame tm (eachChild t e j.id id now ix)).1
    have hnew : NewTask G (evaluateTask tm (eachChild t e j.id id now ix)).1 := by
      refine newTask_child hid0 rfl hid ⟨t.static, ht.st, hj.symm, ht.rel⟩ h1 h2 h3 h4 ?_
      simp only [eachChild]; split <;> simp
    rcases hev : evaluateTask tm (eachChild t e j.id id now ix) with ⟨et, err⟩
    rw [hev] at hf hnew
    cases err with
    | some err => exact safe_failToErrorQueue ht
    | none =>
      dsimp only
      have ht' := msgTask_afterChild tm ht he
      refine safe_createTask (by rw [hf.id]; simp [eachChild]) hnew (fun e => safe_retT ht') ?_
      intro G1 hl hst hrel
      dsimp only
      split
      · rename_i hs
        refine safe_pub ⟨⟨hst, ?_, hnew.retry, hnew.nested, hrel ?_⟩, queueOK_pending hnew.count⟩ rfl ?_
        · have : et.jobID = t.jobID := by rw [hf.jobID]; exact hj
          rw [this]; exact ht.started.mono hl
        · have hs : fireNow e.concurrency ix = true := hs
          rw [hf.state]
          simp [eachChild, hs]
        · intro r
          cases r with
          | error e => exact safe_retT (ht'.mono hl)
          | ok _ => exact ih (ht'.mono hl) hid rfl hj
      · exact ih (ht'.mono hl) hid rfl hj

theorem safe_scheduleEach {C : Cfg} {t : Task} {e : EachTask Task} {T : List Nat} {G : Ghost}
    (ht : HTask G t) (he : t.each = some e) :
    Safe rok (scheduleEachTask C t e) T G taskPost := by
  simp only [scheduleEachTask, bind_eq, pure_eq]
  refine safe_now fun now => ?_
  refine safe_getJobS (fun e => safe_retT ht) ?_
  intro G1 j hl hj hjid _ hsi _ _
  have hid := (hsi _ _ (hl.st _ _ ht.st)).nz
  dsimp only
  refine safe_seed fun sd => ?_
  have ht1 := ht.mono hl
  split
  · exact safe_failToErrorQueue ht1
  · split
    · exact safe_failToErrorQueue ht1
    · refine safe_updTask (fun G2 r hl2 hr hrid => plain_each now _ hr ?_) ?_
      · rw [composite_of ht (hl.trans hl2) hr hrid]; simp [Task.composite, he]
      · intro r
        cases r with
        | error e => exact safe_retT ht1
        | ok _ => exact safe_eachLoop _ ht1 hid he hjid

theorem safe_parLoop {C : Cfg} {t : Task} {j : Job} {now : Nat} (pts : List Task)
    {T : List Nat} {G : Ghost} (ht : HTask G t) (hid : t.id ≠ 0) (hfr : ∀ c ∈ pts, c.Fresh)
    (hj : j.id = t.jobID) :
    Safe rok (parLoop C t j now pts) T G taskPost := by
  induction pts generalizing T G with
  | nil => exact safe_retT ht
  | cons pt pts ih =>
    rw [parLoop]
    simp only [bind_eq, pure_eq]
    refine safe_uuid fun id hid0 _ => ?_
    refine safe_seed fun sd => ?_
    have hpt := hfr pt (by simp)
    generalize evaluateTemplate C.O ⟨j.context, none⟩ sd = tm
    have hf := (evaluateTask_frame tm (parChild t pt j.id id now)).1
    have hnew : NewTask G (evaluateTask tm (parChild t pt j.id id now)).1 :=
      newTask_child hid0 rfl hid ⟨t.static, ht.st, hj.symm, ht.rel⟩ hpt.retryOK
        ⟨hpt.nested.par, hpt.nested.ea, hpt.nested.sub⟩ hpt.node0 hpt.count0 (.inl rfl)
    rcases hev : evaluateTask tm (parChild t pt j.id id now) with ⟨et, err⟩
    rw [hev] at hf hnew
    cases err with
    | some err => exact safe_failToErrorQueue ht
    | none =>
      dsimp only
      refine safe_createTask (by rw [hf.id]; simp [parChild]) hnew (fun e => safe_retT ht) ?_
      intro G1 hl hst hrel
      dsimp only
      refine safe_pub ⟨⟨hst, ?_, hnew.retry, hnew.nested, hrel (by rw [hf.state]; simp [parChild])⟩, queueOK_pending hnew.count⟩ rfl ?_
      · have : et.jobID = t.jobID := by rw [hf.jobID]; exact hj
        rw [this]; exact ht.started.mono hl
      · intro r
        cases r with
        | error e => exact safe_retT (ht.mono hl)
        | ok _ => exact ih (ht.mono hl) fun c hc => hfr c (by simp [hc])

theorem safe_schedulePar {C : Cfg} {t : Task} {p : ParallelTask Task} {T : List Nat} {G : Ghost}
    (ht : HTask G t) (hp : t.parallel = some p) :
    Safe rok (scheduleParallelTask C t p) T G taskPost := by
  simp only [scheduleParallelTask, bind_eq, pure_eq]
  refine safe_now fun now => ?_
  refine safe_updTask (fun G2 r hl2 hr hrid => plain_par now hr ?_) ?_
  · rw [composite_of ht hl2 hr hrid]; simp [Task.composite, hp]
  · intro r
    cases r with
    | error e => exact safe_retT ht
    | ok _ =>
      dsimp only
      refine safe_getJobS (fun e => safe_retT ht) ?_
      intro G1 j hl hj hjid _ hsi _ _
      have hid := (hsi _ _ (hl.st _ _ ht.st)).nz
      exact safe_parLoop _ (ht.mono hl) hid (ht.nested.par p hp) hjid

end Tork
