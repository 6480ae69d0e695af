import Verif.OriginOps
/-!
# Where tasks come from: the handlers
-/

namespace Tork.Origin
open Prog

variable {E : Env} {G : Ghost} {T : Option Nat}

theorem evaluateTask_result (tm : String → Except Err String) (t : Task) : (evaluateTask tm t).1.result = t.result := by
  have h1 : ∀ t, (evalTaskStart tm t).1.result = t.result := fun t => by
    unfold evalTaskStart
    repeat' split
    all_goals rfl
  have h2 : ∀ t, (evalTaskEnd tm t).1.result = t.result := fun t => by
    unfold evalTaskEnd
    repeat' split
    all_goals rfl
  have h1 := h1 t
  rw [evaluateTask_eq]
  rcases hst : evalTaskStart tm t with ⟨t1, e1⟩
  rw [hst] at h1
  cases e1 with
  | some e => exact h1
  | none =>
    simp only
    rcases evalTasks tm t.pre with ⟨pre, e2⟩
    cases e2 with
    | some e => exact h1
    | none =>
      simp only
      rcases evalTasks tm t.post with ⟨post, e3⟩
      cases e3 with
      | some e => exact h1
      | none =>
        simp only
        rcases evalPar tm t.parallel with ⟨par, e4⟩
        cases e4 with
        | some e => exact h1
        | none => exact (h2 _).trans h1

theorem defaults_result (d : Option JobDefaults) (t : Task) : (applyDefaults d t).result = t.result := by
  have hq : ∀ q (t : Task), (defQueue q t).result = t.result := fun q t => by unfold defQueue; split <;> rfl
  unfold applyDefaults
  rw [hq]
  cases d with
  | none => rfl
  | some d =>
    dsimp only
    unfold defPriority defRetry defTimeout defLimits
    repeat' split
    all_goals first | rfl | exact hq _ _

theorem unrun_child {t y : Task} {v : String} (ht : TaskOK G t) (h : y.parentID = t.id) : Unrun G y v := fun h1 _ h3 => by
  unfold TaskOK at ht
  rw [← h, h1, h3] at ht
  cases ht

abbrev done {α : Type} : Ghost → α → Prop := fun _ _ => True

theorem fin_ret {α : Type} (a : α) : Good E (.ret a) G T done := fun _ _ => trivial
theorem pan {α : Type} {post : Ghost → α → Prop} (s : String) : Good E (.panic s) G T post := trivial

/-! ## cancel.go -/

theorem good_cancelLoop (ts : List Task) (h : ∀ t ∈ ts, TaskOK G t) : Good E (cancelLoop ts) G T done := by
  induction ts generalizing G with
  | nil => rw [cancelLoop]; exact fin_ret _
  | cons t ts ih =>
    rw [cancelLoop]
    simp only [bind_eq, pure_eq]
    have ht := h t List.mem_cons_self
    have hts : ∀ G', G.le G' → ∀ x ∈ ts, TaskOK G' x := fun G' hl x hx => (h x (List.mem_cons_of_mem _ hx)).mono hl
    refine good_updTask (fun _ _ _ _ _ => ⟨rfl, (fun h => nomatch h), (fun h => nomatch h), .inl rfl⟩) fun G1 r h1 => ?_
    cases r with
    | error e => exact fin_ret _
    | ok _ =>
      dsimp only
      split
      · refine good_getJob (fun _ _ _ => fin_ret _) fun G2 j h2 hj _ _ => ?_
        refine good_pub ⟨(show JobOK G2 _ from hj), (fun h => nomatch h), fun h => nomatch h⟩ fun r => ?_
        cases r with
        | error e => exact fin_ret _
        | ok _ => exact ih (hts G2 (h1.trans h2))
      · split
        · refine good_getNode (fun _ _ _ => fin_ret _) fun G2 n h2 hn => ?_
          refine good_task ((ht.mono (h1.trans h2)).same ⟨rfl, rfl⟩) (fun r => ?_) (hq := fun h => absurd h (exclusive_not_handed hn)) (hp := fun h => absurd h (exclusive_not_pending hn))
          cases r with
          | error e => exact fin_ret _
          | ok _ => exact ih (hts G2 (h1.trans h2))
        · exact ih (hts G1 h1)

theorem good_cancelActive (n : Nat) : Good E (cancelActiveTasks n) G T done := by
  unfold cancelActiveTasks
  simp only [bind_eq, pure_eq]
  exact good_getActive (fun _ _ _ => fin_ret _) fun G1 ts _ h => good_cancelLoop ts h

theorem def_cancelRow (r : Job) : KeepsJob E G r (cancelJobRow r) := by
  unfold cancelJobRow; split
  · exact ⟨rfl, fun h => .inl ⟨h, rfl⟩⟩
  · exact ⟨rfl, fun h => nomatch h⟩

theorem good_cancel (j : Job) : Good E (cancelHandler j) G T done := by
  unfold cancelHandler
  simp only [bind_eq, pure_eq]
  refine good_updJob (fun _ r _ => def_cancelRow r) fun G1 r h1 => ?_
  cases r with
  | error e => exact fin_ret _
  | ok _ =>
    dsimp only
    split
    · refine good_getTask (fun _ _ _ => pan _) fun G2 t h2 _ _ => ?_
      refine good_getJob (fun _ _ _ => pan _) fun G3 pj h3 hj _ _ => ?_
      exact good_pub ⟨(show JobOK G3 _ from hj), (fun h => nomatch h), fun h => nomatch h⟩ fun r => good_cancelActive _
    · exact good_cancelActive _

/-! ## job.go, first part -/

theorem def_failRow (x : Option Nat) (r : Job) : KeepsJob E G r (failJobRow x r) := by
  unfold failJobRow; split
  · exact ⟨rfl, fun h => nomatch h⟩
  · exact ⟨rfl, fun h => .inl ⟨h, rfl⟩⟩

theorem good_failJob (j : Job) : Good E (failJob j) G T done := by
  unfold failJob
  simp only [bind_eq, pure_eq]
  refine good_updJob (fun _ r _ => def_failRow _ r) fun G1 r h1 => ?_
  cases r with
  | error e => exact fin_ret _
  | ok _ =>
    dsimp only
    split
    · refine good_getTask (fun _ _ _ => fin_ret _) fun G2 t h2 ht _ => ?_
      refine good_task (ht.same ⟨rfl, rfl⟩) fun r => ?_
      cases r <;> exact fin_ret _
    · refine Good.seq (good_cancelActive _) fun G2 r h2 _ => ?_
      cases r with
      | some e => exact fin_ret _
      | none =>
        refine good_getJob (fun _ _ _ => fin_ret _) fun G3 j' h3 hj _ _ => ?_
        dsimp only
        split
        · refine good_pub trivial fun r => ?_
          cases r <;> exact fin_ret _
        · exact fin_ret _

/-! ## scheduler.go -/

/-- The task a handler returns is the one it was given. -/
def Keep (t : Task) : Ghost → Res × Task → Prop := fun _ x => SameWork x.2 t

theorem attempts_defaults (d : Option JobDefaults) (t : Task) : attempts (applyDefaults d t) = attempts t := by
  unfold applyDefaults
  have hq : ∀ q t, attempts (defQueue q t) = attempts t := fun q t => by unfold defQueue; split <;> rfl
  have hp : ∀ q t, attempts (defPriority q t) = attempts t := fun q t => by unfold defPriority; split <;> rfl
  have ht : ∀ q t, attempts (defTimeout q t) = attempts t := fun q t => by unfold defTimeout; split <;> rfl
  have hl : ∀ q t, attempts (defLimits q t) = attempts t := fun q t => by unfold defLimits; split <;> rfl
  have hr : ∀ q t, attempts (defRetry q t) = attempts t := fun q t => by
    unfold defRetry attempts
    cases q with
    | none => rfl
    | some q =>
      dsimp only
      cases t.retry with
      | none => dsimp only [Option.getD]; split <;> rfl
      | some r => dsimp only [Option.getD]; split <;> rfl
  cases d with
  | none => exact hq _ _
  | some d => dsimp only; rw [hq, hp, hr, ht, hl, hq]

theorem work_defaults (d : Option JobDefaults) (t : Task) : work (applyDefaults d t) = work t := by
  unfold applyDefaults
  have hq : ∀ q t, work (defQueue q t) = work t := fun q t => by unfold defQueue; split <;> rfl
  have hp : ∀ q t, work (defPriority q t) = work t := fun q t => by unfold defPriority; split <;> rfl
  have ht : ∀ q t, work (defTimeout q t) = work t := fun q t => by unfold defTimeout; split <;> rfl
  have hl : ∀ q t, work (defLimits q t) = work t := fun q t => by unfold defLimits; split <;> rfl
  have hr : ∀ q t, work (defRetry q t) = work t := fun q t => by unfold defRetry; split <;> rfl
  cases d with
  | none => exact hq _ _
  | some d => dsimp only; rw [hq, hp, hr, ht, hl, hq]

theorem same_defaults (d : Option JobDefaults) (t : Task) : SameWork (applyDefaults d t) t := ⟨work_defaults d t, attempts_defaults d t⟩

theorem good_regular {t : Task} (ht : TaskOK G t) (hun : Unrun G t t.result) (hreg : Regular t) : Good E (scheduleRegularTask t) G T (Keep t) := by
  unfold scheduleRegularTask
  simp only [bind_eq, pure_eq]
  refine good_now fun now => good_getJob (fun _ _ _ _ _ => .refl _) fun G1 j h1 _ _ _ => ?_
  dsimp only
  have hs : SameWork { applyDefaults j.defaults t with state := .scheduled, scheduledAt := some now } t :=
    SameWork.trans ⟨rfl, rfl⟩ (same_defaults j.defaults t)
  have hx : ({ applyDefaults j.defaults t with state := .scheduled, scheduledAt := some now } : Task).state = .scheduled := rfl
  have hres : ({ applyDefaults j.defaults t with state := .scheduled, scheduledAt := some now } : Task).result = t.result := defaults_result j.defaults t
  revert hs hx hres
  generalize { applyDefaults j.defaults t with state := .scheduled, scheduledAt := some now } = x
  intro hs hsx hres
  refine good_updTask (fun G' r hl hr hid => ⟨?_, (fun h => ?_), (fun h => ?_), .inl rfl⟩) fun G2 r h2 => ?_
  · have hx : TaskOK G' x := (ht.mono (h1.trans hl)).same hs.symm
    have hk : key r = key x := by
      unfold TaskOK at hr hx
      rw [hid, work_id (same_defaults j.defaults t), ← work_id hs, hx] at hr
      exact (Option.some.inj hr).symm
    exact Prod.ext rfl (congrArg Prod.snd hk).symm
  · have h : x.state = .completed := h
    rw [hsx] at h; cases h
  · have h : x.state = .skipped := h
    rw [hsx] at h; cases h
  · cases r with
    | error e => exact fun _ _ => hs
    | ok _ =>
      refine good_task ((ht.mono (h1.trans h2)).same hs.symm) (fun r => ?_) (hs := fun h => by rw [hsx] at h; cases h) (hq := fun _ => hreg.same hs.symm)
        (hk := fun h => by rw [hsx] at h; cases h) (hp := fun _ => hres.symm ▸ ((hun.mono (h1.trans h2)).same hs.symm))
      cases r <;> exact fun _ _ => hs

theorem key_subRow (now id : Nat) (r : Task) : KeepsTask E G r (subJobRow now id r) := by
  refine ⟨Prod.ext (work_persist rfl rfl rfl ?_) rfl, (fun h => nomatch h), (fun h => nomatch h), .inl rfl⟩
  unfold subJobRow
  cases r.subJob <;> rfl

theorem good_attached {t : Task} {s : SubJobTask Task} (ht : TaskOK G t) (hs : t.subJob = some s) (hc : trimSpace t.cond ≠ "false") :
    Good E (scheduleAttachedSubJob t s) G T done := by
  unfold scheduleAttachedSubJob
  simp only [bind_eq, pure_eq]
  refine good_getJob (fun _ _ _ => fin_ret _) fun G1 j h1 _ _ _ => good_now fun now => good_uuid fun id => ?_
  refine good_updTask (fun _ r _ _ _ => key_subRow now id r) fun G2 r h2 => ?_
  cases r with
  | error e => exact fin_ret _
  | ok _ =>
    refine good_createJob (j := attachedSubJob id now j t s) rfl (fun h => nomatch h) (fun G' ds hl hi => .inr (.inr ⟨t, s,
      (ht.mono ((h1.trans h2).trans hl)).made hi, ht.mono ((h1.trans h2).trans hl), hs, rfl, rfl, rfl, fun hf => hc ((trim_false _).2 hf), rfl, .inl ⟨rfl, rfl⟩⟩)) fun G3 r h3 hj => ?_
    cases r with
    | error e => exact fin_ret _
    | ok _ =>
      refine good_pub ⟨hj, (fun _ => rfl), fun h => nomatch h⟩ fun r => ?_
      cases r <;> exact fin_ret _

theorem good_detached {t : Task} {s : SubJobTask Task} (ht : TaskOK G t) (hs : t.subJob = some s) (hd : s.detached = true) (hc : trimSpace t.cond ≠ "false") :
    Good E (scheduleDetachedSubJob t s) G T (Keep t) := by
  unfold scheduleDetachedSubJob
  simp only [bind_eq, pure_eq]
  refine good_getJob (fun _ _ _ _ _ => .refl _) fun G1 j h1 _ _ _ => good_now fun now => good_uuid fun id => ?_
  refine good_createJob (j := detachedSubJob id now j s) rfl (fun h => nomatch h) (fun G' ds hl hi => .inr (.inr ⟨t, s,
    (ht.mono (h1.trans hl)).made hi, ht.mono (h1.trans hl), hs, rfl, rfl, rfl, fun hf => hc ((trim_false _).2 hf), rfl, .inr ⟨hd, rfl, rfl⟩⟩)) fun G3 r h3 hj => ?_
  cases r with
  | error e => exact fun _ _ => .refl _
  | ok _ =>
    refine good_pub ⟨hj, (fun _ => rfl), fun h => nomatch h⟩ fun r => ?_
    cases r with
    | error e => exact fun _ _ => .refl _
    | ok _ =>
      refine good_updTask (fun _ r _ _ _ => key_subRow now id r) fun G4 r h4 => ?_
      cases r with
      | error e => exact fun _ _ => .refl _
      | ok _ =>
        refine good_task ((ht.mono ((h1.trans h3).trans h4)).same ⟨rfl, rfl⟩) (fun r => ?_)
          (hs := fun _ hf => absurd (hf.2.2 s hs) (by rw [hd]; decide))
        cases r <;> exact fun _ _ => ⟨rfl, rfl⟩

theorem good_toError {t : Task} {t0 : Task} (e : Err) (ht : TaskOK G t) (hs : SameWork t t0) : Good E (failToErrorQueue t e) G T (Keep t0) := by
  unfold failToErrorQueue
  simp only [bind_eq, pure_eq]
  refine good_task (ht.same ⟨rfl, rfl⟩) fun r => ?_
  cases r <;> exact fun _ _ => SameWork.trans ⟨rfl, rfl⟩ hs

theorem key_eachRow (now n : Nat) (r : Task) : KeepsTask E G r (eachRow now n r) := by
  refine ⟨Prod.ext (work_persist rfl rfl ?_ rfl) rfl, (fun h => nomatch h), (fun h => nomatch h), .inl rfl⟩
  unfold eachRow
  cases r.each <;> rfl

theorem good_eachLoop (j : Job) (now : Nat) (l : List String) {t : Task} {t0 : Task} {e : EachTask Task} (i : Nat) (hj : JobOK G j)
    (hid : j.id = t.jobID) (hst : G.stored j.id) (ht : TaskOK G t) (hs : SameWork t t0) (he : t.each = some e) :
    Good E (eachLoop E.C j now t e i l) G T (Keep t0) := by
  induction l generalizing G T t e i with
  | nil => rw [eachLoop]; exact fun _ _ => hs
  | cons x l ih =>
    rw [eachLoop]
    simp only [bind_eq, pure_eq]
    refine good_uuid fun id => good_seed fun sd => ?_
    generalize hv : evaluateTask (evaluateTemplate E.C.O ⟨j.context, some (eachVarName e, i, x)⟩ sd) (eachChild t e j.id id now i) = v
    obtain ⟨y, er⟩ := v
    cases er with
    | some err => exact good_toError err ht hs
    | none =>
      dsimp only
      have hy : y.jobID = j.id := by
        have := (evaluateTask_frame (evaluateTemplate E.C.O ⟨j.context, some (eachVarName e, i, x)⟩ sd) (eachChild t e j.id id now i)).1.jobID
        rw [hv] at this; exact this
      have hys : y.state ≠ .completed ∧ y.state ≠ .skipped := by
        have := (evaluateTask_frame (evaluateTemplate E.C.O ⟨j.context, some (eachVarName e, i, x)⟩ sd) (eachChild t e j.id id now i)).1.state
        rw [hv] at this
        have this : y.state = if fireNow e.concurrency i then TaskState.pending else TaskState.created := this
        rw [this]
        split <;> exact ⟨(fun h => nomatch h), (fun h => nomatch h)⟩
      have hyp : y.parentID = t.id := by
        have := (evaluateTask_frame (evaluateTemplate E.C.O ⟨j.context, some (eachVarName e, i, x)⟩ sd) (eachChild t e j.id id now i)).1.parentID
        rw [hv] at this; exact this
      generalize hc : afterChild (evaluateTemplate E.C.O ⟨j.context, some (eachVarName e, i, x)⟩ sd) e = e'
      have hs1 : SameWork { t with each := some e' } t := hc ▸ same_afterChild _ he
      have ht1 : TaskOK G { t with each := some e' } := ht.same hs1.symm
      have hs2 := hs1.trans hs
      refine good_createTask (fun G' hl hst' ds hi => ?_) hys (fun G' hl _ => unrun_child (ht.mono hl) hyp) (fun _ _ _ _ _ => hs2) fun G1 h1 hy1 => ?_
      · exact .item id now sd i x j.context ((ht.mono hl).made hi) (ht.mono hl) he ⟨_, hid ▸ (hj.mono hl).cx (hl.stored _ hst)⟩ (hid ▸ hv) (.refl _)
      · dsimp only
        split
        · refine good_task hy1 (fun r => ?_) (hs := fun h => absurd h hys.1) (hk := fun h => absurd h hys.2) (hp := fun _ => unrun_child (ht.mono h1) hyp)
          cases r with
          | error e => exact fun _ _ => hs2
          | ok _ => exact ih (t := { t with each := some e' }) (i + 1) (hj.mono h1) hid (h1.stored _ hst) (ht1.mono h1) hs2 rfl
        · exact ih (t := { t with each := some e' }) (i + 1) (hj.mono h1) hid (h1.stored _ hst) (ht1.mono h1) hs2 rfl

theorem good_each {t : Task} {e : EachTask Task} (ht : TaskOK G t) (he : t.each = some e) : Good E (scheduleEachTask E.C t e) G T (Keep t) := by
  unfold scheduleEachTask
  simp only [bind_eq, pure_eq]
  refine good_now fun now => good_getJob (fun _ _ _ _ _ => .refl _) fun G1 j h1 hj hid hst => good_seed fun sd => ?_
  split
  · exact good_toError _ (ht.mono h1) (.refl _)
  · split
    · exact good_toError _ (ht.mono h1) (.refl _)
    · refine good_updTask (fun _ r _ _ _ => key_eachRow _ _ r) fun G2 r h2 => ?_
      cases r with
      | error e => exact fun _ _ => .refl _
      | ok _ => exact good_eachLoop j now _ 0 (hj.mono h2) hid (h2.stored _ (hid ▸ hst)) (ht.mono (h1.trans h2)) (.refl _) he

theorem good_parLoop (j : Job) (now : Nat) {t : Task} {q : ParallelTask Task} (l : List Task) (hj : JobOK G j)
    (hid : j.id = t.jobID) (hst : G.stored j.id) (ht : TaskOK G t) (he : t.parallel = some q) (hl : ∀ d ∈ l, d ∈ q.tasks) :
    Good E (parLoop E.C t j now l) G T (Keep t) := by
  induction l generalizing G T with
  | nil => rw [parLoop]; exact fun _ _ => .refl _
  | cons x l ih =>
    rw [parLoop]
    simp only [bind_eq, pure_eq]
    refine good_uuid fun id => good_seed fun sd => ?_
    generalize hv : evaluateTask (evaluateTemplate E.C.O ⟨j.context, none⟩ sd) (parChild t x j.id id now) = v
    obtain ⟨y, er⟩ := v
    cases er with
    | some err => exact good_toError err ht (.refl _)
    | none =>
      dsimp only
      have hys : y.state ≠ .completed ∧ y.state ≠ .skipped := by
        have := (evaluateTask_frame (evaluateTemplate E.C.O ⟨j.context, none⟩ sd) (parChild t x j.id id now)).1.state
        rw [hv] at this
        have this : y.state = .pending := this
        rw [this]; exact ⟨(fun h => nomatch h), (fun h => nomatch h)⟩
      have hyp : y.parentID = t.id := by
        have := (evaluateTask_frame (evaluateTemplate E.C.O ⟨j.context, none⟩ sd) (parChild t x j.id id now)).1.parentID
        rw [hv] at this; exact this
      refine good_createTask (fun G' hl' hst' ds hi => ?_) hys (fun G' hl' _ => unrun_child (ht.mono hl') hyp) (fun _ _ _ _ _ => .refl _) fun G1 h1 hy1 => ?_
      · exact .branch id now sd j.context ((ht.mono hl').made hi) (ht.mono hl') he (hl x List.mem_cons_self) ⟨_, hid ▸ (hj.mono hl').cx (hl'.stored _ hst)⟩ (hid ▸ hv) (.refl _)
      · refine good_task hy1 (fun r => ?_) (hs := fun h => absurd h hys.1) (hk := fun h => absurd h hys.2) (hp := fun _ => unrun_child (ht.mono h1) hyp)
        cases r with
        | error e => exact fun _ _ => .refl _
        | ok _ => exact ih (hj.mono h1) (h1.stored _ hst) (ht.mono h1) fun d hd => hl d (List.mem_cons_of_mem _ hd)

theorem good_parallel {t : Task} {q : ParallelTask Task} (ht : TaskOK G t) (he : t.parallel = some q) :
    Good E (scheduleParallelTask E.C t q) G T (Keep t) := by
  unfold scheduleParallelTask
  simp only [bind_eq, pure_eq]
  refine good_now fun now => good_updTask (fun _ r _ _ _ => ⟨rfl, (fun h => nomatch h), (fun h => nomatch h), .inl rfl⟩) fun G1 r h1 => ?_
  cases r with
  | error e => exact fun _ _ => .refl _
  | ok _ =>
    refine good_getJob (fun _ _ _ _ _ => .refl _) fun G2 j h2 hj hid hst => ?_
    exact good_parLoop j now q.tasks hj hid (hid ▸ hst) (ht.mono (h1.trans h2)) he fun _ h => h

theorem good_scheduleTask {t : Task} (ht : TaskOK G t) (hun : Unrun G t t.result) (hc : trimSpace t.cond ≠ "false") : Good E (scheduleTask E.C t) G T (Keep t) := by
  unfold scheduleTask
  split
  · rename_i q hq; exact good_parallel ht hq
  · rename_i hp
    split
    · rename_i e he; exact good_each ht he
    · rename_i he
      split
      · rename_i s hs
        split
        · rename_i hd; exact good_detached ht hs hd hc
        · simp only [bind_eq, pure_eq]
          exact Good.seq (good_attached ht hs hc) fun _ _ _ _ => fun _ _ => .refl _
      · rename_i hs
        exact good_regular ht hun ⟨hp, he, hs, hc⟩

/-! ## pending.go -/

theorem good_skip {t : Task} (ht : TaskOK G t) (hun : Unrun G t t.result) (hc : trimSpace t.cond = "false") : Good E (skipTask t) G T (Keep t) := by
  unfold skipTask
  simp only [bind_eq, pure_eq]
  refine good_now fun now => ?_
  refine good_updTask (fun G' r hl hr hid => ⟨rfl, (fun h => nomatch h), (fun _ => .inr (by rw [work_cond (hr.eq (ht.mono hl) hid)]; exact hc)), .inl rfl⟩) fun G1 r h1 => ?_
  cases r with
  | error e => exact fun _ _ => ⟨rfl, rfl⟩
  | ok _ =>
    refine good_task ((ht.mono h1).same ⟨rfl, rfl⟩) (fun r => ?_) (hk := fun _ => ⟨hc, (hun.mono h1).same ⟨rfl, rfl⟩⟩)
    cases r <;> exact fun _ _ => ⟨rfl, rfl⟩

theorem good_pending {t : Task} (ht : TaskOK G t) (hun : Unrun G t t.result) : Good E (pendingHandler E.C t) G T (Keep t) := by
  unfold pendingHandler
  split
  · rename_i hc; exact good_skip ht hun hc
  · rename_i hc; exact good_scheduleTask ht hun hc

/-! ## job.go, second part -/

theorem same_evalOrFail (C : Cfg) (c : JobContext) (sd now : Nat) (t : Task) :
    SameWork (evaluateTask (evaluateTemplate C.O ⟨c, none⟩ sd) t).1 (evalOrFail C c sd now t) := by
  unfold evalOrFail
  split
  · rename_i h; rw [h]; exact .refl _
  · rename_i h; rw [h]; exact ⟨rfl, rfl⟩

theorem evalOrFail_jobID (C : Cfg) (c : JobContext) (sd now : Nat) (t : Task) : (evalOrFail C c sd now t).jobID = t.jobID := by
  rw [← work_jobID (same_evalOrFail C c sd now t)]
  exact (evaluateTask_frame _ t).1.jobID

theorem evalOrFail_result (C : Cfg) (c : JobContext) (sd now : Nat) (t : Task) : (evalOrFail C c sd now t).result = t.result := by
  have := evaluateTask_result (evaluateTemplate C.O ⟨c, none⟩ sd) t
  unfold evalOrFail
  split <;> rename_i h <;> rw [h] at this <;> exact this

/-- A task made from a definition of its job has the result of the definition. -/
theorem unrun_top {j : Job} {k : Nat} {d : Task} (hj : JobOK G j) (hd : j.tasks[k - 1]? = some d) (h1 : max 1 j.position = k) (id now sd : Nat) {G' : Ghost}
    (hl : G.le G') (hst : G'.stored (evalOrFail E.C j.context sd now (prepTask d id j.id k now)).jobID) :
    Unrun G' (evalOrFail E.C j.context sd now (prepTask d id j.id k now)) (evalOrFail E.C j.context sd now (prepTask d id j.id k now)).result := fun _ _ _ => by
  have hpos : (evalOrFail E.C j.context sd now (prepTask d id j.id k now)).position = k := by
    have h := same_evalOrFail E.C j.context sd now (prepTask d id j.id k now)
    have e := congrArg Task.position h.1
    dsimp only [work] at e
    rw [← e]
    exact (evaluateTask_frame (evaluateTemplate E.C.O ⟨j.context, none⟩ sd) (prepTask d id j.id k now)).1.position
  rw [evalOrFail_jobID] at hst
  rw [evalOrFail_jobID, evalOrFail_result, hpos]
  exact ⟨d, ⟨hst, _, (hj.mono hl).1, by omega, hd⟩, rfl⟩

theorem evalOrFail_state {C : Cfg} {c : JobContext} {sd now : Nat} {t : Task} (h : t.state = .pending) :
    (evalOrFail C c sd now t).state ≠ .completed ∧ (evalOrFail C c sd now t).state ≠ .skipped := by
  have hf := (evaluateTask_frame (evaluateTemplate C.O ⟨c, none⟩ sd) t).1.state
  unfold evalOrFail
  split
  · rename_i he; rw [he] at hf; dsimp only at hf; rw [hf, h]; exact ⟨(fun h => nomatch h), (fun h => nomatch h)⟩
  · exact ⟨(fun h => nomatch h), (fun h => nomatch h)⟩

/-- The task made from the definition at place `k` of job `j`. -/
theorem made_top {j : Job} {k : Nat} {d : Task} (hj : JobOK G j) (hd : j.tasks[k - 1]? = some d) (h1 : max 1 j.position = k) (id now sd : Nat) {G' : Ghost}
    (hl : G.le G') (hst : G'.stored (evalOrFail E.C j.context sd now (prepTask d id j.id k now)).jobID) :
    G'.Made E (evalOrFail E.C j.context sd now (prepTask d id j.id k now)) := by
  rw [evalOrFail_jobID] at hst
  exact .top j.id k id now sd j.context ⟨hst, _, (hj.mono hl).1, by omega, hd⟩ (h1 ▸ (hj.mono hl).cx hst) (same_evalOrFail _ _ _ _ _)

theorem good_start {j : Job} (hj : JobOK G j) (h0 : j.position = 0) : Good E (startJob E.C j) G T done := by
  unfold startJob
  simp only [bind_eq, pure_eq]
  refine good_now fun now => ?_
  split
  · exact pan _
  · rename_i t0 ts htasks
    refine good_uuid fun id => good_seed fun sd => ?_
    have hm := fun G' hl hst => made_top (E := E) (G' := G') (k := 1) (d := t0) hj (by rw [htasks]; rfl) (by omega) id now sd hl hst
    have hun := fun G' hl hst => unrun_top (E := E) (G' := G') (k := 1) (d := t0) hj (by rw [htasks]; rfl) (by omega) id now sd hl hst
    have hts := evalOrFail_state (C := E.C) (c := j.context) (sd := sd) (now := now) (t := prepTask t0 id j.id 1 now) rfl
    revert hm hts hun
    generalize evalOrFail E.C j.context sd now (prepTask t0 id j.id 1 now) = t
    intro hm hun hts
    refine good_createTask' (fun G' hl hst _ _ => hm G' hl hst) hts hun (fun _ _ _ => fin_ret _) fun G1 h1 ht hu1 => ?_
    refine good_now fun n => good_updJob (fun _ _ _ => ⟨rfl, fun h => nomatch h⟩) fun G2 r h2 => ?_
    cases r with
    | error e => exact fin_ret _
    | ok _ =>
      dsimp only
      split
      · refine good_now fun n => ?_
        exact Good.seq (good_failJob _) fun _ _ _ _ => fin_ret _
      · exact Good.seq (good_pending (ht.mono h2) (hu1.mono h2)) fun _ _ _ _ => fin_ret _

theorem def_completeRow {C : Cfg} {j : Job} {sd n1 n2 : Nat} {r g u : Job} (h : completeJobRow C j sd n1 n2 r = .ok (g, u)) :
    jobDef (persistJob r u) = jobDef r ∧ (u.state = .completed → evaluateTemplate C.O ⟨j.context, none⟩ sd j.output = .ok u.result) ∧
    g.parentID = j.parentID ∧ (g.state ≠ .failed → evaluateTemplate C.O ⟨j.context, none⟩ sd j.output = .ok g.result) := by
  unfold completeJobRow at h
  split at h
  · cases h
  · split at h
    · cases h; exact ⟨rfl, (fun h => nomatch h), rfl, fun h => absurd rfl h⟩
    · rename_i hr
      dsimp only at h
      split at h <;> (cases h; exact ⟨rfl, fun _ => hr, rfl, fun _ => hr⟩)

/-- `j` is read from the database when its last task is behind it; its state was changed since. -/
theorem good_complete (j : Job) (s : JobState) (x : Option Nat) (hj : JobOK G j) (hst : G.stored j.id) (hp : j.tasks.length < j.position) :
    Good E (completeJob E.C { j with state := s, completedAt := x }) G T done := by
  unfold completeJob
  simp only [bind_eq, pure_eq]
  refine good_now fun now => good_seed fun sd => good_now fun now2 => ?_
  refine good_updJobE'' (fun G' r g u hl hr hid h => ?_) fun G1 r h1 hr => ?_
  · obtain ⟨k1, k2, -⟩ := def_completeRow h
    refine ⟨k1, fun hs => .inr ?_⟩
    have hd : jobDef r = jobDef j := by
      have e1 := hr.1
      have e2 := (hj.mono hl).1
      rw [hid] at e1
      exact Option.some.inj (e1.symm.trans e2)
    refine ⟨j.position, j.context, sd, ?_, ?_, ?_⟩
    · have := (hj.mono hl).2.2
      show G'.snaps r.id _ _
      rw [hid]; exact this
    · show r.tasks.length < _
      rw [show r.tasks = j.tasks from congrArg JobDef.tasks hd]; exact hp
    · show evaluateTemplate _ _ _ r.output = .ok u.result
      rw [show r.output = j.output from congrArg JobDef.output hd]; exact k2 hs
  cases r with
  | error e => exact fin_ret _
  | ok g =>
    dsimp only
    obtain ⟨r0, u0, hok⟩ := hr g rfl
    obtain ⟨-, -, k3, k4⟩ := def_completeRow hok
    have k3 : g.parentID = j.parentID := k3
    split
    · refine good_getTask (fun _ _ _ => fin_ret _) fun G2 t h2 ht hid => good_now fun n => ?_
      refine good_task (ht.same ?_) (fun r => ?_) (hs := ?_) (hk := ?_)
      · split <;> exact ⟨rfl, rfl⟩
      · cases r <;> exact fin_ret _
      · split
        · exact fun h => nomatch h
        · rename_i hng
          intro _ _
          have hj2 := (hj.mono h1).mono h2
          exact .inr ⟨j.id, jobDef j, j.position, j.context, sd, h2.stored _ (h1.stored _ hst), hj2.1, (k3.symm.trans hid.symm), hj2.2.2, hp, k4 hng⟩
      · split <;> exact fun h => nomatch h
    · refine good_pub trivial fun r => ?_
      cases r <;> exact fin_ret _

theorem good_markRunning (j : Job) : Good E (markJobAsRunning j) G T done := by
  unfold markJobAsRunning
  simp only [bind_eq, pure_eq]
  refine good_updJob (fun _ r _ => ?_) fun G1 r h1 => ?_
  · unfold markRunningRow
    split
    · exact ⟨rfl, fun h => .inl ⟨h, rfl⟩⟩
    · exact ⟨rfl, fun h => nomatch h⟩
  · cases r <;> exact fin_ret _

theorem good_restart {j : Job} (hj : JobOK G j) : Good E (restartJob E.C j) G T done := by
  unfold restartJob
  simp only [bind_eq, pure_eq]
  refine good_updJobE (fun _ r g u _ h => ?_) fun G1 r h1 => ?_
  · unfold restartJobRow at h
    split at h
    · cases h
    · cases h; exact ⟨rfl, fun h => nomatch h⟩
  · cases r with
    | error e => exact fin_ret _
    | ok _ =>
      refine good_now fun now => ?_
      split
      · exact pan _
      · rename_i hp
        split
        · exact pan _
        · rename_i d hd
          refine good_uuid fun id => good_seed fun sd => ?_
          have hm := fun G' hl hst => made_top (E := E) (G' := G') (k := j.position) (d := d) (hj.mono h1) hd (by omega) id now sd hl hst
          have hun := fun G' hl hst => unrun_top (E := E) (G' := G') (k := j.position) (d := d) (hj.mono h1) hd (by omega) id now sd hl hst
          have hts := evalOrFail_state (C := E.C) (c := j.context) (sd := sd) (now := now) (t := prepTask d id j.id j.position now) rfl
          revert hm hts hun
          generalize evalOrFail E.C j.context sd now (prepTask d id j.id j.position now) = t
          intro hm hun hts
          refine good_createTask' (fun G' hl hst _ _ => hm G' hl hst) hts hun (fun _ _ _ => fin_ret _) fun G2 h2 ht hu2 => ?_
          refine good_task ht (fun r => ?_) (hs := fun h => absurd h hts.1) (hq := fun h => absurd h (by decide)) (hk := fun h => absurd h hts.2) (hp := fun _ => hu2)
          cases r <;> exact fin_ret _

theorem good_jobHandler {j : Job} (hj : JobOK G j) (h0 : j.state = .pending → j.position = 0) (hc : j.state ≠ .completed) : Good E (jobHandler E.C j) G T done := by
  unfold jobHandler
  simp only [bind_eq, pure_eq]
  split
  · rename_i hs; exact good_start hj (h0 hs)
  · exact Good.seq (good_cancel _) fun _ _ _ _ => fin_ret _
  · exact Good.seq (good_restart hj) fun _ _ _ _ => fin_ret _
  · rename_i hs; exact absurd hs hc
  · exact Good.seq (good_failJob _) fun _ _ _ _ => fin_ret _
  · exact Good.seq (good_markRunning _) fun _ _ _ _ => fin_ret _
  · exact fin_ret _

theorem good_wrapJob {j : Job} (hj : JobOK G j) (h0 : j.state = .pending → j.position = 0) (hc : j.state ≠ .completed) : Good E (wrapJob E.C j) G T done := by
  unfold wrapJob
  simp only [bind_eq, pure_eq]
  refine Good.seq (good_jobHandler hj h0 hc) fun G1 x h1 _ => ?_
  obtain ⟨r, j⟩ := x
  cases r with
  | none => exact fin_ret _
  | some e => exact good_now fun n => good_failJob _

/-! ## error.go -/

theorem key_failRow (x : Option Nat) (e : Err) (r : Task) : KeepsTask E G r (failTaskRow x e r) := by
  unfold failTaskRow
  split
  · exact ⟨rfl, (fun h => nomatch h), (fun h => nomatch h), .inl rfl⟩
  · exact ⟨rfl, (fun h => .inl ⟨h, rfl⟩), .inl, .inl rfl⟩

theorem retry_of_eligible {s : JobState} {t : Task} (h : retryEligible s t = true) : t.retry ≠ none := by
  intro h0
  unfold retryEligible at h
  rw [h0] at h
  simp at h

theorem good_error {t : Task} (ht : SeenOK E G t) : Good E (errorHandler E.C t) G T done := by
  unfold errorHandler
  simp only [bind_eq, pure_eq]
  refine good_getJob (fun _ _ _ => fin_ret _) fun G1 j h1 hj hid hst => good_now fun now => ?_
  refine good_updTask (fun _ r _ _ _ => key_failRow _ _ r) fun G2 r h2 => ?_
  cases r with
  | error e => exact fin_ret _
  | ok _ =>
    dsimp only
    split
    · rename_i hel
      refine good_now fun now2 => good_uuid fun id => good_seed fun sd => ?_
      have hret := retry_of_eligible hel
      have ht2 : SeenOK E G2 { t with failedAt := some now } := (ht.mono (h1.trans h2)).same ⟨rfl, rfl⟩
      have hjob : ({ t with failedAt := some now } : Task).jobID = j.id := hid.symm
      revert ht2 hjob hret
      generalize ({ t with failedAt := some now } : Task) = v
      intro hret ht2 hjob
      generalize hv : evaluateTask (evaluateTemplate E.C.O ⟨j.context, none⟩ sd) (retryTask v id now2) = w
      obtain ⟨y, er⟩ := w
      cases er with
      | some e => exact fin_ret _
      | none =>
        dsimp only
        have hys : y.state ≠ .completed ∧ y.state ≠ .skipped := by
          have := (evaluateTask_frame (evaluateTemplate E.C.O ⟨j.context, none⟩ sd) (retryTask v id now2)).1.state
          rw [hv] at this
          have this : y.state = .pending := this
          rw [this]; exact ⟨(fun h => nomatch h), (fun h => nomatch h)⟩
        have hya : attempts y ≠ 0 := by
          have := (evaluateTask_frame (evaluateTemplate E.C.O ⟨j.context, none⟩ sd) (retryTask v id now2)).1.retry
          rw [hv] at this
          have this : y.retry = v.retry.map fun r => { r with attempts := r.attempts + 1 } := this
          unfold attempts
          rw [this]
          cases hr : v.retry with
          | none => exact absurd hr hret
          | some r => exact Nat.succ_ne_zero _
        refine good_createTask (fun G' hl hst' ds hi => ?_) hys (fun _ _ _ _ h => absurd h hya) (fun _ _ _ => fin_ret _) fun G3 h3 hy => ?_
        · obtain ⟨u, hu1, hu2⟩ := ht2.mono hl
          exact .retry id now2 sd j.context (hu1.made hi) hu1 hu2 hret ⟨_, hjob ▸ (hj.mono (h2.trans hl)).cx (hl.stored _ (h2.stored _ (hid ▸ hst)))⟩ hv (.refl _)
        · exact good_task hy (fun r => fin_ret _) (hs := fun h => absurd h hys.1) (hk := fun h => absurd h hys.2) (hp := fun _ _ h => absurd h hya)
    · exact good_failJob _

/-! ## completed.go -/

/-- A task as it is when its end is recorded. -/
def EndOK (E : Env) (G : Ghost) (t : Task) : Prop :=
  TaskOK G t ∧ (t.state = .completed ∧ Ended E G t t.result ∨ t.state = .skipped ∧ trimSpace t.cond = "false" ∧ Unrun G t t.result)

theorem EndOK.mono {G G' : Ghost} {t : Task} (h : EndOK E G t) (hl : G.le G') : EndOK E G' t :=
  ⟨h.1.mono hl, h.2.imp (fun h => ⟨h.1, h.2.mono hl⟩) fun h => ⟨h.1, h.2.1, h.2.2.mono hl⟩⟩

theorem key_completeRow {t r u : Task} {g : Unit} (ht : EndOK E G t) (hr : TaskOK G r) (hid : r.id = t.id)
    (h : completeTaskRow t r = .ok (g, u)) : KeepsTask E G r u := by
  unfold completeTaskRow at h
  split at h
  · cases h
  · cases h
    have hsame := ht.1.eq hr hid.symm
    rcases ht.2 with ⟨h1, h2⟩ | ⟨h1, h2, h3⟩
    · exact ⟨rfl, (fun _ => .inr (h2.same hsame)), (fun hs => by have hs : t.state = .skipped := hs; rw [h1] at hs; cases hs), .inr (.inl (h2.same hsame))⟩
    · exact ⟨rfl, (fun hs => by have hs : t.state = .completed := hs; rw [h1] at hs; cases hs), (fun _ => .inr (work_cond hsame ▸ h2)), .inr (.inr (h3.same hsame))⟩

/-- Task `n` is not executed as a whole. -/
def Composite (G : Ghost) (n : Nat) : Prop := ∃ r, TaskOK G r ∧ r.id = n ∧ ¬ Leaf r

theorem Composite.mono {G G' : Ghost} {n : Nat} (h : Composite G n) (hl : G.le G') : Composite G' n := by
  obtain ⟨r, h1, h2⟩ := h
  exact ⟨r, h1.mono hl, h2⟩

theorem Composite.end {n : Nat} {t : Task} (h : Composite G n) (ht : TaskOK G t) (hid : t.id = n) {x : Option Nat} :
    EndOK E G { t with state := .completed, completedAt := x } := by
  obtain ⟨r, h1, h2, h3⟩ := h
  have hs : SameWork t r := ht.eq h1 (hid.trans h2.symm)
  exact ⟨ht.same ⟨rfl, rfl⟩, .inl ⟨rfl, fun hf => absurd (Leaf.same (a := { t with state := .completed, completedAt := x }) hf (SameWork.trans ⟨rfl, rfl⟩ hs)) h3⟩⟩

theorem def_setVar (t : Task) (r : Job) : KeepsJob E G r (setVar t r) := ⟨rfl, fun h => .inl ⟨h, rfl⟩⟩

theorem def_topRow (t : Task) (r : Job) : KeepsJob E G r (topLevelJobRow t r) := by
  unfold topLevelJobRow
  dsimp only
  split <;> exact ⟨rfl, fun h => .inl ⟨h, rfl⟩⟩

theorem next_contextTx {t : Task} {ds ds' : DS} {g : Unit} (hi : Inv E G ds) (h : contextTx t ds = .ok (g, ds')) :
    ∃ G2, Next E G none ds' [] G2 none := by
  unfold contextTx at h
  split at h
  · cases hu : updateJob' t.jobID (setVar t) ds with
    | error e => rw [hu] at h; cases h
    | ok x =>
      rw [hu] at h
      cases h
      exact ⟨_, next_updateJob hi hu fun r g u hu => by cases hu; exact def_setVar t r⟩
  · cases h
    exact ⟨G, next_idle hi⟩

theorem next_subTaskTx {γ : Type} {t : Task} {m : Task → Except Err (γ × Task)} {ds ds' : DS} {g : γ} (hi : Inv E G ds) (ht : EndOK E G t)
    (hm : ∀ r g u, m r = .ok (g, u) → KeepsTask E G r u ∧ ¬ Leaf r) (h : subTaskTx t m ds = .ok (g, ds')) :
    Composite G t.parentID ∧ ∃ G2, Next E G none ds' [] G2 none := by
  unfold subTaskTx at h
  cases h1 : updateTask t.id (completeTaskRow t) ds with
  | error e => rw [h1] at h; cases h
  | ok x1 =>
    obtain ⟨g1, ds1⟩ := x1
    rw [h1] at h
    dsimp only at h
    have hi1 : Inv E G ds1 := inv_updateTask hi h1 fun r g u hr hid hu => key_completeRow ht hr hid hu
    cases h2 : updateTask t.parentID m ds1 with
    | error e => rw [h2] at h; cases h
    | ok x2 =>
      obtain ⟨g2, ds2⟩ := x2
      rw [h2] at h
      dsimp only at h
      have hi2 : Inv E G ds2 := inv_updateTask hi1 h2 fun r g u _ _ hu => (hm r g u hu).1
      refine ⟨?_, ?_⟩
      · unfold updateTask at h2
        split at h2
        · cases h2
        · rename_i p hp
          split at h2
          · cases h2
          · rename_i g' u hu
            exact ⟨p, hi1.task hp, (task?_mem hp).2, (hm p _ _ hu).2⟩
      cases h3 : contextTx t ds2 with
      | error e => rw [h3] at h; cases h
      | ok x3 =>
        obtain ⟨g3, ds3⟩ := x3
        rw [h3] at h
        cases h
        exact next_contextTx hi2 h3

theorem key_parRow {r u : Task} {b : Bool} (h : parallelRow r = .ok (b, u)) : KeepsTask E G r u ∧ ¬ Leaf r := by
  unfold parallelRow at h
  split at h
  · cases h
  · rename_i p hp
    cases h
    exact ⟨⟨Prod.ext (work_persist rfl (by rw [hp]; rfl) rfl rfl) rfl, (fun h => .inl ⟨h, rfl⟩), .inl, .inl rfl⟩, fun hf => by rw [hf.1] at hp; cases hp⟩

theorem key_eachParentRow {r u : Task} {b : Bool} (h : eachParentRow r = .ok (b, u)) : KeepsTask E G r u ∧ ¬ Leaf r := by
  unfold eachParentRow at h
  split at h
  · cases h
  · rename_i p hp
    cases h
    exact ⟨⟨Prod.ext (work_persist rfl rfl (by rw [hp]; rfl) rfl) rfl, (fun h => .inl ⟨h, rfl⟩), .inl, .inl rfl⟩, fun hf => by rw [hf.2.1] at hp; cases hp⟩

theorem good_topLevel {t : Task} (hend : EndOK E G t) : Good E (completeTopLevelTask E.C t) G T done := by
  unfold completeTopLevelTask
  simp only [bind_eq, pure_eq]
  refine good_tx (fun _ _ _ => fin_ret _) fun G1 ds g ds' hl1 hi h => ?_
  have hn : ∃ G2, Next E G1 none ds' [] G2 none := by
    unfold topLevelTx at h
    cases h1 : updateTask t.id (completeTaskRow t) ds with
    | error e => rw [h1] at h; cases h
    | ok x1 =>
      obtain ⟨g1, ds1⟩ := x1
      rw [h1] at h
      dsimp only at h
      have hi1 : Inv E G1 ds1 := inv_updateTask hi h1 fun r g u hr hid hu => key_completeRow (hend.mono hl1) hr hid hu
      cases h2 : updateJob' t.jobID (topLevelJobRow t) ds1 with
      | error e => rw [h2] at h; cases h
      | ok x2 =>
        rw [h2] at h
        cases h
        exact ⟨_, next_updateJob hi1 h2 fun r g u hu => by cases hu; exact def_topRow t r⟩
  obtain ⟨G2, hn⟩ := hn
  refine ⟨G2, hn, ?_⟩
  refine good_getJob (fun _ _ _ => fin_ret _) fun G3 j h3 hj hjid hjs => good_now fun now => ?_
  split
  · split
    · exact pan _
    · rename_i hp
      split
      · exact pan _
      · rename_i d hd
        refine good_uuid fun id => good_seed fun sd => ?_
        have hm := fun G' hl hst => made_top (E := E) (G' := G') (k := j.position) (d := d) hj hd (by omega) id now sd hl hst
        have hun := fun G' hl hst => unrun_top (E := E) (G' := G') (k := j.position) (d := d) hj hd (by omega) id now sd hl hst
        have hts := evalOrFail_state (C := E.C) (c := j.context) (sd := sd) (now := now) (t := prepTask d id j.id j.position now) rfl
        revert hm hts hun
        generalize evalOrFail E.C j.context sd now (prepTask d id j.id j.position now) = x
        intro hm hun hts
        refine good_createTask' (fun G' hl hst _ _ => hm G' hl hst) hts hun (fun _ _ _ => fin_ret _) fun G2 h2 ht hu2 => ?_
        refine good_task ht (fun r => ?_) (hs := fun h => absurd h hts.1) (hq := fun h => absurd h (by decide)) (hk := fun h => absurd h hts.2) (hp := fun _ => hu2)
        cases r <;> exact fin_ret _
  · rename_i hlt
    exact Good.seq (good_complete j _ _ hj (hjid ▸ hjs) (by omega)) fun _ _ _ _ => fin_ret _

/-- The released child is the one stored. -/
theorem next_release {t next : Task} {ds : DS} (hi : Inv E G ds) (hpar : t.parentID ≠ 0) (h : eachNext t ds = .ok (some next)) :
    Inv E G (ds.setTask next.id next) ∧ TaskOK G next ∧ next.state = .pending ∧ next.parentID ≠ 0 := by
  unfold eachNext at h
  split at h
  · cases h
  · split at h
    · cases h
    · split at h
      · cases h
      · rename_i p hp
        split at h
        · cases h
        · split at h
          · cases hn : getNextTask p.id ds with
            | error e => rw [hn] at h; cases h
            | ok x =>
              rw [hn] at h
              cases h
              unfold getNextTask at hn
              split at hn
              · cases hn
              · rename_i y hy
                cases hn
                have hmem := task?_of_mem hi.keysT (List.mem_of_find?_eq_some hy)
                have hok := hi.task hmem
                have hry : ∀ r, ds.task? ({ y with state := .pending } : Task).id = some r → r = y := fun r hr => by
                  have hr' : ds.task? y.id = some r := hr
                  rw [hmem] at hr'; exact (Option.some.inj hr').symm
                refine ⟨inv_setTask hi fun r hr => ⟨by rw [hry r hr]; rfl, (fun h => nomatch h), (fun h => nomatch h), .inl (by rw [hry r hr])⟩,
                  hok.same ⟨rfl, rfl⟩, rfl, ?_⟩
                have := List.find?_some hy
                simp only [Bool.and_eq_true, decide_eq_true_eq] at this
                show y.parentID ≠ 0
                rw [this.1, (task?_mem hp).2]
                exact hpar
          · cases h

theorem release_msg {next : Task} (h3 : TaskOK G next) (h4 : next.state = .pending) (h5 : next.parentID ≠ 0) : TaskMsg E G QUEUE_PENDING next :=
  ⟨h3, (fun h => by rw [h4] at h; cases h), (fun h => absurd h (by decide)), (fun h => by rw [h4] at h; cases h), fun _ h => absurd h h5⟩

theorem good_eachTx {α : Type} {post : Ghost → α → Prop} (t : Task) (hpar : t.parentID ≠ 0) (ht : EndOK E G t) {k : Except Err Bool → Prog α}
    (hk : ∀ G' r, G.le G' → (∀ b, r = .ok b → Composite G' t.parentID) → Good E (k r) G' none post) : Good E ((txOp (eachTx t)).bind k) G T post := by
  intro G1 ds h1 hi ho r ds' ms hr
  have lift : ∀ {ds' ms G2}, Next E G1 none ds' ms G2 none → Next E G1 T ds' ms G2 none := fun hn =>
    ⟨hn.le, hn.inv, hn.msgs, hn.vals, hn.snaps, hn.kept, fun n h => (by cases hn.defs n h), .inl rfl⟩
  have hrel : ∀ {next}, eachNext t ds = .ok (some next) → ∀ ms, (ms = [] ∨ ms = [.task QUEUE_PENDING next]) →
      Next E G1 none (ds.setTask next.id next) ms G1 none := fun {next} h ms hms => by
    obtain ⟨h2, h3, h4, h5⟩ := next_release hi hpar h
    have hmsg : TaskMsg E G1 QUEUE_PENDING next := release_msg h3 h4 h5
    refine ⟨.refl _, h2, fun m hm => ?_, fun _ _ _ h => .inl h, fun _ _ _ h => .inl h, fun _ _ _ => Iff.rfl, fun _ h => absurd rfl h, .inl rfl⟩
    rcases hms with rfl | rfl
    · cases hm
    · rw [List.mem_singleton.1 hm]; exact ⟨h3.seen, fun _ => hmsg⟩
  have hrun : ∃ G2, Next E G1 none ((eachTx t).run ds).2.1 ((eachTx t).run ds).2.2 G2 none ∧
      ∀ b, ((eachTx t).run ds).1 = .ok b → Composite G2 t.parentID := by
    simp only [eachTx]
    cases h : eachNext t ds with
    | error e => exact ⟨G1, next_idle hi, fun b hb => by cases hb⟩
    | ok o =>
      cases o with
      | none =>
        dsimp only
        cases h2 : subTaskTx t eachParentRow ds with
        | error e => exact ⟨G1, next_idle hi, fun b hb => by cases hb⟩
        | ok x =>
          obtain ⟨hc, G2, hn⟩ := next_subTaskTx hi (ht.mono h1) (fun _ _ _ hu => key_eachParentRow hu) h2
          exact ⟨G2, hn, fun _ _ => hc.mono hn.le⟩
      | some next =>
        dsimp only
        obtain ⟨hi2, hn2, hn3, hn4⟩ := next_release hi hpar h
        cases h2 : subTaskTx t eachParentRow (ds.setTask next.id next) with
        | error e => exact ⟨G1, hrel h _ (.inr rfl), fun b hb => by cases hb⟩
        | ok x =>
          obtain ⟨hc, G2, hn⟩ := next_subTaskTx hi2 (ht.mono h1) (fun _ _ _ hu => key_eachParentRow hu) h2
          refine ⟨G2, ⟨hn.le, hn.inv, fun m hm => ?_, hn.vals, hn.snaps, hn.kept, hn.defs, hn.own⟩, fun _ _ => hc.mono hn.le⟩
          rw [List.mem_singleton.1 hm]
          exact ⟨(hn2.mono hn.le).seen, fun _ => release_msg (hn2.mono hn.le) hn3 hn4⟩
  obtain ⟨G2, hn2, hc⟩ := hrun
  cases hr with
  | ok => exact ⟨G2, none, lift hn2, hk _ _ (h1.trans hn2.le) hc⟩
  | fail e => exact ⟨G1, none, lift (next_idle hi), hk _ _ h1 fun b hb => by cases hb⟩
  | lost e => exact ⟨G2, none, lift hn2, hk _ _ (h1.trans hn2.le) fun b hb => by cases hb⟩
  | part e x hx =>
    simp only [eachTx] at hx
    split at hx
    · rename_i next h
      rcases List.mem_cons.1 hx with rfl | hx
      · exact ⟨G1, none, lift (hrel h _ (.inl rfl)), hk _ _ h1 fun b hb => by cases hb⟩
      · rw [List.mem_singleton.1 hx]
        exact ⟨G1, none, lift (hrel h _ (.inr rfl)), hk _ _ h1 fun b hb => by cases hb⟩
    · cases hx

theorem good_completeTask (fuel : Nat) (t : Task) (ht : EndOK E G t) : Good E (completeTask E.C fuel t) G T done := by
  induction fuel generalizing t G T with
  | zero => exact pan _
  | succ fuel ih =>
    rw [completeTask]
    simp only [bind_eq, pure_eq]
    have hk : ∀ (G : Ghost) (r : Except Err Bool), (∀ b, r = .ok b → Composite G t.parentID) → Good E (match r with
        | .error e => (.ret (some (wrapErr "error completing task" e)) : Prog Res)
        | .ok isLast => if isLast = true then (tx (getTask t.parentID)).bind fun r => match r with
            | .error _ => .ret (some "error fetching the parent task")
            | .ok parent => Prog.now.bind fun now => completeTask E.C fuel { parent with state := .completed, completedAt := some now }
          else .ret none) G none done := fun G r hc => by
      cases r with
      | error e => exact fin_ret _
      | ok b =>
        dsimp only
        split
        · refine good_getTask (fun _ _ _ => fin_ret _) fun G2 p h2 hp hid => good_now fun n => ih _ (((hc _ rfl).mono h2).end hp hid)
        · exact fin_ret _
    split
    · rename_i hpar
      refine good_getTask (fun _ _ _ => fin_ret _) fun G1 p h1 _ _ => ?_
      dsimp only
      split
      · exact good_tx (fun G' e _ => (hk G' (.error e) fun b hb => by cases hb).any) fun G2 ds g ds' h2 hi h => by
          obtain ⟨hc, G3, hn⟩ := next_subTaskTx hi (ht.mono (h1.trans h2)) (fun _ _ _ hu => key_parRow hu) h
          exact ⟨G3, hn, (hk G3 (.ok g) fun _ _ => hc.mono hn.le).any⟩
      · exact good_eachTx t hpar (ht.mono h1) fun G' r _ hc => hk G' r hc
    · exact good_topLevel ht

theorem good_completed (fuel : Nat) (t : Task) (ht : TaskMsg E G QUEUE_COMPLETED t) : Good E (completedHandler E.C fuel t) G T (Keep t) := by
  unfold completedHandler
  simp only [bind_eq, pure_eq]
  refine good_now fun now => ?_
  split
  · exact fun _ _ => .refl _
  · rename_i hst
    have hend : EndOK E G { t with completedAt := some now } := by
      refine ⟨ht.1.same ⟨rfl, rfl⟩, ?_⟩
      by_cases h1 : t.state = .completed
      · exact .inl ⟨h1, (ht.2.1 h1).same ⟨rfl, rfl⟩⟩
      · by_cases h2 : t.state = .skipped
        · exact .inr ⟨h2, (ht.2.2.2.1 h2).1, (ht.2.2.2.1 h2).2.same ⟨rfl, rfl⟩⟩
        · exact absurd ⟨h1, h2⟩ hst
    exact Good.seq (good_completeTask _ _ hend) fun _ _ _ _ => fun _ _ => ⟨rfl, rfl⟩

/-! ## started.go, progress.go, redelivered.go -/

theorem key_startedRow (now n : Nat) (r : Task) : KeepsTask E G r (startedRow now n r) := by
  unfold startedRow
  dsimp only
  split
  · exact ⟨rfl, (fun h => nomatch h), (fun h => nomatch h), .inl rfl⟩
  · exact ⟨rfl, (fun h => .inl ⟨h, rfl⟩), .inl, .inl rfl⟩

theorem good_started {t : Task} (ht : SeenOK E G t) : Good E (startedHandler t) G T (Keep t) := by
  unfold startedHandler
  simp only [bind_eq, pure_eq]
  refine good_getJob (fun _ _ _ _ _ => .refl _) fun G1 j h1 hj hid hst => ?_
  dsimp only
  split
  · refine good_getNode (fun _ _ _ _ _ => ⟨rfl, rfl⟩) fun G2 n h2 hn => ?_
    refine good_pub ⟨(ht.mono (h1.trans h2)).same ⟨rfl, rfl⟩, fun h => absurd (.inr hn) h⟩ fun r => ?_
    cases r <;> exact fun _ _ => ⟨rfl, rfl⟩
  · have fin : ∀ (G : Ghost) (r : Res), Good E (match r with
        | some e => (.ret (some e, t) : Prog (Res × Task))
        | none => Prog.now.bind fun now => (tx (updateTask' t.id (startedRow now t.nodeID))).bind fun r => match r with
            | .error e => .ret (some e, t)
            | .ok _ => .ret (none, t)) G none (Keep t) := fun G r => by
      cases r with
      | some e => exact fun _ _ => .refl _
      | none =>
        refine good_now fun now => good_updTask (fun _ r _ _ _ => key_startedRow _ _ r) fun G2 r h2 => ?_
        cases r <;> exact fun _ _ => .refl _
    split
    · exact Good.seq (good_markRunning _) fun G' r _ _ => fin G' r
    · exact (fin _ none).any

theorem good_progress {t : Task} : Good E (progressHandler t) G T (Keep t) := by
  unfold progressHandler
  simp only [bind_eq, pure_eq]
  refine good_updTask (fun _ r _ _ _ => ⟨rfl, (fun h => .inl ⟨h, rfl⟩), .inl, .inl rfl⟩) fun G1 r h1 => ?_
  cases r with
  | error e => exact fun _ _ => ⟨rfl, rfl⟩
  | ok _ =>
    refine good_getJob (fun _ _ _ _ _ => ⟨rfl, rfl⟩) fun G2 j h2 _ _ _ => ?_
    refine good_updJob (fun _ _ _ => ⟨rfl, fun h => .inl ⟨h, rfl⟩⟩) fun G3 r h3 => ?_
    cases r <;> exact fun _ _ => ⟨rfl, rfl⟩

theorem good_redelivered {t : Task} (ht : TaskMsg E G QUEUE_REDELIVERIES t) : Good E (redeliveredHandler t) G T done := by
  unfold redeliveredHandler
  simp only [bind_eq, pure_eq]
  split
  · refine good_now fun n => good_task (ht.1.same ⟨rfl, rfl⟩) fun r => ?_
    cases r <;> exact fin_ret _
  · refine good_task (ht.1.same ⟨rfl, rfl⟩) (fun r => ?_) (hs := fun h => (ht.2.1 h).same ⟨rfl, rfl⟩) (hq := fun _ => (ht.2.2.1 (.inr rfl)).same ⟨rfl, rfl⟩)
      (hk := fun h => ⟨(ht.2.2.2.1 h).1, (ht.2.2.2.1 h).2.same ⟨rfl, rfl⟩⟩) (hp := fun _ => (ht.2.2.2.2 (.inr (.inr rfl))).same ⟨rfl, rfl⟩)
    cases r <;> exact fin_ret _

theorem good_wrapTask {h : Task → Prog (Res × Task)} {t : Task} (ht : SeenOK E G t) (hh : Good E (h t) G T (Keep t)) :
    Good E (wrapTask E.C h t) G T done := by
  unfold wrapTask
  simp only [bind_eq, pure_eq]
  refine Good.seq hh fun G1 x h1 hx => ?_
  obtain ⟨r, u⟩ := x
  cases r with
  | none => exact fin_ret _
  | some e => exact good_now fun n => good_error ((ht.mono h1).same (SameWork.trans (SameWork.symm hx) ⟨rfl, rfl⟩))

theorem good_coordinator {m : Msg} {p : Prog Res} (hm : MsgOK E G m) (h : coordinatorHandler E.C E.fuel m = some p) : Good E p G T done := by
  have hstrict : ∀ q, q = QUEUE_REDELIVERIES ∨ q = QUEUE_PENDING ∨ q = QUEUE_COMPLETED → ¬ Loose q := by
    rintro q (rfl | rfl | rfl) (h | h)
    · exact absurd h (by decide)
    · exact absurd h (by decide)
    · exact absurd h (by decide)
    · exact absurd h (by decide)
    · exact absurd h (by decide)
    · exact absurd h (by decide)
  unfold coordinatorHandler at h
  split at h
  · rename_i q t
    split at h
    · rename_i hq; cases h; exact good_redelivered (hq ▸ hm.2 (hstrict _ (.inl hq)))
    · split at h
      · rename_i hq; cases h
        have h1 := hm.2 (hstrict _ (.inr (.inl hq)))
        exact good_wrapTask hm.1 (good_pending h1.1 (h1.2.2.2.2 (.inl hq)))
      · split at h
        · rename_i hq
          cases h
          have h1 := hm.2 (hstrict _ (.inr (.inr hq)))
          exact good_wrapTask hm.1 (good_completed _ _ (hq ▸ h1))
        · split at h
          · cases h; exact good_wrapTask hm.1 (good_started hm.1)
          · split at h
            · cases h
              refine good_wrapTask hm.1 ?_
              unfold errorHandlerT
              simp only [bind_eq, pure_eq]
              exact Good.seq (good_error hm.1) fun _ _ _ _ => fun _ _ => .refl _
            · cases h
  · cases h; exact good_wrapJob hm.1 hm.2.1 hm.2.2
  · cases h; exact good_wrapTask hm good_progress
  · cases h

/-! ## The worker -/

theorem same_workerPrep (r : WorkerRun) (now : Nat) (t : Task) : SameWork (workerPrep r now t) t := by
  unfold workerPrep
  dsimp only
  cases hl : t.limits with
  | none => dsimp only; split <;> split <;> exact ⟨rfl, rfl⟩
  | some l => dsimp only; split <;> exact ⟨rfl, rfl⟩

theorem good_publishProgress {t : Task} (l : List Rat) (ht : SeenOK E G t) : Good E (publishProgress t l) G T done := by
  induction l with
  | nil => exact fin_ret _
  | cons x l ih =>
    rw [publishProgress]
    simp only [bind_eq, pure_eq]
    exact good_pub (show SeenOK E G _ from ht.same ⟨rfl, rfl⟩) fun r => ih

theorem good_worker {r : WorkerRun} {t : Task} (hr : E.workerOK r) (ht : TaskOK G t) (hreg : Regular t) : Good E (doHandleTask E.C r t) G T done := by
  unfold doHandleTask
  simp only [bind_eq, pure_eq]
  refine good_now fun now => ?_
  have hx : TaskOK G (workerPrep r now t) := ht.same (same_workerPrep r now t).symm
  have hxr : Regular (workerPrep r now t) := hreg.same (same_workerPrep r now t).symm
  revert hx hxr
  generalize workerPrep r now t = x
  intro hx hxr
  refine Good.seq (mid := fun _ y => RunsTo r x.clone y) ?_ fun G1 y h1 hrun => ?_
  · unfold workerMw
    simp only [bind_eq, pure_eq]
    split
    · rename_i s hs
      exact fun _ _ => .stopped s hs
    · rename_i hstop
      refine Good.seq (mid := fun _ y => RunsTo r x.clone (r.post y.1 y.2)) ?_ fun _ _ _ h => fun _ _ => h
      have hs : SeenOK E G (r.pre x.clone) := ⟨x, hx, .inr ⟨r, x.clone, hr, (same_clone x).symm, .refl _⟩⟩
      unfold runTask
      simp only [bind_eq, pure_eq]
      refine good_pub ⟨hs, fun h => absurd (.inl rfl) h⟩ fun z => ?_
      cases z with
      | error e => exact fun _ _ => .refused e hstop
      | ok _ =>
        unfold doRunTask
        simp only [bind_eq, pure_eq]
        split
        · exact fun _ _ => .refused _ hstop
        · refine Good.seq (good_publishProgress _ hs) fun G1 _ _ _ => good_now fun n => ?_
          split
          · rename_i e he; exact fun _ _ => .failed e n hstop he
          · rename_i he; exact fun _ _ => .ran n hstop he
  · obtain ⟨z, rt⟩ := y
    have hx1 := hx.mono h1
    cases z with
    | some e =>
      refine good_now fun n => good_task (hx1.same ⟨rfl, rfl⟩) fun r => ?_
      cases r <;> exact fin_ret _
    | none =>
      dsimp only
      split
      · rename_i hc
        refine good_task (hx1.same ⟨rfl, rfl⟩) (fun r => ?_)
          (hs := fun _ _ => .inl ⟨hxr.2.2.1, hxr.2.2.2, r, x.clone, rt, hr, SameWork.trans ⟨rfl, rfl⟩ (same_clone x).symm, hrun, hc, rfl⟩)
        cases r <;> exact fin_ret _
      · refine good_task (hx1.same ⟨rfl, rfl⟩) fun r => ?_
        cases r <;> exact fin_ret _
      · exact fin_ret _

/-! ## Requests and schedules -/

theorem good_spawn {p : Prog Unit} (h : Spawn E p) : Good E p G T done := by
  cases h with
  | submit u j hj =>
    refine Good.seq (mid := done) ?_ fun _ _ _ _ => fin_ret _
    unfold apiSubmit
    simp only [bind_eq, pure_eq]
    refine good_uuid fun id => good_now fun now => ?_
    refine good_createJob (j := submitRow id now u j) rfl (fun h => nomatch h) (fun G' ds hl hi => .inl ⟨j, hj, rfl, rfl, rfl, rfl, rfl⟩) fun G1 r h1 hok => ?_
    cases r with
    | error e => exact fin_ret _
    | ok _ =>
      refine good_pub ⟨hok, (fun _ => rfl), fun h => nomatch h⟩ fun r => ?_
      cases r <;> exact fin_ret _
  | cancel id =>
    refine Good.seq (mid := done) ?_ fun _ _ _ _ => fin_ret _
    unfold apiCancel
    simp only [bind_eq, pure_eq]
    refine good_getJob (fun _ _ _ => fin_ret _) fun G1 j h1 hj _ _ => ?_
    dsimp only
    split
    · exact fin_ret _
    · refine good_pub ⟨(show JobOK G1 _ from hj), (fun h => nomatch h), fun h => nomatch h⟩ fun r => ?_
      cases r <;> exact fin_ret _
  | restart id hr =>
    refine Good.seq (mid := done) ?_ fun _ _ _ _ => fin_ret _
    unfold apiRestart
    simp only [bind_eq, pure_eq]
    refine good_getJob (fun _ _ _ => fin_ret _) fun G1 j h1 hj _ _ => ?_
    dsimp only
    split
    · exact fin_ret _
    · split
      · exact fin_ret _
      · refine good_pub ⟨(show JobOK G1 _ from hj), (fun h => nomatch h), fun h => nomatch h⟩ fun r => ?_
        cases r <;> exact fin_ret _
  | fire s hs =>
    unfold fireScheduled
    simp only [bind_eq, pure_eq]
    refine good_now fun now => good_uuid fun id => ?_
    refine good_createJob (j := scheduledInstance id now s) rfl (fun h => nomatch h) (fun G' ds hl hi => .inr (.inl ⟨s, hs, rfl, rfl, rfl, rfl, rfl⟩)) fun G1 r h1 hok => ?_
    exact good_pub ⟨hok, (fun _ => rfl), fun h => nomatch h⟩ fun r => fin_ret _

end Tork.Origin
