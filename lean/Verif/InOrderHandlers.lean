import Verif.InOrder
/-!
# One task after the other: the handlers
-/

namespace Tork.Seq
open Prog

variable {n : Nat} {T : Option Tok}

/-! ## cancel.go -/

theorem good_cancelLoop (ts : List Task) : Good n (cancelLoop ts) T := by
  induction ts with
  | nil => rw [cancelLoop]; exact good_ret
  | cons t ts ih =>
    rw [cancelLoop]
    simp only [bind_eq, pure_eq]
    refine good_updTask fun r => ?_
    cases r with
    | error e => exact good_ret
    | ok _ =>
      dsimp only
      split
      · refine good_getJob' fun r => ?_
        cases r with
        | error e => exact good_ret
        | ok j =>
          refine good_job (fun h => nomatch h) fun r => ?_
          cases r with
          | error e => exact good_ret
          | ok _ => exact ih
      · split
        · refine good_getNode fun r => ?_
          cases r with
          | error e => exact good_ret
          | ok m =>
            refine good_task fun r => ?_
            cases r with
            | error e => exact good_ret
            | ok _ => exact ih
        · exact ih

theorem good_cancelActive (id : Nat) : Good n (cancelActiveTasks id) T := by
  unfold cancelActiveTasks
  simp only [bind_eq, pure_eq]
  refine good_getActive fun r => ?_
  cases r with
  | error e => exact good_ret
  | ok ts => exact good_cancelLoop ts

theorem good_cancel (j : Job) : Good n (cancelHandler j) T := by
  unfold cancelHandler
  simp only [bind_eq, pure_eq]
  refine good_updJob (fun r => by unfold cancelJobRow; split <;> rfl) fun r => ?_
  cases r with
  | error e => exact good_ret
  | ok _ =>
    dsimp only
    split
    · refine good_getTask fun r => ?_
      cases r with
      | error e => exact good_panic
      | ok t =>
        refine good_getJob' fun r => ?_
        cases r with
        | error e => exact good_panic
        | ok j => exact good_job (fun h => nomatch h) fun r => good_cancelActive _
    · exact good_cancelActive _

/-! ## job.go -/

theorem good_failJob (j : Job) : Good n (failJob j) T := by
  unfold failJob
  simp only [bind_eq, pure_eq]
  refine good_updJob (fun r => by unfold failJobRow; split <;> rfl) fun r => ?_
  cases r with
  | error e => exact good_ret
  | ok _ =>
    dsimp only
    split
    · refine good_getTask fun r => ?_
      cases r with
      | error e => exact good_ret
      | ok t =>
        refine good_task fun r => ?_
        cases r <;> exact good_ret
    · refine Good.bind (good_cancelActive _) fun r => ?_
      cases r with
      | some e => exact good_ret
      | none =>
        refine good_getJob' fun r => ?_
        cases r with
        | error e => exact good_ret
        | ok j' =>
          dsimp only
          split
          · refine good_pub rfl fun r => ?_
            cases r <;> exact good_ret
          · exact good_ret

theorem good_markRunning (j : Job) : Good n (markJobAsRunning j) T := by
  unfold markJobAsRunning
  simp only [bind_eq, pure_eq]
  refine good_updJob (fun r => by unfold markRunningRow; split <;> rfl) fun r => ?_
  cases r <;> exact good_ret

theorem completeRow_pos {C : Cfg} {j : Job} {sd now now2 : Nat} {u : Job} {g x : Job} (h : completeJobRow C j sd now now2 u = .ok (g, x)) :
    x.position = u.position := by
  unfold completeJobRow at h
  split at h
  · cases h
  · split at h
    · cases h; rfl
    · dsimp only at h
      repeat' split at h
      all_goals (cases h; rfl)

theorem good_completeJob (C : Cfg) (j : Job) : Good n (completeJob C j) T := by
  unfold completeJob
  simp only [bind_eq, pure_eq]
  refine good_now fun now => good_seed fun sd => good_now fun now2 => ?_
  have go : ∀ r : Except Err Job, Good n (match r with
      | .error e => (.ret (some (wrapErr "error updating job in datastore" e), j) : Prog (Res × Job))
      | .ok j =>
        if j.parentID ≠ 0 then
          (tx (getTask j.parentID)).bind fun r => match r with
          | .error e => .ret (some (wrapErr "could not find parent task for subtask" e), j)
          | .ok parent => Prog.now.bind fun now =>
            (publish (.task QUEUE_COMPLETED (if j.state = .failed then
                { parent with state := .failed, failedAt := some now, error := j.error }
              else
                { parent with state := .completed, completedAt := some now, result := j.result }))).bind fun r => match r with
            | .error e => .ret (some e, j)
            | .ok _ => .ret (none, j)
        else
          (publish (.event (if j.state = .failed then TOPIC_JOB_FAILED else TOPIC_JOB_COMPLETED) j)).bind fun r => match r with
          | .error e => .ret (some e, j)
          | .ok _ => .ret (none, j)) T := by
    intro r
    cases r with
    | error e => exact good_ret
    | ok j =>
      dsimp only
      split
      · refine good_getTask fun r => ?_
        cases r with
        | error e => exact good_ret
        | ok t =>
          refine good_now fun now => good_task fun r => ?_
          cases r <;> exact good_ret
      · refine good_pub rfl fun r => ?_
        cases r <;> exact good_ret
  exact good_tx (fun _ _ _ hx => still_updJob (fun _ _ _ hu => completeRow_pos hu) hx) (fun e => go (.error e)) fun _ g _ _ _ => go (.ok g)

/-! ## scheduler.go, pending.go -/

theorem good_regular (t : Task) : Good n (scheduleRegularTask t) T := by
  unfold scheduleRegularTask
  simp only [bind_eq, pure_eq]
  refine good_now fun now => good_getJob' fun r => ?_
  cases r with
  | error e => exact good_ret
  | ok j =>
    refine good_updTask fun r => ?_
    cases r with
    | error e => exact good_ret
    | ok _ =>
      refine good_task fun r => ?_
      cases r <;> exact good_ret

theorem good_pubNew {j : Job} {α : Type} {k : Except Err Unit → Prog α} (hT : j.id = n → T = some (.turn 0))
    (h : ∀ r, Good n (k r) none) : Good n ((publish (.job j)).bind k) T := by
  refine ⟨fun hm => hT ?_, fun r => ?_⟩
  · unfold startsFor at hm
    exact of_decide_eq_true (Bool.and_eq_true _ _ ▸ hm).1
  · exact (h r).any

theorem good_attached (t : Task) (s : SubJobTask Task) : Good n (scheduleAttachedSubJob t s) none := by
  unfold scheduleAttachedSubJob
  simp only [bind_eq, pure_eq]
  refine good_getJob' fun r => ?_
  cases r with
  | error e => exact good_ret
  | ok j =>
    refine good_now fun now => good_uuid fun id _ _ => good_updTask fun r => ?_
    cases r with
    | error e => exact good_ret
    | ok _ =>
      refine good_newJob fun r => ?_
      cases r with
      | error e => exact good_ret
      | ok _ =>
        refine good_pubNew (fun h => if_pos h) fun r => ?_
        cases r <;> exact good_ret

theorem good_detached (t : Task) (s : SubJobTask Task) : Good n (scheduleDetachedSubJob t s) none := by
  unfold scheduleDetachedSubJob
  simp only [bind_eq, pure_eq]
  refine good_getJob' fun r => ?_
  cases r with
  | error e => exact good_ret
  | ok j =>
    refine good_now fun now => good_uuid fun id _ _ => good_newJob fun r => ?_
    cases r with
    | error e => exact good_ret
    | ok _ =>
      refine good_pubNew (fun h => if_pos h) fun r => ?_
      cases r with
      | error e => exact good_ret
      | ok _ =>
        refine good_updTask fun r => ?_
        cases r with
        | error e => exact good_ret
        | ok _ =>
          refine good_task fun r => ?_
          cases r <;> exact good_ret

theorem good_failTo (t : Task) (e : Err) : Good n (failToErrorQueue t e) T := by
  unfold failToErrorQueue
  simp only [bind_eq, pure_eq]
  refine good_task fun r => ?_
  cases r <;> exact good_ret

theorem child_not_top {C : Prop} {p : Nat} {t u : Task} (hp : p ≠ 0) (h1 : t.parentID = p) (h2 : u.parentID = t.parentID) : ¬ Top n u := fun h =>
  hp (by rw [← h1, ← h2]; exact h.2)

theorem good_eachLoop (C : Cfg) (j : Job) (now : Nat) (t : Task) (e : EachTask Task) (ix : Nat) (items : List String) (ht : t.id ≠ 0) :
    Good n (eachLoop C j now t e ix items) none := by
  induction items generalizing t e ix with
  | nil => rw [eachLoop]; exact good_ret
  | cons x xs ih =>
    rw [eachLoop]
    simp only [bind_eq, pure_eq]
    refine good_uuid0 fun id _ => good_seed fun sd => ?_
    have hf := (evaluateTask_frame (evaluateTemplate C.O ⟨j.context, some (eachVarName e, ix, x)⟩ sd) (eachChild t e j.id id now ix)).1
    revert hf
    generalize evaluateTask (evaluateTemplate C.O ⟨j.context, some (eachVarName e, ix, x)⟩ sd) (eachChild t e j.id id now ix) = et
    intro hf
    obtain ⟨et, o⟩ := et
    cases o with
    | some err => exact good_failTo _ _
    | none =>
      refine good_child (fun h => ht (hf.parentID.symm.trans h.2)) fun r => ?_
      cases r with
      | error e => exact good_ret
      | ok _ =>
        dsimp only
        split
        · refine good_task fun r => ?_
          cases r with
          | error e => exact good_ret
          | ok _ => exact ih _ _ _ ht
        · exact ih _ _ _ ht

theorem good_each (C : Cfg) (t : Task) (e : EachTask Task) (ht : t.id ≠ 0) : Good n (scheduleEachTask C t e) none := by
  unfold scheduleEachTask
  simp only [bind_eq, pure_eq]
  refine good_now fun now => good_getJob' fun r => ?_
  cases r with
  | error e => exact good_ret
  | ok j =>
    refine good_seed fun sd => ?_
    split
    · exact good_failTo _ _
    · split
      · exact good_failTo _ _
      · refine good_updTask fun r => ?_
        cases r with
        | error e => exact good_ret
        | ok _ => exact good_eachLoop C j now t e 0 _ ht

theorem good_parLoop (C : Cfg) (t : Task) (j : Job) (now : Nat) (ts : List Task) (ht : t.id ≠ 0) : Good n (parLoop C t j now ts) none := by
  induction ts with
  | nil => rw [parLoop]; exact good_ret
  | cons x xs ih =>
    rw [parLoop]
    simp only [bind_eq, pure_eq]
    refine good_uuid0 fun id _ => good_seed fun sd => ?_
    have hf := (evaluateTask_frame (evaluateTemplate C.O ⟨j.context, none⟩ sd) (parChild t x j.id id now)).1
    revert hf
    generalize evaluateTask (evaluateTemplate C.O ⟨j.context, none⟩ sd) (parChild t x j.id id now) = et
    intro hf
    obtain ⟨et, o⟩ := et
    cases o with
    | some err => exact good_failTo _ _
    | none =>
      refine good_child (fun h => ht (hf.parentID.symm.trans h.2)) fun r => ?_
      cases r with
      | error e => exact good_ret
      | ok _ =>
        refine good_task fun r => ?_
        cases r with
        | error e => exact good_ret
        | ok _ => exact ih

theorem good_parallel (C : Cfg) (t : Task) (p : ParallelTask Task) (ht : t.id ≠ 0) : Good n (scheduleParallelTask C t p) none := by
  unfold scheduleParallelTask
  simp only [bind_eq, pure_eq]
  refine good_now fun now => good_updTask fun r => ?_
  cases r with
  | error e => exact good_ret
  | ok _ =>
    refine good_getJob' fun r => ?_
    cases r with
    | error e => exact good_ret
    | ok j => exact good_parLoop C t j now _ ht

theorem good_pending (C : Cfg) (t : Task) (ht : t.id ≠ 0) : Good n (pendingHandler C t) none := by
  unfold pendingHandler
  split
  · unfold skipTask
    simp only [bind_eq, pure_eq]
    refine good_now fun now => good_updTask fun r => ?_
    cases r with
    | error e => exact good_ret
    | ok _ =>
      refine good_task fun r => ?_
      cases r <;> exact good_ret
  · unfold scheduleTask
    split
    · exact good_parallel C t _ ht
    · split
      · exact good_each C t _ ht
      · split
        · split
          · exact good_detached t _
          · exact Good.bind (good_attached t _) fun _ => good_ret
        · exact good_regular t

/-! ## The next task -/

theorem top_frame (C : Cfg) (c : JobContext) (sd now : Nat) (t : Task) :
    (evalOrFail C c sd now t).id = t.id ∧ (evalOrFail C c sd now t).jobID = t.jobID ∧ (evalOrFail C c sd now t).parentID = t.parentID ∧
      (evalOrFail C c sd now t).position = t.position := by
  obtain ⟨tm, h⟩ := evalOrFail_cases C c sd now t
  have hf := (evaluateTask_frame tm t).1
  rcases h with h | ⟨e, h⟩ <;> rw [h] <;> exact ⟨hf.id, hf.jobID, hf.parentID, hf.position⟩

/-- The holder of the turn makes the next task. -/
theorem good_next {α : Type} {t : Task} {p : Nat} {k : Except Err Unit → Prog α} (hj : t.jobID = n) (hp : t.position = max 1 p)
    (he : ∀ e, Good n (k (.error e)) none) (hk : ∀ x, Good n (k (.ok x)) (if p = 0 then some .started else none)) :
    Good n ((tx (createTask t)).bind k) (some (.turn p)) := by
  refine good_any_tx (.inr rfl) he fun ds g ds' hh hx _ => ?_
  obtain ⟨h1, ⟨j, hj'⟩, rfl⟩ := createTask_inv hx
  have hjn : ds.job? n ≠ none := by rw [← hj, hj']; exact nofun
  have hk := hk g
  by_cases htop : Top n t
  · have hnew : ∀ x u, ds.task? x = none → ({ ds with tasks := ds.tasks ++ [taskRow t] } : DS).task? x = some u → x = t.id := by
      intro x u k1 k2
      rw [task?_append, k1] at k2
      by_cases hid : (taskRow t).id = x
      · exact hid.symm
      · rw [if_neg hid] at k2; cases k2
    have hrow : ({ ds with tasks := ds.tasks ++ [taskRow t] } : DS).task? t.id = some (taskRow t) := by
      rw [task?_append, h1]; exact if_pos rfl
    refine ⟨.create p (.inl rfl) t.id _ h1 hrow htop hp hnew (.of rfl) hjn, _, .create p ?_ t.id _ h1 hrow htop hp hnew (.of rfl) hjn, hk⟩
    by_cases h0 : p = 0
    · rw [if_pos h0]; exact .inr ⟨h0, rfl⟩
    · rw [if_neg h0]; exact .inl rfl
  · have hm : NoNew n ds { ds with tasks := ds.tasks ++ [taskRow t] } := fun id u k1 k2 => by
      rw [task?_append, k1] at k2
      by_cases hid : (taskRow t).id = id
      · rw [if_pos hid] at k2; cases k2; exact htop
      · rw [if_neg hid] at k2; cases k2
    refine ⟨.keep (.inr rfl) hm (.of rfl), _, ?_, hk⟩
    by_cases h0 : p = 0
    · subst h0; exact .spend hm (.of rfl) hjn
    · rw [if_neg h0]; exact .keep (.inr rfl) hm (.of rfl)

theorem good_topTx (t : Task) {α : Type} {k : Except Err Unit → Prog α} (he : ∀ e, Good n (k (.error e)) none)
    (hk : ∀ x, t.jobID ≠ n → Good n (k (.ok x)) none) (hk' : ∀ x p, t.jobID = n → Good n (k (.ok x)) (some (.turn p))) :
    Good n ((tx (topLevelTx t)).bind k) none := by
  refine good_any_tx (.inr rfl) he fun ds g ds' hh hx _ => ?_
  obtain ⟨r, j, hr, _, hj, hT, hJ, _, _⟩ := topLevelTx_ok hx
  obtain ⟨_, f2, f3, _, _⟩ := topLevelJobRow_facts t j
  have hn : NoNew n ds ds' := fun id u k1 k2 => by
    rw [hT] at k2
    by_cases hid : id = t.id
    · subst hid; rw [hr] at k1; cases k1
    · rw [if_neg hid, k1] at k2; cases k2
  by_cases hjn : t.jobID = n
  · have h1 : ds.job? n = some j := hjn ▸ hj
    have h2 : ds'.job? n = some (persistJob j (topLevelJobRow t j)) := by rw [hJ, if_pos hjn.symm]
    exact ⟨.advance j _ hn h1 h2 f2 f3 (.inl rfl), _, .advance j _ hn h1 h2 f2 f3 (.inr rfl), hk' g _ hjn⟩
  · have hm : Move n ds ds' none none := .keep (.inl rfl) hn (.of (by rw [hJ, if_neg (Ne.symm hjn)]))
    exact ⟨hm, none, hm, hk g hjn⟩

theorem good_topLevel (C : Cfg) (t : Task) : Good n (completeTopLevelTask C t) none := by
  unfold completeTopLevelTask
  simp only [bind_eq, pure_eq]
  refine good_topTx t (fun e => good_ret) (fun x hj => ?_) fun x p hj => ?_
  · refine good_getJob (fun e => good_ret) fun ds j _ hjj => ?_
    have hid := (job?_mem hjj).2
    refine good_now fun now => ?_
    split
    · split
      · exact good_panic
      · split
        · exact good_panic
        · refine good_uuid0 fun id _ => good_seed fun sd => good_child (fun h => hj ?_) fun r => ?_
          · rw [← hid]
            exact (top_frame C j.context sd now _).2.1.symm.trans h.1
          · cases r with
            | error e => exact good_ret
            | ok _ =>
              refine good_task fun r => ?_
              cases r <;> exact good_ret
    · exact Good.bind (good_completeJob C _) fun _ => good_ret
  · refine good_getJob (fun e => good_ret) fun ds j hh hjj => ?_
    have hid := (job?_mem hjj).2
    have hp : j.position = p := by
      rcases hh _ rfl with ⟨h, _⟩ | ⟨j', h1, h2⟩
      · rw [← hj, hjj] at h; cases h
      · rw [← hj, hjj] at h1; cases h1; exact h2
    refine good_now fun now => ?_
    split
    · split
      · exact good_panic
      · rename_i h0
        split
        · exact good_panic
        · refine good_uuid' (fun id _ => good_seed fun sd => ?_) nofun
          obtain ⟨-, f2, -, f4⟩ := top_frame C j.context sd now (prepTask _ id j.id j.position now)
          refine good_next (f2.trans (hid.trans hj)) (f4.trans ?_) (fun e => good_ret) fun _ => ?_
          · show j.position = max 1 p
            omega
          · rw [if_neg (hp ▸ h0)]
            refine good_task fun r => ?_
            cases r <;> exact good_ret
    · exact Good.bind (good_completeJob C _) fun _ => good_ret

theorem task?_some {ds : DS} {t : Task} (h : t ∈ ds.tasks) : ∃ r, ds.task? t.id = some r := by
  cases hf : ds.task? t.id with
  | some j' => exact ⟨j', rfl⟩
  | none =>
    unfold DS.task? at hf
    rw [List.find?_eq_none] at hf
    have := hf t h
    simp at this

theorem good_eachTx {α : Type} (t : Task) {k : Except Err Bool → Prog α} (h : ∀ r, Good n (k r) T) : Good n ((txOp (eachTx t)).bind k) T := by
  have hrow : ∀ ds next, eachNext t ds = .ok (some next) → ∃ r, ds.task? next.id = some r := by
    intro ds next hx
    unfold eachNext at hx
    repeat' split at hx
    all_goals try cases hx
    rename_i hg
    unfold getNextTask at hg
    split at hg
    · cases hg
    · rename_i r hr
      cases hg
      exact task?_some (ds := ds) (t := ‹Task›) (List.mem_of_find?_eq_some hr)
  refine good_op (fun ds => ?_) (fun ds x hx => ?_) (fun e => h _) fun ds g _ _ => h _
  · unfold eachTx
    dsimp only
    cases hx : eachNext t ds with
    | error e => exact ⟨.refl ds, fun _ h => by cases h⟩
    | ok o =>
      cases o with
      | none =>
        dsimp only
        cases hy : subTaskTx t eachParentRow ds with
        | error e => exact ⟨.refl ds, fun _ h => by cases h⟩
        | ok y => exact ⟨still_subTask hy, fun _ h => by cases h⟩
      | some next =>
        obtain ⟨r, hr⟩ := hrow ds next hx
        dsimp only
        cases hy : subTaskTx t eachParentRow (ds.setTask next.id next) with
        | error e => exact ⟨still_setTask hr, fun m h => by rw [List.mem_singleton.1 h]; rfl⟩
        | ok y => exact ⟨(still_setTask hr).trans (still_subTask hy), fun m h => by rw [List.mem_singleton.1 h]; rfl⟩
  · unfold eachTx at hx
    dsimp only at hx
    cases hy : eachNext t ds with
    | error e => rw [hy] at hx; cases hx
    | ok o =>
      rw [hy] at hx
      cases o with
      | none => cases hx
      | some next =>
        obtain ⟨r, hr⟩ := hrow ds next hy
        simp only [List.mem_cons, List.not_mem_nil, or_false] at hx
        rcases hx with rfl | rfl
        · exact ⟨still_setTask hr, fun _ h => by cases h⟩
        · exact ⟨still_setTask hr, fun m h => by rw [List.mem_singleton.1 h]; rfl⟩

theorem good_complete (C : Cfg) (fuel : Nat) (t : Task) : Good n (completeTask C fuel t) none := by
  induction fuel generalizing t with
  | zero => rw [completeTask]; exact good_panic
  | succ fuel ih =>
    rw [completeTask]
    simp only [bind_eq, pure_eq]
    split
    · refine good_getTask fun r => ?_
      cases r with
      | error e => exact good_ret
      | ok parent =>
        dsimp only
        have go : ∀ r : Except Err Bool, Good n (match r with
          | .error e => (.ret (some (wrapErr "error completing task" e)) : Prog Res)
          | .ok isLast =>
            if isLast then
              (tx (getTask t.parentID)).bind fun r => match r with
              | .error _ => .ret (some "error fetching the parent task")
              | .ok parent => Prog.now.bind fun now => completeTask C fuel { parent with state := .completed, completedAt := some now }
            else .ret none) none := by
          intro r
          cases r with
          | error e => exact good_ret
          | ok b =>
            dsimp only
            split
            · refine good_getTask fun r => ?_
              cases r with
              | error e => exact good_ret
              | ok p => exact good_now fun now => ih _
            · exact good_ret
        split
        · exact good_tx (fun _ _ _ hx => still_subTask hx) (fun e => go (.error e)) fun _ g _ _ _ => go (.ok g)
        · exact good_eachTx t go
    · exact good_topLevel C t

theorem good_completed (C : Cfg) (fuel : Nat) (t : Task) : Good n (completedHandler C fuel t) none := by
  unfold completedHandler
  simp only [bind_eq, pure_eq]
  refine good_now fun now => ?_
  split
  · exact good_ret
  · exact Good.bind (good_complete C fuel _) fun _ => good_ret

/-! ## Starting and restarting -/

theorem good_startOther (C : Cfg) (j : Job) (hj : j.id ≠ n) : Good n (startJob C j) none := by
  unfold startJob
  simp only [bind_eq, pure_eq]
  refine good_now fun now => ?_
  split
  · exact good_panic
  · refine good_uuid0 fun id hid => good_seed fun sd => ?_
    obtain ⟨f1, f2, -, -⟩ := top_frame C j.context sd now (prepTask ‹Task› id j.id 1 now)
    revert f1 f2
    generalize evalOrFail C j.context sd now (prepTask ‹Task› id j.id 1 now) = t
    intro f1 f2
    refine good_child (fun h => hj (f2.symm.trans h.1)) fun r => ?_
    cases r with
    | error e => exact good_ret
    | ok _ =>
      refine good_now fun m => ?_
      have go : ∀ r : Except Err Unit, Good n (match r with
          | .error e => (.ret (some e, j) : Prog (Res × Job))
          | .ok _ =>
            if t.state = .failed then
              Prog.now.bind fun n => (failJob { j with failedAt := some n, state := .failed, error := t.error }).bind fun r =>
                .ret (r, { j with failedAt := some n, state := .failed, error := t.error })
            else (pendingHandler C t).bind fun x => .ret (x.1, j)) none := by
        intro r
        cases r with
        | error e => exact good_ret
        | ok _ =>
          dsimp only
          split
          · exact good_now fun _ => Good.bind (good_failJob _) fun _ => good_ret
          · exact Good.bind (good_pending C t (by rw [f1]; exact hid)) fun _ => good_ret
      refine good_any_tx (.inl rfl) (fun e => go (.error e)) fun ds g ds' _ hx _ => ?_
      obtain ⟨r, hr, rfl⟩ := Tork.updateJob'_ok hx
      have hm : Move n ds (ds.setJob j.id (startJobRow m r)) none none :=
        .keep (.inl rfl) (fun id u k1 k2 => absurd (k1.symm.trans k2) nofun) (.of (by rw [job?_set_eq hr, if_neg (Ne.symm hj)]))
      exact ⟨hm, none, hm, go (.ok g)⟩

theorem good_start (C : Cfg) (j : Job) (hj : j.id = n) : Good n (startJob C j) (some (.turn 0)) := by
  unfold startJob
  simp only [bind_eq, pure_eq]
  refine good_now fun now => ?_
  split
  · exact good_panic
  · refine good_uuid' (fun id hid => good_seed fun sd => ?_) nofun
    obtain ⟨f1, f2, -, f4⟩ := top_frame C j.context sd now (prepTask ‹Task› id j.id 1 now)
    revert f1 f2 f4
    generalize evalOrFail C j.context sd now (prepTask ‹Task› id j.id 1 now) = t
    intro f1 f2 f4
    refine good_next (f2.trans hj) f4 (fun e => good_ret) fun _ => ?_
    rw [if_pos rfl]
    refine good_now fun m => ?_
    have go : ∀ r : Except Err Unit, Good n (match r with
        | .error e => (.ret (some e, j) : Prog (Res × Job))
        | .ok _ =>
          if t.state = .failed then
            Prog.now.bind fun n => (failJob { j with failedAt := some n, state := .failed, error := t.error }).bind fun r =>
              .ret (r, { j with failedAt := some n, state := .failed, error := t.error })
          else (pendingHandler C t).bind fun x => .ret (x.1, j)) none := by
      intro r
      cases r with
      | error e => exact good_ret
      | ok _ =>
        dsimp only
        split
        · exact good_now fun _ => Good.bind (good_failJob _) fun _ => good_ret
        · exact Good.bind (good_pending C t (by rw [f1]; exact hid)) fun _ => good_ret
    refine good_any_tx (.inr rfl) (fun e => go (.error e)) fun ds g ds' _ hx _ => ?_
    obtain ⟨r, hr, rfl⟩ := Tork.updateJob'_ok hx
    have hm : Move n ds (ds.setJob j.id (startJobRow m r)) (some .started) none :=
      .start r (persistJob r (startJobRow m r)) (fun id u k1 k2 => absurd (k1.symm.trans k2) nofun) (hj ▸ hr)
        (by rw [job?_set_eq hr, if_pos hj.symm]) rfl
    exact ⟨hm, none, hm, go (.ok g)⟩

theorem good_restart (C : Cfg) (j : Job) : Good n (restartJob C j) none := by
  unfold restartJob
  simp only [bind_eq, pure_eq]
  have hrow : ∀ {ds ds' : DS} {g : Unit}, updateJob j.id restartJobRow ds = .ok (g, ds') → ∃ r, ds.job? j.id = some r ∧
      (r.state = .failed ∨ r.state = .cancelled) ∧ ds' = ds.setJob j.id { r with state := .running, failedAt := none } := by
    intro ds ds' g hx
    unfold updateJob at hx
    cases hj : ds.job? j.id with
    | none => rw [hj] at hx; cases hx
    | some r =>
      rw [hj] at hx
      dsimp only [restartJobRow] at hx
      by_cases hc : r.state ≠ .failed ∧ r.state ≠ .cancelled
      · rw [if_pos hc] at hx; cases hx
      · rw [if_neg hc] at hx
        cases hx
        refine ⟨r, rfl, ?_, rfl⟩
        cases hs : r.state <;> simp_all
  refine good_any_tx (.inl rfl) (fun e => good_ret) fun ds g ds' _ hx hd => ?_
  obtain ⟨r, hr, hs, rfl⟩ := hrow hx
  by_cases hj : j.id = n
  · refine absurd rfl (hd.noRestart r (persistJob r { r with state := .running, failedAt := none }) (hj ▸ hr) ?_ hs)
    rw [job?_set_eq hr, if_pos hj.symm]
  · have hm : Move n ds (ds.setJob j.id { r with state := .running, failedAt := none }) none none :=
      (still_setJob (u := { r with state := .running, failedAt := none }) hr rfl).move
    refine ⟨hm, none, hm, good_now fun now => ?_⟩
    split
    · exact good_panic
    · split
      · exact good_panic
      · refine good_uuid0 fun id _ => good_seed fun sd => good_child (fun h => hj ((top_frame C j.context sd now _).2.1.symm.trans h.1)) fun r => ?_
        cases r with
        | error e => exact good_ret
        | ok _ =>
          refine good_task fun r => ?_
          cases r <;> exact good_ret

theorem good_jobHandler (C : Cfg) (j : Job) : Good n (jobHandler C j) (if startsFor n (.job j) then some (.turn 0) else none) := by
  unfold jobHandler
  split
  · rename_i hs
    by_cases hj : j.id = n
    · rw [show startsFor n (.job j) = true by simp [startsFor, hj, hs], if_pos rfl]
      exact good_start C j hj
    · rw [show startsFor n (.job j) = false by simp [startsFor, hj], if_neg nofun]
      exact good_startOther C j hj
  · exact Good.bind (good_cancel j) fun _ => good_ret
  · exact (Good.bind (good_restart C j) fun _ => good_ret).any
  · exact good_completeJob C j
  · exact Good.bind (good_failJob j) fun _ => good_ret
  · exact Good.bind (good_markRunning j) fun _ => good_ret
  · exact good_ret

/-! ## The other handlers -/

/-- A new attempt: an ordinary step makes none for a top-level task of the job. -/
theorem good_retry {α : Type} {t : Task} {k : Except Err Unit → Prog α} (ha : Origin.attempts t ≠ 0) (h : ∀ r, Good n (k r) T) :
    Good n ((tx (createTask t)).bind k) T := by
  by_cases ht : Top n t
  · refine good_any_tx (.inl rfl) (fun e => h _) fun ds g ds' _ hx hd => ?_
    obtain ⟨h1, _, rfl⟩ := createTask_inv hx
    refine absurd (hd.noRetry t.id (taskRow t) h1 ?_ ht) ha
    rw [task?_append, h1, if_pos (show (taskRow t).id = t.id from rfl)]; rfl
  · exact good_child ht h

theorem good_error (C : Cfg) (t : Task) : Good n (errorHandler C t) none := by
  unfold errorHandler
  simp only [bind_eq, pure_eq]
  refine good_getJob' fun r => ?_
  cases r with
  | error e => exact good_ret
  | ok j =>
    refine good_now fun n1 => good_updTask fun r => ?_
    cases r with
    | error e => exact good_ret
    | ok _ =>
      dsimp only
      split
      · rename_i hel
        refine good_now fun now => good_uuid0 fun id _ => good_seed fun sd => ?_
        have hf := (evaluateTask_frame (evaluateTemplate C.O ⟨j.context, none⟩ sd) (retryTask { t with failedAt := some n1 } id now)).1
        revert hf
        generalize evaluateTask (evaluateTemplate C.O ⟨j.context, none⟩ sd) (retryTask { t with failedAt := some n1 } id now) = x
        intro hf
        obtain ⟨rt, _ | e⟩ := x
        · dsimp only at hf ⊢
          have ha : Origin.attempts rt ≠ 0 := by
            unfold Origin.attempts
            rw [hf.retry]
            unfold retryEligible at hel
            simp only [retryTask]
            cases hr : t.retry with
            | none => simp [hr] at hel
            | some r => simp
          refine good_retry ha fun r => ?_
          cases r with
          | error e => exact good_ret
          | ok _ => exact good_task fun _ => good_ret
        · exact good_ret
      · exact good_failJob _

theorem good_started (t : Task) : Good n (startedHandler t) none := by
  unfold startedHandler
  simp only [bind_eq, pure_eq]
  refine good_getJob' fun r => ?_
  cases r with
  | error e => exact good_ret
  | ok j =>
    dsimp only
    split
    · refine good_getNode fun r => ?_
      cases r with
      | error e => exact good_ret
      | ok nd =>
        refine good_task fun r => ?_
        cases r <;> exact good_ret
    · have go : ∀ r : Res, Good n (match r with
          | some e => (.ret (some e, t) : Prog (Res × Task))
          | none => Prog.now.bind fun now => (tx (updateTask' t.id (startedRow now t.nodeID))).bind fun r => match r with
            | .error e => .ret (some e, t)
            | .ok _ => .ret (none, t)) none := by
        intro r
        cases r with
        | some e => exact good_ret
        | none =>
          refine good_now fun now => good_updTask fun r => ?_
          cases r <;> exact good_ret
      split
      · exact Good.bind (good_markRunning _) go
      · exact go none

theorem good_progress (t : Task) : Good n (progressHandler t) none := by
  unfold progressHandler
  simp only [bind_eq, pure_eq]
  refine good_updTask fun r => ?_
  cases r with
  | error e => exact good_ret
  | ok _ =>
    refine good_getJob' fun r => ?_
    cases r with
    | error e => exact good_ret
    | ok j =>
      refine good_updJob (fun _ => rfl) fun r => ?_
      cases r <;> exact good_ret

theorem good_redelivered (t : Task) : Good n (redeliveredHandler t) none := by
  unfold redeliveredHandler
  simp only [bind_eq, pure_eq]
  split
  · refine good_now fun _ => good_task fun r => ?_
    cases r <;> exact good_ret
  · refine good_task fun r => ?_
    cases r <;> exact good_ret

theorem good_wrapTask (C : Cfg) {h : Task → Prog (Res × Task)} {t : Task} (hh : Good n (h t) none) : Good n (wrapTask C h t) none := by
  unfold wrapTask
  simp only [bind_eq, pure_eq]
  refine Good.bind hh fun x => ?_
  obtain ⟨_ | e, t⟩ := x
  · exact good_ret
  · exact good_now fun _ => good_error C _

theorem good_wrapJob (C : Cfg) (j : Job) : Good n (wrapJob C j) (if startsFor n (.job j) then some (.turn 0) else none) := by
  unfold wrapJob
  simp only [bind_eq, pure_eq]
  refine Good.bind (good_jobHandler C j) fun x => ?_
  obtain ⟨_ | e, t⟩ := x
  · exact good_ret
  · exact good_now fun _ => good_failJob _

/-- The right a message carries. -/
def tokOf (n : Nat) (m : Msg) : Option Tok := if startsFor n m then some (.turn 0) else none

theorem good_coordinator (C : Cfg) (fuel : Nat) (m : Msg) (hm : ∀ t, m = .task QUEUE_PENDING t → t.id ≠ 0) {p : Prog Res}
    (hp : coordinatorHandler C fuel m = some p) : Good n p (tokOf n m) := by
  cases m with
  | task q t =>
    show Good n p none
    simp only [coordinatorHandler] at hp
    by_cases h1 : q = QUEUE_REDELIVERIES
    · rw [if_pos h1] at hp; cases hp; exact good_redelivered t
    rw [if_neg h1] at hp
    by_cases h2 : q = QUEUE_PENDING
    · rw [if_pos h2] at hp; cases hp; exact good_wrapTask C (good_pending C t (hm t (by rw [h2])))
    rw [if_neg h2] at hp
    by_cases h3 : q = QUEUE_COMPLETED
    · rw [if_pos h3] at hp; cases hp; exact good_wrapTask C (good_completed C fuel t)
    rw [if_neg h3] at hp
    by_cases h4 : q = QUEUE_STARTED
    · rw [if_pos h4] at hp; cases hp; exact good_wrapTask C (good_started t)
    rw [if_neg h4] at hp
    by_cases h5 : q = QUEUE_ERROR
    · rw [if_pos h5] at hp; cases hp
      refine good_wrapTask C ?_
      unfold errorHandlerT
      simp only [bind_eq, pure_eq]
      exact Good.bind (good_error C t) fun _ => good_ret
    rw [if_neg h5] at hp; cases hp
  | job j => cases hp; exact good_wrapJob C j
  | progress t => cases hp; exact good_wrapTask C (good_progress t)
  | _ => cases hp

/-! ## API, scheduler and worker -/

/-- A new job and the message that starts it. -/
theorem good_submitted {α : Type} {j : Job} {k : Except Err Unit → Prog α} (h : ∀ r, Good n (k r) none) :
    Good n ((publish (.job j)).bind k) (if j.id = n then some (.turn 0) else none) := by
  refine ⟨fun hs => ?_, fun r => (h r).any⟩
  have : j.id = n := by simp [startsFor] at hs; exact hs.1
  rw [if_pos this]

theorem good_submit (u : Option User) (j : Job) : Good n (apiSubmit u j) none := by
  unfold apiSubmit
  simp only [bind_eq, pure_eq]
  refine good_uuid fun id _ _ => good_now fun now => good_newJob fun r => ?_
  cases r with
  | error e => exact good_ret
  | ok _ =>
    refine good_submitted (j := submitRow id now u j) fun r => ?_
    cases r <;> exact good_ret

theorem good_apiCancel (id : Nat) : Good n (apiCancel id) none := by
  unfold apiCancel
  simp only [bind_eq, pure_eq]
  refine good_getJob' fun r => ?_
  cases r with
  | error e => exact good_ret
  | ok j =>
    dsimp only
    split
    · exact good_ret
    · refine good_job (fun h => nomatch h) fun r => ?_
      cases r <;> exact good_ret

theorem good_apiRestart (id : Nat) : Good n (apiRestart id) none := by
  unfold apiRestart
  simp only [bind_eq, pure_eq]
  refine good_getJob' fun r => ?_
  cases r with
  | error e => exact good_ret
  | ok j =>
    dsimp only
    split
    · exact good_ret
    · split
      · exact good_ret
      · refine good_job (fun h => nomatch h) fun r => ?_
        cases r <;> exact good_ret

theorem good_fire (s : ScheduledJob) : Good n (fireScheduled s) none := by
  unfold fireScheduled
  simp only [bind_eq, pure_eq]
  exact good_now fun now => good_uuid fun id _ _ => good_newJob fun r => good_submitted (j := scheduledInstance id now s) fun r => good_ret

theorem good_publishProgress (t : Task) (ps : List Rat) : Good n (publishProgress t ps) none := by
  induction ps with
  | nil => exact good_ret
  | cons p ps ih =>
    rw [publishProgress]
    simp only [bind_eq, pure_eq]
    exact good_pub rfl fun _ => ih

theorem good_work (C : Cfg) (r : WorkerRun) (t : Task) : Good n (doHandleTask C r t) none := by
  have h1 : ∀ t, Good n (doRunTask C r t) none := fun t => by
    unfold doRunTask
    simp only [bind_eq, pure_eq]
    split
    · exact good_ret
    · refine Good.bind (good_publishProgress t _) fun _ => ?_
      refine good_now fun now => ?_
      split <;> exact good_ret
  have h2 : ∀ t, Good n (runTask C r t) none := fun t => by
    unfold runTask
    simp only [bind_eq, pure_eq]
    refine good_task fun x => ?_
    cases x with
    | error e => exact good_ret
    | ok _ => exact h1 t
  have h3 : ∀ t, Good n (workerMw C r t) none := fun t => by
    unfold workerMw
    simp only [bind_eq, pure_eq]
    split
    · exact good_ret
    · exact Good.bind (h2 _) fun _ => good_ret
  unfold doHandleTask
  simp only [bind_eq, pure_eq]
  refine good_now fun now => Good.bind (h3 _) fun x => ?_
  obtain ⟨x, rt⟩ := x
  cases x with
  | some e =>
    refine good_now fun _ => good_task fun x => ?_
    cases x <;> exact good_ret
  | none =>
    dsimp only
    split
    · refine good_task fun x => ?_
      cases x <;> exact good_ret
    · refine good_task fun x => ?_
      cases x <;> exact good_ret
    · exact good_ret

theorem good_spawn {E : Env} {p : Prog Unit} (h : Spawn E p) : Good n p none := by
  cases h with
  | submit u j _ => exact Good.bind (good_submit u j) fun _ => good_ret
  | cancel id => exact Good.bind (good_apiCancel id) fun _ => good_ret
  | restart id _ => exact Good.bind (good_apiRestart id) fun _ => good_ret
  | fire s _ => exact good_fire s

end Tork.Seq
