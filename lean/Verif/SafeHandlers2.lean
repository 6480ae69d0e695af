import Verif.SafeHandlers
/-! Every coordinator handler is safe (continued): pending, job, error, completed. -/

namespace Tork
open Prog

variable {rok : Nat → Prop}

theorem safe_scheduleTask {C : Cfg} {t : Task} {T : List Nat} {G : Ghost} (ht : HTask G t) :
    Safe rok (scheduleTask C t) T G taskPost := by
  unfold scheduleTask
  split
  · rename_i p hp; exact safe_schedulePar ht hp
  · rename_i hnp
    split
    · rename_i e he; exact safe_scheduleEach ht he
    · rename_i hne
      split
      · rename_i s hs
        split
        · rename_i hd; exact safe_scheduleDetached ht hnp hne hs hd
        · simp only [bind_eq, pure_eq]
          -- the returned task is the received one
          refine Safe.bind ?_
          refine Safe.le_post (safe_scheduleAttached ht hnp hne hs) ?_
          intro T' G' a hl _
          exact safe_retT (ht.mono hl)
      · rename_i hns
        exact safe_scheduleRegular ht ⟨by simp [Task.static, hnp], by simp [Task.static, hne], by simp [Task.static, hns]⟩

theorem safe_skipTask {t : Task} {T : List Nat} {G : Ghost} (ht : HTask G t) :
    Safe rok (skipTask t) T G taskPost := by
  simp only [skipTask, bind_eq, pure_eq]
  refine safe_now fun now => ?_
  have ht2 : HTask G { t with state := .skipped, scheduledAt := some now, startedAt := some now,
                              completedAt := some now } :=
    ht.upd rfl rfl ht.retry ⟨ht.nested.par, ht.nested.ea, ht.nested.sub⟩
  refine safe_updTask (fun G2 r hl2 hr hrid => plain_skip _ _ hr) ?_
  intro r
  cases r with
  | error e => exact safe_retT ht2
  | ok _ =>
    dsimp only
    refine safe_pub ⟨ht2.toMsgTask, queueOK_completed ht2.zero fun h => by simp at h⟩ rfl ?_
    intro r
    cases r with
    | error e => exact safe_retT ht2
    | ok _ => exact safe_retT ht2

theorem safe_pendingHandler {C : Cfg} {t : Task} {T : List Nat} {G : Ghost} (ht : HTask G t) :
    Safe rok (pendingHandler C t) T G taskPost := by
  unfold pendingHandler
  split
  · exact safe_skipTask ht
  · exact safe_scheduleTask ht

/-! ## job.go -/

theorem failJobRow_ok {G : Ghost} {R : Prop} {r : Job} (f : Option Nat) (h : JobInv G r) :
    PlainJob R r (persistJob r (failJobRow f r)) ∧ JobInv G (persistJob r (failJobRow f r)) := by
  unfold failJobRow
  split
  · rename_i hs
    refine ⟨⟨rfl, .inr ⟨?_, .fail hs.symm⟩, rfl, rfl⟩, h.tasks, h.parent, fun h => by simp [persistJob] at h,
      fun h => by simp [persistJob] at h, fun _ => h.began ?_⟩
    all_goals rcases hs with h | h <;> rw [h] <;> simp
  · exact ⟨⟨rfl, .inl rfl, rfl, rfl⟩, h.tasks, h.parent, h.pend, h.done, h.began⟩

/-- The row of the parent task of a sub-job. -/
theorem parent_row {G G1 : Ghost} {id : Nat} {pt : Task} (hp : ParentOK G id) (h0 : id ≠ 0) (hl : G.le G1)
    (hi : TaskInv G1 pt) (hid : pt.id = id) : HTask G1 pt := by
  obtain ⟨s, h1, h2, hpa, hea, hrl⟩ := hp h0
  have h3 := hi.st
  rw [hid, hl.st _ _ h1] at h3
  have h3 := Option.some.inj h3
  have hc : pt.count = 0 := by
    rw [h3] at hpa hea
    simp only [Task.static] at hpa hea
    unfold Task.count
    cases hp : pt.parallel with
    | some _ => rw [hp] at hpa; cases hpa
    | none =>
      cases he : pt.each with
      | some _ => rw [he] at hea; cases hea
      | none => rfl
  refine ⟨⟨hi.st, ?_, hi.retry, hi.nested, by rw [hid]; exact hl.rel _ hrl⟩, hc⟩
  have : s.jobID = pt.jobID := by rw [h3]; rfl
  rw [← this]; exact h2.mono hl

theorem safe_failJob {j : Job} {T : List Nat} {G : Ghost} (hp : ParentOK G j.parentID) :
    Safe rok (failJob j) T G anyPost := by
  simp only [failJob, bind_eq, pure_eq]
  refine safe_updJob' (fun G1 r _ hr _ => failJobRow_ok _ hr) ?_
  intro r
  cases r with
  | error e => exact fun _ _ => trivial
  | ok _ =>
    dsimp only
    split
    · rename_i h0
      refine safe_getTask (fun e => fun _ _ => trivial) ?_
      intro G1 pt hl hpt hid
      dsimp only
      have hm := parent_row hp h0 hl hpt hid
      refine safe_pub ⟨hm.toMsgTask.upd rfl rfl hm.retry ⟨hm.nested.par, hm.nested.ea, hm.nested.sub⟩, queueOK_error hm.zero⟩ rfl ?_
      intro r
      cases r with
      | error e => exact fun _ _ => trivial
      | ok _ => exact fun _ _ => trivial
    · refine Safe.bind ((safe_cancelActiveTasks _).mono ?_)
      intro T' G' r _
      cases r with
      | some e => exact fun _ _ => trivial
      | none =>
        dsimp only
        refine safe_getJob (fun e => fun _ _ => trivial) ?_
        intro G1 j' hl hj _ _
        dsimp only
        split
        · refine safe_pub trivial rfl ?_
          intro r
          cases r with
          | error e => exact fun _ _ => trivial
          | ok _ => exact fun _ _ => trivial
        · exact fun _ _ => trivial

abbrev jobPost : List Nat → Ghost → Res × Job → Prop := fun _ G x => ParentOK G x.2.parentID

theorem safe_retJ {r : Res} {j : Job} {T : List Nat} {G : Ghost} (h : ParentOK G j.parentID) :
    Safe rok (.ret (r, j)) T G jobPost := fun _ hl => h.mono hl

theorem evalOrFail_cases (C : Cfg) (ctx : JobContext) (sd now : Nat) (t : Task) :
    ∃ tm, evalOrFail C ctx sd now t = (evaluateTask tm t).1 ∨
      ∃ e, evalOrFail C ctx sd now t = { (evaluateTask tm t).1 with error := e, state := .failed, failedAt := some now } := by
  refine ⟨evaluateTemplate C.O ⟨ctx, none⟩ sd, ?_⟩
  unfold evalOrFail
  split
  · rename_i t' h; rw [h]; exact .inl rfl
  · rename_i t' e h; rw [h]; exact .inr ⟨e, rfl⟩

/-- A top-level task about to be created. -/
theorem newTask_top {G : Ghost} {C : Cfg} {ctx : JobContext} {sd now : Nat} {t0 : Task} {id jobID pos : Nat}
    (hid : id ≠ 0) (hf : t0.Fresh) (hpos : pos ≤ 1 ∨ G.atLeast jobID pos) :
    NewTask G (evalOrFail C ctx sd now (prepTask t0 id jobID pos now)) ∧
    (evalOrFail C ctx sd now (prepTask t0 id jobID pos now)).id = id ∧
    (evalOrFail C ctx sd now (prepTask t0 id jobID pos now)).jobID = jobID ∧
    (evalOrFail C ctx sd now (prepTask t0 id jobID pos now)).state ≠ .created := by
  obtain ⟨tm, h⟩ := evalOrFail_cases C ctx sd now (prepTask t0 id jobID pos now)
  have hfr := (evaluateTask_frame tm (prepTask t0 id jobID pos now)).1
  have hn : (prepTask t0 id jobID pos now).Nested := ⟨hf.nested.par, hf.nested.ea, hf.nested.sub⟩
  have hne := nested_evaluate (tm := tm) hn
  have base : NewTask G (evaluateTask tm (prepTask t0 id jobID pos now)).1 := by
    refine ⟨by rw [hfr.id]; exact hid, ?_, ?_, ?_, hne, ?_, .inl (by rw [hfr.state]; rfl),
      by rw [count_evaluate]; exact hf.count0⟩
    · intro h; rw [hfr.parentID] at h; exact absurd hf.parent0 h
    · intro _; rw [hfr.position, hfr.jobID]; exact hpos
    · intro r h; rw [hfr.retry] at h; exact hf.retryOK r h
    · intro h; rw [hfr.nodeID] at h; exact absurd hf.node0 h
  rcases h with h | ⟨e, h⟩
  · rw [h]; exact ⟨base, hfr.id, hfr.jobID, by rw [hfr.state]; simp [prepTask]⟩
  · rw [h]; exact ⟨⟨base.id, base.parent, base.pos, base.retry, ⟨hne.par, hne.ea, hne.sub⟩,
      fun h => ⟨(base.node h).1, by simp⟩, .inr (.inr rfl), base.count⟩, hfr.id, hfr.jobID, by simp⟩

theorem safe_startJob {C : Cfg} {j : Job} {T : List Nat} {G : Ghost} (hj : MsgJob rok G j) (hT : j.id ∈ T) :
    Safe rok (startJob C j) T G jobPost := by
  simp only [startJob, bind_eq, pure_eq]
  refine safe_now fun now => ?_
  cases hts : j.tasks with
  | nil => exact trivial
  | cons t0 rest =>
    dsimp only
    refine safe_uuid fun id hid hnT => ?_
    refine safe_seed fun sd => ?_
    obtain ⟨hn, hnid, hnj, hnc⟩ := newTask_top (G := G) (C := C) (ctx := j.context) (sd := sd) (now := now)
      (jobID := j.id) hid (hj.tasks t0 (by simp [hts])) (.inl (Nat.le_refl 1))
    generalize evalOrFail C j.context sd now (prepTask t0 id j.id 1 now) = t at hn hnid hnj hnc
    refine safe_createTask (by simp [hnid]) hn (fun e => safe_retJ hj.parent) ?_
    intro G1 hl hst hrel
    dsimp only
    refine safe_now fun n => ?_
    have hmem : j.id ∈ (id :: T).filter (· ≠ t.id) := by
      rw [List.mem_filter, hnid]
      refine ⟨by simp [hT], ?_⟩
      simp
      intro hc; rw [hc] at hT; exact hnT hT
    refine safe_start hmem (fun e => safe_retJ (hj.parent.mono hl)) ?_
    intro G2 hl2 hstart
    dsimp only
    have hp := hj.parent.mono (hl.trans hl2)
    have hm : HTask G2 t := by
      refine ⟨⟨hl2.st _ _ hst, ?_, hn.retry, hn.nested, hl2.rel _ (hrel hnc)⟩, hn.count⟩
      rw [hnj]; obtain ⟨p, hp, _⟩ := hstart; exact ⟨p, hp⟩
    split
    · refine safe_now fun n => ?_
      refine Safe.bind (Safe.le_post (safe_failJob hp) ?_)
      intro T' G' r hl' _
      exact safe_retJ (hp.mono hl')
    · refine Safe.bind (Safe.le_post (safe_pendingHandler hm) ?_)
      intro T' G' r hl' _
      exact safe_retJ (hp.mono hl')

theorem completeJobRow_parent {C : Cfg} {j r g u : Job} {sd n1 n2 : Nat}
    (h : completeJobRow C j sd n1 n2 r = .ok (g, u)) : g.parentID = j.parentID := by
  unfold completeJobRow at h
  split at h
  · simp at h
  · split at h
    · cases h; rfl
    · dsimp only at h
      split at h <;> (cases h; rfl)

theorem completeJobRow_state {C : Cfg} {j r g u : Job} {sd n1 n2 : Nat}
    (h : completeJobRow C j sd n1 n2 r = .ok (g, u)) (hg : g.state ≠ .failed) : u.state = .completed := by
  unfold completeJobRow at h
  split at h
  · simp at h
  · split at h
    · cases h; simp at hg
    · dsimp only at h
      split at h <;> (cases h; rfl)

theorem completeJobRow_ok {G : Ghost} {R : Prop} {C : Cfg} {j r g u : Job} {sd n1 n2 : Nat} (hi : JobInv G r)
    (hpast : r.tasks.length < r.position) (h : completeJobRow C j sd n1 n2 r = .ok (g, u)) :
    (PlainJob R r (persistJob r u) ∧ JobInv G (persistJob r u)) ∧ g.parentID = j.parentID := by
  unfold completeJobRow at h
  split at h
  · simp at h
  · rename_i hs
    have hs' : r.state = .scheduled ∨ r.state = .running := by
      by_cases h1 : r.state = .running
      · exact .inr h1
      · by_cases h2 : r.state = .scheduled
        · exact .inl h2
        · exact absurd ⟨h1, h2⟩ hs
    have hne : r.state ≠ .pending := by rcases hs' with h | h <;> rw [h] <;> simp
    split at h
    · cases h
      exact ⟨⟨⟨rfl, .inr ⟨hne, .fail hs'⟩, rfl, rfl⟩, hi.tasks, hi.parent, fun h => by simp [persistJob] at h,
      fun h => by simp [persistJob] at h, fun _ => hi.began hne⟩, rfl⟩
    · dsimp only at h
      split at h
      all_goals
        cases h
        exact ⟨⟨⟨rfl, .inr ⟨hne, .complete hs'⟩, rfl, rfl⟩, hi.tasks, hi.parent, fun h => by simp [persistJob] at h,
          fun _ => hpast, fun _ => hi.began hne⟩, rfl⟩

theorem safe_completeJob {C : Cfg} {j : Job} {T : List Nat} {G : Ghost} (hp : ParentOK G j.parentID)
    (hpast : G.past j.id) (hjp : G.jpar j.id j.parentID) :
    Safe rok (completeJob C j) T G jobPost := by
  simp only [completeJob, bind_eq, pure_eq]
  refine safe_now fun now => ?_
  refine safe_seed fun sd => ?_
  refine safe_now fun now2 => ?_
  refine safe_updJob (fun G1 r g u hl hr _ hps h => (completeJobRow_ok hr (hps (hl.past _ hpast)) h).1) (fun e => safe_retJ hp) ?_
  intro G1 r g u hl hr _ h hsd hjpar
  have hgp := completeJobRow_parent h
  have hpg : ParentOK G1 g.parentID := by rw [hgp]; exact hp.mono hl
  dsimp only
  split
  · rename_i h0
    refine safe_getTask (fun e => safe_retJ hpg) ?_
    intro G2 pt hl2 hpt hid
    dsimp only
    refine safe_now fun n => ?_
    have hm := parent_row hpg h0 hl2 hpt hid
    have hm' : ∀ b : Bool, HTask G2 (if g.state = .failed then
            { pt with state := .failed, failedAt := some n, error := g.error }
          else
            { pt with state := .completed, completedAt := some n, result := g.result }) := by
      intro _
      split
      · exact hm.upd rfl rfl hm.retry ⟨hm.nested.par, hm.nested.ea, hm.nested.sub⟩
      · exact hm.upd rfl rfl hm.retry ⟨hm.nested.par, hm.nested.ea, hm.nested.sub⟩
    have hkind : pt.static.isPar = false ∧ pt.static.isEach = false := by
      obtain ⟨s, h1, _, h3, h4, _⟩ := hpg h0
      have h5 := hpt.st
      rw [hid, hl2.st _ _ h1] at h5
      rw [← Option.some.inj h5]; exact ⟨h3, h4⟩
    have hq : QueueOK G2 QUEUE_COMPLETED (if g.state = .failed then
            { pt with state := .failed, failedAt := some n, error := g.error }
          else
            { pt with state := .completed, completedAt := some n, result := g.result }) := by
      split
      · exact queueOK_completed hm.zero fun h => by simp at h
      · rename_i hnf
        refine queueOK_completed hm.zero fun _ => ?_
        have hsub : G2.subDone pt.id := by
          have h1 := hsd (completeJobRow_state h hnf)
          rw [hjpar _ hjp, ← hgp] at h1
          rw [hid]; exact hl2.subDone _ h1
        exact ⟨fun h => by
          have h : pt.static.isPar = true ∨ pt.static.isEach = true := h
          rcases h with h | h <;> simp [hkind] at h, fun _ _ _ _ => hsub⟩
    refine safe_pub ⟨(hm' true).toMsgTask, hq⟩ rfl ?_
    intro r
    cases r with
    | error e => exact safe_retJ (hpg.mono hl2)
    | ok _ => exact safe_retJ (hpg.mono hl2)
  · refine safe_pub trivial rfl ?_
    intro r
    cases r with
    | error e => exact safe_retJ hpg
    | ok _ => exact safe_retJ hpg

theorem safe_markJobAsRunning {j : Job} {T : List Nat} {G : Ghost} :
    Safe rok (markJobAsRunning j) T G anyPost := by
  simp only [markJobAsRunning, bind_eq, pure_eq]
  refine safe_updJob' (fun G1 r _ hr _ => ?_) ?_
  · unfold markRunningRow
    split
    · exact ⟨⟨rfl, .inl rfl, rfl, rfl⟩, hr.tasks, hr.parent, hr.pend, hr.done, hr.began⟩
    · rename_i hs
      have hs : r.state = .scheduled := Classical.not_not.1 hs
      refine ⟨⟨rfl, .inr ⟨by rw [hs]; simp, ?_⟩, rfl, rfl⟩, hr.tasks, hr.parent, fun h => by simp [persistJob] at h,
      fun h => by simp [persistJob] at h, fun _ => hr.began (by rw [hs]; simp)⟩
      rw [hs]; exact .run
  · intro r
    cases r with
    | error e => exact fun _ _ => trivial
    | ok _ => exact fun _ _ => trivial

theorem safe_restartJob {C : Cfg} {j : Job} {T : List Nat} {G : Ghost} (hj : MsgJob rok G j)
    (hr : j.state = .restart) : Safe rok (restartJob C j) T G anyPost := by
  simp only [restartJob, bind_eq, pure_eq]
  obtain ⟨hok, hat⟩ := hj.restart hr
  refine safe_updJob ?_ (fun e => fun _ _ => trivial) ?_
  · intro G1 r g u hl hi _ _ h
    unfold restartJobRow at h
    split at h
    · simp at h
    · rename_i hs
      have hs' : r.state = .failed ∨ r.state = .cancelled := by
        by_cases h1 : r.state = .failed
        · exact .inl h1
        · by_cases h2 : r.state = .cancelled
          · exact .inr h2
          · exact absurd ⟨h1, h2⟩ hs
      cases h
      refine ⟨⟨rfl, .inr ⟨?_, .restart hok hs'⟩, rfl, rfl⟩, hi.tasks, hi.parent, fun h => by simp [persistJob] at h,
      fun h => by simp [persistJob] at h, fun _ => hi.began ?_⟩
      all_goals rcases hs' with h | h <;> rw [h] <;> simp
  · intro G1 r g u hl _ _ _ _ _
    dsimp only
    refine safe_now fun now => ?_
    split
    · trivial
    · split
      · trivial
      · rename_i t0 ht0
        refine safe_uuid fun id hid hnT => ?_
        refine safe_seed fun sd => ?_
        have hat1 := hat.mono hl
        obtain ⟨hn, hnid, hnj, hnc⟩ := newTask_top (G := G1) (C := C) (ctx := j.context) (sd := sd) (now := now)
          (jobID := j.id) hid (hj.tasks t0 (List.mem_of_getElem? ht0)) (.inr hat1)
        generalize evalOrFail C j.context sd now (prepTask t0 id j.id j.position now) = t at hn hnid hnj hnc
        refine safe_createTask (by simp [hnid]) hn (fun e => fun _ _ => trivial) ?_
        intro G2 hl2 hst hrel
        dsimp only
        refine safe_pub ⟨⟨hst, ?_, hn.retry, hn.nested, hrel hnc⟩, queueOK_pending hn.count⟩ rfl ?_
        · rw [hnj]; obtain ⟨p, hp, _⟩ := hat1.mono hl2; exact ⟨p, hp⟩
        · intro r
          cases r with
          | error e => exact fun _ _ => trivial
          | ok _ => exact fun _ _ => trivial

theorem safe_jobHandler {C : Cfg} {j : Job} {T : List Nat} {G : Ghost} (hj : MsgJob rok G j)
    (hT : j.state = .pending → j.id ∈ T) : Safe rok (jobHandler C j) T G jobPost := by
  unfold jobHandler
  have hret : ∀ {T' : List Nat} {G' : Ghost} {r : Res}, G.le G' →
      Safe rok (.ret (r, j)) T' G' jobPost := fun hl => safe_retJ (hj.parent.mono hl)
  split
  · rename_i hs; exact safe_startJob hj (hT hs)
  · exact Safe.bind (Safe.le_post (safe_cancelHandler j) fun _ _ _ hl _ => hret hl)
  · rename_i hs
    exact Safe.bind (Safe.le_post (safe_restartJob hj hs) fun _ _ _ hl _ => hret hl)
  · rename_i hs; exact absurd hs hj.notDone
  · exact Safe.bind (Safe.le_post (safe_failJob hj.parent) fun _ _ _ hl _ => hret hl)
  · exact Safe.bind (Safe.le_post safe_markJobAsRunning fun _ _ _ hl _ => hret hl)
  · exact safe_retJ hj.parent

theorem safe_wrapJob {C : Cfg} {j : Job} {T : List Nat} {G : Ghost} (hj : MsgJob rok G j)
    (hT : j.state = .pending → j.id ∈ T) : Safe rok (wrapJob C j) T G anyPost := by
  simp only [wrapJob, bind_eq, pure_eq]
  refine Safe.bind ((safe_jobHandler hj hT).mono ?_)
  intro T' G' x hx
  obtain ⟨r, j'⟩ := x
  cases r with
  | none => exact fun _ _ => trivial
  | some e =>
    refine safe_now fun now => ?_
    exact safe_failJob hx

/-! ## error.go -/

theorem safe_errorHandler {C : Cfg} {t : Task} {T : List Nat} {G : Ghost} (ht : HTask G t) :
    Safe rok (errorHandler C t) T G anyPost := by
  simp only [errorHandler, bind_eq, pure_eq]
  refine safe_getJobS (fun e => fun _ _ => trivial) ?_
  intro G1 j hl hj hjid _ hsi _ _
  dsimp only
  refine safe_now fun now => ?_
  refine safe_updTask (fun G2 r hl2 hr hrid => plain_fail _ _ hr) ?_
  intro r
  have ht1 := ht.mono hl
  cases r with
  | error e => exact fun _ _ => trivial
  | ok _ =>
    dsimp only
    split
    · rename_i hel
      refine safe_now fun now2 => ?_
      refine safe_uuid fun id hid hnT => ?_
      refine safe_seed fun sd => ?_
      generalize evaluateTemplate C.O ⟨j.context, none⟩ sd = tm
      have hs := hsi _ _ ht1.st
      have hcf := clone_frame { t with failedAt := some now }
      have hst := static_clone { t with failedAt := some now }
      have hnc := nested_clone (t := { t with failedAt := some now })
        ⟨ht.nested.par, ht.nested.ea, ht.nested.sub⟩
      have hnn : (retryTask { t with failedAt := some now } id now2).Nested := ⟨hnc.par, hnc.ea, hnc.sub⟩
      have hf := (evaluateTask_frame tm (retryTask { t with failedAt := some now } id now2)).1
      have hnew : NewTask G1 (evaluateTask tm (retryTask { t with failedAt := some now } id now2)).1 := by
        refine ⟨by rw [hf.id]; exact hid, ?_, ?_, ?_, nested_evaluate hnn, ?_, .inl (by rw [hf.state]; rfl),
          by rw [count_evaluate]; exact (count_clone { t with failedAt := some now }).trans ht.zero⟩
        · rw [hf.parentID, hf.jobID]
          show (Task.clone _).parentID ≠ 0 → ∃ sp, G1.st (Task.clone _).parentID = _ ∧ _ = (Task.clone _).jobID ∧
            G1.rel (Task.clone _).parentID
          rw [hcf.parentID, hcf.jobID]
          exact hs.parent
        · rw [hf.parentID, hf.jobID, hf.position]
          show (Task.clone _).parentID = 0 → (Task.clone _).position ≤ 1 ∨ G1.atLeast (Task.clone _).jobID (Task.clone _).position
          rw [hcf.parentID, hcf.jobID, hcf.position]
          exact hs.pos
        · intro r hr
          rw [hf.retry] at hr
          simp only [retryTask] at hr
          simp only [retryEligible, Bool.and_eq_true] at hel
          cases hre : t.retry with
          | none => rw [hre] at hr; simp at hr
          | some r0 =>
            rw [hre] at hr hel
            simp at hr hel
            rw [← hr]
            exact hel.2
        · intro _
          refine ⟨?_, by rw [hf.state]; simp [retryTask]⟩
          rw [hf.jobID]
          show G1.started (Task.clone _).jobID
          rw [hcf.jobID]
          exact ht1.started
      rcases hev : evaluateTask tm (retryTask { t with failedAt := some now } id now2) with ⟨et, err⟩
      rw [hev] at hf hnew
      cases err with
      | some err => exact fun _ _ => trivial
      | none =>
        dsimp only
        refine safe_createTask (by rw [hf.id]; simp [retryTask]) hnew (fun e => fun _ _ => trivial) ?_
        intro G2 hl2 hst2 hrel
        dsimp only
        refine safe_pub ⟨⟨hst2, ?_, hnew.retry, hnew.nested, hrel (by rw [hf.state]; simp [retryTask])⟩,
          queueOK_pending hnew.count⟩ rfl ?_
        · have : et.jobID = t.jobID := by
            rw [hf.jobID]; show (Task.clone _).jobID = _; rw [hcf.jobID]
          rw [this]; exact ht1.started.mono hl2
        · intro r; exact fun _ _ => trivial
    · exact safe_failJob hj.parent

theorem safe_wrapTask {C : Cfg} {h : Task → Prog (Res × Task)} {t : Task} {T : List Nat} {G : Ghost}
    (hh : Safe rok (h t) T G taskPost) : Safe rok (wrapTask C h t) T G anyPost := by
  simp only [wrapTask, bind_eq, pure_eq]
  refine Safe.bind (hh.mono ?_)
  intro T' G' x hx
  obtain ⟨r, t'⟩ := x
  have hx : HTask G' t' := hx
  cases r with
  | none => exact fun _ _ => trivial
  | some e =>
    refine safe_now fun now => ?_
    exact safe_errorHandler (hx.upd rfl rfl hx.retry ⟨hx.nested.par, hx.nested.ea, hx.nested.sub⟩)

/-! ## completed.go -/

theorem safe_completeTopLevel {C : Cfg} {t : Task} {T : List Nat} {G : Ghost} (ht : MsgTask G t)
    (hs : t.state = .completed ∨ t.state = .skipped) (hcomp : t.completedAt.isSome)
    (hmay : t.state = .completed → MayComplete G t.id t.static) (hp : t.parentID = 0) :
    Safe rok (completeTopLevelTask C t) T G anyPost := by
  simp only [completeTopLevelTask, bind_eq, pure_eq]
  refine safe_topTx ht hs hcomp hmay hp ?_
  intro r
  cases r with
  | error e => exact fun _ _ => trivial
  | ok _ =>
    dsimp only
    refine safe_getJobP (fun e => fun _ _ => trivial) ?_
    intro G1 j hl hj hjid hat _ hst hps hjp
    dsimp only
    have hne := hst ht.started
    have hat := hat hne
    refine safe_now fun now => ?_
    split
    · split
      · trivial
      · split
        · trivial
        · rename_i t0 ht0
          refine safe_uuid fun id hid hnT => ?_
          refine safe_seed fun sd => ?_
          rw [← hjid] at hat
          obtain ⟨hn, hnid, hnj, hnc⟩ := newTask_top (G := G1) (C := C) (ctx := j.context) (sd := sd) (now := now)
            (jobID := j.id) hid (hj.tasks t0 (List.mem_of_getElem? ht0)) (.inr hat)
          generalize evalOrFail C j.context sd now (prepTask t0 id j.id j.position now) = t' at hn hnid hnj hnc
          refine safe_createTask (by simp [hnid]) hn (fun e => fun _ _ => trivial) ?_
          intro G2 hl2 hst hrel
          dsimp only
          refine safe_pub ⟨⟨hst, ?_, hn.retry, hn.nested, hrel hnc⟩, queueOK_pending hn.count⟩ rfl ?_
          · rw [hnj]; obtain ⟨p, hp, _⟩ := hat.mono hl2; exact ⟨p, hp⟩
          · intro r
            cases r with
            | error e => exact fun _ _ => trivial
            | ok _ => exact fun _ _ => trivial
    · rename_i hgt
      refine Safe.bind ((safe_completeJob (j := { j with state := .completed, completedAt := some now })
        hj.parent (by show G1.past j.id; rw [hjid]; exact hps hne (Nat.not_le.1 hgt))
        (by show G1.jpar j.id j.parentID; rw [hjid]; exact hjp)).mono ?_)
      intro T' G' x _
      exact fun _ _ => trivial

theorem safe_completeTask {C : Cfg} (fuel : Nat) {t : Task} {T : List Nat} {G : Ghost} (ht : MsgTask G t)
    (hs : t.state = .completed ∨ t.state = .skipped) (hcomp : t.completedAt.isSome)
    (hmay : t.state = .completed → MayComplete G t.id t.static) :
    Safe rok (completeTask C fuel t) T G anyPost := by
  induction fuel generalizing t T G with
  | zero => trivial
  | succ fuel ih =>
    rw [completeTask]
    simp only [bind_eq, pure_eq]
    split
    · rename_i h0
      refine safe_getTaskS (fun e => fun _ _ => trivial) ?_
      intro G1 parent hl hpt hid hsi
      dsimp only
      have ht1 := ht.mono hl
      have hmay1 := fun h => (hmay h).mono hl
      have hrest : ∀ (G1 : Ghost) (r : Except Err Bool), MsgTask G1 t →
          (r = .ok true → G1.full t.parentID ∧ ∃ sp, G1.st t.parentID = some sp ∧ (sp.isPar = true ∨ sp.isEach = true)) →
          Safe rok
          (match r with
          | .error e => .ret (some (wrapErr "error completing task" e))
          | .ok isLast =>
            if isLast = true then
              (tx (getTask t.parentID)).bind fun x =>
                match x with
                | .error _ => .ret (some "error fetching the parent task")
                | .ok parent =>
                  Prog.now.bind fun now =>
                    completeTask C fuel { parent with state := .completed, completedAt := some now }
            else .ret none) T G1 anyPost := by
        intro G1 r ht1 hr
        cases r with
        | error e => exact fun _ _ => trivial
        | ok isLast =>
          dsimp only
          split
          · rename_i hlast
            obtain ⟨hfull, spk, hspk, hkind⟩ := hr (by rw [hlast])
            refine safe_getTaskS (fun e => fun _ _ => trivial) ?_
            intro G2 p hl2 hpp hpid hsi2
            dsimp only
            refine safe_now fun now => ?_
            refine ih ?_ (.inl rfl) rfl ?_
            rotate_left
            · intro _
              show MayComplete G2 p.id p.static
              have h5 := hpp.st
              rw [hpid, hl2.st _ _ hspk] at h5
              rw [← Option.some.inj h5, hpid]
              exact ⟨fun _ => hl2.full _ hfull, fun h6 h7 => by rcases hkind with h | h <;> simp_all⟩
            have ht2 := ht1.mono hl2
            obtain ⟨sp, h1, h2, hprel⟩ := (hsi2 _ _ ht2.st).parent h0
            have h3 := hpp.st
            rw [hpid] at h3
            have h1 : G2.st t.parentID = some sp := h1
            rw [h1] at h3
            have h3 := Option.some.inj h3
            refine ⟨hpp.st, ?_, hpp.retry, ⟨hpp.nested.par, hpp.nested.ea, hpp.nested.sub⟩, ?_⟩
            rotate_left
            · show G2.rel p.id
              rw [hpid]; exact hprel
            have : p.jobID = t.jobID := by
              have : sp.jobID = p.jobID := by rw [h3]; rfl
              rw [← this, h2]; rfl
            show G2.started p.jobID
            rw [this]; exact ht2.started
          · exact fun _ _ => trivial
      have hpst : G1.st t.parentID = some parent.static := by rw [← hid]; exact hpt.st
      by_cases hpar : parent.parallel.isSome = true
      · rw [if_pos hpar]
        refine safe_parTx ht1 hs hcomp hmay1 h0 (fun e => hrest _ (.error e) ht1 (by simp)) ?_
        intro G2 b hl2 hb
        refine hrest _ (.ok b) (ht1.mono hl2) fun h => ⟨hb (by simpa using h), _, hl2.st _ _ hpst, .inl hpar⟩
      · rw [if_neg hpar]
        refine safe_eachTx ht1 hs hcomp hmay1 h0 ⟨_, hpst, by simpa [Task.static] using hpar⟩
          (fun e => hrest _ (.error e) ht1 (by simp)) ?_
        intro G2 b hl2 hb hsp
        obtain ⟨sp, h1, h2⟩ := hsp
        exact hrest _ (.ok b) (ht1.mono hl2) fun h => ⟨hb (by simpa using h), sp, h1, .inr h2⟩
    · rename_i h0
      exact safe_completeTopLevel ht hs hcomp hmay (Classical.not_not.1 h0)

theorem safe_completedHandler {C : Cfg} (fuel : Nat) {t : Task} {T : List Nat} {G : Ghost} (ht : HTask G t)
    (hmay : t.state = .completed → MayComplete G t.id t.static) :
    Safe rok (completedHandler C fuel t) T G taskPost := by
  simp only [completedHandler, bind_eq, pure_eq]
  refine safe_now fun now => ?_
  split
  · exact safe_retT ht
  · rename_i hs
    have hs' : t.state = .completed ∨ t.state = .skipped := by
      by_cases h1 : t.state = .completed
      · exact .inl h1
      · by_cases h2 : t.state = .skipped
        · exact .inr h2
        · exact absurd ⟨h1, h2⟩ hs
    have ht2 : HTask G { t with completedAt := some now } :=
      ht.upd rfl rfl ht.retry ⟨ht.nested.par, ht.nested.ea, ht.nested.sub⟩
    refine Safe.bind (Safe.le_post (safe_completeTask fuel ht2.toMsgTask hs' rfl hmay) ?_)
    intro T' G' r hl _
    exact safe_retT (ht2.mono hl)

/-! ## started.go, progress.go, redelivered.go -/

theorem safe_startedHandler {t : Task} {T : List Nat} {G : Ghost} (ht : HTask G t) :
    Safe rok (startedHandler t) T G taskPost := by
  simp only [startedHandler, bind_eq, pure_eq]
  refine safe_getJob (fun e => safe_retT ht) ?_
  intro G1 j hl hj _ _
  dsimp only
  have ht1 := ht.mono hl
  split
  · have ht2 : HTask G1 { t with state := .cancelled } :=
      ht1.upd rfl rfl ht1.retry ⟨ht1.nested.par, ht1.nested.ea, ht1.nested.sub⟩
    refine safe_getNode (fun e => safe_retT ht2) ?_
    intro node hq
    dsimp only
    refine safe_pub ⟨ht2.toMsgTask, queueOK_node hq (by simp)⟩ rfl ?_
    intro r
    cases r with
    | error e => exact safe_retT ht2
    | ok _ => exact safe_retT ht2
  · have hrest : ∀ (G2 : Ghost) (r : Res) (T' : List Nat), G1.le G2 → Safe rok
        (match r with
        | some e => .ret (some e, t)
        | none => Prog.now.bind fun now =>
          (tx (updateTask' t.id (startedRow now t.nodeID))).bind fun x =>
            match x with
            | .error e => .ret (some e, t)
            | .ok _ => .ret (none, t)) T' G2 taskPost := by
      intro G2 r T' hl2
      have ht2 := ht1.mono hl2
      cases r with
      | some e => exact safe_retT ht2
      | none =>
        refine safe_now fun now => ?_
        refine safe_updTask (fun G3 r hl3 hr hrid => plain_started _ _ hr ?_) ?_
        · have h1 := (ht2.mono hl3).st
          rw [← hrid, hr.st] at h1
          have h1 := congrArg Static.jobID (Option.some.inj h1)
          have h1 : r.jobID = t.jobID := h1
          refine ⟨by rw [h1]; exact (ht2.mono hl3).started, by rw [hrid]; exact (ht2.mono hl3).rel⟩
        · intro r
          cases r with
          | error e => exact safe_retT ht2
          | ok _ => exact safe_retT ht2
    split
    · refine Safe.bind (Safe.le_post safe_markJobAsRunning ?_)
      intro T' G2 r hl2 _
      exact hrest G2 r T' hl2
    · exact hrest G1 none T (.refl G1)

theorem safe_progressHandler {t : Task} {T : List Nat} {G : Ghost} (ht : HTask G t) :
    Safe rok (progressHandler t) T G taskPost := by
  simp only [progressHandler, bind_eq, pure_eq]
  have ht2 : HTask G { t with progress := clampProgress t.progress } :=
    ht.upd rfl rfl ht.retry ⟨ht.nested.par, ht.nested.ea, ht.nested.sub⟩
  refine safe_updTask (fun G3 r hl3 hr hrid => plain_progress _ hr) ?_
  intro r
  cases r with
  | error e => exact safe_retT ht2
  | ok _ =>
    dsimp only
    refine safe_getJob (fun e => safe_retT ht2) ?_
    intro G1 j hl hj _ _
    dsimp only
    have ht3 := ht2.mono hl
    refine safe_updJob' (fun G1 r _ hr _ => ⟨⟨rfl, .inl rfl, rfl, rfl⟩, hr.tasks, hr.parent, hr.pend, hr.done, hr.began⟩) ?_
    intro r
    cases r with
    | error e => exact safe_retT ht3
    | ok _ => exact safe_retT ht3

theorem safe_redeliveredHandler {t : Task} {T : List Nat} {G : Ghost} (ht : HTask G t) (hpl : t.static.plain) :
    Safe rok (redeliveredHandler t) T G anyPost := by
  simp only [redeliveredHandler, bind_eq, pure_eq]
  split
  · refine safe_now fun now => ?_
    refine safe_pub ⟨ht.toMsgTask.upd rfl rfl ht.retry ⟨ht.nested.par, ht.nested.ea, ht.nested.sub⟩, queueOK_error ht.zero⟩ rfl ?_
    intro r
    cases r with
    | error e => exact fun _ _ => trivial
    | ok _ => exact fun _ _ => trivial
  · refine safe_pub ⟨ht.toMsgTask.upd rfl rfl ht.retry ⟨ht.nested.par, ht.nested.ea, ht.nested.sub⟩,
      queueOK_plain (t := { t with redelivered := t.redelivered + 1 }) hpl⟩ rfl ?_
    intro r
    cases r with
    | error e => exact fun _ _ => trivial
    | ok _ => exact fun _ _ => trivial

theorem safe_coordinator {C : Cfg} {fuel : Nat} {m : Msg} {p : Prog Res} {G : Ghost} (hm : MsgOK rok G m)
    (hp : coordinatorHandler C fuel m = some p) : Safe rok p m.tokens G anyPost := by
  unfold coordinatorHandler at hp
  split at hp
  · rename_i q t
    have ht : MsgTask G t := hm.1
    have hq : QueueOK G q t := hm.2
    have hz : ∀ {q' : String}, q = q' → isExclusiveQueue q' = false → HTask G t := fun h1 h2 =>
      ⟨ht, hq.zero (by rw [h1]; exact h2)⟩
    split at hp
    · rename_i hr; cases hp; exact safe_redeliveredHandler (hz hr (by decide +kernel)) (hq.work (.inr hr))
    · split at hp
      · rename_i hc; cases hp; exact safe_wrapTask (safe_pendingHandler (hz hc (by decide +kernel)))
      · split at hp
        · rename_i hc; cases hp; exact safe_wrapTask (safe_completedHandler fuel (hz hc (by decide +kernel)) (hq.done hc))
        · split at hp
          · rename_i hc; cases hp; exact safe_wrapTask (safe_startedHandler (hz hc (by decide +kernel)))
          · split at hp
            · rename_i hc
              cases hp
              have ht := hz hc (by decide +kernel)
              refine safe_wrapTask ?_
              simp only [errorHandlerT, bind_eq, pure_eq]
              exact Safe.bind (Safe.le_post (safe_errorHandler ht) fun _ _ _ hl _ => safe_retT (ht.mono hl))
            · simp at hp
  · rename_i j
    cases hp
    exact safe_wrapJob hm fun hs => by simp [Msg.tokens, startTokens, hs]
  · rename_i t
    cases hp
    exact safe_wrapTask (safe_progressHandler ⟨hm.1, hm.2⟩)
  · simp at hp

end Tork
