import Verif.FlowOps2
/-! Every handler discharges its obligations: cancelling, failing and completing jobs, scheduling. -/

namespace Tork.Flow
open Prog Calm

variable {C : Cfg} {H : Nat} {α : Type} {T : List Nat} {o : List Ob} {s : DS}

/-- All obligations are discharged. -/
abbrev fin {α : Type} : List Nat → List Ob → DS → α → Prop := fun _ o _ _ => o = []

theorem PubOK.counts {o o' ms : List Ob} (h : ∀ x, o.count x ≤ (o' ++ ms).count x) : PubOK o o' ms :=
  ⟨fun J hJ => by
    have h1 := h (.doom J)
    have := List.count_pos_iff.2 hJ
    exact List.count_pos_iff.1 (by omega), fun x => .inr (h (.tok x))⟩

/-- Handing a task to the error handler discharges its token. -/
theorem PubOK.err {t u : Task} (h : tgt u = tgt t) : PubOK [.tok (tgt t)] [] (toks C (.task QUEUE_ERROR u)) := by
  classical
  rw [toks_error]
  by_cases ht : Total C
  · have : errOb C u = .tok (tgt t) := by unfold errOb; rw [if_pos ht, h]
    rw [this]; exact .all fun _ => Nat.le_refl _
  · have : errOb C u = .doom u.jobID := by unfold errOb; rw [if_neg ht]
    rw [this]
    refine .doom (J := u.jobID) (by simp) fun x hx => ?_
    rw [List.mem_singleton.1 hx]
    show (tgt t).1 = _
    rw [← h]; rfl

/-- Without total evaluation it discharges all the tokens of the job. -/
theorem PubOK.errAll {u : Task} (ht : ¬ Total C) (h : ∀ x ∈ o, x.job = u.jobID) : PubOK o [] (toks C (.task QUEUE_ERROR u)) := by
  classical
  rw [toks_error]
  have : errOb C u = .doom u.jobID := by unfold errOb; rw [if_neg ht]
  rw [this]
  exact .doom (J := u.jobID) (by simp) h

theorem PubOK.tok {t u : Task} (h : tgt u = tgt t) : PubOK [.tok (tgt t)] [] [.tok (tgt u)] := by
  rw [h]; exact .all fun _ => Nat.le_refl _

/-! ## cancel.go -/

theorem msgJob_of_row {ds : DS} (hi : Inv C H ds) {n : Nat} {j : Job} (hj : ds.job? n = some j) {st : JobState}
    (hst : st = .cancelled ∨ st = .restart ∧ j.state ≠ .pending ∧ j.position ≤ j.tasks.length) :
    MsgJob C H ds { j with state := st } := by
  have hg := hi.jobs _ _ hj
  have hid := (job?_mem hj).2
  refine ⟨⟨hg.reg.nonempty, hg.reg.tasks, hg.reg.queue, hg.reg.retry⟩, ⟨j, ?_, rfl⟩, ?_, fun hp => ?_, fun hr => ?_⟩
  · show ds.job? j.id = _; rw [hid]; exact hj
  · rcases hst with h | ⟨h, _⟩
    · exact .inr (.inl h)
    · exact .inr (.inr h)
  · show Started ds j.id
    rw [hid]
    exact ⟨j, hj, fun h => hp (hg.pos0 h)⟩
  · have hr : st = .restart := hr
    rcases hst with h | ⟨_, h1, h2⟩
    · rw [h] at hr; cases hr
    · exact ⟨hg.pos h1, h2⟩

theorem good_cancelLoop (ts : List Task) (h : ∀ t ∈ ts, Loose C H s t) : Good C H (cancelLoop ts) T [] s fin := by
  induction ts generalizing s with
  | nil => exact fun _ _ => rfl
  | cons t ts ih =>
    have ht := h t (by simp)
    have hts : ∀ {s1 : DS}, Le s s1 → ∀ x ∈ ts, Loose C H s1 x := fun hl x hx => (h x (by simp [hx])).mono hl
    rw [cancelLoop]
    simp only [bind_eq, pure_eq]
    refine good_updTask' ht.1 (fun _ => rfl) (fun _ => rfl) (fun _ => rfl) (fun _ h => h) (fun _ h => h) (.inr fun _ => rfl) ?_
    intro s1 hl
    have ht1 := ht.mono hl
    dsimp only
    split
    · refine good_getJob? (fun ds e _ => fun _ _ => rfl) fun ds sj hl2 hi hsj => ?_
      dsimp only
      exact good_pub (m := .job _) (msgJob_of_row hi hsj (.inl rfl)) [] (.keep _ _) (ih (hts (hl.trans hl2)))
    · split
      · rename_i h0 hn
        have hmsg : MsgTask C H s1 t := ht1.2.resolve_right fun hx => hn hx.1
        refine good_getNode fun s2 r hl2 => ?_
        cases r with
        | error e => exact fun _ _ => rfl
        | ok node =>
          dsimp only
          exact good_pubT ((hmsg.mono hl2).upd rfl rfl rfl rfl rfl rfl rfl rfl) [] (.keep _ _) (ih (hts (hl.trans hl2)))
      · exact ih (hts hl)

theorem good_cancelActiveTasks {id : Nat} : Good C H (cancelActiveTasks id) T [] s fin := by
  simp only [cancelActiveTasks, bind_eq, pure_eq]
  exact good_getActive fun ds ts hl hts => good_cancelLoop ts hts

/-- Closing a job with an update that cannot fail. -/
theorem good_killJob' {id : Nat} {m : Job → Job} {k : Except Err Unit → Prog α} {post : List Nat → List Ob → DS → α → Prop}
    (hid : HasJob s id) (ho : o = [] ∨ Started s id ∧ ∀ x ∈ o, x.job = id)
    (hm : ∀ r, (m r).position = r.position ∧ ((m r).state = r.state ∧ r.state ≠ .scheduled ∧ r.state ≠ .running ∨
      (r.state = .scheduled ∨ r.state = .running) ∧ ((m r).state = .failed ∨ (m r).state = .cancelled)))
    (h : ∀ ds r s' o', Le s ds → ds.job? id = some r → Le ds s' → ParentTok s' r o' → Good C H (k (.ok ())) T o' s' post) :
    Good C H ((tx (updateJob' id m)).bind k) T o s post := by
  refine good_killJob (m := fun r => .ok ((), m r)) hid ho fun ds r hd hi hr => ⟨fun e he => (by cases he), fun g u hu => ?_⟩
  cases hu
  obtain ⟨h1, h2⟩ := hm r
  have hst := (hi.jobs _ _ hr).state
  refine ⟨h1, fun hp => ?_, fun hp => ?_, ?_, ?_, ?_, fun s' o' hl hpt => h ds r s' o' hd hr hl hpt⟩
  all_goals rcases h2 with ⟨h2, h3, h4⟩ | ⟨h2, h3 | h3⟩
  all_goals first
    | (rw [h3]; trivial)
    | (rw [h2]; assumption)
    | (rcases h2 with h2 | h2 <;> rw [hp] at h2 <;> cases h2)
    | (rw [h3]; simp)

theorem kill_cancel (r : Job) : (cancelJobRow r).position = r.position ∧
    ((cancelJobRow r).state = r.state ∧ r.state ≠ .scheduled ∧ r.state ≠ .running ∨
      (r.state = .scheduled ∨ r.state = .running) ∧ ((cancelJobRow r).state = .failed ∨ (cancelJobRow r).state = .cancelled)) := by
  unfold cancelJobRow
  split
  · rename_i h; exact ⟨rfl, .inl ⟨rfl, h.2, h.1⟩⟩
  · rename_i h
    refine ⟨rfl, .inr ⟨?_, .inr rfl⟩⟩
    by_cases h1 : r.state = .running
    · exact .inr h1
    · left; exact Classical.byContradiction fun h2 => h ⟨h1, h2⟩

theorem kill_fail (f : Option Nat) (r : Job) : (failJobRow f r).position = r.position ∧
    ((failJobRow f r).state = r.state ∧ r.state ≠ .scheduled ∧ r.state ≠ .running ∨
      (r.state = .scheduled ∨ r.state = .running) ∧ ((failJobRow f r).state = .failed ∨ (failJobRow f r).state = .cancelled)) := by
  unfold failJobRow
  split
  · rename_i h; exact ⟨rfl, .inr ⟨h.symm, .inl rfl⟩⟩
  · rename_i h; exact ⟨rfl, .inl ⟨rfl, fun h1 => h (.inr h1), fun h1 => h (.inl h1)⟩⟩

theorem good_cancelHandler {j : Job} (hj : MsgJob C H s j) (ho : o = [] ∨ Started s j.id ∧ ∀ x ∈ o, x.job = j.id) :
    Good C H (cancelHandler j) T o s fin := by
  simp only [cancelHandler, bind_eq, pure_eq]
  refine good_killJob' hj.hasJob ho kill_cancel fun ds r s1 o' hl hr hl1 hpt => ?_
  obtain ⟨r0, h0, h1⟩ := hj.row
  obtain ⟨r1, h2, h3, _⟩ := hl.jobs _ _ h0
  rw [hr] at h2; cases h2
  have hpar : r.parentID = j.parentID := h3.trans h1
  dsimp only
  by_cases hp : j.parentID = 0
  · rw [if_neg (by simp [hp]), hpt.top (hpar.trans hp)]
    exact good_cancelActiveTasks
  · rw [if_pos hp]
    obtain ⟨S, k1, k2, k3⟩ := hpt.sub (by rw [hpar]; exact hp)
    rw [hpar] at k1
    refine good_getTask ⟨S, k1⟩ fun s2 pt hl2 _ hpt => ?_
    dsimp only
    obtain ⟨S', k4, k5⟩ := hl2.tasks _ _ k1
    rw [hpt] at k4; cases k4
    have hst : Started s2 pt.jobID := by rw [k5.job]; exact hl2.started k3
    refine good_getJob (started_job hst) fun s3 pj hl3 hi3 hpj => ?_
    dsimp only
    have hpjid := (job?_mem hpj).2
    have hpos : pj.position ≠ 0 := by
      obtain ⟨x, hx, hne⟩ := hl3.started hst
      rw [hpj] at hx; cases hx
      have := (hi3.jobs _ _ hpj).pos hne
      omega
    refine good_pub (m := .job _) (msgJob_of_row hi3 hpj (.inl rfl)) [] ?_ good_cancelActiveTasks
    have htk : toks C (.job { pj with state := .cancelled }) = [.doom pj.id] := by
      show (if JobState.cancelled = .pending then [Ob.tok (pj.id, 0)] else if JobState.cancelled = .cancelled ∧ pj.position ≠ 0 then [Ob.doom pj.id] else []) = _
      rw [if_neg (by simp), if_pos ⟨rfl, hpos⟩]
    rw [htk, k2]
    refine .doom (J := pj.id) (by simp) fun x hx => ?_
    rw [List.mem_singleton.1 hx, hpjid]
    exact k5.job.symm

/-! ## job.go: failJob -/

theorem good_failJob {j : Job} (hj : ∃ r, s.job? j.id = some r ∧ r.parentID = j.parentID)
    (ho : o = [] ∨ Started s j.id ∧ ∀ x ∈ o, x.job = j.id) : Good C H (failJob j) T o s fin := by
  simp only [failJob, bind_eq, pure_eq]
  obtain ⟨r0, h0, h1⟩ := hj
  have hrow : HasJob s j.id := ⟨r0, h0⟩
  refine good_killJob' hrow ho (kill_fail _) fun ds r s1 o' hl hr hl1 hpt => ?_
  obtain ⟨r1, h2, h3, _⟩ := hl.jobs _ _ h0
  rw [hr] at h2; cases h2
  have hpar : r.parentID = j.parentID := h3.trans h1
  dsimp only
  by_cases hp : j.parentID = 0
  · rw [if_neg (by simp [hp]), hpt.top (hpar.trans hp)]
    refine Good.seq good_cancelActiveTasks ?_
    rintro T' o' s2 r hl2 rfl
    cases r with
    | some e => exact fun _ _ => rfl
    | none =>
      dsimp only
      refine good_getJob (((hl.trans hl1).trans hl2).hasJob hrow) fun s3 j' hl3 _ _ => ?_
      dsimp only
      split
      · exact good_pub trivial [] (.keep _ _) fun _ _ => rfl
      · exact fun _ _ => rfl
  · rw [if_pos hp]
    obtain ⟨S, k1, k2, k3⟩ := hpt.sub (by rw [hpar]; exact hp)
    rw [hpar] at k1
    refine good_getTask ⟨S, k1⟩ fun s2 pt hl2 hi2 hpt => ?_
    dsimp only
    obtain ⟨S', k4, k5⟩ := hl2.tasks _ _ k1
    rw [hpt] at k4; cases k4
    have hst : Started s2 pt.jobID := by rw [k5.job]; exact hl2.started k3
    have htg : tgt pt = tgt S := by unfold tgt; rw [k5.job, k5.parent]
    rw [k2, ← htg]
    exact good_pubT ((hi2.msg hpt hst).upd rfl rfl rfl rfl rfl rfl rfl rfl) [] (.err rfl) fun _ _ => rfl

/-! ## job.go: completeJob -/

theorem completeJobRow_ok {j r g u : Job} {sd now now2 : Nat} (h : completeJobRow C j sd now now2 r = .ok (g, u)) :
    (u.state = .completed ∨ u.state = .failed) ∧ u.position = r.position ∧ g.parentID = j.parentID ∧
      (r.state = .scheduled ∨ r.state = .running) := by
  unfold completeJobRow at h
  split at h
  · cases h
  · rename_i hst
    have hs : r.state = .scheduled ∨ r.state = .running := by
      by_cases h1 : r.state = .running
      · exact .inr h1
      · left; exact Classical.byContradiction fun h2 => hst ⟨h1, h2⟩
    split at h
    · cases h; exact ⟨.inr rfl, rfl, rfl, hs⟩
    · dsimp only at h
      split at h <;> cases h <;> exact ⟨.inl rfl, rfl, rfl, hs⟩

theorem completeJobRow_err {j r : Job} {sd now now2 : Nat} {e : Err} (h : completeJobRow C j sd now now2 r = .error e) :
    r.state ≠ .scheduled ∧ r.state ≠ .running := by
  unfold completeJobRow at h
  split at h
  · rename_i hst; exact hst.symm
  · split at h
    · cases h
    · dsimp only at h
      split at h <;> cases h

theorem good_completeJob {j : Job} (hj : ∃ r, s.job? j.id = some r ∧ r.parentID = j.parentID)
    (ho : o = [] ∨ Started s j.id ∧ ∀ x ∈ o, x.job = j.id) : Good C H (completeJob C j) T o s fin := by
  simp only [completeJob, bind_eq, pure_eq]
  refine good_now fun now => ?_
  refine good_seed fun sd => ?_
  refine good_now fun now2 => ?_
  obtain ⟨r0, h0, h1⟩ := hj
  have hrow : HasJob s j.id := ⟨r0, h0⟩
  refine good_killJob hrow ho fun ds r hd hi hr => ?_
  obtain ⟨r1, h2, h3, _⟩ := hd.jobs _ _ h0
  rw [hr] at h2; cases h2
  have hpar : r.parentID = j.parentID := h3.trans h1
  refine ⟨fun e he => ⟨(completeJobRow_err he).1, (completeJobRow_err he).2, fun _ _ => rfl⟩, fun g u hu => ?_⟩
  obtain ⟨hst, hpos, hgp, hrs⟩ := completeJobRow_ok hu
  refine ⟨hpos, fun hp => ?_, fun _ => ?_, ?_, ?_, ?_, fun s1 o' hl1 hpt => ?_⟩
  · rcases hrs with h | h <;> rw [hp] at h <;> cases h
  · rcases hst with h | h <;> rw [h] <;> simp
  · rcases hst with h | h <;> rw [h] <;> trivial
  · rcases hst with h | h <;> rw [h] <;> simp
  · rcases hst with h | h <;> rw [h] <;> simp
  dsimp only
  by_cases hp : j.parentID = 0
  · rw [if_neg (by simp [hgp, hp]), hpt.top (hpar.trans hp)]
    exact good_pub trivial [] (.keep _ _) fun _ _ => rfl
  · rw [if_pos (by rw [hgp]; exact hp)]
    obtain ⟨S, k1, k2, k3⟩ := hpt.sub (by rw [hpar]; exact hp)
    rw [hpar] at k1
    rw [hgp]
    refine good_getTask ⟨S, k1⟩ fun s2 pt hl2 hi2 hpt => ?_
    dsimp only
    refine good_now fun n => ?_
    obtain ⟨S', k4, k5⟩ := hl2.tasks _ _ k1
    rw [hpt] at k4; cases k4
    have hst : Started s2 pt.jobID := by rw [k5.job]; exact hl2.started k3
    have htg : tgt pt = tgt S := by unfold tgt; rw [k5.job, k5.parent]
    rw [k2, ← htg]
    have hm := hi2.msg hpt hst
    split
    · exact good_pubT (hm.upd rfl rfl rfl rfl rfl rfl rfl rfl) [] (by rw [toks_completed]; exact .tok rfl) fun _ _ => rfl
    · exact good_pubT (hm.upd rfl rfl rfl rfl rfl rfl rfl rfl) [] (by rw [toks_completed]; exact .tok rfl) fun _ _ => rfl

/-! ## Tasks about to be created -/

theorem sound_new {n : Nat} {t0 : Task} (h : Sound C n t0) (hv : Virgin t0) (ctx : JobContext) (sd now id jobID pos : Nat) :
    let t := evalOrFail C ctx sd now (prepTask t0 id jobID pos now)
    Sound C n t ∧ Virgin t ∧ t.id = id ∧ t.jobID = jobID ∧ t.createdAt.isSome := by
  have h1 : Sound C n (prepTask t0 id jobID pos now) := h.upd h.queue h.retry rfl rfl rfl
  have h2 := sound_evaluate h1 ⟨ctx, none⟩ sd
  have hf := (evaluateTask_frame (evaluateTemplate C.O ⟨ctx, none⟩ sd) (prepTask t0 id jobID pos now)).1
  have hs := subRef_evaluate (evaluateTemplate C.O ⟨ctx, none⟩ sd) (prepTask t0 id jobID pos now)
  have hv1 : Virgin (evaluateTask (evaluateTemplate C.O ⟨ctx, none⟩ sd) (prepTask t0 id jobID pos now)).1 :=
    ⟨hf.parentID.trans hv.parent, hf.nodeID.trans hv.node, hs.trans hv.sub⟩
  have hc : (evaluateTask (evaluateTemplate C.O ⟨ctx, none⟩ sd) (prepTask t0 id jobID pos now)).1.createdAt.isSome := by
    rw [hf.createdAt]; rfl
  dsimp only
  unfold evalOrFail
  rcases he : evaluateTask (evaluateTemplate C.O ⟨ctx, none⟩ sd) (prepTask t0 id jobID pos now) with ⟨t, e⟩
  rw [he] at h2 hf hc hv1
  cases e with
  | none => exact ⟨h2, hv1, hf.id, hf.jobID, hc⟩
  | some e => exact ⟨h2.upd h2.queue h2.retry rfl rfl rfl, ⟨hv1.parent, hv1.node, hv1.sub⟩, hf.id, hf.jobID, hc⟩

/-! ## scheduler.go and pending.go -/

/-- What job-level defaults preserve. -/
def Plain (C : Cfg) (t : Task) : Prop := LiteralQueue t.queue ∧ RetryFine C t.retry

theorem sound_defaults {H n : Nat} {j : Job} {t : Task} (hj : SoundJob C H j) (ht : Sound C n t) :
    Sound C n (applyDefaults j.defaults t) ∧ WorkQueue (applyDefaults j.defaults t).queue := by
  have hq : ∀ (x : Task), Plain C x → Plain C (defQueue QUEUE_DEFAULT x) ∧ WorkQueue (defQueue QUEUE_DEFAULT x).queue := by
    intro x hx
    unfold defQueue
    split
    · exact ⟨⟨defaultQueue_work.1, hx.2⟩, defaultQueue_work.2⟩
    · rename_i hne
      exact ⟨hx, hx.1.2.resolve_left hne⟩
  have ht0 : Plain C t := ⟨ht.queue, ht.retry⟩
  have key : Plain C (applyDefaults j.defaults t) ∧ WorkQueue (applyDefaults j.defaults t).queue := by
    unfold applyDefaults
    cases hd : j.defaults with
    | none => exact hq t ht0
    | some d =>
      have h1 : Plain C (defQueue d.queue t) := by
        unfold defQueue; split
        · exact ⟨hj.queue d hd, ht0.2⟩
        · exact ht0
      have h2 : Plain C (defLimits d.limits (defQueue d.queue t)) := by
        unfold defLimits; split <;> exact h1
      have h3 : Plain C (defTimeout d.timeout (defLimits d.limits (defQueue d.queue t))) := by
        generalize defLimits d.limits (defQueue d.queue t) = x at h2
        unfold defTimeout; split <;> exact h2
      have h4 : Plain C (defRetry d.retry (defTimeout d.timeout (defLimits d.limits (defQueue d.queue t)))) := by
        generalize defTimeout d.timeout (defLimits d.limits (defQueue d.queue t)) = x at h3
        have hr := hj.retry d hd
        unfold defRetry; split
        · exact h3
        · rename_i dr hdr
          refine ⟨h3.1, ?_⟩
          rcases hr with hr | hr
          · exact .inl hr
          · rcases h3.2 with h | h
            · exact .inl h
            · right
              intro y hy
              cases hy
              cases hx : x.retry with
              | none => simp [hr dr hdr]
              | some r0 => simp [h r0 hx, hr dr hdr]
      have h5 : Plain C (defPriority d.priority (defRetry d.retry (defTimeout d.timeout (defLimits d.limits (defQueue d.queue t))))) := by
        generalize defRetry d.retry (defTimeout d.timeout (defLimits d.limits (defQueue d.queue t))) = x at h4
        unfold defPriority; split <;> exact h4
      exact hq _ h5
  have hf := applyDefaults_frame j.defaults t
  exact ⟨ht.upd key.1.1 key.1.2 hf.par hf.ea hf.sub, key.2⟩

theorem defaults_parent (d : Option JobDefaults) (t : Task) : (applyDefaults d t).parentID = t.parentID := by
  have := (applyDefaults_frame d t).st
  exact congrArg Static.parentID this

/-- The handler succeeds and everything is carried on. -/
abbrev done : List Nat → List Ob → DS → Res × Task → Prop := fun _ o _ x => x.1 = none ∧ o = []

theorem good_scheduleRegular {t : Task} (ht : MsgTask C H s t) :
    Good C H (scheduleRegularTask t) T [.tok (tgt t)] s done := by
  simp only [scheduleRegularTask, bind_eq, pure_eq]
  refine good_now fun now => ?_
  refine good_getJob ht.hasJob fun s1 j hl hi hj => ?_
  dsimp only
  have ht1 := ht.mono hl
  obtain ⟨d, n, ha, hs, hn⟩ := ht1.sound
  obtain ⟨h1, h2⟩ := sound_defaults (hi.jobs _ _ hj).reg hs
  have hf := applyDefaults_frame j.defaults t
  have hp := defaults_parent j.defaults t
  have htg : tgt (applyDefaults j.defaults t) = tgt t := by unfold tgt; rw [hf.jobID, hp]
  obtain ⟨r, hr, hsame⟩ := ht1.row
  have hmsg : MsgTask C H s1 (applyDefaults j.defaults t) := by
    refine ⟨⟨r, by rw [hf.id]; exact hr, hsame.trans ⟨hf.id, hf.jobID, hp, ?_, ?_⟩⟩, ⟨d, n, by rw [hf.id]; exact ha, h1, hn⟩,
      by rw [hf.jobID]; exact ht1.started⟩
    · unfold width; rw [hf.par]
    · unfold conc; rw [hf.ea]
  rw [← htg]
  generalize applyDefaults j.defaults t = x at hmsg h2
  obtain ⟨d', n', _, hsx, _⟩ := hmsg.sound
  refine good_updTask' hmsg.hasTask (fun _ => rfl) (fun _ => rfl) (fun _ => rfl) (fun _ _ => hsx.queue) (fun _ _ => hsx.retry)
    (.inr fun _ => rfl) ?_
  intro s2 hl2
  dsimp only
  refine good_pubT ((hmsg.mono hl2).upd rfl rfl rfl rfl rfl rfl rfl rfl) [] ?_ fun _ _ => ⟨rfl, rfl⟩
  rw [toks_task (.inr (.inr (.inr h2))) (fun hq => by
    have := h2.1
    have hq : x.queue = QUEUE_ERROR := hq
    rw [hq] at this; revert this; decide +kernel)]
  exact .tok rfl

theorem good_skipTask {t : Task} (ht : MsgTask C H s t) : Good C H (skipTask t) T [.tok (tgt t)] s done := by
  simp only [skipTask, bind_eq, pure_eq]
  refine good_now fun now => ?_
  refine good_updTask' ht.hasTask (fun _ => rfl) (fun _ => rfl) (fun _ => rfl) (fun _ h => h) (fun _ h => h) (.inr fun _ => rfl) ?_
  intro s1 hl
  dsimp only
  exact good_pubT ((ht.mono hl).upd rfl rfl rfl rfl rfl rfl rfl rfl) [] (by rw [toks_completed]; exact .tok rfl)
    fun _ _ => ⟨rfl, rfl⟩

/-! ### Parallel tasks -/

theorem good_failToErrorQueue {t : Task} {e : Err} (ht : MsgTask C H s t)
    (ho : o = [.tok (tgt t)] ∨ ¬ Total C ∧ ∀ x ∈ o, x.job = t.jobID) : Good C H (failToErrorQueue t e) T o s done := by
  simp only [failToErrorQueue, bind_eq, pure_eq]
  refine good_pubT (ht.upd rfl rfl rfl rfl rfl rfl rfl rfl) [] ?_ fun _ _ => ⟨rfl, rfl⟩
  rcases ho with rfl | ⟨h1, h2⟩
  · exact .err rfl
  · exact .errAll h1 h2

theorem pub_child {t u : Task} {n : Nat} (h : tgt u = (t.jobID, t.id)) :
    PubOK (List.replicate (n + 1) (.tok (t.jobID, t.id))) (List.replicate n (.tok (t.jobID, t.id))) [.tok (tgt u)] := by
  refine .counts fun x => ?_
  rw [h, List.replicate_succ, List.count_cons, List.count_append, List.count_cons, List.count_nil]
  omega

theorem replicate_job {t : Task} {n : Nat} : ∀ x ∈ List.replicate n (Ob.tok (t.jobID, t.id)), x.job = t.jobID :=
  fun x hx => by rw [List.eq_of_mem_replicate hx]; rfl

/-- A child of a composite task. -/
theorem child_anc {t c : Task} {d : Nat} (ht : MsgTask C H s t) (ha : Anc s d t.id) (hu : ∀ m, Used s m → m < c.id) (h0 : t.id ≠ 0)
    (hp : c.parentID = t.id) (hj : c.jobID = t.jobID) (hw : (width t).isSome ∨ (conc t).isSome) : NewAnc s (d + 1) c := by
  obtain ⟨r, hr, hsame⟩ := ht.row
  refine ⟨by rw [hp]; exact h0, by rw [hp]; exact hu _ (.inl ⟨r, hr⟩), r, by rw [hp]; exact hr, by rw [hj]; exact hsame.job.symm,
    by rw [← hsame.width, ← hsame.conc]; exact hw, by rw [hp]; exact ha⟩

theorem NewAnc.mono {s s' : DS} (hl : Le s s') {d : Nat} {t : Task} (h : NewAnc s d t) : NewAnc s' d t := by
  cases d with
  | zero => exact h
  | succ d =>
    obtain ⟨k1, k2, p, k3, k4, k5, k6⟩ := h
    obtain ⟨p', k7, k8⟩ := hl.tasks _ _ k3
    exact ⟨k1, k2, p', k7, by rw [k8.job]; exact k4, by rw [k8.width, k8.conc]; exact k5, k6.mono hl⟩

theorem good_parLoop {t : Task} {j : Job} {now d k : Nat} (pts : List Task) (ht : MsgTask C H s t) (hj : j.id = t.jobID)
    (ha : Anc s d t.id) (h0 : t.id ≠ 0) (hw : (width t).isSome) (hk : d + 1 + k ≤ H) (hs : ∀ x ∈ pts, Sound C k x) :
    Good C H (parLoop C t j now pts) T (List.replicate pts.length (.tok (t.jobID, t.id))) s done := by
  induction pts generalizing s T with
  | nil => rw [parLoop]; exact fun _ _ => ⟨rfl, rfl⟩
  | cons pt pts ih =>
    rw [parLoop]
    simp only [bind_eq, pure_eq]
    refine good_uuid fun id hid hnT hu => ?_
    refine good_seed fun sd => ?_
    have hs0 := hs pt (by simp)
    have hs1 : Sound C k (parChild t pt j.id id now) := hs0.upd hs0.queue hs0.retry rfl rfl rfl
    have hs2 := sound_evaluate hs1 ⟨j.context, none⟩ sd
    have hf := (evaluateTask_frame (evaluateTemplate C.O ⟨j.context, none⟩ sd) (parChild t pt j.id id now)).1
    have htot := fun h : Total C => evaluate_total h ⟨j.context, none⟩ sd (parChild t pt j.id id now)
    rcases hev : evaluateTask (evaluateTemplate C.O ⟨j.context, none⟩ sd) (parChild t pt j.id id now) with ⟨c, err⟩
    rw [hev] at hs2 hf htot
    have hcid : c.id = id := hf.id
    have hcj : c.jobID = t.jobID := hf.jobID.trans hj
    have hcp : c.parentID = t.id := hf.parentID
    cases err with
    | some e => exact good_failToErrorQueue ht (.inr ⟨fun h => (by cases htot h), replicate_job⟩)
    | none =>
      dsimp only
      have hanc := child_anc ht ha (by rw [hcid]; exact hu) h0 hcp hcj (.inl hw)
      refine good_createTask (by rw [hcid]; simp) (by rw [hcj]; exact ht.hasJob) (by rw [hf.createdAt]; rfl)
        ⟨d + 1, k, hanc, hs2, hk⟩ (by rw [hcj, hcid]; exact hu _ (.inr ht.hasJob)) (.inl (by rw [hcj]; exact ht.started)) ?_
      intro s1 hl hmsg
      dsimp only
      have ht1 := ht.mono hl
      refine good_pubT (hmsg s1 (.refl _) (by rw [hcj]; exact ht1.started)) (List.replicate pts.length (.tok (t.jobID, t.id))) ?_
        (ih ht1 (ha.mono hl) fun x hx => hs x (by simp [hx]))
      rw [toks_pending]
      exact pub_child (by unfold tgt; rw [hcj, hcp])

theorem MsgTask.id_ne {t : Task} (ht : MsgTask C H s t) (hi : Inv C H s) : t.id ≠ 0 := by
  obtain ⟨r, hr, _⟩ := ht.row
  have := (hi.tasks _ _ hr).job
  have := (task?_mem hr).2
  omega

theorem good_schedulePar {t : Task} {p : ParallelTask Task} (ht : MsgTask C H s t) (hp : t.parallel = some p) :
    Good C H (scheduleParallelTask C t p) T [.tok (tgt t)] s done := by
  simp only [scheduleParallelTask, bind_eq, pure_eq]
  refine good_now fun now => ?_
  obtain ⟨d, n, ha, hs, hn⟩ := ht.sound
  cases n with
  | zero => exact hs.elim
  | succ n =>
    obtain ⟨_, _, hs3, _, _⟩ := hs
    obtain ⟨hne, hall⟩ := hs3 p hp
    refine good_open (n := p.tasks.length) ht (fun ds r hl hi hr hsame hst => ⟨?_, ?_⟩) ?_
    · exact taskUpd_of rfl rfl rfl (fun h => h) (fun h => h) (.inl hst)
    · have hw : width r = some p.tasks.length := by rw [← hsame.width]; unfold width; rw [hp]; rfl
      unfold width at hw
      cases hrp : r.parallel with
      | none => rw [hrp] at hw; cases hw
      | some q =>
        rw [hrp] at hw
        have hw : some q.tasks.length = some p.tasks.length := hw
        have hw := Option.some.inj hw
        have : absorbRow (persistTask r (parRow now r)) = q.tasks.length - 1 - q.completions := by
          rw [absorb_persist (r := r) (u := parRow now r) rfl rfl]; unfold absorbRow; rw [hrp]
        rw [this, hw]
        have := List.length_pos_iff.2 hne
        omega
    · intro s1 hl
      dsimp only
      have ht1 := ht.mono hl
      refine good_getJob ht1.hasJob fun s2 j hl2 hi hj => ?_
      have hjid := (job?_mem hj).2
      have ht2 := ht1.mono hl2
      dsimp only
      exact good_parLoop p.tasks ht2 hjid (ha.mono (hl.trans hl2)) (ht2.id_ne hi) (by unfold width; rw [hp]; rfl) (by omega) hall

end Tork.Flow
