import Verif.Calm
import Verif.Props.Eval
/-! Every handler, API endpoint and worker discharges its obligations. -/

namespace Tork.Calm
open Prog

variable {C : Cfg} {T o : List Nat} {s : DS}

/-- All obligations are discharged. -/
abbrev fin {α : Type} : List Nat → List Nat → DS → α → Prop := fun _ o _ _ => o = []

theorem regular_persist {r u : Task} (hr : Regular C r) (hu : Regular C { u with parentID := 0 }) :
    Regular C (persistTask r u) := ⟨hu.par, hu.each, hu.sub, hr.parent, hu.queue, hu.retry⟩

/-! ## cancel.go -/

theorem good_cancelLoop (ts : List Task) (h : ∀ t ∈ ts, MsgTask C s t) : Good C (cancelLoop ts) T [] s fin := by
  induction ts generalizing s with
  | nil => exact fun _ _ => rfl
  | cons t ts ih =>
    have ht := h t (by simp)
    have hts : ∀ {s1 : DS}, Le s s1 → ∀ x ∈ ts, MsgTask C s1 x := fun hl x hx => (h x (by simp [hx])).mono hl
    rw [cancelLoop]
    simp only [bind_eq, pure_eq]
    refine good_updTask ht.row (fun r hr => ⟨hr.par, hr.each, hr.sub, hr.parent, hr.queue, hr.retry⟩) ?_
    intro s1 hl
    dsimp only
    split
    · rename_i h0; exact absurd (by unfold subJobRef; rw [ht.reg.sub]) h0
    · split
      · refine good_getNode fun s2 r hl2 => ?_
        cases r with
        | error e => exact fun _ _ => rfl
        | ok node =>
          dsimp only
          have ht2 := ht.mono (hl.trans hl2)
          refine good_pub ⟨⟨ht2.reg.par, ht2.reg.each, ht2.reg.sub, ht2.reg.parent, ht2.reg.queue, ht2.reg.retry⟩,
            ht2.row, ht2.started⟩ [] (fun _ h => absurd h List.not_mem_nil) ?_
          exact ih (hts (hl.trans hl2))
      · exact ih (hts hl)

theorem good_cancelActiveTasks {id : Nat} (hs : Started s id) : Good C (cancelActiveTasks id) T [] s fin := by
  simp only [cancelActiveTasks, bind_eq, pure_eq]
  refine good_getActive fun ds ts hl hts => ?_
  refine good_cancelLoop ts fun t ht => ?_
  obtain ⟨h1, h2, h3⟩ := hts t ht
  exact ⟨h1, h2, by rw [h3]; exact hl.started _ hs⟩

/-- An update of a job row that does not make it live, keeps the position, and never turns it PENDING. -/
theorem good_updJob' {α : Type} {post : List Nat → List Nat → DS → α → Prop} {id : Nat} {m : Job → Job}
    {k : Except Err Unit → Prog α} (hid : HasJob s id)
    (hm : ∀ r, (m r).position = r.position ∧ ((m r).state = r.state ∨ r.state ≠ .pending ∧ (m r).state ≠ .pending ∧
      JobState.proper (m r).state ∧
      ((m r).state = .scheduled ∨ (m r).state = .running → r.state = .scheduled ∨ r.state = .running)))
    (o' : List Nat) (hoth : ∀ n ∈ o, n ≠ id → n ∈ o')
    (hdone : id ∈ o → id ∈ o' ∨ (∀ ds r, Le s ds → ds.job? id = some r →
      ¬ ((m r).state = .pending ∨ (m r).state = .scheduled ∨ (m r).state = .running)))
    (h : ∀ s', Le s s' → Good C (k (.ok ())) T o' s' post) : Good C ((tx (updateJob' id m)).bind k) T o s post := by
  refine good_updJob hid fun ds r hl hi hr => ⟨fun e he => by simp at he, fun g u hu => ?_⟩
  cases hu
  obtain ⟨hp, hst⟩ := hm r
  have hg := hi.jobs _ _ hr
  refine ⟨o', ?_, ?_, ?_, hoth, ?_, fun s' hl' _ => h s' (hl.trans hl')⟩
  · intro hs; rw [hp]
    rcases hst with h | h
    · exact hg.pos (by rw [← h]; exact hs)
    · exact hg.pos h.1
  · rcases hst with h | h
    · rw [h]; exact hg.state
    · exact h.2.2.1
  · intro hs
    rcases hst with h | h
    · rw [h]; exact hs
    · exact h.2.1
  · intro hlive hor
    rcases hor with hor | hor
    · rcases hdone hor with h | h
      · exact h
      · exact absurd hlive (h ds r hl hr)
    · exfalso; apply hor
      rcases hst with h | h
      · rw [← h]; exact hlive
      · rcases hlive with h1 | h1
        · exact absurd h1 h.2.1
        · exact .inr (h.2.2.2 h1)

theorem cancelJobRow_state (r : Job) : (cancelJobRow r).position = r.position ∧ ((cancelJobRow r).state = r.state ∨
    r.state ≠ .pending ∧ (cancelJobRow r).state ≠ .pending ∧ JobState.proper (cancelJobRow r).state ∧
    ((cancelJobRow r).state = .scheduled ∨ (cancelJobRow r).state = .running → r.state = .scheduled ∨ r.state = .running)) := by
  unfold cancelJobRow
  split
  · exact ⟨rfl, .inl rfl⟩
  · rename_i h
    refine ⟨rfl, .inr ⟨fun hp => h ?_, by simp, trivial, by simp⟩⟩
    rw [hp]; simp

theorem good_cancelHandler {j : Job} (hj : MsgJob C s j) (hs : Started s j.id) : Good C (cancelHandler j) T [] s fin := by
  simp only [cancelHandler, bind_eq, pure_eq]
  refine good_updJob' hj.row cancelJobRow_state [] (fun _ h => absurd h List.not_mem_nil)
    (fun h => absurd h List.not_mem_nil) ?_
  intro s1 hl
  dsimp only
  rw [if_neg (Classical.not_not.2 hj.reg.parent)]
  exact good_cancelActiveTasks (hl.started _ hs)

/-! ## job.go: failJob -/

theorem failJobRow_state (f : Option Nat) (r : Job) : (failJobRow f r).position = r.position ∧
    ((failJobRow f r).state = r.state ∨
    r.state ≠ .pending ∧ (failJobRow f r).state ≠ .pending ∧ JobState.proper (failJobRow f r).state ∧
    ((failJobRow f r).state = .scheduled ∨ (failJobRow f r).state = .running → r.state = .scheduled ∨ r.state = .running)) := by
  unfold failJobRow
  split
  · rename_i h
    refine ⟨rfl, .inr ⟨fun hp => ?_, by simp, trivial, by simp⟩⟩
    rw [hp] at h; simp at h
  · exact ⟨rfl, .inl rfl⟩

theorem good_failJob {j : Job} (hp : j.parentID = 0) (hs : Started s j.id) (ho : ∀ n ∈ o, n = j.id) :
    Good C (failJob j) T o s fin := by
  simp only [failJob, bind_eq, pure_eq]
  have hrow : HasJob s j.id := by obtain ⟨r, hr, _⟩ := hs; exact ⟨r, hr⟩
  refine good_updJob' hrow (failJobRow_state _) [] (fun n hn hne => absurd (ho n hn) hne) (fun _ => .inr ?_) ?_
  · intro ds r hl hr
    obtain ⟨r', hr', hne⟩ := hl.started _ hs
    rw [hr] at hr'; cases hr'
    unfold failJobRow
    split
    · simp
    · rename_i h
      rintro (h1 | h1 | h1)
      · exact hne h1
      · exact h (.inr h1)
      · exact h (.inl h1)
  · intro s1 hl
    dsimp only
    rw [if_neg (Classical.not_not.2 hp)]
    refine Good.seq (good_cancelActiveTasks (hl.started _ hs)) ?_
    intro T' o' s2 r hl2 ho'
    cases ho'
    cases r with
    | some e => exact fun _ _ => rfl
    | none =>
      dsimp only
      refine good_getJob ((hl.trans hl2).jobs _ hrow) fun s3 j' hl3 _ _ => ?_
      dsimp only
      split
      · exact good_pub trivial [] (fun _ h => absurd h List.not_mem_nil) fun _ _ => rfl
      · exact fun _ _ => rfl

/-! ## Evaluation -/

theorem literal_eval {q : String} (h : LiteralQueue q) (c : Ctx) (sd : Nat) :
    evaluateTemplate C.O c sd q = .ok q := C28_plain_text C.O c sd q h.1

theorem evalTaskStart_queue {tm : String → Except Err String} {t : Task} (h : tm t.queue = .ok t.queue) :
    (evalTaskStart tm t).1.queue = t.queue := by
  unfold evalTaskStart
  split
  · rfl
  · split
    · rfl
    · split
      · rfl
      · rw [h]; dsimp only
        split
        · rfl
        · split <;> rfl

theorem evalTaskEnd_queue (tm : String → Except Err String) (t : Task) : (evalTaskEnd tm t).1.queue = t.queue := by
  unfold evalTaskEnd
  split
  · rfl
  · split <;> rfl

theorem evaluateTask_queue {tm : String → Except Err String} {t : Task} (h : tm t.queue = .ok t.queue) :
    (evaluateTask tm t).1.queue = t.queue := by
  rw [evaluateTask_eq]
  have hs := evalTaskStart_queue h
  rcases hst : evalTaskStart tm t with ⟨t1, e1⟩
  rw [hst] at hs
  cases e1 with
  | some e => exact hs
  | none =>
    dsimp only
    rcases evalTasks tm t.pre with ⟨pre, e2⟩
    cases e2 with
    | some e => exact hs
    | none =>
      dsimp only
      rcases evalTasks tm t.post with ⟨post, e3⟩
      cases e3 with
      | some e => exact hs
      | none =>
        dsimp only
        rcases evalPar tm t.parallel with ⟨par, e4⟩
        cases e4 with
        | some e => exact hs
        | none => exact (evalTaskEnd_queue _ _).trans hs

theorem regular_evaluate {t : Task} (h : Regular C t) (c : Ctx) (sd : Nat) :
    Regular C (evaluateTask (evaluateTemplate C.O c sd) t).1 := by
  have hf := (evaluateTask_frame (evaluateTemplate C.O c sd) t).1
  have hq := evaluateTask_queue (literal_eval (C := C) h.queue c sd)
  refine ⟨?_, ?_, ?_, ?_, ?_, ?_⟩
  · have := hf.par; rw [h.par] at this; simpa using this
  · rw [hf.each]; exact h.each
  · have := hf.sub; rw [h.sub] at this; simpa using this
  · rw [hf.parentID]; exact h.parent
  · rw [hq]; exact h.queue
  · rw [hf.retry]; exact h.retry

/-- A top-level task about to be created. -/
theorem regular_new {t0 : Task} (h : Regular C t0) (ctx : JobContext) (sd now id jobID pos : Nat) :
    let t := evalOrFail C ctx sd now (prepTask t0 id jobID pos now)
    Regular C t ∧ t.id = id ∧ t.jobID = jobID ∧ t.createdAt.isSome := by
  have h1 : Regular C (prepTask t0 id jobID pos now) := ⟨h.par, h.each, h.sub, h.parent, h.queue, h.retry⟩
  have h2 := regular_evaluate h1 ⟨ctx, none⟩ sd
  have hf := (evaluateTask_frame (evaluateTemplate C.O ⟨ctx, none⟩ sd) (prepTask t0 id jobID pos now)).1
  have hc : (evaluateTask (evaluateTemplate C.O ⟨ctx, none⟩ sd) (prepTask t0 id jobID pos now)).1.createdAt.isSome := by
    rw [hf.createdAt]; rfl
  dsimp only
  unfold evalOrFail
  rcases he : evaluateTask (evaluateTemplate C.O ⟨ctx, none⟩ sd) (prepTask t0 id jobID pos now) with ⟨t, e⟩
  rw [he] at h2 hf hc
  cases e with
  | none => exact ⟨h2, hf.id, hf.jobID, hc⟩
  | some e => exact ⟨⟨h2.par, h2.each, h2.sub, h2.parent, h2.queue, h2.retry⟩, hf.id, hf.jobID, hc⟩

theorem template_total (ht : Total C) (c : Ctx) (sd : Nat) (x : String) : ∃ y, evaluateTemplate C.O c sd x = .ok y := by
  have key : ∀ ts, ∃ r, evalToks (evaluateExpr C.O c sd) ts = .ok r := by
    intro ts
    induction ts with
    | nil => exact ⟨[], rfl⟩
    | cons a ts ih =>
      obtain ⟨r, hr⟩ := ih
      cases a with
      | lit ch => exact ⟨ch :: r, by rw [evalToks, hr]⟩
      | expr e =>
        obtain ⟨v, hv⟩ := ht (String.ofList (sanitizeExpr (String.ofList e).toList)) c sd
        refine ⟨v.text.toList ++ r, ?_⟩
        rw [evalToks]
        have : evaluateExpr C.O c sd (String.ofList e) = .ok v := hv
        rw [this, hr]
  obtain ⟨r, hr⟩ := key (tokens x.toList)
  exact ⟨String.ofList r, by unfold evaluateTemplate; rw [hr]⟩

theorem evaluate_total (ht : Total C) (c : Ctx) (sd : Nat) (t : Task) :
    (evaluateTask (evaluateTemplate C.O c sd) t).2 = none := by
  obtain ⟨g, hg⟩ := Classical.axiomOfChoice (template_total ht c sd)
  rw [evaluateTask_ok (g := g) t fun x _ => hg x]

/-! ## scheduler.go and pending.go -/

theorem literal_defQueue {q : String} {t : Task} (hq : LiteralQueue q) (ht : LiteralQueue t.queue) :
    LiteralQueue (defQueue q t).queue := by
  unfold defQueue; split
  · exact hq
  · exact ht

theorem defaultQueue_work : LiteralQueue QUEUE_DEFAULT ∧ WorkQueue QUEUE_DEFAULT := by
  have : WorkQueue QUEUE_DEFAULT := ⟨by decide +kernel, by decide +kernel⟩
  exact ⟨⟨by decide +kernel, .inr this⟩, this⟩

theorem regular_defaults {j : Job} {t : Task} (hj : RegularJob C j) (ht : Regular C t) :
    Regular C (applyDefaults j.defaults t) ∧ WorkQueue (applyDefaults j.defaults t).queue ∧
    (applyDefaults j.defaults t).id = t.id ∧ (applyDefaults j.defaults t).jobID = t.jobID := by
  have hq : ∀ (x : Task), Regular C x → Regular C (defQueue QUEUE_DEFAULT x) ∧ WorkQueue (defQueue QUEUE_DEFAULT x).queue := by
    intro x hx
    unfold defQueue
    split
    · exact ⟨⟨hx.par, hx.each, hx.sub, hx.parent, defaultQueue_work.1, hx.retry⟩, defaultQueue_work.2⟩
    · rename_i hne
      exact ⟨hx, hx.queue.2.resolve_left hne⟩
  have hf := applyDefaults_frame j.defaults t
  refine ⟨?_, ?_, hf.id, hf.jobID⟩ <;> unfold applyDefaults <;> cases hd : j.defaults with
    | none => first | exact (hq t ht).1 | exact (hq t ht).2
    | some d =>
      have h1 : Regular C (defQueue d.queue t) := by
        unfold defQueue; split
        · exact ⟨ht.par, ht.each, ht.sub, ht.parent, hj.queue d hd, ht.retry⟩
        · exact ht
      have h2 : Regular C (defLimits d.limits (defQueue d.queue t)) := by
        unfold defLimits; split
        · exact h1
        · exact ⟨h1.par, h1.each, h1.sub, h1.parent, h1.queue, h1.retry⟩
      have h3 : Regular C (defTimeout d.timeout (defLimits d.limits (defQueue d.queue t))) := by
        generalize defLimits d.limits (defQueue d.queue t) = x at h2
        unfold defTimeout; split
        · exact ⟨h2.par, h2.each, h2.sub, h2.parent, h2.queue, h2.retry⟩
        · exact h2
      have h4 : Regular C (defRetry d.retry (defTimeout d.timeout (defLimits d.limits (defQueue d.queue t)))) := by
        generalize defTimeout d.timeout (defLimits d.limits (defQueue d.queue t)) = x at h3
        have hr := hj.retry d hd
        unfold defRetry; split
        · exact h3
        · rename_i dr hdr
          refine ⟨h3.par, h3.each, h3.sub, h3.parent, h3.queue, ?_⟩
          rcases hr with hr | hr
          · exact .inl hr
          · rcases h3.retry with h | h
            · exact .inl h
            · right
              intro y hy
              cases hy
              cases hx : x.retry with
              | none => simp [hr dr hdr]
              | some r0 => simp [h r0 hx, hr dr hdr]
      have h5 : Regular C (defPriority d.priority (defRetry d.retry (defTimeout d.timeout (defLimits d.limits (defQueue d.queue t))))) := by
        generalize defRetry d.retry (defTimeout d.timeout (defLimits d.limits (defQueue d.queue t))) = x at h4
        unfold defPriority; split
        · exact ⟨h4.par, h4.each, h4.sub, h4.parent, h4.queue, h4.retry⟩
        · exact h4
      first | exact (hq _ h5).1 | exact (hq _ h5).2

/-- The handler succeeds and the job is carried on. -/
abbrev done : List Nat → List Nat → DS → Res × Task → Prop := fun _ o _ x => x.1 = none ∧ o = []

theorem mem_toks {q : String} {t : Task} (h : Carries q) (ho : ∀ n ∈ o, n = t.jobID) :
    ∀ n ∈ o, n ∈ ([] : List Nat) ∨ n ∈ toks (.task q t) := by
  intro n hn
  right
  rw [toks_task h, ho n hn]
  exact List.mem_singleton.2 rfl

theorem good_scheduleRegular {t : Task} (ht : MsgTask C s t) (ho : ∀ n ∈ o, n = t.jobID) :
    Good C (scheduleRegularTask t) T o s done := by
  simp only [scheduleRegularTask, bind_eq, pure_eq]
  refine good_now fun now => ?_
  have hrow : HasJob s t.jobID := by obtain ⟨r, hr, _⟩ := ht.started; exact ⟨r, hr⟩
  refine good_getJob hrow fun s1 j hl hi hj => ?_
  dsimp only
  obtain ⟨h1, h2, h3, h4⟩ := regular_defaults (hi.jobs _ _ hj).reg ht.reg
  have ht1 := ht.mono hl
  generalize applyDefaults j.defaults t = x at h1 h2 h3 h4
  have hx : Regular C { x with state := .scheduled, scheduledAt := some now } :=
    ⟨h1.par, h1.each, h1.sub, h1.parent, h1.queue, h1.retry⟩
  refine good_updTask (by show HasTask s1 x.id; rw [h3]; exact ht1.row) (fun r hr =>
    ⟨hr.par, hr.each, hr.sub, hr.parent, h1.queue, h1.retry⟩) ?_
  intro s2 hl2
  dsimp only
  have ht2 := ht1.mono hl2
  refine good_pub (⟨hx, by show HasTask s2 x.id; rw [h3]; exact ht2.row, by show Started s2 x.jobID; rw [h4]; exact ht2.started⟩ : MsgTask C s2 _)
    [] (mem_toks (.inr (.inr (.inr h2))) ?_) fun _ _ => ⟨rfl, rfl⟩
  intro n hn; exact (ho n hn).trans h4.symm

theorem good_skipTask {t : Task} (ht : MsgTask C s t) (ho : ∀ n ∈ o, n = t.jobID) :
    Good C (skipTask t) T o s done := by
  simp only [skipTask, bind_eq, pure_eq]
  refine good_now fun now => ?_
  refine good_updTask ht.row (fun r hr => ⟨hr.par, hr.each, hr.sub, hr.parent, hr.queue, hr.retry⟩) ?_
  intro s1 hl
  dsimp only
  have ht1 := ht.mono hl
  refine good_pub ⟨⟨ht1.reg.par, ht1.reg.each, ht1.reg.sub, ht1.reg.parent, ht1.reg.queue, ht1.reg.retry⟩,
            ht1.row, ht1.started⟩ [] (mem_toks (.inr (.inl rfl)) ho) fun _ _ => ⟨rfl, rfl⟩

theorem good_pendingHandler {t : Task} (ht : MsgTask C s t) (ho : ∀ n ∈ o, n = t.jobID) :
    Good C (pendingHandler C t) T o s done := by
  unfold pendingHandler
  split
  · exact good_skipTask ht ho
  · unfold scheduleTask
    rw [ht.reg.par]; dsimp only
    rw [ht.reg.each]; dsimp only
    rw [ht.reg.sub]
    exact good_scheduleRegular ht ho

/-! ## job.go -/

theorem good_startJob {j : Job} (hj : MsgJob C s j) :
    Good C (startJob C j) T [j.id] s fun _ o s x => o = [] ∧ x.2.id = j.id ∧ x.2.parentID = 0 ∧ Started s j.id := by
  simp only [startJob, bind_eq, pure_eq]
  refine good_now fun now => ?_
  cases hts : j.tasks with
  | nil => exact absurd hts hj.reg.nonempty
  | cons t0 rest =>
    dsimp only
    refine good_uuid fun id hid hnT => ?_
    refine good_seed fun sd => ?_
    obtain ⟨hn, hnid, hnj, hc⟩ := regular_new (hj.reg.tasks t0 (by simp [hts])) j.context sd now id j.id 1
    generalize evalOrFail C j.context sd now (prepTask t0 id j.id 1 now) = t at hn hnid hnj hc
    refine good_createTask (by simp [hnid]) (by rw [hnj]; exact hj.row) hc hn fun s1 hl hrow => ?_
    dsimp only
    refine good_now fun n => ?_
    refine good_updJob (hl.jobs _ hj.row) fun ds r hl1 hi hr => ⟨fun e he => by simp at he, fun g u hu => ?_⟩
    cases hu
    refine ⟨[j.id], fun _ => Nat.le_refl 1, trivial, fun _ => by simp [startJobRow], fun n hn _ => hn,
      fun _ _ => List.mem_singleton.2 rfl, fun s2 hl2 hst => ?_⟩
    have hst := hst (by simp [startJobRow])
    dsimp only
    split
    · refine good_now fun n => ?_
      refine Good.seq (good_failJob (j := { j with failedAt := some n, state := .failed, error := t.error })
        hj.reg.parent hst (fun n hn => List.mem_singleton.1 hn)) ?_
      intro T' o' s3 r' hl3 ho
      exact fun s4 hl4 => ⟨ho, rfl, hj.reg.parent, (hl3.trans hl4).started _ hst⟩
    · have hle := hl1.trans hl2
      refine Good.seq (good_pendingHandler (t := t) ⟨hn, hle.tasks _ hrow, by rw [hnj]; exact hst⟩
        (fun n hn => by rw [hnj]; exact List.mem_singleton.1 hn)) ?_
      intro T' o' s3 x hl3 ho
      exact fun s4 hl4 => ⟨ho.2, rfl, hj.reg.parent, (hl3.trans hl4).started _ hst⟩

theorem good_restartJob {j : Job} (hj : MsgJob C s j) (hs : j.state = .restart) : Good C (restartJob C j) T [] s fin := by
  simp only [restartJob, bind_eq, pure_eq]
  obtain ⟨hp1, hp2⟩ := hj.restart hs
  refine good_updJob hj.row fun ds r hl hi hr => ⟨fun e he => ⟨[], fun _ h => absurd h List.not_mem_nil, fun _ _ => rfl⟩,
    fun g u hu => ?_⟩
  have hg := hi.jobs _ _ hr
  unfold restartJobRow at hu
  split at hu
  · simp at hu
  · rename_i hst
    cases hu
    have hne : r.state ≠ .pending := by
      intro h; rw [h] at hst; simp at hst
    refine ⟨[j.id], fun _ => hg.pos hne, trivial, fun _ => by simp, fun n hn _ => absurd hn List.not_mem_nil,
      fun _ _ => List.mem_singleton.2 rfl, fun s2 hl2 hst2 => ?_⟩
    have hst2 := hst2 (by simp)
    dsimp only
    refine good_now fun now => ?_
    rw [if_neg (by omega)]
    have hlt : j.position - 1 < j.tasks.length := by omega
    rw [List.getElem?_eq_getElem hlt]
    dsimp only
    refine good_uuid fun id hid hnT => ?_
    refine good_seed fun sd => ?_
    obtain ⟨hn, hnid, hnj, hc⟩ := regular_new (hj.reg.tasks _ (List.getElem_mem hlt)) j.context sd now id j.id j.position
    generalize evalOrFail C j.context sd now (prepTask j.tasks[j.position - 1] id j.id j.position now) = t at hn hnid hnj hc
    have hrow2 := hl2.jobs _ (hl.jobs _ hj.row)
    refine good_createTask (by simp [hnid]) (by rw [hnj]; exact hrow2) hc hn fun s3 hl3 hrow => ?_
    dsimp only
    refine good_pub (⟨hn, hrow, by rw [hnj]; exact hl3.started _ hst2⟩ : MsgTask C s3 t) []
      (mem_toks (.inl rfl) fun n hn => by rw [hnj]; exact List.mem_singleton.1 hn) fun _ _ => rfl

theorem good_wrapJob {j : Job} (hj : MsgJob C s j) : Good C (wrapJob C j) T (toks (.job j)) s fin := by
  simp only [wrapJob, bind_eq, pure_eq]
  have hend : ∀ (T' : List Nat) (s' : DS) (j' : Job) (r : Res), Started s' j.id → j'.id = j.id → j'.parentID = 0 →
      Good C (match r with
        | none => Prog.ret none
        | some _ => Prog.now.bind fun now => failJob { j' with failedAt := some now, state := .failed }) T' [] s' fin := by
    intro T' s' j' r h1 h2 h3
    cases r with
    | none => exact fun _ _ => rfl
    | some e =>
      refine good_now fun now => ?_
      exact good_failJob h3 (by show Started s' j'.id; rw [h2]; exact h1) fun _ h => absurd h List.not_mem_nil
  rcases hj.state with h | h | h
  · have : toks (.job j) = [j.id] := by
      show (if j.state = .pending then [j.id] else []) = _
      rw [if_pos h]
    rw [this]
    unfold jobHandler
    rw [h]
    refine Good.seq (good_startJob hj) ?_
    rintro T' o' s' ⟨r, j'⟩ hl ⟨rfl, h1, h2, h3⟩
    exact hend T' s' j' r h3 h1 h2
  · have : toks (.job j) = [] := by
      show (if j.state = .pending then [j.id] else []) = _
      rw [if_neg (by rw [h]; simp)]
    rw [this]
    have hs := hj.started (by rw [h]; simp)
    unfold jobHandler
    rw [h]
    refine Good.seq (Good.seq (good_cancelHandler hj hs) ?_ (post := fun _ o s x => o = [] ∧ x.2 = j)) ?_
    · rintro T' o' s' r hl rfl
      exact fun _ _ => ⟨rfl, rfl⟩
    · rintro T' o' s' ⟨r, j'⟩ hl ⟨rfl, h1⟩
      have h1 : j' = j := h1
      exact hend T' s' j' r (hl.started _ hs) (by rw [h1]) (by rw [h1]; exact hj.reg.parent)
  · have : toks (.job j) = [] := by
      show (if j.state = .pending then [j.id] else []) = _
      rw [if_neg (by rw [h]; simp)]
    rw [this]
    have hs := hj.started (by rw [h]; simp)
    unfold jobHandler
    rw [h]
    refine Good.seq (Good.seq (good_restartJob hj h) ?_ (post := fun _ o s x => o = [] ∧ x.2 = j)) ?_
    · rintro T' o' s' r hl rfl
      exact fun _ _ => ⟨rfl, rfl⟩
    · rintro T' o' s' ⟨r, j'⟩ hl ⟨rfl, h1⟩
      have h1 : j' = j := h1
      exact hend T' s' j' r (hl.started _ hs) (by rw [h1]) (by rw [h1]; exact hj.reg.parent)

/-! ## error.go -/

theorem clone_queue (t : Task) : t.clone.queue = t.queue := by
  cases t; rw [Task.clone]

theorem regular_clone {t : Task} (h : Regular C t) : Regular C t.clone := by
  have hf := clone_frame t
  refine ⟨by rw [hf.par, h.par]; rfl, by rw [hf.each, h.each]; rfl, ?_, by rw [hf.parentID]; exact h.parent,
    by rw [clone_queue]; exact h.queue, by rw [hf.retry]; exact h.retry⟩
  have := hf.sub.1; rw [h.sub] at this; simpa using this

theorem good_errorHandler {t : Task} (ht : MsgTask C s t) (ho : ∀ n ∈ o, n = t.jobID) :
    Good C (errorHandler C t) T o s fin := by
  simp only [errorHandler, bind_eq, pure_eq]
  have hrow : HasJob s t.jobID := by obtain ⟨r, hr, _⟩ := ht.started; exact ⟨r, hr⟩
  refine good_getJob hrow fun s1 j hl hi hj => ?_
  have hjid := (job?_mem hj).2
  dsimp only
  refine good_now fun now => ?_
  have ht1 := ht.mono hl
  refine good_updTask ht1.row (fun r hr => ?_) ?_
  · unfold failTaskRow
    split <;> exact ⟨hr.par, hr.each, hr.sub, hr.parent, hr.queue, hr.retry⟩
  intro s2 hl2
  have ht2 := ht1.mono hl2
  dsimp only
  split
  · rename_i hel
    have htot : Total C := by
      rcases ht.reg.retry with h | h
      · exact h
      · simp only [retryEligible, Bool.and_eq_true] at hel
        cases hre : t.retry with
        | none => rw [hre] at hel; simp at hel
        | some r0 => rw [hre] at hel; have := hel.2; simp [h r0 hre] at this
    refine good_now fun now2 => ?_
    refine good_uuid fun id hid hnT => ?_
    refine good_seed fun sd => ?_
    have hreg0 : Regular C { t with failedAt := some now } :=
      ⟨ht.reg.par, ht.reg.each, ht.reg.sub, ht.reg.parent, ht.reg.queue, ht.reg.retry⟩
    have hcl := regular_clone hreg0
    have hreg1 : Regular C (retryTask { t with failedAt := some now } id now2) :=
      ⟨hcl.par, hcl.each, hcl.sub, hcl.parent, hcl.queue, .inl htot⟩
    have hreg := regular_evaluate hreg1 ⟨j.context, none⟩ sd
    have hno := evaluate_total htot ⟨j.context, none⟩ sd (retryTask { t with failedAt := some now } id now2)
    have hf := (evaluateTask_frame (evaluateTemplate C.O ⟨j.context, none⟩ sd) (retryTask { t with failedAt := some now } id now2)).1
    have hjob : (retryTask { t with failedAt := some now } id now2).jobID = t.jobID := by
      show (Task.clone _).jobID = _
      rw [(clone_frame _).jobID]
    rcases hev : evaluateTask (evaluateTemplate C.O ⟨j.context, none⟩ sd) (retryTask { t with failedAt := some now } id now2) with ⟨et, err⟩
    rw [hev] at hreg hno hf
    cases hno
    dsimp only
    have hej : et.jobID = t.jobID := hf.jobID.trans hjob
    refine good_createTask (by rw [hf.id]; simp [retryTask]) (by rw [hej]; exact (hl.trans hl2).jobs _ hrow)
      (by rw [hf.createdAt]; rfl) hreg fun s3 hl3 hr3 => ?_
    dsimp only
    exact good_pub (⟨hreg, hr3, by rw [hej]; exact hl3.started _ ht2.started⟩ : MsgTask C s3 et) []
      (mem_toks (.inl rfl) fun n hn => (ho n hn).trans hej.symm) fun _ _ => rfl
  · refine good_failJob (j := { j with state := .failed, failedAt := some now, error := t.error }) (hi.jobs _ _ hj).reg.parent
      (by show Started s2 j.id; rw [hjid]; exact ht2.started) fun n hn => (ho n hn).trans hjid.symm

/-- A task handler either succeeds with everything discharged or hands its task, with the remaining obligations, to
the error handler. -/
abbrev half (C : Cfg) (t : Task) : List Nat → List Nat → DS → Res × Task → Prop := fun _ o s x =>
  (x.1 = none → o = []) ∧ (x.1 ≠ none → (∀ n ∈ o, n = t.jobID) ∧ MsgTask C s x.2 ∧ x.2.jobID = t.jobID)

theorem good_wrapTask {h : Task → Prog (Res × Task)} {t : Task} (hh : Good C (h t) T o s (half C t)) :
    Good C (wrapTask C h t) T o s fin := by
  simp only [wrapTask, bind_eq, pure_eq]
  refine Good.seq hh ?_
  rintro T' o' s' ⟨r, t'⟩ hl ⟨h1, h2⟩
  cases r with
  | none => exact fun _ _ => h1 rfl
  | some e =>
    obtain ⟨h2, h3, h4⟩ := h2 (by simp)
    refine good_now fun now => ?_
    have h3 : MsgTask C s' t' := h3
    have h4 : t'.jobID = t.jobID := h4
    exact good_errorHandler (t := { t' with failedAt := some now, state := .failed, error := e })
      ⟨⟨h3.reg.par, h3.reg.each, h3.reg.sub, h3.reg.parent, h3.reg.queue, h3.reg.retry⟩, h3.row, h3.started⟩
      fun n hn => (h2 n hn).trans h4.symm

theorem MsgTask.upd {t u : Task} (h : MsgTask C s t) (h1 : u.id = t.id) (h2 : u.jobID = t.jobID)
    (h3 : u.parallel = t.parallel) (h4 : u.each = t.each) (h5 : u.subJob = t.subJob) (h6 : u.parentID = t.parentID)
    (h7 : u.queue = t.queue) (h8 : u.retry = t.retry) : MsgTask C s u :=
  ⟨⟨h3.trans h.reg.par, h4.trans h.reg.each, h5.trans h.reg.sub, h6.trans h.reg.parent, by rw [h7]; exact h.reg.queue,
    by rw [h8]; exact h.reg.retry⟩, by rw [h1]; exact h.row, by rw [h2]; exact h.started⟩

/-! ## completed.go -/

theorem topLevelTx_run (t : Task) (ds : DS) (hi : Inv C ds) (hu : ∀ n ∈ T, Unused ds n) (ht : HasTask ds t.id)
    (hs : Started ds t.jobID) : (∃ e, topLevelTx t ds = .error e) ∨
      ∃ ds', topLevelTx t ds = .ok ((), ds') ∧ OpOK C T T o o ds ds' := by
  obtain ⟨r, hr⟩ := ht
  obtain ⟨j, hj, hne⟩ := hs
  cases hc : completeTaskRow t r with
  | error e =>
    left
    unfold topLevelTx updateTask
    rw [hr]; dsimp only
    rw [hc]
    exact ⟨_, rfl⟩
  | ok x =>
    obtain ⟨g, u⟩ := x
    right
    have hreg := hi.tasks _ _ hr
    have hu' : Regular C (persistTask r u) := by
      unfold completeTaskRow at hc
      split at hc
      · simp at hc
      · cases hc
        exact ⟨hreg.par, hreg.each, hreg.sub, hreg.parent, hreg.queue, hreg.retry⟩
    have h1 := opok_setTask (T := T) (o := o) hi hu hr hu'
    have hj1 : (ds.setTask t.id u).job? t.jobID = some j := hj
    have hg := hi.jobs _ _ hj
    have hst : (topLevelJobRow t j).state = j.state := by
      unfold topLevelJobRow; dsimp only; split <;> rfl
    have hps : (topLevelJobRow t j).position = j.position + 1 := by
      unfold topLevelJobRow; dsimp only; split <;> rfl
    have h2 := opok_setJob (T := T) (o := o) (o' := o) (u := topLevelJobRow t j) h1.inv h1.unused hj1
      (fun _ => by rw [hps]; omega) (by rw [hst]; exact hg.state) (fun h => by rw [hst]; exact h) (fun _ h _ => h)
      (fun h3 h4 => by rw [hst] at h3; exact h4.elim (fun h => h) fun h => absurd h3 h)
    refine ⟨(ds.setTask t.id u).setJob t.jobID (topLevelJobRow t j), ?_, ?_⟩
    · unfold topLevelTx updateTask
      rw [hr]; dsimp only
      rw [hc]; dsimp only
      unfold updateJob' updateJob
      rw [hj1]
    · refine ⟨h1.le.trans h2.le, h2.inv, fun n hn hn' => ?_, fun n hn hn' => ?_, h2.unused, fun n hl hn => ?_⟩
      · by_cases hm : (ds.setTask t.id u).task? n = none
        · exact h2.ownT n hm hn'
        · exact h1.ownT n hn hm
      · by_cases hm : (ds.setTask t.id u).job? n = none
        · exact h2.ownJ n hm hn'
        · exact h1.ownJ n hn hm
      · refine h2.cover n hl (hn.imp (fun h => h) fun h => ?_)
        exact fun h' => h (live_setTask.1 h')

theorem good_topLevelTx {t : Task} {α : Type} {post : List Nat → List Nat → DS → α → Prop} {k : Except Err Unit → Prog α}
    (ht : MsgTask C s t) (he : ∀ e s', Le s s' → Good C (k (.error e)) T o s' post)
    (h : ∀ s', Le s s' → Good C (k (.ok ())) T o s' post) : Good C ((tx (topLevelTx t)).bind k) T o s post := by
  intro ds hd hi hu
  rcases topLevelTx_run (T := T) (o := o) t ds hi hu (hd.tasks _ ht.row) (hd.started _ ht.started) with ⟨e, hr⟩ | ⟨ds', hr, hok⟩
  · have hrun := run_of_err hr
    refine ⟨T, o, List.Sublist.refl _, ?_, ?_, ?_⟩
    · show OpOK C T T o o ds ((DbOp.of (topLevelTx t)).run ds).2.1
      rw [hrun]; exact OpOK.refl hi hu
    · show ((DbOp.of (topLevelTx t)).run ds).2.2 = []
      rw [hrun]
    · show Good C (k ((DbOp.of (topLevelTx t)).run ds).1) T o ((DbOp.of (topLevelTx t)).run ds).2.1 post
      rw [hrun]; exact he e ds hd
  · have hrun := run_of_ok hr
    refine ⟨T, o, List.Sublist.refl _, ?_, ?_, ?_⟩
    · show OpOK C T T o o ds ((DbOp.of (topLevelTx t)).run ds).2.1
      rw [hrun]; exact hok
    · show ((DbOp.of (topLevelTx t)).run ds).2.2 = []
      rw [hrun]
    · show Good C (k ((DbOp.of (topLevelTx t)).run ds).1) T o ((DbOp.of (topLevelTx t)).run ds).2.1 post
      rw [hrun]; exact h ds' (hd.trans hok.le)

/-- Completing a job always leaves it in a final state. -/
theorem good_completeJob {j : Job} (hp : j.parentID = 0) (hs : Started s j.id) (ho : ∀ n ∈ o, n = j.id) :
    Good C (completeJob C j) T o s fin := by
  simp only [completeJob, bind_eq, pure_eq]
  refine good_now fun now => ?_
  refine good_seed fun sd => ?_
  refine good_now fun now2 => ?_
  have hrow : HasJob s j.id := by obtain ⟨r, hr, _⟩ := hs; exact ⟨r, hr⟩
  refine good_updJob hrow fun ds r hl hi hr => ?_
  obtain ⟨r', hr', hne⟩ := hl.started _ hs
  rw [hr] at hr'; cases hr'
  have hg := hi.jobs _ _ hr
  constructor
  · intro e he
    refine ⟨[], fun n hn => .inr ?_, fun _ _ => rfl⟩
    rintro ⟨x, hx, hlive⟩
    rw [ho n hn, hr] at hx; cases hx
    unfold completeJobRow at he
    split at he
    · rename_i hst
      rcases hlive with h | h | h
      · exact hne h
      · exact hst.2 h
      · exact hst.1 h
    · split at he
      · simp at he
      · dsimp only at he
        split at he <;> simp at he
  · intro g u hu
    have hfin : (u.state = .completed ∨ u.state = .failed) ∧ u.position = r.position ∧ g.parentID = j.parentID := by
      unfold completeJobRow at hu
      split at hu
      · simp at hu
      · split at hu
        · cases hu; exact ⟨.inr rfl, rfl, rfl⟩
        · dsimp only at hu
          split at hu <;> cases hu <;> exact ⟨.inl rfl, rfl, rfl⟩
    obtain ⟨hst, hpos, hpar⟩ := hfin
    have hnp : u.state ≠ .pending := by rcases hst with h | h <;> rw [h] <;> simp
    refine ⟨[], fun _ => by rw [hpos]; exact hg.pos hne, ?_, fun _ => hnp, fun n hn hne => absurd (ho n hn) hne, ?_, ?_⟩
    · rcases hst with h | h <;> rw [h] <;> trivial
    · intro hlive
      rcases hst with h | h <;> rw [h] at hlive <;> simp at hlive
    · intro s2 hl2 hst2
      dsimp only
      rw [if_neg (by rw [hpar]; exact Classical.not_not.2 hp)]
      exact good_pub trivial [] (fun _ h => absurd h List.not_mem_nil) fun _ _ => rfl

theorem good_completeTopLevel {t : Task} (ht : MsgTask C s t) (ho : ∀ n ∈ o, n = t.jobID) :
    Good C (completeTopLevelTask C t) T o s fun _ o _ r => (r = none → o = []) ∧ ∀ n ∈ o, n = t.jobID := by
  simp only [completeTopLevelTask, bind_eq, pure_eq]
  refine good_topLevelTx ht (fun e s' _ => fun _ _ => ⟨by simp, ho⟩) fun s1 hl => ?_
  dsimp only
  have ht1 := ht.mono hl
  have hrow : HasJob s1 t.jobID := by obtain ⟨r, hr, _⟩ := ht1.started; exact ⟨r, hr⟩
  refine good_getJob hrow fun s2 j hl2 hi hj => ?_
  have hjid := (job?_mem hj).2
  have hg := hi.jobs _ _ hj
  have hst := hl2.started _ ht1.started
  have hpos : 1 ≤ j.position := by
    obtain ⟨r, hr, hne⟩ := hst
    rw [hj] at hr; cases hr
    exact hg.pos hne
  dsimp only
  refine good_now fun now => ?_
  split
  · rename_i hle
    rw [if_neg (by omega)]
    have hlt : j.position - 1 < j.tasks.length := by omega
    rw [List.getElem?_eq_getElem hlt]
    dsimp only
    refine good_uuid fun id hid hnT => ?_
    refine good_seed fun sd => ?_
    obtain ⟨hn, hnid, hnj, hc⟩ := regular_new (hg.reg.tasks _ (List.getElem_mem hlt)) j.context sd now id j.id j.position
    generalize evalOrFail C j.context sd now (prepTask j.tasks[j.position - 1] id j.id j.position now) = x at hn hnid hnj hc
    rw [hjid] at hnj
    refine good_createTask (by simp [hnid]) (by rw [hnj]; exact hl2.jobs _ hrow) hc hn fun s3 hl3 hr3 => ?_
    dsimp only
    refine good_pub (⟨hn, hr3, by rw [hnj]; exact hl3.started _ hst⟩ : MsgTask C s3 x) []
      (mem_toks (.inl rfl) fun n hn => (ho n hn).trans hnj.symm) fun _ _ => ⟨fun _ => rfl, fun _ h => absurd h List.not_mem_nil⟩
  · refine Good.seq (good_completeJob (j := { j with state := .completed, completedAt := some now }) hg.reg.parent
      (by show Started s2 j.id; rw [hjid]; exact hst) fun n hn => (ho n hn).trans hjid.symm) ?_
    rintro T' o' s3 ⟨r, _⟩ hl3 rfl
    exact fun _ _ => ⟨fun _ => rfl, fun _ h => absurd h List.not_mem_nil⟩

theorem good_completedHandler {fuel : Nat} {t : Task} (ht : MsgTask C s t) (ho : ∀ n ∈ o, n = t.jobID) :
    Good C (completedHandler C (fuel + 1) t) T o s (half C t) := by
  simp only [completedHandler, bind_eq, pure_eq]
  refine good_now fun now => ?_
  split
  · exact fun s' hl => ⟨by simp, fun _ => ⟨ho, ht.mono hl, rfl⟩⟩
  · unfold completeTask
    rw [if_neg (Classical.not_not.2 ht.reg.parent)]
    have ht1 : MsgTask C s { t with completedAt := some now } := ht.upd rfl rfl rfl rfl rfl rfl rfl rfl
    refine Good.seq (good_completeTopLevel ht1 ho) ?_
    rintro T' o' s' r hl ⟨h1, h2⟩
    exact fun s'' hl' => ⟨h1, fun _ => ⟨h2, ht1.mono (hl.trans hl'), rfl⟩⟩

/-! ## started.go, progress.go, redelivered.go -/

theorem markRunningRow_state (r : Job) : (markRunningRow r).position = r.position ∧ ((markRunningRow r).state = r.state ∨
    r.state ≠ .pending ∧ (markRunningRow r).state ≠ .pending ∧ JobState.proper (markRunningRow r).state ∧
    ((markRunningRow r).state = .scheduled ∨ (markRunningRow r).state = .running → r.state = .scheduled ∨ r.state = .running)) := by
  unfold markRunningRow
  split
  · exact ⟨rfl, .inl rfl⟩
  · rename_i h
    have h := Classical.not_not.1 h
    exact ⟨rfl, .inr ⟨by rw [h]; simp, by simp, trivial, fun _ => .inl h⟩⟩

theorem good_startedHandler {t : Task} (ht : MsgTask C s t) : Good C (startedHandler t) T [] s (half C t) := by
  have hnil : ∀ n ∈ ([] : List Nat), n = t.jobID := fun _ h => absurd h List.not_mem_nil
  have hret : ∀ {s' : DS} {T' : List Nat} (r : Res) (u : Task), MsgTask C s' u → u.jobID = t.jobID →
      Good C (Prog.ret (r, u)) T' [] s' (half C t) :=
    fun r u hu hj => fun s'' hl => ⟨fun _ => rfl, fun _ => ⟨hnil, hu.mono hl, hj⟩⟩
  simp only [startedHandler, bind_eq, pure_eq]
  have hrow : HasJob s t.jobID := by obtain ⟨r, hr, _⟩ := ht.started; exact ⟨r, hr⟩
  refine good_getJob hrow fun s1 j hl hi hj => ?_
  have hjid := (job?_mem hj).2
  have ht1 := ht.mono hl
  dsimp only
  split
  · refine good_getNode fun s2 r hl2 => ?_
    have ht2 : MsgTask C s2 { t with state := .cancelled } := (ht1.mono hl2).upd rfl rfl rfl rfl rfl rfl rfl rfl
    cases r with
    | error e => exact hret _ _ ht2 rfl
    | ok node => exact good_pub ht2 [] (fun _ h => absurd h List.not_mem_nil) (hret _ _ ht2 rfl)
  · have hrest : ∀ (s2 : DS) (T' : List Nat) (r : Res), Le s1 s2 → Good C
        (match r with
        | some e => .ret (some e, t)
        | none => Prog.now.bind fun now =>
          (tx (updateTask' t.id (startedRow now t.nodeID))).bind fun x =>
            match x with
            | .error e => .ret (some e, t)
            | .ok _ => .ret (none, t)) T' [] s2 (half C t) := by
      intro s2 T' r hl2
      have ht2 := ht1.mono hl2
      cases r with
      | some e => exact hret _ _ ht2 rfl
      | none =>
        refine good_now fun now => ?_
        refine good_updTask ht2.row (fun r hr => ?_) fun s3 hl3 => hret _ _ (ht2.mono hl3) rfl
        unfold startedRow
        dsimp only
        split <;> exact ⟨hr.par, hr.each, hr.sub, hr.parent, hr.queue, hr.retry⟩
    split
    · simp only [markJobAsRunning, bind_eq, pure_eq]
      refine good_updJob' (by show HasJob s1 j.id; rw [hjid]; exact hl.jobs _ hrow) markRunningRow_state []
        (fun _ h => absurd h List.not_mem_nil) (fun h => absurd h List.not_mem_nil) ?_
      intro s2 hl2
      exact hrest s2 _ none hl2
    · exact hrest s1 _ none (Le.refl _)

theorem good_progressHandler {t : Task} (ht : MsgTask C s t) : Good C (progressHandler t) T [] s (half C t) := by
  simp only [progressHandler, bind_eq, pure_eq]
  have ht2 : MsgTask C s { t with progress := clampProgress t.progress } := ht.upd rfl rfl rfl rfl rfl rfl rfl rfl
  refine good_updTask ht.row (fun r hr => ⟨hr.par, hr.each, hr.sub, hr.parent, hr.queue, hr.retry⟩) ?_
  intro s1 hl
  dsimp only
  have hrow : HasJob s1 t.jobID := by obtain ⟨r, hr, _⟩ := (ht.mono hl).started; exact ⟨r, hr⟩
  refine good_getJob hrow fun s2 j hl2 hi hj => ?_
  dsimp only
  refine good_updJob' (hl2.jobs _ hrow) (fun r => ⟨rfl, .inl rfl⟩) [] (fun _ h => absurd h List.not_mem_nil)
    (fun h => absurd h List.not_mem_nil) ?_
  intro s3 hl3
  exact fun s4 hl4 => ⟨fun _ => rfl, fun h => absurd rfl h⟩

theorem good_redeliveredHandler {t : Task} (ht : MsgTask C s t) : Good C (redeliveredHandler t) T [] s fin := by
  simp only [redeliveredHandler, bind_eq, pure_eq]
  split
  · refine good_now fun now => ?_
    exact good_pubT (ht.upd rfl rfl rfl rfl rfl rfl rfl rfl) [] (fun _ h => absurd h List.not_mem_nil) fun _ _ => rfl
  · exact good_pubT (ht.upd rfl rfl rfl rfl rfl rfl rfl rfl) [] (fun _ h => absurd h List.not_mem_nil) fun _ _ => rfl

/-! ## coordinator.go -/

theorem toks_none {q : String} (h : ¬ Carries q) (t : Task) : toks (.task q t) = [] := by
  classical
  unfold toks
  simp only [if_neg h]

theorem good_coordinator {fuel : Nat} {m : Msg} {p : Prog Res} (hm : MsgOK C s m)
    (hp : coordinatorHandler C (fuel + 1) m = some p) : Good C p T (toks m) s fin := by
  have key : ∀ {h : Task → Prog (Res × Task)} {t : Task} {o : List Nat}, Good C (h t) T o s done →
      Good C (wrapTask C h t) T o s fin := fun hg =>
    good_wrapTask (hg.mono fun _ _ _ x _ hx => ⟨fun _ => hx.2, fun h => absurd hx.1 h⟩)
  unfold coordinatorHandler at hp
  split at hp
  · rename_i q t
    have ht : MsgTask C s t := hm
    have hown : ∀ n ∈ [t.jobID], n = t.jobID := fun n hn => List.mem_singleton.1 hn
    split at hp
    · cases hp
      rename_i hq
      rw [toks_none (by rw [hq]; unfold Carries WorkQueue; decide +kernel)]
      exact good_redeliveredHandler ht
    · split at hp
      · cases hp
        rename_i hq
        rw [toks_task (.inl hq)]
        exact key (good_pendingHandler ht hown)
      · split at hp
        · cases hp
          rename_i hq
          rw [toks_task (.inr (.inl hq))]
          exact good_wrapTask (good_completedHandler ht hown)
        · split at hp
          · cases hp
            rename_i hq
            rw [toks_none (by rw [hq]; unfold Carries WorkQueue; decide +kernel)]
            exact good_wrapTask (good_startedHandler ht)
          · split at hp
            · cases hp
              rename_i hq
              rw [toks_task (.inr (.inr (.inl hq)))]
              refine good_wrapTask ?_
              refine Good.seq (good_errorHandler ht hown) ?_
              rintro T' o' s' r hl rfl
              exact fun s'' hl' => ⟨fun _ => rfl, fun _ => ⟨fun _ h => absurd h List.not_mem_nil, ht.mono (hl.trans hl'), rfl⟩⟩
            · exact absurd hp (by simp)
  · cases hp
    exact good_wrapJob hm
  · cases hp
    exact good_wrapTask (good_progressHandler hm)
  · exact absurd hp (by simp)

/-! ## Workers -/

/-- Middleware around the runtime that keeps the identity and the routing of the task and does not swallow it: it either
fails the task or lets the outcome of the run through. -/
structure Tame (w : WorkerRun) : Prop where
  keeps : w.KeepsIdentity
  queue : ∀ t, (w.pre t).queue = t.queue
  stop : w.stop ≠ some none
  post : ∀ r t, (w.post r t).1 = none → r = none ∧ (w.post r t).2.state = t.state

theorem good_publishProgress {t : Task} (ps : List Rat) (ht : MsgTask C s t) :
    Good C (publishProgress t ps) T o s fun _ o' _ _ => o' = o := by
  induction ps with
  | nil => exact fun _ _ => rfl
  | cons p ps ih =>
    rw [publishProgress]
    simp only [bind_eq]
    exact good_pubP (ht.upd rfl rfl rfl rfl rfl rfl rfl rfl) ih

theorem good_workerMw {w : WorkerRun} {t : Task} (hw : Tame w) (ht : MsgTask C s (w.pre t)) :
    Good C (workerMw C w t) T o s fun _ o' _ x => o' = o ∧ (x.1 = none → x.2.state = .completed ∨ x.2.state = .failed) := by
  simp only [workerMw, bind_eq, pure_eq]
  split
  · rename_i r hr
    refine fun _ _ => ⟨rfl, fun h => ?_⟩
    have h : r = none := h
    rw [h] at hr; exact absurd hr hw.stop
  · simp only [runTask, bind_eq, pure_eq, Prog.bind_assoc]
    refine good_pub ht o (fun n hn => .inl hn) ?_
    have hrun : Good C (doRunTask C w (w.pre t)) T o s fun _ o' _ x =>
        o' = o ∧ (x.1 = none → x.2.state = .completed ∨ x.2.state = .failed) := by
      simp only [doRunTask, bind_eq, pure_eq]
      split
      · exact fun _ _ => ⟨rfl, by simp⟩
      · refine Good.seq (good_publishProgress _ ht) ?_
        rintro T' o' s' _ hl rfl
        refine good_now fun now => ?_
        split
        · exact fun _ _ => ⟨rfl, fun _ => .inr rfl⟩
        · exact fun _ _ => ⟨rfl, fun _ => .inl rfl⟩
    refine Good.seq hrun ?_
    rintro T' o' s' ⟨r, rt⟩ hl ⟨rfl, h⟩
    refine fun _ _ => ⟨rfl, fun hn => ?_⟩
    obtain ⟨h1, h2⟩ := hw.post r rt hn
    rcases h h1 with h | h
    · exact .inl (h2.trans h)
    · exact .inr (h2.trans h)

theorem workerPrep_queue (w : WorkerRun) (now : Nat) (t : Task) : (workerPrep w now t).queue = t.queue ∧
    (workerPrep w now t).jobID = t.jobID ∧ (workerPrep w now t).parentID = t.parentID := by
  unfold workerPrep
  dsimp only
  cases hl : t.limits with
  | none => dsimp only; split <;> split <;> exact ⟨rfl, rfl, rfl⟩
  | some l => dsimp only; split <;> exact ⟨rfl, rfl, rfl⟩

theorem good_doHandleTask {w : WorkerRun} {t : Task} (hw : Tame w) (ht : MsgTask C s t) :
    Good C (doHandleTask C w t) T [t.jobID] s fin := by
  simp only [doHandleTask, bind_eq, pure_eq]
  refine good_now fun now => ?_
  obtain ⟨h1, _, h3, h4, h5, h6⟩ := workerPrep_frame w now t
  obtain ⟨h7, h8, h9⟩ := workerPrep_queue w now t
  have ht1 : MsgTask C s (workerPrep w now t) := ht.upd h1 h8 h4 h5 h6 h9 h7 h3
  have hcf := clone_frame (workerPrep w now t)
  have ht2 : MsgTask C s (workerPrep w now t).clone :=
    ⟨regular_clone ht1.reg, by rw [hcf.id]; exact ht1.row, by rw [hcf.jobID]; exact ht1.started⟩
  obtain ⟨k1, k2, k3, k4, k5, k6, k7, k8, _⟩ := hw.keeps (workerPrep w now t).clone
  have ht3 : MsgTask C s (w.pre (workerPrep w now t).clone) := ht2.upd k1 k2 k6 k7 k8 k3 (hw.queue _) k5
  refine Good.seq (good_workerMw hw ht3) ?_
  rintro T' o' s' ⟨r, rt⟩ hl ⟨rfl, hst⟩
  have ht1 := ht1.mono hl
  have hown : ∀ n ∈ [t.jobID], n = (workerPrep w now t).jobID := fun n hn => by
    rw [h8]; exact List.mem_singleton.1 hn
  cases r with
  | some e =>
    refine good_now fun n => ?_
    exact good_pubT (ht1.upd rfl rfl rfl rfl rfl rfl rfl rfl) [] (mem_toks (.inr (.inr (.inl rfl))) hown)
      fun _ _ => rfl
  | none =>
    dsimp only
    rcases hst rfl with h | h
    · have h : rt.state = .completed := h
      rw [h]
      exact good_pubT (ht1.upd rfl rfl rfl rfl rfl rfl rfl rfl) [] (mem_toks (.inr (.inl rfl)) hown)
        fun _ _ => rfl
    · have h : rt.state = .failed := h
      rw [h]
      exact good_pubT (ht1.upd rfl rfl rfl rfl rfl rfl rfl rfl) [] (mem_toks (.inr (.inr (.inl rfl))) hown)
        fun _ _ => rfl

/-! ## API -/

theorem toks_start {j : Job} (h : j.state = .pending) : toks (.job j) = [j.id] := by
  show (if j.state = .pending then [j.id] else []) = _
  rw [if_pos h]

theorem good_apiSubmit {u : Option User} {j : Job} (hj : RegularJob C j) : Good C (apiSubmit u j) T [] s fin := by
  simp only [apiSubmit, bind_eq, pure_eq]
  refine good_uuid fun id hid hnT => ?_
  refine good_now fun now => ?_
  have hreg : RegularJob C (submitRow id now u j) := ⟨hj.nonempty, hj.tasks, hj.parent, hj.queue, hj.retry⟩
  refine good_createJob (j := submitRow id now u j) (by simp [submitRow]) hid hreg rfl fun s1 hl hrow => ?_
  dsimp only
  refine good_pub (⟨hreg, hrow, .inl rfl, fun h => absurd rfl h, fun h => by simp [submitRow] at h⟩ : MsgJob C s1 _) []
    (fun n hn => .inr ?_) fun _ _ => rfl
  rw [toks_start rfl]; exact hn

theorem good_fire {sj : ScheduledJob} (hj : RegularJob C (scheduledInstance 0 0 sj)) : Good C (fireScheduled sj) T [] s fin := by
  simp only [fireScheduled, bind_eq, pure_eq]
  refine good_now fun now => ?_
  refine good_uuid fun id hid hnT => ?_
  have hreg : RegularJob C (scheduledInstance id now sj) := ⟨hj.nonempty, hj.tasks, hj.parent, hj.queue, hj.retry⟩
  refine good_createJob (j := scheduledInstance id now sj) (by simp [scheduledInstance]) hid hreg rfl fun s1 hl hrow => ?_
  refine good_pub (⟨hreg, hrow, .inl rfl, fun h => absurd rfl h, fun h => by simp [scheduledInstance] at h⟩ : MsgJob C s1 _) []
    (fun n hn => .inr ?_) fun _ _ => rfl
  rw [toks_start rfl]; exact hn

theorem good_apiCancel {id : Nat} : Good C (apiCancel id) T [] s fin := by
  simp only [apiCancel, bind_eq, pure_eq]
  refine good_getJob? (fun ds e _ => fun _ _ => rfl) fun ds j hl hi hj => ?_
  dsimp only
  split
  · exact fun _ _ => rfl
  · rename_i hst
    have hg := hi.jobs _ _ hj
    have hjid := (job?_mem hj).2
    have hm : MsgJob C ds { j with state := .cancelled } := by
      refine ⟨⟨hg.reg.nonempty, hg.reg.tasks, hg.reg.parent, hg.reg.queue, hg.reg.retry⟩, ?_, .inr (.inl rfl),
        fun _ => ?_, fun h => by simp at h⟩
      · show HasJob ds j.id; rw [hjid]; exact ⟨j, hj⟩
      · show Started ds j.id; rw [hjid]
        exact ⟨j, hj, fun h => hst (by rw [h]; simp)⟩
    exact good_pub (m := .job _) hm [] (fun _ h => absurd h List.not_mem_nil) fun _ _ => rfl

theorem good_apiRestart {id : Nat} : Good C (apiRestart id) T [] s fin := by
  simp only [apiRestart, bind_eq, pure_eq]
  refine good_getJob? (fun ds e _ => fun _ _ => rfl) fun ds j hl hi hj => ?_
  dsimp only
  split
  · exact fun _ _ => rfl
  · rename_i hst
    split
    · exact fun _ _ => rfl
    · rename_i hpos
      have hg := hi.jobs _ _ hj
      have hjid := (job?_mem hj).2
      have hne : j.state ≠ .pending := fun h => hst (by rw [h]; simp)
      have hm : MsgJob C ds { j with state := .restart } := by
        refine ⟨⟨hg.reg.nonempty, hg.reg.tasks, hg.reg.parent, hg.reg.queue, hg.reg.retry⟩, ?_, .inr (.inr rfl),
          fun _ => ?_, fun _ => ⟨hg.pos hne, Nat.not_lt.1 hpos⟩⟩
        · show HasJob ds j.id; rw [hjid]; exact ⟨j, hj⟩
        · show Started ds j.id; rw [hjid]; exact ⟨j, hj, hne⟩
      exact good_pub (m := .job _) hm [] (fun _ h => absurd h List.not_mem_nil) fun _ _ => rfl

end Tork.Calm
