import Verif.OnceHandlers
/-! The handlers in the logic of rights: scheduling tasks. -/

namespace Tork.Once
open Prog Calm

variable {M : Mode} {α γ : Type} {T : List Nat} {o : List Tok} {s : St} {post : Post α}

/-- In fault-free systems, a task that fails is still under control. -/
def Ticket (M : Mode) (t : Task) (o : List Tok) : Prop := M = .calm → t.single = false ∨ HasTok o t.id

theorem Ticket.free {t : Task} (h : t.single = false) : Ticket M t o := fun _ => .inl h
theorem Ticket.faulty {t : Task} (h : M ≠ .calm) : Ticket M t o := fun hm => absurd hm h
theorem Ticket.mono {t : Task} {o' : List Tok} (h : Ticket M t o) (ho : M = .calm → Sub o o') : Ticket M t o' := fun hm =>
  (h hm).imp (fun x => x) (HasTok.mono (ho hm))

/-- How a handler of a task ends. -/
def Ends (M : Mode) : Post (Res × Task) := fun _ o' s' x => MsgT M s' x.2 ∧ ∀ e, x.1 = some e → Ticket M x.2 o'

theorem ends_none {t : Task} (h : MsgT M s t) : Good M (.ret (none, t)) T o s (Ends M) :=
  good_ret fun _ h' => ⟨h.mono h', fun _ he => by cases he⟩
theorem ends_some {t : Task} {e : Err} (h : MsgT M s t) (hk : Ticket M t o) : Good M (.ret (some e, t)) T o s (Ends M) :=
  good_ret fun _ h' => ⟨h.mono h', fun _ _ => hk⟩

/-! ## Tasks that are created -/

theorem NewTask.msg {x : Task} (h : NewTask M s x) (hr : s.ds.task? x.id = some (taskRow x)) (hj : HasJob s.ds x.jobID) : MsgT M s x :=
  ⟨⟨taskRow x, hr, .of rfl rfl rfl rfl rfl⟩, h.nested, hj, h.plain, h.parent⟩

/-- A task without parent. -/
theorem NewTask.top {x : Task} (h1 : x.id ≠ 0) (h2 : x.parentID = 0) (h3 : x.Nested) : NewTask M s x :=
  ⟨h1, by rw [h2]; exact h1.symm, h3, fun h => absurd h2 h, fun c hc => absurd h2 hc.ne⟩

/-- Creating a task nobody keeps account of. -/
theorem trade_free {st : St} {x : Task} (hf : ∀ c, ¬ Tr M st.ds x.parentID c) (hs : x.state ≠ .created) : Trade M st x o [.pend x.id] where
  pend := by simp
  own h := by rw [List.mem_singleton] at h; cases h
  dead h := by rw [List.mem_singleton] at h; cases h
  rest y hy := by
    rw [List.count_eq_zero.2 fun h => hy (List.mem_singleton.1 h)]; omega
  state _ := hs
  past c hc := absurd hc (hf c)
  place c hc := absurd hc (hf c)

structure TopFacts (n job : Nat) (x : Task) : Prop where
  id : x.id = n
  job : x.jobID = job
  parent : x.parentID = 0
  state : x.state ≠ .created
  created : x.createdAt ≠ none
  nested : x.Nested

theorem evalOrFail_top (C : Cfg) (ctx : JobContext) (sd now : Nat) {t0 : Task} (h : t0.Fresh) (n job pos : Nat) :
    TopFacts n job (evalOrFail C ctx sd now (prepTask t0 n job pos now)) := by
  have hf := (evaluateTask_frame (evaluateTemplate C.O ⟨ctx, none⟩ sd) (prepTask t0 n job pos now)).1
  have hn : (evaluateTask (evaluateTemplate C.O ⟨ctx, none⟩ sd) (prepTask t0 n job pos now)).1.Nested :=
    nested_evaluate (by have := h.nested; exact ⟨this.par, this.ea, this.sub⟩)
  have hp : t0.parentID = 0 := h.parent0
  unfold evalOrFail
  cases hx : evaluateTask (evaluateTemplate C.O ⟨ctx, none⟩ sd) (prepTask t0 n job pos now) with
  | mk y e =>
    rw [hx] at hf hn
    cases e with
    | none =>
      exact ⟨hf.id, hf.jobID, hf.parentID.trans hp, (by show y.state ≠ _; rw [hf.state]; exact fun h => by cases h),
        (by show y.createdAt ≠ _; rw [hf.createdAt]; exact fun h => by cases h), hn⟩
    | some e =>
      exact ⟨hf.id, hf.jobID, hf.parentID.trans hp, (fun h => by cases h), (by show y.createdAt ≠ _; rw [hf.createdAt]; exact fun h => by cases h),
        ⟨hn.par, hn.ea, hn.sub⟩⟩

theorem TopFacts.new {n job : Nat} {x : Task} (h : TopFacts n job x) (hn : n ≠ 0) : NewTask M s x :=
  .top (by rw [h.id]; exact hn) h.parent h.nested

/-! ## Changed messages -/

/-- Also the retries may change. -/
theorem MsgT.upd' {t u : Task} (h : MsgT M s t) (h1 : u.id = t.id) (h2 : u.jobID = t.jobID)
    (h3 : u.parallel = t.parallel) (h4 : u.each = t.each) (h5 : u.subJob = t.subJob) (h6 : u.parentID = t.parentID)
    (h7 : M = .noRetry → (∃ j, s.ds.job? t.jobID = some j ∧ NoRetryD j.defaults) → NoRetry t.retry → NoRetry u.retry) : MsgT M s u := by
  obtain ⟨r, k1, k2⟩ := h.row
  refine ⟨⟨r, by rw [h1]; exact k1, k2.trans (.of h6 h2 h3 h4 h5)⟩, ⟨by rw [h3]; exact h.nested.par, by rw [h4]; exact h.nested.ea,
    by rw [h5]; exact h.nested.sub⟩, by rw [h2]; exact h.job, fun c hc => ?_, fun hp => ?_⟩
  · rw [h6] at hc
    obtain ⟨⟨k3, k4⟩, k5⟩ := h.plain c hc
    refine ⟨⟨?_, fun hm => h7 hm (k5 hm) (k4 hm)⟩, fun hm => by rw [h2]; exact k5 hm⟩
    unfold Task.single; rw [h3, h4, h5]; exact k3
  · rw [h6] at hp ⊢; exact h.parent hp

theorem defQueue_retry (q : String) (t : Task) : (defQueue q t).retry = t.retry := by unfold defQueue; split <;> rfl
theorem defLimits_retry (d : Option TaskLimits) (t : Task) : (defLimits d t).retry = t.retry := by unfold defLimits; split <;> rfl
theorem defTimeout_retry (d : String) (t : Task) : (defTimeout d t).retry = t.retry := by unfold defTimeout; split <;> rfl
theorem defPriority_retry (d : Nat) (t : Task) : (defPriority d t).retry = t.retry := by unfold defPriority; split <;> rfl

theorem defRetry_none {d : Option TaskRetry} {t : Task} (hd : NoRetry d) (h : NoRetry t.retry) : NoRetry (defRetry d t).retry := by
  unfold defRetry
  cases d with
  | none => exact h
  | some dr =>
    have hdr := hd dr rfl
    intro x hx
    have hx : some (if (t.retry.getD {}).limit = 0 then { t.retry.getD {} with limit := dr.limit } else t.retry.getD {}) = some x := hx
    cases hx
    by_cases h0 : (t.retry.getD {}).limit = 0
    · rw [if_pos h0]; exact hdr
    · rw [if_neg h0]
      exfalso; apply h0
      cases hr : t.retry with
      | none => rfl
      | some r => exact h r hr

theorem applyDefaults_none {d : Option JobDefaults} {t : Task} (hd : NoRetryD d) (h : NoRetry t.retry) : NoRetry (applyDefaults d t).retry := by
  unfold applyDefaults
  rw [defQueue_retry]
  cases d with
  | none => exact h
  | some d =>
    dsimp only
    rw [defPriority_retry]
    refine defRetry_none (hd d rfl) ?_
    rw [defTimeout_retry, defLimits_retry, defQueue_retry]; exact h

theorem static_parent {a b : Task} (h : b.static = a.static) : b.parentID = a.parentID := congrArg Static.parentID h

/-! ## Regular tasks -/

theorem good_regular {t : Task} (ht : MsgT M s t) : Good M (scheduleRegularTask t) T [.pend t.id] s (Ends M) := by
  unfold scheduleRegularTask
  refine good_now fun now => ?_
  have hpend : ∀ {o'}, (M = .calm → Sub [.pend t.id] o') → Ticket M t o' := fun hx hm =>
    .inr (.inl ((hx hm).mem (List.mem_singleton_self _)))
  refine good_getJob (fun T' o1 st e hd hx => ends_some (ht.mono hd) (hpend fun hm => (hx hm).2)) fun s1 job h1 hi1 hjob => ?_
  have hfr := applyDefaults_frame job.defaults t
  have hjid : job.id = t.jobID := (job?_mem hjob).2
  generalize hu : ({ applyDefaults job.defaults t with state := .scheduled, scheduledAt := some now } : Task) = u
  show Good M ((tx (updateTask' ({ applyDefaults job.defaults t with state := .scheduled, scheduledAt := some now } : Task).id
    (scheduleRow { applyDefaults job.defaults t with state := .scheduled, scheduledAt := some now }))).bind fun x =>
    match x with
    | .error e => .ret (some (wrapErr "error updating task in datastore" e), { applyDefaults job.defaults t with state := .scheduled, scheduledAt := some now })
    | .ok _ => (publish (.task ({ applyDefaults job.defaults t with state := .scheduled, scheduledAt := some now } : Task).queue
        { applyDefaults job.defaults t with state := .scheduled, scheduledAt := some now })).bind fun y =>
      match y with
      | .error e => .ret (some e, { applyDefaults job.defaults t with state := .scheduled, scheduledAt := some now })
      | .ok _ => .ret (none, { applyDefaults job.defaults t with state := .scheduled, scheduledAt := some now })) T _ s1 (Ends M)
  rw [hu]
  have e1 : u.id = t.id := by rw [← hu]; exact hfr.id
  have e2 : u.jobID = t.jobID := by rw [← hu]; exact hfr.jobID
  have e3 : u.parallel = t.parallel := by rw [← hu]; exact hfr.par
  have e4 : u.each = t.each := by rw [← hu]; exact hfr.ea
  have e5 : u.subJob = t.subJob := by rw [← hu]; exact hfr.sub
  have e6 : u.parentID = t.parentID := by rw [← hu]; exact static_parent hfr.st
  have e7 : u.state = .scheduled := by rw [← hu]
  have hut : MsgT M s1 u := (ht.mono h1).upd' e1 e2 e3 e4 e5 e6 fun _ ⟨j, hj, hd⟩ hr => by
    rw [hjob] at hj; cases hj
    rw [← hu]; exact applyDefaults_none hd hr
  have hpend : ∀ {o'}, (M = .calm → Sub [.pend t.id] o') → Ticket M u o' := fun hx hm =>
    .inr (by rw [e1]; exact .inl ((hx hm).mem (List.mem_singleton_self _)))
  refine good_set (fun T' o1 st e hd hx => ends_some (hut.mono hd) (hpend fun hm => (hx hm).2)) fun s2 r h2 hi2 hr => ?_
  have hut2 := hut.mono h2
  have hpar : r.parentID = u.parentID := by
    obtain ⟨r0, k1, k2⟩ := hut2.row
    rw [hr] at k1; cases k1; exact k2.parent.symm
  have hok : RowOK M s2.ds r (scheduleRow u r) := rowOK_of hi2 hr rfl rfl rfl fun hm c hc _ => by
    rw [hpar] at hc; exact (hut2.plain c hc).1.2 hm
  refine ⟨hok, ?_⟩
  have hret : ∀ {s' : St} {T1 : List Nat} {o1 : List Tok}, Le M s2 s' → M ≠ .calm → ∀ e, Good M (.ret (some e, u)) T1 o1 s' (Ends M) :=
    fun hl hm e => ends_some (hut2.mono hl) (.faulty hm)
  have hst : (scheduleRow u r).state = .scheduled := e7
  rw [e1] at hr
  by_cases hq : u.queue = QUEUE_PENDING
  · -- a task whose queue is the queue of pending tasks
    refine ⟨[.pend t.id], s2.S, fun n h => h, fun A hA => ?_, fun hl => ?_⟩
    · rw [e1]
      refine held_swap hi2 hr hok (fun n h => h) rfl rfl (.single rfl) (by simp) (by rw [hst]; exact fun h => by cases h)
        (fun h => by rw [List.mem_singleton] at h; cases h) (fun _ => rfl) (fun m _ h => h) (fun hS => ?_)
        (.inl fun h => by rw [List.mem_singleton] at h; cases h) hA
      exact absurd (List.mem_append_right _ (List.mem_singleton_self _)) (hA.sched _ hS).1
    · have hle : Le M s2 ⟨s2.ds.setTask u.id (scheduleRow u r), s2.S⟩ := set_le hi2 (by rw [e1]; exact hr) hok fun n h => h
      refine good_pub ⟨hut2.mono hle, by rw [hq]; exact .pending⟩ [] ?_ (fun hm e => hret hle hm e) (ends_none (hut2.mono hle))
      rw [hq, toks_pending, e1]; exact Sub.refl _
  · by_cases hM : M = .noRetry
    · refine ⟨[], fun n => s2.S n ∨ n = t.id, fun n h => .inl h, fun A hA => ?_, fun hl => ?_⟩
      · rw [e1]
        refine held_swap hi2 hr hok (fun n h => .inl h) rfl rfl .nil (by simp) (by rw [hst]; exact fun h => by cases h)
          (fun h => by cases h) (fun h => by cases h) (fun m hm h => h.resolve_right hm) (fun hS => ⟨fun h => (by cases h), fun _ h => (by cases h), ?_⟩)
          (.inl fun h => by cases h) hA
        rw [hst]; exact fun _ h => by cases h
      · have hle : Le M s2 ⟨s2.ds.setTask u.id (scheduleRow u r), fun n => s2.S n ∨ n = t.id⟩ := set_le hi2 (by rw [e1]; exact hr) hok fun n h => .inl h
        refine good_pub ⟨hut2.mono hle, fun _ c hc _ => .inr e1, fun h => h⟩ [] ?_ (fun hm e => hret hle hm e) (ends_none (hut2.mono hle))
        rw [toks_free]
        · exact Sub.refl _
        · rw [hM]
          show (decide (u.queue = QUEUE_PENDING) || (decide (u.queue = QUEUE_COMPLETED) && decide (u.state = .skipped))) = false
          rw [decide_eq_false hq, e7]
          simp
    · refine ⟨[.own t.id], s2.S, fun n h => h, fun A hA => ?_, fun hl => ?_⟩
      · rw [e1]
        refine held_swap hi2 hr hok (fun n h => h) rfl rfl (.single rfl) (by simp) (by rw [hst]; exact fun h => by cases h)
          (fun h => by rw [List.mem_singleton] at h; cases h) (fun _ => rfl) (fun m _ h => h) (fun hS => ?_)
          (.inl fun h => by rw [List.mem_singleton] at h; cases h) hA
        exact absurd (List.mem_append_right _ (List.mem_singleton_self _)) (hA.sched _ hS).1
      · have hle : Le M s2 ⟨s2.ds.setTask u.id (scheduleRow u r), s2.S⟩ := set_le hi2 (by rw [e1]; exact hr) hok fun n h => h
        refine good_pub ⟨hut2.mono hle, fun hm => absurd hm hM, fun h => h⟩ [] ?_ (fun hm e => hret hle hm e) (ends_none (hut2.mono hle))
        show Sub ([] ++ if u.queue = QUEUE_PENDING then [Tok.pend u.id] else if M.single (.task u.queue u) then [Tok.own u.id] else []) _
        rw [if_neg hq, e1]
        cases M.single (.task u.queue u)
        · exact Sub.nil _
        · exact Sub.refl _

/-- Giving up the right to schedule a task, which starts. -/
theorem held_start {st : St} {A : List Tok} {n : Nat} {r u : Task} (hi : Inv M st.ds) (hr : st.ds.task? n = some r) (hu : RowOK M st.ds r u)
    (hs : u.state = .running) (h : Held M st X0 (A ++ [.pend n])) : Held M ⟨st.ds.setTask n u, st.S⟩ X0 (A ++ []) := by
  refine held_swap hi hr hu (fun n h => h) rfl rfl .nil (by simp) (by rw [hs]; exact fun h => by cases h)
    (fun h => by cases h) (fun h => by cases h) (fun m hm h => h) (fun hS => ⟨fun h => (by cases h), fun _ h => (by cases h), ?_⟩)
    (.inl fun h => by cases h) h
  rw [hs]; exact fun _ h => by cases h

/-! ## pending.go: skipped tasks -/

theorem good_skip {t : Task} (ht : MsgT M s t) : Good M (skipTask t) T [.pend t.id] s (Ends M) := by
  unfold skipTask
  refine good_now fun now => ?_
  dsimp only
  have hut : MsgT M s { t with state := .skipped, scheduledAt := some now, startedAt := some now, completedAt := some now } :=
    ht.upd rfl rfl rfl rfl rfl rfl rfl
  refine good_set (fun T' o1 st e hd hx => ends_some (hut.mono hd) fun hm => .inr (.inl ((hx hm).2.mem (List.mem_singleton_self _)))) fun s2 r h2 hi2 hr => ?_
  have hr : s2.ds.task? t.id = some r := hr
  have hok : RowOK M s2.ds r { r with state := .skipped, scheduledAt := some now, startedAt := some now } := rowOK_of hi2 hr rfl rfl rfl fun _ _ _ h => h
  refine ⟨hok, [Tok.own t.id], s2.S, fun n h => h, fun A hA => ?_, fun hl => ?_⟩
  · refine held_swap hi2 hr hok (fun n h => h) rfl rfl (.single rfl) (by simp) (fun h => by cases h)
      (fun h => by rw [List.mem_singleton] at h; cases h) (fun _ => rfl) (fun m _ h => h) (fun hS => ?_)
      (.inl fun h => by rw [List.mem_singleton] at h; cases h) hA
    exact absurd (List.mem_append_right _ (List.mem_singleton_self _)) (hA.sched _ hS).1
  · have hle := set_le (S' := s2.S) hi2 hr hok fun n h => h
    have hm := (hut.mono h2).mono hle
    refine good_pub ⟨hm, .completed fun _ _ _ h => by cases h⟩ [] ?_ (fun hM e => ends_some hm (.faulty hM)) (ends_none hm)
    generalize hb : M.single (.task QUEUE_COMPLETED { t with state := .skipped, scheduledAt := some now, startedAt := some now, completedAt := some now }) = b
    show Sub ([] ++ if QUEUE_COMPLETED = QUEUE_PENDING then [Tok.pend t.id] else
      if M.single (.task QUEUE_COMPLETED { t with state := .skipped, scheduledAt := some now, startedAt := some now, completedAt := some now }) then [Tok.own t.id] else []) _
    rw [if_neg (by decide +kernel), hb]
    cases b
    · exact Sub.nil _
    · exact Sub.refl _

/-! ## Sub-jobs -/

theorem rowOK_sub {ds : DS} (hi : Inv M ds) {n : Nat} {r : Task} (hr : ds.task? n = some r) (now id : Nat) : RowOK M ds r (subJobRow now id r) := by
  have hn := hi.nested n r hr
  refine ⟨⟨rfl, rfl, rfl, rfl, ?_, fun c => Iff.rfl⟩, ⟨hn.par, hn.ea, fun s' hs' => ?_⟩, fun hm c hc => (hi.kids n r c hr hc).1.2 hm⟩
  · show (r.subJob.map _).isSome = r.subJob.isSome
    cases r.subJob <;> rfl
  · have hs' : r.subJob.map (fun s => { s with id := id }) = some s' := hs'
    cases hs : r.subJob with
    | none => rw [hs] at hs'; cases hs'
    | some x => rw [hs] at hs'; cases hs'; exact hn.sub x hs

theorem Task.single_some {t : Task} {x : SubJobTask Task} (h : t.subJob = some x) : t.single = false := Task.single_sub (by rw [h]; rfl)

theorem good_attached {t : Task} {x : SubJobTask Task} (ht : MsgT M s t) (hx : t.subJob = some x) :
    Good M ((scheduleAttachedSubJob t x).bind fun r => .ret (r, t)) T [.pend t.id] s (Ends M) := by
  refine Good.seq (mid := fun _ _ _ _ => True) ?_ fun T' o' s' r hl _ => good_ret fun s'' h' =>
    ⟨(ht.mono hl).mono h', fun _ _ => .free (Task.single_some hx)⟩
  unfold scheduleAttachedSubJob
  have hbad : ∀ {s' : St} {T1 : List Nat} {o1 : List Tok}, Le M s s' → ∀ r : Res, Good M (.ret r) T1 o1 s' fun _ _ _ _ => True := fun hl r =>
    good_ret fun s'' h' => trivial
  refine good_getJob (fun T' o1 st e hd _ => hbad hd _) fun s1 job h1 hi1 hjob => ?_
  dsimp only
  refine good_now fun now => good_uuid fun n hn hnT hnu => ?_
  refine good_set (fun T' o1 st e hd _ => hbad (h1.trans hd) _) fun s2 r h2 hi2 hr => ⟨rowOK_sub hi2 hr now n, [], s2.S, fun _ h => h,
    fun A hA => held_start hi2 hr (rowOK_sub hi2 hr now n) rfl hA, fun hl => ?_⟩
  have hl := h1.trans hl
  dsimp only
  have hj : MsgJ s (attachedSubJob n now job t x) := by
    refine ⟨ht.nested.sub x hx, fun _ => ?_⟩
    obtain ⟨r, k1, k2⟩ := ht.row
    exact ⟨r, k1, k2.sub.symm.trans (by rw [hx]; rfl)⟩
  refine good_newJob rfl hnT (hj.mono hl) (fun T' o1 st e hd _ => hbad (hl.trans hd) _) fun s3 h3 _ => ?_
  dsimp only
  exact good_pub0 ((hj.mono hl).mono h3) rfl (fun _ e => hbad (hl.trans h3) _) (hbad (hl.trans h3) _)

theorem good_detached {t : Task} {x : SubJobTask Task} (ht : MsgT M s t) (hx : t.subJob = some x) :
    Good M (scheduleDetachedSubJob t x) T [.pend t.id] s (Ends M) := by
  unfold scheduleDetachedSubJob
  have hsg := Task.single_some hx
  have hbad : ∀ {s' : St} {T1 : List Nat} {o1 : List Tok}, Le M s s' → ∀ r, Good M (.ret (r, t)) T1 o1 s' (Ends M) := fun hl r =>
    good_ret fun s'' h' => ⟨(ht.mono hl).mono h', fun _ _ => .free hsg⟩
  refine good_getJob (fun T' o1 st e hd _ => hbad hd _) fun s1 job h1 hi1 hjob => ?_
  dsimp only
  refine good_now fun now => good_uuid fun n hn hnT hnu => ?_
  have hj : MsgJ s (detachedSubJob n now job x) := ⟨ht.nested.sub x hx, fun h => absurd rfl h⟩
  refine good_newJob rfl hnT (hj.mono h1) (fun T' o1 st e hd _ => hbad (h1.trans hd) _) fun s3 h3 _ => ?_
  have h3 := h1.trans h3
  dsimp only
  refine good_pub0 (hj.mono h3) rfl (fun _ e => hbad h3 _) ?_
  dsimp only
  refine good_set (fun T' o1 st e hd _ => hbad (h3.trans hd) _) fun s2 r h2 hi2 hr => ⟨rowOK_sub hi2 hr now n, [], s2.S, fun _ h => h,
    fun A hA => held_start hi2 hr (rowOK_sub hi2 hr now n) rfl hA, fun hl => ?_⟩
  have hl := h3.trans hl
  dsimp only
  have hm : MsgT M ⟨s2.ds.setTask t.id (subJobRow now n r), s2.S⟩ { t with completedAt := some now, state := .completed } :=
    (ht.mono hl).upd rfl rfl rfl rfl rfl rfl rfl
  have hsg' : ({ t with completedAt := some now, state := .completed } : Task).single = false := hsg
  exact good_pub0 ⟨hm, .completed fun _ c hc _ => absurd hc (hm.free hsg' c)⟩ (toks_completed hsg' fun h => by cases h)
    (fun hM e => ends_some hm (.free hsg')) (ends_none hm)

/-! ## Composite tasks -/

theorem good_failTo {t : Task} {e : Err} (ht : MsgT M s t) (hsg : t.single = false) : Good M (failToErrorQueue t e) T o s (Ends M) := by
  unfold failToErrorQueue
  have hm : MsgT M s { t with error := e, state := .failed } := ht.upd rfl rfl rfl rfl rfl rfl rfl
  have hsg' : ({ t with error := e, state := .failed } : Task).single = false := hsg
  exact good_pub0 ⟨hm, .error⟩ (toks_error hsg') (fun hM e => ends_some hm (.free hsg')) (ends_none hm)

theorem Task.single_par {t : Task} {x : ParallelTask Task} (h : t.parallel = some x) : t.single = false := by
  unfold Task.single; rw [h]; rfl
theorem Task.single_each {t : Task} {x : EachTask Task} (h : t.each = some x) : t.single = false := by
  unfold Task.single; rw [h]; simp

/-- No task keeps account of the branches of a parallel task. -/
theorem MsgT.par_free {st : St} {t : Task} {x : ParallelTask Task} (h : MsgT M st t) (hx : t.parallel = some x) (c : Nat) : ¬ Tr M st.ds t.id c := fun hc => by
  obtain ⟨r, k1, k2⟩ := h.row
  obtain ⟨_, _, _, r', j, k3, k4, _⟩ := hc
  rw [k1] at k3; cases k3
  rw [← k2.par, hx] at k4; cases k4

theorem good_parLoop (C : Cfg) (t : Task) (j : Job) (now : Nat) {x : ParallelTask Task} (hx : t.parallel = some x) (pts : List Task)
    (hpts : ∀ p ∈ pts, p.Fresh) (ht : MsgT M s t) : Good M (parLoop C t j now pts) T o s (Ends M) := by
  induction pts generalizing T o s with
  | nil => exact ends_none ht
  | cons pt pts ih =>
    unfold parLoop
    have hsg := Task.single_par hx
    have hbad : ∀ {s' : St} {T1 : List Nat} {o1 : List Tok}, Le M s s' → ∀ r, Good M (.ret (r, t)) T1 o1 s' (Ends M) := fun hl r =>
      good_ret fun s'' h' => ⟨(ht.mono hl).mono h', fun _ _ => .free hsg⟩
    refine good_uuid fun n hn hnT hnu => good_seed fun sd => ?_
    have hf := (evaluateTask_frame (evaluateTemplate C.O ⟨j.context, none⟩ sd) (parChild t pt j.id n now)).1
    have hfr : pt.Nested := (hpts pt (List.mem_cons_self ..)).nested
    have hne := nested_evaluate (tm := evaluateTemplate C.O ⟨j.context, none⟩ sd) (t := parChild t pt j.id n now) ⟨hfr.par, hfr.ea, hfr.sub⟩
    cases hev : evaluateTask (evaluateTemplate C.O ⟨j.context, none⟩ sd) (parChild t pt j.id n now) with
    | mk y e =>
      rw [hev] at hf hne
      cases e with
      | some e => exact good_failTo ht hsg
      | none =>
        dsimp only
        have e1 : y.id = n := hf.id
        have e2 : y.parentID = t.id := hf.parentID
        have e3 : y.state = .pending := hf.state
        have hnew : NewTask M s y := by
          refine ⟨by rw [e1]; exact hn, fun h => ?_, hne, fun _ => by rw [e2]; exact ht.hasTask, fun c hc => ?_⟩
          · rw [e2, e1] at h
            obtain ⟨r, hr⟩ := ht.hasTask
            rw [h] at hr; exact hnu r hr
          · rw [e2] at hc; exact absurd hc (ht.par_free hx c)
        refine good_new (o' := [.pend n]) e1 hnT hnew (fun T' o1 st e hd _ => hbad hd _) (fun st hd hi => ?_) fun s1 h1 hrow hjob => ?_
        · rw [← e1]
          exact trade_free (fun c hc => by rw [e2] at hc; exact absurd hc ((ht.mono hd).par_free hx c)) (by rw [e3]; exact fun h => by cases h)
        · dsimp only
          refine good_pub ⟨(hnew.mono h1).msg (by rw [e1]; exact hrow) hjob, .pending⟩ [] (by rw [toks_pending, e1]; exact Sub.refl _)
            (fun _ e => hbad h1 _) ?_
          exact ih (fun p hp => hpts p (List.mem_cons_of_mem _ hp)) (ht.mono h1)

theorem good_parallel (C : Cfg) {t : Task} {x : ParallelTask Task} (ht : MsgT M s t) (hx : t.parallel = some x) :
    Good M (scheduleParallelTask C t x) T [.pend t.id] s (Ends M) := by
  unfold scheduleParallelTask
  have hsg := Task.single_par hx
  have hbad : ∀ {s' : St} {T1 : List Nat} {o1 : List Tok}, Le M s s' → ∀ r, Good M (.ret (r, t)) T1 o1 s' (Ends M) := fun hl r =>
    good_ret fun s'' h' => ⟨(ht.mono hl).mono h', fun _ _ => .free hsg⟩
  refine good_now fun now => ?_
  refine good_set (fun T' o1 st e hd _ => hbad hd _) fun s2 r h2 hi2 hr => ?_
  have hok : RowOK M s2.ds r (parRow now r) := rowOK_of hi2 hr rfl rfl rfl fun _ _ _ h => h
  refine ⟨hok, [], s2.S, fun _ h => h, fun A hA => held_start hi2 hr hok rfl hA, fun hl => ?_⟩
  dsimp only
  refine good_getJob (fun T' o1 st e hd _ => hbad (hl.trans hd) _) fun s3 job h3 hi1 hjob => ?_
  dsimp only
  exact good_parLoop C t job now hx x.tasks (ht.nested.par x hx) ((ht.mono hl).mono h3)

end Tork.Once
