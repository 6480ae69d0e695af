import Verif.Safe
/-! Evaluation and cloning keep a task's identity, retry counters and sub-task definitions. -/

namespace Tork

theorem evaluateTask_eq (tm : String → Except Err String) (t : Task) : evaluateTask tm t =
    match evalTaskStart tm t with
    | (t', some e) => (t', some e)
    | (t', none) =>
      match evalTasks tm t.pre with
      | (pre, some e) => ({ t' with pre }, some e)
      | (pre, none) =>
        match evalTasks tm t.post with
        | (post, some e) => ({ t' with pre, post }, some e)
        | (post, none) =>
          match evalPar tm t.parallel with
          | (parallel, some e) => ({ t' with pre, post, parallel }, some e)
          | (parallel, none) => evalTaskEnd tm { t' with pre, post, parallel } := by
  cases t
  rw [evaluateTask]
  rfl

/-- `b` is `a` except for evaluated texts. -/
structure EvalFrame (a b : Task) : Prop where
  id : b.id = a.id
  jobID : b.jobID = a.jobID
  parentID : b.parentID = a.parentID
  position : b.position = a.position
  state : b.state = a.state
  createdAt : b.createdAt = a.createdAt
  retry : b.retry = a.retry
  nodeID : b.nodeID = a.nodeID
  each : b.each = a.each
  par : b.parallel.isSome = a.parallel.isSome
  sub : b.subJob.isSome = a.subJob.isSome
  subT : ∀ s', b.subJob = some s' → ∃ s, a.subJob = some s ∧ s'.tasks = s.tasks

theorem evalTaskStart_frame (tm : String → Except Err String) (t : Task) :
    EvalFrame t (evalTaskStart tm t).1 ∧ (evalTaskStart tm t).1.parallel = t.parallel := by
  unfold evalTaskStart
  repeat' split
  all_goals exact ⟨⟨rfl, rfl, rfl, rfl, rfl, rfl, rfl, rfl, rfl, rfl, rfl, fun s h => ⟨s, h, rfl⟩⟩, rfl⟩

theorem evalSubJob_tasks (tm : String → Except Err String) (s : SubJobTask Task) :
    (evalSubJob tm s).1.tasks = s.tasks := by
  unfold evalSubJob
  repeat' split
  all_goals rfl

theorem evalTaskEnd_frame (tm : String → Except Err String) (t : Task) :
    EvalFrame t (evalTaskEnd tm t).1 ∧ (evalTaskEnd tm t).1.parallel = t.parallel := by
  unfold evalTaskEnd
  split
  · exact ⟨⟨rfl, rfl, rfl, rfl, rfl, rfl, rfl, rfl, rfl, rfl, rfl, fun s h => ⟨s, h, rfl⟩⟩, rfl⟩
  · split
    · exact ⟨⟨rfl, rfl, rfl, rfl, rfl, rfl, rfl, rfl, rfl, rfl, rfl, fun s h => ⟨s, h, rfl⟩⟩, rfl⟩
    · rename_i s hs
      refine ⟨⟨rfl, rfl, rfl, rfl, rfl, rfl, rfl, rfl, rfl, rfl, by simp [hs], fun s' h => ?_⟩, rfl⟩
      simp at h
      exact ⟨s, hs, by rw [← h, evalSubJob_tasks]⟩

theorem EvalFrame.trans {a b c : Task} (h1 : EvalFrame a b) (h2 : EvalFrame b c) : EvalFrame a c where
  id := h2.id.trans h1.id
  jobID := h2.jobID.trans h1.jobID
  parentID := h2.parentID.trans h1.parentID
  position := h2.position.trans h1.position
  state := h2.state.trans h1.state
  createdAt := h2.createdAt.trans h1.createdAt
  retry := h2.retry.trans h1.retry
  nodeID := h2.nodeID.trans h1.nodeID
  each := h2.each.trans h1.each
  par := h2.par.trans h1.par
  sub := h2.sub.trans h1.sub
  subT s h := by
    obtain ⟨s1, h3, h4⟩ := h2.subT s h
    obtain ⟨s2, h5, h6⟩ := h1.subT s1 h3
    exact ⟨s2, h5, h4.trans h6⟩

theorem evalPar_eq (tm : String → Except Err String) (p : ParallelTask Task) :
    evalPar tm (some p) = (some { tasks := (evalTasks tm p.tasks).1, completions := p.completions },
      (evalTasks tm p.tasks).2) := by
  cases p; rw [evalPar]

/-- The parallel section after evaluation. -/
def ParEval (tm : String → Except Err String) (a b : Option (ParallelTask Task)) : Prop :=
  b = a ∨ ∃ p, a = some p ∧ b = some { tasks := (evalTasks tm p.tasks).1, completions := p.completions }

theorem evaluateTask_frame (tm : String → Except Err String) (t : Task) :
    EvalFrame t (evaluateTask tm t).1 ∧ ParEval tm t.parallel (evaluateTask tm t).1.parallel := by
  rw [evaluateTask_eq]
  have hs := evalTaskStart_frame tm t
  rcases hst : evalTaskStart tm t with ⟨t1, e1⟩
  rw [hst] at hs
  cases e1 with
  | some e => exact ⟨hs.1, .inl hs.2⟩
  | none =>
    simp only
    rcases evalTasks tm t.pre with ⟨pre, e2⟩
    cases e2 with
    | some e => exact ⟨⟨hs.1.1, hs.1.2, hs.1.3, hs.1.4, hs.1.5, hs.1.6, hs.1.7, hs.1.8, hs.1.9, hs.1.10,
        hs.1.11, hs.1.12⟩, .inl hs.2⟩
    | none =>
      simp only
      rcases evalTasks tm t.post with ⟨post, e3⟩
      cases e3 with
      | some e => exact ⟨⟨hs.1.1, hs.1.2, hs.1.3, hs.1.4, hs.1.5, hs.1.6, hs.1.7, hs.1.8, hs.1.9, hs.1.10,
        hs.1.11, hs.1.12⟩, .inl hs.2⟩
      | none =>
        simp only
        have hp : ParEval tm t.parallel (evalPar tm t.parallel).1 ∧
            (evalPar tm t.parallel).1.isSome = t.parallel.isSome := by
          cases h : t.parallel with
          | none => rw [evalPar]; exact ⟨.inl rfl, rfl⟩
          | some p => rw [evalPar_eq]; exact ⟨.inr ⟨p, rfl, rfl⟩, rfl⟩
        rcases hpe : evalPar tm t.parallel with ⟨par, e4⟩
        rw [hpe] at hp
        have hf : EvalFrame t { t1 with pre := pre, post := post, parallel := par } :=
          ⟨hs.1.1, hs.1.2, hs.1.3, hs.1.4, hs.1.5, hs.1.6, hs.1.7, hs.1.8, hs.1.9, hp.2,
            hs.1.11, hs.1.12⟩
        cases e4 with
        | some e => exact ⟨hf, hp.1⟩
        | none =>
          simp only
          have he := evalTaskEnd_frame tm { t1 with pre := pre, post := post, parallel := par }
          exact ⟨hf.trans he.1, by rw [he.2]; exact hp.1⟩

theorem mem_evalTasks {tm : String → Except Err String} {ts : List Task} {c : Task}
    (h : c ∈ (evalTasks tm ts).1) : c ∈ ts ∨ ∃ c0 ∈ ts, c = (evaluateTask tm c0).1 := by
  induction ts with
  | nil => rw [evalTasks] at h; simp at h
  | cons t ts ih =>
    rw [evalTasks] at h
    rcases he : evaluateTask tm t with ⟨t', e⟩
    rw [he] at h
    cases e with
    | some e =>
      simp at h
      rcases h with rfl | h
      · exact .inr ⟨t, by simp, by rw [he]⟩
      · exact .inl (by simp [h])
    | none =>
      simp at h
      rcases h with rfl | h
      · exact .inr ⟨t, by simp, by rw [he]⟩
      · rcases ih h with h | ⟨c0, h1, h2⟩
        · exact .inl (by simp [h])
        · exact .inr ⟨c0, by simp [h1], h2⟩

theorem Task.Fresh.nested {t : Task} (h : t.Fresh) : t.Nested := by
  cases h with | mk _ _ _ _ a _ b c => exact ⟨a, b, c⟩

theorem Task.Fresh.retryOK {t : Task} (h : t.Fresh) : t.RetryOK := by
  cases h with | mk a => intro r hr; rw [a r hr]; exact Nat.zero_le _

theorem Task.Fresh.node0 {t : Task} (h : t.Fresh) : t.nodeID = 0 := by
  cases h with | mk _ a => exact a
theorem Task.Fresh.parent0 {t : Task} (h : t.Fresh) : t.parentID = 0 := by
  cases h with | mk _ _ a => exact a

theorem fresh_evaluate {tm : String → Except Err String} {t : Task} (h : t.Fresh) :
    (evaluateTask tm t).1.Fresh := by
  induction h with
  | @mk t retry node parent par parT ea eaT subT ihp ihe ihs =>
    obtain ⟨hf, hp⟩ := evaluateTask_frame tm t
    refine ⟨by rw [hf.retry]; exact retry, by rw [hf.nodeID]; exact node, by rw [hf.parentID]; exact parent,
      ?_, ?_, by rw [hf.each]; exact ea, by rw [hf.each]; exact eaT, ?_⟩
    · intro p hpp
      rcases hp with hp | ⟨p0, h1, h2⟩
      · exact par p (by rw [← hp, hpp])
      · rw [h2] at hpp; cases hpp; exact par p0 h1
    · intro p hpp c hc
      rcases hp with hp | ⟨p0, h1, h2⟩
      · exact parT p (by rw [← hp, hpp]) c hc
      · rw [h2] at hpp; cases hpp
        rcases mem_evalTasks hc with h3 | ⟨c0, h3, rfl⟩
        · exact parT p0 h1 c h3
        · exact ihp p0 h1 c0 h3
    · intro s hs c hc
      obtain ⟨s0, h1, h2⟩ := hf.subT s hs
      rw [h2] at hc; exact subT s0 h1 c hc

theorem nested_evaluate {tm : String → Except Err String} {t : Task} (h : t.Nested) :
    (evaluateTask tm t).1.Nested := by
  obtain ⟨hf, hp⟩ := evaluateTask_frame tm t
  refine ⟨?_, by rw [hf.each]; exact h.ea, ?_⟩
  · intro p hpp c hc
    rcases hp with hp | ⟨p0, h1, h2⟩
    · exact h.par p (by rw [← hp, hpp]) c hc
    · rw [h2] at hpp; cases hpp
      rcases mem_evalTasks hc with h3 | ⟨c0, h3, rfl⟩
      · exact h.par p0 h1 c h3
      · exact fresh_evaluate (h.par p0 h1 c0 h3)
  · intro s hs c hc
    obtain ⟨s0, h1, h2⟩ := hf.subT s hs
    rw [h2] at hc; exact h.sub s0 h1 c hc

/-! ## Clone -/

theorem cloneTasks_eq (ts : List Task) : cloneTasks ts = ts.map Task.clone := by
  induction ts with
  | nil => rw [cloneTasks]; rfl
  | cons t ts ih => rw [cloneTasks, ih]; rfl

/-- The fields of a clone that matter here. -/
structure CloneFrame (a b : Task) : Prop where
  id : b.id = a.id
  jobID : b.jobID = a.jobID
  parentID : b.parentID = a.parentID
  position : b.position = a.position
  state : b.state = a.state
  retry : b.retry = a.retry
  nodeID : b.nodeID = a.nodeID
  var : b.var = a.var
  detached : b.detachedSub = a.detachedSub
  par : b.parallel = a.parallel.map fun p => { tasks := p.tasks.map Task.clone, completions := p.completions }
  each : b.each = a.each.map fun e => { e with task := e.task.clone }
  sub : (b.subJob.isSome = a.subJob.isSome) ∧
    ∀ s', b.subJob = some s' → ∃ s, a.subJob = some s ∧ s'.tasks = s.tasks.map Task.clone

theorem clone_frame (t : Task) : CloneFrame t t.clone := by
  cases t with
  | mk id jobID parentID position name description state createdAt scheduledAt startedAt completedAt
    failedAt cmd entrypoint run image registry env files queue redelivered error pre post sidecars
    mounts networks nodeID retry limits timeout result var cond parallel each subJob gpus tags workdir
    priority progress probe =>
  rw [Task.clone]
  refine ⟨rfl, rfl, rfl, rfl, rfl, ?_, rfl, rfl, ?_, ?_, ?_, ?_, ?_⟩
  · cases retry <;> rfl
  · cases subJob with
    | none => simp [cloneSubJob, Task.detachedSub]
    | some s => cases s; simp [cloneSubJob, Task.detachedSub]
  · cases parallel with
    | none => simp [clonePar]
    | some p => cases p; simp [clonePar, cloneTasks_eq]
  · cases each with
    | none => simp [cloneEach]
    | some e => cases e; simp [cloneEach]
  · cases subJob with
    | none => simp [cloneSubJob]
    | some s => cases s; simp [cloneSubJob]
  · cases subJob with
    | none => simp [cloneSubJob]
    | some s =>
      cases s
      intro s' hs
      simp [cloneSubJob] at hs
      exact ⟨_, rfl, by rw [← hs, ← cloneTasks_eq]⟩

theorem fresh_clone {t : Task} (h : t.Fresh) : t.clone.Fresh := by
  induction h with
  | @mk t retry node parent par parT ea eaT subT ihp ihe ihs =>
    have hf := clone_frame t
    refine ⟨by rw [hf.retry]; exact retry, by rw [hf.nodeID]; exact node, by rw [hf.parentID]; exact parent,
      ?_, ?_, ?_, ?_, ?_⟩
    · intro p hp
      rw [hf.par] at hp
      cases hpp : t.parallel with
      | none => rw [hpp] at hp; simp at hp
      | some p0 => rw [hpp] at hp; simp at hp; rw [← hp]; exact par p0 hpp
    · intro p hp c hc
      rw [hf.par] at hp
      cases hpp : t.parallel with
      | none => rw [hpp] at hp; simp at hp
      | some p0 =>
        rw [hpp] at hp; simp at hp; rw [← hp] at hc
        obtain ⟨c0, h1, rfl⟩ := List.mem_map.1 hc
        exact ihp p0 hpp c0 h1
    · intro e he
      rw [hf.each] at he
      cases hee : t.each with
      | none => rw [hee] at he; simp at he
      | some e0 => rw [hee] at he; simp at he; rw [← he]; exact ea e0 hee
    · intro e he
      rw [hf.each] at he
      cases hee : t.each with
      | none => rw [hee] at he; simp at he
      | some e0 => rw [hee] at he; simp at he; rw [← he]; exact ihe e0 hee
    · intro s hs c hc
      obtain ⟨s0, h1, h2⟩ := hf.sub.2 s hs
      rw [h2] at hc
      obtain ⟨c0, h3, rfl⟩ := List.mem_map.1 hc
      exact ihs s0 h1 c0 h3

theorem nested_clone {t : Task} (h : t.Nested) : t.clone.Nested := by
  have hf := clone_frame t
  refine ⟨?_, ?_, ?_⟩
  · intro p hp c hc
    rw [hf.par] at hp
    cases hpp : t.parallel with
    | none => rw [hpp] at hp; simp at hp
    | some p0 =>
      rw [hpp] at hp; simp at hp; rw [← hp] at hc
      obtain ⟨c0, h1, rfl⟩ := List.mem_map.1 hc
      exact fresh_clone (h.par p0 hpp c0 h1)
  · intro e he
    rw [hf.each] at he
    cases hee : t.each with
    | none => rw [hee] at he; simp at he
    | some e0 => rw [hee] at he; simp at he; rw [← he]; exact fresh_clone (h.ea e0 hee)
  · intro s hs c hc
    obtain ⟨s0, h1, h2⟩ := hf.sub.2 s hs
    rw [h2] at hc
    obtain ⟨c0, h3, rfl⟩ := List.mem_map.1 hc
    exact fresh_clone (h.sub s0 h1 c0 h3)

theorem static_clone (t : Task) : t.clone.static = t.static := by
  have hf := clone_frame t
  simp only [Task.static, hf.jobID, hf.parentID, hf.position, hf.par, hf.each, hf.sub.1, hf.var, hf.detached,
    Task.branches]
  cases t.parallel <;> simp

/-! ## The shared command line -/

theorem Task.mapCmds_eq (g : String → String) (t : Task) : t.mapCmds g = { t with
    cmd := t.cmd.map g, pre := mapCmdsL g t.pre, post := mapCmdsL g t.post, parallel := mapCmdsP g t.parallel } := by
  cases t; rw [Task.mapCmds]

theorem mapCmdsL_eq (g : String → String) (ts : List Task) : mapCmdsL g ts = ts.map (Task.mapCmds g) := by
  induction ts with
  | nil => rw [mapCmdsL]; rfl
  | cons t ts ih => rw [mapCmdsL, ih]; rfl

theorem mapCmdsP_some (g : String → String) (p : ParallelTask Task) :
    mapCmdsP g (some p) = some { tasks := p.tasks.map (Task.mapCmds g), completions := p.completions } := by
  cases p; rw [mapCmdsP, mapCmdsL_eq]

theorem fresh_mapCmds (g : String → String) {t : Task} (h : t.Fresh) : (t.mapCmds g).Fresh := by
  induction h with
  | @mk t retry node parent par parT ea eaT subT ihp ihe ihs =>
    rw [Task.mapCmds_eq]
    refine ⟨retry, node, parent, ?_, ?_, ea, eaT, subT⟩
    · intro p hp
      cases htp : t.parallel with
      | none => simp [htp, mapCmdsP] at hp
      | some p0 => simp [htp, mapCmdsP_some] at hp; subst hp; exact par p0 htp
    · intro p hp c hc
      cases htp : t.parallel with
      | none => simp [htp, mapCmdsP] at hp
      | some p0 =>
        simp [htp, mapCmdsP_some] at hp
        subst hp
        obtain ⟨c0, hc0, rfl⟩ := List.mem_map.1 hc
        exact ihp p0 htp c0 hc0

/-! ## Counters -/

theorem Task.Fresh.count0 {t : Task} (h : t.Fresh) : t.count = 0 := by
  cases h with
  | mk _ _ _ par _ ea _ _ =>
    unfold Task.count
    cases hp : t.parallel with
    | some p => exact par p hp
    | none =>
      cases he : t.each with
      | some e => exact ea e he
      | none => rfl

theorem count_evaluate (tm : String → Except Err String) (t : Task) : (evaluateTask tm t).1.count = t.count := by
  obtain ⟨hf, hp⟩ := evaluateTask_frame tm t
  unfold Task.count
  rw [hf.each]
  rcases hp with hp | ⟨p, h1, h2⟩
  · rw [hp]
  · rw [h1, h2]

theorem count_clone (t : Task) : t.clone.count = t.count := by
  have hf := clone_frame t
  unfold Task.count
  rw [hf.par, hf.each]
  cases t.parallel <;> cases t.each <;> rfl

end Tork
