import Verif.Props.Fanout
/-!
# C11, C12, C13, C20 — the completion of a child of a parallel or each task
-/

namespace Tork
open Prog

/-! ## Specification -/

/-- `j'` is `j` with the result of `t` recorded in its context, nothing else changed. -/
def Recorded (t : Task) (j j' : Job) : Prop := j' = { j with context := j.context.record t }

/-- `p'` is the row of a parallel task `p` after one more branch finished. -/
def BranchCounted (par : ParallelTask Task) (p p' : Task) : Prop :=
  p' = { resave p with parallel := some { par with completions := par.completions + 1 } }

/-- `p'` is the row of an each task `p` after one more child finished. -/
def ItemCounted (e : EachTask Task) (p p' : Task) : Prop :=
  p' = { resave p with each := some { e with completions := e.completions + 1, index := e.index + 1 } }

/-! ## Lemmas -/

theorem contextTx_exec {t : Task} {j : Job} {ds : DS} (hj : ds.job? t.jobID = some j) :
    ∃ ds', contextTx t ds = .ok ((), ds') ∧ ds'.tasks = ds.tasks ∧
      (∀ k, ds'.job? k = if k = t.jobID then some { j with context := j.context.record t } else ds.job? k) := by
  unfold contextTx
  by_cases h : t.result ≠ "" ∧ t.var ≠ ""
  · rw [if_pos h, updateJob'_of hj]
    refine ⟨_, rfl, rfl, fun k => ?_⟩
    rw [job?_set_eq hj]
    unfold JobContext.record
    rw [if_pos h]
    rfl
  · rw [if_neg h]
    refine ⟨_, rfl, rfl, fun k => ?_⟩
    unfold JobContext.record
    rw [if_neg h]
    by_cases hk : k = t.jobID
    · rw [if_pos hk, hk, hj]
    · rw [if_neg hk]

theorem subTaskTx_exec {γ : Type} {t u p p' : Task} {j : Job} {ds : DS} {m : Task → Except Err (γ × Task)} {g : γ} {now : Nat}
    (hnow : t.completedAt = some now)
    (hu : ds.task? t.id = some u) (hf : u.Finishable) (hp : ds.task? t.parentID = some p) (hne : t.parentID ≠ t.id)
    (hm : m p = .ok (g, p')) (hj : ds.job? t.jobID = some j) :
    ∃ ds', subTaskTx t m ds = .ok (g, ds') ∧
      (∀ k, ds'.task? k = if k = t.id then some (finishedRow t u now) else if k = t.parentID then some (persistTask p p') else ds.task? k) ∧
      (∀ k, ds'.job? k = if k = t.jobID then some { j with context := j.context.record t } else ds.job? k) := by
  have h1 : completeTaskRow t u = .ok ((), finRow t u) := by
    unfold completeTaskRow
    rw [if_neg (by intro h; rcases hf with hf | hf | hf <;> simp [hf] at h)]
    rfl
  have hp1 : (ds.setTask t.id (finRow t u)).task? t.parentID = some p := by
    rw [task?_set_eq hu, if_neg hne]; exact hp
  obtain ⟨ds', h2, h3, h4⟩ := contextTx_exec (t := t) (j := j) (ds := (ds.setTask t.id (finRow t u)).setTask t.parentID p') hj
  refine ⟨ds', ?_, fun k => ?_, h4⟩
  · unfold subTaskTx
    rw [updateTask_of hu h1]
    simp only
    rw [updateTask_of hp1 hm]
    simp only
    rw [h2]
  · unfold DS.task?
    rw [h3]
    show DS.task? ((ds.setTask t.id (finRow t u)).setTask t.parentID p') k = _
    rw [task?_set_eq hp1, task?_set_eq hu, finRow_eq' hnow]
    by_cases hk : k = t.id
    · rw [if_neg (by rw [hk]; exact Ne.symm hne), if_pos hk, if_pos hk]
    · rw [if_neg hk, if_neg hk]; rfl

/-- The handler of a child's completion, up to the parent's own completion. -/
theorem completedHandler_child (C : Cfg) (fuel : Nat) {t p p1 : Task} {s : Sys} {ds' : DS} {ms : List Msg} {last : Bool}
    (hst : t.state = .completed ∨ t.state = .skipped) (hchild : t.parentID ≠ 0) (hp : s.ds.task? t.parentID = some p)
    (hrun : (if p.parallel.isSome then DbOp.of (subTaskTx { t with completedAt := some s.clock } parallelRow)
      else eachTx { t with completedAt := some s.clock }).run s.ds = (.ok last, ds', ms)) (hp1 : ds'.task? t.parentID = some p1) :
    (last = false → (wrapTask C (completedHandler C (fuel + 1)) t).exec s = (some none, (s.ticked.withDs ds').send ms)) ∧
    (∀ s', last = true → (completeTask C fuel { p1 with state := .completed, completedAt := some s.ticked.clock }).exec
        ((s.ticked.withDs ds').send ms).ticked = (some none, s') →
      (wrapTask C (completedHandler C (fuel + 1)) t).exec s = (some none, s')) := by
  have key : ∀ s', ((if last then
        ((tx (getTask t.parentID)).bind fun r => match r with
          | .error _ => Prog.ret (some "error fetching the parent task")
          | .ok parent => Prog.now.bind fun now => completeTask C fuel { parent with state := .completed, completedAt := some now })
      else Prog.ret none)).exec ((s.ticked.withDs ds').send ms) = (some none, s') →
      (wrapTask C (completedHandler C (fuel + 1)) t).exec s = (some none, s') := by
    intro s' h
    refine wrapTask_ok (x := { t with completedAt := some s.clock }) ?_
    unfold completedHandler
    simp only [bind_eq, pure_eq]
    rw [exec_now, if_neg (by rcases hst with h | h <;> simp [h])]
    refine exec_bind_of (b := none) ?_
    rw [completeTask, if_pos hchild]
    simp only [bind_eq, pure_eq]
    rw [exec_read (s := s.ticked) (getTask_of (t := p) hp)]
    simp only
    by_cases hpar : p.parallel.isSome
    · rw [if_pos hpar]
      rw [if_pos hpar] at hrun
      have e : ∀ k : Except Err Bool → Prog Res, Prog.exec ((tx (subTaskTx { t with completedAt := some s.clock } parallelRow)).bind k) s.ticked =
          (k (.ok last)).exec ((s.ticked.withDs ds').send ms) := by
        intro k
        show Prog.exec ((txOp (DbOp.of (subTaskTx { t with completedAt := some s.clock } parallelRow))).bind k) s.ticked = _
        rw [exec_txOp, show s.ticked.ds = s.ds from rfl, hrun]
      rw [e]
      exact h
    · rw [if_neg hpar]
      rw [if_neg hpar] at hrun
      rw [exec_txOp, show s.ticked.ds = s.ds from rfl, hrun]
      exact h
  refine ⟨fun h => key _ ?_, fun s' h hx => key _ ?_⟩
  · rw [if_neg (by simp [h])]; rfl
  · rw [if_pos h, exec_read (s := (s.ticked.withDs ds').send ms) (getTask_of (t := p1) hp1)]
    simp only
    rw [exec_now]
    exact hx

/-- The parent's row after the child finished, and whether it was the last one. -/
def Counted (p pc : Task) (last : Prop) : Prop :=
  (∃ par, p.parallel = some par ∧ BranchCounted par p pc ∧ (last ↔ par.tasks.length ≤ par.completions + 1)) ∨
  (p.parallel = none ∧ ∃ e, p.each = some e ∧ ItemCounted e p pc ∧ (last ↔ e.size ≤ e.completions + 1))

/-- The database operation of a child's completion when no further child is to be released. -/
theorem childOp_exec {t u p pc : Task} {j : Job} {ds : DS} {now : Nat} {last : Prop} (hnow : t.completedAt = some now)
    (hu : ds.task? t.id = some u) (hf : u.Finishable) (hp : ds.task? t.parentID = some p) (hne : t.parentID ≠ t.id)
    (hj : ds.job? t.jobID = some j) (hc : Counted p pc last)
    (hno : ∀ e, p.parallel = none → p.each = some e → last ∨ e.concurrency = 0 ∨ e.size ≤ e.index) :
    ∃ (ds' : DS) (b : Bool), (b = true ↔ last) ∧
      (if p.parallel.isSome then DbOp.of (subTaskTx t parallelRow) else eachTx t).run ds = (.ok b, ds', []) ∧
      (∀ k, ds'.task? k = if k = t.id then some (finishedRow t u now) else if k = t.parentID then some pc else ds.task? k) ∧
      (∀ k, ds'.job? k = if k = t.jobID then some { j with context := j.context.record t } else ds.job? k) := by
  rcases hc with ⟨par, h1, h2, h3⟩ | ⟨h0, e, h1, h2, h3⟩
  · obtain ⟨ds', q1, q2, q3⟩ := subTaskTx_exec (m := parallelRow) (g := decide (par.completions + 1 ≥ par.tasks.length))
      (p' := { p with parallel := some { par with completions := par.completions + 1 } }) hnow hu hf hp hne
      (by unfold parallelRow; rw [h1]) hj
    refine ⟨ds', decide (par.completions + 1 ≥ par.tasks.length), ?_, ?_, fun k => ?_, q3⟩
    · rw [h3, decide_eq_true_eq]
    · rw [if_pos (by rw [h1]; rfl)]
      simp only [DbOp.of, q1]
    · rw [q2, h2]; rfl
  · obtain ⟨ds', q1, q2, q3⟩ := subTaskTx_exec (m := eachParentRow) (g := decide (e.completions + 1 ≥ e.size))
      (p' := { p with each := some { e with completions := e.completions + 1, index := e.index + 1 } }) hnow hu hf hp hne
      (by unfold eachParentRow; rw [h1]) hj
    have hnx : eachNext t ds = .ok none := by
      unfold eachNext
      rw [hu]
      simp only
      have h1' : completeTaskRow t u = .ok ((), finRow t u) := by
        unfold completeTaskRow
        rw [if_neg (by intro h; rcases hf with hf | hf | hf <;> simp [hf] at h)]
        rfl
      rw [h1']
      simp only
      rw [hp]
      simp only
      rw [h1]
      simp only
      rw [if_neg]
      unfold eachFires
      rcases hno e h0 h1 with h | h | h
      · have := h3.1 h; simp; omega
      · simp [h]
      · simp; omega
    refine ⟨ds', decide (e.completions + 1 ≥ e.size), ?_, ?_, fun k => ?_, q3⟩
    · rw [h3, decide_eq_true_eq]
    · rw [if_neg (by rw [h0]; simp)]
      unfold eachTx
      simp only [hnx, q1]
    · rw [q2, h2]; rfl

/-- A child of a composite task reports that it is done. -/
structure ChildDone (s : Sys) (t u p : Task) (j : Job) : Prop where
  state : t.state = .completed ∨ t.state = .skipped
  child : t.parentID ≠ 0
  row : s.ds.task? t.id = some u
  open_ : u.Finishable
  parent : s.ds.task? t.parentID = some p
  other : t.parentID ≠ t.id
  job : s.ds.job? t.jobID = some j

/-- A child that is not the last one: the child is finished, the parent counts it, the child's result is recorded; nothing
is sent and nothing else changes (except, for an each task with a concurrency limit, the release of a next child:
`C13_release`). -/
theorem child_not_last (C : Cfg) (fuel : Nat) {t u p pc : Task} {j : Job} {s : Sys} (h : ChildDone s t u p j)
    (hc : Counted p pc False)
    (hno : ∀ e, p.parallel = none → p.each = some e → e.concurrency = 0 ∨ e.size ≤ e.index) :
    ∃ (q : Prog Res) (s' : Sys) (j' : Job) (now : Nat),
      coordinatorHandler C (fuel + 1) (.task "completed" t) = some q ∧ q.exec s = (some none, s') ∧
      Recorded t j j' ∧ s'.out = s.out ∧
      (∀ k, s'.ds.job? k = if k = t.jobID then some j' else s.ds.job? k) ∧
      (∀ k, s'.ds.task? k = if k = t.id then some (finishedRow t u now) else if k = t.parentID then some pc else s.ds.task? k) := by
  obtain ⟨ds', b, h1, h2, h3, h4⟩ := childOp_exec (t := { t with completedAt := some s.clock }) rfl h.row h.open_ h.parent h.other h.job hc
    (fun e a b => .inr (hno e a b))
  have hb : b = false := by cases b; · rfl
                            · exact (h1.1 rfl).elim
  refine ⟨_, _, { j with context := j.context.record t }, s.clock, coord_completed C _ t,
    (completedHandler_child C fuel h.state h.child h.parent h2 (p1 := pc) ?_).1 hb, rfl, ?_, h4, h3⟩
  · rw [h3]; rw [if_neg h.other, if_pos rfl]
  · show s.out ++ [] = _; simp

theorem resave_counted {p pc : Task} {last : Prop} (h : Counted p pc last) :
    ∀ (st : TaskState) (at' : Option Nat), ({ resave pc with state := st, completedAt := at', result := sanitizeString pc.result } : Task) =
      { pc with state := st, completedAt := at' } := by
  intro st at'
  rcases h with ⟨par, -, b, -⟩ | ⟨-, e, -, b, -⟩ <;> rw [b] <;> simp [resave, sanitize_idem]

/-- The last child of a top-level composite task whose job has a next task. -/
theorem child_last_next (C : Cfg) (fuel : Nat) {t u p pc d : Task} {j : Job} {s : Sys} (h : ChildDone s t u p j)
    (hc : Counted p pc True) (htop : p.parentID = 0) (hpf : p.Finishable) (hpj : p.jobID = t.jobID) (hres : p.result = "")
    (hd : j.tasks[j.position]? = some d) (hfresh : s.ds.task? s.next = none) :
    ∃ (q : Prog Res) (s' : Sys) (x : Task) (j' : Job) (now now' : Nat),
      coordinatorHandler C (fuel + 2) (.task "completed" t) = some q ∧ q.exec s = (some none, s') ∧
      j'.position = j.position + 1 ∧ j'.context = j.context.record t ∧
      j' = { j with position := j'.position, context := j'.context, progress := j'.progress } ∧
      InstanceOf C j'.context d s.next t.jobID (j.position + 1) x ∧
      s'.out = s.out ++ [.task "pending" x] ∧
      (∀ k, s'.ds.job? k = if k = t.jobID then some j' else s.ds.job? k) ∧
      (∀ k, s'.ds.task? k = if k = t.id then some (finishedRow t u now) else
        if k = t.parentID then some { pc with state := .completed, completedAt := some now' } else
        if k = s.next then some (taskRow x) else s.ds.task? k) := by
  obtain ⟨ds', b, h1, h2, h3, h4⟩ := childOp_exec (t := { t with completedAt := some s.clock }) rfl h.row h.open_ h.parent h.other h.job hc
    (fun _ _ _ => .inl trivial)
  have hb : b = true := h1.2 trivial
  have hpid : p.id = t.parentID := (task?_mem h.parent).2
  -- the counted row of the parent
  have hpc : pc.id = p.id ∧ pc.jobID = p.jobID ∧ pc.parentID = p.parentID ∧ pc.state = p.state ∧ pc.result = "" ∧ pc.error = sanitizeString p.error := by
    rcases hc with ⟨par, a, b, -⟩ | ⟨-, e, a, b, -⟩
    · rw [b]; exact ⟨rfl, rfl, rfl, rfl, by show sanitizeString p.result = ""; rw [hres]; rfl, rfl⟩
    · rw [b]; exact ⟨rfl, rfl, rfl, rfl, by show sanitizeString p.result = ""; rw [hres]; rfl, rfl⟩
  obtain ⟨c1, c2, c3, c4, c5, c6⟩ := hpc
  have hp1 : ds'.task? t.parentID = some pc := (h3 _).trans ((if_neg h.other).trans (if_pos rfl))
  let pd : Task := { pc with state := .completed, completedAt := some s.ticked.clock }
  let s1 := ((s.ticked.withDs ds').send []).ticked
  obtain ⟨s', x, j', g1, g2, g3, g4, g5, g6⟩ := topLevel_next_exec C (t := pd) (s := s1) (u := pc) (d := d)
    (j := { j with context := j.context.record t }) rfl
    (by show ds'.task? pc.id = _; rw [c1, hpid]; exact hp1)
    (by unfold Task.Finishable; rw [c4]; exact hpf)
    (by show ds'.job? pc.jobID = _; rw [c2, hpj]; exact (h4 _).trans (if_pos rfl))
    hd
    (by
      show ds'.task? s.next = none
      rw [h3]
      rw [if_neg (by intro e; rw [show s.next = t.id from e, h.row] at hfresh; cases hfresh),
        if_neg (by intro e; rw [show s.next = t.parentID from e, h.parent] at hfresh; cases hfresh)]
      exact hfresh)
  have hctx : j'.context = j.context.record t := by
    rw [g2.context]
    show JobContext.record (j.context.record t) pd = _
    conv => lhs; unfold JobContext.record
    rw [if_neg (by intro hh; exact hh.1 c5)]
    rfl
  refine ⟨_, s', x, j', s.clock, s.ticked.clock, coord_completed C _ t,
    (completedHandler_child C (fuel + 1) h.state h.child h.parent h2 hp1).2 s' hb ?_, g2.position, hctx, ?_, ?_, ?_, ?_, ?_⟩
  · rw [completeTask, if_neg (by show ¬ pc.parentID ≠ 0; rw [c3, htop]; simp)]
    exact g1
  · have := g2.rest
    rw [this]
  · have e : pd.jobID = t.jobID := by show pc.jobID = _; rw [c2, hpj]
    rw [← e]; exact g3
  · rw [g4]; show s.out ++ [] ++ _ = _; simp
  · intro k
    rw [g5]
    have e : pd.jobID = t.jobID := by show pc.jobID = _; rw [c2, hpj]
    rw [e]
    by_cases hk : k = t.jobID
    · rw [if_pos hk, if_pos hk]
    · rw [if_neg hk, if_neg hk]
      show ds'.job? k = _
      rw [h4]; rw [if_neg hk]
  · intro k
    rw [g6]
    have e : pd.id = t.parentID := by show pc.id = _; rw [c1, hpid]
    have en : s1.next = s.next := rfl
    have ed : s1.ds = ds' := rfl
    rw [e, en, ed]
    have ef : finishedRow pd pc s.ticked.clock = { pc with state := .completed, completedAt := some s.ticked.clock } := by
      unfold finishedRow
      exact resave_counted hc .completed (some s.ticked.clock)
    rw [ef]
    have h3' := h3 k
    by_cases hk : k = t.id
    · rw [if_neg (by rw [hk]; exact Ne.symm h.other), if_neg (by intro e; rw [← e, hk, h.row] at hfresh; cases hfresh), if_pos hk]
      rw [h3']; exact if_pos hk
    · rw [if_neg hk]
      by_cases hk2 : k = t.parentID
      · rw [if_pos hk2, if_pos hk2]; rw [c1, hpid]
      · rw [if_neg hk2, if_neg hk2]
        by_cases hk3 : k = s.next
        · rw [if_pos hk3, if_pos hk3]
        · rw [if_neg hk3, if_neg hk3, h3']
          exact (if_neg hk).trans (if_neg hk2)

/-- The last child of a top-level composite task that is the last task of its job. -/
theorem child_last_end (C : Cfg) (fuel : Nat) {t u p pc : Task} {j : Job} {s : Sys} (h : ChildDone s t u p j)
    (hc : Counted p pc True) (htop : p.parentID = 0) (hpf : p.Finishable) (hpj : p.jobID = t.jobID) (hres : p.result = "")
    (hrun : j.state = .running ∨ j.state = .scheduled) (hlast : j.tasks.length ≤ j.position)
    (hpar : j.parentID ≠ 0 → ∃ pt, s.ds.task? j.parentID = some pt ∧ j.parentID ≠ t.id ∧ j.parentID ≠ t.parentID)
    (hout : ∀ sd, ∃ r, evaluateTemplate C.O ⟨j.context.record t, none⟩ sd j.output = .ok r) :
    ∃ (q : Prog Res) (s' : Sys) (j1 j' : Job) (now now' sd : Nat) (r : String) (m : Msg),
      coordinatorHandler C (fuel + 2) (.task "completed" t) = some q ∧ q.exec s = (some none, s') ∧
      evaluateTemplate C.O ⟨j.context.record t, none⟩ sd j.output = .ok r ∧
      j1 = { j with position := j.position + 1, context := j.context.record t, progress := j1.progress } ∧
      JobCompleted C j1 r j' ∧ EndNotice s.ds j r m ∧ s'.out = s.out ++ [m] ∧
      (∀ k, s'.ds.job? k = if k = t.jobID then some j' else s.ds.job? k) ∧
      (∀ k, s'.ds.task? k = if k = t.id then some (finishedRow t u now) else
        if k = t.parentID then some { pc with state := .completed, completedAt := some now' } else s.ds.task? k) := by
  obtain ⟨ds', b, h1, h2, h3, h4⟩ := childOp_exec (t := { t with completedAt := some s.clock }) rfl h.row h.open_ h.parent h.other h.job hc
    (fun _ _ _ => .inl trivial)
  have hb : b = true := h1.2 trivial
  have hpid : p.id = t.parentID := (task?_mem h.parent).2
  have hpc : pc.id = p.id ∧ pc.jobID = p.jobID ∧ pc.parentID = p.parentID ∧ pc.state = p.state ∧ pc.result = "" := by
    rcases hc with ⟨par, a, b, -⟩ | ⟨-, e, a, b, -⟩
    · rw [b]; exact ⟨rfl, rfl, rfl, rfl, by show sanitizeString p.result = ""; rw [hres]; rfl⟩
    · rw [b]; exact ⟨rfl, rfl, rfl, rfl, by show sanitizeString p.result = ""; rw [hres]; rfl⟩
  obtain ⟨c1, c2, c3, c4, c5⟩ := hpc
  have hp1 : ds'.task? t.parentID = some pc := (h3 _).trans ((if_neg h.other).trans (if_pos rfl))
  let pd : Task := { pc with state := .completed, completedAt := some s.ticked.clock }
  let s1 := ((s.ticked.withDs ds').send []).ticked
  have hrec : (j.context.record t).record pd = j.context.record t := by
    conv => lhs; unfold JobContext.record
    rw [if_neg (by intro hh; exact hh.1 c5)]
    rfl
  obtain ⟨s', j1, j', sd, r, m, g1, g2, g3, g4, g5, g6, g7, g8⟩ := topLevel_last_exec C (t := pd) (s := s1) (u := pc)
    (j := { j with context := j.context.record t }) rfl
    (by show ds'.task? pc.id = _; rw [c1, hpid]; exact hp1)
    (by unfold Task.Finishable; rw [c4]; exact hpf)
    (by show ds'.job? pc.jobID = _; rw [c2, hpj]; exact (h4 _).trans (if_pos rfl))
    hrun hlast
    (by
      intro hp
      obtain ⟨pt, e1, e2, e3⟩ := hpar hp
      refine ⟨pt, ?_, ?_⟩
      · show ds'.task? j.parentID = _
        exact (h3 _).trans ((if_neg e2).trans ((if_neg e3).trans e1))
      · show j.parentID ≠ pc.id
        rw [c1, hpid]; exact e3)
    (by
      intro sd
      show ∃ r, evaluateTemplate C.O ⟨(j.context.record t).record pd, none⟩ sd j.output = .ok r
      rw [hrec]; exact hout sd)
  have g2 : evaluateTemplate C.O ⟨(j.context.record t).record pd, none⟩ sd j.output = .ok r := g2
  rw [hrec] at g2
  have hj1 : j1 = { j with position := j.position + 1, context := j.context.record t, progress := j1.progress } := by
    have e1 := g3.rest
    have e2 : j1.context = (j.context.record t).record pd := g3.context
    have e3 : j1.position = j.position + 1 := g3.position
    rw [hrec] at e2
    rw [e1, e2, e3]
  refine ⟨_, s', j1, j', s.clock, s.ticked.clock, sd, r, m, coord_completed C _ t,
    (completedHandler_child C (fuel + 1) h.state h.child h.parent h2 hp1).2 s' hb ?_, g2, hj1, g4, ?_, ?_, ?_, ?_⟩
  · rw [completeTask, if_neg (by show ¬ pc.parentID ≠ 0; rw [c3, htop]; simp)]
    exact g1
  · rcases g5 with ⟨e0, e⟩ | ⟨e0, pt, nw, e1, e2⟩
    · exact .inl ⟨e0, e⟩
    · obtain ⟨pt', f1, f2, f3⟩ := hpar e0
      have e1 : ds'.task? j.parentID = some pt := e1
      have : ds'.task? j.parentID = some pt' := (h3 _).trans ((if_neg f2).trans ((if_neg f3).trans f1))
      rw [this] at e1
      cases e1
      exact .inr ⟨e0, pt, nw, f1, e2⟩
  · rw [g6]; show s.out ++ [] ++ _ = _; simp
  · intro k
    rw [g7]
    have e : pd.jobID = t.jobID := by show pc.jobID = _; rw [c2, hpj]
    rw [e]
    by_cases hk : k = t.jobID
    · rw [if_pos hk, if_pos hk]
    · rw [if_neg hk, if_neg hk]
      exact (h4 k).trans (if_neg hk)
  · intro k
    rw [g8]
    have e : pd.id = t.parentID := by show pc.id = _; rw [c1, hpid]
    have ed : s1.ds = ds' := rfl
    rw [e, ed]
    have ef : finishedRow pd pc s.ticked.clock = { pc with state := .completed, completedAt := some s.ticked.clock } :=
      resave_counted hc .completed (some s.ticked.clock)
    rw [ef]
    by_cases hk : k = t.id
    · rw [if_neg (by rw [hk]; exact Ne.symm h.other), if_pos hk]
      exact (h3 k).trans (if_pos hk)
    · rw [if_neg hk]
      by_cases hk2 : k = t.parentID
      · rw [if_pos hk2, if_pos hk2]; rw [c1, hpid]
      · rw [if_neg hk2, if_neg hk2]
        exact (h3 k).trans ((if_neg hk).trans (if_neg hk2))

/-! ## Theorems -/

/-- **C11.** A branch of a parallel task finishes and is *not* the last one: the branch's row is finished, the parallel task
counts one more completed branch and stays as it is otherwise, the branch's result is recorded in the job's context;
nothing is sent and nothing else changes. -/
theorem C11_branch (C : Cfg) (fuel : Nat) {t u p : Task} {par : ParallelTask Task} {j : Job} {s : Sys} (h : ChildDone s t u p j)
    (hpar : p.parallel = some par) (hmore : par.completions + 1 < par.tasks.length) :
    ∃ (q : Prog Res) (s' : Sys) (j' : Job) (now : Nat),
      coordinatorHandler C (fuel + 1) (.task "completed" t) = some q ∧ q.exec s = (some none, s') ∧
      Recorded t j j' ∧ s'.out = s.out ∧
      (∀ k, s'.ds.job? k = if k = t.jobID then some j' else s.ds.job? k) ∧
      (∀ k, s'.ds.task? k = if k = t.id then some (finishedRow t u now) else
        if k = t.parentID then some { resave p with parallel := some { par with completions := par.completions + 1 } } else s.ds.task? k) :=
  child_not_last C fuel h (.inl ⟨par, hpar, rfl, by simp; omega⟩) (fun e h0 => by rw [hpar] at h0; cases h0)

/-- **C11.** The last branch of a (top-level) parallel task finishes and the job has a next task: besides the effects of
`C11_branch` the parallel task itself is COMPLETED, the job moves on by one, and the next task is created and queued,
evaluated in the context that includes the branch's result. -/
theorem C11_last_branch_next (C : Cfg) (fuel : Nat) {t u p d : Task} {par : ParallelTask Task} {j : Job} {s : Sys} (h : ChildDone s t u p j)
    (hpar : p.parallel = some par) (hlast : par.tasks.length ≤ par.completions + 1)
    (htop : p.parentID = 0) (hpf : p.Finishable) (hpj : p.jobID = t.jobID) (hres : p.result = "")
    (hd : j.tasks[j.position]? = some d) (hfresh : s.ds.task? s.next = none) :
    ∃ (q : Prog Res) (s' : Sys) (x : Task) (j' : Job) (now now' : Nat),
      coordinatorHandler C (fuel + 2) (.task "completed" t) = some q ∧ q.exec s = (some none, s') ∧
      j'.position = j.position + 1 ∧ j'.context = j.context.record t ∧
      j' = { j with position := j'.position, context := j'.context, progress := j'.progress } ∧
      InstanceOf C j'.context d s.next t.jobID (j.position + 1) x ∧
      s'.out = s.out ++ [.task "pending" x] ∧
      (∀ k, s'.ds.job? k = if k = t.jobID then some j' else s.ds.job? k) ∧
      (∀ k, s'.ds.task? k = if k = t.id then some (finishedRow t u now) else
        if k = t.parentID then some { resave p with parallel := some { par with completions := par.completions + 1 }
                                                    state := .completed, completedAt := some now' } else
        if k = s.next then some (taskRow x) else s.ds.task? k) :=
  child_last_next C fuel h (.inl ⟨par, hpar, rfl, by simp; omega⟩) htop hpf hpj hres hd hfresh

/-- **C11.** The last branch of a (top-level) parallel task finishes and there is no next task: the parallel task and the
job are COMPLETED. -/
theorem C11_last_branch_end (C : Cfg) (fuel : Nat) {t u p : Task} {par : ParallelTask Task} {j : Job} {s : Sys} (h : ChildDone s t u p j)
    (hpar : p.parallel = some par) (hlast : par.tasks.length ≤ par.completions + 1)
    (htop : p.parentID = 0) (hpf : p.Finishable) (hpj : p.jobID = t.jobID) (hres : p.result = "")
    (hrun : j.state = .running ∨ j.state = .scheduled) (hend : j.tasks.length ≤ j.position)
    (hsub : j.parentID ≠ 0 → ∃ pt, s.ds.task? j.parentID = some pt ∧ j.parentID ≠ t.id ∧ j.parentID ≠ t.parentID)
    (hout : ∀ sd, ∃ r, evaluateTemplate C.O ⟨j.context.record t, none⟩ sd j.output = .ok r) :
    ∃ (q : Prog Res) (s' : Sys) (j1 j' : Job) (now now' sd : Nat) (r : String) (m : Msg),
      coordinatorHandler C (fuel + 2) (.task "completed" t) = some q ∧ q.exec s = (some none, s') ∧
      evaluateTemplate C.O ⟨j.context.record t, none⟩ sd j.output = .ok r ∧
      j1 = { j with position := j.position + 1, context := j.context.record t, progress := j1.progress } ∧
      JobCompleted C j1 r j' ∧ EndNotice s.ds j r m ∧ s'.out = s.out ++ [m] ∧
      (∀ k, s'.ds.job? k = if k = t.jobID then some j' else s.ds.job? k) ∧
      (∀ k, s'.ds.task? k = if k = t.id then some (finishedRow t u now) else
        if k = t.parentID then some { resave p with parallel := some { par with completions := par.completions + 1 }
                                                    state := .completed, completedAt := some now' } else s.ds.task? k) :=
  child_last_end C fuel h (.inl ⟨par, hpar, rfl, by simp; omega⟩) htop hpf hpj hres hrun hend hsub hout

/-- **C12.** A child of an each task finishes, is not the last one, and no child is held back: the effects are those of
`C11_branch`. -/
theorem C12_item (C : Cfg) (fuel : Nat) {t u p : Task} {e : EachTask Task} {j : Job} {s : Sys} (h : ChildDone s t u p j)
    (hpar : p.parallel = none) (he : p.each = some e) (hmore : e.completions + 1 < e.size)
    (hfree : e.concurrency = 0 ∨ e.size ≤ e.index) :
    ∃ (q : Prog Res) (s' : Sys) (j' : Job) (now : Nat),
      coordinatorHandler C (fuel + 1) (.task "completed" t) = some q ∧ q.exec s = (some none, s') ∧
      Recorded t j j' ∧ s'.out = s.out ∧
      (∀ k, s'.ds.job? k = if k = t.jobID then some j' else s.ds.job? k) ∧
      (∀ k, s'.ds.task? k = if k = t.id then some (finishedRow t u now) else
        if k = t.parentID then some { resave p with each := some { e with completions := e.completions + 1, index := e.index + 1 } } else
        s.ds.task? k) :=
  child_not_last C fuel h (.inr ⟨hpar, e, he, rfl, by simp; omega⟩) (fun e' _ h1 => by rw [he] at h1; cases h1; exact hfree)

/-- **C12.** The last child of a (top-level) each task finishes and the job has a next task. -/
theorem C12_last_item_next (C : Cfg) (fuel : Nat) {t u p d : Task} {e : EachTask Task} {j : Job} {s : Sys} (h : ChildDone s t u p j)
    (hpar : p.parallel = none) (he : p.each = some e) (hlast : e.size ≤ e.completions + 1)
    (htop : p.parentID = 0) (hpf : p.Finishable) (hpj : p.jobID = t.jobID) (hres : p.result = "")
    (hd : j.tasks[j.position]? = some d) (hfresh : s.ds.task? s.next = none) :
    ∃ (q : Prog Res) (s' : Sys) (x : Task) (j' : Job) (now now' : Nat),
      coordinatorHandler C (fuel + 2) (.task "completed" t) = some q ∧ q.exec s = (some none, s') ∧
      j'.position = j.position + 1 ∧ j'.context = j.context.record t ∧
      j' = { j with position := j'.position, context := j'.context, progress := j'.progress } ∧
      InstanceOf C j'.context d s.next t.jobID (j.position + 1) x ∧
      s'.out = s.out ++ [.task "pending" x] ∧
      (∀ k, s'.ds.job? k = if k = t.jobID then some j' else s.ds.job? k) ∧
      (∀ k, s'.ds.task? k = if k = t.id then some (finishedRow t u now) else
        if k = t.parentID then some { resave p with each := some { e with completions := e.completions + 1, index := e.index + 1 }
                                                    state := .completed, completedAt := some now' } else
        if k = s.next then some (taskRow x) else s.ds.task? k) :=
  child_last_next C fuel h (.inr ⟨hpar, e, he, rfl, by simp; omega⟩) htop hpf hpj hres hd hfresh

/-- **C12.** The last child of a (top-level) each task finishes and there is no next task. -/
theorem C12_last_item_end (C : Cfg) (fuel : Nat) {t u p : Task} {e : EachTask Task} {j : Job} {s : Sys} (h : ChildDone s t u p j)
    (hpar : p.parallel = none) (he : p.each = some e) (hlast : e.size ≤ e.completions + 1)
    (htop : p.parentID = 0) (hpf : p.Finishable) (hpj : p.jobID = t.jobID) (hres : p.result = "")
    (hrun : j.state = .running ∨ j.state = .scheduled) (hend : j.tasks.length ≤ j.position)
    (hsub : j.parentID ≠ 0 → ∃ pt, s.ds.task? j.parentID = some pt ∧ j.parentID ≠ t.id ∧ j.parentID ≠ t.parentID)
    (hout : ∀ sd, ∃ r, evaluateTemplate C.O ⟨j.context.record t, none⟩ sd j.output = .ok r) :
    ∃ (q : Prog Res) (s' : Sys) (j1 j' : Job) (now now' sd : Nat) (r : String) (m : Msg),
      coordinatorHandler C (fuel + 2) (.task "completed" t) = some q ∧ q.exec s = (some none, s') ∧
      evaluateTemplate C.O ⟨j.context.record t, none⟩ sd j.output = .ok r ∧
      j1 = { j with position := j.position + 1, context := j.context.record t, progress := j1.progress } ∧
      JobCompleted C j1 r j' ∧ EndNotice s.ds j r m ∧ s'.out = s.out ++ [m] ∧
      (∀ k, s'.ds.job? k = if k = t.jobID then some j' else s.ds.job? k) ∧
      (∀ k, s'.ds.task? k = if k = t.id then some (finishedRow t u now) else
        if k = t.parentID then some { resave p with each := some { e with completions := e.completions + 1, index := e.index + 1 }
                                                    state := .completed, completedAt := some now' } else s.ds.task? k) :=
  child_last_end C fuel h (.inr ⟨hpar, e, he, rfl, by simp; omega⟩) htop hpf hpj hres hrun hend hsub hout

/-- **C13.** A child of an each task with a concurrency limit finishes while children are held back: besides the child and
the counters, exactly one held-back child is released: it becomes PENDING and is sent to the scheduling queue; nothing
else changes or is sent. -/
theorem C13_release (C : Cfg) (fuel : Nat) {t u p : Task} {e : EachTask Task} {j : Job} {s : Sys} (h : ChildDone s t u p j)
    (hids : (s.ds.tasks.map (·.id)).Nodup)
    (hpar : p.parallel = none) (he : p.each = some e) (hmore : e.completions + 1 < e.size)
    (hlim : 0 < e.concurrency) (hheld : e.index < e.size) (hps : p.state ≠ .created)
    (hex : ∃ n ∈ s.ds.tasks, n.parentID = t.parentID ∧ n.state = .created) :
    ∃ (q : Prog Res) (s' : Sys) (j' : Job) (n : Task) (now : Nat),
      n ∈ s.ds.tasks ∧ n.parentID = t.parentID ∧ n.state = .created ∧
      coordinatorHandler C (fuel + 1) (.task "completed" t) = some q ∧ q.exec s = (some none, s') ∧
      Recorded t j j' ∧ s'.out = s.out ++ [.task "pending" { n with state := .pending }] ∧
      (∀ k, s'.ds.job? k = if k = t.jobID then some j' else s.ds.job? k) ∧
      (∀ k, s'.ds.task? k = if k = t.id then some (finishedRow t u now) else
        if k = t.parentID then some { resave p with each := some { e with completions := e.completions + 1, index := e.index + 1 } } else
        if k = n.id then some { resave n with state := .pending } else s.ds.task? k) := by
  have hpid : p.id = t.parentID := (task?_mem h.parent).2
  obtain ⟨n, hn⟩ : ∃ n, s.ds.tasks.find? (fun r => r.parentID = p.id && r.state = .created) = some n := by
    obtain ⟨n, h1, h2, h3⟩ := hex
    cases hf : s.ds.tasks.find? (fun r => r.parentID = p.id && r.state = .created) with
    | some n => exact ⟨n, rfl⟩
    | none =>
      have := List.find?_eq_none.1 hf n h1
      simp [h3, hpid, h2] at this
  have hmem := List.mem_of_find?_eq_some hn
  have hprop := List.find?_some hn
  simp only [Bool.and_eq_true, decide_eq_true_eq] at hprop
  have hnrow : s.ds.task? n.id = some n := task?_of_mem hids hmem
  have hnt : n.id ≠ t.id := by
    intro e0
    rw [e0, h.row] at hnrow
    cases hnrow
    rcases h.open_ with o | o | o <;> rw [o] at hprop <;> cases hprop.2
  have hnp : n.id ≠ t.parentID := by
    intro e0
    rw [e0, h.parent] at hnrow
    cases hnrow
    exact hps hprop.2
  let tc : Task := { t with completedAt := some s.clock }
  let ds1 := s.ds.setTask n.id { n with state := .pending }
  have hrow1 : ∀ k, k ≠ n.id → ds1.task? k = s.ds.task? k := by
    intro k hk
    show (s.ds.setTask n.id _).task? k = _
    rw [task?_set_eq hnrow, if_neg hk]
  obtain ⟨ds', q1, q2, q3⟩ := subTaskTx_exec (t := tc) (ds := ds1) (m := eachParentRow) (g := decide (e.completions + 1 ≥ e.size))
    (p' := { p with each := some { e with completions := e.completions + 1, index := e.index + 1 } }) (now := s.clock) (u := u) (p := p) (j := j) rfl
    ((hrow1 _ (Ne.symm hnt)).trans h.row) h.open_ ((hrow1 _ (Ne.symm hnp)).trans h.parent) h.other
    (by unfold eachParentRow; rw [he]) h.job
  have hnx : eachNext tc s.ds = .ok (some { n with state := .pending }) := by
    unfold eachNext
    rw [show s.ds.task? tc.id = some u from h.row]
    simp only
    have h1' : completeTaskRow tc u = .ok ((), finRow tc u) := by
      unfold completeTaskRow
      rw [if_neg (by intro h0; rcases h.open_ with hf | hf | hf <;> simp [hf] at h0)]
      rfl
    rw [h1']
    simp only
    rw [show s.ds.task? tc.parentID = some p from h.parent]
    simp only
    rw [he]
    simp only
    rw [if_pos (by unfold eachFires; simp; omega)]
    unfold getNextTask
    rw [hn]
  have hrun : (if p.parallel.isSome then DbOp.of (subTaskTx tc parallelRow) else eachTx tc).run s.ds =
      (.ok false, ds', [.task "pending" { n with state := .pending }]) := by
    rw [if_neg (by rw [hpar]; simp)]
    unfold eachTx
    simp only [hnx]
    rw [show decide (e.completions + 1 ≥ e.size) = false by simp; omega] at q1
    show (match subTaskTx tc eachParentRow ds1 with | .error e => _ | .ok (b, ds') => _) = _
    rw [q1]
    rfl
  have hp1 : ds'.task? t.parentID = some { resave p with each := some { e with completions := e.completions + 1, index := e.index + 1 } } :=
    (q2 _).trans ((if_neg h.other).trans (if_pos rfl))
  refine ⟨_, _, { j with context := j.context.record t }, n, s.clock, hmem, hprop.1.trans hpid, hprop.2, coord_completed C _ t,
    (completedHandler_child C fuel h.state h.child h.parent hrun hp1).1 rfl, rfl, rfl, ?_, ?_⟩
  · exact q3
  · intro k
    refine (q2 k).trans ?_
    by_cases hk : k = t.id
    · exact (if_pos hk).trans (if_pos hk).symm
    · refine ((if_neg hk).trans ?_).trans (if_neg hk).symm
      by_cases hk2 : k = t.parentID
      · exact (if_pos hk2).trans (if_pos hk2).symm
      · refine ((if_neg hk2).trans ?_).trans (if_neg hk2).symm
        show (s.ds.setTask n.id _).task? k = _
        rw [task?_set_eq hnrow]
        rfl

/-! ## Concrete cases -/

namespace JoinEx
open FanoutEx (cfg)

def par (n : Nat) : ParallelTask Task := { tasks := [{ name := "p" }, { name := "q" }], completions := n }
def each (n : Nat) : EachTask Task := { list := "list", concurrency := 2, size := 3, completions := n, index := 2 + n, task := { name := "x" } }
/-- job 1 is at its first task, number 5, which is parallel or each; number 6 is a running child, number 7 a held-back one -/
def parent (p : Option (ParallelTask Task)) (e : Option (EachTask Task)) : Task :=
  { id := 5, jobID := 1, state := .running, createdAt := some 0, position := 1, parallel := p, each := e }
def child : Task := { id := 6, jobID := 1, parentID := 5, state := .running, createdAt := some 0, position := 1, var := "v" }
def waiting : Task := { id := 7, jobID := 1, parentID := 5, state := .created, createdAt := some 0, position := 1 }
def job (ts : List Task) : Job := { id := 1, state := .running, position := 1, tasks := ts, taskCount := ts.length }
def sys (p : Option (ParallelTask Task)) (e : Option (EachTask Task)) (ts : List Task) : Sys :=
  { next := 20, ds := { jobs := [job ts], tasks := [parent p e, child, waiting] } }
def report : Task := { child with state := .completed, result := "42" }
def run (p : Option (ParallelTask Task)) (e : Option (EachTask Task)) (ts : List Task) : Sys :=
  match coordinatorHandler cfg 5 (.task "completed" report) with
  | some q => (q.exec (sys p e ts)).2
  | none => sys p e ts

theorem done (p : Option (ParallelTask Task)) (e : Option (EachTask Task)) (ts : List Task) :
    ChildDone (sys p e ts) report child (parent p e) (job ts) :=
  ⟨.inl rfl, by decide, rfl, .inl rfl, rfl, by decide, rfl⟩

/-- the hypotheses of the theorems are met -/
example := C11_branch cfg 4 (done (some (par 0)) none [{}]) rfl (by decide)
example := C11_last_branch_next cfg 3 (done (some (par 1)) none [{}, { name := "next" }]) rfl (by decide) rfl (.inl rfl) rfl rfl rfl rfl
example := C11_last_branch_end cfg 3 (done (some (par 1)) none [{}]) rfl (by decide) rfl (.inl rfl) rfl rfl (.inl rfl) (by decide)
  (fun h => absurd rfl h) (fun sd => ⟨"", by rfl⟩)
example := C12_item cfg 4 (done none (some (each 1)) [{}]) rfl rfl (by decide) (.inr (by decide))
example := C12_last_item_next cfg 3 (done none (some (each 2)) [{}, { name := "next" }]) rfl rfl (by decide) rfl (.inl rfl) rfl rfl rfl rfl
example := C12_last_item_end cfg 3 (done none (some (each 2)) [{}]) rfl rfl (by decide) rfl (.inl rfl) rfl rfl (.inl rfl) (by decide)
  (fun h => absurd rfl h) (fun sd => ⟨"", by rfl⟩)
example := C13_release cfg 4 (done none (some (each 0)) [{}]) (by decide) rfl rfl (by decide) (by decide) (by decide) (by decide)
  ⟨waiting, by simp [sys], rfl, rfl⟩

/-- what happens: counted; counted, completed and next task queued; released -/
example : (run (some (par 0)) none [{}]).ds.tasks.map (fun t => (t.id, t.state)) = [(5, .running), (6, .completed), (7, .created)] := by decide +kernel
example : (run (some (par 1)) none [{}, { name := "next" }]).ds.tasks.map (fun t => (t.id, t.state)) =
    [(5, .completed), (6, .completed), (7, .created), (20, .pending)] := by decide +kernel
example : (run none (some (each 0)) [{}]).ds.tasks.map (fun t => (t.id, t.state)) = [(5, .running), (6, .completed), (7, .pending)] := by decide +kernel

end JoinEx

end Tork
