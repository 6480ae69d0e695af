import Verif.Props.Completion
import Verif.Props.Retry
/-!
# C11, C12, C13, C14 — starting parallel and each tasks
-/

namespace Tork
open Prog

/-! ## Specification -/

/-- The texts of `d` can be evaluated in the context `c`, whatever the random seed. -/
def Evaluable (C : Cfg) (c : Ctx) (d : Task) : Prop :=
  ∀ sd, ∀ x ∈ d.texts, ∃ y, evaluateTemplate C.O c sd x = .ok y

/-- `x` is the child of `t` that runs definition `d`, its texts evaluated in the context `c`: a new task with the given
id, of the same job and place as its parent. -/
def ChildOf (C : Cfg) (c : Ctx) (t d : Task) (id : Nat) (st : TaskState) (x : Task) : Prop :=
  ∃ sd now g, (∀ y ∈ d.texts, evaluateTemplate C.O c sd y = .ok (g y)) ∧
    x = { d.mapTexts g with id := id, jobID := t.jobID, parentID := t.id, position := t.position, state := st
                            createdAt := some now }

/-! ## Evaluation of a child -/

theorem child_eval {C : Cfg} {c : Ctx} {d : Task} {sd : Nat} (hev : Evaluable C c d)
    (d' : Task) (ht : d'.texts = d.texts) :
    ∃ g : String → String, (∀ x ∈ d.texts, evaluateTemplate C.O c sd x = .ok (g x)) ∧
      evaluateTask (evaluateTemplate C.O c sd) d' = (d'.mapTexts g, none) := by
  refine ⟨fun x => match evaluateTemplate C.O c sd x with | .ok y => y | .error _ => x, ?_, ?_⟩
  · intro x hx
    obtain ⟨y, hy⟩ := hev sd x hx
    simp only [hy]
  · refine (C28_task _ _).2 _ fun x hx => ?_
    rw [ht] at hx
    obtain ⟨y, hy⟩ := hev sd x hx
    simp only [hy]

/-- What a loop that creates (and queues) children leaves behind. -/
structure Spawned (s s' : Sys) (xs : List Task) (ms : List Msg) : Prop where
  out : s'.out = s.out ++ ms
  ds : s'.ds = { s.ds with tasks := s.ds.tasks ++ xs.map taskRow }
  next : s'.next = s.next + xs.length

theorem task?_appends {ds : DS} {xs : List Task} {k : Nat} :
    DS.task? { ds with tasks := ds.tasks ++ xs } k = (ds.task? k).or (xs.find? fun r => r.id = k) := by
  simp only [DS.task?, List.find?_append]

theorem parLoop_exec {C : Cfg} {t : Task} {j : Job} {now : Nat} (hjid : j.id = t.jobID) (ts : List Task) :
    ∀ {s : Sys}, (s.ds.job? j.id).isSome → (∀ k, s.next ≤ k → s.ds.task? k = none) →
    (∀ d ∈ ts, Evaluable C ⟨j.context, none⟩ d) →
    ∃ xs s', (parLoop C t j now ts).exec s = (some (none, t), s') ∧ xs.length = ts.length ∧
      (∀ i d, ts[i]? = some d → ∃ x, xs[i]? = some x ∧ ChildOf C ⟨j.context, none⟩ t d (s.next + i) .pending x) ∧
      Spawned s s' xs (xs.map (.task "pending")) := by
  induction ts with
  | nil =>
    intro s _ _ _
    refine ⟨[], s, ?_, rfl, by simp, ⟨by simp, by simp, rfl⟩⟩
    rw [parLoop]; rfl
  | cons d ts ih =>
    intro s hj hf hev
    obtain ⟨g, hg1, hg2⟩ := child_eval (sd := s.drawn.clock) (hev d List.mem_cons_self) (parChild t d j.id s.next now)
      (by rw [Task.texts_eq, Task.texts_eq]; rfl)
    let x := (parChild t d j.id s.next now).mapTexts g
    have hx : ChildOf C ⟨j.context, none⟩ t d s.next .pending x := by
      refine ⟨_, now, g, hg1, ?_⟩
      simp only [x, Task.mapTexts_eq, parChild, hjid]
    have hxid : x.id = s.next := by simp only [x, Task.mapTexts_eq, parChild]
    have hxj : x.jobID = j.id := by simp only [x, Task.mapTexts_eq, parChild]
    have hxc : x.createdAt.isSome := by simp [x, Task.mapTexts_eq, parChild]
    let s1 := s.drawn.ticked
    have hcr : createTask x s1.ds = .ok ((), { s1.ds with tasks := s1.ds.tasks ++ [taskRow x] }) :=
      createTask_of (by rw [hxid]; exact hf _ (Nat.le_refl _)) (by rw [hxj]; exact hj) hxc
    let s2 := (s1.withDs { s1.ds with tasks := s1.ds.tasks ++ [taskRow x] }).send [.task "pending" x]
    obtain ⟨xs, s', h1, h2, h3, h4⟩ := ih (s := s2) hj (by
        intro k hk
        have hk : s.next + 1 ≤ k := hk
        show DS.task? { s.ds with tasks := s.ds.tasks ++ [taskRow x] } k = none
        rw [task?_append, hf k (by omega), if_neg (by show ¬ x.id = k; rw [hxid]; omega)]
        rfl) (fun d hd => hev d (List.mem_cons_of_mem _ hd))
    refine ⟨x :: xs, s', ?_, by simp [h2], ?_, ?_⟩
    · rw [parLoop]
      simp only [bind_eq, pure_eq]
      rw [exec_uuid, exec_seed]
      simp only [hg2]
      show Prog.exec ((tx (createTask x)).bind _) s1 = _
      rw [exec_tx hcr]
      simp only
      rw [exec_pub]
      exact h1
    · intro i d' hd'
      cases i with
      | zero =>
        simp only [List.getElem?_cons_zero, Option.some.injEq] at hd'
        subst hd'
        exact ⟨x, rfl, hx⟩
      | succ i =>
        obtain ⟨y, hy1, hy2⟩ := h3 i d' (by simpa using hd')
        refine ⟨y, by simpa using hy1, ?_⟩
        have e : s2.next + i = s.next + (i + 1) := by show s.next + 1 + i = _; omega
        rw [← e]; exact hy2
    · refine ⟨?_, ?_, ?_⟩
      · rw [h4.out]; show s.out ++ _ ++ _ = _; simp
      · rw [h4.ds]; show DS.mk _ _ _ _ = _; simp [s2, s1]
      · rw [h4.next]; show s.next + 1 + _ = _; simp; omega

/-- **C11, fan-out.** Scheduling a parallel task of a known job, the texts of whose branches can be evaluated: the task
becomes RUNNING; exactly one child per branch is created, in order, each running its branch, evaluated in the job's
context; every child is handed to the scheduling queue, in order; nothing else is created, changed or sent. -/
theorem C11_fan_out (C : Cfg) (fuel : Nat) {t u : Task} {par : ParallelTask Task} {j : Job} {s : Sys}
    (hif : trimSpace t.cond ≠ "false") (hpar : t.parallel = some par) (hu : s.ds.task? t.id = some u)
    (hj : s.ds.job? t.jobID = some j) (hfresh : ∀ k, s.next ≤ k → s.ds.task? k = none)
    (hev : ∀ d ∈ par.tasks, Evaluable C ⟨j.context, none⟩ d) :
    ∃ (p : Prog Res) (s' : Sys) (xs : List Task) (now : Nat),
      coordinatorHandler C fuel (.task "pending" t) = some p ∧ p.exec s = (some none, s') ∧
      xs.length = par.tasks.length ∧
      (∀ i d, par.tasks[i]? = some d → ∃ x, xs[i]? = some x ∧ ChildOf C ⟨j.context, none⟩ t d (s.next + i) .pending x) ∧
      s'.out = s.out ++ xs.map (.task "pending") ∧
      s'.ds.jobs = s.ds.jobs ∧
      (∀ k, s'.ds.task? k =
        if k = t.id then some { resave u with state := .running, scheduledAt := some now, startedAt := some now }
        else (s.ds.task? k).or ((xs.map taskRow).find? fun r => r.id = k)) := by
  have hjid : j.id = t.jobID := (job?_mem hj).2
  let ds1 := s.ds.setTask t.id (parRow s.clock u)
  let s1 := s.ticked.withDs ds1
  obtain ⟨xs, s', h1, h2, h3, h4⟩ := parLoop_exec (C := C) (t := t) (now := s.clock) hjid par.tasks (s := s1)
    (by rw [hjid]; show (s.ds.job? t.jobID).isSome; rw [hj]; rfl)
    (by
      intro k hk
      show ds1.task? k = none
      have hk : s.next ≤ k := hk
      rw [task?_setTask, hfresh k hk]; split <;> rfl) hev
  refine ⟨_, s', xs, s.clock, coord_pending C _ t, ?_, h2, h3, h4.out, by rw [h4.ds]; rfl, fun k => ?_⟩
  · refine wrapTask_ok (x := t) ?_
    unfold pendingHandler
    rw [if_neg hif]
    unfold scheduleTask
    rw [hpar]
    simp only
    unfold scheduleParallelTask
    simp only [bind_eq, pure_eq]
    rw [exec_now, exec_tx (s := s.ticked) (updateTask'_of (t := u) hu)]
    simp only
    show Prog.exec _ s1 = _
    rw [exec_read (s := s1) (getJob_of (j := j) hj)]
    exact h1
  · rw [h4.ds, task?_appends]
    show (ds1.task? k).or _ = _
    rw [task?_set_eq hu]
    by_cases hk : k = t.id
    · rw [if_pos hk, if_pos hk]; rfl
    · rw [if_neg hk, if_neg hk]

/-! ## Each tasks -/

mutual
/-- The words of the command lines of a task and of its pre, post and parallel tasks. -/
def Task.cmdWords : Task → List String
  | t@{ pre := pre, post := post, parallel := par, .. } => t.cmd ++ cmdWordsL pre ++ cmdWordsL post ++ cmdWordsP par
def cmdWordsL : List Task → List String
  | [] => []
  | t :: ts => t.cmdWords ++ cmdWordsL ts
def cmdWordsP : Option (ParallelTask Task) → List String
  | none => []
  | some { tasks := ts, completions := _ } => cmdWordsL ts
end

mutual
theorem mapCmds_id {g : String → String} (t : Task) (h : ∀ w ∈ t.cmdWords, g w = w) : t.mapCmds g = t := by
  have e : t.cmdWords = t.cmd ++ cmdWordsL t.pre ++ cmdWordsL t.post ++ cmdWordsP t.parallel := by cases t; rw [Task.cmdWords]
  rw [e] at h
  rw [Task.mapCmds_eq, mapCmdsL_id t.pre fun w hw => h w (by simp [hw]), mapCmdsL_id t.post fun w hw => h w (by simp [hw]),
    mapCmdsP_id t.parallel fun w hw => h w (by simp [hw]), map_id' (m := t.cmd) fun w hw => h w (by simp [hw])]
  cases t; rfl
termination_by sizeOf t
decreasing_by
  · exact t.sizeOf_pre
  · exact t.sizeOf_post
  · exact t.sizeOf_parallel
theorem mapCmdsL_id {g : String → String} (ts : List Task) (h : ∀ w ∈ cmdWordsL ts, g w = w) : mapCmdsL g ts = ts := by
  match ts with
  | [] => rw [mapCmdsL]
  | t :: ts =>
    rw [cmdWordsL] at h
    rw [mapCmdsL, mapCmds_id t fun w hw => h w (by simp [hw]), mapCmdsL_id ts fun w hw => h w (by simp [hw])]
termination_by sizeOf ts
theorem mapCmdsP_id {g : String → String} (p : Option (ParallelTask Task)) (h : ∀ w ∈ cmdWordsP p, g w = w) : mapCmdsP g p = p := by
  match p with
  | none => rw [mapCmdsP]
  | some { tasks := ts, completions := c } =>
    rw [cmdWordsP] at h
    rw [mapCmdsP, mapCmdsL_id ts h]
termination_by sizeOf p
end

theorem afterChild_plain {O : Oracle} {c : Ctx} {sd : Nat} {e : EachTask Task}
    (h : ∀ w ∈ e.task.cmdWords, ¬ ['{', '{'] <:+: w.toList) : afterChild (evaluateTemplate O c sd) e = e := by
  unfold afterChild
  rw [mapCmds_id _ fun w hw => by rw [C28_plain_text O c sd w (h w hw)]]

/-- Whether child number `ix` (from 0) of an each task may start at once: with no concurrency limit every child may,
with limit `c` the first `c`. -/
def StartsAtOnce (c ix : Nat) : Prop := c = 0 ∨ ix < c

instance (c ix : Nat) : Decidable (StartsAtOnce c ix) := by unfold StartsAtOnce; infer_instance

/-- The context in which child number `ix` of an each task is evaluated: the job's context plus the loop variable. -/
def itemCtx (j : Job) (e : EachTask Task) (ix : Nat) (item : String) : Ctx :=
  ⟨j.context, some (if e.var = "" then "item" else e.var, ix, item)⟩

/-- The state in which child number `ix` is created. -/
def childState (c ix : Nat) : TaskState := if StartsAtOnce c ix then .pending else .created

theorem fireNow_iff {c ix : Nat} : fireNow c ix = decide (StartsAtOnce c ix) := by
  unfold fireNow StartsAtOnce
  by_cases h1 : c = 0 <;> by_cases h2 : ix < c <;> simp [h1, h2]

theorem eachLoop_exec {C : Cfg} {j : Job} {now : Nat} {e : EachTask Task}
    (hplain : ∀ w ∈ e.task.cmdWords, ¬ ['{', '{'] <:+: w.toList) (items : List String) :
    ∀ {t : Task} {s : Sys} {ix : Nat}, j.id = t.jobID → (s.ds.job? j.id).isSome → (∀ k, s.next ≤ k → s.ds.task? k = none) →
    (∀ i item, items[i]? = some item → Evaluable C (itemCtx j e (ix + i) item) e.task) →
    ∃ xs t' s', (eachLoop C j now t e ix items).exec s = (some (none, t'), s') ∧ xs.length = items.length ∧
      (∀ i item, items[i]? = some item → ∃ x, xs[i]? = some x ∧
        ChildOf C (itemCtx j e (ix + i) item) t e.task.forgetRedelivery (s.next + i) (childState e.concurrency (ix + i)) x) ∧
      Spawned s s' xs ((xs.take (if e.concurrency = 0 then items.length else e.concurrency - ix)).map (.task "pending")) := by
  induction items with
  | nil =>
    intro t s ix _ _ _ _
    refine ⟨[], t, s, ?_, rfl, by simp, ⟨by simp, by simp, rfl⟩⟩
    rw [eachLoop]; rfl
  | cons item items ih =>
    intro t s ix hjid hj hf hev
    obtain ⟨g, hg1, hg2⟩ := child_eval (sd := s.drawn.clock) (hev 0 item rfl) (eachChild t e j.id s.next now ix)
      (by rw [← texts_forget e.task, ← clone_forget, Task.texts_eq, Task.texts_eq]; rfl)
    let x := (eachChild t e j.id s.next now ix).mapTexts g
    have hx : ChildOf C (itemCtx j e ix item) t e.task.forgetRedelivery s.next (childState e.concurrency ix) x := by
      refine ⟨s.drawn.clock, now, g, ?_, ?_⟩
      · rw [texts_forget]; exact hg1
      · simp only [x, Task.mapTexts_eq, eachChild, hjid, clone_forget, fireNow_iff, childState, decide_eq_true_eq]
    have hxid : x.id = s.next := by simp only [x, Task.mapTexts_eq, eachChild]
    have hxj : x.jobID = j.id := by simp only [x, Task.mapTexts_eq, eachChild]
    have hxc : x.createdAt.isSome := by simp [x, Task.mapTexts_eq, eachChild]
    let s1 := s.drawn.ticked
    have hcr : createTask x s1.ds = .ok ((), { s1.ds with tasks := s1.ds.tasks ++ [taskRow x] }) :=
      createTask_of (by rw [hxid]; exact hf _ (Nat.le_refl _)) (by rw [hxj]; exact hj) hxc
    let m : List Msg := if StartsAtOnce e.concurrency ix then [.task "pending" x] else []
    let s2 := (s1.withDs { s1.ds with tasks := s1.ds.tasks ++ [taskRow x] }).send m
    obtain ⟨xs, t', s', h1, h2, h3, h4⟩ := ih (s := s2) (t := { t with each := some e }) (ix := ix + 1) hjid hj (by
        intro k hk
        have hk : s.next + 1 ≤ k := hk
        show DS.task? { s.ds with tasks := s.ds.tasks ++ [taskRow x] } k = none
        rw [task?_append, hf k (by omega), if_neg (by show ¬ x.id = k; rw [hxid]; omega)]
        rfl) (fun i it hi => by
          have := hev (i + 1) it (by simpa using hi)
          rw [show ix + 1 + i = ix + (i + 1) by omega]; exact this)
    refine ⟨x :: xs, t', s', ?_, by simp [h2], ?_, ?_⟩
    · rw [eachLoop]
      simp only [bind_eq, pure_eq]
      rw [exec_uuid, exec_seed]
      show Prog.exec (match evaluateTask (evaluateTemplate C.O (itemCtx j e ix item) s.drawn.clock) (eachChild t e j.id s.next now ix) with
        | (_, some err) => _ | (_, none) => _) s1 = _
      have hg2 : evaluateTask (evaluateTemplate C.O (itemCtx j e ix item) s.drawn.clock) (eachChild t e j.id s.next now ix) = (x, none) := hg2
      rw [hg2]
      simp only [afterChild_plain hplain, fireNow_iff, decide_eq_true_eq]
      show Prog.exec ((tx (createTask x)).bind _) s1 = _
      rw [exec_tx hcr]
      simp only
      by_cases hn : StartsAtOnce e.concurrency ix
      · rw [if_pos hn, exec_pub]
        have e1 : s2 = (s1.withDs { s1.ds with tasks := s1.ds.tasks ++ [taskRow x] }).send [.task "pending" x] := by
          simp only [s2, m, if_pos hn]
        rw [e1] at h1
        exact h1
      · rw [if_neg hn]
        have e1 : s2 = s1.withDs { s1.ds with tasks := s1.ds.tasks ++ [taskRow x] } := by
          simp only [s2, m, if_neg hn, Sys.send, List.append_nil]
        rw [e1] at h1
        exact h1
    · intro i it hi
      cases i with
      | zero =>
        simp only [List.getElem?_cons_zero, Option.some.injEq] at hi
        subst hi
        exact ⟨x, rfl, hx⟩
      | succ i =>
        obtain ⟨y, hy1, hy2⟩ := h3 i it (by simpa using hi)
        refine ⟨y, by simpa using hy1, ?_⟩
        have e1 : s2.next + i = s.next + (i + 1) := by show s.next + 1 + i = _; omega
        have e2 : ix + 1 + i = ix + (i + 1) := by omega
        rw [← e1, ← e2]; exact hy2
    · refine ⟨?_, ?_, ?_⟩
      · rw [h4.out]; show s.out ++ m ++ _ = _
        simp only [m]
        by_cases hc : e.concurrency = 0
        · simp [hc, StartsAtOnce]
        · by_cases hix : ix < e.concurrency
          · rw [if_neg hc, if_neg hc, if_pos (.inr hix), show e.concurrency - ix = (e.concurrency - (ix + 1)) + 1 by omega]
            simp
          · rw [if_neg hc, if_neg hc, if_neg (by unfold StartsAtOnce; omega), show e.concurrency - ix = 0 by omega,
              show e.concurrency - (ix + 1) = 0 by omega]
            simp
      · rw [h4.ds]; show DS.mk _ _ _ _ = _; simp [s2, s1]
      · rw [h4.next]; show s.next + 1 + _ = _; simp; omega

/-- The row of an each task that has been started with a list of `n` items. -/
def eachStarted (now n : Nat) (u : Task) : Task :=
  { resave u with state := .running, scheduledAt := some now, startedAt := some now
                  each := u.each.map fun e => { e with size := n, index := e.concurrency } }

/-- **C12, C13, C14 — fan-out.** Scheduling an each task of a known job whose list expression evaluates to a list: the task
becomes RUNNING, with the number of items as its size; exactly one child per item is created, in order, each an instance
of the template evaluated in the job's context with the loop variable bound to that item and its index; with concurrency
limit `c` the first `c` children (all of them if `c` is 0) are handed to the scheduling queue as PENDING, the others are
created but held back as CREATED; nothing else is created, changed or sent.

The template's command words must be free of template tags: otherwise see `C12_commands_defect`. -/
theorem C12_fan_out (C : Cfg) (fuel : Nat) {t u : Task} {e : EachTask Task} {j : Job} {v : Val} {items : List String} {s : Sys}
    (hif : trimSpace t.cond ≠ "false") (hpar : t.parallel = none) (heach : t.each = some e) (hu : s.ds.task? t.id = some u)
    (hj : s.ds.job? t.jobID = some j) (hfresh : ∀ k, s.next ≤ k → s.ds.task? k = none)
    (hlist : ∀ sd, evaluateExpr C.O ⟨j.context, none⟩ sd e.list = .ok v) (hv : v.items = some items)
    (hplain : ∀ w ∈ e.task.cmdWords, ¬ ['{', '{'] <:+: w.toList)
    (hev : ∀ i item, items[i]? = some item → Evaluable C (itemCtx j e i item) e.task) :
    ∃ (p : Prog Res) (s' : Sys) (xs : List Task) (now : Nat),
      coordinatorHandler C fuel (.task "pending" t) = some p ∧ p.exec s = (some none, s') ∧
      xs.length = items.length ∧
      (∀ i item, items[i]? = some item → ∃ x, xs[i]? = some x ∧
        ChildOf C (itemCtx j e i item) t e.task.forgetRedelivery (s.next + i)
          (if StartsAtOnce e.concurrency i then .pending else .created) x) ∧
      s'.out = s.out ++ (xs.take (if e.concurrency = 0 then items.length else e.concurrency)).map (.task "pending") ∧
      s'.ds.jobs = s.ds.jobs ∧
      (∀ k, s'.ds.task? k =
        if k = t.id then some (eachStarted now items.length u)
        else (s.ds.task? k).or ((xs.map taskRow).find? fun r => r.id = k)) ∧
      ((s.ds.tasks.map (·.id)).Nodup → (s'.ds.tasks.map (·.id)).Nodup) := by
  have hjid : j.id = t.jobID := (job?_mem hj).2
  let ds1 := s.ds.setTask t.id (eachRow s.clock items.length u)
  let s1 := s.ticked.ticked.withDs ds1
  obtain ⟨xs, t', s', h1, h2, h3, h4⟩ := eachLoop_exec (C := C) (now := s.clock) hplain items (s := s1) (ix := 0) hjid
    (by rw [hjid]; show (s.ds.job? t.jobID).isSome; rw [hj]; rfl)
    (by
      intro k hk
      show ds1.task? k = none
      have hk : s.next ≤ k := hk
      rw [task?_setTask, hfresh k hk]; split <;> rfl) (fun i it hi => by rw [Nat.zero_add]; exact hev i it hi)
  refine ⟨_, s', xs, s.clock, coord_pending C _ t, ?_, h2, fun i it hi => ?_, h4.out, by rw [h4.ds]; rfl, fun k => ?_, fun hn => ?_⟩
  · refine wrapTask_ok (x := t') ?_
    unfold pendingHandler
    rw [if_neg hif]
    unfold scheduleTask
    rw [hpar, heach]
    simp only
    unfold scheduleEachTask
    simp only [bind_eq, pure_eq]
    rw [exec_now, exec_read (s := s.ticked) (getJob_of (j := j) hj)]
    simp only
    rw [exec_seed, hlist]
    simp only
    rw [hv]
    simp only
    rw [exec_tx (s := s.ticked.ticked) (updateTask'_of (t := u) hu)]
    exact h1
  · obtain ⟨x, hx1, hx2⟩ := h3 i it hi
    rw [Nat.zero_add] at hx2
    exact ⟨x, hx1, hx2⟩
  · rw [h4.ds, task?_appends]
    show (ds1.task? k).or _ = _
    rw [task?_set_eq hu]
    by_cases hk : k = t.id
    · rw [if_pos hk, if_pos hk]; rfl
    · rw [if_neg hk, if_neg hk]
  · rw [h4.ds]
    show ((ds1.tasks ++ xs.map taskRow).map (·.id)).Nodup
    rw [List.map_append, keys_setTask]
    have hid : ∀ i y, xs[i]? = some y → y.id = s.next + i := by
      intro i y hy
      have hi : i < items.length := by rw [← h2]; exact (List.getElem?_eq_some_iff.1 hy).1
      obtain ⟨x, hx1, sd, nw, g, -, hx2⟩ := h3 i items[i] (List.getElem?_eq_getElem hi)
      rw [hy] at hx1
      cases hx1
      rw [hx2]; rfl
    refine List.nodup_append.2 ⟨hn, ?_, ?_⟩
    · refine List.pairwise_iff_getElem.2 fun a b ha hb hab hh => ?_
      simp only [List.length_map] at hb
      simp only [List.getElem_map] at hh
      have e1 := hid a _ (List.getElem?_eq_getElem (Nat.lt_trans hab hb))
      have e2 := hid b _ (List.getElem?_eq_getElem hb)
      have hh : xs[a].id = xs[b].id := hh
      omega
    · intro a ha b hb hab
      subst hab
      obtain ⟨r, hr1, hr2⟩ := List.mem_map.1 ha
      obtain ⟨y, hy1, hy2⟩ := List.mem_map.1 hb
      obtain ⟨x, hx1, hx2⟩ := List.mem_map.1 hy1
      obtain ⟨i, hi, hxi⟩ := List.getElem_of_mem hx1
      have e1 := hid i x (by rw [List.getElem?_eq_getElem hi, hxi])
      have e2 : a = x.id := by rw [← hy2, ← hx2]; rfl
      obtain ⟨r', hr'⟩ : ∃ r', s.ds.task? a = some r' := by
        rw [← hr2]
        exact ⟨r, task?_of_mem hn hr1⟩
      rw [hfresh a (by omega)] at hr'
      cases hr'

/-- **C14 — defect.** An each task over an *empty* list: its handler succeeds, marks the task RUNNING and creates and sends
nothing at all, so nothing is left that could ever complete the task, and its job never ends. -/
theorem C14_empty_list (C : Cfg) (fuel : Nat) {t u : Task} {e : EachTask Task} {j : Job} {v : Val} {s : Sys}
    (hif : trimSpace t.cond ≠ "false") (hpar : t.parallel = none) (heach : t.each = some e) (hu : s.ds.task? t.id = some u)
    (hj : s.ds.job? t.jobID = some j)
    (hlist : ∀ sd, evaluateExpr C.O ⟨j.context, none⟩ sd e.list = .ok v) (hv : v.items = some []) :
    ∃ (p : Prog Res) (s' : Sys) (now : Nat),
      coordinatorHandler C fuel (.task "pending" t) = some p ∧ p.exec s = (some none, s') ∧
      s'.out = s.out ∧ s'.ds.jobs = s.ds.jobs ∧
      (∀ k, s'.ds.task? k = if k = t.id then some (eachStarted now 0 u) else s.ds.task? k) := by
  let ds1 := s.ds.setTask t.id (eachRow s.clock 0 u)
  let s1 := s.ticked.ticked.withDs ds1
  refine ⟨_, s1, s.clock, coord_pending C _ t, ?_, rfl, rfl, fun k => ?_⟩
  · refine wrapTask_ok (x := t) ?_
    unfold pendingHandler
    rw [if_neg hif]
    unfold scheduleTask
    rw [hpar, heach]
    simp only
    unfold scheduleEachTask
    simp only [bind_eq, pure_eq]
    rw [exec_now, exec_read (s := s.ticked) (getJob_of (j := j) hj)]
    simp only
    rw [exec_seed, hlist]
    simp only
    rw [hv]
    simp only
    rw [exec_tx (s := s.ticked.ticked) (updateTask'_of (t := u) hu)]
    rw [eachLoop]; rfl
  · show ds1.task? k = _
    rw [task?_set_eq hu]
    rfl

/-- **C12.** A list expression that fails, or whose value is not a list: no child is created, no row changes; the task goes
to the error queue as FAILED with an error text. -/
theorem C12_bad_list (C : Cfg) (fuel : Nat) {t : Task} {e : EachTask Task} {j : Job} {s : Sys}
    (hif : trimSpace t.cond ≠ "false") (hpar : t.parallel = none) (heach : t.each = some e)
    (hj : s.ds.job? t.jobID = some j)
    (hbad : ∀ sd v, evaluateExpr C.O ⟨j.context, none⟩ sd e.list = .ok v → v.items = none) :
    ∃ (p : Prog Res) (s' : Sys) (err : Err),
      coordinatorHandler C fuel (.task "pending" t) = some p ∧ p.exec s = (some none, s') ∧
      s'.out = s.out ++ [.task "error" { t with error := err, state := .failed }] ∧ s'.ds = s.ds ∧
      ((∃ sd, evaluateExpr C.O ⟨j.context, none⟩ sd e.list = .error err) ∨ err = "each.list does not evaluate to a list") := by
  have main : ∀ err, ∀ s1 : Sys, s1.out = s.out → s1.ds = s.ds →
      ∃ (s' : Sys) (y : Task), (failToErrorQueue t err).exec s1 = (some (none, y), s') ∧
      s'.out = s.out ++ [.task "error" { t with error := err, state := .failed }] ∧ s'.ds = s.ds := by
    intro err s1 ho hd
    refine ⟨s1.send [.task QUEUE_ERROR { t with error := err, state := .failed }], { t with error := err, state := .failed }, ?_, by rw [← ho]; rfl, hd⟩
    unfold failToErrorQueue
    simp only [bind_eq, pure_eq]
    rw [exec_pub, exec_ret]
  cases hl : evaluateExpr C.O ⟨j.context, none⟩ s.ticked.clock e.list with
  | error err =>
    obtain ⟨s', y, h1, h2, h3⟩ := main err s.ticked.ticked rfl rfl
    refine ⟨_, s', err, coord_pending C _ t, ?_, h2, h3, .inl ⟨_, hl⟩⟩
    refine wrapTask_ok (x := y) ?_
    unfold pendingHandler
    rw [if_neg hif]
    unfold scheduleTask
    rw [hpar, heach]
    simp only
    unfold scheduleEachTask
    simp only [bind_eq, pure_eq]
    rw [exec_now, exec_read (s := s.ticked) (getJob_of (j := j) hj)]
    simp only
    rw [exec_seed, hl]
    simp only
    rw [h1]
  | ok v =>
    obtain ⟨s', y, h1, h2, h3⟩ := main "each.list does not evaluate to a list" s.ticked.ticked rfl rfl
    refine ⟨_, s', _, coord_pending C _ t, ?_, h2, h3, .inr rfl⟩
    refine wrapTask_ok (x := y) ?_
    unfold pendingHandler
    rw [if_neg hif]
    unfold scheduleTask
    rw [hpar, heach]
    simp only
    unfold scheduleEachTask
    simp only [bind_eq, pure_eq]
    rw [exec_now, exec_read (s := s.ticked) (getJob_of (j := j) hj)]
    simp only
    rw [exec_seed, hl]
    simp only
    rw [hbad _ v hl]
    simp only
    rw [h1]

/-! ## Concrete cases -/

namespace FanoutEx

/-- `list` is a list of three items, `empty` an empty one, `item_value` the current item. -/
def oracle : Oracle := fun e c _ =>
  if e = "list" then .ok { text := "[a b c]", items := some ["a", "b", "c"] }
  else if e = "empty" then .ok { text := "[]", items := some [] }
  else if e = "item_value" then match c.item with
    | some (_, _, v) => .ok { text := v }
    | none => .error "unknown name item_value"
  else .error "unknown expression"
def cfg : Cfg := { O := oracle, parseDur := fun _ => none }
def sys (t : Task) : Sys :=
  { next := 20
    ds := { jobs := [{ id := 1, state := .running, position := 1, tasks := [t], taskCount := 1 }]
            tasks := [{ t with id := 5, jobID := 1, state := .pending, createdAt := some 0, position := 1 }] } }
def pend (t : Task) : Task := { t with id := 5, jobID := 1, state := .pending, createdAt := some 0, position := 1 }
def run (t : Task) : Sys :=
  match coordinatorHandler cfg 5 (.task "pending" (pend t)) with
  | some p => (p.exec (sys t)).2
  | none => sys t

/-- An each task over three items with at most two children at a time. -/
def eachT : Task := { each := some { list := "{{list}}", concurrency := 2, task := { name := "n-{{item_value}}", cmd := ["echo"] } } }

/-- the hypotheses of `C12_fan_out` are met and its conclusion is what one expects -/
example : ∃ (p : Prog Res) (s' : Sys) (xs : List Task), coordinatorHandler cfg 5 (.task "pending" (pend eachT)) = some p ∧
    p.exec (sys eachT) = (some none, s') ∧ xs.length = 3 ∧ s'.out = (xs.take 2).map (.task "pending") := by
  obtain ⟨p, s', xs, now, h1, h2, h3, _, h5, _⟩ := C12_fan_out cfg 5 (t := pend eachT) (u := pend eachT)
    (e := { list := "{{list}}", concurrency := 2, task := { name := "n-{{item_value}}", cmd := ["echo"] } })
    (j := { id := 1, state := .running, position := 1, tasks := [eachT], taskCount := 1 })
    (v := { text := "[a b c]", items := some ["a", "b", "c"] }) (items := ["a", "b", "c"]) (s := sys eachT)
    (by decide +kernel) rfl rfl rfl rfl
    (fun k hk => by
      have hk : 20 ≤ k := hk
      simp [sys, DS.task?]; omega)
    (fun sd => by rfl) rfl
    (by intro w hw; simp [Task.cmdWords, cmdWordsL, cmdWordsP] at hw; subst hw; decide)
    (by
      intro i item hi sd x hx
      simp [Task.texts, textsL, textsP, subTexts] at hx
      rcases hx with rfl | rfl | rfl
      · exact ⟨String.ofList ([Piece.text ['n', '-'], .tag [] "item_value".toList []].flatMap (Piece.value fun _ => item)), by
          rw [show ("n-{{item_value}}" : String) = String.ofList (renderAll [Piece.text ['n', '-'], .tag [] "item_value".toList []]) by decide +kernel]
          refine C28_template _ _ _ _ ?_ (fun _ => item) ?_
          · intro p hp
            simp only [List.mem_cons, List.not_mem_nil, or_false] at hp
            rcases hp with rfl | rfl
            · simp [Piece.ok]
            · exact ⟨by simp, by simp, by decide, by decide, ⟨'i', "tem_value".toList, by decide, by simp [tagSpace]⟩,
                ⟨"item_valu".toList, 'e', by decide, by simp [tagSpace]⟩⟩
          · intro p hp e he
            simp only [List.mem_cons, List.not_mem_nil, or_false] at hp
            rcases hp with rfl | rfl
            · simp [Piece.exprs] at he
            · simp only [Piece.exprs, List.mem_singleton] at he
              subst he
              exact ⟨{ text := item }, by rfl, rfl⟩⟩
      · exact ⟨"", by rfl⟩
      · exact ⟨"echo", by rfl⟩)
  exact ⟨p, s', xs, h1, h2, h3, h5⟩

/-- what happens: three children named after the items, two of them queued -/
example : (run eachT).ds.tasks.map (fun t => (t.name, t.state, t.parentID)) =
      [("", .running, 0), ("n-a", .pending, 5), ("n-b", .pending, 5), ("n-c", .created, 5)] ∧
    (run eachT).out.length = 2 := by decide +kernel

/-- **C12 — defect.** A template tag in the *command line* of an each task: all children get the command of the first
item (evaluating the first child overwrites the command line shared with the template). -/
theorem C12_commands_defect :
    (run { each := some { list := "{{list}}", task := { name := "n-{{item_value}}", cmd := ["echo", "{{item_value}}"] } } }).ds.tasks.map
      (fun t => (t.name, t.cmd)) =
    [("", []), ("n-a", ["echo", "a"]), ("n-b", ["echo", "a"]), ("n-c", ["echo", "a"])] := by decide +kernel

/-- **C14 — defect**, concretely: an each task over an empty list hangs. -/
theorem C14_empty_list_hangs :
    (run { each := some { list := "{{empty}}", task := { name := "x" } } }).out.length = 0 ∧
    (run { each := some { list := "{{empty}}", task := { name := "x" } } }).ds.tasks.map (·.state) = [.running] := by
  decide +kernel

/-- the hypotheses of `C14_empty_list` -/
example : ∃ (p : Prog Res) (s' : Sys), coordinatorHandler cfg 5 (.task "pending" (pend { each := some { list := "empty", task := {} } })) = some p ∧
    p.exec (sys { each := some { list := "empty", task := {} } }) = (some none, s') ∧ s'.out = [] := by
  obtain ⟨p, s', now, h1, h2, h3, _⟩ := C14_empty_list cfg 5 (t := pend { each := some { list := "empty", task := {} } })
    (u := pend { each := some { list := "empty", task := {} } }) (e := { list := "empty", task := {} })
    (j := { id := 1, state := .running, position := 1, tasks := [{ each := some { list := "empty", task := {} } }], taskCount := 1 })
    (v := { text := "[]", items := some [] }) (s := sys { each := some { list := "empty", task := {} } })
    (by decide +kernel) rfl rfl rfl rfl (fun sd => by rfl) rfl
  exact ⟨p, s', h1, h2, h3⟩

/-- the hypotheses of `C12_bad_list` -/
example : ∃ (p : Prog Res) (s' : Sys) (x : Task), coordinatorHandler cfg 5 (.task "pending" (pend { each := some { list := "nope", task := {} } })) = some p ∧
    p.exec (sys { each := some { list := "nope", task := {} } }) = (some none, s') ∧ s'.out = [.task "error" x] := by
  obtain ⟨p, s', err, h1, h2, h3, _⟩ := C12_bad_list cfg 5 (t := pend { each := some { list := "nope", task := {} } })
    (e := { list := "nope", task := {} })
    (j := { id := 1, state := .running, position := 1, tasks := [{ each := some { list := "nope", task := {} } }], taskCount := 1 })
    (s := sys { each := some { list := "nope", task := {} } })
    (by decide +kernel) rfl rfl rfl (fun sd v h => by
      have e : evaluateExpr cfg.O ⟨{}, none⟩ sd "nope" = .error "unknown expression" := by rfl
      exact absurd (e.symm.trans h) (by simp))
  exact ⟨p, s', _, h1, h2, h3⟩

/-- the hypotheses of `C11_fan_out` -/
def parT : Task := { parallel := some { tasks := [{ name := "p" }, { name := "q" }] } }
example : ∃ (p : Prog Res) (s' : Sys) (xs : List Task), coordinatorHandler cfg 5 (.task "pending" (pend parT)) = some p ∧
    p.exec (sys parT) = (some none, s') ∧ xs.length = 2 ∧ s'.out = xs.map (.task "pending") := by
  obtain ⟨p, s', xs, now, h1, h2, h3, _, h5, _⟩ := C11_fan_out cfg 5 (t := pend parT) (u := pend parT)
    (par := { tasks := [{ name := "p" }, { name := "q" }] })
    (j := { id := 1, state := .running, position := 1, tasks := [parT], taskCount := 1 }) (s := sys parT)
    (by decide +kernel) rfl rfl rfl
    (fun k hk => by
      have hk : 20 ≤ k := hk
      simp [sys, DS.task?]; omega)
    (by
      intro d hd sd x hx
      refine ⟨x, C28_plain_text _ _ _ _ ?_⟩
      simp only [List.mem_cons, List.not_mem_nil, or_false] at hd
      rcases hd with rfl | rfl <;> simp [Task.texts, textsL, textsP, subTexts] at hx <;> rcases hx with rfl | rfl <;> decide)
  exact ⟨p, s', xs, h1, h2, h3, h5⟩

end FanoutEx

end Tork
