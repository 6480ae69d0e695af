import Verif.OriginFixed
import Verif.Props.Lifecycle
import Verif.DriveM
/-!
# C80: what is executed comes from the definition

Specification: `OriginSpec.lean`. Everything is about every world reachable from the empty system by any interleaving of any number
of goroutines, with failures, crashes, lost, reordered, duplicated and redelivered messages.
-/

namespace Tork
open Origin

variable {E : Env}

/-- C80: every stored task was made from the definition of its job: it is a top-level definition, a branch or a loop body of a
stored task, or an earlier attempt, evaluated in a context of its job. -/
theorem C80_tasks {w : World} (hw : Reachable E w) {n : Nat} {t : Task} (h : w.ds.task? n = some t) :
    Made E (Defined w) (ContextOf E w) (Row w) t := by
  obtain ⟨G, o, hi⟩ := oinv_reachable hw
  exact hi.made (hi.inv.task h)

/-- C80: what is handed to workers (and what is scheduled, finished, failed or redelivered) is the work of the stored task with that
id: nothing between the definition and the worker changes it. -/
theorem C80_messages {w : World} (hw : Reachable E w) {q : String} {t : Task} (h : Msg.task q t ∈ w.msgs)
    (hq : q ≠ QUEUE_STARTED) (hx : isExclusiveQueue q = false) :
    Row w t ∧ Made E (Defined w) (ContextOf E w) (Row w) t := by
  obtain ⟨G, o, hi⟩ := oinv_reachable hw
  have ht := ((hi.msgs _ h).2 fun hl => by
    rcases hl with hl | hl
    · exact hq hl
    · rw [hx] at hl; cases hl).1
  exact ⟨hi.row ht, hi.made ht⟩

/-- C80: also when a task is announced as started, in progress or to be cancelled, it is a stored task, up to what worker middleware
made of it. -/
theorem C80_reports {w : World} (hw : Reachable E w) {q : String} {t : Task} (h : Msg.task q t ∈ w.msgs ∨ Msg.progress t ∈ w.msgs) :
    ∃ u, Row w u ∧ Made E (Defined w) (ContextOf E w) (Row w) u ∧ Reported E u t := by
  obtain ⟨G, o, hi⟩ := oinv_reachable hw
  have : SeenOK E G t := by
    rcases h with h | h
    · exact (hi.msgs _ h).1
    · exact hi.msgs _ h
  obtain ⟨u, h1, h2⟩ := this
  exact ⟨u, hi.row h1, hi.made h1, h2⟩

theorem Origin.OInv.from {w : World} {G : Ghost} {o : List (Option Nat)} (h : OInv E (Snapped E w) w G o) {d : JobDef}
    (hd : JobFrom E G.J G.Cx (TaskOK G) d) : JobFrom E (Defined w) (ContextOf E w) (Row w) d := by
  rcases hd with h1 | h1 | ⟨t, s, h1, h2, h3⟩
  · exact .inl h1
  · exact .inr (.inl h1)
  · exact .inr (.inr ⟨t, s, h.made h2, h.row h2, h3⟩)

/-- C80: the tasks, inputs and secrets of a stored job are those of a request, of a schedule that fired, or of the sub-job section of
a stored task. -/
theorem C80_jobs {w : World} (hw : Reachable E w) {n : Nat} {j : Job} (h : w.ds.job? n = some j) :
    JobFrom E (Defined w) (ContextOf E w) (Row w) (jobDef j) := by
  obtain ⟨G, o, hi⟩ := oinv_reachable hw
  have h1 := (hi.inv.jobs n j h).1
  exact hi.from (hi.inv.defs _ _ h1)

/-- C06: the result of a COMPLETED job is its output, as the job was submitted with it, evaluated in a context the job had when it had
passed its last task. -/
theorem C06_result {w : World} (hw : Reachable E w) {n : Nat} {j : Job} (h : w.ds.job? n = some j) (hc : j.state = .completed) :
    ∃ w0 j0 sd, Reachable E w0 ∧ Steps E w0 w ∧ w0.ds.job? n = some j0 ∧ j.tasks.length < j0.position ∧
      evaluateTemplate E.C.O ⟨j0.context, none⟩ sd j.output = .ok j.result := by
  obtain ⟨G, o, hi⟩ := oinv_reachable hw
  obtain ⟨p, c, sd, h1, h2, h3⟩ := hi.inv.results n j h hc
  have hid : j.id = n := (job?_mem h).2
  rw [hid] at h1
  obtain ⟨w0, j0, k1, k2, k3, rfl, rfl⟩ := hi.snaps _ _ _ h1 ((hi.inv.stored n).2 ⟨j, h⟩)
  exact ⟨w0, j0, sd, k1, k2, k3, h2, h3⟩

/-- C80: every value a variable of a job ever had is the result a task of this job with this variable finished with. -/
theorem C80_values (hE : E.WellFormed) {w : World} {n : Nat} {k v : String} (h : Recorded E w n k v) : Produced E w n k v := by
  obtain ⟨w0, j, h1, h2, h3, h4⟩ := h
  obtain ⟨G, o, hi⟩ := oinv_reachable h1
  have h5 := (hi.inv.jobs n j h3).2.1 k v h4
  rw [(job?_mem h3).2] at h5
  exact ((hi.vals n k v h5).2 hE).step h2

/-- Worker middleware that changes neither what templates do not reach nor the place of the task. -/
def PreKeeps (E : Env) : Prop :=
  ∀ r u, E.workerOK r → (r.pre u).jobID = u.jobID ∧ (r.pre u).position = u.position ∧ Task.fixed (r.pre u) = Task.fixed u

theorem SameWork.position {a b : Task} (h : SameWork a b) : a.position = b.position :=
  (congrArg Task.position h.1 : (work a).position = (work b).position)

theorem made_fixed {J : Nat → Nat → Task → Prop} {Cx : Nat → Nat → JobContext → Prop} {R : Task → Prop} (hp : PreKeeps E) {t : Task}
    (h : Made E J Cx R t) : ∃ d x, J t.jobID t.position d ∧ Part d x ∧ Task.fixed t = Task.fixed x := by
  induction h with
  | @top d t n k id now sd c hd hc h =>
    obtain ⟨hf, _⟩ := evaluateTask_frame (evaluateTemplate E.C.O ⟨c, none⟩ sd) (prepTask d id n k now)
    have e1 : t.jobID = n := (work_jobID h).symm.trans hf.jobID
    have e2 : t.position = k := (SameWork.position h).symm.trans hf.position
    refine ⟨d, d, by rw [e1, e2]; exact hd, .self, ?_⟩
    rw [← fixed_same h, fixed_evaluate, fixed_eq, fixed_eq d]
    rfl
  | @branch p d x t q id now sd c _ hR hq hd hc he h ih =>
    obtain ⟨D, X, h1, h2, h3⟩ := ih
    have hf := (evaluateTask_frame (evaluateTemplate E.C.O ⟨c, none⟩ sd) (parChild p d p.jobID id now)).1
    have hx := fixed_evaluate (evaluateTemplate E.C.O ⟨c, none⟩ sd) (parChild p d p.jobID id now)
    rw [he] at hf hx
    obtain ⟨q', y, k1, k2, k3⟩ := fixed_branch h3 hq hd
    refine ⟨D, y, ?_, .branch h2 k1 k2, ?_⟩
    · rw [← work_jobID h, ← SameWork.position h, hf.jobID, hf.position]; exact h1
    · rw [← fixed_same h, ← k3, hx, fixed_eq, fixed_eq d]; rfl
  | @item p x t e id now sd ix item c _ hR hq hc he h ih =>
    obtain ⟨D, X, h1, h2, h3⟩ := ih
    have hf := (evaluateTask_frame (evaluateTemplate E.C.O ⟨c, some (eachVarName e, ix, item)⟩ sd) (eachChild p e p.jobID id now ix)).1
    have hx := fixed_evaluate (evaluateTemplate E.C.O ⟨c, some (eachVarName e, ix, item)⟩ sd) (eachChild p e p.jobID id now ix)
    rw [he] at hf hx
    obtain ⟨e', k1, k2⟩ := fixed_body h3 hq
    refine ⟨D, e'.task, ?_, .body h2 k1, ?_⟩
    · rw [← work_jobID h, ← SameWork.position h, hf.jobID, hf.position]; exact h1
    · rw [← fixed_same h, ← k2, hx, ← fixed_clone e.task, fixed_eq, fixed_eq e.task.clone]; rfl
  | @retry u v x t id now sd c _ hR hv hr hc he h ih =>
    obtain ⟨D, X, h1, h2, h3⟩ := ih
    have hf := (evaluateTask_frame (evaluateTemplate E.C.O ⟨c, none⟩ sd) (retryTask v id now)).1
    have hx := fixed_evaluate (evaluateTemplate E.C.O ⟨c, none⟩ sd) (retryTask v id now)
    rw [he] at hf hx
    have hc2 := same_clone v
    have hu : v.jobID = u.jobID ∧ v.position = u.position ∧ Task.fixed v = Task.fixed u := by
      rcases hv with hv | ⟨r, u', k1, k2, k3⟩
      · exact ⟨(work_jobID hv).symm, (SameWork.position hv).symm, (fixed_same hv).symm⟩
      · obtain ⟨m1, m2, m3⟩ := hp r u' k1
        exact ⟨by rw [← work_jobID k3, m1, work_jobID k2], by rw [← SameWork.position k3, m2, SameWork.position k2],
          by rw [← fixed_same k3, m3, fixed_same k2]⟩
    refine ⟨D, X, ?_, h2, ?_⟩
    · rw [← work_jobID h, ← SameWork.position h, hf.jobID, hf.position]
      show J v.clone.jobID v.clone.position D
      rw [work_jobID hc2, SameWork.position hc2, hu.1, hu.2.1]
      exact h1
    · rw [← fixed_same h, hx, ← h3, ← hu.2.2, ← fixed_clone v, fixed_eq, fixed_eq v.clone]; rfl

/-- C80: whatever the values in a job's context, templates reach only what they are meant to: the script, entrypoint, files, mounts,
networks, registry, GPUs, tags and working directory of a stored task — and of its pre and post tasks, sidecars, branches, loop body and
sub-job — are word for word those of the definition at its position in its job, or of a branch or loop body in it. -/
theorem C80_fixed (hp : PreKeeps E) {w : World} (hw : Reachable E w) {n : Nat} {t : Task} (h : w.ds.task? n = some t) :
    ∃ j d x, w.ds.job? t.jobID = some j ∧ 1 ≤ t.position ∧ j.tasks[t.position - 1]? = some d ∧ Part d x ∧
      Task.fixed t = Task.fixed x := by
  obtain ⟨d, x, ⟨j, h1, h2, h3⟩, h4, h5⟩ := made_fixed hp (C80_tasks hw h)
  exact ⟨j, d, x, h1, h2, h3, h4, h5⟩

theorem fixed_fields {t x : Task} (h : Task.fixed t = Task.fixed x) :
    t.run = x.run ∧ t.entrypoint = x.entrypoint ∧ t.files = x.files ∧ t.mounts = x.mounts ∧ t.networks = x.networks ∧
    t.registry = x.registry ∧ t.gpus = x.gpus ∧ t.tags = x.tags ∧ t.workdir = x.workdir ∧
    t.env.map (·.1) = x.env.map (·.1) ∧ t.cmd.length = x.cmd.length := by
  rw [fixed_eq, fixed_eq x] at h
  simp only [Task.mk.injEq] at h
  obtain ⟨-, -, -, -, -, -, -, -, -, -, -, -, h1, h2, h3, -, h4, h5, h6, -, -, -, -, -, -, h7, h8, -, -, -, -, -, -, -, -, -, -, h9, h10, h11, -⟩ := h
  refine ⟨h3, h2, h6, h7, h8, h4, h9, h10, h11, ?_, ?_⟩
  · have := congrArg (List.map (·.1)) h5
    simpa [mapVals, Function.comp_def] using this
  · have := congrArg List.length h1
    simpa using this

/-- C80: in particular the script a worker is given, and the entrypoint, files, mounts, networks, registry, GPUs, tags and working
directory it is given with it, are those of a task written in the definition of the job. -/
theorem C80_script (hp : PreKeeps E) {w : World} (hw : Reachable E w) {q : String} {t : Task} (h : Msg.task q t ∈ w.msgs)
    (hq : isTaskQueue q = true) :
    ∃ j d x, w.ds.job? t.jobID = some j ∧ 1 ≤ t.position ∧ j.tasks[t.position - 1]? = some d ∧ Part d x ∧
      t.run = x.run ∧ t.entrypoint = x.entrypoint ∧ t.files = x.files ∧ t.mounts = x.mounts ∧ t.networks = x.networks ∧
      t.registry = x.registry ∧ t.gpus = x.gpus ∧ t.tags = x.tags ∧ t.workdir = x.workdir ∧
      t.env.map (·.1) = x.env.map (·.1) ∧ t.cmd.length = x.cmd.length := by
  unfold isTaskQueue at hq
  rw [Bool.and_eq_true] at hq
  obtain ⟨_, hm⟩ := C80_messages hw h (by rintro rfl; exact absurd hq.1 (by decide)) (by
    cases hx : isExclusiveQueue q with
    | false => rfl
    | true => rw [hx] at hq; exact absurd hq.2 (by decide))
  obtain ⟨d, x, ⟨j, h1, h2, h3⟩, h4, h5⟩ := made_fixed hp hm
  exact ⟨j, d, x, h1, h2, h3, h4, fixed_fields h5⟩

theorem row_nz (hE : E.WellFormed) {w : World} (hw : Reachable E w) {n : Nat} {r : Task} (h : w.ds.task? n = some r) : n ≠ 0 := by
  obtain ⟨toks, G, hi⟩ := reachable_winv (env_safe hE) hw
  have := (hi.db.tasks n r h).st
  rw [(task?_mem h).2] at this
  exact (hi.db.ghost _ _ this).nz

/-- How the first attempt of a top-level task is made, whatever is known of the context. -/
theorem made_first (hE : E.WellFormed) {w : World} (hw : Reachable E w) {Cx : Nat → Nat → JobContext → Prop} {t : Task}
    (hm : Made E (Defined w) Cx (Row w) t) (hp : t.parentID = 0) (ha : attempts t = 0) :
    ∃ d now sd c, Defined w t.jobID t.position d ∧ Cx t.jobID t.position c ∧
      SameWork (evaluateTask (evaluateTemplate E.C.O ⟨c, none⟩ sd) (prepTask d t.id t.jobID t.position now)).1 t := by
  have nz : ∀ {p : Task}, Row w p → p.id ≠ 0 := fun {p} ⟨r, hr, _⟩ => row_nz hE hw hr
  cases hm with
  | @top d _ n k id now sd c hd hc hs =>
    have hf := (evaluateTask_frame (evaluateTemplate E.C.O ⟨c, none⟩ sd) (prepTask d id n k now)).1
    have e0 : t.id = id := (work_id hs).symm.trans hf.id
    have e1 : t.jobID = n := (work_jobID hs).symm.trans hf.jobID
    have e2 : t.position = k := (SameWork.position hs).symm.trans hf.position
    subst e0 e1 e2
    exact ⟨d, now, sd, c, hd, hc, hs⟩
  | @branch p d x _ q id now sd c hm hR hq hd hc he hs =>
    have hf := (evaluateTask_frame (evaluateTemplate E.C.O ⟨c, none⟩ sd) (parChild p d p.jobID id now)).1
    rw [he] at hf
    have : t.parentID = p.id := (congrArg Task.parentID hs.1 : (work x).parentID = (work t).parentID).symm.trans hf.parentID
    exact absurd (this.symm.trans hp) (nz hR)
  | @item p x _ e id now sd ix item c hm hR hq hc he hs =>
    have hf := (evaluateTask_frame (evaluateTemplate E.C.O ⟨c, some (eachVarName e, ix, item)⟩ sd) (eachChild p e p.jobID id now ix)).1
    rw [he] at hf
    have : t.parentID = p.id := (congrArg Task.parentID hs.1 : (work x).parentID = (work t).parentID).symm.trans hf.parentID
    exact absurd (this.symm.trans hp) (nz hR)
  | @retry u v x _ id now sd c hm hR hv hr hc he hs =>
    have hf := (evaluateTask_frame (evaluateTemplate E.C.O ⟨c, none⟩ sd) (retryTask v id now)).1
    rw [he] at hf
    have h1 : attempts x = 0 := hs.2.trans ha
    unfold attempts at h1
    rw [hf.retry] at h1
    cases hr' : v.retry with
    | none => exact absurd hr' hr
    | some r =>
      rw [show (retryTask v id now).retry = v.retry.map fun r => { r with attempts := r.attempts + 1 } from rfl, hr'] at h1
      cases h1

/-- C80: the first attempt of a top-level task is its definition, evaluated once, in a context its
job had while it was at that task. -/
theorem C80_first (hE : E.WellFormed) {w : World} (hw : Reachable E w) {n : Nat} {t : Task} (h : w.ds.task? n = some t)
    (hp : t.parentID = 0) (ha : attempts t = 0) :
    ∃ d now sd c, Defined w t.jobID t.position d ∧ ContextOf E w t.jobID t.position c ∧
      SameWork (evaluateTask (evaluateTemplate E.C.O ⟨c, none⟩ sd) (prepTask d t.id t.jobID t.position now)).1 t :=
  made_first hE hw (C80_tasks hw h) hp ha

/-- C80: what a stored task is never changes: whatever happens to it, it stays the same work, and the same attempt. -/
theorem C80_kept {w w' : World} (hw : Reachable E w) (hs : Step E w w') {n : Nat} {t t' : Task} (ht : w.ds.task? n = some t)
    (ht' : w'.ds.task? n = some t') : SameWork t t' := kept_step hw hs ht ht'

/-! ## Concrete histories -/

namespace OriginEx

/-- `tasks.a` is the value of variable `a`, `secrets.k` the secret `k`. -/
def cfg : Cfg where
  O e c _ := if e = "tasks.a" then (match mget c.job.tasks "a" with | some v => .ok { text := v } | none => .error "unknown")
    else if e = "secrets.k" then (match mget c.job.secrets "k" with | some v => .ok { text := v } | none => .error "unknown")
    else .error "unknown"
  parseDur _ := none

def first : Task := { name := "first", var := "a", run := "curl example.com" }
def plain : Task := { name := "plain", run := "echo $X", env := [("X", "{{ tasks.a }}")] }
def broken : Task := { name := "broken", run := "rm -rf $X/data", env := [("X", "{{ oops }}")] }

def job (t : Task) : Job := { name := "two", tasks := [first, t], secrets := [("k", "hunter2")] }
def both : Task := { name := "both", parallel := some { tasks := [plain] } }

def node : Node := { id := 7, queue := "x-7" }
/-- the task prints something that looks like a template -/
def prints : WorkerRun := { nodeID := 7, run := fun t => (none, { t with result := "{{ secrets.k }}" }) }

def env (t : Task) : Env where
  C := cfg
  fuel := 3
  submitOK j := j = job t
  fireOK _ := False
  workerOK w := w = prints
  restartOK _ := False

theorem plain_fresh : plain.Fresh :=
  ⟨(fun _ h => nomatch h), rfl, rfl, (fun _ h => nomatch h), (fun _ h => nomatch h), (fun _ h => nomatch h), (fun _ h => nomatch h),
   fun _ h => nomatch h⟩
theorem broken_fresh : broken.Fresh :=
  ⟨(fun _ h => nomatch h), rfl, rfl, (fun _ h => nomatch h), (fun _ h => nomatch h), (fun _ h => nomatch h), (fun _ h => nomatch h),
   fun _ h => nomatch h⟩
theorem both_fresh : both.Fresh :=
  ⟨(fun _ h => nomatch h), rfl, rfl, (fun _ h => by cases h; rfl),
   (fun _ h c hc => by cases h; rw [List.mem_singleton.1 hc]; exact plain_fresh), (fun _ h => nomatch h), (fun _ h => nomatch h),
   fun _ h => nomatch h⟩

theorem env_wf {t : Task} (ht : t.Fresh) : (env t).WellFormed where
  submit j hj := by
    cases hj
    refine ⟨rfl, fun x hx => ?_⟩
    simp only [job, List.mem_cons, List.not_mem_nil, or_false] at hx
    rcases hx with rfl | rfl
    · exact ⟨(fun _ h => nomatch h), rfl, rfl, (fun _ h => nomatch h), (fun _ h => nomatch h), (fun _ h => nomatch h),
        (fun _ h => nomatch h), fun _ h => nomatch h⟩
    · exact ht
  fire _ h := h.elim
  worker w hw t := by cases hw; exact ⟨rfl, rfl, rfl, rfl, rfl, rfl, rfl, rfl, rfl⟩

theorem env_pre (t : Task) : PreKeeps (env t) := fun r u hr => by cases hr; exact ⟨rfl, rfl, rfl⟩

/-- The first task is run; its report is handled; the second task is scheduled. -/
def acts (t : Task) : List Play :=
  [.nodes [node], .submit (job t), .deliver 0, .deliver 0, .work 0 prints, .deliver 0, .deliver 0, .deliver 0]

theorem acts_allowed (t : Task) : ∀ a ∈ acts t, a.allowed (env t) := fun a ha => by
  simp only [acts, List.mem_cons, List.not_mem_nil, or_false] at ha
  rcases ha with rfl | rfl | rfl | rfl | rfl | rfl | rfl | rfl <;> simp [Play.allowed, env]

def final (t : Task) : World := playAll (env t) {} (acts t)

theorem final_reach (t : Task) (hf : playFits .once (env t) {} (acts t) = true) : Reachable (env t) (final t) :=
  (stepsM_playAll (M := .once) (acts_allowed t) hf).steps

theorem plain_reach : Reachable (env plain) (final plain) := final_reach plain (by decide +kernel)
theorem both_reach : Reachable (env both) (final both) := final_reach both (by decide +kernel)
theorem broken_reach : Reachable (env broken) (final broken) := final_reach broken (by decide +kernel)

/-- C80 applies: the second task of the job is with a worker, its first attempt; its environment is what its definition evaluates to
with the value the first task has produced, and its script is that of the definition. -/
example : ∃ w q t r, (env plain).WellFormed ∧ PreKeeps (env plain) ∧ Reachable (env plain) w ∧ Msg.task q t ∈ w.msgs ∧
    isTaskQueue q = true ∧ w.ds.task? 3 = some r ∧ r.parentID = 0 ∧ attempts r = 0 ∧ t.id = 3 ∧ t.run = "echo $X" ∧
    t.env = [("X", "{{ secrets.k }}")] ∧ Recorded (env plain) w 1 "a" "{{ secrets.k }}" := by
  have h1 : ((final plain).msgs[0]?).any (fun m => match m with
      | .task q t => q == "default" && t.id == 3 && t.run == "echo $X" && decide (t.env = [("X", "{{ secrets.k }}")])
      | _ => false) = true := by decide +kernel
  have h2 : ((final plain).ds.job? 1).any (fun j => decide (("a", "{{ secrets.k }}") ∈ j.context.tasks)) = true := by decide +kernel
  have h3 : ((final plain).ds.task? 3).any (fun r => r.parentID == 0 && attempts r == 0) = true := by decide +kernel
  have hr := plain_reach
  revert h1 h2 h3 hr
  generalize final plain = w
  intro h1 h2 h3 hr
  obtain ⟨m, hm, h1⟩ := (Option.any_eq_true _ _).1 h1
  obtain ⟨j, hj, h2⟩ := (Option.any_eq_true _ _).1 h2
  obtain ⟨r, hr3, h3⟩ := (Option.any_eq_true _ _).1 h3
  cases m with
  | task q t =>
    simp only [Bool.and_eq_true, beq_iff_eq, decide_eq_true_eq] at h1 h3
    obtain ⟨⟨⟨a1, a2⟩, a3⟩, a4⟩ := h1
    exact ⟨w, q, t, r, env_wf plain_fresh, env_pre plain, hr, List.mem_of_getElem? hm, by rw [a1]; decide, hr3, h3.1, h3.2, a2, a3, a4,
      ⟨w, j, hr, .refl _, hj, of_decide_eq_true h2⟩⟩
  | _ => cases h1

end OriginEx

/-- C80 does not hold for texts: the branches of a parallel task are evaluated when the parallel task is created and again when it is
scheduled, so a template in the *result of a task* is evaluated too. Here a task prints the text of a template, a branch refers to that
result, and what the branch gets is a secret it never referred to; a task outside of a parallel task gets the text. -/
theorem C80_evaluated_twice_defect :
    ∃ (E : Env) (w : World) (j : Job) (p c d : Task) (q : ParallelTask Task), E.WellFormed ∧ PreKeeps E ∧ Reachable E w ∧
      w.ds.job? 1 = some j ∧ j.context.tasks = [("a", "{{ secrets.k }}")] ∧ j.context.secrets = [("k", "hunter2")] ∧
      Defined w 1 2 p ∧ p.parallel = some q ∧ q.tasks = [d] ∧ d.env = [("X", "{{ tasks.a }}")] ∧
      w.ds.task? 4 = some c ∧ c.jobID = 1 ∧ c.parentID = 3 ∧ c.name = d.name ∧ c.env = [("X", "hunter2")] := by
  have h1 : ((OriginEx.final OriginEx.both).ds.job? 1).any (fun j => decide (j.context.tasks = [("a", "{{ secrets.k }}")]) &&
      decide (j.context.secrets = [("k", "hunter2")]) && (j.tasks[1]?).any fun p => p.parallel.any fun q => match q.tasks with
        | [d] => decide (d.env = [("X", "{{ tasks.a }}")]) && d.name == "plain"
        | _ => false) = true := by decide +kernel
  have h2 : ((OriginEx.final OriginEx.both).ds.task? 4).any (fun c => c.jobID == 1 && c.parentID == 3 && c.name == "plain" &&
      decide (c.env = [("X", "hunter2")])) = true := by decide +kernel
  have hr := OriginEx.both_reach
  revert h1 h2 hr
  generalize OriginEx.final OriginEx.both = w
  intro h1 h2 hr
  obtain ⟨j, hj, h1⟩ := (Option.any_eq_true _ _).1 h1
  obtain ⟨c, hc, h2⟩ := (Option.any_eq_true _ _).1 h2
  simp only [Bool.and_eq_true, beq_iff_eq, decide_eq_true_eq] at h1 h2
  obtain ⟨⟨a1, a2⟩, h1⟩ := h1
  obtain ⟨⟨⟨b1, b2⟩, b3⟩, b4⟩ := h2
  obtain ⟨p, hp, h1⟩ := (Option.any_eq_true _ _).1 h1
  obtain ⟨q, hq, h1⟩ := (Option.any_eq_true _ _).1 h1
  split at h1
  · rename_i d hd
    simp only [Bool.and_eq_true, beq_iff_eq, decide_eq_true_eq] at h1
    exact ⟨_, w, j, p, c, d, q, OriginEx.env_wf OriginEx.both_fresh, OriginEx.env_pre _, hr, hj, a1, a2, ⟨j, hj, by decide, hp⟩, hq, hd,
      h1.1, hc, b1, b2, by rw [b3, h1.2], b4⟩
  · cases h1

/-- C80 does not say that evaluation succeeded: a task other than the first whose templates cannot be evaluated is created FAILED but
published as pending nevertheless (`completed.go:246-255`, `job.go:187-196`), so it is scheduled and handed to a worker as far as its
evaluation got. Here the environment of a script is the unevaluated template. -/
theorem C80_broken_template_runs_defect :
    ∃ (E : Env) (w : World) (j : Job) (d t : Task), E.WellFormed ∧ PreKeeps E ∧ Reachable E w ∧ w.ds.job? 1 = some j ∧
      j.state = .running ∧ Defined w 1 2 d ∧ d.env = [("X", "{{ oops }}")] ∧
      (∀ c sd, evaluateTemplate E.C.O c sd "{{ oops }}" = .error "unknown") ∧
      Msg.task QUEUE_DEFAULT t ∈ w.msgs ∧ t.jobID = 1 ∧ t.position = 2 ∧ t.state = .scheduled ∧ t.run = d.run ∧
      t.env = [("X", "{{ oops }}")] := by
  have h1 : ((OriginEx.final OriginEx.broken).ds.job? 1).any (fun j => decide (j.state = .running) && (j.tasks[1]?).any fun d =>
      decide (d.env = [("X", "{{ oops }}")]) && d.run == "rm -rf $X/data") = true := by decide +kernel
  have h2 : ((OriginEx.final OriginEx.broken).msgs[0]?).any (fun m => match m with
      | .task q t => q == QUEUE_DEFAULT && t.jobID == 1 && t.position == 2 && decide (t.state = .scheduled) && t.run == "rm -rf $X/data" &&
          decide (t.env = [("X", "{{ oops }}")])
      | _ => false) = true := by decide +kernel
  have hr := OriginEx.broken_reach
  revert h1 h2 hr
  generalize OriginEx.final OriginEx.broken = w
  intro h1 h2 hr
  obtain ⟨j, hj, h1⟩ := (Option.any_eq_true _ _).1 h1
  obtain ⟨m, hm, h2⟩ := (Option.any_eq_true _ _).1 h2
  rw [Bool.and_eq_true, decide_eq_true_eq] at h1
  obtain ⟨a1, h1⟩ := h1
  obtain ⟨d, hd, h1⟩ := (Option.any_eq_true _ _).1 h1
  simp only [Bool.and_eq_true, beq_iff_eq, decide_eq_true_eq] at h1
  cases m with
  | task q t =>
    simp only [Bool.and_eq_true, beq_iff_eq, decide_eq_true_eq] at h2
    obtain ⟨⟨⟨⟨⟨b1, b2⟩, b3⟩, b4⟩, b5⟩, b6⟩ := h2
    subst b1
    exact ⟨_, w, j, d, t, OriginEx.env_wf OriginEx.broken_fresh, OriginEx.env_pre _, hr, hj, a1, ⟨j, hj, by decide, hd⟩, h1.1,
      (fun c sd => rfl), List.mem_of_getElem? hm, b2, b3, b4, by rw [b5, h1.2], b6⟩
  | _ => cases h2

namespace OriginEx

/-- every list has two items -/
def cfg2 : Cfg where
  O s _ _ := .ok { text := s, items := some ["x", "y"] }
  parseDur _ := none

def server : Task := { name := "server", image := "nginx", probe := some { path := "/", port := 80, timeout := "10s" } }
def servers : Job := { name := "servers", tasks := [{ name := "all", each := some { list := "items", concurrency := 1, task := server } }] }
def ok : WorkerRun := { nodeID := 7 }

def env2 : Env where
  C := cfg2
  fuel := 3
  submitOK j := j = servers
  fireOK _ := False
  workerOK w := w = ok
  restartOK _ := False

theorem env2_wf : env2.WellFormed where
  submit j hj := by
    cases hj
    refine ⟨rfl, fun x hx => ?_⟩
    rw [List.mem_singleton.1 hx]
    exact ⟨(fun _ h => nomatch h), rfl, rfl, (fun _ h => nomatch h), (fun _ h => nomatch h), (fun _ h => by cases h; rfl),
      (fun _ h => by cases h; exact ⟨(fun _ h => nomatch h), rfl, rfl, (fun _ h => nomatch h), (fun _ h => nomatch h), (fun _ h => nomatch h),
        (fun _ h => nomatch h), fun _ h => nomatch h⟩), fun _ h => nomatch h⟩
  fire _ h := h.elim
  worker w hw t := by cases hw; exact ⟨rfl, rfl, rfl, rfl, rfl, rfl, rfl, rfl, rfl⟩

/-- Up to the moment the first child is with a worker; then it is finished and the second one is scheduled. -/
def acts1 : List Play := [.nodes [node], .submit servers, .deliver 0, .deliver 0, .deliver 0]
def acts2 : List Play := [.work 0 ok, .deliver 0, .deliver 0, .deliver 0]

theorem acts_allowed2 : ∀ a ∈ acts1 ++ acts2, a.allowed env2 := fun a ha => by
  simp only [acts1, acts2, List.cons_append, List.nil_append, List.mem_cons, List.not_mem_nil, or_false] at ha
  rcases ha with rfl | rfl | rfl | rfl | rfl | rfl | rfl | rfl | rfl <;> simp [Play.allowed, env2]

theorem reach1 : Reachable env2 (playAll env2 {} acts1) :=
  (stepsM_playAll (M := .once) (fun a ha => acts_allowed2 a (List.mem_append_left _ ha)) (by decide +kernel)).steps
theorem reach2 : Steps env2 (playAll env2 {} acts1) (playAll env2 (playAll env2 {} acts1) acts2) :=
  (stepsM_playAll (M := .once) (fun a ha => acts_allowed2 a (List.mem_append_right _ ha)) (by decide +kernel)).steps

end OriginEx

/-- C80 leaves out the probe of a task because it is not stored: of the children of a loop with a limit, those that are handed out at once
have the probe of the definition, while those released later, read from the database, have none. -/
theorem C80_probe_lost_defect :
    ∃ (E : Env) (v w : World) (a b : Task) (d : Task) (e : EachTask Task), E.WellFormed ∧ Reachable E v ∧ Steps E v w ∧
      Defined v 1 1 d ∧ d.each = some e ∧ e.task.probe = some { path := "/", port := 80, timeout := "10s" } ∧
      Msg.task QUEUE_DEFAULT a ∈ v.msgs ∧ Msg.task QUEUE_DEFAULT b ∈ w.msgs ∧ a.parentID = 2 ∧ b.parentID = 2 ∧ a.id ≠ b.id ∧
      a.probe = e.task.probe ∧ b.probe = none := by
  have h1 : ((playAll OriginEx.env2 {} OriginEx.acts1).ds.job? 1).any (fun j => (j.tasks[0]?).any fun d => d.each.any fun e =>
      decide (e.task.probe = some { path := "/", port := 80, timeout := "10s" })) = true := by decide +kernel
  have h2 : ((playAll OriginEx.env2 {} OriginEx.acts1).msgs[0]?).any (fun m => match m with
      | .task q t => q == QUEUE_DEFAULT && t.parentID == 2 && t.id == 3 &&
          decide (t.probe = some { path := "/", port := 80, timeout := "10s" })
      | _ => false) = true := by decide +kernel
  have h3 : ((playAll OriginEx.env2 (playAll OriginEx.env2 {} OriginEx.acts1) OriginEx.acts2).msgs[0]?).any (fun m => match m with
      | .task q t => q == QUEUE_DEFAULT && t.parentID == 2 && t.id == 4 && decide (t.probe = none)
      | _ => false) = true := by decide +kernel
  have hr := OriginEx.reach1
  have hs := OriginEx.reach2
  revert h1 h2 h3 hr hs
  generalize playAll OriginEx.env2 (playAll OriginEx.env2 {} OriginEx.acts1) OriginEx.acts2 = w
  generalize playAll OriginEx.env2 {} OriginEx.acts1 = v
  intro h1 h2 h3 hr hs
  obtain ⟨j, hj, h1⟩ := (Option.any_eq_true _ _).1 h1
  obtain ⟨d, hd, h1⟩ := (Option.any_eq_true _ _).1 h1
  obtain ⟨e, he, h1⟩ := (Option.any_eq_true _ _).1 h1
  obtain ⟨m, hm, h2⟩ := (Option.any_eq_true _ _).1 h2
  obtain ⟨m', hm', h3⟩ := (Option.any_eq_true _ _).1 h3
  have h1 := of_decide_eq_true h1
  cases m with
  | task q a =>
    cases m' with
    | task q' b =>
      simp only [Bool.and_eq_true, beq_iff_eq, decide_eq_true_eq] at h2 h3
      obtain ⟨⟨⟨a1, a2⟩, a3⟩, a4⟩ := h2
      obtain ⟨⟨⟨b1, b2⟩, b3⟩, b4⟩ := h3
      subst a1 b1
      exact ⟨_, v, w, a, b, d, e, OriginEx.env2_wf, hr, hs, ⟨j, hj, by decide, hd⟩, he, h1, List.mem_of_getElem? hm,
        List.mem_of_getElem? hm', a2, b2, by rw [a3, b3]; decide, by rw [a4, h1], b4⟩
    | _ => cases h3
  | _ => cases h2

end Tork
