import Verif.Input
import Verif.ExecLemmas
/-!
# C29, C30, C42 — accepting jobs

`JobRules` and `TaskRules` are the published rules, `Within` says which tasks they apply to.
-/

namespace Tork.Inp

/-- The queues that belong to the coordinator. -/
def reserved : List String :=
  ["pending", "started", "completed", "error", "heartbeat", "jobs", "logs", "progress", "redeliveries"]

/-- A queue name a user may give: none, or one that is neither a coordinator queue nor exclusive to a node. -/
def UserQueue (q : String) : Prop := q = "" ∨ (q ∉ reserved ∧ ¬ "x-".toList <+: q.toList)

/-- `u` is `t` or nested in it through parallel branches and each-bodies. -/
inductive Within : Task → Task → Prop
  | here (t : Task) : Within t t
  | branch {t u v : Task} {p : Parallel Task} : t.parallel = some p → v ∈ p.tasks → Within v u → Within t u
  | item {t u : Task} {e : Each Task} : t.each = some e → Within e.task u → Within t u

def GoodExpr (c : Checks) (s : String) : Prop := s = "" ∨ c.validExpr s = true
def GoodDuration (c : Checks) (s : String) : Prop := s = "" ∨ c.validDuration s = true
def GoodRetry (r : Retry) : Prop := 1 ≤ r.limit ∧ r.limit ≤ 10
def GoodPath (s : String) : Prop :=
  ∀ ch ∈ s.toList, ch ∈ ['-', '/', '.', '_', '=', ' '] ∨ ('0' ≤ ch ∧ ch ≤ '9') ∨ ('a' ≤ ch ∧ ch ≤ 'z') ∨ ('A' ≤ ch ∧ ch ≤ 'Z')

/-- A mount has a type; a volume has a target and no source; a bind has a source; paths use plain characters; the
target is not tork's own directory. -/
structure MountRules (m : Mount) : Prop where
  type : m.type ≠ ""
  volume : m.type = "volume" → m.source = "" ∧ m.target ≠ ""
  bind : m.type = "bind" → m.source ≠ ""
  source : GoodPath m.source
  target : GoodPath m.target
  notTork : m.target ≠ "/tork"

structure AuxRules (c : Checks) (t : AuxTask) : Prop where
  name : t.name ≠ ""
  probe : ∀ p, t.probe = some p →
    p.path ≠ "" ∧ p.path.length ≤ 256 ∧ 1 ≤ p.port ∧ p.port ≤ 65535 ∧ GoodDuration c p.timeout

structure WebhookRules (c : Checks) (w : Webhook) : Prop where
  url : w.url ≠ ""
  cond : GoodExpr c w.cond

/-- The rules for one task. -/
structure TaskRules (c : Checks) (t : Task) : Prop where
  name : t.name ≠ ""
  queue : UserQueue t.queue
  aux : ∀ a, a ∈ t.pre ∨ a ∈ t.post ∨ a ∈ t.sidecars → AuxRules c a
  mounts : ∀ m ∈ t.mounts, MountRules m
  retry : ∀ r, t.retry = some r → GoodRetry r
  timeout : GoodDuration c t.timeout
  var : t.var.length ≤ 64
  cond : GoodExpr c t.cond
  workdir : t.workdir.length ≤ 256
  priority : 0 ≤ t.priority ∧ t.priority ≤ 9
  /-- at most one kind of composite task -/
  kind : (t.parallel = none ∨ t.each = none) ∧ (t.parallel = none ∨ t.subJob = none) ∧ (t.each = none ∨ t.subJob = none)
  /-- a composite task has no execution fields -/
  composite : t.parallel ≠ none ∨ t.each ≠ none ∨ t.subJob ≠ none →
    t.image = "" ∧ t.cmd = [] ∧ t.entrypoint = [] ∧ t.run = "" ∧ t.env = [] ∧ t.queue = "" ∧ t.pre = [] ∧
    t.post = [] ∧ t.mounts = [] ∧ t.retry = none ∧ t.limits = none ∧ t.timeout = ""
  parallel : ∀ p, t.parallel = some p → p.tasks ≠ []
  each : ∀ e, t.each = some e → e.list ≠ "" ∧ c.validExpr e.list = true ∧ 0 ≤ e.concurrency ∧ e.concurrency ≤ 99999
  subJob : ∀ s, t.subJob = some s → s.name ≠ "" ∧ s.tasks ≠ none ∧
    (∀ a, s.autoDelete = some a → GoodDuration c a.after) ∧ ∀ w ∈ s.webhooks, WebhookRules c w

/-- The rules for the job itself. -/
structure JobRules (c : Checks) (j : Job) : Prop where
  name : j.name ≠ ""
  tasks : j.tasks ≠ []
  output : GoodExpr c j.output
  defaults : ∀ d, j.defaults = some d → (∀ r, d.retry = some r → GoodRetry r) ∧ GoodDuration c d.timeout ∧
    UserQueue d.queue ∧ 0 ≤ d.priority ∧ d.priority ≤ 9
  webhooks : ∀ w ∈ j.webhooks, WebhookRules c w
  /-- a permission names exactly one existing user or role -/
  permissions : ∀ p ∈ j.permissions,
    (p.user ≠ "" ∧ p.role = "" ∧ c.userExists p.user = true) ∨ (p.role ≠ "" ∧ p.user = "" ∧ c.roleExists p.role = true)
  autoDelete : ∀ a, j.autoDelete = some a → GoodDuration c a.after
  wait : ∀ w, j.wait = some w → w ≠ "" ∧ c.validDuration w = true

/-! ### Rule by rule -/

theorem vExpr_iff {c s} : vExpr c s = true ↔ GoodExpr c s := by unfold vExpr GoodExpr; split <;> simp_all
theorem vDuration_iff {c s} : vDuration c s = true ↔ GoodDuration c s := by unfold vDuration GoodDuration; split <;> simp_all
theorem vQueue_iff {q} : vQueue q = true ↔ UserQueue q := by
  unfold vQueue UserQueue isExclusiveQueue isCoordinatorQueue
  rw [show coordinatorQueues = reserved from rfl, show ['x', '-'] = "x-".toList from rfl]
  by_cases h : q = ""
  · simp [h]
  · rw [if_neg h]
    by_cases h1 : "x-".toList.isPrefixOf q.toList = true
    · rw [if_pos h1]
      have := List.isPrefixOf_iff_prefix.1 h1
      exact ⟨fun h' => by simp at h', fun h' => absurd this (h'.resolve_left h).2⟩
    · rw [if_neg h1]
      have h1' : ¬ "x-".toList <+: q.toList := fun h' => h1 (List.isPrefixOf_iff_prefix.2 h')
      by_cases h2 : q ∈ reserved
      · have : reserved.contains q = true := by simpa using h2
        rw [this]; simp [h, h2]
      · have : reserved.contains q = false := by simpa using h2
        rw [this]; exact ⟨fun _ => .inr ⟨h2, h1'⟩, fun _ => by simp⟩

theorem vRetry_iff {r} : vRetry r = true ↔ ∀ x, r = some x → GoodRetry x := by
  unfold vRetry GoodRetry
  cases r <;> simp; omega

theorem mountChar_iff (ch : Char) : mountChar ch = true ↔
    ch ∈ ['-', '/', '.', '_', '=', ' '] ∨ ('0' ≤ ch ∧ ch ≤ '9') ∨ ('a' ≤ ch ∧ ch ≤ 'z') ∨ ('A' ≤ ch ∧ ch ≤ 'Z') := by
  unfold mountChar
  simp only [Bool.or_eq_true, Bool.and_eq_true, decide_eq_true_eq, List.mem_cons, List.not_mem_nil, or_false]
  grind

theorem mountMatch_iff {s : String} (h : s ≠ "") : mountMatch s = true ↔ GoodPath s := by
  unfold mountMatch GoodPath
  simp only [ne_eq, h, not_false_eq_true, decide_true, Bool.true_and, List.all_eq_true, mountChar_iff]

theorem goodPath_empty : GoodPath "" := by intro ch h; simp at h

theorem vMount_iff (m : Mount) : vMount m = true ↔ MountRules m := by
  have hs : m.source ≠ "" → (mountMatch m.source = true ↔ GoodPath m.source) := mountMatch_iff
  have ht : m.target ≠ "" → (mountMatch m.target = true ↔ GoodPath m.target) := mountMatch_iff
  have hp := goodPath_empty
  have hv : "volume" ≠ "bind" := by decide +kernel
  have hv1 : "volume" ≠ "" := by decide +kernel
  have hv2 : "bind" ≠ "" := by decide +kernel
  have hv3 : "/tork" ≠ "" := by decide +kernel
  have e1 : MountRules m ↔ m.type ≠ "" ∧ (m.type = "volume" → m.source = "" ∧ m.target ≠ "") ∧
      (m.type = "bind" → m.source ≠ "") ∧ GoodPath m.source ∧ GoodPath m.target ∧ m.target ≠ "/tork" :=
    ⟨fun ⟨a, b, c, d, e, f⟩ => ⟨a, b, c, d, e, f⟩, fun ⟨a, b, c, d, e, f⟩ => ⟨a, b, c, d, e, f⟩⟩
  rw [e1]
  unfold vMount
  generalize "volume" = v, "bind" = b, "/tork" = t at *
  clear e1
  rcases m with ⟨ty, src, tgt, opts⟩
  simp only at *
  by_cases a1 : ty = ""
  · simp [a1]
  by_cases a2 : src = "" <;> by_cases a3 : tgt = "" <;> by_cases a4 : ty = v <;> by_cases a5 : ty = b <;>
    by_cases a6 : tgt = t <;> cases a7 : mountMatch src <;> cases a8 : mountMatch tgt <;> simp_all

theorem vProbe_iff {c p} : vProbe c p = true ↔ ∀ x, p = some x →
    x.path ≠ "" ∧ x.path.length ≤ 256 ∧ 1 ≤ x.port ∧ x.port ≤ 65535 ∧ GoodDuration c x.timeout := by
  unfold vProbe
  cases p with
  | none => simp
  | some p => simp [vDuration_iff]; grind

theorem vAux_iff {c a} : vAux c a = true ↔ AuxRules c a := by
  unfold vAux
  rw [Bool.and_eq_true, vProbe_iff]
  exact ⟨fun h => ⟨by simpa using h.1, h.2⟩, fun h => ⟨by simpa using h.name, h.probe⟩⟩

theorem vWebhook_iff {c w} : vWebhook c w = true ↔ WebhookRules c w := by
  unfold vWebhook
  rw [Bool.and_eq_true, vExpr_iff]
  exact ⟨fun h => ⟨by simpa using h.1, h.2⟩, fun h => ⟨by simpa using h.url, h.cond⟩⟩

theorem vAutoDelete_iff {c a} : vAutoDelete c a = true ↔ ∀ x, a = some x → GoodDuration c x.after := by
  unfold vAutoDelete
  cases a <;> simp [vDuration_iff]

theorem vDefaults_iff {c d} : vDefaults c d = true ↔ ∀ x, d = some x → (∀ r, x.retry = some r → GoodRetry r) ∧
    GoodDuration c x.timeout ∧ UserQueue x.queue ∧ 0 ≤ x.priority ∧ x.priority ≤ 9 := by
  unfold vDefaults
  cases d with
  | none => simp
  | some d => simp [vDuration_iff, vQueue_iff, vRetry_iff, and_assoc]

theorem vPermission_iff {c : Checks} {p : Permission} : vPermission c p = true ↔
    (p.user ≠ "" ∧ p.role = "" ∧ c.userExists p.user = true) ∨ (p.role ≠ "" ∧ p.user = "" ∧ c.roleExists p.role = true) := by
  unfold vPermission
  grind

theorem vSubJob_iff {c s} : vSubJob c s = true ↔ ∀ x, s = some x → x.name ≠ "" ∧ x.tasks ≠ none ∧
    (∀ a, x.autoDelete = some a → GoodDuration c a.after) ∧ ∀ w ∈ x.webhooks, WebhookRules c w := by
  unfold vSubJob
  cases s with
  | none => simp
  | some s => simp [vAutoDelete_iff, vWebhook_iff, and_assoc, Option.isSome_iff_ne_none]

theorem vKind_iff {t} : vKind t = true ↔
    (t.parallel = none ∨ t.each = none) ∧ (t.parallel = none ∨ t.subJob = none) ∧ (t.each = none ∨ t.subJob = none) := by
  unfold vKind
  cases t.parallel <;> cases t.each <;> cases t.subJob <;> simp

theorem vComposite_iff {t} : vComposite t = true ↔ (t.parallel ≠ none ∨ t.each ≠ none ∨ t.subJob ≠ none →
    t.image = "" ∧ t.cmd = [] ∧ t.entrypoint = [] ∧ t.run = "" ∧ t.env = [] ∧ t.queue = "" ∧ t.pre = [] ∧
    t.post = [] ∧ t.mounts = [] ∧ t.retry = none ∧ t.limits = none ∧ t.timeout = "") := by
  unfold vComposite
  by_cases h : t.parallel ≠ none ∨ t.each ≠ none ∨ t.subJob ≠ none
  · have : (t.parallel.isNone && t.each.isNone && t.subJob.isNone) = false := by
      cases h1 : t.parallel <;> cases h2 : t.each <;> cases h3 : t.subJob <;> simp_all
    rw [this]
    simp [h, and_assoc]
  · have : (t.parallel.isNone && t.each.isNone && t.subJob.isNone) = true := by
      simp only [ne_eq, not_or, Classical.not_not] at h
      simp [h.1, h.2.1, h.2.2]
    rw [this]
    simp [h]

/-- The boolean rules of one task, including those of its composite parts but not of the nested tasks. -/
def vOne (c : Checks) (t : Task) : Bool :=
  vTaskHere c t && (match t.parallel with | none => true | some p => !p.tasks.isEmpty) &&
  (match t.each with | none => true | some e => e.list ≠ "" && vExpr c e.list && 0 ≤ e.concurrency && e.concurrency ≤ 99999) &&
  vSubJob c t.subJob

theorem vOne_iff {c t} : vOne c t = true ↔ TaskRules c t := by
  have hp : (match t.parallel with | none => true | some p => !p.tasks.isEmpty) = true ↔
      ∀ p, t.parallel = some p → p.tasks ≠ [] := by cases t.parallel <;> simp
  have he : (match t.each with | none => true | some e => e.list ≠ "" && vExpr c e.list && 0 ≤ e.concurrency && e.concurrency ≤ 99999) = true ↔
      ∀ e, t.each = some e → e.list ≠ "" ∧ c.validExpr e.list = true ∧ 0 ≤ e.concurrency ∧ e.concurrency ≤ 99999 := by
    cases t.each with
    | none => simp
    | some e => simp [vExpr_iff, GoodExpr]; grind
  unfold vOne vTaskHere
  simp only [Bool.and_eq_true, hp, he, vSubJob_iff, vComposite_iff, vKind_iff, vQueue_iff, vRetry_iff, vDuration_iff,
    vExpr_iff, List.all_eq_true, vAux_iff, vMount_iff, decide_eq_true_eq]
  constructor
  · rintro ⟨⟨⟨⟨⟨⟨⟨⟨⟨⟨⟨⟨⟨⟨⟨⟨⟨h1, h2⟩, h3⟩, h4⟩, h5⟩, h6⟩, h7⟩, h8⟩, h9⟩, h10⟩, h11⟩, h12⟩, h13⟩, h14⟩, h15⟩, h16⟩, h17⟩, h18⟩
    exact ⟨h1, h2, fun a h => by rcases h with h | h | h; exact h3 a h; exact h4 a h; exact h5 a h, h6, h7, h8, h9, h10,
      h11, ⟨h12, h13⟩, h14, h15, h16, h17, h18⟩
  · rintro ⟨h1, h2, h3, h6, h7, h8, h9, h10, h11, ⟨h12, h13⟩, h14, h15, h16, h17, h18⟩
    exact ⟨⟨⟨⟨⟨⟨⟨⟨⟨⟨⟨⟨⟨⟨⟨⟨⟨h1, h2⟩, fun a h => h3 a (.inl h)⟩, fun a h => h3 a (.inr (.inl h))⟩,
      fun a h => h3 a (.inr (.inr h))⟩, h6⟩, h7⟩, h8⟩, h9⟩, h10⟩, h11⟩, h12⟩, h13⟩, h14⟩, h15⟩, h16⟩, h17⟩, h18⟩

mutual
theorem vTask_iff (c : Checks) : (t : Task) → (vTask c t = true ↔ ∀ u, Within t u → vOne c u = true)
  | t@{ parallel := par, each := ea, .. } => by
    have hp := vPar_iff c par
    have he := vEach_iff c ea
    rw [vTask]
    simp only [Bool.and_eq_true, hp, he]
    constructor
    · rintro ⟨⟨⟨h1, h2⟩, h3⟩, h4⟩ u hw
      cases hw with
      | here => simp only [vOne, Bool.and_eq_true]; exact ⟨⟨⟨h1, h2.1⟩, h3.1⟩, h4⟩
      | branch e hv hw => exact h2.2 _ e _ hv _ hw
      | item e hw => exact h3.2 _ e _ hw
    · intro h
      have h0 := h _ (.here _)
      simp only [vOne, Bool.and_eq_true] at h0
      obtain ⟨⟨⟨h1, h2⟩, h3⟩, h4⟩ := h0
      exact ⟨⟨⟨h1, h2, fun p e v hv u hw => h u (.branch e hv hw)⟩, h3, fun x e u hw => h u (.item e hw)⟩, h4⟩
theorem vTasks_iff (c : Checks) : (ts : List Task) → (vTasks c ts = true ↔ ∀ t ∈ ts, ∀ u, Within t u → vOne c u = true)
  | [] => by rw [vTasks]; simp
  | t :: ts => by rw [vTasks, Bool.and_eq_true, vTask_iff c t, vTasks_iff c ts]; simp
theorem vPar_iff (c : Checks) : (p : Option (Parallel Task)) → (vPar c p = true ↔
    (match p with | none => true | some p => !p.tasks.isEmpty) = true ∧
    ∀ x, p = some x → ∀ v ∈ x.tasks, ∀ u, Within v u → vOne c u = true)
  | none => by rw [vPar]; simp
  | some { tasks := ts } => by
    rw [vPar, Bool.and_eq_true, vTasks_iff c ts]
    simp
theorem vEach_iff (c : Checks) : (e : Option (Each Task)) → (vEach c e = true ↔
    (match e with | none => true | some e => e.list ≠ "" && vExpr c e.list && 0 ≤ e.concurrency && e.concurrency ≤ 99999) = true ∧
    ∀ x, e = some x → ∀ u, Within x.task u → vOne c u = true)
  | none => by rw [vEach]; simp
  | some { var := v, list := l, task := t, concurrency := k } => by
    rw [vEach]
    simp only [Bool.and_eq_true, vTask_iff c t, Option.some.injEq, forall_eq']
    grind
end

/-- **C29.** A job is accepted if and only if the job follows the rules for jobs and each of its tasks, and each task
nested in them through parallel branches and each-bodies (at any depth), follows the rules for tasks. -/
theorem C29_accepts_iff (c : Checks) (j : Job) :
    validate c j = true ↔ JobRules c j ∧ ∀ t ∈ j.tasks, ∀ u, Within t u → TaskRules c u := by
  unfold validate
  have hw : vWait c j.wait = true ↔ ∀ w, j.wait = some w → w ≠ "" ∧ c.validDuration w = true := by
    unfold vWait
    cases j.wait with
    | none => simp
    | some w => simp [vDuration_iff, GoodDuration]; grind
  simp only [Bool.and_eq_true, vTasks_iff, hw, vExpr_iff, vDefaults_iff, vAutoDelete_iff, List.all_eq_true, vWebhook_iff,
    vPermission_iff, vOne_iff]
  constructor
  · rintro ⟨⟨⟨⟨⟨⟨⟨⟨h1, h2⟩, h3⟩, h4⟩, h5⟩, h6⟩, h7⟩, h8⟩, h9⟩
    exact ⟨⟨by simpa using h1, by simpa using h2, h4, h5, h6, h7, h8, h9⟩, h3⟩
  · rintro ⟨⟨h1, h2, h4, h5, h6, h7, h8, h9⟩, h3⟩
    exact ⟨⟨⟨⟨⟨⟨⟨⟨by simpa using h1, by simpa using h2⟩, h3⟩, h4⟩, h5⟩, h6⟩, h7⟩, h8⟩, h9⟩

/-- **C29 (no effect).** A rejected job leaves no trace: nothing is stored and nothing is published. -/
theorem C29_rejected_no_effect (c : Checks) (u : Option User) (j : Job) (h : ¬ validate c j = true) (s : Sys) :
    (submitJob c u j).exec s = (some (.badRequest "validation failed"), s) := by
  unfold submitJob
  rw [if_pos (by simpa using h), exec_ret]

/-! ## C30 — what is stored is what was submitted

`readTask`/`readJob` are the specification: they read a definition back from a job record, field by field. -/

def readRetry (r : TaskRetry) : Retry := ⟨r.limit⟩
def readLimits (l : TaskLimits) : Limits := ⟨l.cpus, l.memory⟩
def readRegistry (r : Tork.Registry) : Registry := ⟨r.username, r.password⟩
def readMount (m : Tork.Mount) : Mount := ⟨m.type, m.source, m.target, m.opts⟩
def readProbe (p : Tork.Probe) : Probe := ⟨p.path, p.port, p.timeout⟩
def readWebhook (w : Tork.Webhook) : Webhook := ⟨w.url, w.headers, w.event, w.cond⟩
def readPermission (p : Tork.Permission) : Permission :=
  ⟨(p.user.map (·.username)).getD "", (p.role.map (·.slug)).getD ""⟩
def readDefaults (d : JobDefaults) : Defaults :=
  ⟨d.retry.map readRetry, d.limits.map readLimits, d.timeout, d.queue, d.priority⟩
def readAux (t : Tork.Task) : AuxTask :=
  { name := t.name, description := t.description, cmd := t.cmd, entrypoint := t.entrypoint, run := t.run
    image := t.image, registry := t.registry.map readRegistry, env := t.env, files := t.files, timeout := t.timeout
    probe := t.probe.map readProbe }

mutual
def readTask : Tork.Task → Task
  | t@{ parallel := par, each := ea, subJob := sj, .. } =>
    { name := t.name, description := t.description, cmd := t.cmd, entrypoint := t.entrypoint, run := t.run
      image := t.image, registry := t.registry.map readRegistry, env := t.env, files := t.files, queue := t.queue
      pre := t.pre.map readAux, post := t.post.map readAux, sidecars := t.sidecars.map readAux
      mounts := t.mounts.map readMount, networks := t.networks, retry := t.retry.map readRetry
      limits := t.limits.map readLimits, timeout := t.timeout, var := t.var, cond := t.cond
      parallel := readPar par, each := readEach ea, subJob := readSubJob sj
      gpus := t.gpus, tags := t.tags, workdir := t.workdir, priority := t.priority }
def readTasks : List Tork.Task → List Task
  | [] => []
  | t :: ts => readTask t :: readTasks ts
def readPar : Option (ParallelTask Tork.Task) → Option (Parallel Task)
  | none => none
  | some { tasks := ts, .. } => some { tasks := readTasks ts }
def readEach : Option (EachTask Tork.Task) → Option (Each Task)
  | none => none
  | some { var := v, list := l, task := t, concurrency := k, .. } =>
    some { var := v, list := l, task := readTask t, concurrency := k }
def readSubJob : Option (SubJobTask Tork.Task) → Option (SubJob Task)
  | none => none
  | some { name := n, description := d, tasks := ts, inputs := inp, secrets := sec, autoDelete := ad, output := o,
           detached := det, webhooks := wh, .. } =>
    some { name := n, description := d, tasks := some (readTasks ts), inputs := inp, secrets := sec
           autoDelete := ad.map fun a => ⟨a.after⟩, output := o, detached := det, webhooks := wh.map readWebhook }
end

/-- The definition carried by a job record (`wait` is a parameter of the request, not of the job). -/
def readJob (j : Tork.Job) : Job :=
  { name := j.name, description := j.description, tags := j.tags, tasks := readTasks j.tasks, inputs := j.inputs
    secrets := j.secrets, output := j.output, defaults := j.defaults.map readDefaults
    webhooks := j.webhooks.map readWebhook, permissions := j.permissions.map readPermission
    autoDelete := j.autoDelete.map fun a => ⟨a.after⟩ }

/-- Like `Within`, but also through the tasks of sub-jobs. -/
inductive Inside : Task → Task → Prop
  | here (t : Task) : Inside t t
  | branch {t u v : Task} {p : Parallel Task} : t.parallel = some p → v ∈ p.tasks → Inside v u → Inside t u
  | item {t u : Task} {e : Each Task} : t.each = some e → Inside e.task u → Inside t u
  | sub {t u v : Task} {s : SubJob Task} {ts : List Task} : t.subJob = some s → s.tasks = some ts → v ∈ ts →
      Inside v u → Inside t u

/-- The model's records hold natural numbers; a missing list of sub-job tasks is stored as the empty one. -/
structure Representable (t : Task) : Prop where
  priority : 0 ≤ t.priority
  retry : ∀ r, t.retry = some r → 0 ≤ r.limit
  each : ∀ e, t.each = some e → 0 ≤ e.concurrency
  probe : ∀ a, a ∈ t.pre ∨ a ∈ t.post ∨ a ∈ t.sidecars → ∀ p, a.probe = some p → 0 ≤ p.port
  subJob : ∀ s, t.subJob = some s → s.tasks ≠ none

theorem read_retry {r : Option Retry} (h : ∀ x, r = some x → 0 ≤ x.limit) : (r.map Retry.toRetry).map readRetry = r := by
  cases r with
  | none => rfl
  | some r =>
    have := h r rfl
    cases r with | mk n =>
    simp only [Option.map_some, Retry.toRetry, readRetry, Option.some.injEq, Retry.mk.injEq]
    exact Int.toNat_of_nonneg this

theorem read_limits (r : Option Limits) : (r.map Limits.toLimits).map readLimits = r := by cases r <;> rfl
theorem read_registry (r : Option Registry) : (r.map Registry.toRegistry).map readRegistry = r := by cases r <;> rfl
theorem read_autoDelete (r : Option AutoDelete) :
    (r.map fun a => ({ after := a.after } : Tork.AutoDelete)).map (fun a => (⟨a.after⟩ : AutoDelete)) = r := by
  cases r <;> rfl
theorem read_mounts (l : List Mount) : (l.map Mount.toMount).map readMount = l := by
  induction l with
  | nil => rfl
  | cons a l ih => simp only [List.map_cons, ih]; rfl
theorem read_webhooks (l : List Webhook) : (l.map Webhook.toWebhook).map readWebhook = l := by
  induction l with
  | nil => rfl
  | cons a l ih => simp only [List.map_cons, ih]; rfl

theorem read_aux (l : List AuxTask) (h : ∀ a ∈ l, ∀ p, a.probe = some p → 0 ≤ p.port) :
    (l.map AuxTask.toTask).map readAux = l := by
  induction l with
  | nil => rfl
  | cons a l ih =>
    rw [List.map_cons, List.map_cons, ih fun x hx => h x (List.mem_cons_of_mem _ hx)]
    congr 1
    have hp := h a List.mem_cons_self
    rcases a with ⟨n, d, c, e, r, i, reg, env, f, t, p⟩
    simp only [AuxTask.toTask, readAux, read_registry, AuxTask.mk.injEq, true_and]
    cases p with
    | none => rfl
    | some p =>
      have := hp p rfl
      rcases p with ⟨a, b, c⟩
      simp only [Option.map_some, Probe.toProbe, readProbe, Option.some.injEq, Probe.mk.injEq, true_and, and_true]
      exact Int.toNat_of_nonneg this

mutual
theorem read_task : (t : Task) → (∀ u, Inside t u → Representable u) → readTask t.toTask = t
  | t@{ parallel := par, each := ea, subJob := sj, .. }, h => by
    have h0 := h _ (.here _)
    have hp := read_par par fun p e v hv u hw => h u (.branch e hv hw)
    have he := read_each ea h0.each fun e eq u hw => h u (.item eq hw)
    have hs := read_sub sj h0.subJob fun s ts e1 e2 v hv u hw => h u (.sub e1 e2 hv hw)
    have hr := read_retry h0.retry
    have a1 := read_aux _ fun a ha => h0.probe a (.inl ha)
    have a2 := read_aux _ fun a ha => h0.probe a (.inr (.inl ha))
    have a3 := read_aux _ fun a ha => h0.probe a (.inr (.inr ha))
    have hpr := Int.toNat_of_nonneg h0.priority
    rw [Task.toTask, readTask]
    simp only at *
    simp only [hp, he, hs, hr, a1, a2, a3, hpr, read_limits, read_registry, read_mounts]
theorem read_tasks : (ts : List Task) → (∀ t ∈ ts, ∀ u, Inside t u → Representable u) → readTasks (toTasks ts) = ts
  | [], _ => by rw [toTasks, readTasks]
  | t :: ts, h => by
    rw [toTasks, readTasks, read_task t (h t List.mem_cons_self), read_tasks ts fun x hx => h x (List.mem_cons_of_mem _ hx)]
theorem read_par : (p : Option (Parallel Task)) →
    (∀ x, p = some x → ∀ v ∈ x.tasks, ∀ u, Inside v u → Representable u) → readPar (toPar p) = p
  | none, _ => by rw [toPar, readPar]
  | some { tasks := ts }, h => by rw [toPar, readPar, read_tasks ts (h _ rfl)]
theorem read_each : (e : Option (Each Task)) → (∀ x, e = some x → 0 ≤ x.concurrency) →
    (∀ x, e = some x → ∀ u, Inside x.task u → Representable u) → readEach (toEach e) = e
  | none, _, _ => by rw [toEach, readEach]
  | some { var := v, list := l, task := t, concurrency := k }, hk, h => by
    rw [toEach, readEach, read_task t (h _ rfl), Int.toNat_of_nonneg (hk _ rfl)]
theorem read_sub : (s : Option (SubJob Task)) → (∀ x, s = some x → x.tasks ≠ none) →
    (∀ x ts, s = some x → x.tasks = some ts → ∀ v ∈ ts, ∀ u, Inside v u → Representable u) → readSubJob (toSubJob s) = s
  | none, _, _ => by rw [toSubJob, readSubJob]
  | some { tasks := none, .. }, hs, _ => absurd rfl (hs _ rfl)
  | some { tasks := some ts, .. }, _, h => by
    rw [toSubJob, toSubTasks, readSubJob, read_tasks ts (h _ _ rfl rfl), read_webhooks, read_autoDelete]
end

theorem read_permissions (c : Checks) (l : List Permission) (h : ∀ p ∈ l, vPermission c p = true) :
    (l.map Permission.toPermission).map readPermission = l := by
  induction l with
  | nil => rfl
  | cons a l ih =>
    rw [List.map_cons, List.map_cons, ih fun x hx => h x (List.mem_cons_of_mem _ hx)]
    congr 1
    have := vPermission_iff.1 (h a List.mem_cons_self)
    rcases a with ⟨u, r⟩
    simp only at this
    rcases this with ⟨h1, h2, _⟩ | ⟨h1, h2, _⟩
    · subst h2; simp [Permission.toPermission, readPermission]
    · subst h2; simp [Permission.toPermission, readPermission, h1]

theorem read_job (c : Checks) (j : Job) (hv : validate c j = true)
    (h : ∀ t ∈ j.tasks, ∀ u, Inside t u → Representable u) : readJob j.toJob = { j with wait := none } := by
  have hr := (C29_accepts_iff c j).1 hv
  have hd : (j.defaults.map Defaults.toDefaults).map readDefaults = j.defaults := by
    cases hd : j.defaults with
    | none => rfl
    | some d =>
      have hd := hr.1.defaults d hd
      have h1 := read_retry (r := d.retry) fun x hx => by have := hd.1 x hx; unfold GoodRetry at this; omega
      simp only [Option.map_some, Defaults.toDefaults, readDefaults, read_limits, h1, Int.toNat_of_nonneg hd.2.2.2.1]
  have hp := read_permissions c j.permissions fun p hp => vPermission_iff.2 (hr.1.permissions p hp)
  unfold Job.toJob readJob
  simp only [read_tasks j.tasks h, hd, hp, read_webhooks, read_autoDelete]

/-- **C30.** Submitting an accepted job to a working datastore and broker stores one new job, in state PENDING at
position 0, with the number of its tasks as task count and the definition exactly as submitted, owned by the caller
(the guest user if there is none); exactly that job is published to be started, and returned. -/
theorem C30_submit (c : Checks) (u : Option User) (j : Job) (hv : validate c j = true)
    (h : ∀ t ∈ j.tasks, ∀ u, Inside t u → Representable u) (s : Sys)
    (h0 : s.next ≠ 0) (hf : s.ds.job? s.next = none) :
    ∃ row, let s' := ((submitJob c u j).exec s).2
      ((submitJob c u j).exec s).1 = some (.ok row) ∧
      s'.ds = { s.ds with jobs := s.ds.jobs ++ [{ row with createdBy := some (u.getD s.ds.guest) }] } ∧
      s'.out = s.out ++ [.job row] ∧
      readJob row = { j with wait := none } ∧ row.id = s.next ∧ row.state = .pending ∧ row.position = 0 ∧
      row.taskCount = j.tasks.length ∧ row.createdBy = u ∧ row.parentID = 0 ∧
      row.context.inputs = j.inputs ∧ row.context.secrets = j.secrets ∧ row.context.tasks = [] ∧
      row.result = "" ∧ row.error = "" ∧ row.startedAt = none ∧ row.completedAt = none ∧ row.failedAt = none := by
  have hlen : ∀ ts : List Task, (toTasks ts).length = ts.length := by
    intro ts; induction ts with
    | nil => rw [toTasks]; rfl
    | cons t ts ih => rw [toTasks]; simp [ih]
  have hx : (submitJob c u j).exec s =
      (some (.ok (submitRow s.next s.clock u j.toJob)),
       ((s.drawn.ticked.withDs { s.ds with jobs := s.ds.jobs ++ [jobRow s.ds.guest (submitRow s.next s.clock u j.toJob)] }).send
          [.job (submitRow s.next s.clock u j.toJob)])) := by
    unfold submitJob apiSubmit
    rw [if_neg (by simp [hv])]
    simp only [Prog.bind_eq, Prog.pure_eq]
    rw [exec_uuid, exec_now, exec_tx (s := s.drawn.ticked) (createJob_of (by exact h0) (by exact hf))]
    simp only
    rw [exec_pub, exec_ret]
    rfl
  refine ⟨submitRow s.next s.clock u j.toJob, ?_⟩
  rw [hx]
  refine ⟨rfl, ?_, rfl, ?_, rfl, rfl, rfl, ?_, rfl, rfl, rfl, rfl, rfl, rfl, rfl, rfl, rfl, rfl⟩
  · cases u <;> rfl
  · rw [← read_job c j hv h]; rfl
  · exact hlen j.tasks

/-! ## C42 — reserved queues -/

/-- **C42 (deletion).** Deleting a queue through the API changes nothing unless the queue is a task queue — neither a
coordinator queue nor a node's exclusive queue — and then removes that queue only. -/
theorem C42_delete_queue (qs : List String) (q : String) :
    (¬ (q ∉ reserved ∧ ¬ "x-".toList <+: q.toList) → (apiDeleteQueue qs q).2 = qs ∧ ∃ e, (apiDeleteQueue qs q).1 = .badRequest e) ∧
    (∀ q', q' ≠ q → (q' ∈ (apiDeleteQueue qs q).2 ↔ q' ∈ qs)) ∧
    ((apiDeleteQueue qs q).1 = .ok () → q ∈ qs ∧ q ∉ (apiDeleteQueue qs q).2) := by
  have ht : isTaskQueue q = true ↔ (q ∉ reserved ∧ ¬ "x-".toList <+: q.toList) := by
    unfold isTaskQueue isCoordinatorQueue isExclusiveQueue
    rw [show coordinatorQueues = reserved from rfl, show ['x', '-'] = "x-".toList from rfl, Bool.and_eq_true, Bool.not_eq_true', Bool.not_eq_true']
    rw [← List.isPrefixOf_iff_prefix, Bool.not_eq_true]
    generalize "x-".toList.isPrefixOf q.toList = b
    simp
  unfold apiDeleteQueue
  by_cases h : isTaskQueue q = false
  · rw [if_pos h]
    refine ⟨fun _ => ⟨rfl, _, rfl⟩, fun _ _ => Iff.rfl, fun h' => by cases h'⟩
  · rw [if_neg h]
    have h' := ht.1 (by simpa using h)
    refine ⟨fun hn => absurd h' hn, ?_, ?_⟩
    · intro q' hq
      split <;> simp [hq]
    · split
      · intro h'; cases h'
      · rename_i hc
        intro _
        refine ⟨by simpa using hc, by simp⟩

/-- **C42 (submission).** No task of an accepted job, at any depth of parallel and each nesting, names a reserved queue,
nor do the job's defaults. -/
theorem C42_submitted_queues (c : Checks) (j : Job) (h : validate c j = true) :
    (∀ t ∈ j.tasks, ∀ u, Within t u → u.queue = "" ∨ (u.queue ∉ reserved ∧ ¬ "x-".toList <+: u.queue.toList)) ∧
    ∀ d, j.defaults = some d → d.queue = "" ∨ (d.queue ∉ reserved ∧ ¬ "x-".toList <+: d.queue.toList) := by
  have h := (C29_accepts_iff c j).1 h
  exact ⟨fun t ht u hu => (h.2 t ht u hu).queue, fun d hd => (h.1.defaults d hd).2.2.1⟩

/-! ### Concrete jobs -/

/-- Everything is a valid expression and duration, every user and role exists. -/
def okChecks : Checks := ⟨fun _ => true, fun _ => true, fun _ => true, fun _ => true⟩

def exShell : Task := { name := "shell", run := "echo hi", image := "alpine", queue := "highcpu", priority := 3
                        retry := some ⟨3⟩, mounts := [{ type := "volume", target := "/tmp" }] }
def exPar : Task := { name := "par", parallel := some ⟨[exShell, exShell]⟩ }
def exEach : Task := { name := "each", each := some { list := "{{ sequence(1,5) }}", task := exPar, concurrency := 2 } }
def exSubmission : Job := { name := "my job", tasks := [exShell, exEach], inputs := [("a", "b")], wait := some "10s"
                            permissions := [{ user := "joe" }], defaults := some { queue := "slow", priority := 1 } }

example : validate okChecks exSubmission = true := by decide +kernel
/-- a reserved queue three levels down is rejected -/
example : validate okChecks { name := "j", tasks := [{ name := "e", each := some { list := "x", task :=
    { name := "p", parallel := some ⟨[{ name := "t", queue := "pending" }]⟩ } } }] } = false := by decide +kernel
example : validate okChecks { name := "j", tasks := [{ exPar with image := "alpine" }] } = false := by decide +kernel
example : validate okChecks { exSubmission with permissions := [{ user := "joe", role := "r" }] } = false := by decide +kernel

/-- The hypothesis of `C30_submit` holds of it. -/
theorem exSubmission_representable : ∀ t ∈ exSubmission.tasks, ∀ u, Inside t u → Representable u := by
  have hs : ∀ u, Inside exShell u → Representable u := by
    intro u h
    cases h with
    | here => exact ⟨by decide, (fun r h => by cases h; decide), (fun _ h => by cases h), (fun a h => by rcases h with h | h | h <;> cases h), (fun _ h => by cases h)⟩
    | branch e => cases e
    | item e => cases e
    | sub e => cases e
  have hp : ∀ u, Inside exPar u → Representable u := by
    intro u h
    cases h with
    | here => exact ⟨by decide, (fun _ h => by cases h), (fun _ h => by cases h), (fun a h => by rcases h with h | h | h <;> cases h), (fun _ h => by cases h)⟩
    | @branch _ _ v _ e hv hu =>
      cases e
      have : v = exShell := by simpa using hv
      subst this; exact hs u hu
    | item e => cases e
    | sub e => cases e
  intro t ht u hu
  have : t = exShell ∨ t = exEach := by simpa [exSubmission] using ht
  rcases this with rfl | rfl
  · exact hs u hu
  · cases hu with
    | here => exact ⟨by decide, (fun _ h => by cases h), (fun e h => by cases h; decide), (fun a h => by rcases h with h | h | h <;> cases h), (fun _ h => by cases h)⟩
    | branch e => cases e
    | item e hu => cases e; exact hp u hu
    | sub e => cases e

/-- **C29/C42 (limit of the validation).** The tasks of a sub-job are not checked: a sub-job task naming a reserved
queue, with no name, and a sub-job without any task are accepted. -/
theorem C42_subjob_tasks_unchecked (c : Checks) (q : String) :
    validate c { name := "j", tasks := [{ name := "t", subJob := some { name := "s", tasks := some [{ queue := q }] } }] } = true ∧
    validate c { name := "j", tasks := [{ name := "t", subJob := some { name := "s", tasks := some [] } }] } = true := by
  constructor <;> rfl

/-- **C42 (limit of the validation).** Queue names are templates evaluated when the task is created, after validation:
a job whose task names the queue `{{inputs.q}}` is accepted whatever its input `q` is, and the evaluated task is sent to
that queue — a reserved one included. `O` is any expression evaluator that reads job inputs. -/
theorem C42_templated_queue (c : Checks) (O : Oracle) (x : Ctx) (seed : Nat) (q : String)
    (hq : O "inputs.q" x seed = .ok { text := q }) :
    validate c { name := "j", tasks := [{ name := "t", queue := "{{inputs.q}}" }], inputs := [("q", q)] } = true ∧
    (evaluateTask (evaluateTemplate O x seed) (Task.toTask { name := "t", queue := "{{inputs.q}}" })).1.queue = q := by
  refine ⟨rfl, ?_⟩
  have h : evaluateTemplate O x seed "{{inputs.q}}" = .ok q := by
    have ht : tokens "{{inputs.q}}".toList = [.expr "inputs.q".toList] := by decide +kernel
    have hs : String.ofList (sanitizeExpr "inputs.q".toList) = "inputs.q" := by decide +kernel
    unfold evaluateTemplate
    rw [ht]
    simp only [evalToks, evaluateExpr, hs, hq, List.append_nil, String.ofList_toList]
  have h0 : evaluateTemplate O x seed "" = .ok "" := rfl
  have hn : evaluateTemplate O x seed "t" = .ok "t" := rfl
  simp only [Task.toTask, evaluateTask, evalTaskStart, hn, h0, h, evalMap, toPar, toEach, toSubJob, List.map_nil, evalTasks,
    evalPar, evalTaskEnd, evalList]

end Tork.Inp
