import Verif.Webhook
/-!
# C38, C39 — webhooks
-/

namespace Tork.Webhooks

def Resp.success : Resp → Prop
  | .status c => 200 ≤ c ∧ c < 300
  | .transport => False

/-- Transport errors and the statuses 429, 500, 502, 503, 504. -/
def Resp.transient : Resp → Prop
  | .transport => True
  | .status c => c ∈ [(429 : Int), 500, 502, 503, 504]

theorem retryable_iff (c : Int) : isRetryable c = true ↔ (Resp.status c).transient := by
  simp [isRetryable, Resp.transient, or_assoc]

theorem transient_not_success {r : Resp} (h : r.transient) : ¬ r.success := by
  cases r with
  | transport => exact id
  | status c =>
    simp only [Resp.transient, List.mem_cons, List.not_mem_nil, or_false] at h
    simp only [Resp.success]
    omega

/-- The property of a finished call, from attempt `a` on. -/
structure GoodFrom (resp : Nat → Resp) (a : Nat) (r : CallResult) : Prop where
  lo : a ≤ r.requests + 1
  hi : r.requests ≤ 5
  before : ∀ i, a ≤ i → i < r.requests → (resp i).transient
  done : a ≤ r.requests → (r.ok = true ↔ (resp r.requests).success)
  giveUp : r.ok = false → r.requests = 5 ∨ (a ≤ r.requests ∧ ¬ (resp r.requests).transient)
  none : r.requests < a → r.ok = false

theorem callLoop_good (resp : Nat → Resp) : ∀ left a sl, left + a = 6 → GoodFrom resp a (callLoop resp left a sl) ∧
    (callLoop resp left a sl).sleeps = sl ++ ((List.range' a ((callLoop resp left a sl).sleeps.length - sl.length)).map (· * 2)) ∧
    sl.length ≤ (callLoop resp left a sl).sleeps.length := by
  intro left
  induction left with
  | zero =>
    intro a sl h
    have : a = 6 := by omega
    subst this
    refine ⟨⟨by simp [callLoop], by simp [callLoop], ?_, ?_, ?_, ?_⟩, by simp [callLoop], by simp [callLoop]⟩
    · intro i h1 h2; simp [callLoop] at h2; omega
    · intro h1; simp [callLoop] at h1
    · intro _; exact .inl (by simp [callLoop])
    · intro _; rfl
  | succ left ih =>
    intro a sl h
    have again : (resp a).transient → GoodFrom resp a (callLoop resp left (a + 1) (sl ++ [a * 2])) ∧
        (callLoop resp left (a + 1) (sl ++ [a * 2])).sleeps = sl ++ ((List.range' a
          ((callLoop resp left (a + 1) (sl ++ [a * 2])).sleeps.length - sl.length)).map (· * 2)) ∧
        sl.length ≤ (callLoop resp left (a + 1) (sl ++ [a * 2])).sleeps.length := by
      intro ht
      obtain ⟨hg, hs, hl⟩ := ih (a + 1) (sl ++ [a * 2]) (by omega)
      generalize callLoop resp left (a + 1) (sl ++ [a * 2]) = r at hg hs hl
      refine ⟨⟨by have := hg.lo; omega, hg.hi, ?_, ?_, ?_, ?_⟩, ?_, ?_⟩
      · intro i h1 h2
        by_cases hi : i = a
        · subst hi; exact ht
        · exact hg.before i (by omega) h2
      · intro h1
        by_cases h2 : a + 1 ≤ r.requests
        · exact hg.done h2
        · have h3 : r.requests = a := by omega
          rw [h3]
          have := hg.none (by omega)
          rw [this]
          exact ⟨by simp, fun hs => absurd hs (transient_not_success ht)⟩
      · intro hf
        rcases hg.giveUp hf with h1 | ⟨h1, h2⟩
        · exact .inl h1
        · exact .inr ⟨by omega, h2⟩
      · intro h1; exact hg.none (by omega)
      · simp only [List.length_append, List.length_singleton] at hs hl
        rw [hs]
        have : r.sleeps.length - sl.length = (r.sleeps.length - (sl.length + 1)) + 1 := by omega
        rw [← hs, this, List.range'_succ, List.map_cons, List.append_cons]
        exact hs
      · simp only [List.length_append, List.length_singleton] at hl; omega
    unfold callLoop
    cases hr : resp a with
    | transport => exact again (by rw [hr]; trivial)
    | status c =>
      simp only
      by_cases h2 : c ≥ 200 ∧ c < 300
      · rw [if_pos h2]
        refine ⟨⟨by simp, by simp only; omega, ?_, ?_, ?_, ?_⟩, by simp, by simp⟩
        · intro i h1 h2; simp only at h2; omega
        · intro _; simp only [hr]; exact ⟨fun _ => h2, fun _ => trivial⟩
        · intro hf; cases hf
        · intro h1; simp only at h1; omega
      · rw [if_neg h2]
        cases hq : isRetryable c with
        | false =>
          simp only [Bool.not_false, if_true]
          refine ⟨⟨by simp, by simp only; omega, ?_, ?_, ?_, ?_⟩, by simp, by simp⟩
          · intro i h1 h2; simp only at h2; omega
          · intro _; simp only [hr]; exact ⟨by simp, fun hs => absurd hs h2⟩
          · intro _
            refine .inr ⟨Nat.le_refl _, ?_⟩
            simp only [hr]
            intro ht; rw [(retryable_iff c).2 ht] at hq; cases hq
          · intro _; rfl
        | true =>
          simp only [Bool.not_true, Bool.false_eq_true, if_false]
          exact again (by rw [hr]; exact (retryable_iff c).1 hq)

/-- **C38.** Whatever the server answers, a call makes between one and five requests; every request but the last got
a transient failure; the call succeeds iff the last request got a 2xx answer; it gives up only after five requests
or on an answer that is not a transient failure; between requests it pauses 2, 4, 6, … seconds. -/
theorem C38_policy (resp : Nat → Resp) :
    let r := call resp
    1 ≤ r.requests ∧ r.requests ≤ 5 ∧
    (∀ i, 1 ≤ i → i < r.requests → (resp i).transient) ∧
    (r.ok = true ↔ (resp r.requests).success) ∧
    (r.ok = false → r.requests = 5 ∨ ¬ (resp r.requests).transient) ∧
    r.sleeps = (List.range' 1 r.sleeps.length).map (· * 2) := by
  obtain ⟨hg, hs, _⟩ := callLoop_good resp 5 1 [] rfl
  intro r
  have h1 : 1 ≤ r.requests := by
    apply Classical.byContradiction
    intro hc
    have h0 : r.requests = 0 := by omega
    have hf := hg.none (by show r.requests < 1; omega)
    rcases hg.giveUp hf with h | h
    · have : r.requests = 5 := h; omega
    · have : 1 ≤ r.requests := h.1; omega
  refine ⟨h1, hg.hi, hg.before, hg.done h1, ?_, ?_⟩
  · intro hf
    rcases hg.giveUp hf with h | h
    · exact .inl h
    · exact .inr h.2
  · have := hs; simp only [List.nil_append, List.length_nil, Nat.sub_zero] at this; exact this

/-- Success is reported iff some request that was made got a 2xx answer. -/
theorem C38_success_iff (resp : Nat → Resp) :
    (call resp).ok = true ↔ ∃ i, 1 ≤ i ∧ i ≤ (call resp).requests ∧ (resp i).success := by
  obtain ⟨h1, _, h3, h4, _⟩ := C38_policy resp
  constructor
  · intro h; exact ⟨_, h1, Nat.le_refl _, h4.1 h⟩
  · rintro ⟨i, hi, hle, hs⟩
    apply h4.2
    by_cases he : i = (call resp).requests
    · rw [← he]; exact hs
    · exact absurd hs (transient_not_success (h3 i hi (by omega)))

example : call (fun i => if i < 3 then .status 503 else .status 204) = ⟨true, 3, [2, 4]⟩ := by decide
example : call (fun _ => .transport) = ⟨false, 5, [2, 4, 6, 8, 10]⟩ := by decide
example : call (fun i => if i < 2 then .transport else .status 404) = ⟨false, 2, [2]⟩ := by decide

/-! ## C39 -/

/-- What a receiver of a job webhook gets: the public fields of the job, each with the job's own value. -/
structure DescribesJob (j : Job) (b : JobSummary) : Prop where
  id : b.id = j.id
  createdBy : b.createdBy = j.createdBy
  parentID : b.parentID = j.parentID
  inputs : b.inputs = j.inputs
  name : b.name = j.name
  description : b.description = j.description
  tags : b.tags = j.tags
  state : b.state = j.state
  createdAt : b.createdAt = j.createdAt
  startedAt : b.startedAt = j.startedAt
  completedAt : b.completedAt = j.completedAt
  failedAt : b.failedAt = j.failedAt
  position : b.position = j.position
  taskCount : b.taskCount = j.taskCount
  result : b.result = j.result
  error : b.error = j.error
  progress : b.progress = j.progress
  schedule : b.schedule = j.schedule

/-- What a receiver of a task webhook gets: the public fields of the task, each with the task's own value. -/
structure DescribesTask (t : Task) (b : TaskSummary) : Prop where
  id : b.id = t.id
  jobID : b.jobID = t.jobID
  position : b.position = t.position
  progress : b.progress = t.progress
  name : b.name = t.name
  description : b.description = t.description
  state : b.state = t.state
  createdAt : b.createdAt = t.createdAt
  scheduledAt : b.scheduledAt = t.scheduledAt
  startedAt : b.startedAt = t.startedAt
  completedAt : b.completedAt = t.completedAt
  error : b.error = t.error
  result : b.result = t.result
  var : b.var = t.var
  tags : b.tags = t.tags

theorem describesJob_new (j : Job) : DescribesJob j (newJobSummary j) := by constructor <;> rfl
theorem describesTask_new (t : Task) : DescribesTask t (newTaskSummary t) := by constructor <;> rfl

/-- The `if` of a webhook allows the call: it is empty or evaluates to the boolean true. -/
def Allows (ev : String → Except Err Val) (cond : String) : Prop :=
  cond = "" ∨ ∃ v, ev cond = .ok v ∧ v.bool = some true

theorem ifHolds_iff (ev : String → Except Err Val) (cond : String) : ifHolds ev cond = true ↔ Allows ev cond := by
  unfold ifHolds Allows
  by_cases h : cond = ""
  · simp [h]
  · rw [if_neg h]
    cases hv : ev cond with
    | error e => simp [h]
    | ok v =>
      cases hb : v.bool with
      | none => simp [h, hb]
      | some b => simp [h, hb]

/-- A job webhook listens to an event of the job: state changes by default or explicitly, progress explicitly. -/
def JobListens (et : EventType) (event : String) : Prop :=
  (et = .stateChange ∧ (event = "job.StateChange" ∨ event = "")) ∨ (et = .progress ∧ event = "job.Progress")

def TaskListens (et : EventType) (event : String) : Prop :=
  (et = .stateChange ∧ event = "task.StateChange") ∨ (et = .progress ∧ event = "task.Progress")

theorem jobEvent_iff {et : EventType} (h : et = .stateChange ∨ et = .progress) (event : String) :
    jobEventMatches et event = true ↔ JobListens et event := by
  unfold jobEventMatches JobListens
  by_cases h1 : event = "job.StateChange"
  · subst h1; rcases h with rfl | rfl <;> decide
  by_cases h2 : event = ""
  · subst h2; rcases h with rfl | rfl <;> decide
  by_cases h3 : event = "job.Progress"
  · subst h3; rcases h with rfl | rfl <;> decide
  · simp [h1, h2, h3]

theorem taskEvent_iff (et : EventType) (event : String) : taskEventMatches et event = true ↔ TaskListens et event := by
  unfold taskEventMatches TaskListens
  by_cases h1 : event = "task.StateChange"
  · subst h1; cases et <;> decide
  by_cases h3 : event = "task.Progress"
  · subst h3; cases et <;> decide
  · simp [h1, h3]

/-- The requests for a list of webhooks: one for each webhook that is to be called, in order. -/
inductive Requests {B : Type} (want : Webhook → Prop) (tm : String → Except Err String) (body : B) :
    List Webhook → List (Request B) → Prop
  | nil : Requests want tm body [] []
  | call {wh : Webhook} {whs : List Webhook} {r : Request B} {rs : List (Request B)} :
      want wh → r.url = wh.url → r.body = body →
      r.headers.map (·.1) = wh.headers.map (·.1) →
      (∀ i (h : i < r.headers.length) (h' : i < wh.headers.length), ∀ v, tm (wh.headers[i]).2 = .ok v →
        (r.headers[i]).2 = v) →
      Requests want tm body whs rs → Requests want tm body (wh :: whs) (r :: rs)
  | skip {wh : Webhook} {whs : List Webhook} {rs : List (Request B)} :
      ¬ want wh → Requests want tm body whs rs → Requests want tm body (wh :: whs) rs

theorem requests_filter {B : Type} {want : Webhook → Prop} {p : Webhook → Bool} (hp : ∀ wh, p wh = true ↔ want wh)
    (tm : String → Except Err String) (body : B) (whs : List Webhook) :
    Requests want tm body whs ((whs.filter p).map fun wh =>
      { url := wh.url, headers := evalHeaders tm wh.headers, body := body }) := by
  induction whs with
  | nil => exact .nil
  | cons wh whs ih =>
    rw [List.filter_cons]
    by_cases h : p wh = true
    · rw [if_pos h, List.map_cons]
      refine .call ((hp wh).1 h) rfl rfl ?_ ?_ ih
      · simp [evalHeaders]
      · intro i h1 h2 v hv
        simp only [evalHeaders, List.getElem_map, hv]
    · rw [if_neg h]
      exact .skip (fun hw => h ((hp wh).2 hw)) ih

/-- **C39 for jobs.** If the wrapped handler failed its error is returned and nothing is called. Otherwise no error is
returned and, for a state change or progress event, exactly the webhooks of the job that listen to the event and
whose condition allows it are called, once each, with the job's summary and the evaluated headers; other events
call nothing. -/
theorem C39_job (ev : JobSummary → String → Except Err Val) (tm : JobContext → String → Except Err String)
    (et : EventType) (j : Job) :
    (∀ e, jobWebhook ev tm (some e) et j = (some e, [])) ∧
    ∃ rs b, jobWebhook ev tm none et j = (none, rs) ∧ DescribesJob j b ∧
      Requests (fun wh => JobListens et wh.event ∧ Allows (ev b) wh.cond) (tm j.context) b j.webhooks rs := by
  refine ⟨fun e => rfl, ?_⟩
  unfold jobWebhook
  simp only
  by_cases h : et ≠ .stateChange ∧ et ≠ .progress
  · rw [if_pos h]
    refine ⟨[], newJobSummary j, rfl, describesJob_new j, ?_⟩
    have : ∀ whs : List Webhook, Requests (fun wh => JobListens et wh.event ∧ Allows (ev (newJobSummary j)) wh.cond)
        (tm j.context) (newJobSummary j) whs [] := by
      intro whs
      induction whs with
      | nil => exact .nil
      | cons wh whs ih =>
        refine .skip ?_ ih
        rintro ⟨⟨h1, _⟩ | ⟨h1, _⟩, _⟩
        · exact h.1 h1
        · exact h.2 h1
    exact this _
  · rw [if_neg h]
    refine ⟨_, newJobSummary j, rfl, describesJob_new j, requests_filter (fun wh => ?_) _ _ _⟩
    rw [Bool.and_eq_true, jobEvent_iff (by cases et <;> simp_all), ifHolds_iff]

/-- **C39 for tasks.** The same for task events, with the webhooks of the job as remembered by the middleware: the
cached copy if there is one. -/
theorem C39_task (ev : TaskSummary → JobSummary → String → Except Err Val)
    (tm : JobContext → String → Except Err String) (cached : Option Job) (stored : Except Err Job) (et : EventType)
    (t : Task) :
    (∀ e, taskWebhook ev tm cached stored (some e) et t = (some e, [])) ∧
    ∀ job, (cached = some job ∨ cached = none ∧ stored = .ok job) → ∃ rs b bj, taskWebhook ev tm cached stored none et t = (none, rs) ∧
      DescribesTask t b ∧ DescribesJob job bj ∧
      Requests (fun wh => TaskListens et wh.event ∧ Allows (ev b bj) wh.cond) (tm job.context) b job.webhooks rs := by
  refine ⟨fun e => rfl, fun job hj => ?_⟩
  replace hj : hookJob cached stored = .ok job := by
    rcases hj with rfl | ⟨rfl, rfl⟩ <;> rfl
  unfold taskWebhook
  simp only
  by_cases h : et ≠ .stateChange ∧ et ≠ .progress
  · rw [if_pos h]
    refine ⟨[], newTaskSummary t, newJobSummary job, rfl, describesTask_new t, describesJob_new job, ?_⟩
    have : ∀ whs : List Webhook, Requests (fun wh => TaskListens et wh.event ∧
        Allows (ev (newTaskSummary t) (newJobSummary job)) wh.cond) (tm job.context) (newTaskSummary t) whs [] := by
      intro whs
      induction whs with
      | nil => exact .nil
      | cons wh whs ih =>
        refine .skip ?_ ih
        rintro ⟨⟨h1, _⟩ | ⟨h1, _⟩, _⟩
        · exact h.1 h1
        · exact h.2 h1
    exact this _
  · rw [if_neg h, hj]
    refine ⟨_, newTaskSummary t, newJobSummary job, rfl, describesTask_new t, describesJob_new job, requests_filter (fun wh => ?_) _ _ _⟩
    rw [Bool.and_eq_true, taskEvent_iff, ifHolds_iff]

/-- What is sent to a webhook never depends on the job's secrets, context, task definitions, permissions or other
webhooks: two jobs with equal public data have equal summaries. -/
theorem C39_summary_hides (j : Job) (secrets : StrMap) (ctx : JobContext) (tasks ex : List Task) (whs : List Webhook)
    (ps : List Permission) :
    newJobSummary { j with secrets := secrets, context := ctx, tasks := tasks, execution := ex, webhooks := whs,
                           permissions := ps } = newJobSummary j := rfl

/-- **Weak point.** The task webhook works on a cached copy of the job (kept for an hour): a condition on the job's
state is evaluated on the old state, so a webhook that should fire for a task of a RUNNING job does not. -/
theorem C39_stale_job :
    let wh : Webhook := { url := "http://x", event := "task.StateChange", cond := "job.state == 'RUNNING'" }
    let old : Job := { id := 1, state := .scheduled, webhooks := [wh] }
    let cur : Job := { old with state := .running }
    let ev : TaskSummary → JobSummary → String → Except Err Val :=
      fun _ j _ => .ok { text := "", bool := some (j.state = .running) }
    (taskWebhook ev (fun _ x => .ok x) (some old) (.ok cur) none .stateChange {}).2.length = 0 ∧
    (taskWebhook ev (fun _ x => .ok x) none (.ok cur) none .stateChange {}).2.length = 1 := by
  decide +kernel

/-- A case that meets the hypotheses: three webhooks, one of which is to be called. -/
example :
    let ev : JobSummary → String → Except Err Val := fun j _ => .ok { text := "", bool := some (j.state = .completed) }
    let j : Job := { id := 1, state := .completed, webhooks := [{ url := "a" }, { url := "b", event := "job.Progress" },
      { url := "c", event := "job.StateChange", cond := "x" }, { url := "d", event := "other" }] }
    (jobWebhook ev (fun _ x => .ok x) none .stateChange j).2.map (·.url) = ["a", "c"] ∧
    (jobWebhook ev (fun _ x => .ok x) none .progress j).2.map (·.url) = ["b"] := by
  decide +kernel

end Tork.Webhooks
