import Verif.Handlers
/-!
# Webhooks — model of `/repo/internal/webhook/webhook.go`, `/repo/middleware/job/webhook.go`,
`/repo/middleware/task/webhook.go`
-/

namespace Tork.Webhooks

/-- The outcome of one HTTP request: `client.Do` failed, or a response with a status code. -/
inductive Resp
  | transport
  | status (code : Int)
  deriving DecidableEq, Repr

/-- `webhook.go:28-38` -/
def isRetryable (code : Int) : Bool := code = 429 || code = 500 || code = 502 || code = 503 || code = 504

/-- `webhook.go:15` -/
def maxAttempts : Nat := 5

/-- Result of a call: success, the number of requests made and the pauses (in seconds) after failed requests. -/
structure CallResult where
  ok : Bool
  requests : Nat
  sleeps : List Nat
  deriving DecidableEq, Repr

/-- The loop of `webhook.go:49-82`: `attempts` is the Go variable, `left = 5 + 1 - attempts`, `resp i` the outcome
of request number `i`. -/
def callLoop (resp : Nat → Resp) : Nat → Nat → List Nat → CallResult
  | 0, attempts, sl => { ok := false, requests := attempts - 1, sleeps := sl }
  | left + 1, attempts, sl =>
    match resp attempts with
    | .transport => callLoop resp left (attempts + 1) (sl ++ [attempts * 2])
    | .status c =>
      if c ≥ 200 ∧ c < 300 then { ok := true, requests := attempts, sleeps := sl }
      else if !isRetryable c then { ok := false, requests := attempts, sleeps := sl }
      else callLoop resp left (attempts + 1) (sl ++ [attempts * 2])

/-- `webhook.go:40-84 Call`. Not modelled: an URL that `http.NewRequest` rejects (then the code dereferences nil at
line 51), serialization of the body (cannot fail for the summary types). -/
def call (resp : Nat → Resp) : CallResult := callLoop resp maxAttempts 1 []

/-! ## Summaries -/

/-- `job.go:90-109` -/
structure JobSummary where
  id : Nat
  createdBy : Option User
  parentID : Nat
  inputs : StrMap
  name : String
  description : String
  tags : List String
  state : JobState
  createdAt : Nat
  startedAt : Option Nat
  completedAt : Option Nat
  failedAt : Option Nat
  position : Nat
  taskCount : Nat
  result : String
  error : String
  progress : Rat
  schedule : Option JobSchedule
  deriving DecidableEq

/-- `job.go:267-288 NewJobSummary` -/
def newJobSummary (j : Job) : JobSummary :=
  { id := j.id, createdBy := j.createdBy, parentID := j.parentID, inputs := j.inputs, name := j.name
    description := j.description, tags := j.tags, state := j.state, createdAt := j.createdAt, startedAt := j.startedAt
    completedAt := j.completedAt, failedAt := j.failedAt, position := j.position, taskCount := j.taskCount
    result := j.result, error := j.error, progress := j.progress, schedule := j.schedule }

/-- `task.go:80-96` -/
structure TaskSummary where
  id : Nat
  jobID : Nat
  position : Nat
  progress : Rat
  name : String
  description : String
  state : TaskState
  createdAt : Option Nat
  scheduledAt : Option Nat
  startedAt : Option Nat
  completedAt : Option Nat
  error : String
  result : String
  var : String
  tags : List String
  deriving DecidableEq

/-- `task.go:309-327 NewTaskSummary` -/
def newTaskSummary (t : Task) : TaskSummary :=
  { id := t.id, jobID := t.jobID, position := t.position, progress := t.progress, name := t.name
    description := t.description, state := t.state, createdAt := t.createdAt, scheduledAt := t.scheduledAt
    startedAt := t.startedAt, completedAt := t.completedAt, error := t.error, result := t.result, var := t.var
    tags := t.tags }

/-! ## Selection -/

/-- The event types of the middleware (`middleware/task/task.go:11-27`, `middleware/job/job.go:11-22`). -/
inductive EventType
  | started | stateChange | redelivered | progress | read
  deriving DecidableEq, Repr

/-- A request that will be made: target, headers and body. -/
structure Request (B : Type) where
  url : String
  headers : StrMap
  body : B

/-- `for name, v := range wh.Headers { newv, err := EvaluateTemplate(v, …); …; wh.Headers[name] = newv }`
(`job/webhook.go:61-67`, `task/webhook.go:83-89`): on error the value becomes the empty string. -/
def evalHeaders (tm : String → Except Err String) (h : StrMap) : StrMap :=
  h.map fun p => (p.1, match tm p.2 with | .ok v => v | .error _ => "")

/-- The `if` of a webhook (`job/webhook.go:32-48`, `task/webhook.go:42-58`). -/
def ifHolds (ev : String → Except Err Val) (cond : String) : Bool :=
  if cond = "" then true
  else match ev cond with
    | .error _ => false
    | .ok v => match v.bool with
      | some b => b
      | none => false

/-- The event tests of `job/webhook.go:23-31`. -/
def jobEventMatches (et : EventType) (event : String) : Bool :=
  if event ≠ "job.StateChange" ∧ event ≠ "" ∧ event ≠ "job.Progress" then false
  else if et = .stateChange ∧ event ≠ "job.StateChange" ∧ event ≠ "" then false
  else if et = .progress ∧ event ≠ "job.Progress" then false
  else true

/-- The event tests of `task/webhook.go:35-41`. -/
def taskEventMatches (et : EventType) (event : String) : Bool :=
  if event ≠ "task.StateChange" ∧ event ≠ "task.Progress" then false
  else if (event = "task.StateChange" ∧ et ≠ .stateChange) ∨ (event = "task.Progress" ∧ et ≠ .progress) then false
  else true

/-- `job/webhook.go:12-56`: the error returned and the requests made. `next` is the result of the wrapped handler;
`ev` evaluates an expression on the job's summary; `tm` a template in the job's context. Simplification: the
summary is taken when the middleware runs (the code takes it in the goroutine that calls the webhook). -/
def jobWebhook (ev : JobSummary → String → Except Err Val) (tm : JobContext → String → Except Err String)
    (next : Option Err) (et : EventType) (j : Job) : Option Err × List (Request JobSummary) :=
  match next with
  | some e => (some e, [])
  | none =>
    if et ≠ .stateChange ∧ et ≠ .progress then (none, [])
    else (none, (j.webhooks.filter fun wh => jobEventMatches et wh.event && ifHolds (ev (newJobSummary j)) wh.cond).map
      fun wh => { url := wh.url, headers := evalHeaders (tm j.context) wh.headers, body := newJobSummary j })

/-- `task/webhook.go:66-78 getJob`: the cached copy of the job if there is one, else the stored job, which is then
cached (for an hour). -/
def hookJob (cached : Option Job) (stored : Except Err Job) : Except Err Job :=
  match cached with
  | some j => .ok j
  | none => stored

/-- `task/webhook.go:16-64` -/
def taskWebhook (ev : TaskSummary → JobSummary → String → Except Err Val) (tm : JobContext → String → Except Err String)
    (cached : Option Job) (stored : Except Err Job) (next : Option Err) (et : EventType) (t : Task) :
    Option Err × List (Request TaskSummary) :=
  match next with
  | some e => (some e, [])
  | none =>
    if et ≠ .stateChange ∧ et ≠ .progress then (none, [])
    else match hookJob cached stored with
      | .error e => (some e, [])
      | .ok job => (none,
          (job.webhooks.filter fun wh => taskEventMatches et wh.event &&
            ifHolds (ev (newTaskSummary t) (newJobSummary job)) wh.cond).map
          fun wh => { url := wh.url, headers := evalHeaders (tm job.context) wh.headers, body := newTaskSummary t })

end Tork.Webhooks
