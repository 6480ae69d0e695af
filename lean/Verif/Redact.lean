import Verif.DS
import Verif.Wildcard
/-!
# Redaction — model of `/repo/internal/redact/redact.go`, `/repo/middleware/job/redact.go`,
`/repo/middleware/task/redact.go`, `/repo/middleware/log/redact.go`

Strings are handled as their lists of characters. Go's byte-wise `strings.ReplaceAll` and the
character-wise one below agree on valid UTF-8 (the only difference, the empty needle, is defined per
rune in Go as well).
-/

namespace Tork.Redaction

/-- `redact.go:14` `redactedStr`. -/
def marker : String := "[REDACTED]"

/-- `strings.ReplaceAll(s, old, new)` for non-empty `old`: scan left to right, at an occurrence emit `new`
and skip the occurrence (`skip` characters remain to be skipped). -/
def replFrom (old new : List Char) : Nat → List Char → List Char
  | _, [] => []
  | k + 1, _ :: cs => replFrom old new k cs
  | 0, c :: cs =>
    if old.isPrefixOf (c :: cs) then new ++ replFrom old new (old.length - 1) cs
    else c :: replFrom old new 0 cs

/-- `strings.ReplaceAll(s, "", new)`: `new` before every character and at the end. -/
def replEmpty (new : List Char) : List Char → List Char
  | [] => new
  | c :: cs => new ++ c :: replEmpty new cs

/-- Go `strings.ReplaceAll`. -/
def replaceAll (s old new : String) : String :=
  .ofList (if old.toList = [] then replEmpty new.toList s.toList
           else replFrom old.toList new.toList 0 s.toList)

/-- `redact.go:31` -/
abbrev Matcher := String → Bool

/-- Go `strings.Contains`. -/
def containsL (sub : List Char) : List Char → Bool
  | [] => sub.isPrefixOf []
  | c :: cs => sub.isPrefixOf (c :: cs) || containsL sub cs

/-- `redact.go:39-43 Contains` (upper-casing of ASCII letters only; Go upper-cases all of Unicode). -/
def contains (sub : String) : Matcher := fun s =>
  containsL (sub.toList.map Char.toUpper) (s.toList.map Char.toUpper)

/-- `redact.go:33-37` -/
def defaultMatchers : List Matcher := [contains "SECRET", contains "PASSWORD", contains "ACCESS_KEY"]

/-- `redact.go:45-49 Wildcard` -/
def wildcard (pattern : String) : Matcher := fun s => Wildcard.match pattern.toUTF8.data.toList s.toUTF8.data.toList

/-- `redact.go:22-30 NewRedacter` -/
def newRedacter (ms : List Matcher) : List Matcher := if ms.length = 0 then defaultMatchers else ms

/-- The inner loop `redact.go:146-148` (and `:63-65`): replace every secret, in map order. -/
def scrub (secrets : StrMap) (v : String) : String :=
  secrets.foldl (fun v kv => replaceAll v kv.2 marker) v

/-- `redact.go:136-152 redactVars` -/
def redactVars (ms : List Matcher) (m secrets : StrMap) : StrMap :=
  m.map fun (k, v) => (k, scrub secrets (if ms.any (· k) then marker else v))

/-- `redact.go:75-77` -/
def redactMount (ms : List Matcher) (secrets : StrMap) (m : Mount) : Mount :=
  { m with opts := redactVars ms m.opts secrets }

/-- `redact.go:102-106, 114-118`; a nil header map stays nil (here: the empty map stays empty). -/
def redactWebhook (ms : List Matcher) (secrets : StrMap) (w : Webhook) : Webhook :=
  { w with headers := redactVars ms w.headers secrets }

/-- `redact.go:96-107` -/
def redactSubJob (ms : List Matcher) (secrets : StrMap) (s : SubJobTask Task) : SubJobTask Task :=
  { s with secrets := s.secrets.map fun (k, _) => (k, marker)
           webhooks := s.webhooks.map (redactWebhook ms secrets) }

/-- `redact.go:92-94` -/
def redactRegistry (r : Registry) : Registry := { r with password := marker }

mutual
/-- `redact.go:69-108 doRedactTask` -/
def redactTask (ms : List Matcher) (secrets : StrMap) : Task → Task
  | t@{ pre := pre, post := post, parallel := par, .. } =>
    { t with
      env := redactVars ms t.env secrets
      mounts := t.mounts.map (redactMount ms secrets)
      pre := redactTasks ms secrets pre
      post := redactTasks ms secrets post
      parallel := redactPar ms secrets par
      registry := t.registry.map redactRegistry
      subJob := t.subJob.map (redactSubJob ms secrets) }
/-- the loops `redact.go:79-81, 83-85, 88-90, 124-126, 128-130` -/
def redactTasks (ms : List Matcher) (secrets : StrMap) : List Task → List Task
  | [] => []
  | t :: ts => redactTask ms secrets t :: redactTasks ms secrets ts
/-- `redact.go:87-91` -/
def redactPar (ms : List Matcher) (secrets : StrMap) : Option (ParallelTask Task) → Option (ParallelTask Task)
  | none => none
  | some { tasks := ts, completions := c } => some { tasks := redactTasks ms secrets ts, completions := c }
end

/-- `redact.go:110-134 RedactJob` -/
def redactJob (ms : List Matcher) (j : Job) : Job :=
  { j with
    inputs := redactVars ms j.inputs j.secrets
    webhooks := j.webhooks.map (redactWebhook ms j.secrets)
    context := { j.context with
      inputs := redactVars ms j.context.inputs j.secrets
      secrets := redactVars ms j.context.secrets j.secrets
      tasks := redactVars ms j.context.tasks j.secrets }
    tasks := redactTasks ms j.secrets j.tasks
    execution := redactTasks ms j.secrets j.execution
    secrets := j.secrets.map fun (k, _) => (k, marker) }

/-- `redact.go:51-58 RedactTask`: a failing job lookup leaves the task as it is. -/
def redactTaskOf (ms : List Matcher) (ds : DS) (t : Task) : Task :=
  match getJob t.jobID ds with
  | .ok (j, _) => redactTask ms j.secrets t
  | .error _ => t

/-- `redact.go:60-67 RedactTaskLogPart` -/
def redactLogPart (secrets : StrMap) (p : TaskLogPart) : TaskLogPart :=
  { p with contents := scrub secrets p.contents }

/-- `middleware/log/redact.go:17-40`: what the next handler gets, or the error. -/
def redactLog (ds : DS) (l : List TaskLogPart) : Except Err (List TaskLogPart) :=
  match l with
  | [] => .ok []
  | p :: ps =>
    match getTask p.taskID ds with
    | .error e => .error e
    | .ok (t, _) =>
      match getJob t.jobID ds with
      | .error e => .error e
      | .ok (j, _) => .ok ((p :: ps).map (redactLogPart j.secrets))

end Tork.Redaction
