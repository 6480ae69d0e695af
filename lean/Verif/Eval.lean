import Verif.Types
/-!
# Template evaluation — model of `/repo/internal/eval/eval.go`

The expression language itself (github.com/expr-lang/expr plus `randomInt`/`sequence`) is an
uninterpreted oracle `Oracle`; everything around it (the `{{ … }}` scanner and which fields of a
task are evaluated, in which order, with which partial effect on error) is modelled.
-/

namespace Tork

/-- Go `error`, by its message. -/
abbrev Err := String

/-- What `EvaluateExpr` returns (`any`), seen through the three observations the code makes of it:
its `%v` rendering (`eval.go:155`), whether it is a slice and its items
(`scheduler.go:201-211`), whether it is a `bool`. -/
structure Val where
  text : String
  items : Option (List String) := none
  bool : Option Bool := none
  deriving DecidableEq, Repr

/-- The evaluation environment: the job context maps (`job.go:244-251 AsMap`) plus the optional
`each` variable `name ↦ {index, value}` (`scheduler.go:224-232`). -/
structure Ctx where
  job : JobContext
  item : Option (String × Nat × String) := none
  deriving DecidableEq, Repr

/-- expr-lang: compile and run the expression text in the environment. The last argument is the
random seed (`funcs.go: randomInt`). Modelling simplification: one seed per `EvaluateTask` call. -/
abbrev Oracle := String → Ctx → Nat → Except Err Val

/-- RE2 `\s`: `[\t\n\f\r ]`. -/
def isWs (c : Char) : Bool :=
  c = '\t' || c = '\n' || c = Char.ofNat 12 || c = '\r' || c = ' '

/-- Matches `\s*}}` at the beginning, returning what follows (greedy `\s*`; `}` is not a space,
so no backtracking can help). -/
def closeTag (s : List Char) : Option (List Char) :=
  match s.dropWhile isWs with
  | '}' :: '}' :: r => some r
  | _ => none

/-- The lazy `.+?` after its first character: extend the group only while `\s*}}` does not
match; `.` does not match a newline. -/
def lazyTail : List Char → Option (List Char × List Char)
  | [] => none
  | c :: s =>
    match closeTag (c :: s) with
    | some r => some ([], r)
    | none => if c = '\n' then none else (lazyTail s).map fun (g, r) => (c :: g, r)

/-- `(.+?)\s*}}` : the group and what follows the tag. -/
def lazyGroup : List Char → Option (List Char × List Char)
  | [] => none
  | c :: s => if c = '\n' then none else (lazyTail s).map fun (g, r) => (c :: g, r)

/-- `\s*` greedy with backtracking in front of the group: try `w`, `w-1`, …, `0` spaces. -/
def tryWs (s : List Char) : Nat → Option (List Char × List Char)
  | 0 => lazyGroup s
  | w + 1 =>
    match lazyGroup (s.drop (w + 1)) with
    | some r => some r
    | none => tryWs s w

/-- `eval.go:13` `{{\s*(.+?)\s*}}` anchored at the start of `s`:
the captured group and the rest of the string. -/
def matchTag : List Char → Option (List Char × List Char)
  | '{' :: '{' :: s => tryWs s (s.takeWhile isWs).length
  | _ => none

/-- A template is a sequence of literal characters and expression tags. -/
inductive Tok
  | lit (c : Char)
  | expr (e : List Char)
  deriving DecidableEq, Repr

/-- `regexp.FindAllStringSubmatchIndex` (`eval.go:145`): leftmost non-overlapping matches.
`fuel` bounds the recursion; `tokens` supplies enough (`tokensFuel_stable` in `EvalLemmas`). -/
def tokensFuel : Nat → List Char → List Tok
  | 0, _ => []
  | _, [] => []
  | n + 1, c :: s =>
    match matchTag (c :: s) with
    | some (e, r) => .expr e :: tokensFuel n r
    | none => .lit c :: tokensFuel n s

def tokens (s : List Char) : List Tok := tokensFuel s.length s

def Tok.expr? : Tok → Option (List Char)
  | .expr e => some e
  | .lit _ => none

/-- `eval.go:168-173 sanitizeExpr`: the group of the leftmost match, if any. -/
def sanitizeExpr (s : List Char) : List Char :=
  match (tokens s).findSome? Tok.expr? with
  | some e => e
  | none => s

/-- `eval.go:175-193 EvaluateExpr` -/
def evaluateExpr (O : Oracle) (c : Ctx) (seed : Nat) (ex : String) : Except Err Val :=
  O (String.ofList (sanitizeExpr ex.toList)) c seed

/-- The loop of `eval.go:145-158`. -/
def evalToks (ee : String → Except Err Val) : List Tok → Except Err (List Char)
  | [] => .ok []
  | .lit c :: ts =>
    match evalToks ee ts with
    | .ok r => .ok (c :: r)
    | .error e => .error e
  | .expr x :: ts =>
    match ee (String.ofList x) with
    | .error e => .error e
    | .ok v =>
      match evalToks ee ts with
      | .ok r => .ok (v.text.toList ++ r)
      | .error e => .error e

/-- `eval.go:139-160 EvaluateTemplate` -/
def evaluateTemplate (O : Oracle) (c : Ctx) (seed : Nat) (ex : String) : Except Err String :=
  match evalToks (evaluateExpr O c seed) (tokens ex.toList) with
  | .ok r => .ok (String.ofList r)
  | .error e => .error e

/-! ## EvaluateTask

`EvaluateTask` mutates its argument field by field and stops at the first error, leaving the
fields evaluated so far in place; callers keep using the half-evaluated task
(`job.go:66-70`), so the model returns the task *and* the optional error. -/

/-- Evaluate the values of a map in iteration order, in place (`eval.go:41-49, 104-117,127-133`). -/
def evalMap (tm : String → Except Err String) : StrMap → StrMap × Option Err
  | [] => ([], none)
  | (k, v) :: m =>
    match tm v with
    | .error e => ((k, v) :: m, some e)
    | .ok r => let (m', e) := evalMap tm m; ((k, r) :: m', e)

/-- Evaluate a string slice in place (`eval.go:86-93`). -/
def evalList (tm : String → Except Err String) : List String → List String × Option Err
  | [] => ([], none)
  | v :: m =>
    match tm v with
    | .error e => (v :: m, some e)
    | .ok r => let (m', e) := evalList tm m; (r :: m', e)

/-- `eval.go:118-134` -/
def evalWebhooks (tm : String → Except Err String) : List Webhook → List Webhook × Option Err
  | [] => ([], none)
  | w :: ws =>
    match tm w.url with
    | .error e => (w :: ws, some e)
    | .ok u =>
      match evalMap tm w.headers with
      | (h, some e) => ({ w with url := u, headers := h } :: ws, some e)
      | (h, none) => let (ws', e) := evalWebhooks tm ws; ({ w with url := u, headers := h } :: ws', e)

/-- `eval.go:94-135`; the sub-job's own tasks are not evaluated here. -/
def evalSubJob (tm : String → Except Err String) (s : SubJobTask Task) :
    SubJobTask Task × Option Err :=
  match tm s.name with
  | .error e => (s, some e)
  | .ok name =>
    match evalMap tm s.inputs with
    | (inputs, some e) => ({ s with name, inputs }, some e)
    | (inputs, none) =>
      match evalMap tm s.secrets with
      | (secrets, some e) => ({ s with name, inputs, secrets }, some e)
      | (secrets, none) =>
        let (webhooks, e) := evalWebhooks tm s.webhooks
        ({ s with name, inputs, secrets, webhooks }, e)

/-- `eval.go:85-136`, the part of `EvaluateTask` after the nested tasks. -/
def evalTaskEnd (tm : String → Except Err String) (t : Task) : Task × Option Err :=
  match evalList tm t.cmd with
  | (cmd, some e) => ({ t with cmd }, some e)
  | (cmd, none) =>
    match t.subJob with
    | none => ({ t with cmd }, none)
    | some s => let (s', e) := evalSubJob tm s; ({ t with cmd, subJob := some s' }, e)

/-- `eval.go:16-55`, the part of `EvaluateTask` before the nested tasks. -/
def evalTaskStart (tm : String → Except Err String) (t : Task) : Task × Option Err :=
  match tm t.name with
  | .error e => (t, some e)
  | .ok name =>
    match tm t.var with
    | .error e => ({ t with name }, some e)
    | .ok var =>
      match tm t.image with
      | .error e => ({ t with name, var }, some e)
      | .ok image =>
        match tm t.queue with
        | .error e => ({ t with name, var, image }, some e)
        | .ok queue =>
          match evalMap tm t.env with
          | (env, some e) => ({ t with name, var, image, queue, env }, some e)
          | (env, none) =>
            match tm t.cond with
            | .error e => ({ t with name, var, image, queue, env }, some e)
            | .ok cond => ({ t with name, var, image, queue, env, cond }, none)

mutual
/-- `eval.go:15-137 EvaluateTask`, with `tm` = `EvaluateTemplate` in the given context. The nested
tasks are mutated in place too, hence kept (half-evaluated) on error. -/
def evaluateTask (tm : String → Except Err String) : Task → Task × Option Err
  | t@{ pre := pre, post := post, parallel := par, .. } =>
    match evalTaskStart tm t with
    | (t, some e) => (t, some e)
    | (t, none) =>
      match evalTasks tm pre with
      | (pre, some e) => ({ t with pre }, some e)
      | (pre, none) =>
        match evalTasks tm post with
        | (post, some e) => ({ t with pre, post }, some e)
        | (post, none) =>
          match evalPar tm par with
          | (parallel, some e) => ({ t with pre, post, parallel }, some e)
          | (parallel, none) => evalTaskEnd tm { t with pre, post, parallel }

/-- The loops `eval.go:57-63`, `66-72`, `76-82`. -/
def evalTasks (tm : String → Except Err String) : List Task → List Task × Option Err
  | [] => ([], none)
  | t :: ts =>
    match evaluateTask tm t with
    | (t, some e) => (t :: ts, some e)
    | (t, none) => let (ts, e) := evalTasks tm ts; (t :: ts, e)

/-- `eval.go:75-84` -/
def evalPar (tm : String → Except Err String) :
    Option (ParallelTask Task) → Option (ParallelTask Task) × Option Err
  | none => (none, none)
  | some { tasks := ts, completions := c } =>
    let (ts, e) := evalTasks tm ts; (some { tasks := ts, completions := c }, e)
end

end Tork
