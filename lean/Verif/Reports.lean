import Verif.Handlers

/-!
# Progress reports of a running task — model of `/repo/runtime/docker/tcontainer.go:432-460, 485-520`, `/repo/runtime/podman/podman.go:394-432`,
`/repo/runtime/shell/shell.go:211-238, 267-277`, `/repo/broker/rabbitmq.go:401-411`, `/repo/internal/coordinator/handlers/progress.go:28-38`

A running task writes its progress to a file; a goroutine of the runtime reads it every ten seconds and reports it. Unlike the rest of the
model, where progress is a rational number, this module has what Go's `float64` has besides: the infinities and the value that is not a number.
-/

namespace Tork.Reports

/-- A `float64`. (The two zeros are one: Go's comparisons do not tell them apart.) -/
inductive Value
  | num (q : Rat)
  | posInf
  | negInf
  | nan
  deriving DecidableEq

/-- Go's `a != b`: true for not-a-number, whatever the other. -/
def Value.differs : Value → Value → Bool
  | .nan, _ => true
  | _, .nan => true
  | a, b => a ≠ b

/-- Go's `v < q`. -/
def Value.below (v : Value) (q : Rat) : Bool :=
  match v with
  | .num r => r < q
  | .negInf => true
  | .posInf => false
  | .nan => false

/-- Go's `v > q`. -/
def Value.above (v : Value) (q : Rat) : Bool :=
  match v with
  | .num r => q < r
  | .negInf => false
  | .posInf => true
  | .nan => false

/-- The words `strconv.ParseFloat` knows, in any case: "inf" and "infinity" with or without a sign, "nan" without. -/
def special (s : String) : Option Value :=
  let w := s.toLower
  if w = "nan" then some .nan
  else if w = "inf" ∨ w = "+inf" ∨ w = "infinity" ∨ w = "+infinity" then some .posInf
  else if w = "-inf" ∨ w = "-infinity" then some .negInf
  else none

/-- `strconv.ParseFloat(s, 32)`; `digits`: what it makes of anything else (`none`: an error). -/
def parseFloat (digits : String → Option Rat) (s : String) : Option Value :=
  match special s with
  | some v => some v
  | none => (digits s).map .num

/-- Which runtime. -/
inductive Kind
  | docker
  | podman
  | shell
  deriving DecidableEq

/-- `readProgress` on the content of the file: `tcontainer.go:515-519`, `podman.go:423-431`, `shell.go:272-276`. (`none`: an error, which is
logged.) -/
def readProgress (k : Kind) (digits : String → Option Rat) (content : String) : Option Value :=
  match k with
  | .podman => if content = "" then some (.num 0) else parseFloat digits (trimSpace content)
  | .docker | .shell => if trimSpace content = "" then some (.num 0) else parseFloat digits (trimSpace content)

/-- One turn of the loop. -/
inductive Turn
  /-- the file could be read and this is its content; `sent`: publishing a report would succeed now -/
  | content (s : String) (sent : Bool)
  /-- reading failed: logged (`tcontainer.go:442`, `podman.go:401`, `shell.go:219`) -/
  | failed
  /-- there is no file, or (Docker) the context has been cancelled: the goroutine ends (`tcontainer.go:436-441`, `podman.go:398-400`,
  `shell.go:216-218`) -/
  | gone

/-- A report: its value, and whether it could be published. -/
structure Report where
  value : Value
  sent : Bool

/-- The loop: `tcontainer.go:432-460`, `podman.go:394-416`, `shell.go:213-237`; `progress` is the field of the task, which is assigned
before the report is published. The list ends where the context is cancelled (`<-ctx.Done()`). -/
def report (k : Kind) (digits : String → Option Rat) (progress : Value) : List Turn → List Report
  | [] => []
  | .gone :: _ => []
  | .failed :: l => report k digits progress l
  | .content s sent :: l =>
    match readProgress k digits s with
    | none => report k digits progress l
    | some v => if v.differs progress then ⟨v, sent⟩ :: report k digits v l else report k digits progress l

/-- The values that the turns read, up to the end of the goroutine. -/
def readings (k : Kind) (digits : String → Option Rat) : List Turn → List Value
  | [] => []
  | .gone :: _ => []
  | .failed :: l => readings k digits l
  | .content s _ :: l => (readProgress k digits s).toList ++ readings k digits l

/-- `json.Marshal` refuses numbers that are not finite (`rabbitmq.go:406-409`). -/
def Value.encodable : Value → Bool
  | .num _ => true
  | _ => false

/-- The reports that arrive; `rabbit`: the broker is RabbitMQ, otherwise the one in memory, which does not encode
(`/repo/broker/inmemory.go:315-317`). -/
def received (rabbit : Bool) (l : List Report) : List Value :=
  (l.filter fun r => r.sent && (!rabbit || r.value.encodable)).map (·.value)

/-- What the handler of progress reports stores for the task (`progress.go:30-38`). -/
def stored (v : Value) : Value := if v.below 0 then .num 0 else if v.above 100 then .num 100 else v

end Tork.Reports
