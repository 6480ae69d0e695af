/-!
# Health check — model of `/repo/health/health.go`
-/

namespace Tork.Health

/-- A registered indicator and the outcome of calling it (`none` = nil error). The Go map is an
association list; its order stands for the arbitrary iteration order. -/
abbrev Indicators := List (String × Option String)

inductive Status | up | down
  deriving DecidableEq, Repr

/-- `health.go:31-41 WithIndicator`; `none` = panic (empty or duplicate name).
`trim` is `strings.TrimSpace`. -/
def withIndicator (trim : String → String) (name : String) (ind : Option String) (m : Indicators) :
    Option Indicators :=
  if trim name = "" then none
  else if m.any (fun p => p.1 = trim name) then none
  else some (m ++ [(trim name, ind)])

/-- `health.go:49-64 Do`: returns DOWN at the first failing indicator. -/
def check : Indicators → Status
  | [] => .up
  | (_, some _) :: _ => .down
  | (_, none) :: m => check m

end Tork.Health
