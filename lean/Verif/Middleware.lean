/-!
# Middleware chains — model of `/repo/middleware/{task,job,node,log}/*.go`

The four Go packages contain the same code up to the type of the handled value. A handler is a
function of the current state `σ` (the handled object, the datastore, the log, …) returning an
optional error and the new state; this is what a Go handler with side effects is.
-/

namespace Tork.Middleware

/-- `HandlerFunc` (`task.go:28`, `job.go:24`, `node.go:9`, `log.go:13`). -/
abbrev HandlerFunc (σ : Type) := σ → Option String × σ

/-- `MiddlewareFunc` -/
abbrev MiddlewareFunc (σ : Type) := HandlerFunc σ → HandlerFunc σ

/-- `next` (`task.go:41-46`, `job.go:36-41`, `node.go:20-25`, `log.go:26-31`). -/
def next {σ : Type} (index : Nat) (mws : List (MiddlewareFunc σ)) (h : HandlerFunc σ) : HandlerFunc σ :=
  if hi : index < mws.length then mws[index] (next (index + 1) mws h) else h
termination_by mws.length - index

/-- `ApplyMiddleware` (`task.go:34-39`, `job.go:29-34`, `node.go:13-18`, `log.go:19-24`). -/
def applyMiddleware {σ : Type} (h : HandlerFunc σ) (mws : List (MiddlewareFunc σ)) : HandlerFunc σ :=
  fun s => next 0 mws h s

end Tork.Middleware
