import Verif.ExecCancel
/-!
# Executing a coordinator handler through its wrapper
-/

namespace Tork
open Prog

theorem coord_pending (C : Cfg) (fuel : Nat) (t : Task) :
    coordinatorHandler C fuel (.task "pending" t) = some (wrapTask C (pendingHandler C) t) := by
  simp [coordinatorHandler, QUEUE_REDELIVERIES, QUEUE_PENDING]

theorem coord_completed (C : Cfg) (fuel : Nat) (t : Task) :
    coordinatorHandler C fuel (.task "completed" t) = some (wrapTask C (completedHandler C fuel) t) := by
  simp [coordinatorHandler, QUEUE_REDELIVERIES, QUEUE_PENDING, QUEUE_COMPLETED]

theorem coord_started (C : Cfg) (fuel : Nat) (t : Task) :
    coordinatorHandler C fuel (.task "started" t) = some (wrapTask C startedHandler t) := by
  simp [coordinatorHandler, QUEUE_REDELIVERIES, QUEUE_PENDING, QUEUE_COMPLETED, QUEUE_STARTED]

theorem coord_error (C : Cfg) (fuel : Nat) (t : Task) :
    coordinatorHandler C fuel (.task "error" t) = some (wrapTask C (errorHandlerT C) t) := by
  simp [coordinatorHandler, QUEUE_REDELIVERIES, QUEUE_PENDING, QUEUE_COMPLETED, QUEUE_STARTED, QUEUE_ERROR]

theorem coord_redeliveries (C : Cfg) (fuel : Nat) (t : Task) :
    coordinatorHandler C fuel (.task "redeliveries" t) = some (redeliveredHandler t) := by
  simp [coordinatorHandler, QUEUE_REDELIVERIES]

theorem coord_job (C : Cfg) (fuel : Nat) (j : Job) : coordinatorHandler C fuel (.job j) = some (wrapJob C j) := rfl

theorem wrapTask_ok {C : Cfg} {h : Task → Prog (Res × Task)} {t x : Task} {s s' : Sys}
    (hx : (h t).exec s = (some (none, x), s')) : (wrapTask C h t).exec s = (some none, s') := by
  unfold wrapTask
  simp only [bind_eq, pure_eq]
  rw [exec_bind, hx]; rfl

theorem wrapTask_err {C : Cfg} {h : Task → Prog (Res × Task)} {t x : Task} {e : Err} {s s' : Sys}
    (hx : (h t).exec s = (some (some e, x), s')) : (wrapTask C h t).exec s =
      (errorHandler C { x with failedAt := some s'.clock, state := .failed, error := e }).exec s'.ticked := by
  unfold wrapTask
  simp only [bind_eq, pure_eq]
  rw [exec_bind, hx]; rfl

theorem wrapJob_ok {C : Cfg} {j x : Job} {s s' : Sys}
    (hx : (jobHandler C j).exec s = (some (none, x), s')) : (wrapJob C j).exec s = (some none, s') := by
  unfold wrapJob
  simp only [bind_eq, pure_eq]
  rw [exec_bind, hx]; rfl

theorem wrapJob_err {C : Cfg} {j x : Job} {e : Err} {s s' : Sys}
    (hx : (jobHandler C j).exec s = (some (some e, x), s')) : (wrapJob C j).exec s =
      (failJob { x with failedAt := some s'.clock, state := .failed }).exec s'.ticked := by
  unfold wrapJob
  simp only [bind_eq, pure_eq]
  rw [exec_bind, hx]; rfl

end Tork
