import Verif.BrokerQueue
import Verif.Types
/-!
# Scheduled jobs: API requests, events and cron entries of one coordinator

Model of `/repo/internal/coordinator/api/api.go:567-590, 657-719` and
`/repo/internal/coordinator/handlers/schedule.go:61-163` as a transition system; one step is one access to shared
data. Events of topic `scheduled.job` reach the coordinator in publication order, each once (this is what C32 proves
of the in-memory broker); a failing datastore or broker call and an invalid cron expression (`NewJob` error) are not
modelled. Scheduled jobs and cron entries are numbers.
-/

namespace Tork.Cron
open Tork.Queues (upd)

/-- What a request that was let through still has to do. -/
inductive Req
  /-- `UpdateScheduledJob` to the other state; `seen` is the state that was read (`api.go:659-666, 681-688`) -/
  | flip (id : Nat) (seen : ScheduledJobState)
  /-- `DeleteScheduledJob` (`api.go:703-707`) -/
  | delete (id : Nat) (seen : ScheduledJobState)
  /-- `PublishEvent` (`api.go:587, 673, 695, 714`) -/
  | publish (id : Nat) (st : ScheduledJobState)

def Req.id : Req → Nat
  | .flip id _ => id
  | .delete id _ => id
  | .publish id _ => id

/-- the state a pause or resume request writes -/
def other : ScheduledJobState → ScheduledJobState
  | .active => .paused
  | .paused => .active

structure St where
  /-- the state column of `scheduled_jobs` -/
  db : Nat → Option ScheduledJobState
  /-- scheduled jobs ever created (ids are fresh UUIDs) -/
  used : Nat → Bool
  /-- requests in flight -/
  req : Nat → Option Req
  /-- events on their way to this coordinator -/
  chan : List (Nat × ScheduledJobState)
  /-- jobs of the gocron scheduler: entry and the scheduled job it fires -/
  entries : List (Nat × Nat)
  /-- `h.m` (`schedule.go:30`) -/
  m : Nat → Option Nat
  /-- the next entry -/
  next : Nat

def St.init : St :=
  { db := fun _ => none, used := fun _ => false, req := fun _ => none, chan := [], entries := [], m := fun _ => none, next := 0 }

/-- `schedule.go:103-158 handleActive`: `NewJob`, then `h.m[id] = cj` -/
def handleActive (s : St) (id : Nat) : St :=
  { s with entries := s.entries ++ [(s.next, id)], m := upd s.m id (some s.next), next := s.next + 1 }

/-- `schedule.go:160-177 handlePaused` -/
def handlePaused (s : St) (id : Nat) : St :=
  match s.m id with
  | none => s
  | some k => { s with entries := s.entries.filter (fun e => e.1 ≠ k), m := upd s.m id none }

/-- `schedule.go:92-101 handle` -/
def handle (s : St) : Nat × ScheduledJobState → St
  | (id, .active) => handleActive s id
  | (id, .paused) => handlePaused s id

/-- `schedule.go:78-86`: the entries of a coordinator starting up -/
def boot (s : St) (l : List Nat) : St :=
  l.foldl handleActive { s with entries := [], m := fun _ => none, chan := [] }

/-- `seq = true`: requests about the same scheduled job do not overlap, and a coordinator does not start in the middle
of a request. -/
inductive Step (seq : Bool) : St → St → Prop
  /-- `api.go:584 CreateScheduledJob` -/
  | create (s : St) (r id : Nat) : s.req r = none → s.used id = false →
      Step seq s { s with db := upd s.db id (some .active), used := upd s.used id true
                          req := upd s.req r (some (.publish id .active)) }
  /-- `api.go:659-666` and `681-688`: a pause request needs an active job, a resume request a paused one -/
  | askFlip (s : St) (r id : Nat) (st : ScheduledJobState) : s.req r = none → s.db id = some st →
      (seq = true → ∀ r' q, s.req r' = some q → q.id ≠ id) →
      Step seq s { s with req := upd s.req r (some (.flip id st)) }
  /-- `api.go:703-706` -/
  | askDelete (s : St) (r id : Nat) (st : ScheduledJobState) : s.req r = none → s.db id = some st →
      (seq = true → ∀ r' q, s.req r' = some q → q.id ≠ id) →
      Step seq s { s with req := upd s.req r (some (.delete id st)) }
  /-- `api.go:667-672, 689-694` -/
  | flip (s : St) (r id : Nat) (st : ScheduledJobState) : s.req r = some (.flip id st) → s.db id ≠ none →
      Step seq s { s with db := upd s.db id (some (other st)), req := upd s.req r (some (.publish id (other st))) }
  /-- the row is gone: the request fails -/
  | flipFails (s : St) (r id : Nat) (st : ScheduledJobState) : s.req r = some (.flip id st) → s.db id = none →
      Step seq s { s with req := upd s.req r none }
  /-- `api.go:707-718` -/
  | delete (s : St) (r id : Nat) (st : ScheduledJobState) : s.req r = some (.delete id st) →
      Step seq s { s with db := upd s.db id none
                          req := upd s.req r (if st = .active then some (.publish id .paused) else none) }
  | publish (s : St) (r id : Nat) (st : ScheduledJobState) : s.req r = some (.publish id st) →
      Step seq s { s with chan := s.chan ++ [(id, st)], req := upd s.req r none }
  /-- `coordinator.go:294-303` -/
  | deliver (s : St) (e : Nat × ScheduledJobState) (es : List (Nat × ScheduledJobState)) : s.chan = e :: es →
      Step seq s (handle { s with chan := es } e)
  | start (s : St) (l : List Nat) : l.Nodup → (∀ id, id ∈ l ↔ s.db id = some .active) →
      (seq = true → ∀ r, s.req r = none) → Step seq s (boot s l)

inductive Reach (seq : Bool) : St → Prop
  | init : Reach seq St.init
  | step {s s' : St} : Reach seq s → Step seq s s' → Reach seq s'

end Tork.Cron
