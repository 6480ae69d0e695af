import Verif.Rel
import Verif.NodeStore
/-!
# Metrics — model of `/repo/datastore/postgres/postgres.go:1250-1270`

`GetMetrics` makes four queries, one after the other and not in a transaction: each sees the tables at its own moment.
-/

namespace Tork.Metrics

/-- `stats.go:3-20`. -/
structure Metrics where
  jobsRunning : Nat
  tasksRunning : Nat
  nodesOnline : Nat
  cpuPercent : Rat

/-- `select count(*) from jobs where state = 'RUNNING'` (`postgres.go:1253`). -/
def jobsRunning (db : Rel) : Nat := (db.jobs.filter fun j => j.state = .running).length

/-- `select count(*) from tasks t join jobs j on t.job_id = j.id where t.state = 'RUNNING' and j.state = 'RUNNING'` (`:1257`): a row for each
pair that matches. -/
def tasksRunning (db : Rel) : Nat :=
  (db.tasks.flatMap fun t => (db.jobs.filter fun j => t.jobID = j.id && t.state = .running && j.state = .running).map fun j => (t, j)).length

/-- The nodes heard of in the last five minutes (`:1261, 1265`). -/
def online (now : Nat) (nodes : List Node) : List Node := nodes.filter fun n => n.lastHeartbeatAt + NodeStore.lastHeartbeatTimeout > now

/-- `coalesce(avg(cpu_percent),0)` (`:1265`). -/
def cpuPercent (now : Nat) (nodes : List Node) : Rat :=
  let l := online now nodes
  if l.length = 0 then 0 else (l.map (·.cpuPercent)).sum / (l.length : Rat)

/-- `GetMetrics`: the tables at the moments of the four queries. -/
def getMetrics (db1 db2 : Rel) (now3 : Nat) (nodes3 : List Node) (now4 : Nat) (nodes4 : List Node) : Metrics :=
  { jobsRunning := jobsRunning db1, tasksRunning := tasksRunning db2, nodesOnline := (online now3 nodes3).length,
    cpuPercent := cpuPercent now4 nodes4 }

end Tork.Metrics
