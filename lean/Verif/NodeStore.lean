import Verif.Types
/-!
# Nodes and heartbeats — model of `/repo/internal/coordinator/handlers/heartbeat.go`, the node part of
`/repo/datastore/postgres/postgres.go:524-592` and `record.go:284-304`
-/

namespace Tork.NodeStore

/-- `/repo/node.go:13` `HEARTBEAT_RATE` (seconds). -/
def heartbeatRate : Nat := 30
/-- `/repo/node.go:12` `LAST_HEARTBEAT_TIMEOUT` (seconds). -/
def lastHeartbeatTimeout : Nat := 300

/-- `record.go:284-304 toNode` read at time `now`
(`LastHeartbeatAt.Before(now.Add(-2*rate))` is `last + 2*rate < now`). -/
def toNode (now : Nat) (r : Node) : Node :=
  if r.lastHeartbeatAt + 2 * heartbeatRate < now ∧ r.status = .up then { r with status := .offline }
  else r

/-- `postgres.go:564-573 GetNodeByID` -/
def getNodeByID (now id : Nat) (rows : List Node) : Option Node :=
  (rows.find? (·.id = id)).map (toNode now)

/-- `postgres.go:524-534 CreateNode`; the primary key makes a duplicate insertion fail. -/
def createNode (n : Node) (rows : List Node) : Option (List Node) :=
  if rows.any (·.id = n.id) then none else some (rows ++ [n])

/-- The columns written by `postgres.go:551-557`. -/
def persistNode (old u : Node) : Node :=
  { old with lastHeartbeatAt := u.lastHeartbeatAt, cpuPercent := u.cpuPercent, status := u.status
             taskCount := u.taskCount }

/-- `postgres.go:536-562 UpdateNode` -/
def updateNode (now id : Nat) (m : Node → Node) (rows : List Node) : Option (List Node) :=
  match rows.find? (·.id = id) with
  | none => none
  | some r => some (rows.map fun x => if x.id = id then persistNode x (m (toNode now r)) else x)

/-- The closure of `heartbeat.go:31-42`. -/
def heartbeatRow (n u : Node) : Node :=
  if u.lastHeartbeatAt > n.lastHeartbeatAt then u
  else { u with lastHeartbeatAt := n.lastHeartbeatAt, cpuPercent := n.cpuPercent
                status := n.status, taskCount := n.taskCount }

/-- `heartbeat.go:22-43` handled at time `now` (without concurrent handlers for the same node: with
two concurrent *first* heartbeats one insertion fails and that heartbeat is dropped). -/
def handle (now : Nat) (n : Node) (rows : List Node) : List Node :=
  match getNodeByID now n.id rows with
  | none => (createNode n rows).getD rows
  | some _ => (updateNode now n.id (heartbeatRow n) rows).getD rows

/-- `postgres.go:575-592 GetActiveNodes` (without the ordering by name). -/
def getActiveNodes (now : Nat) (rows : List Node) : List Node :=
  (rows.filter fun r => r.lastHeartbeatAt + lastHeartbeatTimeout > now).map (toNode now)

/-- A history of processed heartbeats, oldest first, each with its processing time. -/
def process (hs : List (Nat × Node)) : List Node :=
  hs.foldl (fun rows (now, n) => handle now n rows) []

end Tork.NodeStore
